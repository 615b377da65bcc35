import Verif.Props.FusedRelu
import Verif.Props.Keras
import Verif.Props.Dtype

/-!
# C57, C59: what the Keras quantizer calibrates on, and when it succeeds
-/

namespace Verif
open Spec Keras

/-- A dtype text naming a positive number of bits. -/
def Spec.IsType (s : String) : Prop := ∃ ty ∈ ["int", "uint", "float"], ∃ n : ℕ, 0 < n ∧ NamesType s ty n

/-- The dtype texts a kernel can be quantized to: signed types of at least two bits; `int1` only with an asymmetric
range; unsigned (and "float") types only with a symmetric range. -/
def Spec.KernelType (s : String) (symmetric : Bool) : Prop :=
  (∃ n : ℕ, 2 ≤ n ∧ NamesType s "int" n) ∨ (symmetric = false ∧ NamesType s "int" 1) ∨
  (symmetric = true ∧ ∃ ty ∈ ["uint", "float"], ∃ n : ℕ, 0 < n ∧ NamesType s ty n)

/-- The configuration of a dense layer is usable. -/
structure Spec.CfgOk (c : DenseCfg) : Prop where
  kernel : KernelType c.kernelDtype c.kernelSymmetric
  activation : IsType c.activationDtype
  biasAdd : IsType c.biasAddDtype
  bias : IsType c.biasDtype
  plain : c.adaround = false

/-- Layer shape: a kernel with `n` rows, at least one unit, one bias value per unit. -/
structure Spec.ShapeOk (l : KDense) (n : ℕ) : Prop where
  inputs : l.kernel.length = n
  pos : 0 < n
  units : 0 < l.units
  bias : ∀ b, l.bias = some b → b.length = l.units

/-- `x @ kernel + bias` for a batch, as Keras computes it before the activation. -/
def Spec.preActivations (l : KDense) (X : List (List ℚ)) : List (List ℚ) :=
  X.map (fun x => (List.range l.units).map (fun j =>
    (List.zipWith (· * ·) (l.kernel.map (fun r => r.getD j 0)) x).sum + (l.bias.getD (List.replicate l.units 0)).getD j 0))

/-- The data on which the layers after `l` are calibrated: activated for table and other activations, but *not*
activated for linear, softmax, relu and relu6. -/
def Spec.handedOn (l : KDense) (X : List (List ℚ)) : List (List ℚ) :=
  if upper l.actName ∈ ["LINEAR".toList, "SOFTMAX".toList, "RELU".toList, "RELU6".toList] then preActivations l X
  else (preActivations l X).map (fun r => r.map l.act)

/-- The range condition that `relu` and `relu6` layers put on their calibration pre-activations. -/
def Spec.RangeOk (l : KDense) (X : List (List ℚ)) : Prop :=
  (upper l.actName = "RELU".toList → ReluAlive (preActivations l X).flatten) ∧
  (upper l.actName = "RELU6".toList →
    ReluAlive (preActivations l X).flatten ∧ SpreadLe (preActivations l X).flatten 3072)

namespace Keras

theorem quantization_of_names {s ty : String} {n : ℕ} (hty : ty ∈ ["int", "uint", "float"]) (hn : 0 < n)
    (h : NamesType s ty n) : quantization s = some (dtypeOf ty n) := by
  unfold quantization; rw [ofString_of_names s ty n hty hn h]; rfl

theorem quantization_of_isType {s : String} (h : IsType s) : ∃ q, quantization s = some q ∧ q.min < q.max := by
  obtain ⟨ty, hty, n, hn, h⟩ := h
  refine ⟨_, quantization_of_names hty hn h, ?_⟩
  unfold dtypeOf
  have h1 : (0 : ℤ) < 2 ^ (n - 1) := by positivity
  have h2 : (1 : ℤ) < 2 ^ n := by exact_mod_cast Nat.one_lt_two_pow (by omega)
  split_ifs
  · show -(2 ^ (n - 1) : ℤ) < 2 ^ (n - 1) - 1
    omega
  · show (0 : ℤ) < 2 ^ n - 1
    omega

theorem preRow_eq {l : KDense} {n : ℕ} (h : ShapeOk l n) (x : List ℚ) :
    l.preRow x = (List.range l.units).map (fun j =>
      (List.zipWith (· * ·) (l.kernel.map (fun r => r.getD j 0)) x).sum +
        (l.bias.getD (List.replicate l.units 0)).getD j 0) := by
  have hb : l.biasV.length = l.units := by
    unfold KDense.biasV
    cases hb : l.bias with
    | none => simp
    | some b => simpa using h.bias b hb
  apply List.ext_getElem
  · simp [KDense.preRow, KDense.kernelT, hb]
  · intro i h1 h2
    simp only [List.length_map, List.length_range] at h2
    simp only [KDense.preRow, KDense.kernelT, List.getElem_zipWith, List.getElem_map, List.getElem_range,
      List.getD_eq_getElem?_getD]
    congr 1
    change _ = (l.biasV[i]?).getD 0
    rw [List.getElem?_eq_getElem (by omega)]; rfl

theorem pre_eq {l : KDense} {n : ℕ} (h : ShapeOk l n) (X : List (List ℚ)) (hX : ∀ x ∈ X, x.length = n) :
    l.pre (.mat X) = some (.mat (preActivations l X)) := by
  unfold KDense.pre preActivations
  show (if ∀ x ∈ X, x.length = l.kernel.length then _ else _) = _
  rw [if_pos (fun x hx => by rw [hX x hx, h.inputs])]
  congr 2
  apply List.map_congr_left
  intro x _
  exact preRow_eq h x

theorem preActivations_ne {l : KDense} {n : ℕ} (h : ShapeOk l n) (X : List (List ℚ)) (hX : X ≠ []) :
    (preActivations l X).flatten ≠ [] := by
  obtain ⟨x, t, rfl⟩ := List.exists_cons_of_ne_nil hX
  have := h.units
  unfold preActivations
  intro hc
  have := congrArg List.length hc
  simp at this
  omega

theorem handedOn_shape {l : KDense} {n : ℕ} (_h : ShapeOk l n) (X : List (List ℚ)) (hX : X ≠ []) :
    handedOn l X ≠ [] ∧ ∀ y ∈ handedOn l X, y.length = l.units := by
  have h1 : preActivations l X ≠ [] := by simpa [preActivations] using hX
  have h2 : ∀ y ∈ preActivations l X, y.length = l.units := by
    intro y hy
    obtain ⟨x, -, rfl⟩ := List.mem_map.mp hy
    simp
  unfold handedOn
  split_ifs
  · exact ⟨h1, h2⟩
  · refine ⟨by simpa using h1, ?_⟩
    intro y hy
    obtain ⟨x, hx, rfl⟩ := List.mem_map.mp hy
    rw [List.length_map]; exact h2 x hx

theorem kernelNode_total {l : KDense} {n : ℕ} (h : ShapeOk l n) (s : String) (sym : Bool) (hk : KernelType s sym) :
    ∃ q kn, quantization s = some q ∧ l.kernelNode q sym = some kn := by
  have hne : l.kernelT.flatten ≠ [] := by
    intro hc
    have := congrArg List.length hc
    simp only [KDense.kernelT, List.length_flatten, List.map_map, List.length_nil, List.sum_eq_zero_iff, List.mem_map,
      List.mem_range, Function.comp_apply, List.length_map, forall_exists_index, and_imp] at this
    have := this _ 0 h.units rfl
    have := h.pos; have := h.inputs; omega
  obtain ⟨m, M, hm, hM, hlt, -⟩ := Dist.min_lt_max l.kernelT.flatten hne 512 (by omega) true
  have hlt' : min m 0 < max M 0 := lt_of_le_of_lt (min_le_left _ _) (lt_of_lt_of_le hlt (le_max_left _ _))
  have key : ∀ q : GDtype, calLo q sym < q.max → (if sym then q.max else |calLo q sym|) ≠ 0 →
      ∃ kn, l.kernelNode q sym = some kn := by
    intro q h1 h2
    unfold KDense.kernelNode
    have := Dist.quantize_forced (Dist.build l.kernelT.flatten) q sym 0 m M hm hM hlt' h1 h2
    simp only [this, Option.bind_eq_bind, Option.bind_some, hm, hM]
    exact ⟨_, rfl⟩
  have hpow : ∀ k : ℕ, (0 : ℤ) < 2 ^ k := fun k => by positivity
  rcases hk with ⟨k, hk, hn⟩ | ⟨rfl, hn⟩ | ⟨rfl, ty, hty, k, hk, hn⟩
  · have hq := quantization_of_names (ty := "int") (by simp) (by omega) hn
    have h2 : (2 : ℤ) ≤ 2 ^ (k - 1) := by
      calc (2 : ℤ) = 2 ^ 1 := by norm_num
        _ ≤ 2 ^ (k - 1) := pow_le_pow_right₀ (by norm_num) (by omega)
    have hmin : (dtypeOf "int" k).min = -(2 ^ (k - 1)) := by simp [dtypeOf]
    have hmax : (dtypeOf "int" k).max = 2 ^ (k - 1) - 1 := by simp [dtypeOf]
    obtain ⟨kn, hkn⟩ := key (dtypeOf "int" k) (by cases sym <;> simp [calLo, hmin, hmax] <;> omega)
      (by cases sym <;> simp [calLo, hmin, hmax] <;> omega)
    exact ⟨_, kn, hq, hkn⟩
  · have hq := quantization_of_names (ty := "int") (by simp) (by omega) hn
    obtain ⟨kn, hkn⟩ := key (dtypeOf "int" 1) (by simp [calLo, dtypeOf]) (by simp [calLo, dtypeOf])
    exact ⟨_, kn, hq, hkn⟩
  · have hty' : ty ∈ ["int", "uint", "float"] := List.mem_cons_of_mem _ hty
    have hne : ty ≠ "int" := by
      simp only [List.mem_cons, List.not_mem_nil, or_false] at hty
      rcases hty with rfl | rfl <;> decide
    have hq := quantization_of_names hty' hk hn
    have h2 : (2 : ℤ) ≤ 2 ^ k := by
      calc (2 : ℤ) = 2 ^ 1 := by norm_num
        _ ≤ 2 ^ k := pow_le_pow_right₀ (by norm_num) (by omega)
    have hmax : (dtypeOf ty k).max = 2 ^ k - 1 := by simp [dtypeOf, hne]
    obtain ⟨kn, hkn⟩ := key (dtypeOf ty k) (by simp [calLo, hmax]; omega) (by simp [hmax]; omega)
    exact ⟨_, kn, hq, hkn⟩

theorem trim_total {l : KDense} (X : List (List ℚ)) (hne : (preActivations l X).flatten ≠ []) (hr : RangeOk l X)
    (q : GDtype) (hq : q.min < q.max) :
    ∃ d p, l.trim (Dist.build (preActivations l X).flatten) = some d ∧ d.quantize q = some p := by
  set a := (preActivations l X).flatten with ha
  have hos := Dist.outer_spec a hne
  have fin : ∀ d' m M, Dist.getMin d' = some m → Dist.getMax d' = some M → 0 < M → ∃ p, d'.quantize q = some p := by
    intro d' m M h1 h2 h3
    exact ⟨_, Dist.quantize_eq d' q false m M h1 h2
      (lt_of_le_of_lt (min_le_right _ _) (lt_of_lt_of_le h3 (le_max_left _ _))) hq⟩
  unfold KDense.trim
  by_cases h1 : upper l.actName = "RELU".toList
  · rw [if_pos h1]
    obtain ⟨d', m, M, e1, e2, e3, -, e5, -⟩ := Dist.relu_slice a hne 512 (by omega) _ rfl
      (Dist.alive_bin _ hne (hr.1 h1)) none (by simp)
    obtain ⟨p, hp⟩ := fin d' m M e2 e3 e5
    exact ⟨d', p, e1, hp⟩
  · rw [if_neg h1]
    by_cases h2 : upper l.actName = "RELU6".toList
    · rw [if_pos h2]
      obtain ⟨r1, r2⟩ := hr.2 h2
      have hw := Dist.spread_bin _ hne _ r2
      obtain ⟨d', m, M, e1, e2, e3, -, e5, -⟩ := Dist.relu_slice a hne 512 (by omega) _ rfl
        (Dist.alive_bin _ hne r1) (some 6) (by
          intro v hv; injection hv with hv; subst hv
          rw [div_le_iff₀ (by norm_num)]; push_cast; linarith)
      obtain ⟨p, hp⟩ := fin d' m M e2 e3 e5
      exact ⟨d', p, e1, hp⟩
    · rw [if_neg h2]
      obtain ⟨s, zp, h, -⟩ := C29_valid_parameters a hne 512 (by omega) true q false hq
      exact ⟨_, (s, zp), rfl, h⟩

theorem dense_total {c : DenseCfg} {l : KDense} {n : ℕ} (hc : CfgOk c) (h : ShapeOk l n) (w : World) (prev : QRes)
    (X : List (List ℚ)) (hX : X ≠ []) (hw : ∀ x ∈ X, x.length = n) (hd : prev.data = .mat X) (ho : prev.out.isSome)
    (hr : RangeOk l X) :
    ∃ w' r, l.quantize w c prev = some (w', r) ∧ r.data = .mat (handedOn l X) := by
  obtain ⟨qk, kn, hqk, hkn⟩ := kernelNode_total h _ _ hc.kernel
  obtain ⟨qa, hqa, hqa'⟩ := quantization_of_isType hc.activation
  obtain ⟨qba, hqba, hqba'⟩ := quantization_of_isType hc.biasAdd
  obtain ⟨qb, hqb, -⟩ := quantization_of_isType hc.bias
  obtain ⟨input, hin⟩ := Option.isSome_iff_exists.mp ho
  have hne := preActivations_ne h X hX
  obtain ⟨d, p, ht, hp⟩ := trim_total X hne hr qba hqba'
  have hpre := pre_eq h X hw
  rw [← hd] at hpre
  unfold KDense.quantize
  simp only [hqk, hqa, hqba, hqb, hin, hkn, hpre, Option.bind_eq_bind, Option.bind_some]
  have ht' : l.trim (Dist.build (Arr.mat (preActivations l X)).flat) = some d := ht
  simp only [ht', hp, hc.plain, Option.bind_some, Bool.false_eq_true, if_false]
  unfold quantizeActivation handedOn
  by_cases hs : upper l.actName ∈ skipFunctions
  · have hs' : upper l.actName ∈ ["LINEAR".toList, "SOFTMAX".toList, "RELU".toList, "RELU6".toList] := hs
    simp only [if_pos hs, if_pos hs', Option.bind_some]
    exact ⟨_, _, rfl, rfl⟩
  · have hs' : upper l.actName ∉ ["LINEAR".toList, "SOFTMAX".toList, "RELU".toList, "RELU6".toList] := hs
    have hne' : ((Arr.mat (preActivations l X)).map l.act).flat ≠ [] := by
      show (List.map (fun r => r.map l.act) (preActivations l X)).flatten ≠ []
      intro hc
      apply hne
      rw [← List.map_flatten] at hc
      exact List.map_eq_nil_iff.mp hc
    obtain ⟨s, zp, h, -⟩ := C29_valid_parameters _ hne' 512 (by omega) true qa false hqa'
    have h' : (Dist.build ((Arr.mat (preActivations l X)).map l.act).flat).quantize qa = some (s, zp) := h
    simp only [if_neg hs, if_neg hs', h', Option.bind_eq_bind, Option.bind_some]
    exact ⟨_, _, rfl, rfl⟩

end Keras

/-- A model of dense, dropout and input layers that fits its input data: shapes match from layer to layer, every dense
layer's configuration is usable, and every `relu`/`relu6` layer's calibration pre-activations are not (almost) all
negative. -/
def Spec.Quantizable (cfg : Cfg) : ℕ → List (List ℚ) → List KLayer → Prop
  | _, _, [] => True
  | n, X, .dense l :: ls =>
    (∃ c, cfg.denseFor l.name = some c ∧ CfgOk c) ∧ ShapeOk l n ∧ RangeOk l X ∧ Quantizable cfg l.units (handedOn l X) ls
  | n, X, .dropout :: ls => Quantizable cfg n X ls
  | n, X, .input :: ls => Quantizable cfg n X ls
  | _, _, .lstm _ :: _ => False
  | _, _, .other :: _ => False

namespace Keras

theorem layers_total (ext : Ext) (cfg : Cfg) (ls : List KLayer) : ∀ (n : ℕ) (X : List (List ℚ)) (w : World) (prev : QRes),
    Quantizable cfg n X ls → X ≠ [] → (∀ x ∈ X, x.length = n) → prev.data = .mat X → Ends prev →
    ∃ w' last rs, quantizeLayers ext cfg w prev ls = some (w', last, rs) ∧ Ends last := by
  induction ls with
  | nil => intro n X w prev _ _ _ _ he; exact ⟨_, _, _, rfl, he⟩
  | cons l ls ih =>
    intro n X w prev hq hX hw hd he
    cases l with
    | dense l =>
      obtain ⟨⟨c, hc, hcok⟩, hsh, hr, hq⟩ := hq
      have ho : prev.out.isSome := by obtain ⟨r, hr, -⟩ := he; rw [hr]; rfl
      obtain ⟨w1, r, h1, h2⟩ := dense_total hcok hsh w prev X hX hw hd ho hr
      have hstep : layerStep ext cfg w prev (.dense l) = some (w1, some r) := by
        simp [layerStep, hc, h1]
      obtain ⟨s1, s2⟩ := handedOn_shape hsh X hX
      have hends : Ends r := (layer_chain hstep).2.2
      obtain ⟨w', last, rs, h3, h4⟩ := ih l.units _ w1 r hq s1 s2 h2 hends
      refine ⟨w', last, r :: rs, ?_, h4⟩
      simp [quantizeLayers, hstep, h3]
    | lstm l => exact absurd hq id
    | dropout =>
      obtain ⟨w', last, rs, h3, h4⟩ := ih n X w prev hq hX hw hd he
      exact ⟨w', last, rs, by simp [quantizeLayers, layerStep, h3], h4⟩
    | input =>
      obtain ⟨w', last, rs, h3, h4⟩ := ih n X w prev hq hX hw hd he
      exact ⟨w', last, rs, by simp [quantizeLayers, layerStep, h3], h4⟩
    | other => exact absurd hq id

end Keras

/-- C59.  Quantizing any model of dense, dropout and input layers that fits a non-empty calibration batch succeeds. -/
theorem C59_quantization_succeeds (ext : Ext) (cfg : Cfg) (X : List (List ℚ)) (n : ℕ) (hn : 0 < n) (hX : X ≠ [])
    (hw : ∀ x ∈ X, x.length = n) (hin : IsType cfg.quantizeDtype) (layers : List KLayer)
    (h : Quantizable cfg n X layers) : ∃ w rs, quantizeModel ext cfg (.mat X) layers = some (w, rs) := by
  obtain ⟨q, hq, hq'⟩ := quantization_of_isType hin
  have hne : (Arr.mat X).flat ≠ [] := by
    obtain ⟨x, t, rfl⟩ := List.exists_cons_of_ne_nil hX
    have hx := hw x (by simp)
    intro hc
    have h0 : x = [] := by
      simp only [Arr.flat, List.flatten_cons, List.append_eq_nil_iff] at hc
      exact hc.1
    rw [h0] at hx
    simp at hx
    omega
  obtain ⟨s, zp, hc, -⟩ := C29_valid_parameters _ hne 512 (by omega) true q false hq'
  have hc' : (Dist.build (Arr.mat X).flat).quantize q = some (s, zp) := hc
  unfold quantizeModel inputQuantize
  simp only [hq, hc', Option.bind_eq_bind, Option.bind_some]
  obtain ⟨w', last, rs, h1, r, h2, z, h3, h4⟩ := layers_total ext cfg layers n X
    ((World.empty (Node.base 0 0 (intDtype 7))).alloc ((Node.base s zp q).withTensor (Arr.mat X).toFArr)) 
    (prev := { data := .mat X, out := some ⟨_, true⟩, ops := [{ opType := "QUANTIZE", name := "QUANTIZE", inputs := [], outputs := [⟨_, true⟩] }] })
    h hX hw rfl ⟨_, rfl, _, rfl, rfl⟩
  rw [h1]
  simp only [Option.bind_some, dequantize, h3, Option.bind_eq_bind, h4, List.getLast?_singleton]
  exact ⟨_, _, rfl⟩

/-- C59 (kernel dtypes).  The remaining dtypes give no finite kernel scale: unsigned types with the default asymmetric
range, and `int1` with a symmetric one. -/
theorem C59_kernel_dtype_fails (w : World) (c : DenseCfg) (l : KDense) (prev : QRes)
    (h : (c.kernelSymmetric = false ∧ ∃ ty ∈ ["uint", "float"], ∃ n : ℕ, 0 < n ∧ NamesType c.kernelDtype ty n) ∨
      (c.kernelSymmetric = true ∧ NamesType c.kernelDtype "int" 1)) : l.quantize w c prev = none := by
  rw [Option.eq_none_iff_forall_not_mem]
  rintro ⟨w', r⟩ hr
  obtain ⟨qk, qa, qba, qb, input, kn, pre, d, p, h1, -, -, -, -, h2, -⟩ := l.quantize_spec hr
  unfold KDense.kernelNode at h2
  simp only [Option.bind_eq_bind, Option.bind_eq_some_iff] at h2
  obtain ⟨p, hp, -⟩ := h2
  rcases h with ⟨hs, ty, hty, n, hn, hnm⟩ | ⟨hs, hnm⟩
  · have hty' : ty ∈ ["int", "uint", "float"] := List.mem_cons_of_mem _ hty
    have hne : ty ≠ "int" := by
      simp only [List.mem_cons, List.not_mem_nil, or_false] at hty
      rcases hty with rfl | rfl <;> decide
    rw [quantization_of_names hty' hn hnm] at h1
    injection h1 with h1
    subst h1
    rw [hs] at hp
    unfold Dist.quantize at hp
    simp only [Option.bind_eq_bind, Option.bind_eq_some_iff, Bool.false_eq_true, if_false] at hp
    obtain ⟨m, -, M, -, hp⟩ := hp
    rw [show (dtypeOf ty n).min = 0 by simp [dtypeOf, hne], abs_zero] at hp
    split_ifs at hp <;> first | contradiction | (simp at hp; done) | (exact absurd rfl ‹_›)
  · rw [quantization_of_names (by simp) (by omega) hnm] at h1
    injection h1 with h1
    subst h1
    rw [hs] at hp
    unfold Dist.quantize at hp
    simp only [Option.bind_eq_bind, Option.bind_eq_some_iff, if_true] at hp
    obtain ⟨m, -, M, -, hp⟩ := hp
    rw [show (dtypeOf "int" 1).max = 0 by simp [dtypeOf]] at hp
    simp at hp

/-- C57.  What the layers after a dense layer are calibrated on: the layer's activated output for activations that get
an operator of their own, but the *un-activated* output `x @ kernel + bias` for linear, softmax, relu and relu6. -/
theorem C57_handed_on (w w' : World) (c : DenseCfg) (l : KDense) (prev r : QRes) (n : ℕ) (hsh : ShapeOk l n)
    (X : List (List ℚ)) (hw : ∀ x ∈ X, x.length = n) (hd : prev.data = .mat X)
    (h : l.quantize w c prev = some (w', r)) :
    r.data = .mat (if upper l.actName ∈ ["LINEAR".toList, "SOFTMAX".toList, "RELU".toList, "RELU6".toList]
      then preActivations l X else (preActivations l X).map (fun y => y.map l.act)) := by
  obtain ⟨qk, qa, qba, qb, input, kn, pre, d, p, -, -, -, -, -, -, hpre, -, -, -, hr⟩ := l.quantize_spec h
  rw [hd, pre_eq hsh X hw] at hpre
  injection hpre with hpre
  subst hpre
  rcases hr with ⟨hs, -, rfl⟩ | ⟨hs, o, -, -, rfl⟩
  · rw [if_pos (show _ ∈ [_, _, _, _] from hs)]
  · rw [if_neg (show _ ∉ [_, _, _, _] from hs)]; rfl

/-- C57 (consequence).  A `relu` layer hands negative values on to the calibration of the following layers whenever some
pre-activation is negative, although a rectified tensor contains none. -/
theorem C57_relu_unrectified (w w' : World) (c : DenseCfg) (l : KDense) (prev r : QRes) (n : ℕ) (hsh : ShapeOk l n)
    (X : List (List ℚ)) (hw : ∀ x ∈ X, x.length = n) (hd : prev.data = .mat X)
    (h : l.quantize w c prev = some (w', r)) (hact : upper l.actName = "RELU".toList) (v : ℚ)
    (hv : v ∈ (preActivations l X).flatten) (hneg : v < 0) :
    v ∈ r.data.flat ∧ ∀ u ∈ ((preActivations l X).map (fun y => y.map (fun x => max x 0))).flatten, u ≠ v := by
  have := C57_handed_on w w' c l prev r n hsh X hw hd h
  rw [if_pos (by rw [hact]; decide)] at this
  refine ⟨by rw [this]; exact hv, ?_⟩
  rw [← List.map_flatten]
  intro u hu hc
  obtain ⟨x, -, rfl⟩ := List.mem_map.mp hu
  have := le_max_right x 0
  linarith

/-! ### Concrete cases -/

namespace C59Case

/-- Two inputs, a tanh layer with two units, dropout, a linear layer with one unit. -/
def layers : List KLayer :=
  [.dense { name := "a", units := 2, kernel := [[1, 2], [-1, 1 / 2]], bias := none, actName := "tanh", act := fun x => x / 2 },
   .dropout,
   .dense { name := "b", units := 1, kernel := [[1], [3]], bias := some [1 / 4], actName := "linear", act := id }]

/-- Calibration data. -/
def X : List (List ℚ) := [[1, 2], [-1, 3]]

theorem isType_int8 : IsType "int8" := ⟨"int", by simp, 8, by norm_num, by unfold NamesType; decide +kernel⟩

theorem cfgOk : CfgOk {} :=
  ⟨Or.inl ⟨8, by norm_num, by unfold NamesType; decide +kernel⟩, isType_int8, isType_int8, ⟨"int", by simp, 32, by norm_num, by unfold NamesType; decide +kernel⟩, rfl⟩

/-- The hypotheses of C59 hold for this model. -/
theorem quantizable : Quantizable {} 2 X layers := by
  refine ⟨⟨{}, rfl, cfgOk⟩, ⟨rfl, by norm_num, by norm_num, by simp⟩, ⟨?_, ?_⟩, ⟨{}, rfl, cfgOk⟩,
    ⟨rfl, by norm_num, by norm_num, by simp⟩, ⟨?_, ?_⟩, trivial⟩ <;> intro h <;> exact absurd h (by decide)

/-- Hence quantization succeeds (so the hypotheses of C45 and C57 are met, too). -/
theorem succeeds (ext : Ext) : ∃ w rs, quantizeModel ext {} (.mat X) layers = some (w, rs) :=
  C59_quantization_succeeds ext {} X 2 (by norm_num) (by simp [X]) (by simp [X]) isType_int8 layers quantizable

/-- A relu layer fits, too, if some pre-activation is clearly positive. -/
example : Quantizable {} 1 [[-100], [1]] [.dense (C60Case.layer "relu")] := by
  refine ⟨⟨{}, rfl, cfgOk⟩, ⟨rfl, by norm_num, by norm_num [C60Case.layer], by simp [C60Case.layer]⟩, ⟨?_, ?_⟩, trivial⟩
  · intro _
    rw [show (preActivations (C60Case.layer "relu") [[-100], [1]]).flatten = [-100, 1] by decide +kernel]
    exact ⟨1, by simp, by simp; norm_num⟩
  · intro h; exact absurd h (by decide)

/-- C59 (kernel dtypes): `uint8` kernels fail with the default configuration. -/
example (w : World) (l : KDense) (prev : QRes) : l.quantize w { kernelDtype := "uint8" } prev = none :=
  C59_kernel_dtype_fails w _ l prev (Or.inl ⟨rfl, "uint", by simp, 8, by norm_num, by unfold NamesType; decide +kernel⟩)

end C59Case

end Verif
