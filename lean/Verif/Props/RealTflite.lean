import Verif.Props.TfliteFloat
import Verif.Lemmas.RealFiles

/-!
# C108: converted TFLite networks against the real sigmoid and tanh
-/

namespace Verif
open Spec Tflite2Json

namespace Spec

noncomputable section

/-- The function a fused activation stands for. -/
def realFused : Tflite2Json.Fused → ℝ → ℝ
  | .none => id
  | .relu => fun y => max 0 y
  | .relu6 => fun y => min 6 (max 0 y)

/-- What the operators of a fully quantized TFLite model stand for: TANH the hyperbolic tangent, LOGISTIC `1 / (1 + exp (-x))`,
computed by the converter with an accuracy of `δ`; dense and ReLU operators as in C100. -/
inductive TfliteReal (en : Enums) (ip : Interp) (m : TModel) (δ : ℚ) : TOp → ℕ → ℕ → RealOp → Prop
  | dense {op : TOp} {i w b o : ℕ} {sx sw so : ℚ} {zx zw zo : ℤ} {W : List (List ℤ)} {B : List ℤ}
      (hop : IsOp en m op "FULLY_CONNECTED") (hin : op.inputs = [i, w, b]) (hout : op.outputs = [o])
      (hx : Int8Tensor en m i sx zx) (hw : Int8Tensor en m w sw zw) (ho : Int8Tensor en m o so zo)
      (hW : Constant ip m w (.mat W)) (hB : Constant ip m b (.vec B)) :
      TfliteReal en ip m δ op i o (.dense sx zx sw zw W B so zo (realFused op.fused))
  | tanh {op : TOp} {i o : ℕ} {sx so : ℚ} {zx zo : ℤ} (hop : IsOp en m op "TANH") (hin : op.inputs = [i])
      (hout : op.outputs = [o]) (hx : Int8Tensor en m i sx zx) (ho : Int8Tensor en m o so zo) :
      TfliteReal en ip m δ op i o (.act Real.tanh 1 (so * (1 / 2 + 1 / 2 ^ 40) + (sx / 2 ^ 40 + δ)) sx zx so zo)
  | logistic {op : TOp} {i o : ℕ} {sx so : ℚ} {zx zo : ℤ} (hop : IsOp en m op "LOGISTIC") (hin : op.inputs = [i])
      (hout : op.outputs = [o]) (hx : Int8Tensor en m i sx zx) (ho : Int8Tensor en m o so zo) :
      TfliteReal en ip m δ op i o
        (.act Real.sigmoid (1 / 4) (so * (1 / 2 + 1 / 2 ^ 40) + (1 / 4 * (sx / 2 ^ 40) + δ)) sx zx so zo)
  | relu {op : TOp} {i o : ℕ} {sx so : ℚ} {z : ℤ} (hop : IsOp en m op "RELU") (hin : op.inputs = [i]) (hout : op.outputs = [o])
      (hx : Int8Tensor en m i sx z) (ho : Int8Tensor en m o so z) (hle : sx ≤ so) (hge : so ≤ 2 ^ 100 * sx) :
      TfliteReal en ip m δ op i o (.act (fun v => max 0 v) 1 (so * (1 + 1 / 2 ^ 40)) sx z so z)

/-- Operators in sequence. -/
inductive TfliteRealChain (en : Enums) (ip : Interp) (m : TModel) (δ : ℚ) : List TOp → ℕ → ℕ → List RealOp → Prop
  | nil (i : ℕ) : TfliteRealChain en ip m δ [] i i []
  | cons {op : TOp} {ops : List TOp} {i k o : ℕ} {r : RealOp} {rs : List RealOp} (h : TfliteReal en ip m δ op i k r)
      (t : TfliteRealChain en ip m δ ops k o rs) : TfliteRealChain en ip m δ (op :: ops) i o (r :: rs)

/-- A fully quantized TFLite model: quantize, operators in sequence, dequantize. -/
structure TfliteRealNet (en : Enums) (ip : Interp) (m : TModel) (δ s : ℚ) (z : ℤ) (rs : List RealOp) : Prop where
  input : m.inputs ≠ []
  output : m.outputs ≠ []
  ops : ∃ q ops d i o, m.operators = q :: ops ++ [d] ∧ IsOp en m q "QUANTIZE" ∧ q.outputs = [i] ∧ Int8Tensor en m i s z ∧
    TfliteRealChain en ip m δ ops i o rs ∧ IsOp en m d "DEQUANTIZE" ∧ d.inputs = [o]

end

end Spec

namespace RealTflite

open RealOnnx RealFiles

theorem cast_max0 (a : ℚ) : ((max 0 a : ℚ) : ℝ) = max 0 (a : ℝ) := by rw [Rat.cast_max, Rat.cast_zero]

theorem fused_eq (k : Tflite2Json.Fused) (a : ℚ) : ((fusedFn k a : ℚ) : ℝ) = realFused k a := by
  cases k with
  | none => rfl
  | relu => exact cast_max0 a
  | relu6 =>
    show ((min 6 (max 0 a) : ℚ) : ℝ) = min 6 (max 0 (a : ℝ))
    rw [Rat.cast_min, cast_max0]; norm_num

theorem max0_lip (a b : ℝ) : |max 0 a - max 0 b| ≤ |a - b| :=
  (abs_max_sub_max_le_max 0 a 0 b).trans (max_le (by simp) (le_refl _))

theorem fused_lip (k : Tflite2Json.Fused) (a b : ℝ) : |realFused k a - realFused k b| ≤ |a - b| := by
  cases k with
  | none => exact le_refl _
  | relu => exact max0_lip a b
  | relu6 => exact (abs_min_sub_min_le_max 6 _ 6 _).trans (max_le (by simp) (max0_lip a b))

variable {en : Enums} {ip : Interp} {m : TModel} {δ : ℚ}

theorem lip_of_means {op : TOp} {i o : ℕ} {r : RealOp} (h : TfliteReal en ip m δ op i o r) : Lip r := by
  cases h with
  | dense => exact fun a b => fused_lip op.fused a b
  | tanh => exact ⟨by norm_num, fun a b => by have := RealFn.tanh_lip a b; push_cast; linarith⟩
  | logistic => exact ⟨by norm_num, fun a b => by have := RealFn.sigmoid_lip a b; push_cast; exact this⟩
  | relu => exact ⟨by norm_num, fun a b => by have := max0_lip a b; push_cast; linarith⟩

theorem chain_lip {ops : List TOp} {i o : ℕ} {rs : List RealOp} (h : TfliteRealChain en ip m δ ops i o rs) :
    ∀ r ∈ rs, Lip r := by
  induction h with
  | nil => intro r hr; cases hr
  | cons h _ ih =>
    intro r hr
    rcases List.mem_cons.mp hr with rfl | hr
    · exact lip_of_means h
    · exact ih r hr

/-- A model in the sense of this file is, for functions close to the real ones, a model in the sense of C100. -/
theorem means_close {η : ℚ} (hη : 0 ≤ η) {ideal : Ext} (hi : Accurate η ideal)
    (hs : ∀ a b, |ideal.sigmoid a - ideal.sigmoid b| ≤ 1 / 4 * |a - b|) (ht : ∀ a b, |ideal.tanh a - ideal.tanh b| ≤ 1 * |a - b|)
    {op : TOp} {i o : ℕ} {r : RealOp} (h : TfliteReal en ip m δ op i o r) :
    ∃ f, TfliteMeans en ip m ideal (1 / 4) 1 (δ + η) op i o f ∧ OpClose η f r := by
  have hη' : (0 : ℝ) ≤ η := by exact_mod_cast hη
  cases h with
  | dense hop hin hout hx hw ho hW hB =>
    exact ⟨_, .dense hop hin hout hx hw ho hW hB, .dense _ _ _ _ _ _ _ _ _ _ (fun a => by rw [fused_eq, sub_self, abs_zero]; exact hη')⟩
  | tanh hop hin hout hx ho =>
    rename_i sx so zx zo
    refine ⟨_, .tanh hop hin hout hx ho, .act _ _ _ _ _ _ _ _ _ (fun a => (hi a).2) ?_ ht⟩
    rw [show so * (1 / 2 + 1 / 2 ^ 40) + (1 * (sx / 2 ^ 40) + (δ + η)) - (so * (1 / 2 + 1 / 2 ^ 40) + (sx / 2 ^ 40 + δ)) = η by ring,
      abs_of_nonneg hη]
  | logistic hop hin hout hx ho =>
    rename_i sx so zx zo
    refine ⟨_, .logistic hop hin hout hx ho, .act _ _ _ _ _ _ _ _ _ (fun a => (hi a).1) ?_ hs⟩
    rw [show so * (1 / 2 + 1 / 2 ^ 40) + (1 / 4 * (sx / 2 ^ 40) + (δ + η)) -
      (so * (1 / 2 + 1 / 2 ^ 40) + (1 / 4 * (sx / 2 ^ 40) + δ)) = η by ring, abs_of_nonneg hη]
  | relu hop hin hout hx ho hle hge =>
    refine ⟨_, .relu hop hin hout hx ho hle hge, .act _ _ _ _ _ _ _ _ _ (fun a => ?_) (by rw [sub_self, abs_zero]; exact hη) ?_⟩
    · rw [cast_max0, sub_self, abs_zero]; exact hη'
    · intro a b
      rw [one_mul]
      exact (abs_max_sub_max_le_max 0 a 0 b).trans (max_le (by simp) (le_refl _))

theorem chain_close {η : ℚ} (hη : 0 ≤ η) {ideal : Ext} (hi : Accurate η ideal)
    (hs : ∀ a b, |ideal.sigmoid a - ideal.sigmoid b| ≤ 1 / 4 * |a - b|) (ht : ∀ a b, |ideal.tanh a - ideal.tanh b| ≤ 1 * |a - b|)
    {ops : List TOp} {i o : ℕ} {rs : List RealOp} (h : TfliteRealChain en ip m δ ops i o rs) :
    ∃ fs, TfliteChain en ip m ideal (1 / 4) 1 (δ + η) ops i o fs ∧ List.Forall₂ (OpClose η) fs rs := by
  induction h with
  | nil i => exact ⟨[], .nil i, .nil⟩
  | cons h _ ih =>
    obtain ⟨f, f1, f2⟩ := means_close hη hi hs ht h
    obtain ⟨fs, g1, g2⟩ := ih
    exact ⟨f :: fs, .cons f1 g1, .cons f2 g2⟩

end RealTflite

open RealOnnx RealFiles RealTflite in
/-- **C108**: converted TFLite networks in float64 against the model with the sigmoid and tanh of real analysis. -/
theorem C108_tflite (ext cext : Ext) (δ : ℚ) (hce : Accurate δ cext)
    (en : Enums) (ip : Interp) (m : TModel) (hi : Interprets ip m) (s : ℚ) (z : ℤ) (rs : List RealOp)
    (hm : TfliteRealNet en ip m δ s z rs) (n : ℕ) (hfit : realFits (s, z) rs n) (net : NetJ)
    (h : convert cext en ip m Fmt.f64.int8Table = some net) :
    ∃ N, Fmt.f64.load net = some N ∧
      (∀ x : List ℚ, x.length = n → ∃ y rec, Fmt.f64.infer ext N (.flt (.vec x)) = some (.flt (.vec y), rec) ∧
        WithinReal y (realFile rs (x.map (↑)))
          (realOutputBound (realFile rs (x.map (↑))) (realBound rs (x.map (↑)) ((inputBound s z x).map (↑))))) ∧
      ∀ X : List (List ℚ), X ≠ [] → (∀ x ∈ X, x.length = n) →
        ∃ Y rec, Fmt.f64.infer ext N (.flt (.mat X)) = some (.flt (.mat Y), rec) ∧
          List.Forall₂ (fun (y x : List ℚ) => WithinReal y (realFile rs (x.map (↑)))
            (realOutputBound (realFile rs (x.map (↑))) (realBound rs (x.map (↑)) ((inputBound s z x).map (↑))))) Y X := by
  obtain ⟨hin, hout, q, ops, d, i, o, h1, h2, h3, h4, hc, h6, h7⟩ := hm
  have hl := chain_lip hc
  have main : ∀ η : ℚ, 0 < η → ∃ fs, List.Forall₂ (OpClose η) fs rs ∧ ∃ N, Fmt.f64.load net = some N ∧
      (∀ x : List ℚ, x.length = n → ∃ y rec, Fmt.f64.infer ext N (.flt (.vec x)) = some (.flt (.vec y), rec) ∧
        Within y (fileExact fs x) (outputBound (fileExact fs x) (fileBound fs x (inputBound s z x)))) ∧
      ∀ X : List (List ℚ), X ≠ [] → (∀ x ∈ X, x.length = n) →
        ∃ Y rec, Fmt.f64.infer ext N (.flt (.mat X)) = some (.flt (.mat Y), rec) ∧
          List.Forall₂ (fun y x =>
            Within y (fileExact fs x) (outputBound (fileExact fs x) (fileBound fs x (inputBound s z x)))) Y X := by
    intro η hη
    obtain ⟨ideal, i1, i2, i3⟩ := exists_ideal η hη
    obtain ⟨fs, c1, c2⟩ := chain_close hη.le i1 i2 i3 hc
    exact ⟨fs, c2, C100_accuracy ext cext ideal (1 / 4) 1 (δ + η) (by norm_num) (by norm_num) i2 i3 (approximates hce i1) en ip m
      hi s z fs ⟨hin, hout, q, ops, d, i, o, h1, h2, h3, h4, c1, h6, h7⟩ n (fits_of_close c2 hl _ _ hfit) net h⟩
  obtain ⟨f1, -, N, hN, hv, hb⟩ := main 1 one_pos
  have main' : ∀ η : ℚ, 0 < η → ∃ fs, List.Forall₂ (OpClose η) fs rs ∧
      (∀ x : List ℚ, x.length = n → ∃ y rec, Fmt.f64.infer ext N (.flt (.vec x)) = some (.flt (.vec y), rec) ∧
        Within y (fileExact fs x) (outputBound (fileExact fs x) (fileBound fs x (inputBound s z x)))) ∧
      ∀ X : List (List ℚ), X ≠ [] → (∀ x ∈ X, x.length = n) →
        ∃ Y rec, Fmt.f64.infer ext N (.flt (.mat X)) = some (.flt (.mat Y), rec) ∧
          List.Forall₂ (fun y x =>
            Within y (fileExact fs x) (outputBound (fileExact fs x) (fileBound fs x (inputBound s z x)))) Y X := by
    intro η hη
    obtain ⟨fs, c, N', hN', h8⟩ := main η hη
    rw [hN, Option.some.injEq] at hN'
    subst hN'
    exact ⟨fs, c, h8⟩
  refine ⟨N, hN, fun x hx => ?_, fun X hX hX' => ?_⟩
  · obtain ⟨y, rec, hy, -⟩ := hv x hx
    refine ⟨y, rec, hy, file_limit rs hl s z x y (fun η hη => ?_)⟩
    obtain ⟨fs, c, hv', -⟩ := main' η hη
    obtain ⟨y', rec', hy', hw⟩ := hv' x hx
    rw [hy] at hy'
    simp only [Option.some.injEq, Prod.mk.injEq, Tensor.flt.injEq, Arr.vec.injEq] at hy'
    rw [hy'.1]
    exact ⟨fs, c, hw⟩
  · obtain ⟨Y, rec, hY, hw1⟩ := hb X hX hX'
    refine ⟨Y, rec, hY, List.forall₂_iff_get.mpr ⟨hw1.length_eq, fun k hk hk' => ?_⟩⟩
    refine file_limit rs hl s z _ _ (fun η hη => ?_)
    obtain ⟨fs, c, -, hb'⟩ := main' η hη
    obtain ⟨Y', rec', hY', hw⟩ := hb' X hX hX'
    rw [hY] at hY'
    simp only [Option.some.injEq, Prod.mk.injEq, Tensor.flt.injEq, Arr.mat.injEq] at hY'
    obtain ⟨rfl, -⟩ := hY'
    exact ⟨fs, c, (List.forall₂_iff_get.mp hw).2 k hk hk'⟩

namespace RealTflite

theorem mapM_isSome {α β : Type} {f g : α → Option β} (l : List α) (h : ∀ a, (f a).isSome = (g a).isSome) :
    (l.mapM f).isSome = (l.mapM g).isSome := by
  induction l with
  | nil => rfl
  | cons a l ih =>
    rw [List.mapM_cons, List.mapM_cons]
    have ha := h a
    cases hf : f a <;> cases hg : g a <;> rw [hf, hg] at ha
    · rfl
    · cases ha
    · cases ha
    · cases hl : l.mapM f <;> cases hl' : l.mapM g <;> rw [hl, hl'] at ih <;> first | rfl | cases ih

theorem ite_isSome {α : Type} (x y : List ℤ) (hx : x.length = 256) (hy : y.length = 256) (a b : α) :
    (if x.length = 256 then some a else none).isSome = (if y.length = 256 then some b else none).isSome := by
  rw [if_pos hx, if_pos hy]
  rfl

theorem lutOp_isSome {T : Onnx2Json.Table} (hT : ∀ f a b c d, (T f a b c d).length = 256) (f g : ℚ → ℚ) (name : String) (en : Enums)
    (ip : Interp) (m : TModel) (op : TOp) : (lutOp f name en ip m op T).isSome = (lutOp g name en ip m op T).isSome := by
  unfold lutOp
  cases baseOp en ip m op with
  | none => rfl
  | some b =>
    simp only [Option.bind_eq_bind, Option.bind_some]
    cases b.inputs with
    | nil => rfl
    | cons i is =>
      cases b.outputs with
      | nil => rfl
      | cons o os => exact ite_isSome _ _ (hT _ _ _ _ _) (hT _ _ _ _ _) _ _

/-- Whether a model converts does not depend on the library functions, when the tables have 256 entries. -/
theorem convert_isSome_of {T : Onnx2Json.Table} (hT : ∀ f a b c d, (T f a b c d).length = 256) (ext ext' : Ext) (en : Enums)
    (ip : Interp) (m : TModel) : (convert ext en ip m T).isSome = (convert ext' en ip m T).isSome := by
  have hop : ∀ op, (buildOp ext en ip m op T).isSome = (buildOp ext' en ip m op T).isSome := by
    intro op
    unfold buildOp
    cases m.opcodes[op.opcodeIndex]? with
    | none => rfl
    | some c =>
      simp only [Option.bind_eq_bind, Option.bind_some]
      split
      · exact lutOp_isSome hT _ _ _ _ _ _ _
      · split
        · exact lutOp_isSome hT _ _ _ _ _ _ _
        · rfl
  have h := mapM_isSome m.operators hop
  unfold convert
  cases m.inputs.mapM (nodeAt en ip m) with
  | none => rfl
  | some is =>
    cases m.outputs.mapM (nodeAt en ip m) with
    | none => rfl
    | some os =>
      simp only [Option.bind_eq_bind, Option.bind_some]
      cases h1 : m.operators.mapM (fun op => buildOp ext en ip m op T) <;>
        cases h2 : m.operators.mapM (fun op => buildOp ext' en ip m op T) <;> rw [h1, h2] at h <;>
          first | rfl | cases h

end RealTflite

/-! ## A concrete model -/

namespace C108Case
open C71Case (en members types)
open RealTflite

/-- quantize → logistic → dequantize, one feature. -/
def m : TModel :=
  { opcodes := [114, 14, 6]
    buffers := [false]
    tensors := [⟨"in", 0, 0, some [1, 1], none⟩, ⟨"q", 0, 9, some [1, 1], some ([1/64], [3])⟩,
      ⟨"sig", 0, 9, some [1, 1], some ([1/256], [-128])⟩, ⟨"out", 0, 0, some [1, 1], some ([], [])⟩]
    operators := [⟨0, [0], [1], .none⟩, ⟨1, [1], [2], .none⟩, ⟨2, [2], [3], .none⟩]
    inputs := [0]
    outputs := [3] }

def ip : Interp := { details := [("in", 0), ("q", 1), ("sig", 2), ("out", 3)], content := fun _ => none }

theorem converts (lib : Ext) : ∃ net, convert lib en ip m Fmt.f64.int8Table = some net := by
  rw [← Option.isSome_iff_exists, convert_isSome_of TfliteF64.table_len lib ⟨fun _ => 0, fun _ => 0, fun _ => 0⟩]
  decide +kernel

theorem interprets : Interprets ip m where
  named := by decide +kernel
  distinct := by
    intro i j t u h1 h2 h3
    have hi : i < 4 := (List.getElem?_eq_some_iff.mp h1).1
    have hj : j < 4 := (List.getElem?_eq_some_iff.mp h2).1
    have key : ∀ a < 4, ∀ b < 4, (m.tensors[a]?.map TTensor.name) = (m.tensors[b]?.map TTensor.name) → a = b := by
      decide +kernel
    exact key i hi j hj (by rw [h1, h2]; simp [h3])
  details := by
    intro nm i
    constructor
    · intro h
      have key : ∀ p ∈ ip.details, m.tensors[p.2]?.map TTensor.name = some p.1 := by decide +kernel
      have := key _ h
      rw [Option.map_eq_some_iff] at this
      exact this
    · rintro ⟨t, h1, h2⟩
      have hi : i < 4 := (List.getElem?_eq_some_iff.mp h1).1
      have key : ∀ a < 4, ∀ t ∈ m.tensors[a]?, (t.name, a) ∈ ip.details := by decide +kernel
      rw [← h2]
      exact key i hi t h1

theorem int8 (i : ℕ) (t : TTensor) (ht : m.tensors[i]? = some t) (hty : t.type = 9) (e : ℕ) (he : e < 100) (z : ℤ)
    (hq : t.quant = some ([1 / 2 ^ e], [z])) (hz : Code (-128) 127 z) : Int8Tensor en m i (1 / 2 ^ e) z :=
  ⟨⟨t, "INT8", ht, hq, by positivity, by rw [hty]; exact types.1, by unfold NamesType; decide +kernel⟩,
    ⟨1, -(e : ℤ), by norm_num, by omega, by rw [zpow_neg, zpow_natCast]; simp⟩, hz⟩

noncomputable def rs : List RealOp :=
  [.act Real.sigmoid (1 / 4) (1 / 2 ^ 8 * (1 / 2 + 1 / 2 ^ 40) + (1 / 4 * ((1 / 2 ^ 6) / 2 ^ 40) + 1 / 2 ^ 50)) (1 / 2 ^ 6) 3
    (1 / 2 ^ 8) (-128)]

theorem net : TfliteRealNet en ip m (1 / 2 ^ 50) (1 / 2 ^ 6) 3 rs where
  input := by decide
  output := by decide
  ops := by
    have h1 : Int8Tensor en m 1 (1 / 2 ^ 6) 3 := int8 1 _ rfl rfl 6 (by norm_num) 3 (by norm_num) (by unfold Code; norm_num)
    have h2 : Int8Tensor en m 2 (1 / 2 ^ 8) (-128) :=
      int8 2 _ rfl rfl 8 (by norm_num) (-128) (by norm_num) (by unfold Code; norm_num)
    refine ⟨_, [_], _, 1, 2, rfl, ⟨114, rfl, members (114, "QUANTIZE") (by simp)⟩, rfl, h1, ?_,
      ⟨6, rfl, members (6, "DEQUANTIZE") (by simp)⟩, rfl⟩
    refine .cons (.logistic ⟨14, rfl, ?_⟩ rfl rfl h1 h2) (.nil 2)
    unfold Spec.Member
    decide +kernel

theorem fits : realFits (1 / 2 ^ 6, 3) rs 1 := ⟨rfl, ⟨by decide, by unfold Code; norm_num⟩, trivial⟩

/-- There are library functions accurate to 2⁻⁵⁰; with any such library this model converts, loads, and in float64 the number it
returns for any `v` between -2 and 1.9 is within 1/100 of `1 / (1 + exp (-v))`. -/
example : (∃ lib, Accurate (1 / 2 ^ 50) lib) ∧ ∀ lib, Accurate (1 / 2 ^ 50) lib → ∃ j N, convert lib en ip m Fmt.f64.int8Table = some j ∧
    Fmt.f64.load j = some N ∧ ∀ v : ℚ, -2 ≤ v → v ≤ 19 / 10 → ∃ y rec,
      Fmt.f64.infer lib N (.flt (.vec [v])) = some (.flt (.vec [y]), rec) ∧ |(y : ℝ) - (1 + Real.exp (-v))⁻¹| ≤ 1 / 100 := by
  refine ⟨(RealOnnx.exists_ideal (1 / 2 ^ 50) (by norm_num)).imp (fun _ h => h.1), fun lib hlib => ?_⟩
  obtain ⟨j, hj⟩ := converts lib
  obtain ⟨N, h1, h2, -⟩ := C108_tflite lib lib (1 / 2 ^ 50) hlib en ip m interprets (1 / 2 ^ 6) 3 rs net 1 fits j hj
  refine ⟨j, N, hj, h1, fun v hv hv' => ?_⟩
  obtain ⟨y, rec, hy, hw⟩ := h2 [v] rfl
  obtain ⟨-, hw⟩ := hw
  simp only [rs, realFile, realBound, realOutputBound, RealOp.exact, RealOp.bound, inputBound, List.map_cons, List.map_nil,
    List.zipWith_cons_cons, List.zipWith_nil_left, List.zip_cons_cons, List.zip_nil_left] at hw
  cases hw with
  | cons hab hnil =>
  cases hnil
  refine ⟨_, rec, hy, ?_⟩
  rw [← Real.sigmoid_def]
  refine hab.trans ?_
  dsimp only
  have hsat : saturate (1 / 2 ^ 6) 3 v = v := by
    have e1 : real 3 (1 / 2 ^ 6) (-128) = -131 / 64 := by decide +kernel
    have e2 : real 3 (1 / 2 ^ 6) 127 = 124 / 64 := by decide +kernel
    unfold saturate
    rw [e1, e2, min_eq_right (by linarith), max_eq_right (by linarith)]
  have hv2 : |v / (1 / 2 ^ 6)| ≤ 128 := by
    rw [abs_le]
    constructor
    · rw [le_div_iff₀ (by norm_num)]; linarith
    · rw [div_le_iff₀ (by norm_num)]; linarith
  rw [hsat, sub_self, abs_zero, add_zero]
  have hin : (((1 / 2 ^ 6 * (1 / 2 + (4 * |v / (1 / 2 ^ 6)| + 4 * |((3 : ℤ) : ℚ)| + 1) / 2 ^ 53) : ℚ)) : ℝ) ≤ 8 / 1000 := by
    have : (1 / 2 ^ 6 * (1 / 2 + (4 * |v / (1 / 2 ^ 6)| + 4 * |((3 : ℤ) : ℚ)| + 1) / 2 ^ 53) : ℚ) ≤ 8 / 1000 := by
      rw [show |((3 : ℤ) : ℚ)| = 3 by norm_num]
      linarith
    have h := (Rat.cast_le (K := ℝ)).mpr this
    refine h.trans ?_
    norm_num
  generalize ((1 / 2 ^ 6 * (1 / 2 + (4 * |v / (1 / 2 ^ 6)| + 4 * |((3 : ℤ) : ℚ)| + 1) / 2 ^ 53) : ℚ)) = e at *
  have s0 := Real.sigmoid_pos v
  have s1 := Real.sigmoid_lt_one v
  generalize Real.sigmoid v = w at *
  have hs : |realSaturate (1 / 2 ^ 8) (-128) w - w| ≤ 1 / 256 := by
    have e1 : real (-128) (1 / 2 ^ 8) (-128) = 0 := by decide +kernel
    have e2 : real (-128) (1 / 2 ^ 8) 127 = 255 / 256 := by decide +kernel
    unfold realSaturate
    rw [e1, e2, abs_le]
    push_cast
    constructor
    · rcases le_total (255 / 256) w with h | h
      · rw [min_eq_left h, max_eq_right (by norm_num)]; linarith
      · rw [min_eq_right h, max_eq_right s0.le]; norm_num
    · rcases le_total (255 / 256) w with h | h
      · rw [min_eq_left h, max_eq_right (by norm_num)]; linarith
      · rw [min_eq_right h, max_eq_right s0.le]; norm_num
  rw [abs_of_pos s0]
  generalize |realSaturate (1 / 2 ^ 8) (-128) w - w| = u at *
  push_cast
  linarith

end C108Case

end Verif
