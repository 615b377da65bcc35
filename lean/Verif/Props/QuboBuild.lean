import Verif.Lemmas.QuboBuild
import Mathlib.Data.List.GetD

/-!
# Property C82: `build` with the QUBO optimizer

`rs[j]` and `rs[j + 1]` are consecutive results: `rs[j].data` is the float input of the layer of `rs[j + 1]`, and
`rs[j + 1].data` its float result on the calibration data.
-/

namespace Verif
open Keras Spec Build

/-! ## Specification -/

/-- Mean squared distance of one neuron of the quantized layer from the float results `Y` on the samples `X`, for kernel
codes `q` (zero point `zk`) and bias code `c` (zero point `zb`): inputs are rounded to multiples of `sx`. -/
def Spec.neuronError (X Y : List (List ℚ)) (sx sw sb : ℚ) (zk zb : ℤ) (l : ℕ) (q : ℕ → ℤ) (c : ℤ) : ℚ :=
  mse X.length (X.getD 0 []).length (fun s => (Y.getD s []).getD l 0)
    (fun s i => sx * (roundHalfEven ((X.getD s []).getD i 0 / sx) : ℤ)) (fun i => sw * ((q i - zk : ℤ) : ℚ))
    (sb * ((c - zb : ℤ) : ℚ))

/-- One of the two integers next to `x`, shifted by the zero point. -/
def Spec.Neighbour (x s : ℚ) (zp q : ℤ) : Prop := q = ⌊x / s⌋ + zp ∨ q = ⌊x / s⌋ + zp + 1

/-- A sampler that always returns an assignment of least energy. -/
def Spec.ExactSampler (ask : ℕ → ℕ → QDict → ℕ → Bool) : Prop :=
  ∀ m k J, Minimises (bqmEnergy J) (fun v => if ask m k J v then 1 else 0)

/-! ## An exact sampler -/

namespace Build

/-- Indicator of a list. -/
def indicator (s : List ℕ) (v : ℕ) : ℚ := if v ∈ s then 1 else 0

/-- The best of a list of candidates. -/
def bestOf (E : (ℕ → ℚ) → ℚ) : List (List ℕ) → List ℕ
  | [] => []
  | s :: ss => if E (indicator s) ≤ E (indicator (bestOf E ss)) then s else bestOf E ss

/-- Exhaustive search. -/
def exhaustive (_ _ : ℕ) (J : QDict) (v : ℕ) : Bool := decide (v ∈ bestOf (bqmEnergy J) (bqmVars J).sublists)

theorem bestOf_le (E : (ℕ → ℚ) → ℚ) (ss : List (List ℕ)) : ∀ s ∈ ss, E (indicator (bestOf E ss)) ≤ E (indicator s) := by
  induction ss with
  | nil => simp
  | cons a ss ih =>
    intro s hs
    unfold bestOf
    split_ifs with h
    · rcases List.mem_cons.mp hs with rfl | hs
      · exact le_rfl
      · exact h.trans (ih s hs)
    · rcases List.mem_cons.mp hs with rfl | hs
      · exact (not_le.mp h).le
      · exact ih s hs

theorem energy_indicator (J : QDict) (y : ℕ → ℚ) (hy : Binary y) :
    bqmEnergy J y = bqmEnergy J (indicator ((bqmVars J).filter (fun v => y v = 1))) := by
  have hmem : ∀ e ∈ J, e.1.1 ∈ bqmVars J ∧ e.1.2 ∈ bqmVars J := by
    intro e he
    constructor <;>
    · simp only [bqmVars, List.mem_reverse, List.mem_dedup, List.mem_flatMap]
      exact ⟨e, he, by simp⟩
  have hval : ∀ v ∈ bqmVars J, indicator ((bqmVars J).filter (fun v => y v = 1)) v = y v := by
    intro v hv
    unfold indicator
    rcases hy v with h | h
    · rw [if_neg (by simp [h]), h]
    · rw [if_pos (by simp [h, hv]), h]
  unfold bqmEnergy
  congr 1
  refine List.map_congr_left (fun e he => ?_)
  rw [hval _ (hmem e he).1, hval _ (hmem e he).2]

end Build

/-- Exact samplers exist: exhaustive search is one. -/
theorem C82_exact_sampler : ExactSampler exhaustive := by
  intro m k J
  have e : (fun v => if exhaustive m k J v then (1 : ℚ) else 0) =
      indicator (bestOf (bqmEnergy J) (bqmVars J).sublists) := by
    funext v
    unfold exhaustive indicator
    by_cases h : v ∈ bestOf (bqmEnergy J) (bqmVars J).sublists <;> simp [h]
  rw [e]
  refine ⟨fun v => ?_, fun y hy => ?_⟩
  · unfold indicator; split_ifs <;> simp
  · rw [energy_indicator J y hy]
    exact bestOf_le _ _ _ (List.mem_sublists.mpr List.filter_sublist)

/-! ## Proof -/

namespace Build

theorem quboBuild_ok {ask : ℕ → ℕ → QDict → ℕ → Bool} {ext : Ext} {lossFn : Option SeqNet → ℚ}
    {draws : List (List ParamEq.Draw)} {cs : List Choices} {cfg : Config.QuantizerCfg} {M : List (List ℚ)}
    {ls : List KLayer} {w w' : World} {rs rs' : List QRes} (hq : cfg.adaRoundNet = some .qubo)
    (hM : M ≠ []) (hls : ∀ l, KLayer.lstm l ∉ ls) (hsh : ∀ l, KLayer.dense l ∈ ls → ∃ n, ShapeOk l n)
    (h : quantizeModel ext cfg.forKeras (.mat M) ls = some (w, rs))
    (hb : build ext lossFn (quboNet ask (.mat M) ls) draws cs cfg (.mat M) ls = some (w', rs')) :
    rs' = rs ∧ ∃ w1, Mid w w1 ∧ Round w1 w' ∧ (cfg.paramEqualizer = none → w1 = w) ∧
      ∀ (j : ℕ) prev r, rs[j]? = some prev → rs[j + 1]? = some r → (∃ op, r.ops.head? = some op ∧ op.inputs.length = 3) →
        LayerDone ask w' prev.data r := by
  obtain ⟨rfl, w1, h1, h2⟩ := build_cases h hb
  obtain ⟨m1, m2, -⟩ := model_stack hls h
  have hmid : Mid w w1 ∧ (cfg.paramEqualizer = none → w1 = w) := by
    cases hp : cfg.paramEqualizer with
    | none =>
      rw [hp] at h1
      simp only [Option.some.injEq] at h1
      subst h1
      exact ⟨mid_refl m1 m2, fun _ => rfl⟩
    | some p =>
      rw [hp] at h1
      obtain ⟨a, b⟩ := equalize_ok hls h h1
      exact ⟨b, by simp⟩
  rw [hq] at h2
  obtain ⟨w2, e, rr, ld⟩ := quboNet_ok (ask := ask) hls hM hsh h hmid.1.upd
  have : w2 = w' := by
    have h2' : quboNet ask (.mat M) ls w1 rs' = some w' := h2
    rw [e, Option.some.injEq] at h2'
    exact h2'
  subst this
  exact ⟨rfl, w1, hmid.1, rr, hmid.2, ld⟩

theorem qubo_lstm {ask : ℕ → ℕ → QDict → ℕ → Bool} (todo : List QRes) (r : QRes) (hr : r ∈ todo) (op : Op)
    (h1 : r.ops = [op]) (h2 : op.opType = "LSTM") : ∀ n ds prev w, quboLoop ask n ds prev todo w = none := by
  induction todo with
  | nil => simp at hr
  | cons a todo ih =>
    intro n ds prev w
    rw [Option.eq_none_iff_forall_not_mem]
    intro w' h
    simp only [Option.mem_def, quboLoop, Option.bind_eq_bind, Option.bind_eq_some_iff] at h
    obtain ⟨ts, hts, h⟩ := h
    rcases List.mem_cons.mp hr with rfl | hr
    · unfold targetsOf at hts
      rw [h1] at hts
      simp only [h2] at hts
      rw [if_neg (by decide), if_pos trivial] at hts
      cases hts
    · cases ts with
      | nil => simp only at h; rw [ih hr] at h; cases h
      | cons t ts =>
        cases ds with
        | nil => cases h
        | cons c cs =>
          simp only [Option.bind_eq_some_iff] at h
          obtain ⟨w2, -, h⟩ := h
          rw [ih hr] at h; cases h

/-- Integers of every kernel and bias at the end (as in C70). -/
theorem ints_end {ext : Ext} {cfg : Cfg} {x : Arr ℚ} {ls : List KLayer} {w w1 w' : World} {rs : List QRes}
    (hls : ∀ l, KLayer.lstm l ∉ ls) (h : quantizeModel ext cfg x ls = some (w, rs)) (hm : Mid w w1) (hr : Round w1 w')
    {op : Op} (hop : op ∈ networkOps rs) (h3 : op.inputs.length = 3) {r : Ref} (hrr : r ∈ op.inputs.drop 1) :
    r.id < w.next ∧ Fit (w.nodes r.id) ∧ (w'.nodes r.id).scale ≠ 0 ∧ FitT (w'.nodes r.id) := by
  have hdense := dense_end hls h hm hr
  obtain ⟨k, l, inp, rfl, k1, k2, k3, k4, k5, k6⟩ := model_dense hls h op hop h3
  obtain ⟨x, kk, b, o, sx, sk, so, e1, e2, g1, g2, g3, g4, g5⟩ := hdense (opJson w' (fcAt k l inp))
    (List.mem_map_of_mem hop) rfl
  simp only [opJson, fcAt, List.map_cons, List.map_nil, List.cons.injEq, and_true] at e1
  obtain ⟨rfl, rfl, rfl⟩ := e1
  simp only [fcAt, List.drop_succ_cons, List.drop_zero, List.mem_cons, List.not_mem_nil, or_false] at hrr
  rcases hrr with rfl | rfl
  · refine ⟨by show k < _; omega, k6.kernelFit, ?_, fit_end hm hr (by show k < _; omega) k6.kernelFit⟩
    have := g2.1
    simp only [nodeJson, Option.some.injEq] at this
    show (w'.nodes k).scale ≠ 0
    rw [this]; exact ne_of_gt g2.2.1
  · refine ⟨by show k + 1 < _; omega, k6.biasFit, ?_, fit_end hm hr (by show k + 1 < _; omega) k6.biasFit⟩
    simp only [nodeJson, Option.some.injEq] at g4
    show (w'.nodes (k + 1)).scale ≠ 0
    rw [g4]; exact ne_of_gt (mul_pos g2.2.1 g1.2.1)

theorem flatten_getD {α : Type} (a : α) (n : ℕ) : ∀ (rows : List (List α)), (∀ r ∈ rows, r.length = n) →
    ∀ (l i : ℕ), i < n → rows.flatten.getD (l * n + i) a = (rows.getD l []).getD i a := by
  intro rows
  induction rows with
  | nil => intro _ l i _; simp
  | cons r rows ih =>
    intro h l i hi
    have hr := h r (by simp)
    rw [List.flatten_cons]
    cases l with
    | zero =>
      rw [Nat.zero_mul, Nat.zero_add, List.getD_append _ _ _ _ (by omega)]
      rfl
    | succ l =>
      have e : (l + 1) * n + i = n + (l * n + i) := by ring
      rw [e, List.getD_append_right _ _ _ _ (by omega), hr, Nat.add_sub_cancel_left,
        ih (fun r hr => h r (by simp [hr])) l i hi]
      rfl

/-- One stored integer of a tensor whose policy is `bits`. -/
theorem fit_at {n : Node} {t : TensorPart} (h : FitT n) (ht : n.tensor = some t)
    (hd : Fits32 n.quant.min n.quant.max) (hs : n.scale ≠ 0) {bits : List ℕ}
    (hp : t.policy.data = bits.map (fun (v : ℕ) => (v : ℚ))) (i : ℕ) (hi : i < t.fp.data.length) :
    t.quantized.getD i 0 = clip n.quant.min n.quant.max (⌊t.fp.data.getD i 0 / n.scale⌋ + n.zp + (bits.getD i 0 : ℕ)) := by
  obtain ⟨h1, -, h3, -⟩ := h t ht
  have hl : bits.length = t.fp.data.length := by rw [← h3, hp, List.length_map]
  have e : bits.map (fun (v : ℕ) => (v : ℚ)) = (bits.map (fun (v : ℕ) => (v : ℤ))).map (fun (b : ℤ) => (b : ℚ)) := by
    rw [List.map_map]
    exact List.map_congr_left (fun v _ => by simp)
  rw [h1, hp, e, C06_policy_neighbours n.quant hd t.fp.data n.zp n.scale hs _ (by simp [hl])]
  have hi' : i < bits.length := by omega
  rw [List.getD_eq_getElem _ _ (by simp [hl, hi]), List.getD_eq_getElem _ _ hi, List.getD_eq_getElem _ _ hi',
    List.getElem_zipWith, List.getElem_map, Int.floor_add_intCast]

theorem mse_congr {N D : ℕ} {out : ℕ → ℚ} {inp : ℕ → ℕ → ℚ} {w w' : ℕ → ℚ} {b b' : ℚ} (hw : ∀ i < D, w i = w' i)
    (hb : b = b') : mse N D out inp w b = mse N D out inp w' b' := by
  unfold mse
  rw [hb]
  congr 1
  refine Finset.sum_congr rfl (fun s _ => ?_)
  congr 3
  exact Finset.sum_congr rfl (fun i hi => by rw [hw i (Finset.mem_range.mp hi)])

end Build

/-! ## Theorems -/

/-- C82.  A model without LSTM layers that can be quantized on a non-empty batch of flat samples can be built with the QUBO
optimizer, whatever the sampler answers. -/
theorem C82_completes (ask : ℕ → ℕ → QDict → ℕ → Bool) (ext : Ext) (lossFn : Option SeqNet → ℚ)
    (draws : List (List ParamEq.Draw)) (cs : List Choices) (cfg : Config.QuantizerCfg)
    (hq : cfg.adaRoundNet = some .qubo) (hp : cfg.paramEqualizer = none) (X : List (List ℚ)) (hX : X ≠ [])
    (ls : List KLayer) (hls : ∀ l, KLayer.lstm l ∉ ls) (hsh : ∀ l, KLayer.dense l ∈ ls → ∃ n, ShapeOk l n) (w : World)
    (rs : List QRes) (h : quantizeModel ext cfg.forKeras (.mat X) ls = some (w, rs)) :
    ∃ w', Build.build ext lossFn (quboNet ask (.mat X) ls) draws cs cfg (.mat X) ls = some (w', rs) := by
  obtain ⟨m1, m2, -⟩ := model_stack hls h
  obtain ⟨w', e, -⟩ := quboNet_ok (ask := ask) hls hX hsh h (mid_refl m1 m2).upd
  refine ⟨w', ?_⟩
  unfold Build.build Config.build
  rw [h, hp, hq]
  simp only [Option.bind_eq_bind, Option.bind_some, if_true, adaroundNet, e]

/-- C82.  Also with the parameter search before it, the built network has the operators, names, shapes, dtypes and tables
of the plainly quantized one. -/
theorem C82_same_structure (ask : ℕ → ℕ → QDict → ℕ → Bool) (ext : Ext) (lossFn : Option SeqNet → ℚ)
    (draws : List (List ParamEq.Draw)) (cs : List Choices) (cfg : Config.QuantizerCfg)
    (hq : cfg.adaRoundNet = some .qubo) (X : List (List ℚ)) (hX : X ≠ []) (ls : List KLayer)
    (hls : ∀ l, KLayer.lstm l ∉ ls) (hsh : ∀ l, KLayer.dense l ∈ ls → ∃ n, ShapeOk l n) (w w' : World)
    (rs rs' : List QRes) (h : quantizeModel ext cfg.forKeras (.mat X) ls = some (w, rs))
    (hb : Build.build ext lossFn (quboNet ask (.mat X) ls) draws cs cfg (.mat X) ls = some (w', rs')) :
    skeleton (networkJson w' rs') = skeleton (networkJson w rs) ∧
      ∀ op ∈ (networkJson w' rs').graph, op.inputs.length = 3 → DenseOpOk op := by
  obtain ⟨rfl, w1, hm, hr, -⟩ := quboBuild_ok hq hX hls hsh h hb
  obtain ⟨-, -, -, hrefs⟩ := bundle_model hls h
  exact ⟨skeleton_end hm hr hrefs, dense_end hls h hm hr⟩

/-- C82.  The exported integers of every kernel and bias are, element by element, one of the two integer neighbours of
`weight / scale + zero point` for the final parameters, clipped to the dtype; the float weights are never changed. -/
theorem C82_integers (ask : ℕ → ℕ → QDict → ℕ → Bool) (ext : Ext) (lossFn : Option SeqNet → ℚ)
    (draws : List (List ParamEq.Draw)) (cs : List Choices) (cfg : Config.QuantizerCfg)
    (hq : cfg.adaRoundNet = some .qubo) (X : List (List ℚ)) (hX : X ≠ []) (ls : List KLayer)
    (hls : ∀ l, KLayer.lstm l ∉ ls) (hsh : ∀ l, KLayer.dense l ∈ ls → ∃ n, ShapeOk l n) (w w' : World)
    (rs rs' : List QRes) (h : quantizeModel ext cfg.forKeras (.mat X) ls = some (w, rs))
    (hb : Build.build ext lossFn (quboNet ask (.mat X) ls) draws cs cfg (.mat X) ls = some (w', rs'))
    (op : Op) (hop : op ∈ networkOps rs') (h3 : op.inputs.length = 3) (r : Ref) (hr : r ∈ op.inputs.drop 1)
    (hd : Fits32 (w.nodes r.id).quant.min (w.nodes r.id).quant.max) :
    ∃ t0 t, (w.nodes r.id).tensor = some t0 ∧ (w'.nodes r.id).tensor = some t ∧ t.fp = t0.fp ∧
      ∃ bits : List ℤ, bits.length = t0.fp.data.length ∧ (∀ b ∈ bits, b = 0 ∨ b = 1) ∧
        t.quantized = List.zipWith (fun x b => clip (w.nodes r.id).quant.min (w.nodes r.id).quant.max
          (⌊x / (w'.nodes r.id).scale + (w'.nodes r.id).zp⌋ + b)) t0.fp.data bits := by
  obtain ⟨rfl, w1, hm, hro, -⟩ := quboBuild_ok hq hX hls hsh h hb
  obtain ⟨-, m2, -⟩ := model_stack hls h
  obtain ⟨p1, p2, p3, p4⟩ := ints_end hls h hm hro hop h3 hr
  obtain ⟨n1, n2, -⟩ := node_end hm hro p1
  obtain ⟨t0, ht0⟩ := Option.isSome_iff_exists.mp (m2 r.id p1).2.2
  rw [ht0] at n2
  simp only [Option.map_some, Option.map_eq_some_iff] at n2
  obtain ⟨t, ht, hfp⟩ := n2
  obtain ⟨bits, c1, c2, c3⟩ := fitT_ints p4 (by rw [n1]; exact hd) p3 ht
  rw [n1, hfp] at c3
  rw [hfp] at c1
  exact ⟨t0, t, ht0, ht, hfp, bits, c1, c2, c3⟩

/-- C82.  With an exact sampler, the stored kernel and bias integers of every neuron of every dense layer (none of whose
candidates leaves its dtype) minimise the neuron's mean squared error on the calibration data that reached the layer: no
other choice of neighbouring integers is better. -/
theorem C82_optimal (ask : ℕ → ℕ → QDict → ℕ → Bool) (ha : ExactSampler ask) (ext : Ext) (lossFn : Option SeqNet → ℚ)
    (draws : List (List ParamEq.Draw)) (cs : List Choices) (cfg : Config.QuantizerCfg)
    (hq : cfg.adaRoundNet = some .qubo) (x : List (List ℚ)) (hx : x ≠ []) (ls : List KLayer)
    (hls : ∀ l, KLayer.lstm l ∉ ls) (hsh : ∀ l, KLayer.dense l ∈ ls → ∃ n, ShapeOk l n) (w w' : World)
    (rs rs' : List QRes) (h : quantizeModel ext cfg.forKeras (.mat x) ls = some (w, rs))
    (hb : Build.build ext lossFn (quboNet ask (.mat x) ls) draws cs cfg (.mat x) ls = some (w', rs'))
    (j : ℕ) (prev r : QRes) (hj : rs'[j]? = some prev) (hj1 : rs'[j + 1]? = some r) (op : Op) (rest : List Op)
    (hop : r.ops = op :: rest) (i k b : Ref) (hin : op.inputs = [i, k, b])
    (hdk : Fits32 (w'.nodes k.id).quant.min (w'.nodes k.id).quant.max)
    (hdb : Fits32 (w'.nodes b.id).quant.min (w'.nodes b.id).quant.max) :
    ∃ X Y tk tb D, prev.data = .mat X ∧ r.data = .mat Y ∧ (∀ s ∈ X, s.length = D) ∧
      (w'.nodes k.id).tensor = some tk ∧ (w'.nodes b.id).tensor = some tb ∧
      tk.fp.data.length = tb.fp.data.length * D ∧ ∀ l < tb.fp.data.length,
        (∀ c < D, ∀ q, Neighbour (tk.fp.data.getD (l * D + c) 0) (w'.nodes k.id).scale (w'.nodes k.id).zp q →
          Code (w'.nodes k.id).quant.min (w'.nodes k.id).quant.max q) →
        (∀ q, Neighbour (tb.fp.data.getD l 0) (w'.nodes b.id).scale (w'.nodes b.id).zp q →
          Code (w'.nodes b.id).quant.min (w'.nodes b.id).quant.max q) →
        ((∀ c < D, Neighbour (tk.fp.data.getD (l * D + c) 0) (w'.nodes k.id).scale (w'.nodes k.id).zp
            (tk.quantized.getD (l * D + c) 0)) ∧
          Neighbour (tb.fp.data.getD l 0) (w'.nodes b.id).scale (w'.nodes b.id).zp (tb.quantized.getD l 0)) ∧
        ∀ (q' : ℕ → ℤ) (c' : ℤ),
          (∀ c < D, Neighbour (tk.fp.data.getD (l * D + c) 0) (w'.nodes k.id).scale (w'.nodes k.id).zp (q' c)) →
          Neighbour (tb.fp.data.getD l 0) (w'.nodes b.id).scale (w'.nodes b.id).zp c' →
          neuronError X Y (w'.nodes i.id).scale (w'.nodes k.id).scale (w'.nodes b.id).scale (w'.nodes k.id).zp
              (w'.nodes b.id).zp l (fun c => tk.quantized.getD (l * D + c) 0) (tb.quantized.getD l 0) ≤
            neuronError X Y (w'.nodes i.id).scale (w'.nodes k.id).scale (w'.nodes b.id).scale (w'.nodes k.id).zp
              (w'.nodes b.id).zp l q' c' := by
  obtain ⟨rfl, w1, hm, hro, -, hld⟩ := quboBuild_ok hq hx hls hsh h hb
  have hopm : op ∈ networkOps rs' := by
    simp only [networkOps, List.mem_flatMap]
    exact ⟨r, List.mem_of_getElem? hj1, by rw [hop]; simp⟩
  have h3 : op.inputs.length = 3 := by rw [hin]; rfl
  obtain ⟨-, -, k3, k4⟩ := ints_end hls h hm hro hopm h3 (r := k) (by rw [hin]; simp)
  obtain ⟨-, -, b3, b4⟩ := ints_end hls h hm hro hopm h3 (r := b) (by rw [hin]; simp)
  obtain ⟨jx, jk, jb, jo, sx, sk, so, e1, -, g1, g2, -, g4, g5⟩ := dense_end hls h hm hro (opJson w' op)
    (List.mem_map_of_mem hopm) (by simp [opJson, hin])
  simp only [opJson, hin, List.map_cons, List.map_nil, List.cons.injEq, and_true] at e1
  obtain ⟨rfl, rfl, rfl⟩ := e1
  have i3 : (w'.nodes i.id).scale ≠ 0 := by
    have := g1.1
    simp only [nodeJson, Option.some.injEq] at this
    rw [this]; exact ne_of_gt g1.2.1
  have hsb : (w'.nodes b.id).scale = (w'.nodes k.id).scale * (w'.nodes i.id).scale := by
    have u1 := g1.1
    have u2 := g2.1
    simp only [nodeJson, Option.some.injEq] at u1 u2 g4
    rw [g4, u1, u2]
  obtain ⟨l0, kk, inp, X, Y, m, p, d1, d2, d3, d4, d5, ⟨n0, hn0⟩, d7, d8, d9, d10, d11, -⟩ :=
    hld j prev r hj hj1 ⟨op, by rw [hop]; rfl, h3⟩
  rw [hop, List.head?_cons, Option.some.injEq] at d1
  subst d1
  simp only [fcAt, List.cons.injEq, and_true] at hin
  obtain ⟨rfl, rfl, rfl⟩ := hin
  simp only at *
  obtain ⟨tk, htk, hfk⟩ := Option.map_eq_some_iff.mp d8
  obtain ⟨tb, htb, hfb⟩ := Option.map_eq_some_iff.mp d9
  rw [htk, Option.map_some, Option.some.injEq] at d10
  rw [htb, Option.map_some, Option.some.injEq] at d11
  have hD : (X.getD 0 []).length = l0.kernel.length := by
    cases X with
    | nil => exact absurd rfl d3
    | cons a X => exact d4 a (by simp)
  have hbl := biasV_length hn0
  have hrow : ∀ r ∈ l0.kernelT, r.length = l0.kernel.length := fun r hr => kernelT_row hr
  have hp : p = { N := X.length, D := (X.getD 0 []).length, O := l0.biasV.length,
                  input := fun s i => (X.getD s []).getD i 0, output := fun s j => (Y.getD s []).getD j 0,
                  kernel := fun j i => (l0.kernelT.getD j []).getD i 0, bias := fun j => l0.biasV.getD j 0,
                  sx := (w'.nodes inp.id).scale, sw := (w'.nodes kk).scale, sb := (w'.nodes (kk + 1)).scale } := by
    simp only [quboIn, fcAt, List.getElem?_cons_zero, List.getElem?_cons_succ, Option.bind_eq_bind, Option.bind_some,
      Option.some.injEq] at d7
    exact d7.symm
  have pN : p.N = X.length := by rw [hp]
  have pD : p.D = l0.kernel.length := by rw [hp]; exact hD
  have pO : p.O = l0.biasV.length := by rw [hp]
  have pk : ∀ l c, p.kernel l c = (l0.kernelT.getD l []).getD c 0 := by intro l c; rw [hp]
  have pb : ∀ l, p.bias l = l0.biasV.getD l 0 := by intro l; rw [hp]
  have psw : p.sw = (w'.nodes kk).scale := by rw [hp]
  have psx : p.sx = (w'.nodes inp.id).scale := by rw [hp]
  have psb : p.sb = (w'.nodes (kk + 1)).scale := by rw [hp]
  have hlenk : tk.fp.data.length = l0.units * l0.kernel.length := by
    rw [hfk]
    show l0.kernelT.flatten.length = _
    rw [List.length_flatten, List.map_congr_left (g := fun _ => l0.kernel.length) (fun r hr => hrow r hr),
      List.map_const', List.sum_replicate, kernelT_length]; rfl
  have hlenb : tb.fp.data.length = l0.biasV.length := by rw [hfb]
  refine ⟨X, Y, tk, tb, l0.kernel.length, d2, d5, d4, htk, htb, by rw [hlenk, hlenb, hbl], ?_⟩
  intro l hl hck hcb
  rw [hlenb] at hl
  have hlO : l < p.O := by rw [pO]; exact hl
  -- the stored integers
  have qk : ∀ c < l0.kernel.length, tk.quantized.getD (l * l0.kernel.length + c) 0 =
      ⌊tk.fp.data.getD (l * l0.kernel.length + c) 0 / (w'.nodes kk).scale⌋ + (w'.nodes kk).zp +
        (if ask m (p.O + l) (ADAInt.qubo p l) (p.kVar l c) then 1 else 0) := by
    intro c hc
    have hlt : l * l0.kernel.length + c < tk.fp.data.length := by
      rw [hlenk, ← hbl]
      calc l * l0.kernel.length + c < l * l0.kernel.length + l0.kernel.length := by omega
        _ = (l + 1) * l0.kernel.length := by ring
        _ ≤ _ := Nat.mul_le_mul_right _ (by omega)
    have hbit : (kBits (ask m) p).getD (l * l0.kernel.length + c) 0 =
        if ask m (p.O + l) (ADAInt.qubo p l) (p.kVar l c) then 1 else 0 := by
      unfold kBits
      rw [List.flatMap, flatten_getD 0 l0.kernel.length _ (by
        intro r hr
        obtain ⟨a, -, rfl⟩ := List.mem_map.mp hr
        simp [pD]) l c hc]
      rw [List.getD_eq_getElem _ [] (n := l) (by simp [hlO]), List.getElem_map, List.getElem_range,
        List.getD_eq_getElem _ _ (by simp [pD, hc]), List.getElem_map, List.getElem_range]
    rw [fit_at k4 htk hdk k3 d10 _ hlt, hbit]
    have e : ((if ask m (p.O + l) (ADAInt.qubo p l) (p.kVar l c) = true then 1 else 0 : ℕ) : ℤ) =
        if ask m (p.O + l) (ADAInt.qubo p l) (p.kVar l c) = true then 1 else 0 := by split_ifs <;> rfl
    rw [e]
    have hc' := hck c hc (⌊tk.fp.data.getD (l * l0.kernel.length + c) 0 / (w'.nodes kk).scale⌋ + (w'.nodes kk).zp +
        (if ask m (p.O + l) (ADAInt.qubo p l) (p.kVar l c) then 1 else 0)) (by
      unfold Neighbour
      split_ifs
      · right; rfl
      · left; omega)
    exact clip_of_mem hc'.1 hc'.2
  have qb : tb.quantized.getD l 0 = ⌊tb.fp.data.getD l 0 / (w'.nodes (kk + 1)).scale⌋ + (w'.nodes (kk + 1)).zp +
        (if ask m (p.O + l) (ADAInt.qubo p l) (p.bVar l) then 1 else 0) := by
    have hbit : (bBits (ask m) p).getD l 0 = if ask m (p.O + l) (ADAInt.qubo p l) (p.bVar l) then 1 else 0 := by
      unfold bBits
      rw [List.getD_eq_getElem _ _ (by simp [hlO]), List.getElem_map, List.getElem_range]
    rw [fit_at b4 htb hdb b3 d11 _ (by rw [hlenb]; exact hl), hbit]
    have e : ((if ask m (p.O + l) (ADAInt.qubo p l) (p.bVar l) = true then 1 else 0 : ℕ) : ℤ) =
        if ask m (p.O + l) (ADAInt.qubo p l) (p.bVar l) = true then 1 else 0 := by split_ifs <;> rfl
    rw [e]
    have hc' := hcb (⌊tb.fp.data.getD l 0 / (w'.nodes (kk + 1)).scale⌋ + (w'.nodes (kk + 1)).zp +
        (if ask m (p.O + l) (ADAInt.qubo p l) (p.bVar l) then 1 else 0)) (by
      unfold Neighbour
      split_ifs
      · right; rfl
      · left; omega)
    exact clip_of_mem hc'.1 hc'.2
  have fk : ∀ c < l0.kernel.length, tk.fp.data.getD (l * l0.kernel.length + c) 0 = p.kernel l c := by
    intro c hc
    rw [hfk, pk]
    exact flatten_getD 0 l0.kernel.length _ hrow l c hc
  have fb : tb.fp.data.getD l 0 = p.bias l := by rw [hfb, pb]
  -- error of any choice of neighbours
  have err : ∀ (q : ℕ → ℤ) (c0 : ℤ) (β : ℕ → ℚ) (β0 : ℚ),
      (∀ c < l0.kernel.length, ((q c : ℤ) : ℚ) = (⌊p.kernel l c / p.sw⌋ : ℤ) + ((w'.nodes kk).zp : ℤ) + β c) →
      ((c0 : ℤ) : ℚ) = (⌊p.bias l / p.sb⌋ : ℤ) + ((w'.nodes (kk + 1)).zp : ℤ) + β0 →
      neuronError X Y (w'.nodes inp.id).scale (w'.nodes kk).scale (w'.nodes (kk + 1)).scale (w'.nodes kk).zp
        (w'.nodes (kk + 1)).zp l q c0 = roundedError p l β β0 := by
    intro q c0 β β0 h1 h2
    unfold neuronError roundedError
    rw [hp]
    refine mse_congr ?_ ?_
    · intro c hc
      rw [hD] at hc
      have := h1 c hc
      rw [hp] at this
      simp only at this
      push_cast
      rw [this]; ring
    · have : p.sw * p.sx = p.sb := by rw [psw, psx, psb, hsb]
      rw [psw, psx, psb] at this
      rw [psb, pb] at h2
      simp only
      rw [this]
      push_cast
      rw [h2]; ring
  have hmin := ha m (p.O + l) (ADAInt.qubo p l)
  obtain ⟨J, hJ, hiff⟩ := C37_minimiser_iff p (by rw [psw]; exact k3) (by rw [psx]; exact i3) l hlO _ hmin.1
  rw [C79_same_qubo p l hlO, Option.some.injEq] at hJ
  subst hJ
  have hopt := hiff.mp hmin
  refine ⟨⟨fun c hc => ?_, ?_⟩, ?_⟩
  · rw [qk c hc]
    unfold Neighbour
    split_ifs
    · right; rfl
    · left; omega
  · rw [qb]
    unfold Neighbour
    split_ifs
    · right; rfl
    · left; omega
  · intro q' c' hq' hc'
    rw [err (fun c => tk.quantized.getD (l * l0.kernel.length + c) 0) (tb.quantized.getD l 0)
      (fun c => if ask m (p.O + l) (ADAInt.qubo p l) (p.kVar l c) then 1 else 0)
      (if ask m (p.O + l) (ADAInt.qubo p l) (p.bVar l) then 1 else 0) (by
        intro c hc
        rw [qk c hc, fk c hc, psw]
        split_ifs <;> push_cast <;> ring) (by
        rw [qb, fb, psb]
        split_ifs <;> push_cast <;> ring)]
    rw [err q' c' (fun c => if c < l0.kernel.length then ((q' c - ⌊p.kernel l c / p.sw⌋ - (w'.nodes kk).zp : ℤ) : ℚ) else 0)
      ((c' - ⌊p.bias l / p.sb⌋ - (w'.nodes (kk + 1)).zp : ℤ) : ℚ) (by
        intro c hc
        rw [if_pos hc]; push_cast; ring) (by push_cast; ring)]
    refine hopt _ _ ?_ ?_
    · intro c
      simp only
      split_ifs with hc
      · have := hq' c hc
        unfold Neighbour at this
        rw [fk c hc, ← psw] at this
        rcases this with h | h <;> rw [h]
        · left; push_cast; ring
        · right; push_cast; ring
      · left; rfl
    · unfold Neighbour at hc'
      rw [fb, ← psb] at hc'
      rcases hc' with h | h <;> rw [h]
      · left; push_cast; ring
      · right; push_cast; ring

/-- C82.  With an exact sampler and no parameter search, no neuron (none of whose candidates leaves its dtype) has a larger
error than in the plainly quantized network `w`. -/
theorem C82_not_worse (ask : ℕ → ℕ → QDict → ℕ → Bool) (ha : ExactSampler ask) (ext : Ext) (lossFn : Option SeqNet → ℚ)
    (draws : List (List ParamEq.Draw)) (cs : List Choices) (cfg : Config.QuantizerCfg)
    (hq : cfg.adaRoundNet = some .qubo) (hp : cfg.paramEqualizer = none) (x : List (List ℚ)) (hx : x ≠ [])
    (ls : List KLayer) (hls : ∀ l, KLayer.lstm l ∉ ls) (hsh : ∀ l, KLayer.dense l ∈ ls → ∃ n, ShapeOk l n) (w w' : World)
    (rs rs' : List QRes) (h : quantizeModel ext cfg.forKeras (.mat x) ls = some (w, rs))
    (hb : Build.build ext lossFn (quboNet ask (.mat x) ls) draws cs cfg (.mat x) ls = some (w', rs'))
    (j : ℕ) (prev r : QRes) (hj : rs'[j]? = some prev) (hj1 : rs'[j + 1]? = some r) (op : Op) (rest : List Op)
    (hop : r.ops = op :: rest) (i k b : Ref) (hin : op.inputs = [i, k, b])
    (hdk : Fits32 (w.nodes k.id).quant.min (w.nodes k.id).quant.max)
    (hdb : Fits32 (w.nodes b.id).quant.min (w.nodes b.id).quant.max) :
    ∃ X Y tk tb uk ub D, prev.data = .mat X ∧ r.data = .mat Y ∧ (∀ s ∈ X, s.length = D) ∧
      tk.fp.data.length = tb.fp.data.length * D ∧ (w.nodes k.id).tensor = some tk ∧
      (w.nodes b.id).tensor = some tb ∧ (w'.nodes k.id).tensor = some uk ∧ (w'.nodes b.id).tensor = some ub ∧
      ∀ l < tb.fp.data.length,
        (∀ c < D, ∀ q, Neighbour (tk.fp.data.getD (l * D + c) 0) (w.nodes k.id).scale (w.nodes k.id).zp q →
          Code (w.nodes k.id).quant.min (w.nodes k.id).quant.max q) →
        (∀ q, Neighbour (tb.fp.data.getD l 0) (w.nodes b.id).scale (w.nodes b.id).zp q →
          Code (w.nodes b.id).quant.min (w.nodes b.id).quant.max q) →
        neuronError X Y (w.nodes i.id).scale (w.nodes k.id).scale (w.nodes b.id).scale (w.nodes k.id).zp
            (w.nodes b.id).zp l (fun c => uk.quantized.getD (l * D + c) 0) (ub.quantized.getD l 0) ≤
          neuronError X Y (w.nodes i.id).scale (w.nodes k.id).scale (w.nodes b.id).scale (w.nodes k.id).zp
            (w.nodes b.id).zp l (fun c => tk.quantized.getD (l * D + c) 0) (tb.quantized.getD l 0) := by
  obtain ⟨e, w1, hm, hro, he, -⟩ := quboBuild_ok hq hx hls hsh h hb
  subst e
  have hw := he hp
  subst hw
  have si := hro.still i.id
  have sk := hro.still k.id
  have sb := hro.still b.id
  have hopm : op ∈ networkOps rs' := by
    simp only [networkOps, List.mem_flatMap]
    exact ⟨r, List.mem_of_getElem? hj1, by rw [hop]; simp⟩
  have h3 : op.inputs.length = 3 := by rw [hin]; rfl
  obtain ⟨-, kf, k3, -⟩ := ints_end hls h hm hro hopm h3 (r := k) (by rw [hin]; simp)
  obtain ⟨-, bf, b3, -⟩ := ints_end hls h hm hro hopm h3 (r := b) (by rw [hin]; simp)
  obtain ⟨X, Y, uk, ub, D, o1, o2, o3, o4, o5, o6, o7⟩ := C82_optimal ask ha ext lossFn draws cs cfg hq x hx ls hls hsh _ w'
    rs' rs' h hb j prev r hj hj1 op rest hop i k b hin (by rw [sk.quant]; exact hdk) (by rw [sb.quant]; exact hdb)
  have fk := sk.fp
  have fb := sb.fp
  rw [o4, Option.map_some, eq_comm, Option.map_eq_some_iff] at fk
  rw [o5, Option.map_some, eq_comm, Option.map_eq_some_iff] at fb
  obtain ⟨tk, htk, fk⟩ := fk
  obtain ⟨tb, htb, fb⟩ := fb
  refine ⟨X, Y, tk, tb, uk, ub, D, o1, o2, o3, by rw [fk, fb]; exact o6, htk, htb, o4, o5, ?_⟩
  rw [si.scale, sk.scale, sk.zp, sk.quant, sb.scale, sb.zp, sb.quant, ← fk, ← fb] at o7
  rw [sk.scale] at k3
  rw [sb.scale] at b3
  rw [← fk, ← fb] at o6
  intro l hl hck hcb
  have near : ∀ (n : Node) (t : TensorPart), FitT n → Fits32 n.quant.min n.quant.max → n.scale ≠ 0 → n.tensor = some t →
      ∀ c < t.fp.data.length, (∀ q, Neighbour (t.fp.data.getD c 0) n.scale n.zp q → Code n.quant.min n.quant.max q) →
        Neighbour (t.fp.data.getD c 0) n.scale n.zp (t.quantized.getD c 0) := by
    intro n t hf hd hs ht c hc hcode
    obtain ⟨bits, c1, c2, c3⟩ := fitT_ints hf hd hs ht
    rw [c3, List.getD_eq_getElem (List.zipWith _ _ _) 0 (by simp [c1, hc]), List.getElem_zipWith]
    have hbit := c2 (bits[c]'(by omega)) (List.getElem_mem _)
    rw [List.getD_eq_getElem _ 0 hc] at hcode ⊢
    have hn : Neighbour t.fp.data[c] n.scale n.zp (⌊t.fp.data[c] / n.scale + (n.zp : ℚ)⌋ + bits[c]'(by omega)) := by
      unfold Neighbour
      rw [Int.floor_add_intCast]
      rcases hbit with e | e <;> rw [e]
      · left; omega
      · right; omega
    rw [clip_of_mem (hcode _ hn).1 (hcode _ hn).2]
    exact hn
  refine (o7 l hl hck hcb).2 _ _ (fun c hc => ?_) ?_
  · refine near _ tk kf.tensor hdk k3 htk _ ?_ (hck c hc)
    rw [o6]
    calc l * D + c < l * D + D := by omega
      _ = (l + 1) * D := by ring
      _ ≤ _ := Nat.mul_le_mul_right _ hl
  · exact near _ tb bf.tensor hdb b3 htb _ hl hcb

/-- C82.  Without a parameter search, only the integers of tensors differ from the plainly quantized export. -/
theorem C82_export (ask : ℕ → ℕ → QDict → ℕ → Bool) (ext : Ext) (lossFn : Option SeqNet → ℚ)
    (draws : List (List ParamEq.Draw)) (cs : List Choices) (cfg : Config.QuantizerCfg)
    (hq : cfg.adaRoundNet = some .qubo) (hp : cfg.paramEqualizer = none) (X : List (List ℚ)) (hX : X ≠ [])
    (ls : List KLayer) (hls : ∀ l, KLayer.lstm l ∉ ls) (hsh : ∀ l, KLayer.dense l ∈ ls → ∃ n, ShapeOk l n) (w w' : World)
    (rs rs' : List QRes) (h : quantizeModel ext cfg.forKeras (.mat X) ls = some (w, rs))
    (hb : Build.build ext lossFn (quboNet ask (.mat X) ls) draws cs cfg (.mat X) ls = some (w', rs')) :
    withoutIntegers (networkJson w' rs') = withoutIntegers (networkJson w rs) := by
  obtain ⟨rfl, w1, -, hr, he, -⟩ := quboBuild_ok hq hX hls hsh h hb
  rw [he hp] at hr
  exact export_round hr rs'

/-- C82.  Without a parameter search, the result does not depend on the user's loss function. -/
theorem C82_loss_ignored (ask : ℕ → ℕ → QDict → ℕ → Bool) (ext : Ext) (lossFn lossFn' : Option SeqNet → ℚ)
    (draws : List (List ParamEq.Draw)) (cs : List Choices) (cfg : Config.QuantizerCfg)
    (hq : cfg.adaRoundNet = some .qubo) (hp : cfg.paramEqualizer = none) (x : Arr ℚ) (ls : List KLayer) :
    Build.build ext lossFn (quboNet ask x ls) draws cs cfg x ls =
      Build.build ext lossFn' (quboNet ask x ls) draws cs cfg x ls := by
  unfold Build.build Config.build
  rw [hp, hq]
  rfl

/-- C82.  A model with an LSTM layer cannot be built with the QUBO optimizer: an exception is raised. -/
theorem C82_lstm_raises (ask : ℕ → ℕ → QDict → ℕ → Bool) (ext : Ext) (lossFn : Option SeqNet → ℚ)
    (draws : List (List ParamEq.Draw)) (cs : List Choices) (cfg : Config.QuantizerCfg)
    (hq : cfg.adaRoundNet = some .qubo) (x : Arr ℚ) (ls : List KLayer) (l : KLSTM) (hl : KLayer.lstm l ∈ ls) :
    Build.build ext lossFn (quboNet ask x ls) draws cs cfg x ls = none := by
  cases h : quantizeModel ext cfg.forKeras x ls with
  | none => unfold Build.build Config.build; rw [h]; rfl
  | some p =>
    obtain ⟨w, rs⟩ := p
    cases hb : Build.build ext lossFn (quboNet ask x ls) draws cs cfg x ls with
    | none => rfl
    | some q =>
      exfalso
      obtain ⟨w', rs'⟩ := q
      obtain ⟨rfl, w1, h1, h2⟩ := build_cases h hb
      obtain ⟨r, hr, op, ho, ht⟩ := model_lstm l hl h
      rw [hq] at h2
      have h2' : quboNet ask x ls w1 rs' = some w' := h2
      unfold quboNet at h2'
      rw [qubo_lstm rs' r hr op ho ht] at h2'
      cases h2'

/-! ## A concrete run -/

namespace C82Case

def cfg : Config.QuantizerCfg := { adaRoundNet := some .qubo }

/-- A neuron with a saturating activation (`tanh` is replaced by a rational function with the same name). -/
def neuron : KDense :=
  { name := "a", units := 1, kernel := [[-1], [3 / 10]], bias := some [1 / 4], actName := "tanh", act := fun x => x / 4 }

def samples : List (List ℚ) := [[1 / 7, 2], [-1, 3], [1 / 3, 1 / 2]]

def plain : Option (World × List QRes) := quantizeModel ⟨id, id, id⟩ cfg.forKeras (.mat samples) [.dense neuron]

def built : Option (World × List QRes) :=
  build ⟨id, id, id⟩ (fun _ => 1) (quboNet exhaustive (.mat samples) [.dense neuron]) [] [] cfg (.mat samples)
    [.dense neuron]

/-- Scales, zero points and stored integers of kernel and bias. -/
def stored (p : World × List QRes) : List ℚ × List ℤ × List ℤ :=
  ([(p.1.nodes 0).scale, (p.1.nodes 1).scale, (p.1.nodes 2).scale], [(p.1.nodes 1).zp, (p.1.nodes 2).zp],
    ((p.1.nodes 1).tensor.map (fun t => t.quantized)).getD [] ++ ((p.1.nodes 2).tensor.map (fun t => t.quantized)).getD [])

theorem shapes : ∀ l, KLayer.dense l ∈ [KLayer.dense neuron] → ∃ n, ShapeOk l n := by
  intro l hl
  simp only [List.mem_singleton, KLayer.dense.injEq] at hl
  subst hl
  exact ⟨2, rfl, by decide, by decide, by simp [neuron]⟩

/-- The weight -1 is exactly representable (code -128); the optimizer stores -127. -/
theorem plain_eq : plain.map stored = some ([4 / 255, 1 / 128, 1 / 8160], [0, 0], [-128, 38, 2040]) := by decide +kernel

theorem built_eq : built.map stored = some ([4 / 255, 1 / 128, 1 / 8160], [0, 0], [-127, 38, 2040]) := by decide +kernel

/-- All hypotheses of the theorems above hold here. -/
example : (∃ p, plain = some p) ∧ (∃ p, built = some p) ∧ (∀ l, KLayer.lstm l ∉ [KLayer.dense neuron]) :=
  ⟨by have := plain_eq; cases h : plain <;> simp_all, by have := built_eq; cases h : built <;> simp_all, by simp⟩

end C82Case

open C82Case in
/-- C82.  The optimizer compares the layer *before* its activation with the float result *after* it, so with an activation
the stored integers can be strictly worse for the layer's own (pre-activation) results than plain rounding was, even with
an exact sampler and although no candidate leaves its dtype. -/
theorem C82_activation_worse : ∃ q q' : List ℤ, plain.map stored = some ([4 / 255, 1 / 128, 1 / 8160], [0, 0], q) ∧
    built.map stored = some ([4 / 255, 1 / 128, 1 / 8160], [0, 0], q') ∧
    neuronError samples (samples.map (fun x => [x.getD 0 0 * -1 + x.getD 1 0 * (3 / 10) + 1 / 4])) (4 / 255) (1 / 128)
        (1 / 8160) 0 0 0 (fun c => q.getD c 0) (q.getD 2 0) <
      neuronError samples (samples.map (fun x => [x.getD 0 0 * -1 + x.getD 1 0 * (3 / 10) + 1 / 4])) (4 / 255) (1 / 128)
        (1 / 8160) 0 0 0 (fun c => q'.getD c 0) (q'.getD 2 0) :=
  ⟨_, _, plain_eq, built_eq, by decide +kernel⟩

end Verif
