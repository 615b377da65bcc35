import Verif.Props.RealClasses

/-!
# Property C113: classifiers with a softmax head, against the probabilities over the real numbers
-/

namespace Verif
open Spec Keras

namespace Spec

noncomputable section

/-- The probabilities of classes with the real scores `t`. -/
def realSoftmax (t : List ℝ) : List ℝ := t.map (fun v => Real.exp v / (t.map Real.exp).sum)

/-- Class `c` is more probable than every other one. -/
def RealLikely (t : List ℝ) (c : ℕ) : Prop :=
  ∃ p, (realSoftmax t)[c]? = some p ∧ ∀ (j : ℕ) (q : ℝ), j ≠ c → (realSoftmax t)[j]? = some q → q < p

/-- Class `c` is more probable than every other class by a factor of more than `exp` of the errors of both scores. -/
def Outweighs (t E : List ℝ) (c : ℕ) : Prop :=
  ∃ p e, (realSoftmax t)[c]? = some p ∧ E[c]? = some e ∧
    ∀ (j : ℕ) (q e' : ℝ), j ≠ c → (realSoftmax t)[j]? = some q → E[j]? = some e' → Real.exp (e' + e) * q < p

end

end Spec

namespace RealSoftmax
open RealClasses RealFiles FloatEngine FloatEnds SoftmaxHead

theorem sum_pos {t : List ℝ} {a : ℝ} (ha : a ∈ t) : 0 < (t.map Real.exp).sum := by
  have h0 : ∀ x ∈ t.map Real.exp, (0 : ℝ) ≤ x := by
    intro x hx
    obtain ⟨u, -, rfl⟩ := List.mem_map.mp hx
    exact (Real.exp_pos _).le
  exact lt_of_lt_of_le (Real.exp_pos a) (List.single_le_sum h0 _ (List.mem_map.mpr ⟨a, ha, rfl⟩))

theorem prob_lt {t : List ℝ} {a : ℝ} (ha : a ∈ t) (b d : ℝ) :
    Real.exp d * (Real.exp b / (t.map Real.exp).sum) < Real.exp a / (t.map Real.exp).sum ↔ b + d < a := by
  rw [← mul_div_assoc, div_lt_div_iff_of_pos_right (sum_pos ha), ← Real.exp_add, Real.exp_lt_exp, add_comm]

theorem outweighs_iff (t E : List ℝ) (c : ℕ) : Outweighs t E c ↔ RealDecisive t E c := by
  unfold Outweighs RealDecisive realSoftmax
  constructor
  · rintro ⟨p, e, hp, he, hall⟩
    rw [List.getElem?_map, Option.map_eq_some_iff] at hp
    obtain ⟨a, ha, rfl⟩ := hp
    refine ⟨a, e, ha, he, fun j b e' hj hb he' => ?_⟩
    have := (prob_lt (List.mem_of_getElem? ha) b (e' + e)).mp (hall j _ e' hj (by rw [List.getElem?_map, hb]; rfl) he')
    linarith
  · rintro ⟨a, e, ha, he, hall⟩
    refine ⟨_, e, by rw [List.getElem?_map, ha]; rfl, he, fun j q e' hj hq he' => ?_⟩
    rw [List.getElem?_map, Option.map_eq_some_iff] at hq
    obtain ⟨b, hb, rfl⟩ := hq
    have := hall j b e' hj hb he'
    exact (prob_lt (List.mem_of_getElem? ha) b (e' + e)).mpr (by linarith)

theorem likely_iff (t : List ℝ) (c : ℕ) :
    RealLikely t c ↔ ∃ a, t[c]? = some a ∧ ∀ (j : ℕ) (b : ℝ), j ≠ c → t[j]? = some b → b < a := by
  unfold RealLikely realSoftmax
  have key : ∀ (a b : ℝ), a ∈ t → (Real.exp b / (t.map Real.exp).sum < Real.exp a / (t.map Real.exp).sum ↔ b < a) := by
    intro a b ha
    have := prob_lt ha b 0
    rwa [Real.exp_zero, one_mul, add_zero] at this
  constructor
  · rintro ⟨p, hp, hall⟩
    rw [List.getElem?_map, Option.map_eq_some_iff] at hp
    obtain ⟨a, ha, rfl⟩ := hp
    refine ⟨a, ha, fun j b hj hb => (key a b (List.mem_of_getElem? ha)).mp (hall j _ hj ?_)⟩
    rw [List.getElem?_map, hb]; rfl
  · rintro ⟨a, ha, hall⟩
    refine ⟨_, by rw [List.getElem?_map, ha]; rfl, fun j q hj hq => ?_⟩
    rw [List.getElem?_map, Option.map_eq_some_iff] at hq
    obtain ⟨b, hb, rfl⟩ := hq
    exact (key a b (List.mem_of_getElem? ha)).mpr (hall j b hj hb)

/-- Scores within the errors: these are not negative, so a decisive class is the most probable one. -/
theorem likely_of {y : List ℚ} {t E : List ℝ} (h : WithinReal y t E) {c : ℕ} (hc : Outweighs t E c) : RealLikely t c := by
  rw [likely_iff]
  obtain ⟨a, e, ha, he, hall⟩ := (outweighs_iff t E c).mp hc
  obtain ⟨hl, h⟩ := h
  have h0 : ∀ e ∈ E, 0 ≤ e := by
    intro e he
    obtain ⟨i, hi, rfl⟩ := List.mem_iff_getElem.mp he
    have hlen := h.length_eq
    rw [List.length_zip] at hlen
    have := (List.forall₂_iff_get.mp h).2 i (by omega) (by rw [List.length_zip]; omega)
    simp only [List.get_eq_getElem, List.getElem_zip] at this
    exact (abs_nonneg _).trans this
  refine ⟨a, ha, fun j b hj hb => ?_⟩
  have hjt : j < t.length := (List.getElem?_eq_some_iff.mp hb).1
  have hjE : E[j]? = some (E[j]'(by omega)) := List.getElem?_eq_getElem _
  have h1 := hall j b _ hj hb hjE
  have h2 := h0 e (List.mem_of_getElem? he)
  have h3 := h0 _ (List.mem_of_getElem? hjE)
  linarith

/-- What the operators do, apart from how the file begins and ends. -/
theorem run_ops (ext : Ext) (s : ℚ) (z : ℤ) (ops : List OpJ) (rs : List RealOp) (hl : ∀ R ∈ rs, Lip R)
    (happ : ∀ η : ℚ, 0 < η → ∃ fs, List.Forall₂ (fun op f => ∀ n, f.Fits n → StepOk ext op f n) ops fs ∧
      List.Forall₂ (OpClose η) fs rs)
    (hs : 0 < s) (hz : Code (-128) 127 z) (n : ℕ) (hfit : realFits (s, z) rs n) :
    ∃ layers, ops.mapM Fmt.f64.buildLayer = some layers ∧
      (∀ x : List ℚ, x.length = n → ∃ y rec,
        Fmt.f64.runLayers ext layers (.int (Arr.map (fun v => Fmt.f64.quantize (intDtype 7) v z s) (.vec x))) =
          some (.int (.vec y), rec) ∧ RealAnswer s z rs y x) ∧
      ∀ X : List (List ℚ), X ≠ [] → (∀ x ∈ X, x.length = n) → ∃ Y rec,
        Fmt.f64.runLayers ext layers (.int (Arr.map (fun v => Fmt.f64.quantize (intDtype 7) v z s) (.mat X))) =
          some (.int (.mat Y), rec) ∧ List.Forall₂ (fun y x => RealAnswer s z rs y x) Y X := by
  have main : ∀ η : ℚ, 0 < η → ∃ fs layers, List.Forall₂ (OpClose η) fs rs ∧ ops.mapM Fmt.f64.buildLayer = some layers ∧
      (∀ x : List ℚ, x.length = n → ∃ y rec,
        Fmt.f64.runLayers ext layers (.int (Arr.map (fun v => Fmt.f64.quantize (intDtype 7) v z s) (.vec x))) =
          some (.int (.vec y), rec) ∧ CodesFor (fileLast (s, z) fs) y (fileExact fs x) (fileBound fs x (inputBound s z x))) ∧
      ∀ X : List (List ℚ), X ≠ [] → (∀ x ∈ X, x.length = n) → ∃ Y rec,
        Fmt.f64.runLayers ext layers (.int (Arr.map (fun v => Fmt.f64.quantize (intDtype 7) v z s) (.mat X))) =
          some (.int (.mat Y), rec) ∧ List.Forall₂ (fun y x =>
            CodesFor (fileLast (s, z) fs) y (fileExact fs x) (fileBound fs x (inputBound s z x))) Y X := by
    intro η hη
    obtain ⟨fs, hm, hc⟩ := happ η hη
    obtain ⟨layers, hls, -, hv, hb⟩ := ops_close_of ext hm (s, z) n (fits_of_close hc hl _ _ hfit) hz
    refine ⟨fs, layers, hc, hls, fun x hx => ?_, fun X hX hX' => ?_⟩
    · exact hv _ x _ hx (quant_close hs hz x)
    · obtain ⟨Y, rec, a, b⟩ := hb _ _ (by simpa using hX) (batch_close hs hz X hX')
      rw [List.forall₂_map_right_iff] at b
      exact ⟨Y, rec, a, b⟩
  obtain ⟨f1, layers, -, hls, hv, hb⟩ := main 1 one_pos
  refine ⟨layers, hls, fun x hx => ?_, fun X hX hX' => ?_⟩
  · obtain ⟨y, rec, a, -⟩ := hv x hx
    refine ⟨y, rec, a, codes_limit rs hl s z x y (fun η hη => ?_)⟩
    obtain ⟨fs, layers', hc, hls', hv', -⟩ := main η hη
    rw [hls, Option.some.injEq] at hls'
    subst hls'
    obtain ⟨y', rec', a', b⟩ := hv' x hx
    rw [a, Option.some.injEq, Prod.mk.injEq] at a'
    obtain ⟨e, -⟩ := a'
    injection e with e
    injection e with e
    rw [e]
    exact ⟨fs, hc, b⟩
  · obtain ⟨Y, rec, a, hw⟩ := hb X hX hX'
    refine ⟨Y, rec, a, List.forall₂_iff_get.mpr ⟨hw.length_eq, fun k hk hk' => codes_limit rs hl s z _ _ (fun η hη => ?_)⟩⟩
    obtain ⟨fs, layers', hc, hls', -, hb'⟩ := main η hη
    rw [hls, Option.some.injEq] at hls'
    subst hls'
    obtain ⟨Y', rec', a', b⟩ := hb' X hX hX'
    rw [a, Option.some.injEq, Prod.mk.injEq] at a'
    obtain ⟨e, -⟩ := a'
    injection e with e
    injection e with e
    subst e
    exact ⟨fs, hc, (List.forall₂_iff_get.mp b).2 k hk hk'⟩

theorem codes_predicts {q : List ℤ} {t E : List ℝ} (h : CodesDecide q t E) {c : ℕ} (hc : RealDecisive t E c) :
    Predicts (q.map (fun (v : ℤ) => (v : ℚ))) c := by
  obtain ⟨a, ha, hall⟩ := h.2 c hc
  refine ⟨a, by rw [List.getElem?_map, ha]; rfl, fun j b hj hb => ?_⟩
  rw [List.getElem?_map, Option.map_eq_some_iff] at hb
  obtain ⟨v, hv, rfl⟩ := hb
  have := hall j v hj hv
  exact_mod_cast this

end RealSoftmax

open RealSoftmax RealClasses RealFiles FloatEngine FloatEnds SoftmaxHead

/-- **C113 (margins).**  A class wins by more than the errors of the scores exactly if its probability outweighs the others by the
exponential of the errors; it has the largest score exactly if it is the most probable one. -/
theorem C113_margin (t E : List ℝ) (c : ℕ) : (Outweighs t E c ↔ RealDecisive t E c) ∧
    (RealLikely t c ↔ ∃ a, t[c]? = some a ∧ ∀ (j : ℕ) (b : ℝ), j ≠ c → t[j]? = some b → b < a) :=
  ⟨outweighs_iff t E c, likely_iff t c⟩

/-- **C113 (codes).**  A file that ends with SOFTMAX answers with codes; where a class outweighs the others over the real numbers,
the largest code is at this class, and it is the most probable one. -/
theorem C113_codes (ext : Ext) (δ : ℚ) (net : NetJ) (s : ℚ) (z : ℤ) (ops : List OpJ) (sm : OpJ) (rs : List RealOp)
    (heng : upper net.engine = "TFLITE".toList) (hout : ∃ o, net.output[0]? = some (some o))
    (hopen : Opens net s z (ops ++ [sm])) (hops : List.Forall₂ (RealEngineMeans ext δ) ops rs) (hG : Steady rs)
    (hsm : IsSoftmax sm) (hs : 0 < s) (hz : Code (-128) 127 z) (n : ℕ) (hfit : realFits (s, z) rs n)
    (hsteps : ∀ f L τ sx zx so zo, RealOp.act f L τ sx zx so zo ∈ rs → 0 < so) :
    ∃ N, Fmt.f64.load net = some N ∧
      (∀ x : List ℚ, x.length = n → ∃ y rec, Fmt.f64.infer ext N (.flt (.vec x)) = some (.int (.vec y), rec) ∧
        RealAnswer s z rs y x ∧
        ∀ c, Outweighs (realFile rs (x.map (↑))) (realBound rs (x.map (↑)) ((inputBound s z x).map (↑))) c →
          Predicts (y.map (fun (v : ℤ) => (v : ℚ))) c ∧ RealLikely (realFile rs (x.map (↑))) c) ∧
      ∀ X : List (List ℚ), X ≠ [] → (∀ x ∈ X, x.length = n) →
        ∃ Y rec, Fmt.f64.infer ext N (.flt (.mat X)) = some (.int (.mat Y), rec) ∧
          List.Forall₂ (fun (y : List ℤ) (x : List ℚ) => RealAnswer s z rs y x ∧
            ∀ c, Outweighs (realFile rs (x.map (↑))) (realBound rs (x.map (↑)) ((inputBound s z x).map (↑))) c →
              Predicts (y.map (fun (v : ℤ) => (v : ℚ))) c ∧ RealLikely (realFile rs (x.map (↑))) c) Y X := by
  have hp := last_pos hs hfit hsteps
  have fin : ∀ {y : List ℤ} {x : List ℚ}, RealAnswer s z rs y x → RealAnswer s z rs y x ∧
      ∀ c, Outweighs (realFile rs (x.map (↑))) (realBound rs (x.map (↑)) ((inputBound s z x).map (↑))) c →
        Predicts (y.map (fun (v : ℤ) => (v : ℚ))) c ∧ RealLikely (realFile rs (x.map (↑))) c :=
    fun h => ⟨h, fun c hc => ⟨codes_predicts (codes_decide hp h) ((outweighs_iff _ _ _).mp hc), likely_of h.2 hc⟩⟩
  obtain ⟨layers, hls, hv, hb⟩ := run_ops ext s z ops rs (engine_lips hops hG) (fun η hη => engine_approx hops η hη) hs hz n hfit
  have hall : (ops ++ [sm]).mapM Fmt.f64.buildLayer = some (layers ++ [.softmax]) := by
    rw [List.mapM_append, hls, List.mapM_cons, softmax_layer hsm]
    rfl
  obtain ⟨N, pre, hN, hrun⟩ := opens_run ext hopen hs heng hout hall
  refine ⟨N, hN, fun x hx => ?_, fun X hX hX' => ?_⟩
  · obtain ⟨y, rec, a, b⟩ := hv x hx
    refine ⟨y, pre (.vec x) ++ (rec ++ [.int (.vec y)]), ?_, fin b⟩
    rw [hrun, runLayers_append, a]
    simp only [Fmt.runLayers, Fmt.inferLayer, Layer.infer, Option.bind_eq_bind, Option.bind_some, Option.map_some]
  · obtain ⟨Y, rec, a, b⟩ := hb X hX hX'
    refine ⟨Y, pre (.mat X) ++ (rec ++ [.int (.mat Y)]), ?_, b.imp (fun _ _ h => fin h)⟩
    rw [hrun, runLayers_append, a]
    simp only [Fmt.runLayers, Fmt.inferLayer, Layer.infer, Option.bind_eq_bind, Option.bind_some, Option.map_some]

/-- Operators that approximate the real ones as well as one likes, a SOFTMAX and a dequantize operator. -/
theorem RealSoftmax.head_numbers (ext : Ext) (net : NetJ) (s : ℚ) (z : ℤ) (ops : List OpJ) (sm d : OpJ) (rs : List RealOp)
    (p' : ℚ × ℤ) (heng : upper net.engine = "TFLITE".toList) (hout : ∃ o, net.output[0]? = some (some o))
    (hopen : Opens net s z (ops ++ [sm, d])) (hl : ∀ R ∈ rs, Lip R)
    (happ : ∀ η : ℚ, 0 < η → ∃ fs, List.Forall₂ (fun op f => ∀ n, f.Fits n → StepOk ext op f n) ops fs ∧
      List.Forall₂ (OpClose η) fs rs)
    (hsm : IsSoftmax sm) (hd : IsDequantize d p') (hp' : 0 < p'.1) (hf' : IsFloat 53 (-1074) p'.1) (hz' : Code (-128) 127 p'.2)
    (hs : 0 < s) (hz : Code (-128) 127 z) (n : ℕ) (hfit : realFits (s, z) rs n)
    (hsteps : ∀ f L τ sx zx so zo, RealOp.act f L τ sx zx so zo ∈ rs → 0 < so) :
    ∃ N, Fmt.f64.load net = some N ∧
      (∀ x : List ℚ, x.length = n → ∃ y rec, Fmt.f64.infer ext N (.flt (.vec x)) = some (.flt (.vec y), rec) ∧
        y.length = (realFile rs (x.map (↑))).length ∧ ∀ c, Outweighs (realFile rs (x.map (↑))) (realBound rs (x.map (↑)) ((inputBound s z x).map (↑))) c →
          Predicts y c ∧ RealLikely (realFile rs (x.map (↑))) c) ∧
      ∀ X : List (List ℚ), X ≠ [] → (∀ x ∈ X, x.length = n) →
        ∃ Y rec, Fmt.f64.infer ext N (.flt (.mat X)) = some (.flt (.mat Y), rec) ∧
          List.Forall₂ (fun (y x : List ℚ) => y.length = (realFile rs (x.map (↑))).length ∧
            ∀ c, Outweighs (realFile rs (x.map (↑))) (realBound rs (x.map (↑)) ((inputBound s z x).map (↑))) c →
              Predicts y c ∧ RealLikely (realFile rs (x.map (↑))) c) Y X := by
  have hp := last_pos hs hfit hsteps
  have fin : ∀ {y : List ℤ} {x : List ℚ}, RealAnswer s z rs y x →
      (y.map (fun q => Fmt.f64.dequantize q p'.2 p'.1)).length = (realFile rs (x.map (↑))).length ∧ ∀ c, Outweighs (realFile rs (x.map (↑))) (realBound rs (x.map (↑)) ((inputBound s z x).map (↑))) c →
        Predicts (y.map (fun q => Fmt.f64.dequantize q p'.2 p'.1)) c ∧ RealLikely (realFile rs (x.map (↑))) c :=
    fun h => ⟨by rw [List.length_map]; exact (codes_decide hp h).1,
      fun c hc => ⟨deq_class hp' (.inl hf') hz' h.1 (codes_predicts (codes_decide hp h) ((outweighs_iff _ _ _).mp hc)),
        likely_of h.2 hc⟩⟩
  obtain ⟨layers, hls, hv, hb⟩ := run_ops ext s z ops rs hl happ hs hz n hfit
  have hall : (ops ++ [sm, d]).mapM Fmt.f64.buildLayer = some (layers ++ [.softmax, .dequantize p'.2 p'.1]) := by
    rw [List.mapM_append, hls, List.mapM_cons, softmax_layer hsm, List.mapM_cons, dequantize_layer hd]
    rfl
  obtain ⟨N, pre, hN, hrun⟩ := opens_run ext hopen hs heng hout hall
  refine ⟨N, hN, fun x hx => ?_, fun X hX hX' => ?_⟩
  · obtain ⟨y, rec, a, b⟩ := hv x hx
    refine ⟨y.map (fun q => Fmt.f64.dequantize q p'.2 p'.1),
      pre (.vec x) ++ (rec ++ [.int (.vec y), .flt (.vec (y.map (fun q => Fmt.f64.dequantize q p'.2 p'.1)))]), ?_, fin b⟩
    rw [hrun, runLayers_append, a]
    simp only [Fmt.runLayers, Fmt.inferLayer, Layer.infer, Option.bind_eq_bind, Option.bind_some, Option.map_some, Tensor.toInt,
      Arr.map]
  · obtain ⟨Y, rec, a, b⟩ := hb X hX hX'
    refine ⟨Y.map (fun y => y.map (fun q => Fmt.f64.dequantize q p'.2 p'.1)), pre (.mat X) ++ (rec ++
      [.int (.mat Y), .flt (.mat (Y.map (fun y => y.map (fun q => Fmt.f64.dequantize q p'.2 p'.1))))]), ?_, ?_⟩
    · rw [hrun, runLayers_append, a]
      simp only [Fmt.runLayers, Fmt.inferLayer, Layer.infer, Option.bind_eq_bind, Option.bind_some, Option.map_some, Tensor.toInt,
        Arr.map]
    · rw [List.forall₂_map_left_iff]
      exact b.imp (fun _ _ h => fin h)

/-- **C113 (numbers).**  With a dequantize operator behind the SOFTMAX, whatever its step and zero point. -/
theorem C113_numbers (ext : Ext) (δ : ℚ) (net : NetJ) (s : ℚ) (z : ℤ) (ops : List OpJ) (sm d : OpJ) (rs : List RealOp)
    (p' : ℚ × ℤ) (heng : upper net.engine = "TFLITE".toList) (hout : ∃ o, net.output[0]? = some (some o))
    (hopen : Opens net s z (ops ++ [sm, d])) (hops : List.Forall₂ (RealEngineMeans ext δ) ops rs) (hG : Steady rs)
    (hsm : IsSoftmax sm) (hd : IsDequantize d p') (hp' : 0 < p'.1) (hf' : IsFloat 53 (-1074) p'.1) (hz' : Code (-128) 127 p'.2)
    (hs : 0 < s) (hz : Code (-128) 127 z) (n : ℕ) (hfit : realFits (s, z) rs n)
    (hsteps : ∀ f L τ sx zx so zo, RealOp.act f L τ sx zx so zo ∈ rs → 0 < so) :
    ∃ N, Fmt.f64.load net = some N ∧
      (∀ x : List ℚ, x.length = n → ∃ y rec, Fmt.f64.infer ext N (.flt (.vec x)) = some (.flt (.vec y), rec) ∧
        y.length = (realFile rs (x.map (↑))).length ∧ ∀ c, Outweighs (realFile rs (x.map (↑))) (realBound rs (x.map (↑)) ((inputBound s z x).map (↑))) c →
          Predicts y c ∧ RealLikely (realFile rs (x.map (↑))) c) ∧
      ∀ X : List (List ℚ), X ≠ [] → (∀ x ∈ X, x.length = n) →
        ∃ Y rec, Fmt.f64.infer ext N (.flt (.mat X)) = some (.flt (.mat Y), rec) ∧
          List.Forall₂ (fun (y x : List ℚ) => y.length = (realFile rs (x.map (↑))).length ∧
            ∀ c, Outweighs (realFile rs (x.map (↑))) (realBound rs (x.map (↑)) ((inputBound s z x).map (↑))) c →
              Predicts y c ∧ RealLikely (realFile rs (x.map (↑))) c) Y X :=
  head_numbers ext net s z ops sm d rs p' heng hout hopen (engine_lips hops hG) (fun η hη => engine_approx hops η hη) hsm hd hp' hf' hz'
    hs hz n hfit hsteps

open Tflite2Json in
theorem RealSoftmax.chain_steps {en : Enums} {ip : Interp} {m : TModel} {δ : ℚ} {ops : List TOp} {i o : ℕ} {rs : List RealOp}
    (hc : TfliteRealChain en ip m δ ops i o rs) {f : ℝ → ℝ} {L τ sx : ℚ} {zx : ℤ} {so : ℚ} {zo : ℤ}
    (hR : RealOp.act f L τ sx zx so zo ∈ rs) : 0 < so := by
  have pos : ∀ {i : ℕ} {s : ℚ} {z : ℤ}, Int8Tensor en m i s z → 0 < s := by
    intro i s z h
    obtain ⟨_, _, _, _, p, _⟩ := h.1
    exact p
  induction hc with
  | nil => cases hR
  | cons h _ ih =>
    rcases List.mem_cons.mp hR with rfl | hR
    · cases h with
      | tanh _ _ _ _ ho => exact pos ho
      | logistic _ _ _ _ ho => exact pos ho
      | relu _ _ _ _ ho => exact pos ho
    · exact ih hR

open Tflite2Json RealTflite RealOnnx TfliteF64 Losses Accuracy in
/-- **C113 (TFLite classifiers).**  A TFLite model of fully connected, tanh, logistic and ReLU operators, a softmax and a dequantize
operator, behind a quantize operator or an int8 input: the class that outweighs the others over the real numbers has the largest
answer of the converted network. -/
theorem C113_tflite (ext cext : Ext) (δ : ℚ) (hce : Accurate δ cext)
    (en : Enums) (ip : Interp) (m : TModel) (hi : Interprets ip m) (hout : m.outputs ≠ []) (i o p : ℕ) (s : ℚ) (z : ℤ)
    (ops : List TOp) (hne : ops ≠ []) (sm d : TOp) (rs : List RealOp) (hb : TfliteBegins en m i (ops ++ [sm, d]))
    (hx : Int8Tensor en m i s z) (hc : TfliteRealChain en ip m δ ops i o rs) (hsm : IsOp en m sm "SOFTMAX")
    (hsi : sm.inputs = [o]) (hd : IsOp en m d "DEQUANTIZE") (hdi : d.inputs = [p]) (s' : ℚ) (z' : ℤ)
    (hp : Int8Tensor en m p s' z') (n : ℕ) (hfit : realFits (s, z) rs n) (net : NetJ)
    (h : convert cext en ip m Fmt.f64.int8Table = some net) :
    ∃ N, Fmt.f64.load net = some N ∧
      (∀ x : List ℚ, x.length = n → ∃ y rec, Fmt.f64.infer ext N (.flt (.vec x)) = some (.flt (.vec y), rec) ∧
        y.length = (realFile rs (x.map (↑))).length ∧ ∀ c, Outweighs (realFile rs (x.map (↑))) (realBound rs (x.map (↑)) ((inputBound s z x).map (↑))) c →
          Predicts y c ∧ RealLikely (realFile rs (x.map (↑))) c) ∧
      ∀ X : List (List ℚ), X ≠ [] → (∀ x ∈ X, x.length = n) →
        ∃ Y rec, Fmt.f64.infer ext N (.flt (.mat X)) = some (.flt (.mat Y), rec) ∧
          List.Forall₂ (fun (y x : List ℚ) => y.length = (realFile rs (x.map (↑))).length ∧
            ∀ c, Outweighs (realFile rs (x.map (↑))) (realBound rs (x.map (↑)) ((inputBound s z x).map (↑))) c →
              Predicts y c ∧ RealLikely (realFile rs (x.map (↑))) c) Y X := by
  unfold convert at h
  simp only [Option.bind_eq_bind, Option.bind_eq_some_iff, Option.some.injEq] at h
  obtain ⟨is, his, os, hos, g, hg, rfl⟩ := h
  have pos : ∀ {i : ℕ} {s : ℚ} {z : ℤ}, Int8Tensor en m i s z → 0 < s := by
    intro i s z h
    obtain ⟨_, _, _, _, p, _⟩ := h.1
    exact p
  obtain ⟨ideal, i1, i2, i3⟩ := exists_ideal 1 one_pos
  obtain ⟨f1, c1, -⟩ := chain_close zero_le_one i1 i2 i3 hc
  obtain ⟨js, rest, h1, h2, h3⟩ := opens_of (os := os) hi hb hx c1 hne his hg
  rw [List.mapM_cons, List.mapM_cons, List.mapM_nil] at h2
  simp only [Option.bind_eq_bind, Option.bind_eq_some_iff, Option.pure_def, Option.some.injEq] at h2
  obtain ⟨jm, hjm, _, ⟨jd, hjd, _, rfl, rfl⟩, rfl⟩ := h2
  obtain ⟨m1, -, m3, -⟩ := plain_op hi hsm (by decide) (by decide) hjm
  rw [hsi] at m3
  obtain ⟨nm, m5, -⟩ := forall₂_one m3
  obtain ⟨d1, -, d3, -⟩ := plain_op hi hd (by decide) (by decide) hjd
  rw [hdi] at d3
  obtain ⟨nd, d5, d6⟩ := forall₂_one d3
  refine head_numbers ext _ s z js jm jd rs (s', z') (by show upper "TFLITE" = _; decide +kernel)
    (some_output hi hout hos) h3 (chain_lip hc) (fun η hη => ?_) ⟨m1, nm, [], m5⟩
    ⟨d1, nd, [], d5, (node8 d6 hp).1, (node8 d6 hp).2⟩ (pos hp)
    (float_of_float32 hp.2.1) hp.2.2 (pos hx) hx.2.2 n hfit ?_
  · obtain ⟨ideal, i1, i2, i3⟩ := exists_ideal η hη
    obtain ⟨fs, c1, c2⟩ := chain_close hη.le i1 i2 i3 hc
    obtain ⟨a1, -⟩ := chain_means (by norm_num) (by norm_num) i2 i3 (approximates hce i1) hi c1 h1 hx
    exact ⟨fs, a1.imp (fun _ _ h n hf => op_step ext h hf), c2⟩
  · exact fun f L τ sx zx so zo hR => chain_steps hc hR

theorem RealSoftmax.forward_append (l : KDense) (hact : upper l.actName = "SOFTMAX".toList) (ls : List KLayer) (x : List ℝ) :
    realForward (ls ++ [.dense l]) x = realRow l (realForward ls x) := by
  induction ls generalizing x with
  | nil =>
    simp only [List.nil_append, realForward]
    have e : realAct l.actName = id := by
      unfold realAct
      rw [hact]
      rw [if_neg (by decide), if_neg (by decide), if_neg (by decide), if_neg (by decide)]
    rw [e, List.map_id]
  | cons k ls ih => cases k <;> exact ih _

/-- **C113 (Keras classifiers).**  A dense Keras model whose last layer has a softmax activation: the class that, over the real
numbers, outweighs the others is the one the quantized network predicts. -/
theorem C113_keras (ext : Ext) (F : Formats) (h1 : ∀ d, Ieee (F.data d)) (h2 : ∀ d, Ieee (F.weight d)) (h3 : Ieee F.product)
    (K : FloatKeras) (cfg : Cfg) (X : Arr ℚ) (ls : List KLayer) (l : KDense) (hact : upper l.actName = "SOFTMAX".toList) (n : ℕ)
    (h8 : RealLayers cfg n (ls ++ [.dense l])) (hq : NamesType cfg.quantizeDtype "int" 8) (δ : ℚ)
    (ha : RealActs K.act δ (ls ++ [.dense l])) (g : List OpJ)
    (h : (Arith.float F K).graph cfg X (ls ++ [.dense l]) = some g) (hg : FileFactors g) :
    ∃ s z rs, NetReal (exportJson g) s z rs ∧ ExportedReal F.product.fl δ (s, z) (denseLayers (ls ++ [.dense l])) rs ∧
      ∃ N, Fmt.f64.load (exportJson g) = some N ∧
        ∀ B : List (List ℚ), B ≠ [] → (∀ x ∈ B, x.length = n) →
          ∃ Y rec, Fmt.f64.infer ext N (.flt (.mat B)) = some (.flt (.mat Y), rec) ∧
            List.Forall₂ (fun (y x : List ℚ) => ∀ c, Outweighs (realRow l (realForward ls (x.map (↑)))) (List.zipWith (· + ·)
              (realOutputBound (realFile rs (x.map (↑))) (realBound rs (x.map (↑)) ((inputBound s z x).map (↑))))
              (realDrift F.product.fl rs (denseLayers (ls ++ [.dense l])) (x.map (↑)) (x.map (fun _ => 0)))) c →
                Predicts y c ∧ RealLikely (realRow l (realForward ls (x.map (↑)))) c) Y B := by
  obtain ⟨s, z, rs, m, e, N, n1, -, n3⟩ := C109_accuracy ext F h1 h2 h3 K cfg X _ n h8 hq δ ha g h hg
  refine ⟨s, z, rs, m, e, N, n1, fun B hB hn => ?_⟩
  obtain ⟨Y, rec, e1, e2⟩ := n3 B hB hn
  refine ⟨Y, rec, e1, e2.imp (fun y x hw c hc => ?_)⟩
  rw [RealSoftmax.forward_append l hact] at hw
  exact ⟨(decides hw).2.1 c ((outweighs_iff _ _ _).mp hc), likely_of hw hc⟩

namespace C113Case
open C111Case (bare tOp lOp qOp rs means steady)
open C112Case (err err_le fits2)
open C92Case (node int8)

def smOp : OpJ := ⟨"SOFTMAX", "Softmax", [node (1 / 256) (-128)], [node (1 / 256) (-128)], none⟩

/-- The parameters a converter gives to a softmax output are not those of the scores. -/
def dOp : OpJ := ⟨"DEQUANTIZE", "Dequantize", [node (1 / 128) 0], [node 1 0], none⟩

/-- quantize → tanh → logistic → softmax → dequantize. -/
def net : NetJ := ⟨"TFLITE", 5, [qOp, tOp, lOp, smOp, dOp], [some (node 1 0)], [some (node 1 0)]⟩

theorem steps : ∀ f L τ sx zx so zo, RealOp.act f L τ sx zx so zo ∈ rs → 0 < so := fun f L τ sx zx so zo h => by
  simp only [rs, List.mem_cons, RealOp.act.injEq, List.not_mem_nil, or_false] at h
  rcases h with ⟨-, -, -, -, -, rfl, -⟩ | ⟨-, -, -, -, -, rfl, -⟩ <;> norm_num

/-- With library functions accurate to 2⁻⁵⁰ the first of two classes gets the larger answer whenever it is, over the real numbers,
more probable than the second by a factor of `exp (1/25)`. -/
example (lib : Ext) (hlib : Accurate (1 / 2 ^ 50) lib) : ∃ N, Fmt.f64.load net = some N ∧
    ∀ v w : ℚ, -19 / 10 ≤ v → v ≤ 19 / 10 → -19 / 10 ≤ w → w ≤ 19 / 10 → ∀ p q : ℝ,
      realSoftmax [Real.sigmoid (Real.tanh v), Real.sigmoid (Real.tanh w)] = [p, q] → Real.exp (1 / 25) * q < p →
      ∃ a b rec, Fmt.f64.infer lib N (.flt (.vec [v, w])) = some (.flt (.vec [a, b]), rec) ∧ b < a := by
  obtain ⟨N, h1, h2, -⟩ := C113_numbers lib (1 / 2 ^ 50) net (1 / 64) 0 [tOp, lOp] smOp dOp rs (1 / 128, 0)
    (by decide +kernel) ⟨_, rfl⟩
    (.inl ⟨qOp, node (1 / 64) 0, [], rfl, rfl, by decide +kernel, rfl, ⟨rfl, rfl⟩, int8 _ _, _, rfl⟩) (means lib hlib) steady
    ⟨rfl, _, _, rfl⟩ ⟨rfl, _, _, rfl, ⟨rfl, rfl⟩, int8 _ _⟩ (by norm_num)
    ⟨1, -7, by norm_num, by norm_num, by show (1 / 128 : ℚ) = _; norm_num⟩ (by unfold Code; norm_num)
    (by norm_num) (by unfold Code; norm_num) 2 fits2 steps
  refine ⟨N, h1, fun v w hv hv' hw hw' p q hpq hlt => ?_⟩
  obtain ⟨y, rec, hy, hlen, hc⟩ := h2 [v, w] rfl
  obtain ⟨a, b, rfl⟩ : ∃ a b, y = [a, b] := List.length_eq_two.mp (by rw [hlen]; rfl)
  refine ⟨a, b, rec, hy, ?_⟩
  obtain ⟨i1, i2⟩ := C111Case.input hv hv'
  obtain ⟨j1, j2⟩ := C111Case.input hw hw'
  have hin : inputBound (1 / 64) 0 [v, w] =
      [(1 / 64) * (1 / 2 + (4 * |v / (1 / 64)| + 1) / 2 ^ 53), (1 / 64) * (1 / 2 + (4 * |w / (1 / 64)| + 1) / 2 ^ 53)] := by
    show inputBound (1 / 64) 0 [v] ++ inputBound (1 / 64) 0 [w] = _
    rw [i1, j1]; rfl
  have k1 : (1 / 64) * (1 / 2 + (4 * |v / (1 / 64)| + 1) / 2 ^ 53) ≤ 8 / 1000 := by linarith
  have k2 : (1 / 64) * (1 / 2 + (4 * |w / (1 / 64)| + 1) / 2 ^ 53) ≤ 8 / 1000 := by linarith
  rw [hin] at hc
  generalize (1 / 64) * (1 / 2 + (4 * |v / (1 / 64)| + 1) / 2 ^ 53) = e at *
  generalize (1 / 64) * (1 / 2 + (4 * |w / (1 / 64)| + 1) / 2 ^ 53) = e' at *
  have b1 := err_le k1 v
  have b2 := err_le k2 w
  have hq0 : 0 < q := by
    have : q = Real.exp (Real.sigmoid (Real.tanh w)) /
        ([Real.sigmoid (Real.tanh v), Real.sigmoid (Real.tanh w)].map Real.exp).sum := by
      unfold realSoftmax at hpq
      simp only [List.map_cons, List.map_nil, List.cons.injEq] at hpq
      exact hpq.2.1.symm
    rw [this]
    exact div_pos (Real.exp_pos _) (sum_pos (List.mem_cons_self (a := Real.sigmoid (Real.tanh v))))
  have hfile : realFile rs (([v, w] : List ℚ).map (↑)) = [Real.sigmoid (Real.tanh v), Real.sigmoid (Real.tanh w)] := by
    simp [rs, realFile, RealOp.exact]
  obtain ⟨⟨a', ha, hall⟩, -⟩ := hc 0 ⟨p, err e v, by rw [hfile, hpq]; rfl, rfl, by
    intro j c f hj hc hf
    rw [hfile, hpq] at hc
    match j, hj with
    | 1, _ =>
      obtain rfl : q = c := Option.some.inj hc
      have hf : err e' w = f := Option.some.inj hf
      rw [← hf]
      refine lt_of_le_of_lt (mul_le_mul_of_nonneg_right (Real.exp_le_exp.mpr (by linarith)) hq0.le) hlt
    | j + 2, _ => cases hc⟩
  have h0 : a' = a := by simpa using ha.symm
  exact h0 ▸ hall 1 b (by decide) rfl

/-- A file without quantize and dequantize operators whose answers are codes. -/
example (lib : Ext) (hlib : Accurate (1 / 2 ^ 50) lib) : ∃ N,
    Fmt.f64.load ⟨"TFLITE", 3, [tOp, lOp, smOp], [some (node (1 / 64) 0)], [some (node 1 0)]⟩ = some N ∧
    ∀ x : List ℚ, x.length = 2 → ∃ y rec, Fmt.f64.infer lib N (.flt (.vec x)) = some (.int (.vec y), rec) ∧
      RealAnswer (1 / 64) 0 rs y x := by
  obtain ⟨N, h1, h2, -⟩ := C113_codes lib (1 / 2 ^ 50)
    ⟨"TFLITE", 3, [tOp, lOp, smOp], [some (node (1 / 64) 0)], [some (node 1 0)]⟩ (1 / 64) 0 [tOp, lOp] smOp rs
    (by decide +kernel) ⟨_, rfl⟩ (.inr ⟨rfl, ⟨tOp, rfl, by decide +kernel⟩, node (1 / 64) 0, rfl, rfl, .inl rfl⟩)
    (means lib hlib) steady ⟨rfl, _, _, rfl⟩ (by norm_num) (by unfold Code; norm_num) 2 fits2 steps
  refine ⟨N, h1, fun x hx => ?_⟩
  obtain ⟨y, rec, a, b, -⟩ := h2 x hx
  exact ⟨y, rec, a, b⟩

/-- Two scores `0` and `1`: the second class is the most probable one. -/
example : RealLikely [0, 1] 1 := by
  rw [(C113_margin _ [] _).2]
  refine ⟨1, rfl, fun j b hj hb => ?_⟩
  match j, hj with
  | 0, _ => obtain rfl : (0 : ℝ) = b := Option.some.inj hb; exact one_pos
  | j + 2, _ => cases hb

/-- The hypotheses of `C113_keras` hold for the classifier of `C105Case`: a hidden layer with a hard tanh, which is a tanh up to
1/4, and two classes. -/
example (ext : Ext) : ∃ g, (Arith.float C95Case.formats C95Case.keras).graph {} (.mat [[1, -1/2]])
      (C105Case.hidden ++ [.dense C105Case.last]) = some g ∧
    ∃ s z rs, NetReal (exportJson g) s z rs ∧ ∃ N, Fmt.f64.load (exportJson g) = some N ∧
      ∃ Y rec, Fmt.f64.infer ext N (.flt (.mat [[1, 1], [-1, 2]])) = some (.flt (.mat Y), rec) ∧
        List.Forall₂ (fun (y x : List ℚ) => ∀ c,
          Outweighs (realRow C105Case.last (realForward C105Case.hidden (x.map (↑)))) (List.zipWith (· + ·)
            (realOutputBound (realFile rs (x.map (↑))) (realBound rs (x.map (↑)) ((inputBound s z x).map (↑))))
            (realDrift Fmt.f32.fl rs (denseLayers (C105Case.hidden ++ [.dense C105Case.last])) (x.map (↑)) (x.map (fun _ => 0)))) c →
              Predicts y c ∧ RealLikely (realRow C105Case.last (realForward C105Case.hidden (x.map (↑)))) c) Y [[1, 1], [-1, 2]] := by
  have h : ((Arith.float C95Case.formats C95Case.keras).graph {} (.mat [[1, -1/2]]) (C105Case.hidden ++ [.dense C105Case.last])).map
      (fun g => decide (∀ p ∈ g.filterMap (fun op => if op.opType = "FULLY_CONNECTED" then fcParams op else none),
        1 / 2 ^ 40 ≤ p.1 * p.2.1 ∧ 1 / 999999 ≤ p.1 * p.2.1 / p.2.2.1 ∧ p.1 * p.2.1 / p.2.2.1 ≤ 2 ^ 29)) = some true := by
    decide +kernel
  rw [Option.map_eq_some_iff] at h
  obtain ⟨g, hg, hsc⟩ := h
  rw [decide_eq_true_eq] at hsc
  refine ⟨g, hg, ?_⟩
  have hff : FileFactors g := by
    intro op hop sx sw so zo ht hp
    have hm : (sx, sw, so, zo) ∈ g.filterMap (fun op => if op.opType = "FULLY_CONNECTED" then fcParams op else none) :=
      List.mem_filterMap.mpr ⟨op, hop, by rw [if_pos ht, hp]⟩
    obtain ⟨b1, b2, b3⟩ := hsc _ hm
    have h126 : (2 : ℚ) ^ (-126 : ℤ) ≤ 2 ^ (-40 : ℤ) := zpow_le_zpow_right₀ (by norm_num) (by norm_num)
    have h40 : (2 : ℚ) ^ (-40 : ℤ) = 1 / 2 ^ 40 := by rw [zpow_neg]; norm_num
    rw [h40] at h126
    exact ⟨h126.trans b1, b2, b3⟩
  have hact : RealActs C95Case.keras.act (1 / 4) (C105Case.hidden ++ [.dense C105Case.last]) := by
    intro l hl
    simp only [C105Case.hidden, C105Case.last, List.mem_append, List.mem_cons, KLayer.dense.injEq, reduceCtorEq, List.not_mem_nil,
      or_false] at hl
    rcases hl with rfl | rfl
    · intro _ a
      have e : C95Case.keras.act ⟨"a", 1, [[1], [-1/3]], some [1/10], "tanh", clip (-1) 1⟩ a = clip (-1) 1 a := rfl
      have e' : realAct "tanh" = Real.tanh := by unfold realAct; exact if_pos (by decide)
      rw [e]
      simp only [e']
      refine (C109Case.hard a).trans ?_
      norm_num
    · intro h; exact absurd h (by decide)
  have h8 : RealLayers {} 2 (C105Case.hidden ++ [.dense C105Case.last]) := by
    have hc : ∀ c, Cfg.denseFor {} "a" = some c → Int8Cfg c := by
      intro c hc
      rw [show Cfg.denseFor {} "a" = some {} from rfl, Option.some.injEq] at hc
      subst hc
      refine ⟨?_, ?_, ?_, ?_⟩ <;> (unfold NamesType; decide +kernel)
    exact ⟨⟨rfl, by norm_num, by norm_num, by simp⟩, by norm_num, hc, by decide,
      ⟨rfl, by norm_num, by norm_num [C105Case.last], by simp [C105Case.last]⟩, by norm_num, hc, by decide, trivial⟩
  obtain ⟨s, z, rs, m, -, N, n1, n2⟩ := C113_keras ext C95Case.formats (fun _ => .inl rfl) (fun _ => .inl rfl) (.inl rfl)
    C95Case.keras {} _ C105Case.hidden C105Case.last (by decide) 2 h8 (by unfold NamesType; decide +kernel) (1 / 4) hact g hg hff
  exact ⟨s, z, rs, m, N, n1, n2 _ (by simp) (by simp)⟩

noncomputable def dense : RealOp :=
  .dense (1 / 2 ^ 6) 3 (1 / 2 ^ 7) 0 [[100, -7], [-90, 20]] [4000, -2000] (1 / 2 ^ 6) 5 (realFused .none)

open C105Case (en m ip interprets members) in
/-- The hypotheses of `C113_tflite` hold for the model of `C105Case` (quantize → fully connected → softmax → dequantize, two features,
two classes) and every accurate library. -/
example (lib : Ext) (hlib : Accurate (1 / 2 ^ 50) lib) :
    ∃ j N, Tflite2Json.convert lib en ip m Fmt.f64.int8Table = some j ∧ Fmt.f64.load j = some N ∧
      ∀ x : List ℚ, x.length = 2 → ∃ y rec, Fmt.f64.infer lib N (.flt (.vec x)) = some (.flt (.vec y), rec) ∧
        y.length = (realFile [dense] (x.map (↑))).length ∧
        ∀ c, Outweighs (realFile [dense] (x.map (↑))) (realBound [dense] (x.map (↑)) ((inputBound (1 / 2 ^ 6) 3 x).map (↑))) c →
          Predicts y c ∧ RealLikely (realFile [dense] (x.map (↑))) c := by
  have h1 : Int8Tensor en m 1 (1 / 2 ^ 6) 3 :=
    C105Case.int8 1 _ rfl rfl 6 (by norm_num) 3 (by norm_num) (by unfold Code; norm_num)
  have h2 : Int8Tensor en m 2 (1 / 2 ^ 7) 0 :=
    C105Case.int8 2 _ rfl rfl 7 (by norm_num) 0 (by norm_num) (by unfold Code; norm_num)
  have h4 : Int8Tensor en m 4 (1 / 2 ^ 6) 5 :=
    C105Case.int8 4 _ rfl rfl 6 (by norm_num) 5 (by norm_num) (by unfold Code; norm_num)
  have h5 : Int8Tensor en m 5 (1 / 2 ^ 8) (-128) :=
    C105Case.int8 5 _ rfl rfl 8 (by norm_num) (-128) (by norm_num) (by unfold Code; norm_num)
  have hfit : realFits (1 / 2 ^ 6, 3) [dense] 2 := by
    refine ⟨rfl, ⟨?_, by norm_num, by norm_num, by norm_num, by unfold Code; norm_num, by unfold Code; norm_num,
      by unfold Code; norm_num, by norm_num, by simp, rfl, by decide +kernel, by decide +kernel⟩, trivial⟩
    refine le_trans (zpow_le_zpow_right₀ (by norm_num) (show (-1022 : ℤ) ≤ -20 by norm_num)) ?_
    rw [zpow_neg]; norm_num
  have hc : (Tflite2Json.convert lib en ip m Fmt.f64.int8Table).isSome := by
    rw [RealTflite.convert_isSome_of TfliteF64.table_len lib ⟨fun _ => 0, fun _ => 0, fun _ => 0⟩]
    decide +kernel
  obtain ⟨j, hj⟩ := Option.isSome_iff_exists.mp hc
  obtain ⟨N, n1, n2, -⟩ := C113_tflite lib lib (1 / 2 ^ 50) hlib en ip m interprets (by decide) 1 4 5 (1 / 2 ^ 6) 3
    [⟨1, [1, 2, 3], [4], .none⟩] (by simp) ⟨2, [4], [5], .none⟩ ⟨3, [5], [6], .none⟩ [dense]
    (.inl ⟨by decide, _, rfl, ⟨114, rfl, members (114, "QUANTIZE") (by simp)⟩, rfl⟩) h1
    (.cons (.dense ⟨9, rfl, members (9, "FULLY_CONNECTED") (by simp)⟩ rfl rfl h1 h2 h4 ⟨_, rfl, rfl, rfl⟩ ⟨_, rfl, rfl, rfl⟩) (.nil 4))
    ⟨25, rfl, members (25, "SOFTMAX") (by simp)⟩ rfl ⟨6, rfl, members (6, "DEQUANTIZE") (by simp)⟩ rfl (1 / 2 ^ 8) (-128) h5
    2 hfit j hj
  exact ⟨j, N, hj, n1, n2⟩

end C113Case

end Verif
