import Verif.Props.Losses
import Mathlib.Analysis.SpecialFunctions.Exp

/-!
# Property C105: classifiers with a SOFTMAX operator

The engine's SOFTMAX layer for TFLite networks returns its input.  What a network with such a head answers, and why its
class is right although its numbers are no probabilities.
-/

namespace Verif
open Spec Tflite2Json

namespace Spec

/-- The probabilities of the classes with these scores. -/
noncomputable def softmax (t : List ℚ) : List ℝ :=
  t.map (fun (v : ℚ) => Real.exp (v : ℝ) / (t.map (fun (u : ℚ) => Real.exp (u : ℝ))).sum)

/-- Class `c` is more probable than every other one. -/
def MostLikely (t : List ℚ) (c : ℕ) : Prop :=
  ∃ a, (softmax t)[c]? = some a ∧ ∀ (j : ℕ) (b : ℝ), j ≠ c → (softmax t)[j]? = some b → b < a

/-- The number that is read, with step and zero point `p'`, off a code that stands for `v` with step and zero point `p`. -/
def misread (p p' : ℚ × ℤ) (v : ℚ) : ℚ := p'.1 * (v / p.1 + p.2 - p'.2)

/-- A SOFTMAX operator of a network file. -/
def IsSoftmax (op : OpJ) : Prop := op.opType = "SOFTMAX" ∧ ∃ i rest, op.inputs = i :: rest

/-- A DEQUANTIZE operator of a network file that reads int8 codes with step and zero point `p`. -/
def IsDequantize (op : OpJ) (p : ℚ × ℤ) : Prop :=
  op.opType = "DEQUANTIZE" ∧ ∃ i rest, op.inputs = i :: rest ∧ HasParams i p.1 p.2 ∧ IsInt8 i

end Spec

namespace SoftmaxHead
open FloatEngine Accuracy FloatEnds

theorem likely_iff (t : List ℚ) (c : ℕ) : MostLikely t c ↔ Predicts t c := by
  have key : ∀ (a b : ℚ), a ∈ t → (Real.exp (b : ℝ) / (t.map (fun (u : ℚ) => Real.exp (u : ℝ))).sum <
      Real.exp (a : ℝ) / (t.map (fun (u : ℚ) => Real.exp (u : ℝ))).sum ↔ b < a) := by
    intro a b ha
    have hpos : 0 < (t.map (fun (u : ℚ) => Real.exp (u : ℝ))).sum := by
      have h0 : ∀ x ∈ t.map (fun (u : ℚ) => Real.exp (u : ℝ)), (0 : ℝ) ≤ x := by
        intro x hx
        obtain ⟨u, -, rfl⟩ := List.mem_map.mp hx
        exact (Real.exp_pos _).le
      exact lt_of_lt_of_le (Real.exp_pos (a : ℝ)) (List.single_le_sum h0 _ (List.mem_map.mpr ⟨a, ha, rfl⟩))
    rw [div_lt_div_iff_of_pos_right hpos, Real.exp_lt_exp, Rat.cast_lt]
  unfold MostLikely Predicts Spec.softmax
  constructor
  · rintro ⟨p, hp, hall⟩
    rw [List.getElem?_map, Option.map_eq_some_iff] at hp
    obtain ⟨a, ha, rfl⟩ := hp
    refine ⟨a, ha, fun j b hj hb => (key a b (List.mem_of_getElem? ha)).mp (hall j _ hj ?_)⟩
    rw [List.getElem?_map, hb]; rfl
  · rintro ⟨a, ha, hall⟩
    refine ⟨_, by rw [List.getElem?_map, ha]; rfl, fun j q hj hq => ?_⟩
    rw [List.getElem?_map, Option.map_eq_some_iff] at hq
    obtain ⟨b, hb, rfl⟩ := hq
    exact (key a b (List.mem_of_getElem? ha)).mpr (hall j b hj hb)

theorem decisive_predicts {t E : List ℚ} (hE : ∀ e ∈ E, 0 ≤ e) (hl : E.length = t.length) {c : ℕ} (h : Decisive t E c) :
    Predicts t c := by
  obtain ⟨a, e, ha, he, hall⟩ := h
  refine ⟨a, ha, fun j b hj hb => ?_⟩
  have hjt : j < t.length := (List.getElem?_eq_some_iff.mp hb).1
  have hjE : E[j]? = some (E[j]'(by omega)) := List.getElem?_eq_getElem _
  have h1 := hall j b _ hj hb hjE
  have h2 := hE e (List.mem_of_getElem? he)
  have h3 := hE _ (List.mem_of_getElem? hjE)
  linarith

theorem deq_strict {s : ℚ} (hs : 0 < s) (hf : IsFloat 53 (-1074) s ∨ (2 : ℚ) ^ (-1022 : ℤ) ≤ s) {z q q' : ℤ}
    (hz : Code (-128) 127 z) (hq : Code (-128) 127 q) (hq' : Code (-128) 127 q') (h : q < q') :
    Fmt.f64.dequantize q z s < Fmt.f64.dequantize q' z s := by
  have hi : ∀ v : ℤ, |v| ≤ 255 → IsInt32 v := by
    intro v hv
    obtain ⟨h1, h2⟩ := abs_le.mp hv
    unfold IsInt32
    constructor <;> omega
  obtain ⟨z1, z2⟩ := hz
  have err : ∀ v : ℤ, Code (-128) 127 v → |Fmt.f64.dequantize v z s - real z s v| ≤ s * 255 / 2 ^ 53 := by
    rintro v ⟨v1, v2⟩
    refine (deq_err hf v z (hi v (abs_le.mpr ⟨by omega, by omega⟩)) (hi (v - z) (abs_le.mpr ⟨by omega, by omega⟩))).trans ?_
    refine div_le_div_of_nonneg_right ?_ (by positivity)
    unfold real
    rw [abs_mul, abs_of_pos hs]
    refine mul_le_mul_of_nonneg_left ?_ hs.le
    have : |((v - z : ℤ) : ℚ)| ≤ 255 := by
      rw [← Int.cast_abs]
      have : |v - z| ≤ 255 := abs_le.mpr ⟨by omega, by omega⟩
      exact_mod_cast this
    push_cast at this
    exact this
  obtain ⟨-, e1⟩ := abs_le.mp (err q hq)
  obtain ⟨e2, -⟩ := abs_le.mp (err q' hq')
  have hgap : real z s q + s ≤ real z s q' := by
    unfold real
    have : (q : ℚ) + 1 ≤ q' := by exact_mod_cast h
    nlinarith
  have : s * 255 / 2 ^ 53 < s / 2 := by
    rw [div_lt_div_iff₀ (by positivity) (by norm_num)]
    nlinarith
  linarith

theorem codes_class {p : ℚ × ℤ} (hp : 0 < p.1) {q : List ℤ} {t E : List ℚ} (h : CodesFor p q t E) {c : ℕ}
    (hd : Decisive t E c) : Predicts (q.map (fun (v : ℤ) => (v : ℚ))) c := by
  have hw : Within (q.map (real p.2 p.1)) t E := by
    refine ⟨h.1, ?_⟩
    rw [List.forall₂_map_left_iff]
    exact h.2.imp (fun _ _ h => h.2)
  exact Losses.codes_predict hp (Classes.predicts hw hd)

theorem codes_bounds {p : ℚ × ℤ} {q : List ℤ} {t E : List ℚ} (h : CodesFor p q t E) : ∀ e ∈ E, 0 ≤ e := by
  obtain ⟨hl, h⟩ := h
  intro e he
  obtain ⟨i, hi, rfl⟩ := List.mem_iff_getElem.mp he
  have hlen := h.length_eq
  rw [List.length_zip] at hlen
  have := ((List.forall₂_iff_get.mp h).2 i (by omega) (by rw [List.length_zip]; omega)).2
  simp only [List.get_eq_getElem, List.getElem_zip] at this
  exact (abs_nonneg _).trans this

theorem codes_range {p : ℚ × ℤ} {q : List ℤ} {t E : List ℚ} (h : CodesFor p q t E) : ∀ v ∈ q, Code (-128) 127 v := by
  obtain ⟨-, h⟩ := h
  generalize t.zip E = l at h
  induction h with
  | nil => simp
  | cons a _ ih =>
    intro v hv
    rcases List.mem_cons.mp hv with rfl | hv
    · exact a.1
    · exact ih v hv

theorem codes_length {p : ℚ × ℤ} {q : List ℤ} {t E : List ℚ} (h : CodesFor p q t E) : q.length = t.length := by
  rw [h.2.length_eq, List.length_zip, h.1, min_self]

/-- The same codes, read with other parameters. -/
theorem codes_misread {p p' : ℚ × ℤ} (hp : 0 < p.1) (hp' : 0 < p'.1) {q : List ℤ} {t E : List ℚ} (h : CodesFor p q t E) :
    CodesFor p' q (t.map (misread p p')) (E.map (fun e => p'.1 / p.1 * e)) := by
  obtain ⟨hl, h⟩ := h
  refine ⟨by simp [hl], ?_⟩
  rw [List.zip_map, List.forall₂_map_right_iff]
  refine h.imp (fun v a ⟨h1, h2⟩ => ⟨h1, ?_⟩)
  simp only [Prod.map]
  have e : real p'.2 p'.1 v - misread p p' a.1 = p'.1 / p.1 * (real p.2 p.1 v - a.1) := by
    unfold real misread
    field_simp
    ring
  rw [e, abs_mul, abs_of_pos (div_pos hp' hp)]
  exact mul_le_mul_of_nonneg_left h2 (div_pos hp' hp).le

theorem deq_class {s : ℚ} (hs : 0 < s) (hf : IsFloat 53 (-1074) s ∨ (2 : ℚ) ^ (-1022 : ℤ) ≤ s) {z : ℤ}
    (hz : Code (-128) 127 z) {q : List ℤ} (hq : ∀ v ∈ q, Code (-128) 127 v) {c : ℕ}
    (h : Predicts (q.map (fun (v : ℤ) => (v : ℚ))) c) : Predicts (q.map (fun v => Fmt.f64.dequantize v z s)) c := by
  obtain ⟨a, ha, hall⟩ := h
  rw [List.getElem?_map, Option.map_eq_some_iff] at ha
  obtain ⟨v, hv, rfl⟩ := ha
  refine ⟨_, by rw [List.getElem?_map, hv]; rfl, fun j b hj hb => ?_⟩
  rw [List.getElem?_map, Option.map_eq_some_iff] at hb
  obtain ⟨u, hu, rfl⟩ := hb
  have h1 := hall j (u : ℚ) hj (by rw [List.getElem?_map, hu]; rfl)
  exact deq_strict hs hf hz (hq u (List.mem_of_getElem? hu)) (hq v (List.mem_of_getElem? hv)) (by exact_mod_cast h1)

theorem softmax_layer {op : OpJ} (h : IsSoftmax op) : Fmt.f64.buildLayer op = some .softmax := by
  obtain ⟨ht, i, rest, hi⟩ := h
  have hk : layerKind op.opType = some .softmax := by rw [ht]; decide +kernel
  unfold Fmt.buildLayer Verif.buildLayer
  rw [hk]
  simp only [hi, List.getElem?_cons_zero, Option.map_some]

theorem dequantize_layer {op : OpJ} {p : ℚ × ℤ} (h : IsDequantize op p) : Fmt.f64.buildLayer op = some (.dequantize p.2 p.1) := by
  obtain ⟨ht, i, rest, hi, hp, h8⟩ := h
  obtain ⟨dt, hdt, hdd⟩ := names_int8 h8
  have hk : layerKind op.opType = some .dequantize := by rw [ht]; decide +kernel
  unfold Fmt.buildLayer Verif.buildLayer
  rw [hk]
  simp only
  unfold dequantizeFromModel
  rw [hi]
  simp only [List.getElem?_cons_zero, Option.bind_eq_bind, Option.bind_some, hdt, hdd, hp.1, hp.2]

end SoftmaxHead

open SoftmaxHead FloatEngine Accuracy FloatEnds

/-- **C105 (what a softmax does to classes).**  A class is the most probable one exactly if its score is the largest. -/
theorem C105_class (t : List ℚ) (c : ℕ) : MostLikely t c ↔ Predicts t c := likely_iff t c

/-- **C105 (codes).**  A network file that ends with a SOFTMAX operator – with or without a quantize operator in front – answers
every non-empty batch, in float64, with the codes of the scores (not of probabilities); the largest code is that of the most
probable class, if that class wins by more than the error bounds of C92. -/
theorem C105_codes (ext : Ext) (net : NetJ) (s : ℚ) (z : ℤ) (ops : List OpJ) (sm : OpJ) (fs : List FileOp)
    (heng : upper net.engine = "TFLITE".toList) (hout : ∃ o, net.output[0]? = some (some o))
    (hopen : Opens net s z (ops ++ [sm])) (hops : List.Forall₂ FileMeans ops fs) (hsm : IsSoftmax sm)
    (hs : 0 < s) (hz : Code (-128) 127 z) (n : ℕ) (hfit : fileFits (s, z) fs n) (hlast : 0 < (fileLast (s, z) fs).1) :
    ∃ N, Fmt.f64.load net = some N ∧ ∀ X : List (List ℚ), X ≠ [] → (∀ x ∈ X, x.length = n) →
      ∃ Y rec, Fmt.f64.infer ext N (.flt (.mat X)) = some (.int (.mat Y), rec) ∧
        List.Forall₂ (fun y x =>
          CodesFor (fileLast (s, z) fs) y (fileExact fs x) (fileBound fs x (inputBound s z x)) ∧
          ∀ c, Decisive (fileExact fs x) (fileBound fs x (inputBound s z x)) c →
            Predicts (y.map (fun (v : ℤ) => (v : ℚ))) c ∧ MostLikely (fileExact fs x) c) Y X := by
  obtain ⟨layers, hls, hzl, -, hm⟩ := ops_close ext hops (s, z) n hfit hz
  have hall : (ops ++ [sm]).mapM Fmt.f64.buildLayer = some (layers ++ [.softmax]) := by
    rw [List.mapM_append, hls, List.mapM_cons, softmax_layer hsm]
    rfl
  obtain ⟨N, pre, hN, hrun⟩ := opens_run ext hopen hs heng hout hall
  refine ⟨N, hN, fun X hX hlen => ?_⟩
  obtain ⟨O, rec, e1, c1⟩ := hm _ _ (by simpa using hX) (batch_close hs hz X hlen)
  rw [List.forall₂_map_right_iff] at c1
  refine ⟨O, pre (.mat X) ++ (rec ++ [.int (.mat O)]), ?_, ?_⟩
  · rw [hrun]
    simp only [Arr.map]
    rw [runLayers_append, e1]
    simp only [Fmt.runLayers, Fmt.inferLayer, Layer.infer, Option.bind_eq_bind, Option.bind_some, Option.map_some]
  · exact c1.imp (fun y x h => ⟨h, fun c hc => ⟨codes_class hlast h hc,
      (likely_iff _ _).mpr (decisive_predicts (codes_bounds h) h.1 hc)⟩⟩)

/-- **C105 (numbers).**  The same for a file that ends with a SOFTMAX and a DEQUANTIZE operator, which reads codes with the step
and zero point `p'` of the softmax output: the answers are the scores, misread by the second pair of parameters – an affine
image of the scores, not probabilities –, and the largest answer is that of the most probable class. -/
theorem C105_numbers (ext : Ext) (net : NetJ) (s : ℚ) (z : ℤ) (ops : List OpJ) (sm d : OpJ) (fs : List FileOp) (p' : ℚ × ℤ)
    (heng : upper net.engine = "TFLITE".toList) (hout : ∃ o, net.output[0]? = some (some o))
    (hopen : Opens net s z (ops ++ [sm, d])) (hops : List.Forall₂ FileMeans ops fs) (hsm : IsSoftmax sm)
    (hd : IsDequantize d p') (hp' : 0 < p'.1) (hf' : IsFloat 53 (-1074) p'.1) (hz' : Code (-128) 127 p'.2)
    (hs : 0 < s) (hz : Code (-128) 127 z) (n : ℕ) (hfit : fileFits (s, z) fs n) (hlast : 0 < (fileLast (s, z) fs).1) :
    ∃ N, Fmt.f64.load net = some N ∧ ∀ X : List (List ℚ), X ≠ [] → (∀ x ∈ X, x.length = n) →
      ∃ Y rec, Fmt.f64.infer ext N (.flt (.mat X)) = some (.flt (.mat Y), rec) ∧
        List.Forall₂ (fun y x =>
          Within y ((fileExact fs x).map (misread (fileLast (s, z) fs) p'))
            (outputBound ((fileExact fs x).map (misread (fileLast (s, z) fs) p'))
              ((fileBound fs x (inputBound s z x)).map (fun e => p'.1 / (fileLast (s, z) fs).1 * e))) ∧
          ∀ c, Decisive (fileExact fs x) (fileBound fs x (inputBound s z x)) c →
            Predicts y c ∧ MostLikely (fileExact fs x) c) Y X := by
  obtain ⟨layers, hls, hzl, -, hm⟩ := ops_close ext hops (s, z) n hfit hz
  have hall : (ops ++ [sm, d]).mapM Fmt.f64.buildLayer = some (layers ++ [.softmax, .dequantize p'.2 p'.1]) := by
    rw [List.mapM_append, hls, List.mapM_cons, softmax_layer hsm, List.mapM_cons, dequantize_layer hd]
    rfl
  obtain ⟨N, pre, hN, hrun⟩ := opens_run ext hopen hs heng hout hall
  refine ⟨N, hN, fun X hX hlen => ?_⟩
  obtain ⟨O, rec, e1, c1⟩ := hm _ _ (by simpa using hX) (batch_close hs hz X hlen)
  rw [List.forall₂_map_right_iff] at c1
  refine ⟨O.map (fun o => o.map (fun q => Fmt.f64.dequantize q p'.2 p'.1)),
    pre (.mat X) ++ (rec ++ [.int (.mat O), .flt (.mat (O.map (fun o => o.map (fun q => Fmt.f64.dequantize q p'.2 p'.1))))]), ?_, ?_⟩
  · rw [hrun]
    simp only [Arr.map]
    rw [runLayers_append, e1]
    simp only [Fmt.runLayers, Fmt.inferLayer, Layer.infer, Option.bind_eq_bind, Option.bind_some, Option.map_some, Tensor.toInt,
      Arr.map]
  · rw [List.forall₂_map_left_iff]
    refine c1.imp (fun y x h => ⟨deq_near (.inl hf') hz' (codes_misread hlast hp' h), fun c hc => ?_⟩)
    exact ⟨deq_class hp' (.inl hf') hz' (codes_range h) (codes_class hlast h hc),
      (likely_iff _ _).mpr (decisive_predicts (codes_bounds h) h.1 hc)⟩

open TfliteF64 Losses in
/-- **C105 (TFLite classifiers).**  A TFLite model of fully connected, tanh and logistic operators, a softmax and a dequantize
operator, its input being quantized by the first operator or an int8 tensor: whenever the converter converts it (as in C100),
the engine predicts, in float64 and for every sample of a batch, the most probable class of the model, if it wins by more than
C100's bounds on the scores; so many labels at least are hit (C104), and so many at most. -/
theorem C105_tflite (ext cext ideal : Ext) (ls lt δ : ℚ) (hls : 0 ≤ ls) (hlt : 0 ≤ lt)
    (hsig : ∀ a b, |ideal.sigmoid a - ideal.sigmoid b| ≤ ls * |a - b|)
    (htanh : ∀ a b, |ideal.tanh a - ideal.tanh b| ≤ lt * |a - b|) (hce : Approximates δ cext ideal)
    (en : Enums) (ip : Interp) (m : TModel) (hi : Interprets ip m) (hout : m.outputs ≠ []) (i o p : ℕ) (s : ℚ) (z : ℤ)
    (ops : List TOp) (hne : ops ≠ []) (sm d : TOp) (fs : List FileOp) (hb : TfliteBegins en m i (ops ++ [sm, d]))
    (hx : Int8Tensor en m i s z) (hc : TfliteChain en ip m ideal ls lt δ ops i o fs) (hsm : IsOp en m sm "SOFTMAX")
    (hsi : sm.inputs = [o]) (hd : IsOp en m d "DEQUANTIZE") (hdi : d.inputs = [p]) (s' : ℚ) (z' : ℤ)
    (hp : Int8Tensor en m p s' z') (n : ℕ) (hfit : fileFits (s, z) fs n) (net : NetJ)
    (h : convert cext en ip m Fmt.f64.int8Table = some net) :
    ∃ N, Fmt.f64.load net = some N ∧ ∀ X : List (List ℚ), X ≠ [] → (∀ x ∈ X, x.length = n) →
      ∃ Y rec, Fmt.f64.infer ext N (.flt (.mat X)) = some (.flt (.mat Y), rec) ∧
        List.Forall₂ (fun y x => ∀ c, Decisive (fileExact fs x) (fileBound fs x (inputBound s z x)) c →
          Predicts y c ∧ MostLikely (fileExact fs x) c) Y X ∧
        ∀ labels : List ℤ, (∀ x ∈ X, fileExact fs x ≠ []) → ∃ k : ℕ, hitLoss (.flt (.mat Y)) labels = some (-(k : ℤ)) ∧
          HitCount (fun x c => Decisive (fileExact fs x) (fileBound fs x (inputBound s z x)) c) X labels k := by
  unfold convert at h
  simp only [Option.bind_eq_bind, Option.bind_eq_some_iff, Option.some.injEq] at h
  obtain ⟨is, his, os, hos, g, hg, rfl⟩ := h
  obtain ⟨js, rs, h1, h2, h3⟩ := opens_of (os := os) hi hb hx hc hne his hg
  rw [List.mapM_cons, List.mapM_cons, List.mapM_nil] at h2
  simp only [Option.bind_eq_bind, Option.bind_eq_some_iff, Option.pure_def, Option.some.injEq] at h2
  obtain ⟨jm, hjm, _, ⟨jd, hjd, _, rfl, rfl⟩, rfl⟩ := h2
  obtain ⟨a1, a2⟩ := chain_means hls hlt hsig htanh hce hi hc h1 hx
  obtain ⟨m1, -, m3, -⟩ := plain_op hi hsm (by decide) (by decide) hjm
  rw [hsi] at m3
  obtain ⟨nm, m5, -⟩ := forall₂_one m3
  obtain ⟨d1, -, d3, -⟩ := plain_op hi hd (by decide) (by decide) hjd
  rw [hdi] at d3
  obtain ⟨nd, d5, d6⟩ := forall₂_one d3
  have pos : ∀ {i : ℕ} {s : ℚ} {z : ℤ}, Int8Tensor en m i s z → 0 < s := by
    intro i s z h
    obtain ⟨_, _, _, _, p, _⟩ := h.1
    exact p
  obtain ⟨N, n1, n2⟩ := C105_numbers ext _ s z js jm jd fs (s', z') (by show upper "TFLITE" = _; decide +kernel)
    (some_output hi hout hos) h3 a1 ⟨m1, nm, [], m5⟩ ⟨d1, nd, [], d5, (node8 d6 hp).1, (node8 d6 hp).2⟩ (pos hp)
    (float_of_float32 hp.2.1) hp.2.2 (pos hx) hx.2.2 n hfit (pos a2)
  refine ⟨N, n1, fun X hX hlen => ?_⟩
  obtain ⟨Y, rec, e1, e2⟩ := n2 X hX hlen
  refine ⟨Y, rec, e1, e2.imp (fun y x h => h.2), fun labels hne => ?_⟩
  obtain ⟨ps, p1, p2⟩ : ∃ ps, Y.mapM argmax = some ps ∧
      List.Forall₂ (fun p x => ∀ c, Decisive (fileExact fs x) (fileBound fs x (inputBound s z x)) c → p = c) ps X := by
    clear e1 hX hlen
    induction e2 with
    | nil => exact ⟨[], rfl, .nil⟩
    | @cons y x Y X a b ih =>
      obtain ⟨ps, h1, h2⟩ := ih (fun x hx => hne x (by simp [hx]))
      have hlen := within_length a.1
      rw [List.length_map] at hlen
      obtain ⟨c, hc⟩ := argmax_some (y := y) (by
        intro h0
        rw [h0] at hlen
        exact hne x (by simp) (List.length_eq_zero_iff.mp hlen.symm))
      refine ⟨c :: ps, by rw [List.mapM_cons, hc, h1]; rfl, .cons (fun d hd => ?_) h2⟩
      have := argmax_predicts (a.2 d hd).1
      rw [hc, Option.some.injEq] at this
      exact this
  exact ⟨hits ps labels, by simp [hitLoss, p1], hitCount labels p2⟩

theorem SoftmaxHead.within_bounds {y t E : List ℚ} (h : Within y t E) : ∀ e ∈ E, 0 ≤ e := by
  obtain ⟨hl, h⟩ := h
  intro e he
  obtain ⟨i, hi, rfl⟩ := List.mem_iff_getElem.mp he
  have hlen := h.length_eq
  rw [List.length_zip] at hlen
  have := (List.forall₂_iff_get.mp h).2 i (by omega) (by rw [List.length_zip]; omega)
  simp only [List.get_eq_getElem, List.getElem_zip] at this
  exact (abs_nonneg _).trans this

open Keras in
theorem SoftmaxHead.forward_append (l : KDense) (hact : upper l.actName = "SOFTMAX".toList) (ls : List KLayer) (x : List ℚ) :
    forward (ls ++ [.dense l]) x = denseRow l (forward ls x) := by
  induction ls generalizing x with
  | nil =>
    simp only [List.nil_append, forward]
    have e : target l = id := by
      funext y
      unfold target
      rw [if_pos hact]
      rfl
    rw [e, List.map_id]
  | cons k ls ih => cases k <;> exact ih _

open Keras in
/-- **C105 (Keras classifiers).**  A dense Keras model whose last layer has a softmax activation is exported without it; the
engine predicts, in float64 and for every sample of a batch, the class that is most probable for the Keras model, if that class
wins by more than C95's bounds on the scores. -/
theorem C105_keras (ext : Ext) (F : Formats) (h1 : ∀ d, Ieee (F.data d)) (h2 : ∀ d, Ieee (F.weight d)) (h3 : Ieee F.product)
    (K : FloatKeras) (cfg : Cfg) (X : Arr ℚ) (ls : List KLayer) (l : KDense) (hact : upper l.actName = "SOFTMAX".toList) (n : ℕ)
    (h8 : Int8Layers cfg n (ls ++ [.dense l])) (hq : NamesType cfg.quantizeDtype "int" 8) (δ : ℚ)
    (ha : ActsOk K.act δ (ls ++ [.dense l]))
    (hlip : ∀ k, KLayer.dense k ∈ ls ++ [.dense l] → ∀ a b, |target k a - target k b| ≤ |a - b|) (g : List OpJ)
    (h : (Arith.float F K).graph cfg X (ls ++ [.dense l]) = some g) (hg : FileFactors g) :
    ∃ s z fs, NetMeans (exportJson g) s z fs ∧ ExportedFile F.product.fl δ (s, z) (denseLayers (ls ++ [.dense l])) fs ∧
      ∃ N, Fmt.f64.load (exportJson g) = some N ∧
        ∀ B : List (List ℚ), B ≠ [] → (∀ x ∈ B, x.length = n) →
          ∃ Y rec, Fmt.f64.infer ext N (.flt (.mat B)) = some (.flt (.mat Y), rec) ∧
            List.Forall₂ (fun y x => ∀ c, Decisive (denseRow l (forward ls x)) (List.zipWith (· + ·)
              (outputBound (fileExact fs x) (fileBound fs x (inputBound s z x)))
              (drift F.product.fl fs (denseLayers (ls ++ [.dense l])) x (x.map (fun _ => 0)))) c →
                Predicts y c ∧ MostLikely (denseRow l (forward ls x)) c) Y B := by
  obtain ⟨s, z, fs, hm, he, N, n1, -, n3⟩ := C95_accuracy ext F h1 h2 h3 K cfg X _ n h8 hq δ ha hlip g h hg
  refine ⟨s, z, fs, hm, he, N, n1, fun B hB hn => ?_⟩
  obtain ⟨Y, rec, e1, e2⟩ := n3 B hB hn
  refine ⟨Y, rec, e1, e2.imp (fun y x hw c hc => ?_)⟩
  rw [forward_append l hact] at hw
  exact ⟨Classes.predicts hw hc, (likely_iff _ _).mpr (decisive_predicts (within_bounds hw) hw.1 hc)⟩

namespace C105Case

/-- The probabilities of `[0, 1, 1/2]`: class 1 is the most probable one. -/
example : MostLikely [0, 1, 1 / 2] 1 := by
  rw [C105_class]
  refine ⟨1, rfl, fun j b hj hb => ?_⟩
  match j, hj with
  | 0, _ => simp only [List.getElem?_cons_zero, Option.some.injEq] at hb; rw [← hb]; norm_num
  | 2, _ => simp only [List.getElem?_cons_succ, List.getElem?_cons_zero, Option.some.injEq] at hb; rw [← hb]; norm_num
  | j + 3, _ => simp at hb

section
open C92Case

def smOp : OpJ := ⟨"SOFTMAX", "Softmax", [node (1 / 8) 0], [node (1 / 256) (-128)], none⟩

def lastOp : OpJ := ⟨"DEQUANTIZE", "Dequantize", [node (1 / 256) (-128)], [node 1 0], none⟩

/-- The file of C92's example as a classifier. -/
def file : NetJ := ⟨"TFLITE", 5, [qOp, fcOp, actOp, smOp, lastOp], [some (node 1 0)], [some (node 1 0)]⟩

theorem opens : Opens file (1 / 64) 5 ([fcOp, actOp] ++ [smOp, lastOp]) :=
  .inl ⟨qOp, node (1 / 64) 5, [], rfl, rfl, by decide +kernel, rfl, ⟨rfl, rfl⟩, int8 _ _, _, rfl⟩

theorem two {t E : List ℚ} {a b e f : ℚ} (ht : t = [a, b]) (hE : E = [e, f]) : (a + e + f < b → Decisive t E 1) ∧
    (b + f + e < a → Decisive t E 0) := by
  subst ht hE
  refine ⟨fun h => ⟨b, f, rfl, rfl, fun j c e' hj hc he => ?_⟩, fun h => ⟨a, e, rfl, rfl, fun j c e' hj hc he => ?_⟩⟩
  · match j, hj with
    | 0, _ =>
      simp only [List.getElem?_cons_zero, Option.some.injEq] at hc he
      subst hc he
      linarith
    | j + 2, _ => simp at hc
  · match j, hj with
    | 1, _ =>
      simp only [List.getElem?_cons_succ, List.getElem?_cons_zero, Option.some.injEq] at hc he
      subst hc he
      linarith
    | j + 2, _ => simp at hc

/-- Lists of two numbers, with one of them well above the other. -/
def wins (t E : List ℚ) (c : ℕ) : Bool :=
  match t, E with
  | [a, b], [e, f] => if c = 1 then a + e + f < b else c = 0 && b + f + e < a
  | _, _ => false

theorem wins_decisive {t E : List ℚ} {c : ℕ} (h : wins t E c = true) : Decisive t E c := by
  unfold wins at h
  split at h
  · split at h
    · rename_i hc
      rw [hc]
      exact (two rfl rfl).1 (by simpa using h)
    · simp only [Bool.and_eq_true, decide_eq_true_eq] at h
      rw [h.1]
      exact (two rfl rfl).2 h.2
  · simp at h

/-- `C105_numbers` applies, and the second class of this sample wins. -/
example : ∃ N Y rec, Fmt.f64.load file = some N ∧
    Fmt.f64.infer ⟨id, id, id⟩ N (.flt (.mat [[3 / 4, 1]])) = some (.flt (.mat Y), rec) ∧
    List.Forall₂ (fun y x => Predicts y 1 ∧ MostLikely (fileExact ops x) 1) Y [[3 / 4, 1]] := by
  obtain ⟨N, h1, h2⟩ := C105_numbers ⟨id, id, id⟩ file (1 / 64) 5 [fcOp, actOp] smOp lastOp ops (1 / 256, -128) (by decide +kernel)
    ⟨_, rfl⟩ opens C103Case.operators ⟨rfl, _, _, rfl⟩ ⟨rfl, _, _, rfl, ⟨rfl, rfl⟩, int8 _ _⟩ (by norm_num)
    ⟨1, -8, by norm_num, by norm_num, by norm_num⟩ (by unfold Code; norm_num) (by norm_num) (by unfold Code; norm_num) 2 fits
    (by decide +kernel)
  obtain ⟨Y, rec, e1, e2⟩ := h2 [[3 / 4, 1]] (by simp) (by simp)
  refine ⟨N, Y, rec, h1, e1, ?_⟩
  cases e2 with
  | cons a b =>
    cases b
    exact .cons (a.2 1 (wins_decisive (by decide +kernel))) .nil

/-- What it answers for two samples: no probabilities – those of the second sample add up to more than one. -/
example : ((Fmt.f64.load file).bind (fun N => Fmt.f64.infer ⟨id, id, id⟩ N (.flt (.mat [[3 / 4, 1], [1, -1 / 4]])))).map Prod.fst =
    some (.flt (.mat [[1 / 2, 51 / 64], [103 / 128, 113 / 128]])) := by
  decide +kernel

/-- The int8 file, without the conversions at its ends, answers with codes: `C105_codes` applies. -/
example : ∃ N Y rec, Fmt.f64.load ⟨"TFLITE", 3, [fcOp, actOp, smOp], [some (node (1 / 64) 5)], [some (node (1 / 256) (-128))]⟩ = some N ∧
    Fmt.f64.infer ⟨id, id, id⟩ N (.flt (.mat [[3 / 4, 1]])) = some (.int (.mat Y), rec) ∧
    List.Forall₂ (fun (y : List ℤ) x => Predicts (y.map (fun (v : ℤ) => (v : ℚ))) 1 ∧ MostLikely (fileExact ops x) 1) Y [[3 / 4, 1]] := by
  obtain ⟨N, h1, h2⟩ := C105_codes ⟨id, id, id⟩
    ⟨"TFLITE", 3, [fcOp, actOp, smOp], [some (node (1 / 64) 5)], [some (node (1 / 256) (-128))]⟩ (1 / 64) 5 [fcOp, actOp] smOp ops
    (by decide +kernel) ⟨_, rfl⟩ (.inr ⟨rfl, ⟨fcOp, rfl, by decide +kernel⟩, node (1 / 64) 5, rfl, rfl, .inl rfl⟩)
    C103Case.operators ⟨rfl, _, _, rfl⟩ (by norm_num) (by unfold Code; norm_num) 2 fits (by decide +kernel)
  obtain ⟨Y, rec, e1, e2⟩ := h2 [[3 / 4, 1]] (by simp) (by simp)
  refine ⟨N, Y, rec, h1, e1, ?_⟩
  cases e2 with
  | cons a b =>
    cases b
    exact .cons (a.2 1 (wins_decisive (by decide +kernel))) .nil

end

section
open C100Case (lib ideal lipschitz)

/-- The enumerations of C71 with the softmax. -/
def en : Enums := ⟨("SOFTMAX", 25) :: C71Case.en.ops, C71Case.en.types⟩

/-- quantize → fully connected → softmax → dequantize, two features, two classes. -/
def m : TModel :=
  { opcodes := [114, 9, 25, 6]
    buffers := [false, true, true]
    tensors := [⟨"in", 0, 0, some [1, 2], none⟩, ⟨"q", 0, 9, some [1, 2], some ([1/64], [3])⟩,
      ⟨"w", 1, 9, some [2, 2], some ([1/128], [0])⟩, ⟨"b", 2, 2, some [2], some ([1/8192], [0])⟩,
      ⟨"fc", 0, 9, some [1, 2], some ([1/64], [5])⟩, ⟨"sm", 0, 9, some [1, 2], some ([1/256], [-128])⟩,
      ⟨"out", 0, 0, some [1, 2], some ([], [])⟩]
    operators := [⟨0, [0], [1], .none⟩, ⟨1, [1, 2, 3], [4], .none⟩, ⟨2, [4], [5], .none⟩, ⟨3, [5], [6], .none⟩]
    inputs := [0]
    outputs := [6] }

def ip : Interp :=
  { details := [("in", 0), ("q", 1), ("w", 2), ("b", 3), ("fc", 4), ("sm", 5), ("out", 6)]
    content := C100Case.ip.content }

def ops : List FileOp :=
  [.dense (1 / 2 ^ 6) 3 (1 / 2 ^ 7) 0 [[100, -7], [-90, 20]] [4000, -2000] (1 / 2 ^ 6) 5 id]

theorem interprets : Interprets ip m where
  named := by decide +kernel
  distinct := by
    intro i j t u h1 h2 h3
    have hi : i < 7 := (List.getElem?_eq_some_iff.mp h1).1
    have hj : j < 7 := (List.getElem?_eq_some_iff.mp h2).1
    have key : ∀ a < 7, ∀ b < 7, (m.tensors[a]?.map TTensor.name) = (m.tensors[b]?.map TTensor.name) → a = b := by
      decide +kernel
    exact key i hi j hj (by rw [h1, h2]; simp [h3])
  details := by
    intro nm i
    constructor
    · intro h
      have key : ∀ p ∈ ip.details, m.tensors[p.2]?.map TTensor.name = some p.1 := by decide +kernel
      have := key _ h
      rw [Option.map_eq_some_iff] at this
      exact this
    · rintro ⟨t, h1, h2⟩
      have hi : i < 7 := (List.getElem?_eq_some_iff.mp h1).1
      have key : ∀ a < 7, ∀ t ∈ m.tensors[a]?, (t.name, a) ∈ ip.details := by decide +kernel
      rw [← h2]
      exact key i hi t h1

theorem int8 (i : ℕ) (t : TTensor) (ht : m.tensors[i]? = some t) (hty : t.type = 9) (e : ℕ) (he : e < 100) (z : ℤ)
    (hq : t.quant = some ([1 / 2 ^ e], [z])) (hz : Code (-128) 127 z) : Int8Tensor en m i (1 / 2 ^ e) z :=
  ⟨⟨t, "INT8", ht, hq, by positivity, by rw [hty]; exact C71Case.types.1, by unfold NamesType; decide +kernel⟩,
    ⟨1, -(e : ℤ), by norm_num, by omega, by rw [zpow_neg, zpow_natCast]; simp⟩, hz⟩

theorem members : ∀ p ∈ [(114, "QUANTIZE"), (9, "FULLY_CONNECTED"), (25, "SOFTMAX"), (6, "DEQUANTIZE")], Member en.ops p.1 p.2 := by
  unfold Spec.Member
  decide +kernel

theorem fits : fileFits (1 / 2 ^ 6, 3) ops 2 := by
  refine ⟨rfl, ⟨?_, by norm_num, by norm_num, by norm_num, by unfold Code; norm_num, by unfold Code; norm_num,
    by unfold Code; norm_num, by norm_num, by simp, rfl, by decide +kernel, by decide +kernel⟩, trivial⟩
  refine le_trans (zpow_le_zpow_right₀ (by norm_num) (show (-1022 : ℤ) ≤ -20 by norm_num)) ?_
  rw [zpow_neg]; norm_num

/-- `C105_tflite` applies: two samples, two hits. -/
example : ∃ j N Y rec, convert lib en ip m Fmt.f64.int8Table = some j ∧ Fmt.f64.load j = some N ∧
    Fmt.f64.infer lib N (.flt (.mat [[1, 0], [-1, 1 / 2]])) = some (.flt (.mat Y), rec) ∧
    Losses.hitLoss (.flt (.mat Y)) [0, 1] = some (-2) ∧
    MostLikely (fileExact ops [1, 0]) 0 ∧ MostLikely (fileExact ops [-1, 1 / 2]) 1 := by
  have h1 : Int8Tensor en m 1 (1 / 2 ^ 6) 3 := int8 1 _ rfl rfl 6 (by norm_num) 3 (by norm_num) (by unfold Code; norm_num)
  have h2 : Int8Tensor en m 2 (1 / 2 ^ 7) 0 := int8 2 _ rfl rfl 7 (by norm_num) 0 (by norm_num) (by unfold Code; norm_num)
  have h4 : Int8Tensor en m 4 (1 / 2 ^ 6) 5 := int8 4 _ rfl rfl 6 (by norm_num) 5 (by norm_num) (by unfold Code; norm_num)
  have h5 : Int8Tensor en m 5 (1 / 2 ^ 8) (-128) :=
    int8 5 _ rfl rfl 8 (by norm_num) (-128) (by norm_num) (by unfold Code; norm_num)
  have hc : (convert lib en ip m Fmt.f64.int8Table).isSome := by decide +kernel
  obtain ⟨j, hj⟩ := Option.isSome_iff_exists.mp hc
  obtain ⟨N, n1, n2⟩ := C105_tflite lib lib ideal (1 / 4) (1 / 16) (1 / 2 ^ 50) (by norm_num) (by norm_num) lipschitz.1
    lipschitz.2.1 lipschitz.2.2 en ip m interprets (by decide) 1 4 5 (1 / 2 ^ 6) 3 [⟨1, [1, 2, 3], [4], .none⟩] (by simp)
    ⟨2, [4], [5], .none⟩ ⟨3, [5], [6], .none⟩ ops
    (.inl ⟨by decide, _, rfl, ⟨114, rfl, members (114, "QUANTIZE") (by simp)⟩, rfl⟩) h1
    (.cons (.dense ⟨9, rfl, members (9, "FULLY_CONNECTED") (by simp)⟩ rfl rfl h1 h2 h4 ⟨_, rfl, rfl, rfl⟩ ⟨_, rfl, rfl, rfl⟩) (.nil 4))
    ⟨25, rfl, members (25, "SOFTMAX") (by simp)⟩ rfl ⟨6, rfl, members (6, "DEQUANTIZE") (by simp)⟩ rfl (1 / 2 ^ 8) (-128) h5
    2 fits j hj
  obtain ⟨Y, rec, e1, e2, e3⟩ := n2 [[1, 0], [-1, 1 / 2]] (by simp) (by simp)
  obtain ⟨k, k1, k2, k3⟩ := e3 [0, 1] (by decide +kernel)
  have d0 : Decisive (fileExact ops [1, 0]) (fileBound ops [1, 0] (inputBound (1 / 2 ^ 6) 3 [1, 0])) 0 :=
    wins_decisive (by decide +kernel)
  have d1 : Decisive (fileExact ops [-1, 1 / 2]) (fileBound ops [-1, 1 / 2] (inputBound (1 / 2 ^ 6) 3 [-1, 1 / 2])) 1 :=
    wins_decisive (by decide +kernel)
  have hk := k2 {0, 1} (by
    intro i hi
    simp only [Finset.mem_insert, Finset.mem_singleton] at hi
    rcases hi with rfl | rfl
    · exact ⟨_, 0, rfl, rfl, d0⟩
    · exact ⟨_, 1, rfl, rfl, d1⟩)
  have hu := k3 ∅ (by simp)
  have hk2 : k = 2 := by
    rw [Finset.card_pair (by decide)] at hk
    simp only [Finset.card_empty, List.length_cons, List.length_nil] at hu
    omega
  subst hk2
  refine ⟨j, N, Y, rec, hj, n1, e1, k1, ?_⟩
  cases e2 with
  | cons a b =>
    cases b with
    | cons b c => exact ⟨(a 0 d0).2, (b 1 d1).2⟩

end

section
open C95Case Keras

/-- A hidden layer with a hard tanh and two classes. -/
def hidden : List KLayer := [.dense ⟨"a", 1, [[1], [-1/3]], some [1/10], "tanh", clip (-1) 1⟩, .dropout]

def last : KDense := ⟨"b", 2, [[3, -2]], none, "softmax", id⟩

/-- The hypotheses of `C105_keras` hold. -/
example (ext : Ext) : ∃ g, (Arith.float formats keras).graph {} (.mat [[1, -1/2]]) (hidden ++ [.dense last]) = some g ∧
    ∃ s z fs, NetMeans (exportJson g) s z fs ∧ ExportedFile Fmt.f32.fl 0 (s, z) (denseLayers (hidden ++ [.dense last])) fs ∧
      ∃ N, Fmt.f64.load (exportJson g) = some N ∧ ∃ Y rec, Fmt.f64.infer ext N (.flt (.mat [[1, 1], [-1, 2]])) = some (.flt (.mat Y), rec) ∧
        List.Forall₂ (fun y x => ∀ c, Decisive (denseRow last (forward hidden x)) (List.zipWith (· + ·)
          (outputBound (fileExact fs x) (fileBound fs x (inputBound s z x)))
          (drift Fmt.f32.fl fs (denseLayers (hidden ++ [.dense last])) x (x.map (fun _ => 0)))) c →
            Predicts y c ∧ MostLikely (denseRow last (forward hidden x)) c) Y [[1, 1], [-1, 2]] := by
  have h : ((Arith.float formats keras).graph {} (.mat [[1, -1/2]]) (hidden ++ [.dense last])).map
      (fun g => decide (∀ p ∈ g.filterMap (fun op => if op.opType = "FULLY_CONNECTED" then fcParams op else none),
        1 / 2 ^ 40 ≤ p.1 * p.2.1 ∧ 1 / 999999 ≤ p.1 * p.2.1 / p.2.2.1 ∧ p.1 * p.2.1 / p.2.2.1 ≤ 2 ^ 29)) = some true := by
    decide +kernel
  rw [Option.map_eq_some_iff] at h
  obtain ⟨g, hg, hsc⟩ := h
  rw [decide_eq_true_eq] at hsc
  refine ⟨g, hg, ?_⟩
  have hff : FileFactors g := by
    intro op hop sx sw so zo ht hp
    have hm : (sx, sw, so, zo) ∈ g.filterMap (fun op => if op.opType = "FULLY_CONNECTED" then fcParams op else none) :=
      List.mem_filterMap.mpr ⟨op, hop, by rw [if_pos ht, hp]⟩
    obtain ⟨b1, b2, b3⟩ := hsc _ hm
    have h126 : (2 : ℚ) ^ (-126 : ℤ) ≤ 2 ^ (-40 : ℤ) := zpow_le_zpow_right₀ (by norm_num) (by norm_num)
    have h40 : (2 : ℚ) ^ (-40 : ℤ) = 1 / 2 ^ 40 := by rw [zpow_neg]; norm_num
    rw [h40] at h126
    exact ⟨h126.trans b1, b2, b3⟩
  have hact : ActsOk keras.act 0 (hidden ++ [.dense last]) := by
    intro l hl
    refine ⟨fun a => by simp [keras, act], ?_⟩
    simp only [hidden, last, List.mem_append, List.mem_cons, KLayer.dense.injEq, reduceCtorEq, List.not_mem_nil, or_false] at hl
    rcases hl with rfl | rfl
    · intro _ a
      rw [abs_le]
      exact ⟨clip_ge (by norm_num), clip_le⟩
    · intro h; exact absurd h (by decide)
  have hlip : ∀ l, KLayer.dense l ∈ hidden ++ [.dense last] → ∀ a b, |target l a - target l b| ≤ |a - b| := by
    intro l hl a b
    simp only [hidden, last, List.mem_append, List.mem_cons, KLayer.dense.injEq, reduceCtorEq, List.not_mem_nil, or_false] at hl
    rcases hl with rfl | rfl
    · have e : ∀ y, target ⟨"a", 1, [[1], [-1/3]], some [1/10], "tanh", clip (-1) 1⟩ y = clip (-1) 1 y := fun y => by
        unfold target; exact if_neg (by decide)
      rw [e, e]; exact clip_lip a b
    · have e : ∀ y, target ⟨"b", 2, [[3, -2]], none, "softmax", id⟩ y = y := fun y => by
        unfold target; exact if_pos (by decide)
      rw [e, e]
  have h8 : Int8Layers {} 2 (hidden ++ [.dense last]) := by
    have hc : ∀ c, Cfg.denseFor {} "a" = some c → Int8Cfg c := by
      intro c hc
      rw [show Cfg.denseFor {} "a" = some {} from rfl, Option.some.injEq] at hc
      subst hc
      refine ⟨?_, ?_, ?_, ?_⟩ <;> (unfold NamesType; decide +kernel)
    refine ⟨⟨rfl, by norm_num, by norm_num, by simp⟩, by norm_num, hc, by decide, fun _ => clip_lip,
      ⟨rfl, by norm_num, by norm_num [last], by simp [last]⟩, by norm_num, hc, by decide, fun h => absurd h (by decide), trivial⟩
  obtain ⟨s, z, fs, m, e, N, n1, n2⟩ := C105_keras ext formats (fun _ => .inl rfl) (fun _ => .inl rfl) (.inl rfl) keras {} _ hidden
    last (by decide) 2 h8 (by unfold NamesType; decide +kernel) 0 hact hlip g hg hff
  exact ⟨s, z, fs, m, e, N, n1, n2 _ (by simp) (by simp)⟩

end

end C105Case

end Verif
