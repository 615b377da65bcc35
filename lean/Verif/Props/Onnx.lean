import Verif.Model.Layers
import Verif.Lemmas.FullyConnected
import Verif.Props.FullyConnected

/-!
# Property C25: ONNX integer operators; C53: ONNX softmax
-/

namespace Verif
open Spec

theorem dot32_exact (a b : ℤ) (ha : 0 ≤ a) (hb : 0 ≤ b) (xs ys : List ℤ)
    (hx : ∀ x ∈ xs, |x| ≤ a) (hy : ∀ y ∈ ys, |y| ≤ b) (hn : xs.length * (a * b) < 2 ^ 31) :
    dot32 xs ys = dotZ xs ys := by
  induction xs generalizing ys with
  | nil => simp [dotZ, dot32]
  | cons x xs ih =>
    cases ys with
    | nil => simp [dotZ, dot32]
    | cons y ys =>
      have hab : 0 ≤ a * b := mul_nonneg ha hb
      simp only [List.length_cons] at hn
      push_cast at hn
      have hlen : (0 : ℤ) ≤ (xs.length : ℤ) * (a * b) := by positivity
      have hle : ((xs.length : ℤ) + 1) * (a * b) = xs.length * (a * b) + a * b := by ring
      rw [hle] at hn
      have h2 : |x * y| ≤ a * b := by
        rw [abs_mul]
        exact mul_le_mul (hx x (by simp)) (hy y (by simp)) (abs_nonneg _) ha
      have h3 := abs_dotZ_le a b ha hb xs ys (fun z hz => hx z (by simp [hz])) (fun z hz => hy z (by simp [hz]))
      obtain ⟨p1, p2⟩ := abs_le.mp h2
      obtain ⟨q1, q2⟩ := abs_le.mp h3
      simp only [dot32, dotZ_cons]
      rw [ih ys (fun z hz => hx z (by simp [hz])) (fun z hz => hy z (by simp [hz])) (by omega)]
      rw [wrapS_of_mem (b := 31) (x := x * y) (by omega) (by omega)]
      exact wrapS_of_mem (b := 31) (by omega) (by omega)

theorem center32_eq {zp x : ℤ} (hx : Code 0 255 x) (hz : Code 0 255 zp) : center32 zp x = x - zp := by
  unfold center32
  have h1 := hx.1; have h2 := hx.2; have h3 := hz.1; have h4 := hz.2
  rw [wrapS_of_mem (b := 31) (x := x) (by omega) (by omega), wrapS_of_mem (b := 31) (by omega) (by omega)]

theorem dotZ_comm (xs ys : List ℤ) : dotZ xs ys = dotZ ys xs := by
  induction xs generalizing ys with
  | nil => cases ys <;> simp [dotZ]
  | cons x xs ih =>
    cases ys with
    | nil => simp [dotZ]
    | cons y ys => rw [dotZ_cons, dotZ_cons, ih, mul_comm]

/-! ## C25 -/

/-- C25 (range).  `QLinearMatMul` and `QLinearAdd` only return uint8 codes, for every input and parameters. -/
theorem C25_range :
    (∀ (l : QMatMul) (x : List ℤ) (out : Arr ℤ), l.infer (.vec x) = some out →
      ∃ y, out = .vec y ∧ y.length = l.nOut ∧ ∀ q ∈ y, Code 0 255 q) ∧
    (∀ (l : QAdd) (x : List ℤ) (out : Arr ℤ), l.infer (.vec x) = some out →
      ∃ y, out = .vec y ∧ y.length = l.b.length ∧ ∀ q ∈ y, Code 0 255 q) := by
  constructor
  · intro l x out h
    unfold QMatMul.infer at h
    simp only at h
    split_ifs at h
    injection h with h
    refine ⟨_, h.symm, by simp [QMatMul.row], ?_⟩
    intro q hq
    unfold QMatMul.row at hq
    obtain ⟨j, _, rfl⟩ := List.mem_map.mp hq
    exact ⟨clip_ge (by norm_num), clip_le⟩
  · intro l x out h
    unfold QAdd.infer at h
    simp only at h
    split_ifs at h with hl
    injection h with h
    refine ⟨_, h.symm, by simp [QAdd.row, hl], ?_⟩
    intro q hq
    unfold QAdd.row at hq
    rw [List.mem_iff_getElem?] at hq
    obtain ⟨i, hi⟩ := hq
    rw [List.getElem?_zipWith] at hi
    split at hi
    · injection hi with hi
      rw [← hi]
      exact ⟨clip_ge (by norm_num), clip_le⟩
    · cases hi

/-- Rounding, adding the zero point and clipping is within half an output step when unsaturated. -/
theorem finish_half_step (oS : ℚ) (ho : 0 < oS) (oZp : ℤ) (t Y : ℚ) (hY : Y = oS * t)
    (h1 : real oZp oS 0 ≤ Y) (h2 : Y ≤ real oZp oS 255) :
    |real oZp oS (clip 0 255 (roundHalfEven t + oZp)) - Y| ≤ oS / 2 := by
  have hr : |((roundHalfEven t + oZp : ℤ) : ℚ) - (t + oZp)| ≤ 1 / 2 := by
    have := abs_roundHalfEven_sub_le t
    push_cast
    rw [show ((roundHalfEven t : ℚ) + oZp - (t + oZp)) = roundHalfEven t - t by ring]
    exact this
  unfold real at h1 h2
  rw [hY] at h1 h2
  have hlo : ((0 : ℤ) : ℚ) ≤ t + oZp := by
    have := le_of_mul_le_mul_left h1 ho
    push_cast at *; linarith
  have hhi : t + oZp ≤ ((255 : ℤ) : ℚ) := by
    have := le_of_mul_le_mul_left h2 ho
    push_cast at *; linarith
  have := clip_error (lo := 0) (hi := 255) (by norm_num) _ _ _ hr hlo hhi
  unfold real
  rw [hY, ← mul_sub, abs_mul, abs_of_pos ho]
  rw [show ((clip (0 : ℤ) 255 (roundHalfEven t + oZp) : ℤ) : ℚ) - oZp - t =
    ((clip (0 : ℤ) 255 (roundHalfEven t + oZp) : ℤ) : ℚ) - (t + oZp) by ring]
  nlinarith

theorem transpose_col (W : List (List ℤ)) (c j : ℕ) (hj : j < W.length) (hW : W[j].length = c) :
    (transpose W c).map (fun r => r.getD j 0) = W[j] := by
  unfold transpose
  rw [List.map_map]
  conv_rhs => rw [← list_eq_map_range W[j]]
  rw [hW]
  apply List.map_congr_left
  intro i _
  simp [entry, List.getD_eq_getElem?_getD, hj]

/-- C25 (accuracy of `QLinearMatMul`).  For uint8 data and weights and at most `2¹⁵` features, an unsaturated
output is within half an output step of the real product of the real values denoted by input and weights.
(`W` is the weight tensor of the JSON file, one row per output.) -/
theorem C25_matmul_accuracy (iS : ℚ) (iZp : ℤ) (W : List (List ℤ)) (c : ℕ) (wS : ℚ) (wZp : ℤ) (oS : ℚ)
    (oZp : ℤ) (ho : 0 < oS) (hc : c ≤ 2 ^ 15) (hW : ∀ r ∈ W, r.length = c ∧ ∀ v ∈ r, Code 0 255 v)
    (hiz : Code 0 255 iZp) (hwz : Code 0 255 wZp)
    (x : List ℤ) (hx : x.length = c) (hxc : ∀ v ∈ x, Code 0 255 v) :
    ∃ out, (QMatMul.mk' iS iZp W c wS wZp oS oZp).infer (.vec x) = some (.vec out) ∧ out.length = W.length ∧
      ∀ (j : ℕ) q row, out[j]? = some q → W[j]? = some row →
        real oZp oS 0 ≤ dotQ (row.map (real wZp wS)) (x.map (real iZp iS)) →
        dotQ (row.map (real wZp wS)) (x.map (real iZp iS)) ≤ real oZp oS 255 →
        |real oZp oS q - dotQ (row.map (real wZp wS)) (x.map (real iZp iS))| ≤ oS / 2 := by
  refine ⟨(QMatMul.mk' iS iZp W c wS wZp oS oZp).row x, ?_, ?_, ?_⟩
  · unfold QMatMul.infer QMatMul.mk'; simp [hx]
  · simp [QMatMul.row, QMatMul.mk']
  · intro j q row hq hrow h1 h2
    obtain ⟨hj, rfl⟩ := List.getElem?_eq_some_iff.mp hrow
    obtain ⟨hwl, hwc⟩ := hW W[j] (List.getElem_mem hj)
    unfold QMatMul.row QMatMul.mk' at hq
    simp only at hq
    rw [List.getElem?_map, List.getElem?_range hj] at hq
    simp only [Option.map_some, Option.some.injEq] at hq
    rw [← hq]
    have hcx : x.map (center32 iZp) = x.map (· - iZp) :=
      List.map_congr_left (fun v hv => center32_eq (hxc v hv) hiz)
    have hcw : (transpose W c).map (fun r => center32 wZp (r.getD j 0)) = W[j].map (fun w => w - wZp) := by
      have := congrArg (List.map (center32 wZp)) (transpose_col W c j hj hwl)
      rw [List.map_map] at this
      rw [show (fun r : List ℤ => center32 wZp (r.getD j 0)) = (center32 wZp) ∘ (fun r => r.getD j 0) from rfl,
        this]
      exact List.map_congr_left (fun v hv => center32_eq (hwc v hv) hwz)
    rw [hcx, hcw]
    have hb : ∀ (zp : ℤ), Code 0 255 zp → ∀ l : List ℤ, (∀ v ∈ l, Code 0 255 v) →
        ∀ y ∈ l.map (· - zp), |y| ≤ 255 := by
      intro zp hz l hl y hy
      obtain ⟨v, hv, rfl⟩ := List.mem_map.mp hy
      have a := hl v hv
      rw [abs_le]
      obtain ⟨a1, a2⟩ := a; obtain ⟨b1, b2⟩ := hz
      constructor <;> omega
    rw [dot32_exact 255 255 (by norm_num) (by norm_num) _ _ (hb iZp hiz x hxc) (hb wZp hwz _ hwc)
      (by rw [List.length_map, hx]
          have : (c : ℤ) ≤ 2 ^ 15 := by exact_mod_cast hc
          omega)]
    unfold QMatMul.finish
    apply finish_half_step oS ho oZp _ _ _ h1 h2
    rw [dotQ_real, dotZ_comm]
    simp only
    field_simp

/-- C25 (accuracy of `QLinearAdd`).  For uint8 operands an unsaturated output is within half an output step of
the sum of the real values. -/
theorem C25_add_accuracy (l : QAdd) (ho : 0 < l.oS) (hiz : Code 0 255 l.iZp) (hbz : Code 0 255 l.bZp)
    (hb : ∀ v ∈ l.b, Code 0 255 v) (x : List ℤ) (hx : x.length = l.b.length) (hxc : ∀ v ∈ x, Code 0 255 v) :
    ∃ out, l.infer (.vec x) = some (.vec out) ∧ out.length = x.length ∧
      ∀ (j : ℕ) q a b, out[j]? = some q → x[j]? = some a → l.b[j]? = some b →
        real l.oZp l.oS 0 ≤ real l.iZp l.iS a + real l.bZp l.bS b →
        real l.iZp l.iS a + real l.bZp l.bS b ≤ real l.oZp l.oS 255 →
        |real l.oZp l.oS q - (real l.iZp l.iS a + real l.bZp l.bS b)| ≤ l.oS / 2 := by
  refine ⟨l.row x, ?_, by simp [QAdd.row, hx], ?_⟩
  · unfold QAdd.infer; simp [hx]
  · intro j q a b hq ha hbj h1 h2
    unfold QAdd.row at hq
    rw [List.getElem?_zipWith, ha, hbj] at hq
    simp only [Option.some.injEq] at hq
    rw [← hq]
    unfold QAdd.elem
    apply finish_half_step l.oS ho l.oZp _ _ _ h1 h2
    rw [center32_eq (hxc a (List.mem_of_getElem? ha)) hiz, center32_eq (hb b (List.mem_of_getElem? hbj)) hbz]
    unfold real
    push_cast
    field_simp

/-- Concrete layers: unsaturated and saturated results. -/
example : (QMatMul.mk' (1/2) 10 [[3, 4], [250, 0]] 2 (1/4) 5 (1/8) 100).infer (.vec [12, 20]) =
      some (.vec [86, 255]) ∧
    (QAdd.mk (1/2) 10 [7, 8] (1/4) 5 (1/8) 100).infer (.vec [12, 20]) = some (.vec [112, 146]) := by
  decide +kernel

/-! ## C53: ONNX softmax normalises over the whole array -/

/-- C53.  For one sample the ONNX Softmax operator is a probability vector: the entries sum to 1 and, for a
positive exponential, are positive. -/
theorem C53_softmax_single (exp : ℚ → ℚ) (hexp : ∀ v, 0 < exp v) (x : List ℚ) (hx : x ≠ []) :
    ∃ p, onnxSoftmax exp (.vec x) = .vec p ∧ p.length = x.length ∧ p.sum = 1 ∧ ∀ v ∈ p, 0 < v := by
  have hpos : ∀ l : List ℚ, l ≠ [] → 0 < (l.map exp).sum := by
    intro l hl
    induction l with
    | nil => exact absurd rfl hl
    | cons a t ih =>
      rw [List.map_cons, List.sum_cons]
      cases t with
      | nil => simpa using hexp a
      | cons b t' => have := ih (by simp); have := hexp a; linarith
  refine ⟨_, rfl, by simp, ?_, ?_⟩
  · simp only [Arr.flat]
    have : (x.map (fun v => exp v / (x.map exp).sum)) = (x.map exp).map (fun w => w / (x.map exp).sum) := by
      rw [List.map_map]; rfl
    rw [this]
    have hsum : ∀ (l : List ℚ) (c : ℚ), (l.map (fun w => w / c)).sum = l.sum / c := by
      intro l c
      induction l with
      | nil => simp
      | cons a t ih => simp [ih, add_div]
    rw [hsum, div_self (hpos x hx).ne']
  · intro v hv
    simp only [Arr.flat] at hv
    obtain ⟨w, _, rfl⟩ := List.mem_map.mp hv
    exact div_pos (hexp w) (hpos x hx)

/-- C53, batches: the operator divides by the sum over *all* samples, so the entries of the whole batch sum to 1
and with two or more samples no row is a probability vector and no row equals the result for that sample alone. -/
theorem C53_softmax_batch_wrong (exp : ℚ → ℚ) (hexp : ∀ v, 0 < exp v) (X : List (List ℚ))
    (hX : 2 ≤ X.length) (hne : ∀ r ∈ X, r ≠ []) :
    ∃ P, onnxSoftmax exp (.mat X) = .mat P ∧ P.length = X.length ∧
      ∀ (i : ℕ) r p, X[i]? = some r → P[i]? = some p →
        p.sum < 1 ∧ onnxSoftmax exp (.vec r) ≠ .vec p := by
  have hpos : ∀ l : List ℚ, l ≠ [] → 0 < (l.map exp).sum := by
    intro l hl
    induction l with
    | nil => exact absurd rfl hl
    | cons a t ih =>
      rw [List.map_cons, List.sum_cons]
      cases t with
      | nil => simpa using hexp a
      | cons b t' => have := ih (by simp); have := hexp a; linarith
  have hsum : ∀ (l : List ℚ) (c : ℚ), (l.map (fun v => exp v / c)).sum = (l.map exp).sum / c := by
    intro l c
    induction l with
    | nil => simp
    | cons a t ih => simp [ih, add_div]
  have hflat : ∀ (A B : List (List ℚ)) (r : List ℚ),
      ((A ++ r :: B).flatten.map exp).sum = (A.flatten.map exp).sum + (r.map exp).sum + (B.flatten.map exp).sum := by
    intro A B r; simp; ring
  have hnn : ∀ l : List ℚ, 0 ≤ (l.map exp).sum := by
    intro l
    cases l with
    | nil => simp
    | cons a t => exact (hpos _ (by simp)).le
  refine ⟨_, rfl, by simp, ?_⟩
  intro i r p hr hp
  simp only [Arr.flat, List.getElem?_map, hr, Option.map_some, Option.some.injEq] at hp
  obtain ⟨hi, rfl⟩ := List.getElem?_eq_some_iff.mp hr
  have hsplit : X = X.take i ++ X[i] :: X.drop (i + 1) := by
    rw [List.getElem_cons_drop, List.take_append_drop]
  have hrpos := hpos X[i] (hne _ (List.getElem_mem hi))
  have hother : 0 < ((X.take i).flatten.map exp).sum + ((X.drop (i + 1)).flatten.map exp).sum := by
    have h1 := hnn (X.take i).flatten
    have h2 := hnn (X.drop (i + 1)).flatten
    by_cases h0 : i = 0
    · have : 0 < ((X.drop (i + 1)).flatten.map exp).sum := by
        apply hpos
        intro he
        rw [List.flatten_eq_nil_iff] at he
        have hl : 0 < (X.drop (i + 1)).length := by rw [List.length_drop]; omega
        have hm := List.getElem_mem hl
        exact hne _ (List.mem_of_mem_drop hm) (he _ hm)
      linarith
    · have : 0 < ((X.take i).flatten.map exp).sum := by
        apply hpos
        intro he
        rw [List.flatten_eq_nil_iff] at he
        have hl : 0 < (X.take i).length := by rw [List.length_take]; omega
        have hm := List.getElem_mem hl
        exact hne _ (List.mem_of_mem_take hm) (he _ hm)
      linarith
  have htot : (X.flatten.map exp).sum =
      ((X.take i).flatten.map exp).sum + (X[i].map exp).sum + ((X.drop (i + 1)).flatten.map exp).sum := by
    conv_lhs => rw [hsplit]
    exact hflat _ _ _
  have hlt : p.sum < 1 := by
    rw [← hp, hsum, htot, div_lt_one (by linarith)]
    linarith
  refine ⟨hlt, ?_⟩
  intro he
  simp only [onnxSoftmax, Arr.map, Arr.flat, Arr.vec.injEq] at he
  have := congrArg List.sum he
  rw [hsum, div_self hrpos.ne'] at this
  linarith

/-- The hypotheses are met, e.g. with `exp v = 2 + v²`. -/
example : onnxSoftmax (fun v => 2 + v * v) (.mat [[0, 1], [2, 0]]) = .mat [[2/13, 3/13], [6/13, 2/13]] := by
  decide +kernel

end Verif
