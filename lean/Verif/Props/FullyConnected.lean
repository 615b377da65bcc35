import Verif.Lemmas.FullyConnected

/-!
# Properties C15–C21: fixed-point multiplier and fully connected layer

Vocabulary: `Verif.Spec.Dense` (exact integer and real dense layers), `Verif.Spec.Quant` (`real`, `Code`).
-/

namespace Verif
open Spec

/-! ## C15, C16: the multiplier -/

/-- C15.  For every factor `M ≥ 10⁻⁶` for which a multiplier can be built and every accumulator (of magnitude at
most `3·2³⁰`, which covers int32), the integer rescale differs from `acc · M` by at most
`1/2 + |acc|·M·2⁻³¹`. -/
theorem C15_rescale_error (m : ℚ) (hm : 1 / 1000000 ≤ m) (p : Mult) (hp : Mult.build m = some p)
    (acc : ℤ) (hacc : |acc| ≤ 3 * 2 ^ 30) :
    |(p.rescale acc : ℚ) - acc * m| ≤ 1 / 2 + |(acc : ℚ)| * m / 2 ^ 31 := by
  have hwf := build_wf hp
  have hL := build_large hm
  have happ : p.Approx m := by
    by_cases h2 : m < 2 ^ 30 * (1 - 1 / 2 ^ 32)
    · obtain ⟨p', hp', ha⟩ := hL.1 h2
      rw [hp] at hp'; cases hp'; exact ha
    · rw [hL.2 (not_lt.mp h2)] at hp; cases hp
  rw [rescale_exact hwf hacc, hwf.round_eq, shift_round _ _ hwf.sh_pos]
  set t : ℚ := ((acc * p.qm : ℤ) : ℚ) / 2 ^ p.shift with ht
  have h1 := abs_roundHalfUp_sub_le t
  have h2 : |t - acc * m| ≤ |(acc : ℚ)| * m / 2 ^ 31 := by
    have : t - acc * m = acc * ((p.qm : ℚ) / 2 ^ p.shift - m) := by rw [ht]; push_cast; ring
    rw [this, abs_mul, mul_div_assoc]
    exact mul_le_mul_of_nonneg_left happ.rel (abs_nonneg _)
  calc |(roundHalfUp t : ℚ) - acc * m| = |((roundHalfUp t : ℚ) - t) + (t - acc * m)| := by ring_nf
    _ ≤ |(roundHalfUp t : ℚ) - t| + |t - acc * m| := abs_add_le _ _
    _ ≤ _ := by linarith

/-- C15.  Factors below `10⁻⁶` are flushed: the rescale is 0 for every accumulator. -/
theorem C15_small_factor_is_zero (m : ℚ) (hm : m < 1 / 1000000) (p : Mult) (hp : Mult.build m = some p)
    (acc : ℤ) : p.rescale acc = 0 := by
  rw [build_small hm] at hp
  cases hp
  unfold Mult.rescale
  simp only [mul_zero]
  decide +kernel

/-- C15 (the bound on the accumulator).  Larger accumulators wrap in the int64 product: with factor 1/2 the accumulator
`2³³` is rescaled to `-2³²`. -/
theorem C15_wraps : ∃ p, Mult.build (1 / 2) = some p ∧ p.rescale (2 ^ 33) = -2 ^ 32 := by
  refine ⟨⟨2 ^ 30, 31, 2 ^ 30⟩, ?_, ?_⟩ <;> decide +kernel

example : Mult.build (3/1000) = some ⟨1649267442, 39, 2 ^ 38⟩ ∧
    (⟨1649267442, 39, 2 ^ 38⟩ : Mult).rescale 123456 = 370 ∧ ((123456 : ℚ) * (3/1000)) = 370.368 := by
  decide +kernel

/-- C16.  The constructor succeeds exactly for factors below `2³⁰·(1 - 2⁻³²)`. -/
theorem C16_build_iff (m : ℚ) : (Mult.build m).isSome ↔ m < 2 ^ 30 * (1 - 1 / 2 ^ 32) := by
  by_cases hm : m < 1 / 1000000
  · rw [build_small hm]
    simp only [Option.isSome_some, true_iff]
    refine lt_trans hm (by norm_num)
  · have hL := build_large (not_lt.mp hm)
    constructor
    · intro h
      by_contra hge
      rw [hL.2 (not_lt.mp hge)] at h
      simp at h
    · intro h
      obtain ⟨p, hp, _⟩ := hL.1 h
      rw [hp]; rfl

/-- C16.  The built multiplier is normalised (31-bit mantissa with its top bit set, shift between 1 and 62,
rounding constant half of the divisor) and represents `M` with relative error at most `2⁻³¹`. -/
theorem C16_build_normalised (m : ℚ) (hm : 1 / 1000000 ≤ m) (p : Mult) (hp : Mult.build m = some p) :
    2 ^ 30 ≤ p.qm ∧ p.qm < 2 ^ 31 ∧ 1 ≤ p.shift ∧ p.shift ≤ 62 ∧ p.round * 2 = 2 ^ p.shift ∧
      |(p.qm : ℚ) / 2 ^ p.shift - m| ≤ m / 2 ^ 31 := by
  have hL := build_large hm
  by_cases h2 : m < 2 ^ 30 * (1 - 1 / 2 ^ 32)
  · obtain ⟨p', hp', ha⟩ := hL.1 h2
    rw [hp] at hp'; cases hp'
    refine ⟨ha.qm_lo, ha.qm_hi, ha.sh_pos, ha.sh_le, ?_, ha.rel⟩
    rw [ha.round_eq, ← pow_succ]
    congr 1; have := ha.sh_pos; omega
  · rw [hL.2 (not_lt.mp h2)] at hp; cases hp

/-- The mantissa-carry case is reachable: `M` just below 1 rounds up to `2³¹` and is renormalised. -/
example : Mult.build (1 - 1 / 2 ^ 40) = some ⟨2 ^ 30, 30, 2 ^ 29⟩ ∧ Mult.build (2 ^ 30) = none := by
  decide +kernel

/-! ## C17: range and shape -/

/-- C17.  Whatever the input, weights, bias, zero points and multiplier: if a single sample is accepted, the
output has one value per neuron, each in the output dtype. -/
theorem C17_output_in_range (l : FC) (hd : l.outDtype.min ≤ l.outDtype.max) (x : List ℤ) (out : Arr ℤ)
    (h : l.infer (.vec x) = some out) :
    ∃ y, out = .vec y ∧ y.length = l.weights.length ∧ ∀ q ∈ y, Code l.outDtype.min l.outDtype.max q := by
  rw [FC.infer_vec] at h
  split_ifs at h with hc
  injection h with h
  refine ⟨_, h.symm, ?_, ?_⟩
  · simp [FC.addBias, matVec, hc.2]
  · intro q hq
    obtain ⟨a, _, rfl⟩ := List.mem_map.mp hq
    exact ⟨clip_ge hd, clip_le⟩

/-- C17.  A sample is accepted exactly when its length is the number of input features (for a layer with one
bias per neuron). -/
theorem C17_accepts_iff (l : FC) (hb : l.bias.length = l.weights.length) (x : List ℤ) :
    (l.infer (.vec x)).isSome ↔ x.length = l.nIn := by
  rw [FC.infer_vec]
  by_cases h : x.length = l.nIn <;> simp [h, hb]

/-! ## C18: no overflow -/

/-- The operands are 8-bit: codes, zero points and differences of magnitude at most 255, weights (after
subtracting the weight zero point) at most 255, biases int32, at most `2¹⁴` features. -/
structure FC.Bounds (l : FC) (x : List ℤ) : Prop where
  wf : l.WF
  mult : l.mult.WF
  features : l.nIn ≤ 2 ^ 14
  len : x.length = l.nIn
  biasLen : l.bias.length = l.weights.length
  input : ∀ v ∈ x, |v| ≤ 255
  zp : |l.inputZp| ≤ 255
  diff : ∀ v ∈ x, |v - l.inputZp| ≤ 255
  weights : ∀ r ∈ l.weights, ∀ w ∈ r, |w| ≤ 255
  bias : ∀ b ∈ l.bias, |b| ≤ 2 ^ 31
  outZp : |l.outputZp| ≤ 2 ^ 31

/-- Exact integer meaning of the last stage. -/
def FC.finishExact (l : FC) (acc : ℤ) : ℤ :=
  clip l.outDtype.min l.outDtype.max (⌊((acc * l.mult.qm : ℤ) : ℚ) / 2 ^ l.mult.shift + 1 / 2⌋ + l.outputZp)

theorem FC.finish_exact (l : FC) (hm : l.mult.WF) (hz : |l.outputZp| ≤ 2 ^ 31) (acc : ℤ)
    (hacc : |acc| ≤ 3 * 2 ^ 30) : l.finish acc = l.finishExact acc := by
  unfold FC.finish FC.finishExact
  rw [rescale_exact hm hacc]
  congr 1
  have hb : |shiftRight (acc * l.mult.qm + l.mult.round) l.mult.shift| ≤ 2 ^ 62 + 2 ^ 61 := by
    obtain ⟨hr1, hr2⟩ := round_bound hm
    obtain ⟨ha1, ha2⟩ := abs_le.mp hacc
    have hq1 := hm.qm_nonneg
    have hq2 := hm.qm_hi
    have hb1 : -(3 * 2 ^ 30 * (2 ^ 31 - 1)) ≤ acc * l.mult.qm := by nlinarith
    have hb2 : acc * l.mult.qm ≤ 3 * 2 ^ 30 * (2 ^ 31 - 1) := by nlinarith
    have hs := hm.sh_pos
    obtain ⟨j, hj⟩ : ∃ j, l.mult.shift = j + 1 := ⟨l.mult.shift - 1, by omega⟩
    unfold shiftRight
    rw [hj, pow_succ, mul_comm ((2 : ℤ) ^ j), ← Int.ediv_ediv_of_nonneg (by norm_num)]
    set y := (acc * l.mult.qm + l.mult.round) / 2 with hy
    have hy1 : -(3 * 2 ^ 60) ≤ y ∧ y ≤ 2 ^ 62 := by omega
    have hpow : (0 : ℤ) < 2 ^ j := by positivity
    rw [abs_le]
    constructor
    · rw [Int.le_ediv_iff_mul_le hpow]; nlinarith
    · have := Int.ediv_lt_of_lt_mul hpow (a := y) (b := 2 ^ 62 + 2 ^ 61 + 1) (by nlinarith)
      omega
  obtain ⟨h1, h2⟩ := abs_le.mp hb
  obtain ⟨h3, h4⟩ := abs_le.mp hz
  rw [wrapS_of_mem (b := 63) (by omega) (by omega), hm.round_eq, shift_round _ _ hm.sh_pos]
  rfl

theorem zipWith_map_left_eq {α β γ δ : Type} (f : β → γ → δ) (g : α → β) (xs : List α) (ys : List γ) :
    List.zipWith f (xs.map g) ys = List.zipWith (fun x y => f (g x) y) xs ys := by
  induction xs generalizing ys with
  | nil => simp
  | cons x xs ih => cases ys with
    | nil => simp
    | cons y ys => simp [ih]

theorem zipWith_congr_mem {α β γ : Type} (f g : α → β → γ) (xs : List α) (ys : List β)
    (h : ∀ x ∈ xs, ∀ y ∈ ys, f x y = g x y) : List.zipWith f xs ys = List.zipWith g xs ys := by
  induction xs generalizing ys with
  | nil => simp
  | cons x xs ih => cases ys with
    | nil => simp
    | cons y ys =>
      simp only [List.zipWith_cons_cons]
      rw [h x (by simp) y (by simp), ih ys (fun a ha b hb => h a (by simp [ha]) b (by simp [hb]))]

theorem FC.center_eq (l : FC) (x : List ℤ) (hb : ∀ v ∈ x, |v| ≤ 255) (hz : |l.inputZp| ≤ 255) :
    l.center x = x.map (· - l.inputZp) := by
  unfold FC.center
  apply List.map_congr_left
  intro v hv
  obtain ⟨h1, h2⟩ := abs_le.mp (hb v hv)
  obtain ⟨h3, h4⟩ := abs_le.mp hz
  rw [wrapS_of_mem (b := 63) (x := v) (by omega) (by omega), wrapS_of_mem (b := 63) (by omega) (by omega)]

theorem FC.acc_bound {l : FC} {x : List ℤ} (h : l.Bounds x) (row : List ℤ) (hrow : row ∈ l.weights) :
    |dotZ row (x.map (· - l.inputZp))| ≤ 2 ^ 30 := by
  have := abs_dotZ_le 255 255 (by norm_num) (by norm_num) row (x.map (· - l.inputZp)) (h.weights row hrow)
    (by intro y hy; obtain ⟨v, hv, rfl⟩ := List.mem_map.mp hy; exact h.diff v hv)
  rw [h.wf row hrow] at this
  have hf : (l.nIn : ℤ) ≤ 2 ^ 14 := by exact_mod_cast h.features
  omega

/-- C18.  For 8-bit operands, int32 biases and at most `2¹⁴` features, the int64 arithmetic of the layer is exact:
the result is the exact integer accumulator, rescaled with exact rational arithmetic, shifted by the output
zero point and clipped. -/
theorem C18_no_overflow (l : FC) (x : List ℤ) (h : l.Bounds x) :
    l.infer (.vec x) = some (.vec ((denseZ l.weights l.bias l.inputZp x).map l.finishExact)) := by
  rw [FC.infer_vec, if_pos ⟨h.len, h.biasLen⟩, FC.center_eq l x h.input h.zp]
  congr 2
  unfold FC.addBias matVec denseZ
  rw [zipWith_map_left_eq, List.map_zipWith, List.map_zipWith]
  apply zipWith_congr_mem
  intro row hrow b hb
  have hx : ∀ y ∈ x.map (· - l.inputZp), |y| ≤ 255 := by
    intro y hy; obtain ⟨v, hv, rfl⟩ := List.mem_map.mp hy; exact h.diff v hv
  have hf : (l.nIn : ℤ) ≤ 2 ^ 14 := by exact_mod_cast h.features
  rw [dot64_exact 255 255 (by norm_num) (by norm_num) row _ (h.weights row hrow) hx
    (by rw [h.wf row hrow]; omega)]
  have hacc := abs_le.mp (FC.acc_bound h row hrow)
  have hbb := abs_le.mp (h.bias b hb)
  rw [wrapS_of_mem (b := 63) (by omega) (by omega)]
  apply FC.finish_exact l h.mult h.outZp
  rw [abs_le]; constructor <;> omega

/-- C18's bounds are met by every layer whose operands really are int8/int32: `FC.build` with int8 codes. -/
theorem C18_bounds_of_int8 (sx : ℚ) (xzp : ℤ) (sw : ℚ) (n : ℕ) (W : List (List ℤ)) (sb : ℚ) (bzp : ℤ)
    (b : List ℤ) (so : ℚ) (ozp : ℤ) (d : GDtype) (l : FC)
    (hl : FC.build sx xzp sw 0 n W sb bzp b so ozp d = some l)
    (hn : n ≤ 2 ^ 14) (hW : ∀ r ∈ W, r.length = n) (hb : b.length = W.length)
    (hwc : ∀ r ∈ W, ∀ w ∈ r, Code (-128) 127 w) (hbc : ∀ v ∈ b, IsInt32 v)
    (hxz : Code (-128) 127 xzp) (hoz : Code (-128) 127 ozp)
    (x : List ℤ) (hx : x.length = n) (hxc : ∀ v ∈ x, Code (-128) 127 v) : l.Bounds x := by
  unfold FC.build at hl
  split at hl
  · cases hl
  · rename_i p hp
    injection hl with hl
    subst hl
    have key : ∀ r : List ℤ, r.map (fun w => w - 0) = r := by intro r; simp
    have hweq : W.map (fun r => r.map (fun w => w - 0)) = W := by simp
    have e1 := hxz.1; have e2 := hxz.2
    have e3 := hoz.1; have e4 := hoz.2
    refine ⟨?_, build_wf hp, hn, hx, ?_, ?_, ?_, ?_, ?_, ?_, ?_⟩
    · intro r hr; simp only [hweq] at hr; exact hW r hr
    · simp only [hweq]; exact hb
    · intro v hv; have := hxc v hv; unfold Code at this; rw [abs_le]; constructor <;> omega
    · simp only; rw [abs_le]; constructor <;> omega
    · intro v hv; have := hxc v hv; unfold Code at this; simp only; rw [abs_le]; constructor <;> omega
    · intro r hr w hw
      simp only [hweq] at hr
      have := hwc r hr w hw
      unfold Code at this; rw [abs_le]; constructor <;> omega
    · intro v hv; have := hbc v hv; unfold IsInt32 at this; rw [abs_le]; constructor <;> omega
    · simp only; rw [abs_le]; constructor <;> omega

/-- A concrete layer: 3 features, 2 neurons. -/
def exFC : FC :=
  { inputZp := 3, nIn := 3, weights := [[1, -2, 3], [100, 50, -7]], bias := [10, -2000],
    mult := ⟨1649267442, 39, 2 ^ 38⟩, outputZp := -5, outDtype := intDtype 7 }

example : exFC.infer (.vec [127, -128, 5]) = some (.vec [-4, 7]) ∧
    exFC.infer (.mat [[127, -128, 5], [0, 0, 0]]) = some (.mat [[-4, 7], [-5, -12]]) ∧
    exFC.infer (.vec [1, 2]) = none := by decide +kernel

/-! ## C19: monotonicity -/

theorem FC.finishExact_mono (l : FC) (hq : 0 ≤ l.mult.qm) {a b : ℤ} (h : a ≤ b) :
    l.finishExact a ≤ l.finishExact b := by
  unfold FC.finishExact
  apply clip_mono
  have : ((a * l.mult.qm : ℤ) : ℚ) / 2 ^ l.mult.shift ≤ ((b * l.mult.qm : ℤ) : ℚ) / 2 ^ l.mult.shift := by
    apply div_le_div_of_nonneg_right _ (by positivity)
    exact_mod_cast mul_le_mul_of_nonneg_right h hq
  have := Int.floor_mono (show ((a * l.mult.qm : ℤ) : ℚ) / 2 ^ l.mult.shift + 1 / 2 ≤
    ((b * l.mult.qm : ℤ) : ℚ) / 2 ^ l.mult.shift + 1 / 2 by linarith)
  omega

/-- C19.  Raising bias entry `j` (within the int32 bound) never lowers output `j` and leaves every other output
unchanged. -/
theorem C19_bias_monotone (l : FC) (x : List ℤ) (j : ℕ) (b b' : ℤ) (hj : l.bias[j]? = some b) (hbb : b ≤ b')
    (h : l.Bounds x) (h' : ({ l with bias := l.bias.set j b' } : FC).Bounds x) :
    ∃ y y', l.infer (.vec x) = some (.vec y) ∧
      ({ l with bias := l.bias.set j b' } : FC).infer (.vec x) = some (.vec y') ∧
      y.length = y'.length ∧
      (∀ i, i ≠ j → y[i]? = y'[i]?) ∧ (∀ q q', y[j]? = some q → y'[j]? = some q' → q ≤ q') := by
  refine ⟨_, _, C18_no_overflow l x h, C18_no_overflow _ x h', ?_, ?_, ?_⟩
  · simp [denseZ]
  · intro i hi
    have hf : FC.finishExact ({ l with bias := l.bias.set j b' } : FC) = l.finishExact := rfl
    rw [hf]
    simp only [denseZ, List.getElem?_map, List.getElem?_zipWith]
    rw [List.getElem?_set_ne (Ne.symm hi)]
  · intro q q' hq hq'
    have hf : FC.finishExact ({ l with bias := l.bias.set j b' } : FC) = l.finishExact := rfl
    rw [hf] at hq'
    have hjl : j < l.bias.length := (List.getElem?_eq_some_iff.mp hj).1
    simp only [denseZ, List.getElem?_map, List.getElem?_zipWith] at hq hq'
    rw [List.getElem?_set_self hjl] at hq'
    rw [hj] at hq
    cases hw : l.weights[j]? with
    | none => rw [hw] at hq; simp at hq
    | some row =>
      rw [hw] at hq hq'
      simp only [Option.map_some, Option.some.injEq] at hq hq'
      rw [← hq, ← hq']
      exact FC.finishExact_mono l h.mult.qm_nonneg (by omega)

/-- C19.  The integer rescale itself is monotone in the accumulator. -/
theorem C19_rescale_monotone (m : ℚ) (p : Mult) (hp : Mult.build m = some p) (a b : ℤ) (hab : a ≤ b)
    (ha : |a| ≤ 3 * 2 ^ 30) (hb : |b| ≤ 3 * 2 ^ 30) : p.rescale a ≤ p.rescale b := by
  have hwf := build_wf hp
  rw [rescale_exact hwf ha, rescale_exact hwf hb]
  apply shiftRight_mono
  have := mul_le_mul_of_nonneg_right hab hwf.qm_nonneg
  omega

/-! ## C20: batches -/

/-- C20 for the fully connected layer (the 2-D code path `X @ W.T` is a different computation from the 1-D path
`W @ x`): a batch is accepted iff every row is, and the result is the list of the single results. -/
theorem C20_fc_batch (l : FC) (hl : l.WF) (hb : l.bias.length = l.weights.length) (X Y : List (List ℤ)) :
    l.infer (.mat X) = some (.mat Y) ↔
      X.length = Y.length ∧ ∀ (i : ℕ) x y, X[i]? = some x → Y[i]? = some y → l.infer (.vec x) = some (.vec y) := by
  rw [FC.infer_mat l hl]
  constructor
  · intro h
    split_ifs at h with hc
    injection h with h
    injection h with h
    subst h
    refine ⟨by simp, ?_⟩
    intro i x y hx hy
    rw [List.getElem?_map, hx] at hy
    simp only [Option.map_some, Option.some.injEq] at hy
    rw [FC.infer_vec, if_pos ⟨hc.1 x (List.mem_of_getElem? hx), hb⟩, hy]
  · rintro ⟨hlen, hall⟩
    have hrow : ∀ x ∈ X, x.length = l.nIn := by
      intro x hx
      obtain ⟨i, hi, hxi⟩ := List.getElem_of_mem hx
      have := hall i x (Y[i]'(by omega)) (by rw [List.getElem?_eq_getElem hi, hxi])
        (List.getElem?_eq_getElem (by omega))
      rw [FC.infer_vec] at this
      split_ifs at this with hc
      exact hc.1
    rw [if_pos ⟨hrow, hb⟩]
    congr 2
    apply List.ext_getElem
    · simpa using hlen
    · intro i h1 h2
      simp only [List.length_map] at h1
      have := hall i X[i] Y[i] (List.getElem?_eq_getElem h1) (List.getElem?_eq_getElem h2)
      rw [FC.infer_vec, if_pos ⟨hrow _ (List.getElem_mem h1), hb⟩] at this
      injection this with this
      injection this with this
      simpa using this

/-! ## C21: accuracy against the real layer -/

theorem dotQ_real (sw sx : ℚ) (wzp xzp : ℤ) (row x : List ℤ) :
    dotQ (row.map (real wzp sw)) (x.map (real xzp sx)) =
      sx * sw * (dotZ (row.map (fun w => w - wzp)) (x.map (· - xzp)) : ℚ) := by
  induction row generalizing x with
  | nil => simp [dotQ, dotZ]
  | cons w row ih =>
    cases x with
    | nil => simp [dotQ, dotZ]
    | cons v x =>
      have := ih x
      simp only [dotQ, dotZ] at *
      simp only [List.map_cons, List.zipWith_cons_cons, List.sum_cons]
      rw [this]
      push_cast
      unfold real
      ring

/-- Clipping to a range containing the target can only reduce the error. -/
theorem clip_error {lo hi : ℤ} (hlh : lo ≤ hi) (r : ℤ) (t e : ℚ) (h : |(r : ℚ) - t| ≤ e) (h1 : (lo : ℚ) ≤ t)
    (h2 : t ≤ hi) : |((clip lo hi r : ℤ) : ℚ) - t| ≤ e := by
  obtain ⟨a, b⟩ := abs_le.mp h
  rcases lt_or_ge r lo with h3 | h3
  · rw [clip_of_le hlh h3.le, abs_le]
    have : (r : ℚ) ≤ lo := by exact_mod_cast h3.le
    constructor <;> linarith
  · rcases lt_or_ge hi r with h4 | h4
    · rw [clip_of_ge h4.le, abs_le]
      have : (hi : ℚ) ≤ r := by exact_mod_cast h4.le
      constructor <;> linarith
    · rw [clip_of_mem h3 h4]; exact h

/-- Clipping is nearest to the clipped target, too. -/
theorem clip_lipschitz {lo hi : ℤ} (hlh : lo ≤ hi) (r : ℤ) (t e : ℚ) (h : |(r : ℚ) - t| ≤ e) :
    |((clip lo hi r : ℤ) : ℚ) - max (lo : ℚ) (min (hi : ℚ) t)| ≤ e := by
  have hlh' : (lo : ℚ) ≤ hi := by exact_mod_cast hlh
  have he : 0 ≤ e := le_trans (abs_nonneg _) h
  obtain ⟨a, b⟩ := abs_le.mp h
  rcases le_total t lo with h1 | h1
  · rw [max_eq_left (le_trans (min_le_right _ _) h1)]
    rcases lt_or_ge r lo with h3 | h3
    · rw [clip_of_le hlh h3.le, sub_self, abs_zero]; exact he
    · have h3' : (lo : ℚ) ≤ r := by exact_mod_cast h3
      rcases lt_or_ge hi r with h4 | h4
      · have : (hi : ℚ) ≤ r := by exact_mod_cast h4.le
        rw [clip_of_ge h4.le, abs_le]; constructor <;> linarith
      · rw [clip_of_mem h3 h4, abs_le]; constructor <;> linarith
  · rcases le_total t hi with h2 | h2
    · rw [min_eq_right h2, max_eq_right h1]
      exact clip_error hlh r t e h h1 h2
    · rw [min_eq_left h2, max_eq_right hlh']
      rcases lt_or_ge hi r with h4 | h4
      · rw [clip_of_ge h4.le, sub_self, abs_zero]; exact he
      · have h4' : (r : ℚ) ≤ hi := by exact_mod_cast h4
        rcases lt_or_ge r lo with h3 | h3
        · have : (r : ℚ) ≤ lo := by exact_mod_cast h3.le
          rw [clip_of_le hlh h3.le, abs_le]; constructor <;> linarith
        · rw [clip_of_mem h3 h4, abs_le]; constructor <;> linarith

/-- C21 (saturation).  Let `W, b, x` be the stored integer weights, biases and inputs with parameters `(sw, wzp)`,
`(sx·sw, 0)`, `(sx, xzp)`, and `Y` the real pre-activation computed from the dequantized operands.  Each output code,
dequantized, is within `so/2 + |Y|·2⁻³¹` of `Y` saturated to the values the output can represent. -/
theorem C21_saturation (sx : ℚ) (xzp : ℤ) (sw : ℚ) (wzp : ℤ) (n : ℕ) (W : List (List ℤ)) (sb : ℚ) (bzp : ℤ)
    (b : List ℤ) (so : ℚ) (ozp : ℤ) (d : GDtype) (l : FC)
    (hl : FC.build sx xzp sw wzp n W sb bzp b so ozp d = some l)
    (hso : 0 < so) (hd : d.min ≤ d.max)
    (hm : 1 / 1000000 ≤ sx * sw / so) (x : List ℤ) (hbd : l.Bounds x) :
    ∃ out, l.infer (.vec x) = some (.vec out) ∧ out.length = W.length ∧
      ∀ (j : ℕ) q Y, out[j]? = some q →
        (denseQ (W.map (fun r => r.map (real wzp sw))) (b.map (real 0 (sx * sw))) (x.map (real xzp sx)))[j]? = some Y →
        |real ozp so q - max (real ozp so d.min) (min (real ozp so d.max) Y)| ≤ so / 2 + |Y| / 2 ^ 31 := by
  refine ⟨_, C18_no_overflow l x hbd, ?_, ?_⟩
  · unfold FC.build at hl
    split at hl
    · cases hl
    · injection hl with hl
      have := hbd.biasLen
      subst hl
      simp only [List.length_map] at this
      simp [denseZ, this]
  · intro j q Y hq hY
    have hbl := hbd.biasLen
    -- unpack the built layer
    have hbuild : ∃ p, Mult.build (sx * sw / so) = some p ∧ l =
        { inputZp := xzp, nIn := n, weights := W.map (fun r => r.map (fun w => w - wzp)),
          bias := b, mult := p, outputZp := ozp, outDtype := d } := by
      unfold FC.build at hl
      split at hl
      · cases hl
      · rename_i p hp
        injection hl with hl
        exact ⟨p, hp, hl.symm⟩
    obtain ⟨p, hp, rfl⟩ := hbuild
    simp only [denseZ, denseQ, List.getElem?_map, List.getElem?_zipWith] at hq hY
    cases hw : W[j]? with
    | none => rw [hw] at hq; simp at hq
    | some row =>
      cases hb : b[j]? with
      | none => rw [hw, hb] at hq; simp at hq
      | some bj =>
        rw [hw, hb] at hq hY
        simp only [Option.map_some, Option.some.injEq] at hq hY
        set acc : ℤ := dotZ (row.map (fun w => w - wzp)) (x.map (· - xzp)) + bj with hacc
        have hYacc : Y = sx * sw * acc := by
          rw [← hY, dotQ_real, hacc]; unfold real; push_cast; ring
        have hrow : row.map (fun w => w - wzp) ∈ W.map (fun r => r.map (fun w => w - wzp)) :=
          List.mem_map.mpr ⟨row, List.mem_of_getElem? hw, rfl⟩
        have hab := FC.acc_bound hbd _ hrow
        have hbb := hbd.bias bj (List.mem_of_getElem? hb)
        simp only at hab
        have habs : |acc| ≤ 3 * 2 ^ 30 := by
          have h1 := abs_le.mp hab
          have h2 := abs_le.mp hbb
          rw [abs_le, hacc]; constructor <;> omega
        have herr := C15_rescale_error (sx * sw / so) hm p hp acc habs
        have hfin := FC.finish_exact _ hbd.mult hbd.outZp acc habs
        rw [← hfin] at hq
        simp only [FC.finish] at hq
        -- the addition of the zero point does not wrap
        have hq' : q = clip d.min d.max (p.rescale acc + ozp) := by
          have := hfin
          unfold FC.finish FC.finishExact at this
          simp only at this
          rw [← hq, this, rescale_exact (build_wf hp) habs, (build_wf hp).round_eq,
            shift_round _ _ (build_wf hp).sh_pos]
          rfl
        -- in code units
        set t : ℚ := Y / so + ozp with ht
        have hYso : (acc : ℚ) * (sx * sw / so) = Y / so := by rw [hYacc]; ring
        have hpos : 0 < sx * sw / so := lt_of_lt_of_le (by norm_num) hm
        have habsY : |(acc : ℚ)| * (sx * sw / so) = |Y| / so := by
          rw [← abs_of_pos hpos, ← abs_mul, hYso, abs_div, abs_of_pos hso]
        have herr' : |((p.rescale acc + ozp : ℤ) : ℚ) - t| ≤ 1 / 2 + |Y| / so / 2 ^ 31 := by
          rw [hYso, habsY] at herr
          have : ((p.rescale acc + ozp : ℤ) : ℚ) - t = (p.rescale acc : ℚ) - Y / so := by
            rw [ht]; push_cast; ring
          rw [this]; exact herr
        have hc := clip_lipschitz hd _ t _ herr'
        rw [← hq'] at hc
        have hYt : Y = so * (t - ozp) := by rw [ht]; field_simp; ring
        have hsat : max (real ozp so d.min) (min (real ozp so d.max) Y) = so * (max (d.min : ℚ) (min (d.max : ℚ) t) - ozp) := by
          have e : ∀ u v c : ℚ, min (u - c) (v - c) = min u v - c := fun u v c => by
            simp only [sub_eq_add_neg, min_add_add_right]
          have e' : ∀ u v c : ℚ, max (u - c) (v - c) = max u v - c := fun u v c => by
            simp only [sub_eq_add_neg, max_add_add_right]
          unfold real
          rw [hYt]
          push_cast
          rw [← mul_min_of_nonneg _ _ hso.le, e, ← mul_max_of_nonneg _ _ hso.le, e']
        have hfinal : real ozp so q - max (real ozp so d.min) (min (real ozp so d.max) Y) =
            so * ((q : ℚ) - max (d.min : ℚ) (min (d.max : ℚ) t)) := by
          rw [hsat]; unfold real; push_cast; ring
        rw [hfinal, abs_mul, abs_of_pos hso]
        calc so * |(q : ℚ) - max (d.min : ℚ) (min (d.max : ℚ) t)| ≤ so * (1 / 2 + |Y| / so / 2 ^ 31) := mul_le_mul_of_nonneg_left hc hso.le
          _ = so / 2 + |Y| / 2 ^ 31 := by field_simp

/-- C21.  Let `W, b, x` be the stored integer weights, biases and inputs with parameters `(sw, wzp)`,
`(sx·sw, 0)`, `(sx, xzp)`.  Each output code, dequantized, is within `so/2 + |Y|·2⁻³¹` of the real pre-activation
`Y` computed from the dequantized operands, provided `Y` is representable in the output. -/
theorem C21_dense_accuracy (sx : ℚ) (xzp : ℤ) (sw : ℚ) (wzp : ℤ) (n : ℕ) (W : List (List ℤ)) (sb : ℚ) (bzp : ℤ)
    (b : List ℤ) (so : ℚ) (ozp : ℤ) (d : GDtype) (l : FC)
    (hl : FC.build sx xzp sw wzp n W sb bzp b so ozp d = some l)
    (hso : 0 < so) (hd : d.min ≤ d.max)
    (hm : 1 / 1000000 ≤ sx * sw / so) (x : List ℤ) (hbd : l.Bounds x) :
    ∃ out, l.infer (.vec x) = some (.vec out) ∧ out.length = W.length ∧
      ∀ (j : ℕ) q Y, out[j]? = some q →
        (denseQ (W.map (fun r => r.map (real wzp sw))) (b.map (real 0 (sx * sw))) (x.map (real xzp sx)))[j]? = some Y →
        real ozp so d.min ≤ Y → Y ≤ real ozp so d.max →
        |real ozp so q - Y| ≤ so / 2 + |Y| / 2 ^ 31 := by
  obtain ⟨out, h1, h2, h3⟩ := C21_saturation sx xzp sw wzp n W sb bzp b so ozp d l hl hso hd hm x hbd
  refine ⟨out, h1, h2, fun j q Y hq hY hY1 hY2 => ?_⟩
  have := h3 j q Y hq hY
  rwa [min_eq_right hY2, max_eq_right hY1] at this

/-- A concrete instance: `M = 0.003`, and the neuron's real value is representable. -/
example : FC.build (3/10) 3 (1/100) 0 3 [[1, -2, 3], [100, 50, -7]] (3/1000) 0 [10, -2000] 1 (-5) (intDtype 7)
      = some exFC ∧
    (denseQ ([[1, -2, 3], [100, 50, -7]].map (fun r => r.map (real 0 (1/100)))) ([10, -2000].map (real 0 (3/1000)))
      ([127, -128, 5].map (real 3 (3/10)))) = [603/500, 2877/250] := by decide +kernel

end Verif
