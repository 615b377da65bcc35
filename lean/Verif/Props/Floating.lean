import Verif.Lemmas.Multiplier

/-!
# C68: the integer stand-in for a real factor (`util/floating.py`)

`FloatingIntegerApprox(m) * x` with `integer_only=True` replaces `x · m` by one integer
multiplication, one addition and one arithmetic shift.
-/

namespace Verif

/-- The constructor written as one case distinction. -/
theorem floatingApprox_eq {m : ℚ} (hm : 0 < m) :
    ∃ q e : ℤ, 2 ^ 30 ≤ q ∧ q < 2 ^ 31 ∧
      (q : ℚ) * 2 ^ e = roundHalfEven (frexpMant m * 2 ^ 31) * 2 ^ frexpExp m ∧
      (∀ k : ℤ, e ≤ k ↔ m < 2 ^ k * (1 - 1 / 2 ^ 32)) ∧
      floatingApprox m = if 31 - e - 1 < 0 then none
        else some ⟨if e < -31 then 0 else q, (31 - e).toNat, 2 ^ ((31 - e).toNat - 1)⟩ := by
  obtain ⟨hq1, hq2⟩ := qm0_bounds hm
  have hc := qm0_carry_iff hm
  obtain ⟨h1, h2⟩ := frexp_bounds hm
  have hle := exp_le_iff hm
  have key : ∀ k : ℤ, (2 : ℚ) ^ (k - 1) ≤ 2 ^ k * (1 - 1 / 2 ^ 32) := by
    intro k
    rw [zpow_sub_one₀ (by norm_num)]
    have : (0 : ℚ) < 2 ^ k := by positivity
    apply mul_le_mul_of_nonneg_left _ this.le
    norm_num
  have hmono : ∀ j k : ℤ, j ≤ k →
      (2 : ℚ) ^ j * (1 - 1 / 2 ^ 32) ≤ 2 ^ k * (1 - 1 / 2 ^ 32) := fun j k h =>
    mul_le_mul_of_nonneg_right (zpow_le_zpow_right₀ (by norm_num) h) (by norm_num)
  have hlt1 : ∀ k : ℤ, (2 : ℚ) ^ k * (1 - 1 / 2 ^ 32) ≤ 2 ^ k := by
    intro k
    have : (0 : ℚ) < 2 ^ k := by positivity
    have h' : (1 - 1 / 2 ^ 32 : ℚ) ≤ 1 := by norm_num
    calc (2 : ℚ) ^ k * (1 - 1 / 2 ^ 32) ≤ 2 ^ k * 1 := mul_le_mul_of_nonneg_left h' this.le
      _ = 2 ^ k := mul_one _
  by_cases h : roundHalfEven (frexpMant m * 2 ^ 31) = 2 ^ 31
  · have hm' := hc.mp h
    refine ⟨2 ^ 30, frexpExp m + 1, le_refl _, by norm_num, ?_, ?_, ?_⟩
    · rw [h, zpow_add_one₀ (by norm_num)]; push_cast; ring
    · intro k
      constructor
      · intro hk
        refine lt_of_lt_of_le h2 ?_
        refine le_trans ?_ (key k)
        exact zpow_le_zpow_right₀ (by norm_num) (by omega)
      · intro hk
        by_contra hgt
        push Not at hgt
        exact absurd (lt_of_lt_of_le hk (le_trans (hmono k (frexpExp m) (by omega)) hm'))
          (lt_irrefl _)
    · simp only [floatingApprox, h]
      norm_num
  · have hm' : ¬ (2 ^ frexpExp m * (1 - 1 / 2 ^ 32) ≤ m) := fun h' => h (hc.mpr h')
    push Not at hm'
    refine ⟨roundHalfEven (frexpMant m * 2 ^ 31), frexpExp m, hq1, lt_of_le_of_ne hq2 h, rfl, ?_, ?_⟩
    · intro k
      constructor
      · intro hk
        exact lt_of_lt_of_le hm' (hmono _ _ hk)
      · intro hk
        rw [hle]
        exact lt_of_lt_of_le hk (hlt1 k)
    · simp only [floatingApprox, if_neg h]
      rw [if_neg (not_not.mpr hq2)]

/-- **C68.** The object can be built exactly for the factors below `2^30·(1 - 2^-32)`; above it
Python raises on a negative shift. -/
theorem C68_build_iff {m : ℚ} (hm : 0 < m) :
    (floatingApprox m).isSome ↔ m < 2 ^ 30 * (1 - 1 / 2 ^ 32) := by
  obtain ⟨q, e, -, -, -, hk, heq⟩ := floatingApprox_eq hm
  have h30 := hk 30
  rw [show (2 : ℚ) ^ (30 : ℤ) = 2 ^ 30 by norm_cast] at h30
  rw [← h30, heq]
  split_ifs with h
  · simp only [Option.isSome_none, Bool.false_eq_true, false_iff]; omega
  all_goals simp only [Option.isSome_some, true_iff]; omega

/-- **C68.** For every factor of at least `2^-32·(1 - 2^-32)` the integer product is the real product up to half
a unit, plus one part in `2^31` of the product. -/
theorem C68_product {m : ℚ} {p : Mult} (hm : (2 : ℚ) ^ (-32 : ℤ) * (1 - 1 / 2 ^ 32) ≤ m)
    (h : floatingApprox m = some p) (x : ℤ) : |(p.mulInt x : ℚ) - x * m| ≤ 1 / 2 + |(x : ℚ)| * m / 2 ^ 31 := by
  have hm0 : 0 < m := lt_of_lt_of_le (mul_pos (by positivity) (by norm_num)) hm
  obtain ⟨q, e, hq1, hq2, hqe, hk, heq⟩ := floatingApprox_eq hm0
  rw [heq] at h
  have he : ¬ e < -31 := by
    intro hlt
    exact absurd (lt_of_lt_of_le ((hk (-32)).mp (by omega)) hm) (lt_irrefl _)
  split_ifs at h with h1
  simp only [Option.some.injEq] at h
  subst h
  have hsh : (((31 - e).toNat : ℕ) : ℤ) = 31 - e := by omega
  have hrel := rel_of hm0 q e (31 - e).toNat hsh hqe
  unfold Mult.mulInt
  simp only
  rw [shift_round _ _ (by omega)]
  have hround := abs_roundHalfUp_sub_le (((x * q : ℤ) : ℚ) / 2 ^ (31 - e).toNat)
  have hx : ((x * q : ℤ) : ℚ) / 2 ^ (31 - e).toNat - x * m =
      x * ((q : ℚ) / 2 ^ (31 - e).toNat - m) := by push_cast; ring
  calc _ = |((roundHalfUp (((x * q : ℤ) : ℚ) / 2 ^ (31 - e).toNat) : ℤ) -
          ((x * q : ℤ) : ℚ) / 2 ^ (31 - e).toNat) +
          (((x * q : ℤ) : ℚ) / 2 ^ (31 - e).toNat - x * m)| := by congr 1; ring
    _ ≤ _ := abs_add_le _ _
    _ ≤ 1 / 2 + |(x : ℚ)| * m / 2 ^ 31 := by
      apply add_le_add hround
      rw [hx, abs_mul, mul_div_assoc]
      exact mul_le_mul_of_nonneg_left hrel (abs_nonneg _)

/-- **C68.** A factor below `2^-32·(1 - 2^-32)` is flushed to zero: every product is 0. -/
theorem C68_flush {m : ℚ} (hm0 : 0 < m) (hm : m < (2 : ℚ) ^ (-32 : ℤ) * (1 - 1 / 2 ^ 32)) :
    ∃ p, floatingApprox m = some p ∧ ∀ x, p.mulInt x = 0 := by
  obtain ⟨q, e, hq1, hq2, hqe, hk, heq⟩ := floatingApprox_eq hm0
  have he := (hk (-32)).mpr hm
  rw [if_neg (by omega), if_pos (by omega)] at heq
  refine ⟨_, heq, fun x => ?_⟩
  unfold Mult.mulInt
  simp only
  rw [shift_round _ _ (by omega)]
  simp [roundHalfUp]; norm_num

/-- **C68.** The rounding is to the nearest integer with halves going up, so multiplication by a fixed
factor never reorders values, and a zero factor or a zero operand gives 0. -/
theorem C68_monotone {m : ℚ} {p : Mult} (hm : 0 < m) (h : floatingApprox m = some p) :
    (∀ x y : ℤ, x ≤ y → p.mulInt x ≤ p.mulInt y) ∧ p.mulInt 0 = 0 := by
  obtain ⟨q, e, hq1, hq2, hqe, hk, heq⟩ := floatingApprox_eq hm
  rw [heq] at h
  split_ifs at h with h1
  all_goals
    simp only [Option.some.injEq] at h
    subst h
    unfold Mult.mulInt
    simp only
    constructor
    · intro x y hxy
      rw [shift_round _ _ (by omega), shift_round _ _ (by omega)]
      apply roundHalfUp_mono
      apply div_le_div_of_nonneg_right _ (by positivity)
      have hq0 : 0 ≤ q := by omega
      first
        | (push_cast; simp; done)
        | exact_mod_cast mul_le_mul_of_nonneg_right hxy hq0
    · rw [shift_round _ _ (by omega)]
      simp [roundHalfUp]; norm_num

/-- The thresholds are sharp: `2^-32` itself is kept, and `2^30` is refused. -/
example : ∃ p, floatingApprox ((2 : ℚ) ^ (-32 : ℤ)) = some p ∧ p.mulInt (2 ^ 33) = 2 := by
  have hm : (0 : ℚ) < 2 ^ (-32 : ℤ) := by positivity
  have h := (C68_build_iff hm).mpr (by norm_num [zpow_neg])
  obtain ⟨p, hp⟩ := Option.isSome_iff_exists.mp h
  refine ⟨p, hp, ?_⟩
  have := C68_product (by norm_num [zpow_neg]) hp (2 ^ 33)
  obtain ⟨h1, h2⟩ := abs_le.mp this
  norm_num [zpow_neg] at h1 h2
  have a1 : (1 : ℚ) < p.mulInt (2 ^ 33) := by norm_num; linarith
  have a2 : (p.mulInt (2 ^ 33) : ℚ) < 3 := by norm_num; linarith
  have b1 : 1 < p.mulInt (2 ^ 33) := by exact_mod_cast a1
  have b2 : p.mulInt (2 ^ 33) < 3 := by exact_mod_cast a2
  omega

example : floatingApprox (3 / 10) ≠ none ∧ floatingApprox (2 ^ 30) = none := by
  constructor
  · have h := (C68_build_iff (m := 3 / 10) (by norm_num)).mpr (by norm_num)
    intro h0; rw [h0] at h; cases h
  · have h := (C68_build_iff (m := 2 ^ 30) (by norm_num))
    cases hf : floatingApprox (2 ^ 30) with
    | none => rfl
    | some p => rw [hf] at h; simp only [Option.isSome_some, true_iff] at h; norm_num at h

end Verif
