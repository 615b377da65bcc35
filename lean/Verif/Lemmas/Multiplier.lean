import Verif.Model.Multiplier
import Verif.Lemmas.Num
import Mathlib.Algebra.Order.Field.Power

namespace Verif

theorem frexp_bounds {m : ℚ} (hm : 0 < m) :
    (2 : ℚ) ^ (frexpExp m - 1) ≤ m ∧ m < (2 : ℚ) ^ frexpExp m := by
  unfold frexpExp
  constructor
  · rw [add_sub_cancel_right]
    exact_mod_cast Int.zpow_log_le_self (b := 2) (by norm_num) hm
  · exact_mod_cast Int.lt_zpow_succ_log_self (b := 2) (by norm_num) m

theorem frexpMant_bounds {m : ℚ} (hm : 0 < m) : 1 / 2 ≤ frexpMant m ∧ frexpMant m < 1 := by
  obtain ⟨h1, h2⟩ := frexp_bounds hm
  unfold frexpMant
  have hp : (0 : ℚ) < 2 ^ frexpExp m := by positivity
  constructor
  · rw [le_div_iff₀ hp]
    rw [zpow_sub_one₀ (by norm_num)] at h1
    linarith
  · rw [div_lt_one hp]; exact h2

theorem frexp_mul {m : ℚ} : m = frexpMant m * 2 ^ frexpExp m := by
  unfold frexpMant
  have hp : (2 : ℚ) ^ frexpExp m ≠ 0 := by positivity
  field_simp

/-- Facts about the rounded mantissa. -/
theorem qm0_bounds {m : ℚ} (hm : 0 < m) :
    2 ^ 30 ≤ roundHalfEven (frexpMant m * 2 ^ 31) ∧ roundHalfEven (frexpMant m * 2 ^ 31) ≤ 2 ^ 31 := by
  obtain ⟨h1, h2⟩ := frexpMant_bounds hm
  constructor
  · have := roundHalfEven_mono (x := ((2 ^ 30 : ℤ) : ℚ)) (y := frexpMant m * 2 ^ 31)
      (by push_cast; linarith)
    rwa [roundHalfEven_int] at this
  · have := roundHalfEven_mono (x := frexpMant m * 2 ^ 31) (y := ((2 ^ 31 : ℤ) : ℚ))
      (by push_cast; linarith)
    rwa [roundHalfEven_int] at this

theorem qm0_carry_iff {m : ℚ} (hm : 0 < m) :
    roundHalfEven (frexpMant m * 2 ^ 31) = 2 ^ 31 ↔ 2 ^ frexpExp m * (1 - 1 / 2 ^ 32) ≤ m := by
  obtain ⟨h1, h2⟩ := frexpMant_bounds hm
  have hp : (0 : ℚ) < 2 ^ frexpExp m := by positivity
  have hiff : 2 ^ frexpExp m * (1 - 1 / 2 ^ 32) ≤ m ↔ ((2 : ℚ) ^ 31 - 1 / 2) ≤ frexpMant m * 2 ^ 31 := by
    conv_lhs => rw [frexp_mul (m := m)]
    have : frexpExp (frexpMant m * 2 ^ frexpExp m) = frexpExp m := by rw [← frexp_mul]
    rw [this]
    rw [mul_comm (frexpMant m), mul_le_mul_iff_right₀ hp]
    constructor <;> intro h <;> linarith
  rw [hiff]
  constructor
  · intro h
    have := abs_roundHalfEven_sub_le (frexpMant m * 2 ^ 31)
    rw [h] at this
    have := (abs_le.mp this).2
    push_cast at this; linarith
  · intro h
    have hle := (qm0_bounds hm).2
    have h3 : roundHalfEven ((2 : ℚ) ^ 31 - 1 / 2) = 2 ^ 31 := by decide +kernel
    have := roundHalfEven_mono h
    rw [h3] at this
    exact le_antisymm hle this

/-- Relation between a built multiplier and the real factor. -/
structure Mult.Approx (p : Mult) (m : ℚ) : Prop where
  qm_lo : 2 ^ 30 ≤ p.qm
  qm_hi : p.qm < 2 ^ 31
  sh_pos : 1 ≤ p.shift
  sh_le : p.shift ≤ 62
  round_eq : p.round = 2 ^ (p.shift - 1)
  rel : |(p.qm : ℚ) / 2 ^ p.shift - m| ≤ m / 2 ^ 31

theorem exp_ge {m : ℚ} (hm : 1 / 1000000 ≤ m) : -31 ≤ frexpExp m := by
  have hm0 : 0 < m := lt_of_lt_of_le (by norm_num) hm
  obtain ⟨_, h2⟩ := frexp_bounds hm0
  by_contra hlt
  push Not at hlt
  have : (2 : ℚ) ^ frexpExp m ≤ 2 ^ (-31 : ℤ) := zpow_le_zpow_right₀ (by norm_num) hlt.le
  have h3 : (2 : ℚ) ^ (-31 : ℤ) < 1 / 1000000 := by norm_num [zpow_neg]
  exact absurd (lt_of_lt_of_le h2 (le_trans this (le_trans h3.le hm))) (lt_irrefl _)

theorem exp_le_iff {m : ℚ} (hm0 : 0 < m) (k : ℤ) : frexpExp m ≤ k ↔ m < 2 ^ k := by
  obtain ⟨h1, h2⟩ := frexp_bounds hm0
  constructor
  · intro h
    exact lt_of_lt_of_le h2 (zpow_le_zpow_right₀ (by norm_num) h)
  · intro h
    by_contra hlt
    push Not at hlt
    have : (2 : ℚ) ^ k ≤ 2 ^ (frexpExp m - 1) := zpow_le_zpow_right₀ (by norm_num) (by omega)
    linarith

theorem rel_of {m : ℚ} (hm0 : 0 < m) (q : ℤ) (e : ℤ) (sh : ℕ) (hsh : (sh : ℤ) = 31 - e)
    (hq : (q : ℚ) * 2 ^ e = roundHalfEven (frexpMant m * 2 ^ 31) * 2 ^ frexpExp m) :
    |(q : ℚ) / 2 ^ sh - m| ≤ m / 2 ^ 31 := by
  obtain ⟨h1, h2⟩ := frexp_bounds hm0
  have hr := abs_roundHalfEven_sub_le (frexpMant m * 2 ^ 31)
  have hpow : (2 : ℚ) ^ sh = 2 ^ (31 : ℕ) * (2 ^ e)⁻¹ := by
    rw [← zpow_natCast, hsh, zpow_sub₀ (by norm_num)]; rfl
  have e0 : (2 : ℚ) ^ e ≠ 0 := by positivity
  have hdiv : (q : ℚ) / 2 ^ sh = (q : ℚ) * 2 ^ e / 2 ^ 31 := by
    rw [hpow]; field_simp
  rw [hdiv, hq]
  have hm : m = frexpMant m * 2 ^ 31 * 2 ^ frexpExp m / 2 ^ 31 := by
    conv_lhs => rw [frexp_mul (m := m)]
    field_simp
  have hd : (roundHalfEven (frexpMant m * 2 ^ 31) : ℚ) * 2 ^ frexpExp m / 2 ^ 31 - m =
      (roundHalfEven (frexpMant m * 2 ^ 31) - frexpMant m * 2 ^ 31) * (2 ^ frexpExp m / 2 ^ 31) := by
    conv_lhs => rw [hm]
    have : frexpExp (frexpMant m * 2 ^ 31 * 2 ^ frexpExp m / 2 ^ 31) = frexpExp m := by rw [← hm]
    have h' : frexpMant (frexpMant m * 2 ^ 31 * 2 ^ frexpExp m / 2 ^ 31) = frexpMant m := by rw [← hm]
    rw [this, h']; ring
  rw [hd, abs_mul]
  have hpos : (0 : ℚ) < 2 ^ frexpExp m / 2 ^ 31 := by positivity
  rw [abs_of_pos hpos]
  rw [zpow_sub_one₀ (by norm_num)] at h1
  calc _ ≤ 1 / 2 * ((2 : ℚ) ^ frexpExp m / 2 ^ 31) := mul_le_mul_of_nonneg_right hr hpos.le
    _ = (2 ^ frexpExp m * 2⁻¹) / 2 ^ 31 := by ring
    _ ≤ m / 2 ^ 31 := by apply div_le_div_of_nonneg_right h1; positivity

theorem build_small {m : ℚ} (hm : m < 1 / 1000000) : Mult.build m = some ⟨0, 31, 2 ^ 30⟩ := by
  unfold Mult.build Mult.adjust
  rw [if_pos hm]; rfl

theorem adjust_some {q e : ℤ} (hq : 0 ≤ q) (h1 : -31 ≤ e) (h2 : e ≤ 30) :
    Mult.adjust q e = some ⟨q, (31 + -e).toNat, 2 ^ ((31 + -e).toNat - 1)⟩ := by
  unfold Mult.adjust; simp [hq, h1, h2]

theorem adjust_none {q e : ℤ} (h : 30 < e) : Mult.adjust q e = none := by
  unfold Mult.adjust
  split_ifs with h1 h2
  · exfalso; omega
  · rfl
  · rfl

/-- The complete behaviour of the constructor for factors that are not flushed to zero. -/
theorem build_large {m : ℚ} (hm : 1 / 1000000 ≤ m) :
    (m < 2 ^ 30 * (1 - 1 / 2 ^ 32) → ∃ p, Mult.build m = some p ∧ p.Approx m) ∧
    (2 ^ 30 * (1 - 1 / 2 ^ 32) ≤ m → Mult.build m = none) := by
  have hm0 : 0 < m := lt_of_lt_of_le (by norm_num) hm
  have hge := exp_ge hm
  obtain ⟨hq1, hq2⟩ := qm0_bounds hm0
  have hc := qm0_carry_iff hm0
  have he30 := exp_le_iff hm0 30
  set e := frexpExp m with he
  set q := roundHalfEven (frexpMant m * 2 ^ 31) with hq
  have hbuild : Mult.build m = if q = 2 ^ 31 then Mult.adjust (2 ^ 30) (e + 1) else Mult.adjust q e := by
    unfold Mult.build
    rw [if_neg (not_lt.mpr hm)]
    simp only [← he, ← hq]
    rw [if_neg (not_not.mpr hq2)]
    by_cases h : q = 2 ^ 31
    · simp only [h, if_true]
      rw [if_neg (by norm_num), if_neg (by omega)]
      norm_num
    · simp only [h, if_false]
      rw [if_neg (by omega), if_neg (by omega)]
  rw [hbuild]
  constructor
  · intro hlt
    by_cases h : q = 2 ^ 31
    · rw [if_pos h]
      -- carry: e cannot be 30
      have h2 := hc.mp h
      have hne : e ≤ 29 := by
        by_contra hgt
        push Not at hgt
        have h3 : (2 : ℚ) ^ (30 : ℤ) ≤ 2 ^ e := zpow_le_zpow_right₀ (by norm_num) (by omega)
        have h4 : (2 : ℚ) ^ (30 : ℤ) = 2 ^ 30 := by norm_cast
        rw [h4] at h3
        have : (2 : ℚ) ^ 30 * (1 - 1 / 2 ^ 32) ≤ 2 ^ e * (1 - 1 / 2 ^ 32) :=
          mul_le_mul_of_nonneg_right h3 (by norm_num)
        linarith
      refine ⟨_, adjust_some (by norm_num) (by omega) (by omega), ?_⟩
      refine ⟨by norm_num, by norm_num, by simp only; omega, by simp only; omega, rfl, ?_⟩
      apply rel_of hm0 (2 ^ 30) (e + 1) _ (by simp only; omega)
      rw [← hq, ← he, h, zpow_add_one₀ (by norm_num)]; push_cast; ring
    · rw [if_neg h]
      have h30 : e ≤ 30 := by
        rw [he30]
        have : (2 : ℚ) ^ (30 : ℤ) = 2 ^ 30 := by norm_cast
        rw [this]
        refine lt_of_lt_of_le hlt (by norm_num)
      refine ⟨_, adjust_some (by omega) (by omega) (by omega), ?_⟩
      refine ⟨hq1, by simp only; omega, by simp only; omega, by simp only; omega, rfl, ?_⟩
      exact rel_of hm0 q e _ (by simp only; omega) rfl
  · intro hgele
    by_cases h : q = 2 ^ 31
    · rw [if_pos h]
      apply adjust_none
      by_contra hle
      push Not at hle
      -- e ≤ 29 means m < 2^29, contradiction
      have h29 := (exp_le_iff hm0 29).mp (by omega)
      have : (2 : ℚ) ^ (29 : ℤ) = 2 ^ 29 := by norm_cast
      rw [this] at h29
      have : (2 : ℚ) ^ 29 < 2 ^ 30 * (1 - 1 / 2 ^ 32) := by norm_num
      linarith
    · rw [if_neg h]
      apply adjust_none
      by_contra hle
      push Not at hle
      have hlt : ¬ (2 ^ e * (1 - 1 / 2 ^ 32) ≤ m) := fun h' => h (hc.mpr h')
      have h3 : (2 : ℚ) ^ e ≤ 2 ^ (30 : ℤ) := zpow_le_zpow_right₀ (by norm_num) (by omega)
      have h4 : (2 : ℚ) ^ (30 : ℤ) = 2 ^ 30 := by norm_cast
      rw [h4] at h3
      have : (2 : ℚ) ^ e * (1 - 1 / 2 ^ 32) ≤ 2 ^ 30 * (1 - 1 / 2 ^ 32) :=
        mul_le_mul_of_nonneg_right h3 (by norm_num)
      exact hlt (by linarith)

/-- Every multiplier the constructor can return. -/
structure Mult.WF (p : Mult) : Prop where
  qm_nonneg : 0 ≤ p.qm
  qm_hi : p.qm < 2 ^ 31
  sh_pos : 1 ≤ p.shift
  sh_le : p.shift ≤ 62
  round_eq : p.round = 2 ^ (p.shift - 1)

theorem build_wf {m : ℚ} {p : Mult} (h : Mult.build m = some p) : p.WF := by
  by_cases hm : m < 1 / 1000000
  · rw [build_small hm] at h
    cases h
    exact ⟨by norm_num, by norm_num, by norm_num, by norm_num, rfl⟩
  · have := build_large (not_lt.mp hm)
    by_cases h2 : m < 2 ^ 30 * (1 - 1 / 2 ^ 32)
    · obtain ⟨p', hp', ha⟩ := this.1 h2
      rw [h] at hp'; cases hp'
      exact ⟨by have := ha.qm_lo; omega, ha.qm_hi, ha.sh_pos, ha.sh_le, ha.round_eq⟩
    · rw [this.2 (not_lt.mp h2)] at h; cases h

theorem round_bound {p : Mult} (hp : p.WF) : 0 < p.round ∧ p.round ≤ 2 ^ 61 := by
  rw [hp.round_eq]
  refine ⟨by positivity, pow_le_pow_right₀ (by norm_num) (by have := hp.sh_le; omega)⟩

/-- No wrap-around as long as `|acc| ≤ 3·2^30`. -/
theorem rescale_exact {p : Mult} (hp : p.WF) {acc : ℤ} (h : |acc| ≤ 3 * 2 ^ 30) :
    p.rescale acc = shiftRight (acc * p.qm + p.round) p.shift := by
  obtain ⟨hr1, hr2⟩ := round_bound hp
  obtain ⟨ha1, ha2⟩ := abs_le.mp h
  have hq1 := hp.qm_nonneg
  have hq2 := hp.qm_hi
  have hb1 : -(3 * 2 ^ 30 * (2 ^ 31 - 1)) ≤ acc * p.qm := by nlinarith
  have hb2 : acc * p.qm ≤ 3 * 2 ^ 30 * (2 ^ 31 - 1) := by nlinarith
  unfold Mult.rescale
  have w1 : wrapS 64 acc = acc := wrapS_of_mem (b := 63) (by omega) (by omega)
  have w2 : wrapS 64 (acc * p.qm) = acc * p.qm := wrapS_of_mem (b := 63) (by omega) (by omega)
  have w3 : wrapS 64 (acc * p.qm + p.round) = acc * p.qm + p.round :=
    wrapS_of_mem (b := 63) (by omega) (by omega)
  rw [w1, w2, w3]

/-- Adding `2^(k-1)` and shifting by `k ≥ 1` rounds half up. -/
theorem shift_round (x : ℤ) (k : ℕ) (hk : 1 ≤ k) :
    shiftRight (x + 2 ^ (k - 1)) k = roundHalfUp ((x : ℚ) / 2 ^ k) := by
  rw [shiftRight_eq_floor]
  unfold roundHalfUp
  congr 1
  push_cast
  rw [add_div]
  congr 1
  obtain ⟨j, rfl⟩ : ∃ j, k = j + 1 := ⟨k - 1, by omega⟩
  rw [Nat.add_sub_cancel, pow_succ]
  field_simp

end Verif
