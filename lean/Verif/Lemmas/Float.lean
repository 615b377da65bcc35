import Verif.Model.Float
import Verif.Spec.Float
import Verif.Lemmas.Num
import Mathlib.Algebra.Order.Field.Power

/-! # Lemmas about rounding to a binary floating point format -/

namespace Verif
open Spec

theorem roundHalfEven_nearest (x : ℚ) (n : ℤ) : |(roundHalfEven x : ℚ) - x| ≤ |(n : ℚ) - x| := by
  have h := abs_roundHalfEven_sub_le x
  by_cases hn : n = roundHalfEven x
  · rw [hn]
  · have h1 : (1 : ℚ) ≤ |(n : ℚ) - roundHalfEven x| := by
      have : (1 : ℤ) ≤ |n - roundHalfEven x| := Int.one_le_abs (sub_ne_zero.mpr hn)
      exact_mod_cast this
    have h2 : |(n : ℚ) - roundHalfEven x| ≤ |(n : ℚ) - x| + |(roundHalfEven x : ℚ) - x| := by
      rw [abs_sub_comm (roundHalfEven x : ℚ) x]; exact abs_sub_le _ _ _
    linarith

namespace Fmt
variable {F : Fmt}

/-- The positive floating point numbers of a format, its precision and smallest exponent. -/
abbrev Rep (F : Fmt) (x : ℚ) : Prop := IsFloat F.p F.emin x

theorem two_zpow_pos (e : ℤ) : (0 : ℚ) < 2 ^ e := by positivity

theorem abs_lt_grid (F : Fmt) (x : ℚ) : |x| < 2 ^ F.p * 2 ^ F.grid x := by
  have h : |x| < (2 : ℚ) ^ (Int.log 2 |x| + 1) := Int.lt_zpow_succ_log_self (by norm_num) |x|
  have h2 : (2 : ℚ) ^ (Int.log 2 |x| + 1) ≤ 2 ^ ((F.p : ℤ) + F.grid x) := by
    apply zpow_le_zpow_right₀ (by norm_num)
    unfold grid
    have := le_max_left (Int.log 2 |x| + 1 - F.p) F.emin
    omega
  have e : (2 : ℚ) ^ ((F.p : ℤ) + F.grid x) = 2 ^ F.p * 2 ^ F.grid x := by
    rw [zpow_add₀ (by norm_num), zpow_natCast]
  rw [e] at h2
  exact h.trans_le h2

theorem rep_fl (F : Fmt) (x : ℚ) : F.Rep (F.fl x) := by
  refine ⟨_, F.grid x, ?_, le_max_right _ _, rfl⟩
  have h := abs_lt_grid F x
  have hp := two_zpow_pos (F.grid x)
  have ht : |x / 2 ^ F.grid x| < 2 ^ F.p := by
    rw [abs_div, abs_of_pos hp, div_lt_iff₀ hp]; exact h
  obtain ⟨a, b⟩ := abs_lt.mp ht
  have e1 : ((2 ^ F.p : ℤ) : ℚ) = 2 ^ F.p := by push_cast; rfl
  have h1 := roundHalfEven_mono (x := x / 2 ^ F.grid x) (y := ((2 ^ F.p : ℤ) : ℚ)) (by rw [e1]; exact b.le)
  have h2 := roundHalfEven_mono (x := ((-(2 ^ F.p) : ℤ) : ℚ)) (y := x / 2 ^ F.grid x)
    (by rw [Int.cast_neg, e1]; exact a.le)
  rw [roundHalfEven_int] at h1 h2
  exact abs_le.mpr ⟨h2, h1⟩

theorem fl_err_grid (F : Fmt) (x : ℚ) : |F.fl x - x| ≤ 2 ^ F.grid x / 2 := by
  have hp := two_zpow_pos (F.grid x)
  have h := abs_roundHalfEven_sub_le (x / 2 ^ F.grid x)
  have : F.fl x - x = (roundHalfEven (x / 2 ^ F.grid x) - x / 2 ^ F.grid x) * 2 ^ F.grid x := by
    unfold fl; field_simp
  rw [this, abs_mul, abs_of_pos hp]
  nlinarith

/-- `fl x` is nearest among the multiples of the grid. -/
theorem fl_nearest_grid (F : Fmt) (x : ℚ) (n : ℤ) : |F.fl x - x| ≤ |(n : ℚ) * 2 ^ F.grid x - x| := by
  have hp := two_zpow_pos (F.grid x)
  have h := roundHalfEven_nearest (x / 2 ^ F.grid x) n
  have h1 : F.fl x - x = (roundHalfEven (x / 2 ^ F.grid x) - x / 2 ^ F.grid x) * 2 ^ F.grid x := by
    unfold fl; field_simp
  have h2 : (n : ℚ) * 2 ^ F.grid x - x = (n - x / 2 ^ F.grid x) * 2 ^ F.grid x := by field_simp
  rw [h1, h2, abs_mul, abs_mul]
  exact mul_le_mul_of_nonneg_right h (abs_nonneg _)

theorem mul_zpow_of_le (n : ℤ) {e f : ℤ} (h : e ≤ f) : ∃ k : ℤ, (n : ℚ) * 2 ^ f = (k : ℚ) * 2 ^ e := by
  refine ⟨n * 2 ^ (f - e).toNat, ?_⟩
  have : f = ((f - e).toNat : ℤ) + e := by omega
  conv_lhs => rw [this]
  rw [zpow_add₀ (by norm_num), zpow_natCast]
  push_cast; ring

theorem fl_nearest (hp : 1 ≤ F.p) (x y : ℚ) (hy : F.Rep y) : |F.fl x - x| ≤ |y - x| := by
  obtain ⟨m, f, hm, hf, rfl⟩ := hy
  rcases le_or_gt (F.grid x) f with h | h
  · obtain ⟨k, hk⟩ := mul_zpow_of_le m h
    rw [hk]; exact fl_nearest_grid F x k
  · -- the grid is finer at `y`: `y` lies below the binade of `x`
    have hg : F.grid x = Int.log 2 |x| + 1 - F.p := by unfold grid at *; omega
    have hx : x ≠ 0 ∨ x = 0 := (em (x = 0)).symm
    rcases hx with hx | hx
    · have hxp : 0 < |x| := abs_pos.mpr hx
      have hlog : (2 : ℚ) ^ Int.log 2 |x| ≤ |x| := Int.zpow_log_le_self (by norm_num) hxp
      have hy : |(m : ℚ) * 2 ^ f| ≤ 2 ^ Int.log 2 |x| := by
        rw [abs_mul, abs_of_pos (two_zpow_pos f)]
        have h1 : |(m : ℚ)| ≤ 2 ^ F.p := by exact_mod_cast hm
        calc |(m : ℚ)| * 2 ^ f ≤ 2 ^ F.p * 2 ^ f := mul_le_mul_of_nonneg_right h1 (two_zpow_pos f).le
          _ = (2 : ℚ) ^ ((F.p : ℤ) + f) := by rw [zpow_add₀ (by norm_num), zpow_natCast]
          _ ≤ _ := zpow_le_zpow_right₀ (by norm_num) (by omega)
      obtain ⟨k, hk⟩ := mul_zpow_of_le 1 (e := F.grid x) (f := Int.log 2 |x|) (by omega)
      rw [Int.cast_one, one_mul] at hk
      rcases lt_or_gt_of_ne hx with hneg | hpos
      · have h1 := fl_nearest_grid F x (-k)
        have e1 : ((-k : ℤ) : ℚ) * 2 ^ F.grid x = -(2 ^ Int.log 2 |x|) := by rw [hk]; push_cast; ring
        rw [e1] at h1
        obtain ⟨E, hE⟩ : ∃ E : ℚ, E = 2 ^ Int.log 2 |x| := ⟨_, rfl⟩
        rw [← hE] at h1 hy hlog
        rw [abs_of_neg hneg] at hlog
        have h2 : |-E - x| = -E - x := abs_of_nonneg (by linarith)
        rw [h2] at h1
        have h3 := (abs_le.mp hy).1
        refine h1.trans (le_trans ?_ (le_abs_self _))
        linarith
      · have h1 := fl_nearest_grid F x k
        rw [← hk] at h1
        obtain ⟨E, hE⟩ : ∃ E : ℚ, E = 2 ^ Int.log 2 |x| := ⟨_, rfl⟩
        rw [← hE] at h1 hy hlog
        rw [abs_of_pos hpos] at hlog
        have h2 : |E - x| = x - E := by rw [abs_of_nonpos (by linarith)]; ring
        rw [h2] at h1
        have h3 := (abs_le.mp hy).2
        refine h1.trans (le_trans ?_ (neg_le_abs _))
        linarith
    · subst hx
      have := fl_nearest_grid F 0 0
      simp only [Int.cast_zero, zero_mul, sub_zero, abs_zero] at this
      have h0 : |F.fl 0 - 0| ≤ 0 := by simpa using this
      exact h0.trans (abs_nonneg _)

/-- Floating point numbers are fixed points. -/
theorem fl_rep (hp : 1 ≤ F.p) {x : ℚ} (hx : F.Rep x) : F.fl x = x := by
  have := fl_nearest hp x x hx
  rw [sub_self, abs_zero] at this
  have := abs_nonpos_iff.mp this
  linarith

theorem fl_mono (hp : 1 ≤ F.p) {x y : ℚ} (h : x ≤ y) : F.fl x ≤ F.fl y := by
  rcases eq_or_lt_of_le h with rfl | hlt
  · exact le_rfl
  · by_contra hc
    push Not at hc
    have h1 := fl_nearest hp x (F.fl y) (rep_fl F y)
    have h2 := fl_nearest hp y (F.fl x) (rep_fl F x)
    obtain ⟨a, ha⟩ : ∃ a, a = F.fl x := ⟨_, rfl⟩
    obtain ⟨b, hb⟩ : ∃ b, b = F.fl y := ⟨_, rfl⟩
    rw [← ha, ← hb] at hc h1 h2
    rcases abs_cases (a - x) with ⟨e1, _⟩ | ⟨e1, _⟩ <;> rcases abs_cases (b - x) with ⟨e2, _⟩ | ⟨e2, _⟩ <;>
      rcases abs_cases (b - y) with ⟨e3, _⟩ | ⟨e3, _⟩ <;> rcases abs_cases (a - y) with ⟨e4, _⟩ | ⟨e4, _⟩ <;>
      linarith

theorem fl_zero (F : Fmt) : F.fl 0 = 0 := by
  unfold fl; rw [zero_div]; rw [show (0 : ℚ) = ((0 : ℤ) : ℚ) by simp, roundHalfEven_int]; simp

/-- Floating point numbers bound results: a result below a floating point number rounds below it. -/
theorem fl_le (hp : 1 ≤ F.p) {x y : ℚ} (hy : F.Rep y) (h : x ≤ y) : F.fl x ≤ y := by
  have := fl_mono hp h; rwa [fl_rep hp hy] at this

theorem le_fl (hp : 1 ≤ F.p) {x y : ℚ} (hy : F.Rep y) (h : y ≤ x) : y ≤ F.fl x := by
  have := fl_mono hp h; rwa [fl_rep hp hy] at this

theorem rep_zero (F : Fmt) : F.Rep 0 := ⟨0, F.emin, by simp, le_rfl, by simp⟩

/-- Fractions with a small numerator and a power of two as denominator are floating point numbers. -/
theorem rep_frac (n : ℤ) (k : ℕ) (hn : |n| ≤ 2 ^ F.p) (hk : F.emin ≤ -(k : ℤ)) : F.Rep ((n : ℚ) / 2 ^ k) :=
  ⟨n, -(k : ℤ), hn, hk, by rw [zpow_neg, zpow_natCast, div_eq_mul_inv]⟩

theorem rep_int (n : ℤ) (hn : |n| ≤ 2 ^ F.p) (he : F.emin ≤ 0) : F.Rep (n : ℚ) :=
  ⟨n, 0, hn, he, by simp⟩

theorem rep_neg {x : ℚ} (h : F.Rep x) : F.Rep (-x) := by
  obtain ⟨m, e, hm, he, rfl⟩ := h
  exact ⟨-m, e, by rwa [abs_neg], he, by push_cast; ring⟩

theorem grid_cases (F : Fmt) (x : ℚ) (hx : x ≠ 0) :
    F.grid x = F.emin ∨ (2 : ℚ) ^ F.grid x / 2 ≤ |x| / 2 ^ F.p := by
  by_cases h : F.grid x = F.emin
  · exact Or.inl h
  · right
    have hg : F.grid x = Int.log 2 |x| + 1 - F.p := by unfold grid at *; omega
    have hlog : (2 : ℚ) ^ Int.log 2 |x| ≤ |x| := Int.zpow_log_le_self (by norm_num) (abs_pos.mpr hx)
    rw [hg, zpow_sub₀ (by norm_num), zpow_add₀ (by norm_num), zpow_natCast, zpow_one]
    have hp : (0 : ℚ) < 2 ^ F.p := by positivity
    rw [div_div, div_le_div_iff₀ (by positivity) hp]
    nlinarith

/-- The rounding error: relative `2^-p`, or half the smallest positive number. -/
theorem fl_err (F : Fmt) (x : ℚ) : |F.fl x - x| ≤ max (|x| / 2 ^ F.p) (2 ^ F.emin / 2) := by
  by_cases hx : x = 0
  · subst hx; rw [fl_zero]; simp
  · have h := fl_err_grid F x
    rcases grid_cases F x hx with hg | hg
    · rw [hg] at h; exact h.trans (le_max_right _ _)
    · exact (h.trans hg).trans (le_max_left _ _)

/-- For multiples of the smallest positive number — sums and differences of floating point numbers, and their
products with integers — the error is purely relative. -/
theorem fl_err_multiple (F : Fmt) (x : ℚ) (hx : ∃ n : ℤ, x = n * 2 ^ F.emin) :
    |F.fl x - x| ≤ |x| / 2 ^ F.p := by
  by_cases h0 : x = 0
  · subst h0; rw [fl_zero]; simp
  · rcases grid_cases F x h0 with hg | hg
    · obtain ⟨n, hn⟩ := hx
      have := fl_nearest_grid F x n
      rw [hg, ← hn, sub_self, abs_zero] at this
      have h2 : 0 ≤ |x| / 2 ^ F.p := by positivity
      linarith
    · exact (fl_err_grid F x).trans hg

/-- Results of at least `2^(emin + p - 1)` (not subnormal): the error is purely relative. -/
theorem fl_err_normal (F : Fmt) (x : ℚ) (hx : (2 : ℚ) ^ (F.emin + F.p - 1) ≤ |x|) :
    |F.fl x - x| ≤ |x| / 2 ^ F.p := by
  refine (fl_err F x).trans (max_le le_rfl ?_)
  rw [zpow_sub₀ (by norm_num), zpow_add₀ (by norm_num), zpow_natCast, zpow_one] at hx
  have hp : (0 : ℚ) < 2 ^ F.p := by positivity
  rw [le_div_iff₀ hp]
  linarith

theorem multiple_of_rep {x : ℚ} (h : F.Rep x) : ∃ n : ℤ, x = n * 2 ^ F.emin := by
  obtain ⟨m, e, -, he, rfl⟩ := h
  exact mul_zpow_of_le m he

theorem multiple_add {x y : ℚ} (hx : ∃ n : ℤ, x = n * 2 ^ F.emin) (hy : ∃ n : ℤ, y = n * 2 ^ F.emin) :
    ∃ n : ℤ, x + y = n * 2 ^ F.emin := by
  obtain ⟨a, rfl⟩ := hx; obtain ⟨b, rfl⟩ := hy
  exact ⟨a + b, by push_cast; ring⟩

theorem multiple_sub {x y : ℚ} (hx : ∃ n : ℤ, x = n * 2 ^ F.emin) (hy : ∃ n : ℤ, y = n * 2 ^ F.emin) :
    ∃ n : ℤ, x - y = n * 2 ^ F.emin := by
  obtain ⟨a, rfl⟩ := hx; obtain ⟨b, rfl⟩ := hy
  exact ⟨a - b, by push_cast; ring⟩

theorem multiple_mul_int {x : ℚ} (hx : ∃ n : ℤ, x = n * 2 ^ F.emin) (k : ℤ) :
    ∃ n : ℤ, x * k = n * 2 ^ F.emin := by
  obtain ⟨a, rfl⟩ := hx
  exact ⟨a * k, by push_cast; ring⟩

end Fmt
end Verif
