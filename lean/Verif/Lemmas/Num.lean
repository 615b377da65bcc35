import Verif.Model.Num
import Mathlib.Tactic.Linarith
import Mathlib.Tactic.Ring
import Mathlib.Tactic.NormNum
import Mathlib.Tactic.Positivity
import Mathlib.Tactic.FieldSimp
import Mathlib.Algebra.Order.Field.Basic
import Mathlib.Algebra.Order.Ring.Abs

/-! # Lemmas about the numeric primitives -/

namespace Verif

section clip
variable {α : Type} [LinearOrder α]

theorem clip_ge {lo hi x : α} (h : lo ≤ hi) : lo ≤ clip lo hi x := by
  unfold clip; exact le_min h (le_max_left _ _)

theorem clip_le {lo hi x : α} : clip lo hi x ≤ hi := by
  unfold clip; exact min_le_left _ _

theorem clip_mono {lo hi x y : α} (h : x ≤ y) : clip lo hi x ≤ clip lo hi y := by
  unfold clip; exact min_le_min le_rfl (max_le_max le_rfl h)

theorem clip_of_mem {lo hi x : α} (h₁ : lo ≤ x) (h₂ : x ≤ hi) : clip lo hi x = x := by
  unfold clip; rw [max_eq_right h₁, min_eq_right h₂]

theorem clip_of_le {lo hi x : α} (h : lo ≤ hi) (h₁ : x ≤ lo) : clip lo hi x = lo := by
  unfold clip; rw [max_eq_left h₁, min_eq_right h]

theorem clip_of_ge {lo hi x : α} (h₁ : hi ≤ x) : clip lo hi x = hi := by
  unfold clip; exact min_eq_left (le_trans h₁ (le_max_right _ _))

theorem clip_clip {lo hi x : α} (h : lo ≤ hi) : clip lo hi (clip lo hi x) = clip lo hi x :=
  clip_of_mem (clip_ge h) clip_le

end clip

theorem roundHalfUp_mono {x y : ℚ} (h : x ≤ y) : roundHalfUp x ≤ roundHalfUp y := by
  unfold roundHalfUp; exact Int.floor_mono (by linarith)

theorem roundHalfUp_le (x : ℚ) : (roundHalfUp x : ℚ) ≤ x + 1 / 2 := by
  unfold roundHalfUp; exact Int.floor_le _

theorem lt_roundHalfUp (x : ℚ) : x - 1 / 2 < (roundHalfUp x : ℚ) := by
  unfold roundHalfUp; have := Int.lt_floor_add_one (x + 1 / 2); linarith

theorem roundHalfUp_int (n : ℤ) : roundHalfUp (n : ℚ) = n := by
  unfold roundHalfUp; rw [Int.floor_eq_iff]; constructor <;> linarith

theorem abs_roundHalfUp_sub_le (x : ℚ) : |(roundHalfUp x : ℚ) - x| ≤ 1 / 2 := by
  rw [abs_le]; have := roundHalfUp_le x; have := lt_roundHalfUp x; constructor <;> linarith

theorem roundHalfUp_add_int (x : ℚ) (n : ℤ) : roundHalfUp (x + n) = roundHalfUp x + n := by
  unfold roundHalfUp
  rw [show x + (n : ℚ) + 1 / 2 = x + 1 / 2 + (n : ℚ) by ring, Int.floor_add_intCast]

theorem abs_roundHalfEven_sub_le (x : ℚ) : |(roundHalfEven x : ℚ) - x| ≤ 1 / 2 := by
  have h1 := Int.floor_le x
  have h2 := Int.lt_floor_add_one x
  unfold roundHalfEven
  rw [abs_le]
  simp only
  split_ifs <;> push_cast <;> constructor <;> linarith

theorem roundHalfEven_int (n : ℤ) : roundHalfEven (n : ℚ) = n := by
  unfold roundHalfEven; simp

theorem roundHalfEven_mono {x y : ℚ} (h : x ≤ y) : roundHalfEven x ≤ roundHalfEven y := by
  have hf := Int.floor_mono h
  have hx1 := Int.floor_le x
  have hy1 := Int.floor_le y
  rcases lt_or_eq_of_le hf with hlt | heq
  · have h3 : roundHalfEven x ≤ ⌊x⌋ + 1 := by
      unfold roundHalfEven; simp only; split_ifs <;> omega
    have h4 : ⌊y⌋ ≤ roundHalfEven y := by
      unfold roundHalfEven; simp only; split_ifs <;> omega
    omega
  · unfold roundHalfEven
    simp only
    have hq : (⌊x⌋ : ℚ) = ⌊y⌋ := by exact_mod_cast heq
    rw [← heq] at *
    split_ifs <;> first | omega | (exfalso; linarith)

theorem trunc_int (n : ℤ) : trunc (n : ℚ) = n := by
  unfold trunc; split_ifs <;> simp

theorem trunc_mono {x y : ℚ} (h : x ≤ y) : trunc x ≤ trunc y := by
  unfold trunc
  split_ifs with h1 h2 h2
  · exact Int.floor_mono h
  · exact absurd (le_trans h1 h) h2
  · have : ⌈x⌉ ≤ 0 := Int.ceil_le.mpr (by push_cast; linarith)
    have : 0 ≤ ⌊y⌋ := Int.floor_nonneg.mpr h2
    omega
  · exact Int.ceil_mono h

theorem abs_trunc_sub_lt (x : ℚ) : |(trunc x : ℚ) - x| < 1 := by
  have h1 := Int.floor_le x
  have h2 := Int.lt_floor_add_one x
  have h3 := Int.le_ceil x
  have h4 := Int.ceil_lt_add_one x
  unfold trunc
  rw [abs_lt]
  split_ifs <;> constructor <;> linarith

theorem wrapS_of_mem {b : ℕ} {x : ℤ} (h₁ : -(2 ^ b) ≤ x) (h₂ : x < 2 ^ b) :
    wrapS (b + 1) x = x := by
  unfold wrapS
  have hp : ((2 ^ (b + 1) : ℕ) : ℤ) = 2 * 2 ^ b := by push_cast; ring
  apply Int.bmod_eq_of_le
  · rw [hp]; omega
  · rw [hp]; omega

theorem wrapS_range (b : ℕ) (x : ℤ) : -(2 ^ b) ≤ wrapS (b + 1) x ∧ wrapS (b + 1) x < 2 ^ b := by
  unfold wrapS
  have hp : ((2 ^ (b + 1) : ℕ) : ℤ) = 2 * 2 ^ b := by push_cast; ring
  have hpos : 0 < 2 ^ (b + 1) := by positivity
  have h1 := Int.le_bmod (x := x) hpos
  have h2 := Int.bmod_lt (x := x) hpos
  rw [hp] at h1 h2
  constructor <;> omega

theorem wrapU_of_mem {b : ℕ} {x : ℤ} (h₁ : 0 ≤ x) (h₂ : x < 2 ^ b) : wrapU b x = x := by
  unfold wrapU; exact Int.emod_eq_of_lt h₁ h₂

theorem shiftRight_le (x : ℤ) (k : ℕ) : ((shiftRight x k : ℤ) : ℚ) ≤ x / 2 ^ k := by
  unfold shiftRight
  rw [le_div_iff₀ (by positivity)]
  have h : x / 2 ^ k * 2 ^ k ≤ x := Int.ediv_mul_le _ (by positivity)
  exact_mod_cast h

theorem lt_shiftRight (x : ℤ) (k : ℕ) : (x : ℚ) / 2 ^ k - 1 < ((shiftRight x k : ℤ) : ℚ) := by
  unfold shiftRight
  rw [sub_lt_iff_lt_add, div_lt_iff₀ (by positivity)]
  have h : x < (x / 2 ^ k + 1) * 2 ^ k := Int.lt_ediv_add_one_mul_self _ (by positivity)
  exact_mod_cast h

theorem shiftRight_mono {x y : ℤ} (k : ℕ) (h : x ≤ y) : shiftRight x k ≤ shiftRight y k := by
  unfold shiftRight; exact Int.ediv_le_ediv (by positivity) h

theorem shiftRight_eq_floor (x : ℤ) (k : ℕ) : shiftRight x k = ⌊(x : ℚ) / 2 ^ k⌋ := by
  symm
  rw [Int.floor_eq_iff]
  have := shiftRight_le x k
  have := lt_shiftRight x k
  constructor <;> linarith

end Verif
