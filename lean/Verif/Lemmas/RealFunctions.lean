import Mathlib.Analysis.SpecialFunctions.Sigmoid
import Mathlib.Analysis.Calculus.MeanValue
import Mathlib.Analysis.Complex.Trigonometric

/-!
# The real sigmoid and tanh, and rational-valued functions close to them
-/

namespace Verif

namespace RealFn

/-- The sigmoid has Lipschitz constant 1/4. -/
theorem sigmoid_lip (a b : ℝ) : |Real.sigmoid a - Real.sigmoid b| ≤ 1 / 4 * |a - b| := by
  have h := Convex.norm_image_sub_le_of_norm_deriv_le (f := Real.sigmoid) (s := Set.univ) (C := 1 / 4) (x := b) (y := a)
    (fun x _ => (Real.hasDerivAt_sigmoid x).differentiableAt) (fun x _ => by
      rw [Real.deriv_sigmoid, Real.norm_eq_abs, abs_le]
      constructor <;> nlinarith [sq_nonneg (Real.sigmoid x - 1 / 2), Real.sigmoid_pos x, Real.sigmoid_lt_one x])
    convex_univ (Set.mem_univ _) (Set.mem_univ _)
  simpa [Real.norm_eq_abs] using h

theorem tanh_eq (x : ℝ) : Real.tanh x = 2 * Real.sigmoid (2 * x) - 1 := by
  have h : Real.exp (-(2 * x)) = Real.exp (-x) * Real.exp (-x) := by rw [← Real.exp_add]; ring_nf
  have h1 : Real.exp x * Real.exp (-x) = 1 := by rw [← Real.exp_add]; simp
  have p := Real.exp_pos x
  have q := Real.exp_pos (-x)
  rw [Real.tanh_eq_sinh_div_cosh, Real.sinh_eq, Real.cosh_eq, Real.sigmoid_def, h]
  have e : Real.exp (-x) = (Real.exp x)⁻¹ := Real.exp_neg x
  rw [e]
  field_simp
  ring

/-- tanh has Lipschitz constant 1. -/
theorem tanh_lip (a b : ℝ) : |Real.tanh a - Real.tanh b| ≤ |a - b| := by
  rw [tanh_eq, tanh_eq]
  have h := sigmoid_lip (2 * a) (2 * b)
  have e : |2 * a - 2 * b| = 2 * |a - b| := by rw [← mul_sub, abs_mul]; norm_num
  rw [e] at h
  rw [show 2 * Real.sigmoid (2 * a) - 1 - (2 * Real.sigmoid (2 * b) - 1) =
    2 * (Real.sigmoid (2 * a) - Real.sigmoid (2 * b)) by ring, abs_mul, abs_of_pos (by norm_num : (0 : ℝ) < 2)]
  linarith

theorem abs_sigmoid_le (x : ℝ) : |Real.sigmoid x| ≤ 1 := by
  rw [abs_of_nonneg (Real.sigmoid_nonneg x)]; exact Real.sigmoid_le_one x

theorem abs_tanh_le (x : ℝ) : |Real.tanh x| ≤ 1 := by
  rw [tanh_eq, abs_le]
  constructor <;> linarith [Real.sigmoid_nonneg (2 * x), Real.sigmoid_le_one (2 * x)]

section grid

variable (f : ℝ → ℝ) (h r : ℚ)

/-- The value at a grid point, rounded down to a multiple of `r`. -/
noncomputable def gridValue (k : ℤ) : ℚ := r * ⌊f (k * h) / r⌋

/-- Linear interpolation between the grid values. -/
noncomputable def interp (a : ℚ) : ℚ :=
  gridValue f h r ⌊a / h⌋ + (a / h - ⌊a / h⌋) * (gridValue f h r (⌊a / h⌋ + 1) - gridValue f h r ⌊a / h⌋)

variable {f h r}

theorem gridValue_le (hr : 0 < r) (k : ℤ) : (gridValue f h r k : ℝ) ≤ f (k * h) ∧ f (k * h) ≤ gridValue f h r k + r := by
  have hr' : (0 : ℝ) < r := by exact_mod_cast hr
  have h1 := Int.floor_le (f (k * h) / r)
  have h2 := (Int.lt_floor_add_one (f (k * h) / r)).le
  rw [le_div_iff₀ hr'] at h1
  rw [div_le_iff₀ hr'] at h2
  unfold gridValue
  push_cast
  constructor <;> linarith

theorem gridValue_lip {L : ℚ} (hL : 0 ≤ L) (hf : ∀ x y, |f x - f y| ≤ L * |x - y|) (hh : 0 < h) (hr : 0 < r) (i j : ℤ) :
    |gridValue f h r i - gridValue f h r j| ≤ (L + r / h) * (h * |((i - j : ℤ) : ℚ)|) := by
  rcases eq_or_ne i j with rfl | hne
  · simp
  have hd : (1 : ℚ) ≤ |((i - j : ℤ) : ℚ)| := by
    rw [← Int.cast_abs]
    exact_mod_cast Int.one_le_abs (sub_ne_zero.mpr hne)
  obtain ⟨a1, a2⟩ := gridValue_le (f := f) (h := h) hr i
  obtain ⟨b1, b2⟩ := gridValue_le (f := f) (h := h) hr j
  have h1 := hf (i * h) (j * h)
  have e : |(i : ℝ) * h - j * h| = h * |((i - j : ℤ) : ℝ)| := by
    rw [← sub_mul, abs_mul, abs_of_pos (by exact_mod_cast hh : (0 : ℝ) < h), mul_comm]
    push_cast; ring
  rw [e] at h1
  have key : (|gridValue f h r i - gridValue f h r j| : ℝ) ≤ L * (h * |((i - j : ℤ) : ℝ)|) + r := by
    obtain ⟨c1, c2⟩ := abs_le.mp h1
    rw [abs_le]
    constructor <;> linarith
  have key' : |gridValue f h r i - gridValue f h r j| ≤ L * (h * |((i - j : ℤ) : ℚ)|) + r := by
    have := key
    exact_mod_cast this
  have e2 : (L + r / h) * (h * |((i - j : ℤ) : ℚ)|) = L * (h * |((i - j : ℤ) : ℚ)|) + r * |((i - j : ℤ) : ℚ)| := by
    field_simp
  rw [e2]
  nlinarith

/-- Inside a cell, seen from its left and from its right end. -/
theorem interp_left {L : ℚ} (hL : 0 ≤ L) (hf : ∀ x y, |f x - f y| ≤ L * |x - y|) (hh : 0 < h) (hr : 0 < r) (a : ℚ) :
    |interp f h r a - gridValue f h r ⌊a / h⌋| ≤ (L + r / h) * (a - ⌊a / h⌋ * h) ∧
      |interp f h r a - gridValue f h r (⌊a / h⌋ + 1)| ≤ (L + r / h) * ((⌊a / h⌋ + 1) * h - a) := by
  have t0 : 0 ≤ a / h - ⌊a / h⌋ := sub_nonneg.mpr (Int.floor_le _)
  have t1 : a / h - ⌊a / h⌋ ≤ 1 := by linarith [Int.lt_floor_add_one (a / h)]
  have hl := gridValue_lip hL hf hh hr (⌊a / h⌋ + 1) ⌊a / h⌋
  have e : |((⌊a / h⌋ + 1 - ⌊a / h⌋ : ℤ) : ℚ)| = 1 := by rw [add_sub_cancel_left]; norm_num
  rw [e, mul_one] at hl
  have ea : a = a / h * h := by field_simp
  constructor
  · have e1 : interp f h r a - gridValue f h r ⌊a / h⌋ =
        (a / h - ⌊a / h⌋) * (gridValue f h r (⌊a / h⌋ + 1) - gridValue f h r ⌊a / h⌋) := by unfold interp; ring
    rw [e1, abs_mul, abs_of_nonneg t0]
    calc _ ≤ (a / h - ⌊a / h⌋) * ((L + r / h) * h) := mul_le_mul_of_nonneg_left hl t0
      _ = _ := by field_simp
  · have e1 : interp f h r a - gridValue f h r (⌊a / h⌋ + 1) =
        (a / h - ⌊a / h⌋ - 1) * (gridValue f h r (⌊a / h⌋ + 1) - gridValue f h r ⌊a / h⌋) := by unfold interp; ring
    rw [e1, abs_mul, abs_of_nonpos (by linarith), neg_sub]
    calc _ ≤ (1 - (a / h - ⌊a / h⌋)) * ((L + r / h) * h) := mul_le_mul_of_nonneg_left hl (by linarith)
      _ = _ := by field_simp; ring

theorem interp_lip {L : ℚ} (hL : 0 ≤ L) (hf : ∀ x y, |f x - f y| ≤ L * |x - y|) (hh : 0 < h) (hr : 0 < r) (a b : ℚ) :
    |interp f h r a - interp f h r b| ≤ (L + r / h) * |a - b| := by
  wlog hab : a ≤ b generalizing a b
  · rw [abs_sub_comm, abs_sub_comm a b]; exact this b a (le_of_not_ge hab)
  have hK : 0 ≤ L + r / h := by positivity
  have hk : ⌊a / h⌋ ≤ ⌊b / h⌋ := Int.floor_le_floor (div_le_div_of_nonneg_right hab hh.le)
  obtain ⟨-, a2⟩ := interp_left hL hf hh hr a
  obtain ⟨b1, -⟩ := interp_left hL hf hh hr b
  rw [abs_of_nonpos (by linarith : a - b ≤ 0)]
  rcases hk.eq_or_lt with he | hlt
  · have hl := gridValue_lip hL hf hh hr (⌊a / h⌋ + 1) ⌊a / h⌋
    have e : |((⌊a / h⌋ + 1 - ⌊a / h⌋ : ℤ) : ℚ)| = 1 := by rw [add_sub_cancel_left]; norm_num
    rw [e, mul_one] at hl
    have e1 : interp f h r a - interp f h r b =
        -((b - a) / h * (gridValue f h r (⌊a / h⌋ + 1) - gridValue f h r ⌊a / h⌋)) := by
      unfold interp; rw [← he]; ring
    rw [e1, abs_neg, abs_mul, abs_of_nonneg (div_nonneg (by linarith) hh.le)]
    calc _ ≤ (b - a) / h * ((L + r / h) * h) := mul_le_mul_of_nonneg_left hl (div_nonneg (by linarith) hh.le)
      _ = _ := by field_simp; ring
  · have hm := gridValue_lip hL hf hh hr (⌊a / h⌋ + 1) ⌊b / h⌋
    have hs : ((⌊a / h⌋ + 1 - ⌊b / h⌋ : ℤ) : ℚ) ≤ 0 := by exact_mod_cast (by omega : ⌊a / h⌋ + 1 - ⌊b / h⌋ ≤ 0)
    rw [abs_of_nonpos hs] at hm
    push_cast at hm
    have t1 := abs_sub_le (interp f h r a) (gridValue f h r (⌊a / h⌋ + 1)) (interp f h r b)
    have t2 := abs_sub_le (gridValue f h r (⌊a / h⌋ + 1)) (gridValue f h r ⌊b / h⌋) (interp f h r b)
    rw [abs_sub_comm (gridValue f h r ⌊b / h⌋) (interp f h r b)] at t2
    have : (L + r / h) * ((⌊a / h⌋ + 1) * h - a) + (L + r / h) * (h * -((⌊a / h⌋ : ℚ) + 1 - ⌊b / h⌋)) +
        (L + r / h) * (b - ⌊b / h⌋ * h) = (L + r / h) * -(a - b) := by ring
    linarith

theorem interp_near {L : ℚ} (hL : 0 ≤ L) (hf : ∀ x y, |f x - f y| ≤ L * |x - y|) (hh : 0 < h) (hr : 0 < r) (a : ℚ) :
    |(interp f h r a : ℝ) - f a| ≤ (2 * L * h + 2 * r : ℚ) := by
  obtain ⟨a1, -⟩ := interp_left hL hf hh hr a
  have t0 := Int.floor_le (a / h)
  have t1 := Int.lt_floor_add_one (a / h)
  rw [le_div_iff₀ hh] at t0
  rw [div_lt_iff₀ hh] at t1
  have hb : a - ⌊a / h⌋ * h ≤ h := by linarith
  have hb0 : 0 ≤ a - ⌊a / h⌋ * h := by linarith
  have hK : 0 ≤ L + r / h := by positivity
  have hc : (L + r / h) * (a - ⌊a / h⌋ * h) ≤ L * h + r := by
    calc _ ≤ (L + r / h) * h := mul_le_mul_of_nonneg_left hb hK
      _ = _ := by field_simp
  have a1' : |(interp f h r a : ℝ) - gridValue f h r ⌊a / h⌋| ≤ ((L * h + r : ℚ) : ℝ) := by
    have := a1.trans hc
    exact_mod_cast this
  obtain ⟨g1, g2⟩ := gridValue_le (f := f) (h := h) hr ⌊a / h⌋
  have hg : |(gridValue f h r ⌊a / h⌋ : ℝ) - f (⌊a / h⌋ * h)| ≤ r := by rw [abs_le]; constructor <;> linarith
  have hx := hf (⌊a / h⌋ * h) a
  have hd : |(⌊a / h⌋ : ℝ) * h - a| ≤ h := by
    have : |(⌊a / h⌋ : ℚ) * h - a| ≤ h := by rw [abs_le]; constructor <;> linarith
    exact_mod_cast this
  have hL' : (0 : ℝ) ≤ L := by exact_mod_cast hL
  have hx' := hx.trans (mul_le_mul_of_nonneg_left hd hL')
  have s1 := abs_sub_le (interp f h r a : ℝ) (gridValue f h r ⌊a / h⌋) (f a)
  have s2 := abs_sub_le (gridValue f h r ⌊a / h⌋ : ℝ) (f (⌊a / h⌋ * h)) (f a)
  push_cast at a1' ⊢
  linarith

end grid

/-- Every Lipschitz function with values in [-1, 1] is, as closely as one likes, approximated by a rational-valued function on
the rational numbers with the same Lipschitz constant. -/
theorem exists_rat (f : ℝ → ℝ) (L : ℚ) (hL : 0 < L) (hf : ∀ x y, |f x - f y| ≤ L * |x - y|) (hb : ∀ x, |f x| ≤ 1) (η : ℚ)
    (hη : 0 < η) :
    ∃ g : ℚ → ℚ, (∀ a b, |g a - g b| ≤ L * |a - b|) ∧ ∀ a : ℚ, |(g a : ℝ) - f a| ≤ η := by
  -- a grid of width `h`, values rounded to multiples of `ρ·h`, all scaled by `L / (L + ρ)`
  obtain ⟨ρ, hρ, hρ'⟩ : ∃ ρ : ℚ, 0 < ρ ∧ ρ ≤ L * (η / 2) := ⟨L * (η / 2), by positivity, le_refl _⟩
  obtain ⟨h, hh, hh'⟩ : ∃ h : ℚ, 0 < h ∧ 2 * L * h + 2 * (ρ * h) ≤ η / 2 :=
    ⟨η / 2 / (2 * L + 2 * ρ), by positivity, by field_simp; exact le_refl _⟩
  have hr : 0 < ρ * h := by positivity
  have hK : 0 < L + ρ := by positivity
  have hl := interp_lip hL.le hf hh hr
  have hn := interp_near hL.le hf hh hr
  have e : ρ * h / h = ρ := by field_simp
  refine ⟨fun a => L / (L + ρ) * interp f h (ρ * h) a, fun a b => ?_, fun a => ?_⟩
  · have h1 := hl a b
    rw [e] at h1
    rw [← mul_sub, abs_mul, abs_of_pos (by positivity : 0 < L / (L + ρ))]
    calc _ ≤ L / (L + ρ) * ((L + ρ) * |a - b|) := mul_le_mul_of_nonneg_left h1 (by positivity)
      _ = _ := by field_simp
  · have h1 := hn a
    have h2 : ((2 * L * h + 2 * (ρ * h) : ℚ) : ℝ) ≤ ((η / 2 : ℚ) : ℝ) := by exact_mod_cast hh'
    have h3 := h1.trans h2
    have hc : (0 : ℝ) ≤ ((L / (L + ρ) : ℚ) : ℝ) ∧ ((L / (L + ρ) : ℚ) : ℝ) ≤ 1 ∧ 1 - ((L / (L + ρ) : ℚ) : ℝ) ≤ ((η / 2 : ℚ) : ℝ) := by
      refine ⟨by exact_mod_cast (by positivity : (0 : ℚ) ≤ L / (L + ρ)), ?_, ?_⟩
      · exact_mod_cast (div_le_one hK).mpr (by linarith)
      · have : 1 - L / (L + ρ) ≤ η / 2 := by
          have e2 : 1 - L / (L + ρ) = ρ / (L + ρ) := by field_simp; ring
          rw [e2, div_le_iff₀ hK]
          nlinarith
        exact_mod_cast this
    obtain ⟨c0, c1, c2⟩ := hc
    have hfa := hb a
    push_cast at h3 ⊢
    generalize hcc : ((L : ℝ) / (L + ρ)) = c at *
    push_cast at c0 c1 c2
    rw [hcc] at c0 c1 c2
    have s := abs_sub_le (c * (interp f h (ρ * h) a : ℝ)) (c * f a) (f a)
    have s1 : |c * (interp f h (ρ * h) a : ℝ) - c * f a| ≤ η / 2 := by
      rw [← mul_sub, abs_mul, abs_of_nonneg c0]
      calc _ ≤ 1 * |(interp f h (ρ * h) a : ℝ) - f a| := mul_le_mul_of_nonneg_right c1 (abs_nonneg _)
        _ ≤ _ := by rw [one_mul]; exact h3
    have s2 : |c * f a - f a| ≤ η / 2 := by
      rw [show c * f a - f a = -((1 - c) * f a) by ring, abs_neg, abs_mul, abs_of_nonneg (by linarith)]
      calc _ ≤ (1 - c) * 1 := mul_le_mul_of_nonneg_left hfa (by linarith)
        _ ≤ _ := by linarith
    linarith

end RealFn

end Verif
