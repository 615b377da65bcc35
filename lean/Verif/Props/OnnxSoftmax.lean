import Verif.Props.OnnxFloat
import Mathlib.Analysis.Complex.ExponentialBounds
import Mathlib.Analysis.SpecialFunctions.Exp

/-!
# Property C99: class probabilities in floating point

The ONNX `Softmax` operator with rounded exponentials, sum and quotient, compared with the probabilities
`exp(v) / Σ exp(u)` of the real exponential function.
-/

namespace Verif
open Onnx2Json Spec

namespace Spec

/-- `a` and `b` are equal up to a factor `r`. -/
def Factor (r a b : ℝ) : Prop := a ≤ b * r ∧ b ≤ a * r

/-- The probability of the score `v` among the scores `xs`. -/
noncomputable def probability (xs : List ℚ) (v : ℚ) : ℝ := Real.exp v / (xs.map (fun u => Real.exp (u : ℚ))).sum

/-- The library's exponential function is accurate to 2⁻⁵⁰ on the numbers up to 300. -/
def ExpLib (exp : ℚ → ℚ) : Prop := ∀ v : ℚ, |v| ≤ 300 → |(exp v : ℝ) - Real.exp v| ≤ Real.exp v / 2 ^ 50

/-- `sum` adds up floats, in an order of its own. -/
def SumsUp (F : Fmt) (sum : List ℚ → ℚ) : Prop := ∀ xs, xs ≠ [] → F.Sums xs (sum xs)

end Spec

namespace Softmax64

theorem sumLeft_sums (F : Fmt) : SumsUp F F.sumLeft := by
  have key : ∀ (xs ys : List ℚ) (a : ℚ), F.Sums ys a → F.Sums (ys ++ xs) (xs.foldl (fun a b => F.fl (a + b)) a) := by
    intro xs
    induction xs with
    | nil => intro ys a h; rw [List.append_nil]; exact h
    | cons x xs ih =>
      intro ys a h
      have := ih (ys ++ [x]) (F.fl (a + x)) (.add h (.one x) (List.Perm.refl _))
      rw [List.append_assoc] at this
      exact this
  intro xs hxs
  cases xs with
  | nil => exact absurd rfl hxs
  | cons x xs => exact key xs [x] x (.one x)

/-! ### Exact facts -/

theorem sums_bounds {F : Fmt} (hp : 1 ≤ F.p) {zs : List ℚ} {s : ℚ} (h : F.Sums zs s) (hz : ∀ z ∈ zs, 0 ≤ z ∧ F.Rep z) :
    0 ≤ s ∧ F.Rep s ∧ ∀ z ∈ zs, z ≤ s := by
  induction h with
  | one x => exact ⟨(hz x (by simp)).1, (hz x (by simp)).2, by simp⟩
  | @add xs ys zs a b _ _ hperm ih1 ih2 =>
    obtain ⟨a0, ar, am⟩ := ih1 (fun z h => hz z (hperm.mem_iff.mp (by simp [h])))
    obtain ⟨b0, br, bm⟩ := ih2 (fun z h => hz z (hperm.mem_iff.mp (by simp [h])))
    refine ⟨Fmt.le_fl hp (Fmt.rep_zero F) (by linarith), Fmt.rep_fl F _, fun z hz => ?_⟩
    have hz' := hperm.mem_iff.mpr hz
    rcases List.mem_append.mp hz' with h | h
    · exact (am z h).trans (Fmt.le_fl hp ar (by linarith))
    · exact (bm z h).trans (Fmt.le_fl hp br (by linarith))

/-! ### Factors -/

theorem _root_.Verif.Spec.Factor.mono {r s a b : ℝ} (h : Factor r a b) (hrs : r ≤ s) (ha : 0 ≤ a) (hb : 0 ≤ b) : Factor s a b :=
  ⟨h.1.trans (mul_le_mul_of_nonneg_left hrs hb), h.2.trans (mul_le_mul_of_nonneg_left hrs ha)⟩

theorem _root_.Verif.Spec.Factor.trans {r s a b c : ℝ} (h : Factor r a b) (h' : Factor s b c) (hr : 0 ≤ r) (hs : 0 ≤ s) : Factor (s * r) a c := by
  refine ⟨h.1.trans ?_, h'.2.trans ?_⟩
  · rw [← mul_assoc]; exact mul_le_mul_of_nonneg_right h'.1 hr
  · rw [mul_comm s r, ← mul_assoc]; exact mul_le_mul_of_nonneg_right h.2 hs

theorem _root_.Verif.Spec.Factor.add {r a b c d : ℝ} (h : Factor r a b) (h' : Factor r c d) : Factor r (a + c) (b + d) :=
  ⟨by rw [add_mul]; exact add_le_add h.1 h'.1, by rw [add_mul]; exact add_le_add h.2 h'.2⟩

theorem _root_.Verif.Spec.Factor.div {r s a b c d : ℝ} (h : Factor r a b) (h' : Factor s c d) (ha : 0 ≤ a) (hb : 0 ≤ b) (hc : 0 < c) (hd : 0 < d)
    (hr : 0 ≤ r) : Factor (r * s) (a / c) (b / d) := by
  constructor
  · rw [div_mul_eq_mul_div, div_le_div_iff₀ hc hd]
    have := mul_le_mul h.1 h'.2 hd.le (mul_nonneg hb hr)
    linarith [show b * r * (c * s) = b * (r * s) * c by ring]
  · rw [div_mul_eq_mul_div, div_le_div_iff₀ hd hc]
    have := mul_le_mul h.2 h'.1 hc.le (mul_nonneg ha hr)
    linarith [show a * r * (d * s) = a * (r * s) * d by ring]

theorem _root_.Verif.Spec.Factor.pos {r a b : ℝ} (h : Factor r a b) (hr : 0 ≤ r) (hb : 0 < b) : 0 < a := by
  by_contra hc
  push Not at hc
  have := mul_nonpos_of_nonpos_of_nonneg hc hr
  linarith [h.2]

theorem factor_of_err {a b : ℝ} {k : ℕ} (hb : 0 ≤ b) (h : |a - b| ≤ b / 2 ^ (k + 1)) : Factor (1 + 1 / 2 ^ k) a b := by
  have hk : (1 : ℝ) ≤ 2 ^ k := one_le_pow₀ (by norm_num)
  have hk0 : (0 : ℝ) < 2 ^ k := by linarith
  obtain ⟨h1, h2⟩ := abs_le.mp h
  rw [pow_succ] at h1 h2
  have e : b / (2 ^ k * 2) = b * (1 / 2 ^ k) / 2 := by field_simp
  rw [e] at h1 h2
  have ht0 : (0 : ℝ) < 1 / 2 ^ k := by positivity
  have ht1 : (1 : ℝ) / 2 ^ k ≤ 1 := by rw [div_le_one hk0]; exact hk
  generalize (1 : ℝ) / 2 ^ k = t at *
  constructor
  · nlinarith
  · have : b * (1 - t / 2) ≤ a := by linarith
    have h3 : b * (1 - t / 2) * (1 + t) ≤ a * (1 + t) := mul_le_mul_of_nonneg_right this (by linarith)
    have h4 : 0 ≤ b * (t / 2 * (1 - t)) := mul_nonneg hb (mul_nonneg (by linarith) (by linarith))
    nlinarith

theorem fl_factor {x : ℚ} (h : (2 : ℚ) ^ (-1022 : ℤ) ≤ x) : Factor (1 + 1 / 2 ^ 52) (Fmt.f64.fl x : ℝ) x := by
  have h0 : (0 : ℚ) < 2 ^ (-1022 : ℤ) := by positivity
  have hx : 0 < x := lt_of_lt_of_le h0 h
  have := Fmt.fl_err_normal Fmt.f64 x (by rw [abs_of_pos hx]; exact h)
  rw [abs_of_pos hx] at this
  refine factor_of_err (k := 52) (by exact_mod_cast hx.le) ?_
  have h2 : (|Fmt.f64.fl x - x| : ℚ) ≤ x / 2 ^ (52 + 1) := this
  exact_mod_cast h2

theorem rep_tiny : Fmt.f64.Rep ((2 : ℚ) ^ (-1022 : ℤ)) := ⟨1, -1022, by decide, by decide, by simp⟩

theorem sums_factor {zs : List ℚ} {s : ℚ} (h : Fmt.f64.Sums zs s) (hz : ∀ z ∈ zs, (2 : ℚ) ^ (-1022 : ℤ) ≤ z) :
    zs ≠ [] ∧ (2 : ℚ) ^ (-1022 : ℤ) ≤ s ∧ (2 : ℚ) ^ (-1022 : ℤ) ≤ zs.sum ∧
      Factor ((1 + 1 / 2 ^ 52) ^ (zs.length - 1)) (s : ℝ) ((zs.sum : ℚ) : ℝ) := by
  have h0 : (0 : ℚ) < 2 ^ (-1022 : ℤ) := by positivity
  induction h with
  | one x => exact ⟨by simp, hz x (by simp), by simpa using hz x (by simp), by simp [Factor]⟩
  | @add xs ys zs a b _ _ hperm ih1 ih2 =>
    obtain ⟨n1, a1, a2, a3⟩ := ih1 (fun z h => hz z (hperm.mem_iff.mp (by simp [h])))
    obtain ⟨n2, b1, b2, b3⟩ := ih2 (fun z h => hz z (hperm.mem_iff.mp (by simp [h])))
    have hsum : zs.sum = xs.sum + ys.sum := by rw [← hperm.sum_eq, List.sum_append]
    have hlen : zs.length = xs.length + ys.length := by rw [← hperm.length_eq, List.length_append]
    have l1 : 0 < xs.length := List.length_pos_iff.mpr n1
    have l2 : 0 < ys.length := List.length_pos_iff.mpr n2
    have hab : (2 : ℚ) ^ (-1022 : ℤ) ≤ a + b := by linarith
    refine ⟨?_, Fmt.le_fl (by decide) rep_tiny hab, by linarith, ?_⟩
    · intro h; rw [h] at hlen; simp at hlen; omega
    have hρ : (1 : ℝ) ≤ 1 + 1 / 2 ^ 52 := by norm_num
    have p : ∀ {q : ℚ}, (2 : ℚ) ^ (-1022 : ℤ) ≤ q → (0 : ℝ) ≤ (q : ℝ) := fun {q} h => by
      exact_mod_cast (lt_of_lt_of_le h0 h).le
    have ha := a3.mono (pow_le_pow_right₀ hρ (show xs.length - 1 ≤ xs.length + ys.length - 2 by omega)) (p a1) (p a2)
    have hb := b3.mono (pow_le_pow_right₀ hρ (show ys.length - 1 ≤ xs.length + ys.length - 2 by omega)) (p b1) (p b2)
    have hadd := ha.add hb
    have hfl := fl_factor hab
    rw [Rat.cast_add] at hfl
    have := hfl.trans hadd (by positivity) (by positivity)
    rw [← pow_succ] at this
    rw [hsum, hlen, Rat.cast_add, show xs.length + ys.length - 1 = xs.length + ys.length - 2 + 1 by omega]
    exact this

theorem list_factor {f g : ℚ → ℝ} {r : ℝ} (xs : List ℚ) (h : ∀ x ∈ xs, Factor r (f x) (g x)) :
    Factor r (xs.map f).sum (xs.map g).sum := by
  induction xs with
  | nil => simp [Factor]
  | cons x xs ih =>
    simp only [List.map_cons, List.sum_cons]
    exact (h x (by simp)).add (ih (fun y hy => h y (by simp [hy])))

theorem cast_sum (f : ℚ → ℚ) (xs : List ℚ) : (((xs.map f).sum : ℚ) : ℝ) = (xs.map (fun x => (f x : ℝ))).sum := by
  induction xs with
  | nil => simp
  | cons x xs ih => simp [ih]

theorem sum_div (f : ℚ → ℝ) (T : ℝ) (xs : List ℚ) : (xs.map (fun x => f x / T)).sum = (xs.map f).sum / T := by
  induction xs with
  | nil => simp
  | cons x xs ih => simp [ih, add_div]

theorem exp300 : Real.exp 300 ≤ 2 ^ 450 := by
  have h1 : Real.exp 1 ^ 2 ≤ 8 := by
    have := Real.exp_one_lt_d9
    have h0 := Real.exp_pos 1
    nlinarith
  have h2 : Real.exp 300 = (Real.exp 1 ^ 2) ^ 150 := by
    rw [← pow_mul, ← Real.exp_nat_mul]; norm_num
  rw [h2, show (2 : ℝ) ^ 450 = 8 ^ 150 by rw [show (8 : ℝ) = 2 ^ 3 by norm_num, ← pow_mul]]
  exact pow_le_pow_left₀ (by positivity) h1 150

theorem exp_range {v : ℚ} (hv : |v| ≤ 300) : (2 : ℝ) ^ (-450 : ℤ) ≤ Real.exp v ∧ Real.exp v ≤ 2 ^ 450 := by
  obtain ⟨h1, h2⟩ := abs_le.mp hv
  have h1' : (-300 : ℝ) ≤ (v : ℝ) := by exact_mod_cast h1
  have h2' : (v : ℝ) ≤ 300 := by exact_mod_cast h2
  refine ⟨?_, (Real.exp_le_exp.mpr h2').trans exp300⟩
  refine le_trans ?_ (Real.exp_le_exp.mpr h1')
  rw [Real.exp_neg, zpow_neg]
  exact inv_anti₀ (Real.exp_pos _) (by exact_mod_cast exp300)

/-- The rounded exponential of the library. -/
theorem lib_factor {exp : ℚ → ℚ} (he : ExpLib exp) {v : ℚ} (hv : |v| ≤ 300) :
    (2 : ℚ) ^ (-451 : ℤ) ≤ exp v ∧ (2 : ℚ) ^ (-451 : ℤ) ≤ Fmt.f64.fl (exp v) ∧
      Factor ((1 + 1 / 2 ^ 49) * (1 + 1 / 2 ^ 52)) (Fmt.f64.fl (exp v) : ℝ) (Real.exp v) := by
  have hr := (exp_range hv).1
  have h0 := Real.exp_pos (v : ℝ)
  have h1 := he v hv
  have hf := factor_of_err (k := 49) h0.le h1
  have h2 : (2 : ℝ) ^ (-451 : ℤ) ≤ (exp v : ℝ) := by
    have := (abs_le.mp h1).1
    have e : (2 : ℝ) ^ (-451 : ℤ) = 2 ^ (-450 : ℤ) / 2 := by
      rw [show (-451 : ℤ) = -450 - 1 by norm_num, zpow_sub₀ (by norm_num), zpow_one]
    rw [e]
    generalize (2 : ℝ) ^ (-450 : ℤ) = t at *
    have : Real.exp v / 2 ^ 50 ≤ Real.exp v / 2 := by
      rw [div_le_div_iff₀ (by norm_num) (by norm_num)]; nlinarith
    linarith
  have h3 : (2 : ℚ) ^ (-451 : ℤ) ≤ exp v := by
    rw [← Rat.cast_le (K := ℝ), Rat.cast_zpow]; exact h2
  have rep : Fmt.f64.Rep ((2 : ℚ) ^ (-451 : ℤ)) := ⟨1, -451, by decide, by decide, by simp⟩
  refine ⟨h3, Fmt.le_fl (by decide) rep h3, ?_⟩
  have hn : (2 : ℚ) ^ (-1022 : ℤ) ≤ exp v := le_trans (zpow_le_zpow_right₀ (by norm_num) (by norm_num)) h3
  exact (fl_factor hn).trans hf (by positivity) (by positivity)

theorem pow_bound {n : ℕ} (hn : n ≤ 2 ^ 32) : ((1 : ℝ) + 1 / 2 ^ 52) ^ n ≤ 4 := by
  have h1 : ((1 : ℝ) + 1 / 2 ^ 52) ^ n ≤ Real.exp (1 / 2 ^ 52) ^ n :=
    pow_le_pow_left₀ (by positivity) (by rw [add_comm]; exact Real.add_one_le_exp _) n
  rw [← Real.exp_nat_mul] at h1
  have h2 : (n : ℝ) * (1 / 2 ^ 52) ≤ 1 := by
    have : (n : ℝ) ≤ 2 ^ 32 := by exact_mod_cast hn
    rw [mul_one_div, div_le_one (by positivity)]
    exact this.trans (by norm_num)
  have h3 := Real.exp_le_exp.mpr h2
  have := Real.exp_one_lt_d9
  linarith

theorem sum_le_card {f : ℚ → ℝ} {c : ℝ} (xs : List ℚ) (h : ∀ x ∈ xs, f x ≤ c) : (xs.map f).sum ≤ xs.length * c := by
  induction xs with
  | nil => simp
  | cons x xs ih =>
    have h1 := h x (by simp)
    have h2 := ih (fun y hy => h y (by simp [hy]))
    simp only [List.map_cons, List.sum_cons, List.length_cons]
    push_cast
    linarith

/-- The sum of the rounded exponentials. -/
theorem denominator {exp : ℚ → ℚ} (he : ExpLib exp) {xs : List ℚ} (hne : xs ≠ []) (hlen : xs.length ≤ 2 ^ 32)
    (hx : ∀ v ∈ xs, |v| ≤ 300) {s : ℚ} (hs : Fmt.f64.Sums (xs.map (fun u => Fmt.f64.fl (exp u))) s) :
    0 < s ∧ (s : ℝ) ≤ 2 ^ 486 ∧ Factor ((1 + 1 / 2 ^ 49) * (1 + 1 / 2 ^ 52) ^ xs.length) (s : ℝ)
      (xs.map (fun u => Real.exp (u : ℚ))).sum := by
  have hlow : ∀ z ∈ xs.map (fun u => Fmt.f64.fl (exp u)), (2 : ℚ) ^ (-1022 : ℤ) ≤ z := by
    intro z hz
    obtain ⟨v, hv, rfl⟩ := List.mem_map.mp hz
    exact le_trans (zpow_le_zpow_right₀ (by norm_num) (by norm_num)) (lib_factor he (hx v hv)).2.1
  obtain ⟨-, s1, s2, s3⟩ := sums_factor hs hlow
  have h0 : (0 : ℚ) < 2 ^ (-1022 : ℤ) := by positivity
  rw [List.length_map, cast_sum] at s3
  have hl := list_factor xs (fun v hv => (lib_factor he (hx v hv)).2.2)
  have h4 := s3.trans hl (by positivity) (by positivity)
  have hn : 0 < xs.length := List.length_pos_iff.mpr hne
  rw [mul_assoc, ← pow_succ', show xs.length - 1 + 1 = xs.length by omega] at h4
  refine ⟨lt_of_lt_of_le h0 s1, ?_, h4⟩
  refine h4.1.trans ?_
  have a1 : (xs.map (fun u => Real.exp (u : ℚ))).sum ≤ 2 ^ 482 := by
    refine (sum_le_card xs (fun v hv => (exp_range (hx v hv)).2)).trans ?_
    have : (xs.length : ℝ) ≤ 2 ^ 32 := by exact_mod_cast hlen
    calc (xs.length : ℝ) * 2 ^ 450 ≤ 2 ^ 32 * 2 ^ 450 := mul_le_mul_of_nonneg_right this (by positivity)
      _ = 2 ^ 482 := by rw [← pow_add]
  have a2 : ((1 : ℝ) + 1 / 2 ^ 49) * (1 + 1 / 2 ^ 52) ^ xs.length ≤ 2 * 4 :=
    mul_le_mul (by norm_num) (pow_bound hlen) (by positivity) (by norm_num)
  calc _ ≤ (2 : ℝ) ^ 482 * (2 * 4) := mul_le_mul a1 a2 (by positivity) (by positivity)
    _ = 2 ^ 485 := by rw [show (2 * 4 : ℝ) = 2 ^ 3 by norm_num, ← pow_add]
    _ ≤ 2 ^ 486 := pow_le_pow_right₀ (by norm_num) (by norm_num)

/-- The quotient stays in the normal range. -/
theorem quotient_normal {g s : ℚ} (hg : (2 : ℚ) ^ (-451 : ℤ) ≤ g) (hs : 0 < s) (hs' : (s : ℝ) ≤ 2 ^ 486) :
    (2 : ℚ) ^ (-1022 : ℤ) ≤ g / s := by
  have h : s ≤ 2 ^ 486 := by exact_mod_cast hs'
  rw [le_div_iff₀ hs]
  refine le_trans ?_ hg
  calc (2 : ℚ) ^ (-1022 : ℤ) * s ≤ 2 ^ (-1022 : ℤ) * 2 ^ 486 := mul_le_mul_of_nonneg_left h (by positivity)
    _ = 2 ^ (-536 : ℤ) := by rw [← zpow_natCast, ← zpow_add₀ (by norm_num)]; norm_num
    _ ≤ 2 ^ (-451 : ℤ) := zpow_le_zpow_right₀ (by norm_num) (by norm_num)

/-- A score larger by 2⁻⁴⁷ gets a larger result. -/
theorem strict {exp : ℚ → ℚ} (he : ExpLib exp) {v w s : ℚ} (hv : |v| ≤ 300) (hw : |w| ≤ 300) (s0 : 0 < s)
    (s1 : (s : ℝ) ≤ 2 ^ 486) (h : v + 1 / 2 ^ 47 ≤ w) :
    Fmt.f64.fl (Fmt.f64.fl (exp v) / s) < Fmt.f64.fl (Fmt.f64.fl (exp w) / s) := by
  obtain ⟨-, v1, v2⟩ := lib_factor he hv
  obtain ⟨-, w1, w2⟩ := lib_factor he hw
  have fv := (fl_factor (quotient_normal v1 s0 s1)).1
  have fw := (fl_factor (quotient_normal w1 s0 s1)).2
  have hE : Real.exp v * (1 + 1 / 2 ^ 47) ≤ Real.exp w := by
    have h1 : (v : ℝ) + 1 / 2 ^ 47 ≤ w := by
      have := (Rat.cast_le (K := ℝ)).mpr h
      push_cast at this
      exact this
    refine le_trans ?_ (Real.exp_le_exp.mpr h1)
    rw [Real.exp_add]
    refine mul_le_mul_of_nonneg_left ?_ (Real.exp_pos _).le
    rw [add_comm]; exact Real.add_one_le_exp _
  have hs : (0 : ℝ) < s := by exact_mod_cast s0
  rw [Rat.cast_div, div_mul_eq_mul_div, le_div_iff₀ hs] at fv
  rw [Rat.cast_div, div_le_iff₀ hs] at fw
  have h0 := Real.exp_pos (v : ℝ)
  rw [← Rat.cast_lt (K := ℝ), ← mul_lt_mul_iff_left₀ hs]
  generalize (Fmt.f64.fl (Fmt.f64.fl (exp v) / s) : ℝ) = pv at *
  generalize (Fmt.f64.fl (Fmt.f64.fl (exp w) / s) : ℝ) = pw at *
  have hv2 := v2.1
  have hw2 := w2.2
  generalize (Fmt.f64.fl (exp v) : ℝ) = gv at *
  generalize (Fmt.f64.fl (exp w) : ℝ) = gw at *
  generalize Real.exp (v : ℝ) = ev at *
  generalize Real.exp (w : ℝ) = ew at *
  have a1 : pv * s ≤ ev * ((1 + 1 / 2 ^ 49) * (1 + 1 / 2 ^ 52) ^ 2) := by
    refine fv.trans ((mul_le_mul_of_nonneg_right hv2 (by norm_num)).trans (le_of_eq (by ring)))
  have a2 : ew ≤ pw * s * ((1 + 1 / 2 ^ 49) * (1 + 1 / 2 ^ 52) ^ 2) := by
    refine hw2.trans ((mul_le_mul_of_nonneg_right fw (by norm_num)).trans (le_of_eq (by ring)))
  refine lt_of_le_of_lt a1 ?_
  have hc : ((1 : ℝ) + 1 / 2 ^ 49) * (1 + 1 / 2 ^ 52) ^ 2 * ((1 + 1 / 2 ^ 49) * (1 + 1 / 2 ^ 52) ^ 2) < 1 + 1 / 2 ^ 47 := by
    norm_num
  have hc0 : (0 : ℝ) < (1 + 1 / 2 ^ 49) * (1 + 1 / 2 ^ 52) ^ 2 := by norm_num
  generalize ((1 : ℝ) + 1 / 2 ^ 49) * (1 + 1 / 2 ^ 52) ^ 2 = c at *
  have h3 : ev * c * c < pw * s * c := by
    rw [mul_assoc]
    refine lt_of_lt_of_le (mul_lt_mul_of_pos_left hc h0) (hE.trans a2)
  exact lt_of_mul_lt_mul_right h3 hc0.le

/-- Probabilities of scores known up to `e`. -/
theorem probability_near {ys xs : List ℚ} {e : ℚ} (h : List.Forall₂ (fun a b => |a - b| ≤ e) ys xs) :
    Factor (Real.exp e) (ys.map (fun u => Real.exp (u : ℚ))).sum (xs.map (fun u => Real.exp (u : ℚ))).sum ∧
      ∀ a b : ℚ, |a - b| ≤ e → Factor (Real.exp e) (Real.exp a) (Real.exp b) := by
  have one : ∀ a b : ℚ, |a - b| ≤ e → Factor (Real.exp e) (Real.exp a) (Real.exp b) := by
    intro a b hab
    obtain ⟨h1, h2⟩ := abs_le.mp hab
    have h1' : (b : ℝ) ≤ a + e := by exact_mod_cast (by linarith : b ≤ a + e)
    have h2' : (a : ℝ) ≤ b + e := by exact_mod_cast (by linarith : a ≤ b + e)
    exact ⟨by rw [← Real.exp_add]; exact Real.exp_le_exp.mpr h2', by rw [← Real.exp_add]; exact Real.exp_le_exp.mpr h1'⟩
  refine ⟨?_, one⟩
  induction h with
  | nil => simp [Factor]
  | cons h _ ih =>
    simp only [List.map_cons, List.sum_cons]
    exact (one _ _ h).add ih

theorem sum_exp_pos {xs : List ℚ} (h : xs ≠ []) : 0 < (xs.map (fun u => Real.exp (u : ℚ))).sum := by
  cases xs with
  | nil => exact absurd rfl h
  | cons x xs =>
    simp only [List.map_cons, List.sum_cons]
    have : 0 ≤ (xs.map (fun u => Real.exp (u : ℚ))).sum := List.sum_nonneg (by
      intro y hy
      obtain ⟨u, -, rfl⟩ := List.mem_map.mp hy
      exact (Real.exp_pos _).le)
    linarith [Real.exp_pos (x : ℝ)]

/-! ### The converted network -/

theorem fused_snoc {l : List ONode} {cs : List Cand} (sm : ONode) (hsm : sm.opType = "Softmax") (h : Fused l cs) :
    Fused (l ++ [sm]) (cs ++ [⟨sm.opType, [sm]⟩]) := by
  induction h with
  | nil => exact .single sm [] [] (by intro b c r h; cases h) .nil
  | triple a b c rest cs h1 h2 h3 _ ih => exact .triple a b c _ _ h1 h2 h3 ih
  | single n rest cs hn _ ih =>
    refine .single n _ _ ?_ ih
    intro b c r hr hbad
    cases rest with
    | nil => simp at hr
    | cons b' rest =>
      cases rest with
      | nil =>
        have hr' : [b', sm] = b :: c :: r := hr
        simp only [List.cons.injEq] at hr'
        obtain ⟨-, rfl, -⟩ := hr'
        rw [hsm] at hbad
        exact absurd hbad.2.2 (by decide)
      | cons c' rest =>
        have hr' : b' :: c' :: (rest ++ [sm]) = b :: c :: r := hr
        simp only [List.cons.injEq] at hr'
        obtain ⟨rfl, rfl, -⟩ := hr'
        exact hn _ _ _ rfl hbad

theorem forall2_snoc {α β : Type} {R : α → β → Prop} {l : List α} {os : List β} {o : β} (h : List.Forall₂ R l (os ++ [o])) :
    ∃ l' a, l = l' ++ [a] ∧ List.Forall₂ R l' os ∧ R a o := by
  induction os generalizing l with
  | nil =>
    cases h with | cons h1 h2 => cases h2; exact ⟨[], _, rfl, .nil, h1⟩
  | cons b os ih =>
    cases h with
    | cons h1 h2 =>
      obtain ⟨l', a, rfl, h3, h4⟩ := ih h2
      exact ⟨_ :: l', a, rfl, .cons h1 h3, h4⟩

theorem mapM_snoc {α β : Type} {f : α → Option β} {xs : List α} {ys : List β} {x : α} {y : β} (h : xs.mapM f = some ys)
    (hx : f x = some y) : (xs ++ [x]).mapM f = some (ys ++ [y]) := by
  rw [List.mapM_append, h]
  simp [hx]

theorem run_snoc {ext : Ext} {Ls : List Layer} {L : Layer} {t out out' : Tensor} {mids : List Tensor}
    (h : Fmt.f64.runLayers ext Ls t = some (out, mids)) (hL : Fmt.f64.inferLayer ext L out = some out') :
    ∃ mids', Fmt.f64.runLayers ext (Ls ++ [L]) t = some (out', mids') := by
  induction Ls generalizing t mids with
  | nil =>
    simp only [Fmt.runLayers, Option.some.injEq, Prod.mk.injEq] at h
    obtain ⟨rfl, -⟩ := h
    exact ⟨[out'], OnnxF64.run_cons hL rfl⟩
  | cons l Ls ih =>
    simp only [Fmt.runLayers, Option.bind_eq_bind, Option.bind_eq_some_iff] at h
    obtain ⟨y, hy, ⟨o, r⟩, hr, he⟩ := h
    simp only [Option.some.injEq, Prod.mk.injEq] at he
    obtain ⟨rfl, rfl⟩ := he
    obtain ⟨mids', h'⟩ := ih hr
    exact ⟨y :: mids', OnnxF64.run_cons hy h'⟩

end Softmax64

/-- C99 (exact).  In any binary format, whatever the library's exponential function (positive and not underflowing on the
scores) and whatever order `np.sum` adds in: all results of the ONNX `Softmax` operator lie between 0 and 1, and a score with
a larger exponential never gets a smaller result. -/
theorem C99_range (F : Fmt) (hp : 1 ≤ F.p) (he0 : F.emin ≤ 0) (exp : ℚ → ℚ) (sum : List ℚ → ℚ) (hsum : SumsUp F sum) (x : Arr ℚ)
    (hexp : ∀ v ∈ x.flat, (2 : ℚ) ^ F.emin ≤ exp v) :
    ∃ P : ℚ → ℚ, F.softmax exp sum x = x.map P ∧ (∀ v ∈ x.flat, 0 ≤ P v ∧ P v ≤ 1) ∧
      ∀ v ∈ x.flat, ∀ w ∈ x.flat, exp v ≤ exp w → P v ≤ P w := by
  refine ⟨_, rfl, ?_, ?_⟩
  all_goals
    by_cases hx : x.flat = []
    · rw [hx]; simp
    have hS := hsum (x.flat.map (fun u => F.fl (exp u))) (by simpa using hx)
    obtain ⟨s0, -, s2⟩ := Softmax64.sums_bounds hp hS (by
      intro z hz
      obtain ⟨v, hv, rfl⟩ := List.mem_map.mp hz
      exact ⟨Fmt.le_fl hp (Fmt.rep_zero F) (le_trans (by positivity) (hexp v hv)), Fmt.rep_fl F _⟩)
    generalize sum (x.flat.map (fun u => F.fl (exp u))) = s at *
    have hpos : ∀ v ∈ x.flat, 0 < F.fl (exp v) := by
      intro v hv
      have rep : F.Rep ((2 : ℚ) ^ F.emin) := ⟨1, F.emin, by simpa using one_le_pow₀ (by norm_num), le_rfl, by simp⟩
      exact lt_of_lt_of_le (by positivity) (Fmt.le_fl hp rep (hexp v hv))
    have le_s : ∀ v ∈ x.flat, F.fl (exp v) ≤ s := fun v hv => s2 _ (List.mem_map.mpr ⟨v, hv, rfl⟩)
  · intro v hv
    have hs : 0 < s := lt_of_lt_of_le (hpos v hv) (le_s v hv)
    refine ⟨Fmt.le_fl hp (Fmt.rep_zero F) (div_nonneg (hpos v hv).le hs.le), ?_⟩
    have one : F.Rep 1 := by
      have := Fmt.rep_int (F := F) 1 (by simpa using one_le_pow₀ (by norm_num)) he0
      simpa using this
    exact Fmt.fl_le hp one ((div_le_one hs).mpr (le_s v hv))
  · intro v hv w _ hvw
    have hs : 0 < s := lt_of_lt_of_le (hpos v hv) (le_s v hv)
    exact Fmt.fl_mono hp (div_le_div_of_nonneg_right (Fmt.fl_mono hp hvw) hs.le)

/-- C99 (accuracy).  In float64, with an exponential function accurate to 2⁻⁵⁰ and any order of summation, at most 2³² scores
of magnitude at most 300: every result is the true probability up to a factor `(1 + 2⁻⁴⁹)^(n+4)`, and so is their sum 1; a
score larger by 2⁻⁴⁷ gets a strictly larger result. -/
theorem C99_accuracy (exp : ℚ → ℚ) (he : ExpLib exp) (sum : List ℚ → ℚ) (hsum : SumsUp Fmt.f64 sum) (x : Arr ℚ)
    (hne : x.flat ≠ []) (hlen : x.flat.length ≤ 2 ^ 32) (hx : ∀ v ∈ x.flat, |v| ≤ 300) :
    ∃ P : ℚ → ℚ, Fmt.f64.softmax exp sum x = x.map P ∧
      (∀ v ∈ x.flat, Factor ((1 + 1 / 2 ^ 49) ^ (x.flat.length + 4)) (P v : ℝ) (probability x.flat v)) ∧
      Factor ((1 + 1 / 2 ^ 49) ^ (x.flat.length + 4)) (((x.flat.map P).sum : ℚ) : ℝ) 1 ∧
      ∀ v ∈ x.flat, ∀ w ∈ x.flat, v + 1 / 2 ^ 47 ≤ w → P v < P w := by
  have hS := hsum (x.flat.map (fun u => Fmt.f64.fl (exp u))) (by simpa using hne)
  obtain ⟨s0, s1, s2⟩ := Softmax64.denominator he hne hlen hx hS
  have key : ∀ v ∈ x.flat, Factor ((1 + 1 / 2 ^ 49) ^ (x.flat.length + 4))
      (Fmt.f64.fl (Fmt.f64.fl (exp v) / sum (x.flat.map (fun u => Fmt.f64.fl (exp u)))) : ℝ) (probability x.flat v) := by
    intro v hv
    obtain ⟨-, g1, g2⟩ := Softmax64.lib_factor he (hx v hv)
    have hn := Softmax64.quotient_normal g1 s0 s1
    have hT : 0 < (x.flat.map (fun u => Real.exp (u : ℚ))).sum := by
      by_contra hc
      push Not at hc
      have h1 := s2.1
      have h2 : (0 : ℝ) < (sum (x.flat.map (fun u => Fmt.f64.fl (exp u))) : ℝ) := by exact_mod_cast s0
      have h3 := mul_nonpos_of_nonpos_of_nonneg hc (show (0 : ℝ) ≤ (1 + 1 / 2 ^ 49) * (1 + 1 / 2 ^ 52) ^ x.flat.length by positivity)
      linarith
    generalize sum (x.flat.map (fun u => Fmt.f64.fl (exp u))) = s at *
    have hg0 : 0 < Fmt.f64.fl (exp v) := lt_of_lt_of_le (by positivity) g1
    have hq := g2.div s2 (by exact_mod_cast hg0.le) (Real.exp_pos _).le (by exact_mod_cast s0) hT (by positivity)
    have hfl := Softmax64.fl_factor hn
    rw [Rat.cast_div] at hfl
    have h := hfl.trans hq (by positivity) (by positivity)
    have hpos : (0 : ℚ) ≤ Fmt.f64.fl (Fmt.f64.fl (exp v) / s) :=
      le_trans (by positivity) (Fmt.le_fl (by decide) Softmax64.rep_tiny hn)
    refine h.mono ?_ (by exact_mod_cast hpos) (div_nonneg (Real.exp_pos _).le hT.le)
    have hk : (1 : ℝ) + 1 / 2 ^ 52 ≤ 1 + 1 / 2 ^ 49 := by norm_num
    have hk0 : (0 : ℝ) ≤ 1 + 1 / 2 ^ 52 := by positivity
    have e : ((1 : ℝ) + 1 / 2 ^ 49) ^ (x.flat.length + 4) = (1 + 1 / 2 ^ 49) * (1 + 1 / 2 ^ 49) *
        ((1 + 1 / 2 ^ 49) * (1 + 1 / 2 ^ 49) ^ x.flat.length) * (1 + 1 / 2 ^ 49) := by ring
    rw [e]
    have hpow := pow_le_pow_left₀ hk0 hk x.flat.length
    gcongr
  refine ⟨_, rfl, key, ?_, fun v hv w hw hvw => Softmax64.strict he (hx v hv) (hx w hw) s0 s1 hvw⟩
  rw [Softmax64.cast_sum]
  have := Softmax64.list_factor x.flat key
  have hone : (x.flat.map (fun v => probability x.flat v)).sum = 1 := by
    unfold probability
    have hT : (x.flat.map (fun u => Real.exp (u : ℚ))).sum ≠ 0 := by
      intro h0
      have h1 := s2.1
      rw [h0, zero_mul] at h1
      have h2 : (0 : ℝ) < (sum (x.flat.map (fun u => Fmt.f64.fl (exp u))) : ℝ) := by exact_mod_cast s0
      linarith
    rw [Softmax64.sum_div, div_self hT]
  rw [hone] at this
  exact this

/-- C99 (network).  An ONNX model as in C98 followed by a `Softmax`, converted with tables computed in float64 and run in float64
with an exponential accurate to 2⁻⁵⁰, on a single sample whose exact scores `y` are at most 300 in magnitude, error included:
each returned number is the true probability of its score up to the factor `exp(2e) (1 + 2⁻⁴⁹)^(n+4)`, `e` being the error
bound of the scores; and a class whose exact score leads another's by more than `2e` (and 2⁻⁴⁷) gets a strictly larger
number. -/
theorem C99_network (ext cext ideal : Ext) (ls lt δ : ℚ) (hls : 0 ≤ ls) (hlt : 0 ≤ lt)
    (hs : ∀ a b, |ideal.sigmoid a - ideal.sigmoid b| ≤ ls * |a - b|)
    (ht : ∀ a b, |ideal.tanh a - ideal.tanh b| ≤ lt * |a - b|) (he : Approximates δ ext ideal)
    (hce : Approximates δ cext ideal) (hexp : ExpLib ext.exp)
    (m : OModel) (S : ℚ) (Z : ℤ) (ops : List OnnxOp)
    (hm : List.Forall₂ (NodeMeans m) m.nodes (.quantize S Z :: ops ++ [.softmax]))
    (hin : m.inputs ≠ []) (n : ℕ) (hn : 0 < n) (hf : onnxFits (.quantize S Z :: ops) none n)
    (hr : onnxAfter ops (some (S, Z)) = none) (hN : NormalScales (.quantize S Z :: ops)) :
    ∃ net s, model2json cext m Fmt.f64.uint8Table = some net ∧ Fmt.f64.load net = some s ∧
      ∀ (x : List ℚ) (y : List ℚ) (e : ℚ), x.length = n → y = onnxExact ideal (.quantize S Z :: ops) x →
        e = onnxBound64 ideal ls lt δ (.quantize S Z :: ops) x 0 → y ≠ [] → y.length ≤ 2 ^ 32 → (∀ v ∈ y, |v| + e ≤ 300) →
        ∃ p mids, Fmt.f64.infer ext s (.flt (.mat [x])) = some (.flt (.mat [p]), mids) ∧
          List.Forall₂ (fun (a v : ℚ) => Factor (Real.exp (2 * e) * (1 + 1 / 2 ^ 49) ^ (y.length + 4)) (a : ℝ) (probability y v))
            p y ∧
          ∀ (i j : ℕ) (vi vj pi pj : ℚ), y[i]? = some vi → y[j]? = some vj → p[i]? = some pi → p[j]? = some pj →
            vj + 2 * e + 1 / 2 ^ 47 ≤ vi → pj < pi := by
  have hδ : 0 ≤ δ := le_trans (abs_nonneg _) (he 0).1
  obtain ⟨nodes, last, hnodes, hm0, hlast⟩ := Softmax64.forall2_snoc hm
  have hsm : last.opType = "Softmax" := by cases hlast; rfl
  have hplain0 : ∀ n ∈ nodes, PlainType n.opType := by
    intro n hn
    obtain ⟨i, hi, rfl⟩ := List.mem_iff_getElem.mp hn
    have hi' : i < (OnnxOp.quantize S Z :: ops).length := by rw [← hm0.length_eq]; exact hi
    exact OnnxAcc.means_plain ((List.forall₂_iff_get.mp hm0).2 i hi hi')
  have hplain : ∀ n ∈ m.nodes, PlainType n.opType := by
    intro n hn
    rw [hnodes] at hn
    rcases List.mem_append.mp hn with h | h
    · exact hplain0 n h
    · rw [List.mem_singleton] at h; subst h; exact OnnxAcc.means_plain hlast
  obtain ⟨cs0, -, hF0⟩ := C48_fusion nodes hplain0 nodes.length le_rfl
  obtain ⟨cs, hcs, hF⟩ := C48_fusion m.nodes hplain m.nodes.length le_rfl
  have hF' := Softmax64.fused_snoc last hsm hF0
  rw [← hnodes] at hF'
  have hcs' := hF.unique hF'
  subst hcs'
  obtain ⟨js, Ls, h1, h2, h3⟩ := OnnxF64.fused_near hls hlt hs ht hδ he hce m hF0 (.quantize S Z :: ops) none n hm0
    (by intro s z h; cases h) hf hN hn
  obtain ⟨op, c1, c2⟩ := OnnxF64.convert_single cext m hlast (by rw [hsm]; decide)
  obtain ⟨first, rest, hnodes'⟩ : ∃ first rest, nodes = first :: rest := by
    cases hn : nodes with
    | nil => rw [hn] at hm0; cases hm0
    | cons a l => exact ⟨a, l, rfl⟩
  have hfirst : first.opType = "QuantizeLinear" := by
    rw [hnodes'] at hm0
    cases hm0 with
    | cons h _ => cases h; rfl
  obtain ⟨net, n1, n2⟩ := OnnxF64.loads cext m (first := first) (rest := rest ++ [last]) (by rw [hnodes, hnodes']; rfl) hfirst hin
    hcs hF (Softmax64.mapM_snoc h1 c1) (Softmax64.mapM_snoc h2 c2)
  refine ⟨net, _, n1, n2, ?_⟩
  intro x y e hx hy hedef hne hlen hbig
  obtain ⟨out, mids, r1, r2⟩ := h3 [x] (.flt (.mat [x])) id (fun _ => 0) (by simp) (by simpa using hx) (fun _ _ => le_rfl)
    ⟨[x], rfl, by
      rw [List.forall₂_same]
      intro x _
      rw [id, List.forall₂_same]
      intro a _
      simp⟩
  have hr' : onnxAfter (OnnxOp.quantize S Z :: ops) none = none := hr
  rw [hr'] at r2
  obtain ⟨Y, rfl, hY⟩ := r2
  obtain ⟨l, rfl⟩ : ∃ l, Y = [l] := List.length_eq_one_iff.mp hY.length_eq
  have hl : List.Forall₂ (fun a b => |a - b| ≤ e) l y := by
    rw [hedef, hy]
    cases hY with
    | cons h _ => exact h
  have hinf : Fmt.f64.inferLayer ext (OnnxF64.layer64 .softmax) (.flt (.mat [l])) =
      some (.flt (Fmt.f64.softmax ext.exp Fmt.f64.sumLeft (.mat [l]))) := rfl
  obtain ⟨mids', hrun⟩ := Softmax64.run_snoc r1 hinf
  have hflat : (Arr.mat [l]).flat = l := by simp [Arr.flat]
  have hlne : l ≠ [] := by
    intro h; rw [h] at hl; cases hl; exact hne rfl
  have hl300 : ∀ v ∈ l, |v| ≤ 300 := by
    intro v hv
    obtain ⟨i, hi, rfl⟩ := List.mem_iff_getElem.mp hv
    have hi' : i < y.length := by rw [← hl.length_eq]; exact hi
    have h4 := (List.forall₂_iff_get.mp hl).2 i hi hi'
    have h5 := hbig y[i] (List.getElem_mem hi')
    simp only [List.get_eq_getElem] at h4
    have := abs_sub_abs_le_abs_sub l[i] y[i]
    linarith
  obtain ⟨P, p1, p2, p3, p4⟩ := C99_accuracy ext.exp hexp Fmt.f64.sumLeft (Softmax64.sumLeft_sums _) (.mat [l])
    (by rw [hflat]; exact hlne) (by rw [hflat, hl.length_eq]; exact hlen) (by rw [hflat]; exact hl300)
  rw [hflat] at p2 p4
  rw [hl.length_eq] at p2
  obtain ⟨q1, q2⟩ := Softmax64.probability_near hl
  refine ⟨l.map P, mids', ?_, ?_, ?_⟩
  · unfold Fmt.infer
    rw [p1] at hrun
    exact hrun
  · rw [List.forall₂_map_left_iff]
    refine OnnxAcc.forall2_imp_mem hl (fun a b ha hb hab => ?_)
    have h5 := (q2 a b hab).div q1 (Real.exp_pos _).le (Real.exp_pos _).le (Softmax64.sum_exp_pos hlne)
      (Softmax64.sum_exp_pos hne) (Real.exp_pos _).le
    rw [← Real.exp_add, ← two_mul] at h5
    exact (p2 a ha).trans h5 (by positivity) (Real.exp_pos _).le
  · intro i j vi vj pi pj hi hj hpi hpj hgap
    rw [List.getElem?_map] at hpi hpj
    obtain ⟨a, ha, rfl⟩ := Option.map_eq_some_iff.mp hpi
    obtain ⟨b, hb, rfl⟩ := Option.map_eq_some_iff.mp hpj
    have key : ∀ (k : ℕ) (u v : ℚ), l[k]? = some u → y[k]? = some v → |u - v| ≤ e := by
      intro k u v hu hv
      obtain ⟨hk, rfl⟩ := List.getElem?_eq_some_iff.mp hu
      obtain ⟨hk', rfl⟩ := List.getElem?_eq_some_iff.mp hv
      exact (List.forall₂_iff_get.mp hl).2 k hk hk'
    have h6 := abs_le.mp (key i a vi ha hi)
    have h7 := abs_le.mp (key j b vj hb hj)
    exact p4 b (List.mem_of_getElem? hb) a (List.mem_of_getElem? ha) (by linarith [h6.1, h7.2])

namespace C99Case

open C85Case (model' ops means')

/-- A library exponential: a rational number just above the real exponential. -/
noncomputable def libExp (v : ℚ) : ℚ :=
  (exists_rat_btwn (show Real.exp v < Real.exp v * (1 + 1 / 2 ^ 50) by nlinarith [Real.exp_pos (v : ℝ)])).choose

theorem libExp_ok : ExpLib libExp := by
  intro v _
  have h := (exists_rat_btwn (show Real.exp v < Real.exp v * (1 + 1 / 2 ^ 50) by nlinarith [Real.exp_pos (v : ℝ)])).choose_spec
  have h1 : Real.exp v < (libExp v : ℝ) := h.1
  have h2 : (libExp v : ℝ) < Real.exp v * (1 + 1 / 2 ^ 50) := h.2
  rw [abs_of_pos (by linarith)]
  linarith [show Real.exp v * (1 + 1 / 2 ^ 50) = Real.exp v + Real.exp v / 2 ^ 50 by ring]

/-- The hypotheses of `C99_range` and `C99_accuracy` hold. -/
example : ∃ P : ℚ → ℚ, Fmt.f64.softmax libExp Fmt.f64.sumLeft (.vec [1, 2, 3]) = .vec [P 1, P 2, P 3] ∧ P 1 < P 2 ∧ P 2 < P 3 := by
  obtain ⟨P, h1, -, -, h2⟩ := C99_accuracy libExp libExp_ok Fmt.f64.sumLeft (Softmax64.sumLeft_sums _) (.vec [1, 2, 3])
    (by simp [Arr.flat]) (by simp [Arr.flat]) (by
      intro v hv
      simp only [Arr.flat, List.mem_cons, List.not_mem_nil, or_false] at hv
      rcases hv with rfl | rfl | rfl <;> decide +kernel)
  exact ⟨P, h1, h2 1 (by simp [Arr.flat]) 2 (by simp [Arr.flat]) (by norm_num), h2 2 (by simp [Arr.flat]) 3 (by simp [Arr.flat]) (by norm_num)⟩

example : ∃ P : ℚ → ℚ, Fmt.f32.softmax (fun v => v + 4) Fmt.f32.sumLeft (.mat [[1, 2], [3, -1]]) = .mat [[P 1, P 2], [P 3, P (-1)]] ∧
    P (-1) ≤ P 1 ∧ P 3 ≤ 1 := by
  obtain ⟨P, h1, h2, h3⟩ := C99_range Fmt.f32 (by decide) (by decide) (fun v => v + 4) Fmt.f32.sumLeft (Softmax64.sumLeft_sums _)
    (.mat [[1, 2], [3, -1]]) (by
      intro v hv
      simp [Arr.flat] at hv
      rcases hv with rfl | rfl | rfl | rfl <;> decide +kernel)
  exact ⟨P, h1, h3 (-1) (by simp [Arr.flat]) 1 (by simp [Arr.flat]) (by norm_num), (h2 3 (by simp [Arr.flat])).2⟩

/-- The functions of `C98Case` with this exponential. -/
noncomputable def lib : Ext := ⟨C98Case.lib.tanh, C98Case.lib.sigmoid, libExp⟩

/-- The hypotheses of `C99_network` hold; the probabilities of this input are within a factor `exp(1/2) (1 + 2⁻⁴⁹)⁶`. -/
example : ∃ net s p mids, model2json lib model' Fmt.f64.uint8Table = some net ∧ Fmt.f64.load net = some s ∧
    Fmt.f64.infer lib s (.flt (.mat [[1, -1]])) = some (.flt (.mat [p]), mids) ∧
    List.Forall₂ (fun (a v : ℚ) => Factor (Real.exp (1 / 2) * (1 + 1 / 2 ^ 49) ^ 6) (a : ℝ)
      (probability (onnxExact C48Case.ext (.quantize (1 / 16) 128 :: ops) [1, -1]) v)) p
      (onnxExact C48Case.ext (.quantize (1 / 16) 128 :: ops) [1, -1]) := by
  have hl : ∀ a b : ℚ, |a / 2 - b / 2| ≤ 1 / 2 * |a - b| := by
    intro a b
    rw [show a / 2 - b / 2 = 1 / 2 * (a - b) by ring, abs_mul]
    norm_num
  obtain ⟨net, s, h1, h2, h3⟩ := C99_network lib lib C48Case.ext (1 / 2) (1 / 2) (1 / 2 ^ 50) (by norm_num) (by norm_num)
    (fun a b => by have := hl a b; show |a / 2 + 1 - (b / 2 + 1)| ≤ _; rwa [add_sub_add_right_eq_sub]) hl C98Case.approx
    C98Case.approx libExp_ok model' (1 / 16) 128 ops means' (by decide) 2 (by decide) C85Case.fits rfl C98Case.normal
  have hb : onnxBound64 C48Case.ext (1 / 2) (1 / 2) (1 / 2 ^ 50) (.quantize (1 / 16) 128 :: ops) [1, -1] 0 ≤ 1 / 4 := by
    decide +kernel
  obtain ⟨p, mids, h4, h5, -⟩ := h3 [1, -1] _ _ rfl rfl rfl (by decide +kernel) (by decide +kernel) (by decide +kernel)
  refine ⟨net, s, p, mids, h1, h2, h4, h5.imp (fun a v h => ?_)⟩
  have hv : 0 < probability (onnxExact C48Case.ext (.quantize (1 / 16) 128 :: ops) [1, -1]) v :=
    div_pos (Real.exp_pos _) (Softmax64.sum_exp_pos (by decide +kernel))
  have hb' : (2 : ℝ) * (onnxBound64 C48Case.ext (1 / 2) (1 / 2) (1 / 2 ^ 50) (.quantize (1 / 16) 128 :: ops) [1, -1] 0 : ℚ) ≤ 1 / 2 := by
    have := (Rat.cast_le (K := ℝ)).mpr hb
    push_cast at this
    linarith
  have hlen : (onnxExact C48Case.ext (.quantize (1 / 16) 128 :: ops) [1, -1]).length = 2 := by decide +kernel
  rw [hlen] at h
  refine h.mono (mul_le_mul_of_nonneg_right (Real.exp_le_exp.mpr hb') (by positivity)) (h.pos (by positivity) hv).le hv.le

end C99Case
end Verif
