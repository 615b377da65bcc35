import Verif.Lemmas.LstmAccuracy
import Verif.Props.FloatEngine
import Verif.Props.Floating

/-!
# C96: the LSTM layer of the engine in IEEE binary64 arithmetic is near the exact one
-/

namespace Verif

open Spec Keras

namespace Spec

/-- The factors of an LSTM layer with the scales of `b` are far from the ends of the float64 range, and not larger than
the engine's multipliers can be. -/
structure LstmFactors (b : LstmBudget) : Prop where
  kernel : ∀ g < 4, (2 : ℚ) ^ (-1022 : ℤ) ≤ b.sK g * b.sIn
  recurrent : ∀ g < 4, (2 : ℚ) ^ (-1022 : ℤ) ≤ b.sU g * b.sH
  first : ∀ g < 4, (2 : ℚ) ^ (-1020 : ℤ) ≤ b.sK g * b.sIn / (b.sH * b.sU g)
  second : ∀ g < 4, (2 : ℚ) ^ (-1020 : ℤ) ≤ b.sU g * b.sH / b.sA g
  forget : (2 : ℚ) ^ (-1020 : ℤ) ≤ b.sT 1 ∧ b.sT 1 ≤ 2 ^ 29
  gates : (2 : ℚ) ^ (-1022 : ℤ) ≤ b.sT 0 * b.sT 2
  cell : (2 : ℚ) ^ (-1020 : ℤ) ≤ b.sT 0 * b.sT 2 / b.sC ∧ b.sT 0 * b.sT 2 / b.sC ≤ 2 ^ 29
  output : (2 : ℚ) ^ (-1022 : ℤ) ≤ b.sT 3 * b.sS
  hidden : (2 : ℚ) ^ (-1020 : ℤ) ≤ b.sT 3 * b.sS / b.sH ∧ b.sT 3 * b.sS / b.sH ≤ 2 ^ 29

end Spec

namespace LstmF64

/-- `y` is `x` up to a relative error of `k` units of float64. -/
def Rel (k x y : ℚ) : Prop := |y - x| ≤ |x| * (k / 2 ^ 53)

theorem Rel.refl (x : ℚ) : Rel 0 x x := by unfold Rel; simp

theorem Rel.mono {j k x y : ℚ} (h : Rel j x y) (hjk : j ≤ k) : Rel k x y := by
  unfold Rel at *
  refine le_trans h (mul_le_mul_of_nonneg_left ?_ (abs_nonneg _))
  exact div_le_div_of_nonneg_right hjk (by norm_num)

theorem Rel.size {k x y : ℚ} (h : Rel k x y) : |y| ≤ |x| * (1 + k / 2 ^ 53) := by
  have := abs_add_le (y - x) x
  rw [sub_add_cancel] at this
  unfold Rel at h
  linarith

theorem Rel.ge {k x y : ℚ} (h : Rel k x y) : |x| * (1 - k / 2 ^ 53) ≤ |y| := by
  have := abs_add_le (x - y) y
  rw [sub_add_cancel, abs_sub_comm] at this
  unfold Rel at h
  linarith

theorem Rel.mul {j k x x' y y' : ℚ} (hx : Rel j x x') (hy : Rel k y y') (hj : 0 ≤ j ∧ j ≤ 16) (hk : 0 ≤ k ∧ k ≤ 16) :
    Rel (j + k + 1) (x * y) (x' * y') := by
  have sy := hy.size
  unfold Rel at *
  have e : x' * y' - x * y = (x' - x) * y' + x * (y' - y) := by ring
  have h1 := abs_add_le ((x' - x) * y') (x * (y' - y))
  rw [← e, abs_mul, abs_mul x] at h1
  have h2 : |x' - x| * |y'| ≤ |x| * (j / 2 ^ 53) * (|y| * (1 + k / 2 ^ 53)) :=
    mul_le_mul hx sy (abs_nonneg _) (by have := hj.1; positivity)
  have h3 : |x| * |y' - y| ≤ |x| * (|y| * (k / 2 ^ 53)) := mul_le_mul_of_nonneg_left hy (abs_nonneg _)
  rw [abs_mul]
  have h4 : j / 2 ^ 53 * (1 + k / 2 ^ 53) + k / 2 ^ 53 ≤ (j + k + 1) / 2 ^ 53 := by
    have : j * (k / 2 ^ 53) ≤ 1 := by
      have hjk : j * k ≤ 16 * 16 := mul_le_mul hj.2 hk.2 hk.1 (by norm_num)
      rw [← mul_div_assoc, div_le_one (by norm_num)]
      linarith
    rw [show j / 2 ^ 53 * (1 + k / 2 ^ 53) + k / 2 ^ 53 = (j + j * (k / 2 ^ 53) + k) / 2 ^ 53 by ring]
    exact div_le_div_of_nonneg_right (by linarith) (by norm_num)
  have h5 := mul_le_mul_of_nonneg_left h4 (mul_nonneg (abs_nonneg x) (abs_nonneg y))
  linarith

theorem fl_normal {x : ℚ} (h : x = 0 ∨ (2 : ℚ) ^ (-1022 : ℤ) ≤ |x|) : |Fmt.f64.fl x - x| ≤ |x| / 2 ^ 53 := by
  rcases h with rfl | h
  · rw [Fmt.fl_zero]; simp
  · exact Fmt.fl_err_normal Fmt.f64 x h

theorem Rel.fl {k x y : ℚ} (h : Rel k x y) (hk : 0 ≤ k ∧ k ≤ 16) (hy : y = 0 ∨ (2 : ℚ) ^ (-1022 : ℤ) ≤ |y|) :
    Rel (k + 2) x (Fmt.f64.fl y) := by
  have h1 := fl_normal hy
  have h2 := h.size
  unfold Rel at *
  have h3 := abs_add_le (Fmt.f64.fl y - y) (y - x)
  rw [sub_add_sub_cancel] at h3
  have h4 : |y| / 2 ^ 53 ≤ |x| * 2 / 2 ^ 53 := by
    refine div_le_div_of_nonneg_right (le_trans h2 (mul_le_mul_of_nonneg_left ?_ (abs_nonneg _))) (by norm_num)
    have : k / 2 ^ 53 ≤ 1 := by rw [div_le_one (by norm_num)]; linarith [hk.2]
    linarith
  have e : |x| * ((k + 2) / 2 ^ 53) = |x| * 2 / 2 ^ 53 + |x| * (k / 2 ^ 53) := by ring
  linarith

theorem int_cases (n : ℤ) : (n : ℚ) = 0 ∨ (1 : ℚ) ≤ |(n : ℚ)| := by
  rcases eq_or_ne n 0 with rfl | h
  · left; simp
  · right
    have : 1 ≤ |n| := Int.one_le_abs h
    exact_mod_cast this

theorem small_lt_one : (2 : ℚ) ^ (-1022 : ℤ) ≤ 1 := zpow_le_one_of_nonpos₀ (by norm_num) (by norm_num)

/-- An integer converted to a float. -/
theorem rel_int (n : ℤ) : Rel 1 (n : ℚ) (Fmt.f64.fl n) := by
  have := fl_normal (x := (n : ℚ)) ((int_cases n).imp id (fun h => le_trans small_lt_one h))
  unfold Rel
  rw [mul_one_div]; exact this

theorem two_zpow (a b : ℤ) : (2 : ℚ) ^ a * 2 ^ b = 2 ^ (a + b) := (zpow_add₀ (by norm_num) a b).symm

/-- A factor times an integer is zero or normal, if the factor is above the smallest normal number with a margin. -/
theorem normal_mul {k m m' : ℚ} (hm : (2 : ℚ) ^ (-1020 : ℤ) ≤ |m|) (hr : Rel k m m') (hk : 0 ≤ k ∧ k ≤ 16) {j : ℚ} (n : ℤ) {n' : ℚ}
    (hn : Rel j (n : ℚ) n') (hj : 0 ≤ j ∧ j ≤ 16) : m' * n' = 0 ∨ (2 : ℚ) ^ (-1022 : ℤ) ≤ |m' * n'| := by
  have half : ∀ {k : ℚ}, 0 ≤ k ∧ k ≤ 16 → (1 : ℚ) / 2 ≤ 1 - k / 2 ^ 53 := by
    intro k hk
    have : k / 2 ^ 53 ≤ 1 / 2 := by rw [div_le_iff₀ (by norm_num)]; linarith [hk.2]
    linarith
  rcases int_cases n with h0 | h1
  · left
    unfold Rel at hn
    rw [h0] at hn
    simp at hn
    rw [hn, mul_zero]
  · right
    have a := hr.ge
    have b := hn.ge
    rw [abs_mul]
    have a' : (2 : ℚ) ^ (-1020 : ℤ) * (1 / 2) ≤ |m'| :=
      le_trans (mul_le_mul hm (half hk) (by norm_num) (abs_nonneg _)) a
    have b' : (1 : ℚ) * (1 / 2) ≤ |n'| := le_trans (mul_le_mul h1 (half hj) (by norm_num) (abs_nonneg _)) b
    have := mul_le_mul a' b' (by norm_num) (abs_nonneg _)
    refine le_trans (le_of_eq ?_) this
    rw [show (-1022 : ℤ) = -1020 + -2 by norm_num, ← two_zpow, show (2 : ℚ) ^ (-2 : ℤ) = 1 / 4 by norm_num]
    ring

/-- A rounded product divided by a number, rounded: `multiplier_err`. -/
theorem rel_quot {a c : ℚ} (ha : (2 : ℚ) ^ (-1022 : ℤ) ≤ a) (hc : 0 < c) (hq : (2 : ℚ) ^ (-1020 : ℤ) ≤ a / c) :
    Rel 3 (a / c) (Fmt.f64.fl (Fmt.f64.fl a / c)) := by
  have h := Fmt.multiplier_err Fmt.f64 (by decide) (is := a) (ws := 1) (os := c) (by rw [mul_one]; exact ha) hc (by
    rw [mul_one]
    refine le_trans (zpow_le_zpow_right₀ (by norm_num) ?_) hq
    decide)
  unfold Fmt.multiplier at h
  rw [mul_one] at h
  unfold Rel
  rw [abs_of_pos (lt_of_lt_of_le (by positivity) hq)]
  exact h

/-- A rounded product divided by a rounded product, rounded. -/
theorem rel_quot2 {a c : ℚ} (ha : (2 : ℚ) ^ (-1022 : ℤ) ≤ a) (hc : (2 : ℚ) ^ (-1022 : ℤ) ≤ c)
    (hq : (2 : ℚ) ^ (-1020 : ℤ) ≤ a / c) : Rel 5 (a / c) (Fmt.f64.fl (Fmt.f64.fl a / Fmt.f64.fl c)) := by
  have hc0 : 0 < c := lt_of_lt_of_le (by positivity) hc
  have hk := fl_normal (x := c) (Or.inr (by rw [abs_of_pos hc0]; exact hc))
  rw [abs_of_pos hc0] at hk
  obtain ⟨k1, k2⟩ := abs_le.mp hk
  obtain ⟨c', hc'⟩ : ∃ c', c' = Fmt.f64.fl c := ⟨_, rfl⟩
  rw [← hc'] at k1 k2 ⊢
  have hc'0 : 0 < c' := by
    have : c / 2 ^ 53 < c := div_lt_self hc0 (by norm_num)
    linarith
  have ha0 : 0 < a := lt_of_lt_of_le (by positivity) ha
  have hle : a / c ≤ a / c' * (1 + 1 / 2 ^ 53) := by
    rw [div_mul_eq_mul_div, div_le_div_iff₀ hc0 hc'0]
    have := mul_le_mul_of_nonneg_left (show c' ≤ c * (1 + 1 / 2 ^ 53) by linarith) ha0.le
    linarith
  have hge : a / c' * (1 - 1 / 2 ^ 53) ≤ a / c := by
    rw [div_mul_eq_mul_div, div_le_div_iff₀ hc'0 hc0]
    have := mul_le_mul_of_nonneg_left (show c * (1 - 1 / 2 ^ 53) ≤ c' by linarith) ha0.le
    linarith
  have q0 : 0 < a / c := div_pos ha0 hc0
  have q0' : 0 < a / c' := div_pos ha0 hc'0
  have h := Fmt.multiplier_err Fmt.f64 (by decide) (is := a) (ws := 1) (os := c') (by rw [mul_one]; exact ha) hc'0 (by
    rw [mul_one]
    have h1 : (2 : ℚ) ^ (Fmt.f64.emin + (Fmt.f64.p : ℤ)) ≤ 2 ^ (-1020 : ℤ) * (1 / 2) := by
      rw [show (1 : ℚ) / 2 = 2 ^ (-1 : ℤ) by norm_num, two_zpow]
      exact zpow_le_zpow_right₀ (by norm_num) (by decide)
    have h2 : a / c' * (1 + 1 / 2 ^ 53) ≤ a / c' * 2 := mul_le_mul_of_nonneg_left (by norm_num) q0'.le
    linarith)
  unfold Fmt.multiplier at h
  rw [mul_one] at h
  have h : |Fmt.f64.fl (Fmt.f64.fl a / c') - a / c'| ≤ a / c' * (3 / 2 ^ 53) := h
  unfold Rel
  rw [abs_of_pos q0]
  obtain ⟨p, hp⟩ : ∃ p, p = a / c := ⟨_, rfl⟩
  obtain ⟨p', hp'⟩ : ∃ p', p' = a / c' := ⟨_, rfl⟩
  rw [← hp] at hle hge q0 ⊢
  rw [← hp'] at hle hge q0' h
  obtain ⟨l, r⟩ := abs_le.mp h
  rw [abs_le]
  constructor <;> linarith

/-- The rounded product of a factor and an integer. -/
theorem rel_mul_int {m m' : ℚ} (hm : (2 : ℚ) ^ (-1020 : ℤ) ≤ |m|) {k : ℚ} (hk : 0 ≤ k ∧ k ≤ 5) (hr : Rel k m m') (n : ℤ) :
    Rel (k + 4) (m * n) (Fmt.f64.fl (m' * Fmt.f64.fl n)) := by
  have h1 := Rel.mul hr (rel_int n) ⟨hk.1, by linarith [hk.2]⟩ ⟨by norm_num, by norm_num⟩
  have h2 := h1.fl ⟨by linarith [hk.1], by linarith [hk.2]⟩
    (normal_mul hm hr ⟨hk.1, by linarith [hk.2]⟩ n (rel_int n) ⟨by norm_num, by norm_num⟩)
  exact h2.mono (by linarith)

/-- Any rounding. -/
theorem fl_any (x : ℚ) : |Fmt.f64.fl x - x| ≤ |x| / 2 ^ 53 + 1 / 2 ^ 60 := by
  refine le_trans (Fmt.fl_err Fmt.f64 x) (max_le ?_ ?_)
  · have : |x| / 2 ^ Fmt.f64.p = |x| / 2 ^ 53 := rfl
    rw [this]
    linarith [show (0 : ℚ) ≤ 1 / 2 ^ 60 by norm_num]
  · have h1 : (2 : ℚ) ^ Fmt.f64.emin ≤ 2 ^ (-(60 : ℤ)) := zpow_le_zpow_right₀ (by norm_num) (by decide)
    have e : (2 : ℚ) ^ (-(60 : ℤ)) = 1 / 2 ^ 60 := by rw [zpow_neg]; norm_num
    rw [e] at h1
    have : 0 ≤ |x| / 2 ^ 53 := by positivity
    have : (0 : ℚ) < 1 / 2 ^ 60 := by norm_num
    have : (0 : ℚ) < 2 ^ Fmt.f64.emin := by positivity
    linarith

/-- A sum of a rounded product and a zero point. -/
theorem zp_sum {A A' : ℚ} (h : Rel 9 A A') {z : ℚ} (hz : |z| ≤ 128) :
    |Fmt.f64.fl (z + A') - (z + A)| ≤ 1 / 2 ^ 49 * (|A| + 129) := by
  have h1 := fl_any (z + A')
  have h2 := h.size
  have h3 := abs_add_le z A'
  unfold Rel at h
  have h4 := abs_add_le (Fmt.f64.fl (z + A') - (z + A')) (A' - A)
  rw [show Fmt.f64.fl (z + A') - (z + A') + (A' - A) = Fmt.f64.fl (z + A') - (z + A) by ring] at h4
  have h0 := abs_nonneg A
  have h5 : |z + A'| / 2 ^ 53 ≤ (128 + |A| * (1 + 9 / 2 ^ 53)) / 2 ^ 53 :=
    div_le_div_of_nonneg_right (by linarith) (by norm_num)
  have h6 : (128 + |A| * (1 + 9 / 2 ^ 53)) / 2 ^ 53 + 1 / 2 ^ 60 + |A| * (9 / 2 ^ 53) ≤ 1 / 2 ^ 49 * (|A| + 129) := by
    linarith
  linarith

/-- A sum of two rounded products and a zero point. -/
theorem zp_sum2 {A A' B B' : ℚ} (hA : Rel 9 A A') (hB : Rel 9 B B') :
    |Fmt.f64.fl (Fmt.f64.fl (0 + A') + B') - (0 + A + B)| ≤ 1 / 2 ^ 49 * (|A| + |B| + 1) := by
  rw [zero_add, zero_add]
  have a1 := fl_any A'
  have a2 := hA.size
  have b2 := hB.size
  obtain ⟨a, ha⟩ : ∃ a, a = Fmt.f64.fl A' := ⟨_, rfl⟩
  rw [← ha] at a1 ⊢
  have c1 := fl_any (a + B')
  obtain ⟨c, hc⟩ : ∃ c, c = Fmt.f64.fl (a + B') := ⟨_, rfl⟩
  rw [← hc] at c1 ⊢
  unfold Rel at hA hB
  have h0 := abs_nonneg A
  have h0' := abs_nonneg B
  obtain ⟨p, hp⟩ : ∃ p, p = |A| := ⟨_, rfl⟩
  obtain ⟨q, hq⟩ : ∃ q, q = |B| := ⟨_, rfl⟩
  rw [← hp] at hA a2 h0 ⊢
  rw [← hq] at hB b2 h0' ⊢
  have e1 : |a - A| ≤ p * (11 / 2 ^ 53) + 1 / 2 ^ 60 := by
    have h := abs_add_le (a - A') (A' - A)
    rw [sub_add_sub_cancel] at h
    have : |A'| / 2 ^ 53 ≤ p * (1 + 9 / 2 ^ 53) / 2 ^ 53 := div_le_div_of_nonneg_right a2 (by norm_num)
    linarith
  have e2 : |a| ≤ p * 2 + 1 := by
    have h := abs_add_le (a - A) A
    rw [sub_add_cancel, ← hp] at h
    linarith
  have e3 : |a + B'| / 2 ^ 53 ≤ (p * 2 + 1 + q * 2) / 2 ^ 53 := by
    refine div_le_div_of_nonneg_right (le_trans (abs_add_le _ _) ?_) (by norm_num)
    have : q * (1 + 9 / 2 ^ 53) ≤ q * 2 := mul_le_mul_of_nonneg_left (by norm_num) h0'
    linarith
  have h := abs_add_le (c - (a + B')) ((a - A) + (B' - B))
  rw [show c - (a + B') + ((a - A) + (B' - B)) = c - (A + B) by ring] at h
  have h' := abs_add_le (a - A) (B' - B)
  linarith

theorem gate_round (F : Fmt) {i h k r b ra : NodeJ} {g : LSTMGate} (hg : LSTM.buildGate i h k r b ra = some g) :
    ∃ ks rs is hs ras, k.scale = some ks ∧ r.scale = some rs ∧ i.scale = some is ∧ h.scale = some hs ∧ ra.scale = some ras ∧
      LSTM.buildGate i h k r b ra (some F) =
        some { g with m1 := F.fl (F.fl (ks * is) / F.fl (hs * rs)), m2 := F.fl (F.fl (rs * hs) / ras) } := by
  unfold LSTM.buildGate at hg
  obtain ⟨k', e1, hg⟩ := Option.bind_eq_some_iff.mp hg
  obtain ⟨r', e2, hg⟩ := Option.bind_eq_some_iff.mp hg
  obtain ⟨b', e3, hg⟩ := Option.bind_eq_some_iff.mp hg
  obtain ⟨ks, e4, hg⟩ := Option.bind_eq_some_iff.mp hg
  obtain ⟨rs, e5, hg⟩ := Option.bind_eq_some_iff.mp hg
  obtain ⟨is, e6, hg⟩ := Option.bind_eq_some_iff.mp hg
  obtain ⟨hs, e7, hg⟩ := Option.bind_eq_some_iff.mp hg
  obtain ⟨ras, e8, hg⟩ := Option.bind_eq_some_iff.mp hg
  rw [Option.some.injEq] at hg
  subst hg
  refine ⟨ks, rs, is, hs, ras, e4, e5, e6, e7, e8, ?_⟩
  unfold LSTM.buildGate
  refine Keras.bind_of e1 ?_
  refine Keras.bind_of e2 ?_
  refine Keras.bind_of e3 ?_
  refine Keras.bind_of e4 ?_
  refine Keras.bind_of e5 ?_
  refine Keras.bind_of e6 ?_
  refine Keras.bind_of e7 ?_
  refine Keras.bind_of e8 ?_
  rfl

theorem inScale_of {op : OpJ} {i : ℕ} {n : NodeJ} {s : ℚ} (h : op.inputs[i]? = some n) (hs : n.scale = some s) :
    inScale op i = s := by
  unfold inScale
  rw [h, Option.bind_some, hs, Option.getD_some]

/-- A gate with the factors the float arithmetic gives. -/
def roundGate (F : Fmt) (sIn sH sK sU sA : ℚ) (g : LSTMGate) : LSTMGate :=
  { g with m1 := F.fl (F.fl (sK * sIn) / F.fl (sH * sU)), m2 := F.fl (F.fl (sU * sH) / sA) }

/-- A layer with the factors the float arithmetic gives. -/
def roundLayer (F : Fmt) (sIn : ℚ) (sK sU sA : ℕ → ℚ) (sH sC sI sG sO sS : ℚ) (L : LSTM) : LSTM :=
  { L with
    gi := roundGate F sIn sH (sK 0) (sU 0) (sA 0) L.gi
    gf := roundGate F sIn sH (sK 1) (sU 1) (sA 1) L.gf
    gc := roundGate F sIn sH (sK 2) (sU 2) (sA 2) L.gc
    go := roundGate F sIn sH (sK 3) (sU 3) (sA 3) L.go
    m4 := F.fl (F.fl (sI * sG) / sC)
    m5 := F.fl (F.fl (sO * sS) / sH)
    rnd := some F }

/-- The factors of a loaded gate. -/
theorem gate_factors {i h k r b ra : NodeJ} {g : LSTMGate} (hg : LSTM.buildGate i h k r b ra = some g) :
    ∃ ks rs is hs ras, k.scale = some ks ∧ r.scale = some rs ∧ i.scale = some is ∧ h.scale = some hs ∧ ra.scale = some ras ∧
      g.m1 = ks * is / (hs * rs) ∧ g.m2 = rs * hs / ras := by
  unfold LSTM.buildGate at hg
  obtain ⟨k', e1, hg⟩ := Option.bind_eq_some_iff.mp hg
  obtain ⟨r', e2, hg⟩ := Option.bind_eq_some_iff.mp hg
  obtain ⟨b', e3, hg⟩ := Option.bind_eq_some_iff.mp hg
  obtain ⟨ks, e4, hg⟩ := Option.bind_eq_some_iff.mp hg
  obtain ⟨rs, e5, hg⟩ := Option.bind_eq_some_iff.mp hg
  obtain ⟨is, e6, hg⟩ := Option.bind_eq_some_iff.mp hg
  obtain ⟨hs, e7, hg⟩ := Option.bind_eq_some_iff.mp hg
  obtain ⟨ras, e8, hg⟩ := Option.bind_eq_some_iff.mp hg
  rw [Option.some.injEq] at hg
  subst hg
  exact ⟨ks, rs, is, hs, ras, e4, e5, e6, e7, e8, rfl, rfl⟩

/-- The factors of a loaded layer are quotients of products of the scales of the file. -/
theorem fromModel_factors {op : OpJ} {L : LSTM} (h : LSTM.fromModel op = some L) {sIn' : ℚ} {sK' sU' sA' : ℕ → ℚ}
    {sH' sC' sI' sF' sG' sO' sS' : ℚ} (hs : LstmScales op sIn' sK' sU' sA' sH' sC' sI' sF' sG' sO' sS') :
    (∀ p ∈ [(0, L.gi), (1, L.gf), (2, L.gc), (3, L.go)], p.2.m1 = sK' p.1 * sIn' / (sH' * sU' p.1) ∧
      p.2.m2 = sU' p.1 * sH' / sA' p.1) ∧ L.m3 = sF' ∧ L.m4 = sI' * sG' / sC' ∧ L.m5 = sO' * sS' / sH' ∧
      L.nFeatures = L.gi.kernel.length ∧ L.nCells = (L.gi.kernel.getD 0 []).length := by
  unfold LSTM.fromModel at h
  obtain ⟨n0, e_n0, h⟩ := Option.bind_eq_some_iff.mp h
  obtain ⟨o, e_o, h⟩ := Option.bind_eq_some_iff.mp h
  obtain ⟨rs, e_rs, h⟩ := Option.bind_eq_some_iff.mp h
  obtain ⟨n1, e_n1, h⟩ := Option.bind_eq_some_iff.mp h
  obtain ⟨n5, e_n5, h⟩ := Option.bind_eq_some_iff.mp h
  obtain ⟨n9, e_n9, h⟩ := Option.bind_eq_some_iff.mp h
  obtain ⟨n17, e_n17, h⟩ := Option.bind_eq_some_iff.mp h
  obtain ⟨g0, e_g0, h⟩ := Option.bind_eq_some_iff.mp h
  obtain ⟨n2, e_n2, h⟩ := Option.bind_eq_some_iff.mp h
  obtain ⟨n6, e_n6, h⟩ := Option.bind_eq_some_iff.mp h
  obtain ⟨n10, e_n10, h⟩ := Option.bind_eq_some_iff.mp h
  obtain ⟨n18, e_n18, h⟩ := Option.bind_eq_some_iff.mp h
  obtain ⟨g1, e_g1, h⟩ := Option.bind_eq_some_iff.mp h
  obtain ⟨n3, e_n3, h⟩ := Option.bind_eq_some_iff.mp h
  obtain ⟨n7, e_n7, h⟩ := Option.bind_eq_some_iff.mp h
  obtain ⟨n11, e_n11, h⟩ := Option.bind_eq_some_iff.mp h
  obtain ⟨n19, e_n19, h⟩ := Option.bind_eq_some_iff.mp h
  obtain ⟨g2, e_g2, h⟩ := Option.bind_eq_some_iff.mp h
  obtain ⟨n4, e_n4, h⟩ := Option.bind_eq_some_iff.mp h
  obtain ⟨n8, e_n8, h⟩ := Option.bind_eq_some_iff.mp h
  obtain ⟨n12, e_n12, h⟩ := Option.bind_eq_some_iff.mp h
  obtain ⟨n20, e_n20, h⟩ := Option.bind_eq_some_iff.mp h
  obtain ⟨g3, e_g3, h⟩ := Option.bind_eq_some_iff.mp h
  obtain ⟨n21, e_n21, h⟩ := Option.bind_eq_some_iff.mp h
  obtain ⟨n22, e_n22, h⟩ := Option.bind_eq_some_iff.mp h
  obtain ⟨n23, e_n23, h⟩ := Option.bind_eq_some_iff.mp h
  obtain ⟨n24, e_n24, h⟩ := Option.bind_eq_some_iff.mp h
  obtain ⟨n25, e_n25, h⟩ := Option.bind_eq_some_iff.mp h
  obtain ⟨n26, e_n26, h⟩ := Option.bind_eq_some_iff.mp h
  obtain ⟨n27, e_n27, h⟩ := Option.bind_eq_some_iff.mp h
  obtain ⟨n28, e_n28, h⟩ := Option.bind_eq_some_iff.mp h
  obtain ⟨n29, e_n29, h⟩ := Option.bind_eq_some_iff.mp h
  obtain ⟨n30, e_n30, h⟩ := Option.bind_eq_some_iff.mp h
  obtain ⟨n31, e_n31, h⟩ := Option.bind_eq_some_iff.mp h
  obtain ⟨sF, e_sF, h⟩ := Option.bind_eq_some_iff.mp h
  obtain ⟨sI, e_sI, h⟩ := Option.bind_eq_some_iff.mp h
  obtain ⟨sG, e_sG, h⟩ := Option.bind_eq_some_iff.mp h
  obtain ⟨sC, e_sC, h⟩ := Option.bind_eq_some_iff.mp h
  obtain ⟨sO, e_sO, h⟩ := Option.bind_eq_some_iff.mp h
  obtain ⟨sS, e_sS, h⟩ := Option.bind_eq_some_iff.mp h
  obtain ⟨sH, e_sH, h⟩ := Option.bind_eq_some_iff.mp h
  obtain ⟨a3, e_a3, h⟩ := Option.bind_eq_some_iff.mp h
  obtain ⟨a4, e_a4, h⟩ := Option.bind_eq_some_iff.mp h
  obtain ⟨a5, e_a5, h⟩ := Option.bind_eq_some_iff.mp h
  obtain ⟨n13, e_n13, h⟩ := Option.bind_eq_some_iff.mp h
  obtain ⟨d13, e_d13, h⟩ := Option.bind_eq_some_iff.mp h
  obtain ⟨t0, e_t0, h⟩ := Option.bind_eq_some_iff.mp h
  obtain ⟨t1, e_t1, h⟩ := Option.bind_eq_some_iff.mp h
  obtain ⟨t2, e_t2, h⟩ := Option.bind_eq_some_iff.mp h
  obtain ⟨t3, e_t3, h⟩ := Option.bind_eq_some_iff.mp h
  obtain ⟨t4, e_t4, h⟩ := Option.bind_eq_some_iff.mp h
  obtain ⟨n17', e_n17', h⟩ := Option.bind_eq_some_iff.mp h
  obtain ⟨dA, e_dA, h⟩ := Option.bind_eq_some_iff.mp h
  obtain ⟨dS, e_dS, h⟩ := Option.bind_eq_some_iff.mp h
  obtain ⟨dH, e_dH, h⟩ := Option.bind_eq_some_iff.mp h
  rw [Option.some.injEq] at h
  subst h
  have eH : sH' = sH := by
    rw [← hs.hidden]
    unfold outScale
    rw [← List.head?_eq_getElem?, e_o, Option.bind_some, e_sH, Option.getD_some]
  have eC : sC' = sC := by rw [← hs.cell]; exact inScale_of e_n21 e_sC
  have eI : sI' = sI := by rw [← hs.inputGate]; exact inScale_of e_n23 e_sI
  have eG : sG' = sG := by rw [← hs.candidate]; exact inScale_of e_n27 e_sG
  have eO : sO' = sO := by rw [← hs.outputGate]; exact inScale_of e_n29 e_sO
  have eS : sS' = sS := by rw [← hs.squashed]; exact inScale_of e_n31 e_sS
  have eF : sF' = sF := by rw [← hs.forgetGate]; exact inScale_of e_n25 e_sF
  have gate : ∀ (i : ℕ) (hi : i < 4) (nk nr nb na : NodeJ) (g : LSTMGate), op.inputs[1 + i]? = some nk → op.inputs[5 + i]? = some nr →
      op.inputs[17 + i]? = some na → LSTM.buildGate n0 o nk nr nb na = some g →
      g.m1 = sK' i * sIn' / (sH' * sU' i) ∧ g.m2 = sU' i * sH' / sA' i := by
    intro i hi nk nr nb na g h1 h2 h3 hg
    obtain ⟨ks, rs, is, hs', ras, c1, c2, c3, c4, c5, c6⟩ := gate_factors hg
    rw [e_sH, Option.some.injEq] at c4
    rw [← hs.input, ← hs.kernel i hi, ← hs.recurrent i hi, ← hs.sum i hi, inScale_of e_n0 c3, inScale_of h1 c1,
      inScale_of h2 c2, inScale_of h3 c5, eH, c4]
    exact c6
  have f_g0 := gate 0 (by omega) _ _ _ _ _ e_n1 e_n5 e_n17 e_g0
  have f_g1 := gate 1 (by omega) _ _ _ _ _ e_n2 e_n6 e_n18 e_g1
  have f_g2 := gate 2 (by omega) _ _ _ _ _ e_n3 e_n7 e_n19 e_g2
  have f_g3 := gate 3 (by omega) _ _ _ _ _ e_n4 e_n8 e_n20 e_g3
  refine ⟨?_, eF.symm, ?_, ?_, rfl, rfl⟩
  · intro p hp
    simp only [List.mem_cons, List.not_mem_nil, or_false] at hp
    rcases hp with rfl | rfl | rfl | rfl
    exacts [f_g0, f_g1, f_g2, f_g3]
  · rw [eI, eG, eC]; rfl
  · rw [eO, eS, eH]; rfl

/-- Loading in a float format, of an operator that loads in exact arithmetic. -/
theorem fromModel_round (F : Fmt) {op : OpJ} {L : LSTM} (h : LSTM.fromModel op = some L) {sIn' : ℚ} {sK' sU' sA' : ℕ → ℚ}
    {sH' sC' sI' sF' sG' sO' sS' : ℚ} (hs : LstmScales op sIn' sK' sU' sA' sH' sC' sI' sF' sG' sO' sS') {p4 p5 : Mult}
    (q4 : floatingApprox (F.fl (F.fl (sI' * sG') / sC')) = some p4)
    (q5 : floatingApprox (F.fl (F.fl (sO' * sS') / sH')) = some p5) :
    LSTM.fromModel op (some F) = some (roundLayer F sIn' sK' sU' sA' sH' sC' sI' sG' sO' sS' L) := by
  unfold LSTM.fromModel at h
  obtain ⟨n0, e_n0, h⟩ := Option.bind_eq_some_iff.mp h
  obtain ⟨o, e_o, h⟩ := Option.bind_eq_some_iff.mp h
  obtain ⟨rs, e_rs, h⟩ := Option.bind_eq_some_iff.mp h
  obtain ⟨n1, e_n1, h⟩ := Option.bind_eq_some_iff.mp h
  obtain ⟨n5, e_n5, h⟩ := Option.bind_eq_some_iff.mp h
  obtain ⟨n9, e_n9, h⟩ := Option.bind_eq_some_iff.mp h
  obtain ⟨n17, e_n17, h⟩ := Option.bind_eq_some_iff.mp h
  obtain ⟨g0, e_g0, h⟩ := Option.bind_eq_some_iff.mp h
  obtain ⟨n2, e_n2, h⟩ := Option.bind_eq_some_iff.mp h
  obtain ⟨n6, e_n6, h⟩ := Option.bind_eq_some_iff.mp h
  obtain ⟨n10, e_n10, h⟩ := Option.bind_eq_some_iff.mp h
  obtain ⟨n18, e_n18, h⟩ := Option.bind_eq_some_iff.mp h
  obtain ⟨g1, e_g1, h⟩ := Option.bind_eq_some_iff.mp h
  obtain ⟨n3, e_n3, h⟩ := Option.bind_eq_some_iff.mp h
  obtain ⟨n7, e_n7, h⟩ := Option.bind_eq_some_iff.mp h
  obtain ⟨n11, e_n11, h⟩ := Option.bind_eq_some_iff.mp h
  obtain ⟨n19, e_n19, h⟩ := Option.bind_eq_some_iff.mp h
  obtain ⟨g2, e_g2, h⟩ := Option.bind_eq_some_iff.mp h
  obtain ⟨n4, e_n4, h⟩ := Option.bind_eq_some_iff.mp h
  obtain ⟨n8, e_n8, h⟩ := Option.bind_eq_some_iff.mp h
  obtain ⟨n12, e_n12, h⟩ := Option.bind_eq_some_iff.mp h
  obtain ⟨n20, e_n20, h⟩ := Option.bind_eq_some_iff.mp h
  obtain ⟨g3, e_g3, h⟩ := Option.bind_eq_some_iff.mp h
  obtain ⟨n21, e_n21, h⟩ := Option.bind_eq_some_iff.mp h
  obtain ⟨n22, e_n22, h⟩ := Option.bind_eq_some_iff.mp h
  obtain ⟨n23, e_n23, h⟩ := Option.bind_eq_some_iff.mp h
  obtain ⟨n24, e_n24, h⟩ := Option.bind_eq_some_iff.mp h
  obtain ⟨n25, e_n25, h⟩ := Option.bind_eq_some_iff.mp h
  obtain ⟨n26, e_n26, h⟩ := Option.bind_eq_some_iff.mp h
  obtain ⟨n27, e_n27, h⟩ := Option.bind_eq_some_iff.mp h
  obtain ⟨n28, e_n28, h⟩ := Option.bind_eq_some_iff.mp h
  obtain ⟨n29, e_n29, h⟩ := Option.bind_eq_some_iff.mp h
  obtain ⟨n30, e_n30, h⟩ := Option.bind_eq_some_iff.mp h
  obtain ⟨n31, e_n31, h⟩ := Option.bind_eq_some_iff.mp h
  obtain ⟨sF, e_sF, h⟩ := Option.bind_eq_some_iff.mp h
  obtain ⟨sI, e_sI, h⟩ := Option.bind_eq_some_iff.mp h
  obtain ⟨sG, e_sG, h⟩ := Option.bind_eq_some_iff.mp h
  obtain ⟨sC, e_sC, h⟩ := Option.bind_eq_some_iff.mp h
  obtain ⟨sO, e_sO, h⟩ := Option.bind_eq_some_iff.mp h
  obtain ⟨sS, e_sS, h⟩ := Option.bind_eq_some_iff.mp h
  obtain ⟨sH, e_sH, h⟩ := Option.bind_eq_some_iff.mp h
  obtain ⟨a3, e_a3, h⟩ := Option.bind_eq_some_iff.mp h
  obtain ⟨a4, e_a4, h⟩ := Option.bind_eq_some_iff.mp h
  obtain ⟨a5, e_a5, h⟩ := Option.bind_eq_some_iff.mp h
  obtain ⟨n13, e_n13, h⟩ := Option.bind_eq_some_iff.mp h
  obtain ⟨d13, e_d13, h⟩ := Option.bind_eq_some_iff.mp h
  obtain ⟨t0, e_t0, h⟩ := Option.bind_eq_some_iff.mp h
  obtain ⟨t1, e_t1, h⟩ := Option.bind_eq_some_iff.mp h
  obtain ⟨t2, e_t2, h⟩ := Option.bind_eq_some_iff.mp h
  obtain ⟨t3, e_t3, h⟩ := Option.bind_eq_some_iff.mp h
  obtain ⟨t4, e_t4, h⟩ := Option.bind_eq_some_iff.mp h
  obtain ⟨n17', e_n17', h⟩ := Option.bind_eq_some_iff.mp h
  obtain ⟨dA, e_dA, h⟩ := Option.bind_eq_some_iff.mp h
  obtain ⟨dS, e_dS, h⟩ := Option.bind_eq_some_iff.mp h
  obtain ⟨dH, e_dH, h⟩ := Option.bind_eq_some_iff.mp h
  rw [Option.some.injEq] at h
  subst h
  have eH : sH' = sH := by
    rw [← hs.hidden]
    unfold outScale
    rw [← List.head?_eq_getElem?, e_o, Option.bind_some, e_sH, Option.getD_some]
  have eC : sC' = sC := by rw [← hs.cell]; exact inScale_of e_n21 e_sC
  have eI : sI' = sI := by rw [← hs.inputGate]; exact inScale_of e_n23 e_sI
  have eG : sG' = sG := by rw [← hs.candidate]; exact inScale_of e_n27 e_sG
  have eO : sO' = sO := by rw [← hs.outputGate]; exact inScale_of e_n29 e_sO
  have eS : sS' = sS := by rw [← hs.squashed]; exact inScale_of e_n31 e_sS
  have gate : ∀ (i : ℕ) (hi : i < 4) (nk nr nb na : NodeJ) (g : LSTMGate), op.inputs[1 + i]? = some nk → op.inputs[5 + i]? = some nr →
      op.inputs[17 + i]? = some na → LSTM.buildGate n0 o nk nr nb na = some g →
      LSTM.buildGate n0 o nk nr nb na (some F) = some (roundGate F sIn' sH' (sK' i) (sU' i) (sA' i) g) := by
    intro i hi nk nr nb na g h1 h2 h3 hg
    obtain ⟨ks, rs, is, hs', ras, c1, c2, c3, c4, c5, c6⟩ := gate_round F hg
    rw [e_sH, Option.some.injEq] at c4
    rw [c6, ← hs.input, ← hs.kernel i hi, ← hs.recurrent i hi, ← hs.sum i hi, inScale_of e_n0 c3, inScale_of h1 c1,
      inScale_of h2 c2, inScale_of h3 c5, eH, c4]
    rfl
  have f_g0 := gate 0 (by omega) _ _ _ _ _ e_n1 e_n5 e_n17 e_g0
  have f_g1 := gate 1 (by omega) _ _ _ _ _ e_n2 e_n6 e_n18 e_g1
  have f_g2 := gate 2 (by omega) _ _ _ _ _ e_n3 e_n7 e_n19 e_g2
  have f_g3 := gate 3 (by omega) _ _ _ _ _ e_n4 e_n8 e_n20 e_g3
  rw [eI, eG, eC] at q4
  rw [eO, eS, eH] at q5
  unfold LSTM.fromModel
  refine Keras.bind_of e_n0 ?_
  refine Keras.bind_of e_o ?_
  refine Keras.bind_of e_rs ?_
  refine Keras.bind_of e_n1 ?_
  refine Keras.bind_of e_n5 ?_
  refine Keras.bind_of e_n9 ?_
  refine Keras.bind_of e_n17 ?_
  refine Keras.bind_of f_g0 ?_
  refine Keras.bind_of e_n2 ?_
  refine Keras.bind_of e_n6 ?_
  refine Keras.bind_of e_n10 ?_
  refine Keras.bind_of e_n18 ?_
  refine Keras.bind_of f_g1 ?_
  refine Keras.bind_of e_n3 ?_
  refine Keras.bind_of e_n7 ?_
  refine Keras.bind_of e_n11 ?_
  refine Keras.bind_of e_n19 ?_
  refine Keras.bind_of f_g2 ?_
  refine Keras.bind_of e_n4 ?_
  refine Keras.bind_of e_n8 ?_
  refine Keras.bind_of e_n12 ?_
  refine Keras.bind_of e_n20 ?_
  refine Keras.bind_of f_g3 ?_
  refine Keras.bind_of e_n21 ?_
  refine Keras.bind_of e_n22 ?_
  refine Keras.bind_of e_n23 ?_
  refine Keras.bind_of e_n24 ?_
  refine Keras.bind_of e_n25 ?_
  refine Keras.bind_of e_n26 ?_
  refine Keras.bind_of e_n27 ?_
  refine Keras.bind_of e_n28 ?_
  refine Keras.bind_of e_n29 ?_
  refine Keras.bind_of e_n30 ?_
  refine Keras.bind_of e_n31 ?_
  refine Keras.bind_of e_sF ?_
  refine Keras.bind_of e_sI ?_
  refine Keras.bind_of e_sG ?_
  refine Keras.bind_of e_sC ?_
  refine Keras.bind_of e_sO ?_
  refine Keras.bind_of e_sS ?_
  refine Keras.bind_of e_sH ?_
  refine Keras.bind_of e_a3 ?_
  refine Keras.bind_of (a := p4) (by exact q4) ?_
  refine Keras.bind_of (a := p5) (by exact q5) ?_
  refine Keras.bind_of e_n13 ?_
  refine Keras.bind_of e_d13 ?_
  refine Keras.bind_of e_t0 ?_
  refine Keras.bind_of e_t1 ?_
  refine Keras.bind_of e_t2 ?_
  refine Keras.bind_of e_t3 ?_
  refine Keras.bind_of e_t4 ?_
  refine Keras.bind_of e_n17' ?_
  refine Keras.bind_of e_dA ?_
  refine Keras.bind_of e_dS ?_
  refine Keras.bind_of e_dH ?_
  rw [eI, eG, eC, eO, eS]
  unfold roundLayer
  rw [eH] at *
  rfl

theorem zp_le {z : ℤ} (h : Code (-128) 127 z) : |(z : ℚ)| ≤ 128 := by
  obtain ⟨h1, h2⟩ := h
  rw [abs_le]
  constructor
  · exact_mod_cast h1
  · have : (z : ℚ) ≤ 127 := by exact_mod_cast h2
    linarith

theorem nine {A x : ℚ} (h : Rel 9 A x) : |x - A| ≤ 1 / 2 ^ 49 * |A| := by
  unfold Rel at h
  have := abs_nonneg A
  linarith

theorem gate_near {L' : LSTM} (hr : L'.rnd = some Fmt.f64) {sIn sH sK sU sA : ℚ} {g : LSTMGate}
    (m1 : g.m1 = sK * sIn / (sH * sU)) (m2 : g.m2 = sU * sH / sA) (hA : 0 < sA) (hz : |(g.raZp : ℚ)| ≤ 128)
    (f1 : (2 : ℚ) ^ (-1022 : ℤ) ≤ sK * sIn) (f2 : (2 : ℚ) ^ (-1022 : ℤ) ≤ sU * sH)
    (f3 : (2 : ℚ) ^ (-1020 : ℤ) ≤ sK * sIn / (sH * sU)) (f4 : (2 : ℚ) ^ (-1020 : ℤ) ≤ sU * sH / sA) :
    GateNear (1 / 2 ^ 49) L' g (roundGate Fmt.f64 sIn sH sK sU sA g) where
  kernel := rfl
  recurrent := rfl
  bias := rfl
  raZp := rfl
  first := by
    intro n
    have q := rel_quot2 f1 (c := sH * sU) (by rw [mul_comm]; exact f2) f3
    have r := nine ((rel_mul_int (by rw [abs_of_pos (lt_of_lt_of_le (by positivity) f3)]; exact f3) ⟨by norm_num, le_rfl⟩ q n).mono
      (by norm_num : (5 : ℚ) + 4 ≤ 9))
    have t := (abs_trunc_sub_lt (Fmt.f64.fl (Fmt.f64.fl (Fmt.f64.fl (sK * sIn) / Fmt.f64.fl (sH * sU)) * Fmt.f64.fl n))).le
    have := LstmAcc.abs_add3 t r
    have e : L'.firstVal (roundGate Fmt.f64 sIn sH sK sU sA g) n =
        trunc (Fmt.f64.fl (Fmt.f64.fl (Fmt.f64.fl (sK * sIn) / Fmt.f64.fl (sH * sU)) * Fmt.f64.fl n)) := by
      unfold LSTM.firstVal LSTM.fl
      rw [hr]; rfl
    rw [e, m1]
    refine le_trans this ?_
    linarith [show (0 : ℚ) ≤ 1 / 2 ^ 49 by norm_num]
  sum := by
    intro n
    have q := rel_quot f2 hA f4
    have r := (rel_mul_int (by rw [abs_of_pos (lt_of_lt_of_le (by positivity) f4)]; exact f4) ⟨by norm_num, by norm_num⟩ q n).mono
      (by norm_num : (3 : ℚ) + 4 ≤ 9)
    have z := zp_sum r hz
    refine ⟨_, ?_, by rw [m2, mul_comm (n : ℚ), add_comm _ (g.raZp : ℚ)]; exact z⟩
    unfold LSTM.sumVal LSTM.fl
    rw [hr]
    show trunc (clip _ _ (Fmt.f64.fl (Fmt.f64.fl (Fmt.f64.fl n * Fmt.f64.fl (Fmt.f64.fl (sU * sH) / sA)) + g.raZp))) = _
    rw [mul_comm (Fmt.f64.fl n), add_comm _ (g.raZp : ℚ)]

/-- `m3 · f · c` in the order of the code. -/
theorem forget_near {m : ℚ} (hm : (2 : ℚ) ^ (-1020 : ℤ) ≤ m) (x y : ℤ) :
    Rel 9 (m * x * y) (Fmt.f64.fl (Fmt.f64.fl (m * Fmt.f64.fl x) * Fmt.f64.fl y)) := by
  have hm' : (2 : ℚ) ^ (-1020 : ℤ) ≤ |m| := by rw [abs_of_pos (lt_of_lt_of_le (by positivity) hm)]; exact hm
  have r := rel_mul_int hm' ⟨le_rfl, by norm_num⟩ (Rel.refl m) x
  rw [zero_add] at r
  rcases int_cases x with h0 | h1
  · have : x = 0 := by exact_mod_cast h0
    subst this
    unfold Rel at r ⊢
    simp only [Int.cast_zero, mul_zero, zero_mul, abs_zero, Fmt.fl_zero, sub_zero, le_refl]
  · have hmx : (2 : ℚ) ^ (-1020 : ℤ) ≤ |m * x| := by
      rw [abs_mul]
      have := mul_le_mul hm' h1 (by norm_num) (abs_nonneg _)
      rw [mul_one] at this
      exact this
    exact (rel_mul_int hmx ⟨by norm_num, by norm_num⟩ r y).mono (by norm_num)

/-- The layer in float64 against the layer in exact arithmetic. -/
theorem layer_near {ext : Ext} {l : KLSTM} {zIn : ℤ} {L : LSTM} {b : LstmBudget}
    (hr : LstmCodes ext l b zIn L)
    (hf : LstmFactors b) (hz : ∀ z ∈ [L.gi.raZp, L.gf.raZp, L.gc.raZp, L.go.raZp, L.hiddenZp], Code (-128) 127 z) :
    LstmNear (1 / 2 ^ 49) L (roundLayer Fmt.f64 b.sIn b.sK b.sU b.sA b.sH b.sC (b.sT 0) (b.sT 2) (b.sT 3) b.sS L) where
  cells := rfl
  features := rfl
  sequences := rfl
  zps := ⟨rfl, rfl⟩
  dtypes := ⟨rfl, rfl, rfl⟩
  tables := ⟨rfl, rfl, rfl, rfl, rfl⟩
  gi := gate_near rfl hr.input.m1 hr.input.m2 hr.input.posA (zp_le (hz _ (by simp))) (hf.kernel 0 (by omega)) (hf.recurrent 0 (by omega))
    (hf.first 0 (by omega)) (hf.second 0 (by omega))
  gf := gate_near rfl hr.forget.m1 hr.forget.m2 hr.forget.posA (zp_le (hz _ (by simp))) (hf.kernel 1 (by omega)) (hf.recurrent 1 (by omega))
    (hf.first 1 (by omega)) (hf.second 1 (by omega))
  gc := gate_near rfl hr.candidate.m1 hr.candidate.m2 hr.candidate.posA (zp_le (hz _ (by simp))) (hf.kernel 2 (by omega)) (hf.recurrent 2 (by omega))
    (hf.first 2 (by omega)) (hf.second 2 (by omega))
  go := gate_near rfl hr.output.m1 hr.output.m2 hr.output.posA (zp_le (hz _ (by simp))) (hf.kernel 3 (by omega)) (hf.recurrent 3 (by omega))
    (hf.first 3 (by omega)) (hf.second 3 (by omega))
  cell := by
    intro f c i g
    have a := forget_near hf.forget.1 (f - L.forgetGateZp) (c - L.cellZp)
    have q := rel_quot hf.gates hr.posC hf.cell.1
    have r := (rel_mul_int (by rw [abs_of_pos (lt_of_lt_of_le (by positivity) hf.cell.1)]; exact hf.cell.1) ⟨by norm_num, by norm_num⟩ q
      ((i - L.inputGateZp) * (g - L.cellGateZp))).mono (by norm_num : (3 : ℚ) + 4 ≤ 9)
    have z := zp_sum2 a r
    refine ⟨_, rfl, ?_⟩
    have e : L.cellZp = 0 := hr.cellZp
    show |Fmt.f64.fl (Fmt.f64.fl (L.cellZp + Fmt.f64.fl (Fmt.f64.fl (L.m3 * Fmt.f64.fl ((f : ℚ) - L.forgetGateZp)) * Fmt.f64.fl ((c : ℚ) - L.cellZp)))
      + Fmt.f64.fl (Fmt.f64.fl (Fmt.f64.fl (b.sT 0 * b.sT 2) / b.sC) * Fmt.f64.fl (((i : ℚ) - L.inputGateZp) * ((g : ℚ) - L.cellGateZp)))) - _| ≤ _
    rw [hr.m3, hr.m4]
    push_cast at z
    rw [e] at z ⊢
    push_cast at z ⊢
    exact z
  hidden := by
    intro o a
    have q := rel_quot hf.output hr.posH hf.hidden.1
    have r := (rel_mul_int (by rw [abs_of_pos (lt_of_lt_of_le (by positivity) hf.hidden.1)]; exact hf.hidden.1) ⟨by norm_num, by norm_num⟩ q
      ((o - L.outputGateZp) * (a - L.cellActZp))).mono (by norm_num : (3 : ℚ) + 4 ≤ 9)
    have z := zp_sum r (zp_le (hz L.hiddenZp (by simp)))
    refine ⟨_, rfl, ?_⟩
    show |Fmt.f64.fl (L.hiddenZp + Fmt.f64.fl (Fmt.f64.fl (Fmt.f64.fl (b.sT 3 * b.sS) / b.sH) *
      Fmt.f64.fl (((o : ℚ) - L.outputGateZp) * ((a : ℚ) - L.cellActZp)))) - _| ≤ _
    rw [hr.m5]
    push_cast at z
    exact z

/-- The multipliers of the layer can be built in float64 too. -/
theorem mult_some {a c : ℚ} (ha : (2 : ℚ) ^ (-1022 : ℤ) ≤ a) (hc : 0 < c) (hq : (2 : ℚ) ^ (-1020 : ℤ) ≤ a / c)
    (hq' : a / c ≤ 2 ^ 29) : ∃ p, floatingApprox (Fmt.f64.fl (Fmt.f64.fl a / c)) = some p := by
  have r := rel_quot ha hc hq
  have h0 : 0 < a / c := lt_of_lt_of_le (by positivity) hq
  unfold Rel at r
  rw [abs_of_pos h0] at r
  obtain ⟨r1, r2⟩ := abs_le.mp r
  refine Option.isSome_iff_exists.mp ((C68_build_iff ?_).mpr ?_)
  · linarith
  · have : a / c * (3 / 2 ^ 53) ≤ 2 ^ 29 * (3 / 2 ^ 53) := mul_le_mul_of_nonneg_right hq' (by norm_num)
    have : (2 : ℚ) ^ 29 + 2 ^ 29 * (3 / 2 ^ 53) < 2 ^ 30 * (1 - 1 / 2 ^ 32) := by norm_num
    linarith

end LstmF64
end Verif
