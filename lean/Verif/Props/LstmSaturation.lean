import Verif.Props.LSTM
import Verif.Props.FullyConnected
import Verif.Lemmas.Accuracy

/-!
# C55 without representability hypotheses: what saturation does to one LSTM step
-/

namespace Verif
open Spec

/-- Truncating and clipping a number `x` gives a code that denotes `s·(x − z)`, saturated, up to less than one step. -/
theorem clip_trunc_saturates {lo hi z : ℤ} (hlh : lo ≤ hi) {s : ℚ} (hs : 0 < s) (x : ℚ) :
    |real z s (clip lo hi (trunc x)) - max (real z s lo) (min (real z s hi) (s * (x - z)))| < s := by
  have h := clip_lipschitz hlh (trunc x) x _ (le_refl |((trunc x : ℤ) : ℚ) - x|)
  have e : max (real z s lo) (min (real z s hi) (s * (x - z))) = s * (max (lo : ℚ) (min (hi : ℚ) x) - z) := by
    unfold real
    rw [← mul_min_of_nonneg _ _ hs.le, ← mul_max_of_nonneg _ _ hs.le, min_sub_sub_right, max_sub_sub_right]
  rw [e]
  unfold real
  have e2 : s * (((clip lo hi (trunc x) : ℤ) : ℚ) - z) - s * (max (lo : ℚ) (min (hi : ℚ) x) - z) =
      s * (((clip lo hi (trunc x) : ℤ) : ℚ) - max (lo : ℚ) (min (hi : ℚ) x)) := by ring
  rw [e2, abs_mul, abs_of_pos hs]
  calc s * _ < s * 1 := mul_lt_mul_of_pos_left (lt_of_le_of_lt h (abs_trunc_sub_lt x)) hs
    _ = s := mul_one _

/-- The same if the number is clipped before it is truncated. -/
theorem trunc_clip_saturates {lo hi z : ℤ} (hlh : lo ≤ hi) {s : ℚ} (hs : 0 < s) (x : ℚ) :
    |real z s (trunc (clip (lo : ℚ) (hi : ℚ) x)) - max (real z s lo) (min (real z s hi) (s * (x - z)))| < s := by
  have e : max (real z s lo) (min (real z s hi) (s * (x - z))) = s * (clip (lo : ℚ) (hi : ℚ) x - z) := by
    have hlh' : (lo : ℚ) ≤ hi := by exact_mod_cast hlh
    have : clip (lo : ℚ) (hi : ℚ) x = max (lo : ℚ) (min (hi : ℚ) x) := by
      unfold clip
      rw [min_comm (hi : ℚ) x, max_min_distrib_left, max_eq_right hlh', max_comm, min_comm]
    rw [this]
    unfold real
    rw [← mul_min_of_nonneg _ _ hs.le, ← mul_max_of_nonneg _ _ hs.le, min_sub_sub_right, max_sub_sub_right]
  rw [e]
  unfold real
  have e2 : s * (((trunc (clip (lo : ℚ) (hi : ℚ) x) : ℤ) : ℚ) - z) - s * (clip (lo : ℚ) (hi : ℚ) x - z) =
      s * (((trunc (clip (lo : ℚ) (hi : ℚ) x) : ℤ) : ℚ) - clip (lo : ℚ) (hi : ℚ) x) := by ring
  rw [e2, abs_mul, abs_of_pos hs]
  calc s * _ < s * 1 := mul_lt_mul_of_pos_left (abs_trunc_sub_lt _) hs
    _ = s := mul_one _

/-- C55 (saturation).  Whatever the codes: the new cell code denotes `f·c + i·g`, the new hidden code `o·a`, each
saturated to the values its dtype can represent, up to less than one step. -/
theorem C55_saturation (l : LSTM) (hrnd : l.rnd = none) :
    (∀ (sF sC sI sG : ℚ) (f c i g : ℤ), 0 < sC → l.m3 = sF → l.m4 = sI * sG / sC → l.cellDtype.min ≤ l.cellDtype.max →
      |real l.cellZp sC (l.cellVal f c i g) - max (real l.cellZp sC l.cellDtype.min) (min (real l.cellZp sC l.cellDtype.max)
        (real l.forgetGateZp sF f * real l.cellZp sC c + real l.inputGateZp sI i * real l.cellGateZp sG g))| < sC) ∧
    (∀ (sO sA sH : ℚ) (o a : ℤ), 0 < sH → l.m5 = sO * sA / sH → l.hiddenDtype.min ≤ l.hiddenDtype.max →
      |real l.hiddenZp sH (l.hiddenVal o a) - max (real l.hiddenZp sH l.hiddenDtype.min) (min
        (real l.hiddenZp sH l.hiddenDtype.max) (real l.outputGateZp sO o * real l.cellActZp sA a))| < sH) := by
  constructor
  · intro sF sC sI sG f c i g hC hm3 hm4 hd
    have ht : real l.forgetGateZp sF f * real l.cellZp sC c + real l.inputGateZp sI i * real l.cellGateZp sG g
        = sC * ((l.cellZp + l.m3 * (f - l.forgetGateZp) * (c - l.cellZp)
          + l.m4 * ((i - l.inputGateZp) * (g - l.cellGateZp))) - l.cellZp) := by
      rw [hm3, hm4]; unfold real; field_simp; ring
    have h4 : l.cellVal f c i g = clip l.cellDtype.min l.cellDtype.max (trunc (l.cellZp +
        l.m3 * (f - l.forgetGateZp) * (c - l.cellZp) + l.m4 * ((i - l.inputGateZp) * (g - l.cellGateZp)))) := by
      unfold LSTM.cellVal
      simp only [l.fl_exact hrnd]
    rw [ht, h4]
    exact clip_trunc_saturates hd hC _
  · intro sO sA sH o a hH hm5 hd
    have ht : real l.outputGateZp sO o * real l.cellActZp sA a =
        sH * ((l.hiddenZp + l.m5 * ((o - l.outputGateZp) * (a - l.cellActZp))) - l.hiddenZp) := by
      rw [hm5]; unfold real; field_simp; ring
    have h4 : l.hiddenVal o a = clip l.hiddenDtype.min l.hiddenDtype.max (trunc (l.hiddenZp +
        l.m5 * ((o - l.outputGateZp) * (a - l.cellActZp)))) := by
      unfold LSTM.hiddenVal
      simp only [l.fl_exact hrnd]
    rw [ht, h4]
    exact clip_trunc_saturates hd hH _

/-- C55 (gates, saturation).  Without int64 overflow the code presented to a gate's table denotes
`x·K + b + sH·sR·(h·U)`, saturated, up to less than one step of its own plus one accumulator step. -/
theorem C55_gate_saturation (l : LSTM) (hrnd : l.rnd = none) (g : LSTMGate) (sX sK sH sR sA : ℚ) (hH : 0 < sH)
    (hR : 0 < sR) (hA : 0 < sA) (hm1 : g.m1 = sK * sX / (sH * sR)) (hm2 : g.m2 = sR * sH / sA)
    (hd : l.raDtype.min ≤ l.raDtype.max) (a k : ℤ) (hk : wrapS 64 k = k)
    (hk' : wrapS 64 (a + l.firstVal g k) = a + l.firstVal g k) :
    |real g.raZp sA (l.sumVal g (wrapS 64 (a + l.firstVal g (wrapS 64 k)))) -
      max (real g.raZp sA l.raDtype.min) (min (real g.raZp sA l.raDtype.max) (sX * sK * k + sH * sR * a))|
      < sA + sH * sR := by
  rw [hk, hk']
  simp only [LSTM.sumVal, LSTM.firstVal, l.fl_exact hrnd]
  have hHR : 0 < sH * sR := mul_pos hH hR
  set y : ℚ := g.m1 * k with hy
  have hy' : sX * sK * k = sH * sR * y := by rw [hy, hm1]; field_simp
  set z : ℚ := ((a + trunc y : ℤ) : ℚ) * g.m2 + g.raZp with hz
  have hzr : sA * (z - g.raZp) = sH * sR * (a + trunc y) := by
    rw [hz, hm2]; push_cast; field_simp; ring
  have h1 := trunc_clip_saturates (z := g.raZp) hd hA z
  rw [hzr] at h1
  have h2 := Accuracy.rat_clip_sub_le (real g.raZp sA l.raDtype.min) (real g.raZp sA l.raDtype.max)
    (sH * sR * (a + (trunc y : ℚ))) (sX * sK * k + sH * sR * a)
  have e1 : sH * sR * (a + (trunc y : ℚ)) - (sX * sK * k + sH * sR * a) = sH * sR * ((trunc y : ℚ) - y) := by
    rw [hy']; ring
  rw [e1, abs_mul, abs_of_pos hHR] at h2
  have h3 : sH * sR * |(trunc y : ℚ) - y| < sH * sR := by
    calc sH * sR * |(trunc y : ℚ) - y| < sH * sR * 1 := mul_lt_mul_of_pos_left (abs_trunc_sub_lt y) hHR
      _ = sH * sR := mul_one _
  calc _ ≤ _ + _ := abs_sub_le _ (max (real g.raZp sA l.raDtype.min) (min (real g.raZp sA l.raDtype.max)
        (sH * sR * (a + (trunc y : ℚ))))) _
    _ < sA + sH * sR := by linarith

/-- A cell update that saturates: the real value is far outside the four bits of the cell. -/
example : |real (demoLSTM 0).cellZp 1 ((demoLSTM 0).cellVal 7 7 7 7) -
    max (real (demoLSTM 0).cellZp 1 (demoLSTM 0).cellDtype.min) (min (real (demoLSTM 0).cellZp 1 (demoLSTM 0).cellDtype.max)
      (real (demoLSTM 0).forgetGateZp (demoLSTM 0).m3 7 * real (demoLSTM 0).cellZp 1 7 +
        real (demoLSTM 0).inputGateZp 1 7 * real (demoLSTM 0).cellGateZp (demoLSTM 0).m4 7))| < 1 :=
  (C55_saturation (demoLSTM 0) rfl).1 _ 1 1 _ 7 7 7 7 (by norm_num) rfl (by rw [one_mul, div_one]) (by decide)

example : (7 : ℚ) < real (demoLSTM 0).forgetGateZp (demoLSTM 0).m3 7 * real (demoLSTM 0).cellZp 1 7 +
    real (demoLSTM 0).inputGateZp 1 7 * real (demoLSTM 0).cellGateZp (demoLSTM 0).m4 7 := by decide +kernel

end Verif
