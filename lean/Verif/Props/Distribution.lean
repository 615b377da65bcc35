import Verif.Lemmas.Distribution
import Verif.Props.Quant

/-!
# Properties C29–C32: calibration of scales and zero points, histogram slices
-/

namespace Verif
open Spec

theorem clip_round_err {lo hi : ℤ} (hle : lo ≤ hi) {v : ℚ} (h1 : (lo : ℚ) - 1 / 2 ≤ v) (h2 : v ≤ hi + 1 / 2) :
    |((clip lo hi (roundHalfUp v) : ℤ) : ℚ) - v| ≤ 1 / 2 := by
  have ha := abs_le.mp (abs_roundHalfUp_sub_le v)
  have hlo : lo ≤ roundHalfUp v := by
    unfold roundHalfUp
    rw [Int.le_floor]; linarith
  by_cases hh : roundHalfUp v ≤ hi
  · rw [clip_of_mem hlo hh]; exact abs_roundHalfUp_sub_le v
  · have hh' : hi + 1 ≤ roundHalfUp v := by omega
    have : ((hi : ℚ) + 1) ≤ roundHalfUp v := by exact_mod_cast hh'
    rw [clip_of_ge (by omega), abs_le]
    constructor <;> linarith

/-- The integer range a calibration uses: the dtype's, or symmetric around 0. -/
def Spec.calLo (q : GDtype) (symmetric : Bool) : ℤ := if symmetric then -q.max else q.min

theorem Dist.quantize_eq (d : Dist) (q : GDtype) (sym : Bool) (m M : ℚ) (hm : d.getMin = some m)
    (hM : d.getMax = some M) (h : min m 0 < max M 0) (hq : calLo q sym < q.max) :
    d.quantize q none none sym = some ((max M 0 - min m 0) / ((q.max : ℚ) - calLo q sym),
      roundHalfEven ((min m 0 * q.max - max M 0 * calLo q sym) / (min m 0 - max M 0))) := by
  unfold Dist.quantize
  simp only [hm, hM, Option.bind_eq_bind, Option.bind_some]
  have hc : (if sym = true then -q.max else q.min) = calLo q sym := by rfl
  rw [hc]
  have hq' : (calLo q sym : ℚ) < q.max := by exact_mod_cast hq
  rw [if_neg]
  swap
  · rintro (h' | h')
    · omega
    · linarith
  rw [if_neg]
  · exact div_ne_zero (by linarith) (by linarith)

theorem cal_core (mn mx : ℚ) (h0 : mn ≤ 0) (h1 : 0 ≤ mx) (hlt : mn < mx) (lo hi : ℤ) (hq : lo < hi) :
    let s := (mx - mn) / ((hi : ℚ) - lo)
    let z := (mn * hi - mx * lo) / (mn - mx)
    0 < s ∧ (lo : ℚ) ≤ z ∧ z ≤ hi ∧ ∀ x, mn ≤ x → x ≤ mx → (lo : ℚ) ≤ x / s + z ∧ x / s + z ≤ hi := by
  intro s z
  have hq' : (lo : ℚ) < hi := by exact_mod_cast hq
  have hd : 0 < mx - mn := by linarith
  have hqd : 0 < (hi : ℚ) - lo := by linarith
  have hs : 0 < s := div_pos hd hqd
  have hz : z = (mx * lo - mn * hi) / (mx - mn) := by
    have h1 : mn - mx ≠ 0 := by linarith
    have h2 : mx - mn ≠ 0 := by linarith
    simp only [z]
    rw [div_eq_div_iff h1 h2]; ring
  have hxz : ∀ x, x / s + z = ((x - mn) * hi + (mx - x) * lo) / (mx - mn) := by
    intro x
    rw [hz]
    simp only [s]
    have h2 : mx - mn ≠ 0 := by linarith
    field_simp
    ring
  refine ⟨hs, ?_, ?_, ?_⟩
  · rw [hz, le_div_iff₀ hd]; nlinarith
  · rw [hz, div_le_iff₀ hd]; nlinarith
  · intro x hx1 hx2
    rw [hxz]
    constructor
    · rw [le_div_iff₀ hd]; nlinarith
    · rw [div_le_iff₀ hd]; nlinarith

/-- C29.  Calibrating on any non-empty data (with the default 512 bins, or any number ≥ 3) succeeds with a positive
scale and a zero point inside the integer range in use, so real zero is represented exactly. -/
theorem C29_valid_parameters (a : List ℚ) (ha : a ≠ []) (n : ℕ) (hn : 3 ≤ n) (p : Bool) (q : GDtype) (sym : Bool)
    (hq : calLo q sym < q.max) :
    ∃ s zp, (Dist.build a n p).quantize q none none sym = some (s, zp) ∧ 0 < s ∧ Code (calLo q sym) q.max zp := by
  obtain ⟨m, M, hm, hM, hlt, -⟩ := Dist.min_lt_max a ha n hn p
  have hlt' : min m 0 < max M 0 := lt_of_le_of_lt (min_le_left _ _) (lt_of_lt_of_le hlt (le_max_left _ _))
  obtain ⟨c1, c2, c3, -⟩ := cal_core (min m 0) (max M 0) (min_le_right _ _) (le_max_right _ _) hlt' _ _ hq
  refine ⟨_, _, Dist.quantize_eq _ q sym m M hm hM hlt' hq, c1, ?_, ?_⟩
  · have := roundHalfEven_mono c2
    rwa [roundHalfEven_int] at this
  · have := roundHalfEven_mono c3
    rwa [roundHalfEven_int] at this

/-- C30.  With the parameters from calibration, every element of the calibration data survives quantization up to
half a step (in particular nothing is clipped by more than that). -/
theorem C30_half_step (a : List ℚ) (n : ℕ) (hn : 3 ≤ n) (p : Bool) (q : GDtype)
    (hd : Fits32 q.min q.max) (sym : Bool) (hq : calLo q sym < q.max) (hsub : q.min ≤ calLo q sym)
    (s : ℚ) (zp : ℤ) (h : (Dist.build a n p).quantize q none none sym = some (s, zp)) (x : ℚ) (hx : x ∈ a) :
    |real zp s (Quantization.quantize q x zp s) - x| ≤ s / 2 := by
  have ha : a ≠ [] := List.ne_nil_of_mem hx
  obtain ⟨m, M, hm, hM, hlt, hall⟩ := Dist.min_lt_max a ha n hn p
  have hlt' : min m 0 < max M 0 := lt_of_le_of_lt (min_le_left _ _) (lt_of_lt_of_le hlt (le_max_left _ _))
  obtain ⟨c1, c2, c3, c4⟩ := cal_core (min m 0) (max M 0) (min_le_right _ _) (le_max_right _ _) hlt' _ _ hq
  rw [Dist.quantize_eq _ q sym m M hm hM hlt' hq] at h
  simp only [Option.some.injEq, Prod.mk.injEq] at h
  obtain ⟨hs, hz⟩ := h
  have c5 := c4 x (le_trans (min_le_left _ _) (hall x hx).1) (le_trans (hall x hx).2 (le_max_left _ _))
  rw [hs] at c1 c5
  have hzr := abs_le.mp (abs_roundHalfEven_sub_le ((min m 0 * q.max - max M 0 * calLo q sym) / (min m 0 - max M 0)))
  rw [hz] at hzr
  rw [Verif.quantize_eq hd]
  have hsub' : (q.min : ℚ) ≤ calLo q sym := by exact_mod_cast hsub
  have herr := clip_round_err hd.2.1 (v := x / s + zp) (by linarith [c5.1, hzr.1]) (by linarith [c5.2, hzr.2])
  set k := clip q.min q.max (roundHalfUp (x / s + zp)) with hk
  have : real zp s k - x = s * ((k : ℚ) - (x / s + zp)) := by
    unfold real; field_simp; ring
  rw [this, abs_mul, abs_of_pos c1]
  calc s * _ ≤ s * (1 / 2) := mul_le_mul_of_nonneg_left herr c1.le
    _ = s / 2 := by ring

/-- C29, all-zero data: numpy widens the histogram range, so the scale is 1/255 and not the fallback 1.0 of the
code; the zero point is 0. -/
theorem C29_all_zero (a : List ℚ) (ha : a ≠ []) (h0 : ∀ x ∈ a, x = 0) :
    (Dist.build a).quantize (intDtype 7) = some (1 / 255, 0) := by
  obtain ⟨m, hm, -, -, h3⟩ := Dist.getMin_build a ha 512 (by omega) true
  obtain ⟨M, hM, -, -, k3⟩ := Dist.getMax_build a ha 512 (by omega) true
  obtain ⟨q1, q2⟩ := Dist.hist_const a ha 512 (by omega) true 0 h0
  have ho := Dist.outer_const a ha 0 h0
  have hm' := h3 q1
  have hM' := k3 q2
  rw [ho] at hm' hM'
  norm_num at hm' hM'
  have hlt : min m 0 < max M 0 := by rw [hm', hM']; norm_num
  have hq : calLo (intDtype 7) false < (intDtype 7).max := by decide +kernel
  have key := Dist.quantize_eq (Dist.build a 512 true) (intDtype 7) false m M hm hM hlt hq
  refine Eq.trans key ?_
  rw [hm', hM']
  decide +kernel

/-! ## C31: forced zero point -/

theorem Dist.quantize_forced (d : Dist) (q : GDtype) (sym : Bool) (z : ℤ) (m M : ℚ) (hm : d.getMin = some m)
    (hM : d.getMax = some M) (h : min m 0 < max M 0) (hq : calLo q sym < q.max)
    (hden : (if sym then q.max else |calLo q sym|) ≠ 0) :
    d.quantize q (some z) none sym = some (max |min m 0| |max M 0| /
      ((if sym then q.max else |calLo q sym| : ℤ) : ℚ), z) := by
  unfold Dist.quantize
  simp only [hm, hM, Option.bind_eq_bind, Option.bind_some]
  have hc : (if sym = true then -q.max else q.min) = calLo q sym := by rfl
  rw [hc]
  rw [if_neg]
  swap
  · rintro (h' | h')
    · omega
    · linarith
  rw [if_neg hden]
  rw [if_neg]
  apply div_ne_zero
  · intro h0
    have h1 : |min m 0| ≤ 0 := le_of_le_of_eq (le_max_left _ _) h0
    have h2 : |max M 0| ≤ 0 := le_of_le_of_eq (le_max_right _ _) h0
    have h3 := abs_nonpos_iff.mp h1
    have h4 := abs_nonpos_iff.mp h2
    linarith
  · exact_mod_cast hden

/-- C31, symmetric.  Forcing zero point 0 with a symmetric range (kernels): calibration succeeds, and every element
of the data is reproduced up to half a step, by a code between `-max` and `max`. -/
theorem C31_symmetric (a : List ℚ) (ha : a ≠ []) (n : ℕ) (hn : 3 ≤ n) (p : Bool) (q : GDtype)
    (hd : Fits32 q.min q.max) (hq : 0 < q.max) (hsub : q.min ≤ -q.max) :
    ∃ s, (Dist.build a n p).quantize q (some 0) none true = some (s, 0) ∧ 0 < s ∧
      ∀ x ∈ a, |real 0 s (Quantization.quantize q x 0 s) - x| ≤ s / 2 ∧
        |Quantization.quantize q x 0 s| ≤ q.max := by
  obtain ⟨m, M, hm, hM, hlt, hall⟩ := Dist.min_lt_max a ha n hn p
  have hlt' : min m 0 < max M 0 := lt_of_le_of_lt (min_le_left _ _) (lt_of_lt_of_le hlt (le_max_left _ _))
  have hq' : (0 : ℚ) < q.max := by exact_mod_cast hq
  have heq := Dist.quantize_forced (Dist.build a n p) q true 0 m M hm hM hlt'
    (by simp [calLo]; omega) (by simp; omega)
  simp only [if_true] at heq
  set K : ℚ := max |min m 0| |max M 0| with hK
  have hKpos : 0 < K := by
    rcases lt_or_ge (min m 0) 0 with h | h
    · exact lt_of_lt_of_le (abs_pos.mpr (ne_of_lt h)) (le_max_left _ _)
    · exact lt_of_lt_of_le (abs_pos.mpr (ne_of_gt (lt_of_le_of_lt h hlt'))) (le_max_right _ _)
  have hs : 0 < K / (q.max : ℚ) := div_pos hKpos hq'
  refine ⟨K / (q.max : ℚ), heq, hs, ?_⟩
  intro x hx
  have hxK : -K ≤ x ∧ x ≤ K := by
    obtain ⟨h1, h2⟩ := hall x hx
    have k1 : |min m 0| ≤ K := le_max_left _ _
    have k2 : |max M 0| ≤ K := le_max_right _ _
    have k3 := neg_abs_le (min m 0)
    have k4 := le_abs_self (max M 0)
    have k5 := min_le_left m 0
    have k6 := le_max_left M 0
    constructor <;> linarith
  set v : ℚ := x / (K / (q.max : ℚ)) with hv
  have hvx : v * K = x * q.max := by rw [hv]; field_simp
  have hv1 : -(q.max : ℚ) ≤ v := by
    by_contra hc; push Not at hc; nlinarith [hxK.1]
  have hv2 : v ≤ (q.max : ℚ) := by
    by_contra hc; push Not at hc; nlinarith [hxK.2]
  have hsub' : (q.min : ℚ) ≤ -q.max := by exact_mod_cast hsub
  have hr1 : -q.max ≤ roundHalfUp v := by
    unfold roundHalfUp; rw [Int.le_floor]; push_cast; linarith
  have hr2 : roundHalfUp v ≤ q.max := by
    have : roundHalfUp v < q.max + 1 := by
      unfold roundHalfUp; rw [Int.floor_lt]; push_cast; linarith
    omega
  rw [Verif.quantize_eq hd]
  simp only [Int.cast_zero, add_zero, ← hv]
  rw [clip_of_mem (by omega) hr2]
  refine ⟨?_, abs_le.mpr ⟨hr1, hr2⟩⟩
  have : real 0 (K / (q.max : ℚ)) (roundHalfUp v) - x = (K / (q.max : ℚ)) * ((roundHalfUp v : ℚ) - v) := by
    unfold real; rw [hv]; field_simp; simp
  rw [this, abs_mul, abs_of_pos hs]
  calc (K / (q.max : ℚ)) * _ ≤ (K / (q.max : ℚ)) * (1 / 2) :=
        mul_le_mul_of_nonneg_left (abs_roundHalfUp_sub_le v) hs.le
    _ = K / (q.max : ℚ) / 2 := by ring

/-- C31, asymmetric range `-N .. N-1` with zero point forced to 0 (as for kernels when `kernel_symmetric` is off):
only a full-step bound holds. -/
theorem C31_asymmetric (a : List ℚ) (ha : a ≠ []) (n : ℕ) (hn : 3 ≤ n) (p : Bool) (q : GDtype)
    (hd : Fits32 q.min q.max) (hq : 0 ≤ q.max) (hsub : q.min = -(q.max + 1)) :
    ∃ s, (Dist.build a n p).quantize q (some 0) none false = some (s, 0) ∧ 0 < s ∧
      (∀ x ∈ a, |real 0 s (Quantization.quantize q x 0 s) - x| ≤ s) ∧
      (∀ x ∈ a, (∃ y ∈ a, y ≠ x) → 0 < x → (∀ y ∈ a, |y| ≤ x) →
        |real 0 s (Quantization.quantize q x 0 s) - x| = s) := by
  obtain ⟨m, M, hm, hM, hlt, hall⟩ := Dist.min_lt_max a ha n hn p
  have hlt' : min m 0 < max M 0 := lt_of_le_of_lt (min_le_left _ _) (lt_of_lt_of_le hlt (le_max_left _ _))
  set N : ℤ := q.max + 1 with hN
  have hNpos : (0 : ℚ) < N := by exact_mod_cast (by omega : (0 : ℤ) < N)
  have habs : |calLo q false| = N := by
    simp only [calLo, Bool.false_eq_true, if_false, hsub, abs_neg]
    exact abs_of_pos (by omega)
  have heq := Dist.quantize_forced (Dist.build a n p) q false 0 m M hm hM hlt'
    (by simp [calLo]; omega) (by simp only [Bool.false_eq_true, if_false, habs]; omega)
  simp only [Bool.false_eq_true, if_false, habs] at heq
  set K : ℚ := max |min m 0| |max M 0| with hK
  have hKpos : 0 < K := by
    rcases lt_or_ge (min m 0) 0 with h | h
    · exact lt_of_lt_of_le (abs_pos.mpr (ne_of_lt h)) (le_max_left _ _)
    · exact lt_of_lt_of_le (abs_pos.mpr (ne_of_gt (lt_of_le_of_lt h hlt'))) (le_max_right _ _)
  have hs : 0 < K / (N : ℚ) := div_pos hKpos hNpos
  have hreal : ∀ (x : ℚ) (k : ℤ), real 0 (K / (N : ℚ)) k - x = (K / (N : ℚ)) * ((k : ℚ) - x / (K / (N : ℚ))) := by
    intro x k; unfold real; field_simp; simp
  refine ⟨K / (N : ℚ), heq, hs, ?_, ?_⟩
  · intro x hx
    have hxK : -K ≤ x ∧ x ≤ K := by
      obtain ⟨h1, h2⟩ := hall x hx
      have k1 : |min m 0| ≤ K := le_max_left _ _
      have k2 : |max M 0| ≤ K := le_max_right _ _
      have k3 := neg_abs_le (min m 0)
      have k4 := le_abs_self (max M 0)
      have k5 := min_le_left m 0
      have k6 := le_max_left M 0
      constructor <;> linarith
    set v : ℚ := x / (K / (N : ℚ)) with hv
    have hvx : v * K = x * N := by rw [hv]; field_simp
    have hv1 : -(N : ℚ) ≤ v := by
      by_contra hc; push Not at hc; nlinarith [hxK.1]
    have hv2 : v ≤ (N : ℚ) := by
      by_contra hc; push Not at hc; nlinarith [hxK.2]
    rw [Verif.quantize_eq hd, hreal]
    simp only [Int.cast_zero, add_zero, ← hv]
    rw [abs_mul, abs_of_pos hs]
    have hr1 : q.min ≤ roundHalfUp v := by
      unfold roundHalfUp; rw [Int.le_floor, hsub]; push_cast at hv1 ⊢; linarith
    have h1 : |((clip q.min q.max (roundHalfUp v) : ℤ) : ℚ) - v| ≤ 1 := by
      have ha := abs_le.mp (abs_roundHalfUp_sub_le v)
      have hNq : (N : ℚ) = q.max + 1 := by rw [hN]; push_cast; ring
      by_cases hh : roundHalfUp v ≤ q.max
      · rw [clip_of_mem hr1 hh]; rw [abs_le]; constructor <;> linarith
      · have : ((q.max : ℚ) + 1) ≤ roundHalfUp v := by exact_mod_cast (by omega : q.max + 1 ≤ roundHalfUp v)
        rw [clip_of_ge (by omega), abs_le]
        constructor <;> linarith
    calc (K / (N : ℚ)) * _ ≤ (K / (N : ℚ)) * 1 := mul_le_mul_of_nonneg_left h1 hs.le
      _ = K / (N : ℚ) := by ring
  · intro x hx ⟨y, hy, hyx⟩ hxpos hmax
    have hKx : K = x := by
      obtain ⟨m', hm', -, hml, -⟩ := Dist.getMin_build a ha n (by omega) p
      obtain ⟨M', hM', -, hMl, -⟩ := Dist.getMax_build a ha n (by omega) p
      rw [hm] at hm'; rw [hM] at hM'
      injection hm' with hm'; injection hM' with hM'
      subst hm' hM'
      obtain ⟨b, t, rfl⟩ := List.exists_cons_of_ne_nil ha
      obtain ⟨lo, hlo⟩ : ∃ lo, (b :: t).min? = some lo := by simp [List.min?_cons]
      obtain ⟨hi, hhi⟩ : ∃ hi, (b :: t).max? = some hi := by simp [List.max?_cons]
      have h1 := (List.min?_eq_some_iff.mp hlo)
      have h2 := (List.max?_eq_some_iff.mp hhi)
      have hix : hi = x := le_antisymm (le_trans (le_abs_self _) (hmax hi h2.1)) (h2.2 x hx)
      have hlx : lo ≠ hi := by
        intro hc
        apply hyx
        have := h1.2 y hy; have := h2.2 y hy
        apply le_antisymm <;> linarith
      have ho : Dist.outer (b :: t) = (lo, hi) := by
        unfold Dist.outer; rw [hlo, hhi]; simp [hlx]
      rw [ho] at hml hMl
      simp only at hml hMl
      have hMx : M = x := le_antisymm (by rw [← hix]; exact hMl) (hall x hx).2
      have hlo' := (abs_le.mp (hmax lo h1.1)).1
      have e1 : max M 0 = x := by rw [hMx]; exact max_eq_left hxpos.le
      rw [hK, e1, abs_of_pos hxpos]
      apply max_eq_right
      rw [abs_le]
      constructor
      · apply le_min <;> linarith
      · exact le_trans (min_le_right _ _) hxpos.le
    rw [Verif.quantize_eq hd, hreal]
    simp only [Int.cast_zero, add_zero]
    have hv : x / (K / (N : ℚ)) = N := by rw [hKx]; field_simp
    rw [hv]
    have hround : roundHalfUp (N : ℚ) = N := by
      unfold roundHalfUp
      rw [Int.floor_eq_iff]; constructor <;> linarith
    rw [hround, clip_of_ge (by omega)]
    have : ((q.max : ℚ) - N) = -1 := by rw [hN]; push_cast; ring
    rw [this, abs_mul, abs_of_pos hs]
    norm_num

/-- The int8 dtype meets the hypotheses of C29–C31 in both modes. -/
example : Fits32 (intDtype 7).min (intDtype 7).max ∧ calLo (intDtype 7) true < (intDtype 7).max ∧
    calLo (intDtype 7) false < (intDtype 7).max ∧ (intDtype 7).min ≤ calLo (intDtype 7) true ∧
    (intDtype 7).min = -((intDtype 7).max + 1) ∧ (intDtype 7).min ≤ -(intDtype 7).max := by decide +kernel

/-- Asymmetric forced zero point: the half-step bound of C31 really fails for int8 data such as `[1, -1]`. -/
example : ∃ s, (Dist.build [1, -1]).quantize (intDtype 7) (some 0) none false = some (s, 0) ∧
    s / 2 < |real 0 s (Quantization.quantize (intDtype 7) 1 0 s) - 1| := by
  obtain ⟨s, h1, h2, -, h4⟩ := C31_asymmetric [1, -1] (by simp) 512 (by omega) true (intDtype 7)
    (by decide +kernel) (by decide +kernel) (by decide +kernel)
  refine ⟨s, h1, ?_⟩
  rw [h4 1 (by simp) ⟨-1, by simp, by norm_num⟩ (by norm_num) (by simp)]
  linarith

/-! ## C32: slices -/

namespace Dist

/-- Histogram invariant: one more edge than bins, edges strictly increasing, data sorted, and every bin's count is
between the number of data strictly inside (left-closed) the bin and the number in the closed bin. -/
structure Inv (d : Dist) : Prop where
  len : d.edges.length = d.hist.length + 1
  inc : d.edges.Pairwise (· < ·)
  data : d.sorted.Pairwise (· ≤ ·)
  low : ∀ i < d.hist.length, d.sorted.countP (fun x => decide (d.edges.getD i 0 ≤ x ∧ x < d.edges.getD (i + 1) 0))
    ≤ d.hist.getD i 0
  high : ∀ i < d.hist.length, d.hist.getD i 0 ≤
    d.sorted.countP (fun x => decide (d.edges.getD i 0 ≤ x ∧ x ≤ d.edges.getD (i + 1) 0))
  part : d.partialBins = true

theorem Inv.lt {d : Dist} (hd : d.Inv) {i j : ℕ} (hij : i < j) (hj : j ≤ d.hist.length) :
    d.edges.getD i 0 < d.edges.getD j 0 := by
  have hlen := hd.len
  rw [List.getD_eq_getElem?_getD, List.getD_eq_getElem?_getD, List.getElem?_eq_getElem (by omega),
    List.getElem?_eq_getElem (by omega)]
  simp only [Option.getD_some]
  exact List.pairwise_iff_getElem.mp hd.inc _ _ (by omega) (by omega) hij

theorem Inv.le {d : Dist} (hd : d.Inv) {i j : ℕ} (hij : i ≤ j) (hj : j ≤ d.hist.length) :
    d.edges.getD i 0 ≤ d.edges.getD j 0 := by
  rcases Nat.lt_or_eq_of_le hij with h | h
  · exact (hd.lt h hj).le
  · simp [h]

theorem take_countP_of_sorted {l : List ℚ} (hl : l.Pairwise (· ≤ ·)) (p : ℚ → Bool)
    (hp : ∀ x y, x ≤ y → p y = true → p x = true) : l.take (l.countP p) = l.filter p := by
  induction l with
  | nil => rfl
  | cons a l ih =>
    rw [List.pairwise_cons] at hl
    by_cases ha : p a
    · rw [List.countP_cons_of_pos ha, List.take_succ_cons, List.filter_cons_of_pos ha, ih hl.2]
    · have hnone : ∀ y ∈ l, ¬ p y := fun y hy h => ha (hp a y (hl.1 y hy) h)
      rw [List.countP_cons_of_neg ha, List.filter_cons_of_neg ha, List.countP_eq_zero.mpr hnone]
      rw [List.filter_eq_nil_iff.mpr hnone]; rfl

theorem drop_countP_of_sorted {l : List ℚ} (hl : l.Pairwise (· ≤ ·)) (p : ℚ → Bool)
    (hp : ∀ x y, x ≤ y → p y = true → p x = true) : l.drop (l.countP p) = l.filter (fun x => !p x) := by
  induction l with
  | nil => rfl
  | cons a l ih =>
    rw [List.pairwise_cons] at hl
    by_cases ha : p a
    · rw [List.countP_cons_of_pos ha, List.drop_succ_cons, List.filter_cons_of_neg (by simp [ha]), ih hl.2]
    · have hnone : ∀ y ∈ l, ¬ p y := fun y hy h => ha (hp a y (hl.1 y hy) h)
      rw [List.countP_cons_of_neg ha, List.countP_eq_zero.mpr hnone, List.drop_zero]
      symm
      rw [List.filter_eq_self]
      intro y hy
      rcases List.mem_cons.mp hy with rfl | hy
      · simp [ha]
      · simp [hnone y hy]

/-- Slicing sorted data by value keeps exactly the elements in the closed interval. -/
theorem slice_eq_filter (d : Dist) (hd : d.sorted.Pairwise (· ≤ ·)) (a b : ℚ) (hab : a ≤ b) :
    d.slice (some a) (some b) = d.sorted.filter (fun x => decide (a ≤ x ∧ x ≤ b)) := by
  unfold slice searchLeft searchRight
  simp only
  rw [take_countP_of_sorted hd (fun x => decide (x ≤ b)) (by
    intro x y h1 h2; simp only [decide_eq_true_eq] at *; linarith)]
  have hcount : d.sorted.countP (fun x => decide (x < a)) =
      (d.sorted.filter (fun x => decide (x ≤ b))).countP (fun x => decide (x < a)) := by
    rw [List.countP_filter]
    apply List.countP_congr
    intro x _
    simp only [decide_eq_true_eq, Bool.and_eq_true]
    exact ⟨fun h => ⟨h, by linarith⟩, fun h => h.1⟩
  rw [hcount, drop_countP_of_sorted (hd.filter _) (fun x => decide (x < a)) (by
    intro x y h1 h2; simp only [decide_eq_true_eq] at *; linarith), List.filter_filter]
  apply List.filter_congr
  intro x _
  by_cases h1 : a ≤ x <;> by_cases h2 : x ≤ b <;> simp [h1, h2, not_lt.mpr, not_le.mp]

theorem lastEdgeLe_aux (edges : List ℚ) (v : ℚ) (dflt n : ℕ) :
    let r := (List.range n).foldl (fun acc i => if edges.getD i 0 ≤ v then i else acc) dflt
    (r = dflt ∧ ∀ i < n, ¬ edges.getD i 0 ≤ v) ∨
      (r < n ∧ edges.getD r 0 ≤ v ∧ ∀ i < n, edges.getD i 0 ≤ v → i ≤ r) := by
  induction n with
  | zero => left; simp
  | succ n ih =>
    simp only [List.range_succ, List.foldl_append, List.foldl_cons, List.foldl_nil] at ih ⊢
    by_cases h : edges.getD n 0 ≤ v
    · right
      rw [if_pos h]
      exact ⟨by omega, h, fun i hi _ => by omega⟩
    · rw [if_neg h]
      rcases ih with ⟨h1, h2⟩ | ⟨h1, h2, h3⟩
      · left
        refine ⟨h1, fun i hi => ?_⟩
        rcases Nat.lt_succ_iff_lt_or_eq.mp hi with hi | rfl
        · exact h2 i hi
        · exact h
      · right
        refine ⟨by omega, h2, fun i hi hv => ?_⟩
        rcases Nat.lt_succ_iff_lt_or_eq.mp hi with hi | rfl
        · exact h3 i hi hv
        · exact absurd hv h

/-- `lastEdgeLe` returns the last index whose edge is at most `v`, or the default if there is none. -/
theorem lastEdgeLe_spec (edges : List ℚ) (v : ℚ) (dflt : ℕ) :
    (lastEdgeLe edges v dflt = dflt ∧ ∀ i < edges.length, ¬ edges.getD i 0 ≤ v) ∨
      (lastEdgeLe edges v dflt < edges.length ∧ edges.getD (lastEdgeLe edges v dflt) 0 ≤ v ∧
        ∀ i < edges.length, edges.getD i 0 ≤ v → i ≤ lastEdgeLe edges v dflt) :=
  lastEdgeLe_aux edges v dflt edges.length

/-- The bin range kept by a slice. -/
theorem clone_indices (d : Dist) (hd : d.Inv) (a b : ℚ) (hab : a ≤ b) :
    let lo := lastEdgeLe d.edges a 0
    let hi := min (lastEdgeLe d.edges b d.hist.length + 1) d.hist.length
    lo ≤ hi ∧ hi ≤ d.hist.length := by
  intro lo hi
  have hlen := hd.len
  refine ⟨?_, min_le_right _ _⟩
  rcases lastEdgeLe_spec d.edges a 0 with ⟨h1, _⟩ | ⟨h1, h2, _⟩
  · show lastEdgeLe d.edges a 0 ≤ _; rw [h1]; exact Nat.zero_le _
  · have hlo : lo ≤ d.hist.length := by show lastEdgeLe d.edges a 0 ≤ _; omega
    refine le_min ?_ hlo
    rcases lastEdgeLe_spec d.edges b d.hist.length with ⟨h3, h4⟩ | ⟨_, _, h5⟩
    · rw [h3]; omega
    · have := h5 _ h1 (le_trans h2 hab)
      exact Nat.le_succ_of_le this

/-- First bin kept by a slice. -/
def cloneLo (d : Dist) (a : ℚ) : ℕ := lastEdgeLe d.edges a 0

/-- One past the last bin kept by a slice. -/
def cloneHi (d : Dist) (b : ℚ) : ℕ := min (lastEdgeLe d.edges b d.hist.length + 1) d.hist.length

theorem clone_eq (d : Dist) (hd : d.Inv) (a b : ℚ) (hab : a ≤ b) :
    d.clone a b = some
      { sorted := d.sorted.filter (fun x => decide
          (d.edges.getD (d.cloneLo a) 0 ≤ x ∧ x ≤ d.edges.getD (d.cloneHi b) 0))
        edges := (d.edges.take (d.cloneHi b + 1)).drop (d.cloneLo a)
        hist := (d.hist.take (d.cloneHi b)).drop (d.cloneLo a)
        partialBins := true } := by
  obtain ⟨h1, h2⟩ := clone_indices d hd a b hab
  have hlen := hd.len
  unfold clone
  simp only [hd.part, if_true]
  change d.cloneLo a ≤ d.cloneHi b at h1
  change d.cloneHi b ≤ d.hist.length at h2
  change (match d.edges[d.cloneLo a]?, d.edges[d.cloneHi b]? with | some a', some b' => _ | _, _ => none) = _
  have e1 : d.edges[d.cloneLo a]? = some (d.edges.getD (d.cloneLo a) 0) := by
    rw [List.getD_eq_getElem?_getD, List.getElem?_eq_getElem (by omega)]; rfl
  have e2 : d.edges[d.cloneHi b]? = some (d.edges.getD (d.cloneHi b) 0) := by
    rw [List.getD_eq_getElem?_getD, List.getElem?_eq_getElem (by omega)]; rfl
  rw [e1, e2]
  simp only [Option.some.injEq]
  rw [slice_eq_filter d hd.data _ _ (hd.le h1 h2)]
  congr 3
  show min (d.cloneHi b + 1) d.edges.length = _
  omega

theorem getD_take_drop {α : Type} (l : List α) (k lo i : ℕ) (x : α) (h : lo + i < k) :
    ((l.take k).drop lo).getD i x = l.getD (lo + i) x := by
  simp only [List.getD_eq_getElem?_getD, List.getElem?_drop, List.getElem?_take, if_pos h]

theorem Inv.clone {d : Dist} (hd : d.Inv) {a b : ℚ} (hab : a ≤ b) {d' : Dist} (h : d.clone a b = some d') :
    d'.Inv := by
  obtain ⟨h1, h2⟩ := clone_indices d hd a b hab
  change d.cloneLo a ≤ d.cloneHi b at h1
  change d.cloneHi b ≤ d.hist.length at h2
  have hlen := hd.len
  rw [clone_eq d hd a b hab] at h
  injection h with h
  subst h
  have hlen' : ((d.hist.take (d.cloneHi b)).drop (d.cloneLo a)).length = d.cloneHi b - d.cloneLo a := by
    rw [List.length_drop, List.length_take]; omega
  have hcount : ∀ i < d.cloneHi b - d.cloneLo a, ∀ (q : ℚ → Prop) [DecidablePred q],
      (∀ x, q x → d.edges.getD (d.cloneLo a + i) 0 ≤ x ∧ x ≤ d.edges.getD (d.cloneLo a + i + 1) 0) →
      (d.sorted.filter (fun x => decide (d.edges.getD (d.cloneLo a) 0 ≤ x ∧ x ≤ d.edges.getD (d.cloneHi b) 0))).countP
        (fun x => decide (q x)) = d.sorted.countP (fun x => decide (q x)) := by
    intro i hi q _ hq
    rw [List.countP_filter]
    apply List.countP_congr
    intro x _
    simp only [Bool.and_eq_true, decide_eq_true_eq]
    constructor
    · exact fun h => h.1
    · intro h
      obtain ⟨k1, k2⟩ := hq x h
      have k3 := hd.le (show d.cloneLo a ≤ d.cloneLo a + i by omega) (by omega)
      have k4 := hd.le (show d.cloneLo a + i + 1 ≤ d.cloneHi b by omega) (by omega)
      exact ⟨h, by linarith, by linarith⟩
  refine ⟨?_, ?_, hd.data.filter _, ?_, ?_, rfl⟩
  · simp only [hlen']
    rw [List.length_drop, List.length_take]; omega
  · exact (hd.inc.take).drop
  · intro i hi
    simp only [hlen'] at hi
    simp only
    rw [getD_take_drop _ _ _ _ _ (by omega), getD_take_drop _ _ _ _ _ (by omega),
      getD_take_drop _ _ _ _ _ (by omega), ← Nat.add_assoc]
    rw [hcount i hi (fun x => d.edges.getD (d.cloneLo a + i) 0 ≤ x ∧ x < d.edges.getD (d.cloneLo a + i + 1) 0)
      (fun x hx => ⟨hx.1, hx.2.le⟩)]
    exact hd.low _ (by omega)
  · intro i hi
    simp only [hlen'] at hi
    simp only
    rw [getD_take_drop _ _ _ _ _ (by omega), getD_take_drop _ _ _ _ _ (by omega),
      getD_take_drop _ _ _ _ _ (by omega), ← Nat.add_assoc]
    rw [hcount i hi (fun x => d.edges.getD (d.cloneLo a + i) 0 ≤ x ∧ x ≤ d.edges.getD (d.cloneLo a + i + 1) 0)
      (fun x hx => hx)]
    exact hd.high _ (by omega)

theorem outer_lt (a : List ℚ) : (outer a).1 < (outer a).2 := by
  by_cases ha : a = []
  · subst ha; simp [outer]
  · exact (outer_spec a ha).1

theorem linEdges_getD (lo hi : ℚ) (n i : ℕ) (h : i ≤ n) :
    (linEdges lo hi n).getD i 0 = lo + (hi - lo) * (i : ℚ) / (n : ℚ) := by
  rw [List.getD_eq_getElem?_getD, linEdges_get _ _ _ _ h]; rfl

theorem inv_build (a : List ℚ) (n : ℕ) (hn : 1 ≤ n) : (build a n).Inv := by
  have ho := outer_lt a
  have hlenH : (build a n).hist.length = n := by
    show (counts a (linEdges _ _ n)).length = n
    simp [counts, linEdges_length]
  have hn0 : (0 : ℚ) < n := by exact_mod_cast hn
  have hperm := sorted_perm a
  have hget : ∀ i < n, (build a n).hist.getD i 0 = (build a n).sorted.countP
      (fun x => decide ((build a n).edges.getD i 0 ≤ x ∧ (x < (build a n).edges.getD (i + 1) 0 ∨
        (i + 2 = (build a n).edges.length ∧ x ≤ (build a n).edges.getD (i + 1) 0)))) := by
    intro i hi
    show (counts a (linEdges (outer a).1 (outer a).2 n)).getD i 0 = _
    rw [List.getD_eq_getElem?_getD, counts_get a _ i (by rw [linEdges_length]; omega), Option.getD_some]
    exact (hperm.countP_eq _).symm
  refine ⟨?_, ?_, sorted_pairwise a, ?_, ?_, rfl⟩
  · rw [hlenH]; exact linEdges_length _ _ _
  · show (linEdges (outer a).1 (outer a).2 n).Pairwise (· < ·)
    rw [List.pairwise_iff_getElem]
    intro i j hi hj hij
    rw [linEdges_length] at hi hj
    have h1 := linEdges_get (outer a).1 (outer a).2 n i (by omega)
    have h2 := linEdges_get (outer a).1 (outer a).2 n j (by omega)
    rw [List.getElem?_eq_getElem (by rw [linEdges_length]; omega)] at h1 h2
    injection h1 with h1
    injection h2 with h2
    rw [h1, h2]
    have : (i : ℚ) < j := by exact_mod_cast hij
    have h3 : (outer a).1 + ((outer a).2 - (outer a).1) * (i : ℚ) / n <
        (outer a).1 + ((outer a).2 - (outer a).1) * (j : ℚ) / n := by
      apply add_lt_add_right
      apply div_lt_div_of_pos_right _ hn0
      apply mul_lt_mul_of_pos_left this; linarith
    exact h3
  · intro i hi
    rw [hlenH] at hi
    rw [hget i hi]
    apply List.countP_mono_left
    intro x _ hx
    simp only [decide_eq_true_eq] at *
    exact ⟨hx.1, Or.inl hx.2⟩
  · intro i hi
    rw [hlenH] at hi
    rw [hget i hi]
    apply List.countP_mono_left
    intro x _ hx
    simp only [decide_eq_true_eq] at *
    rcases hx with ⟨h1, h2 | ⟨_, h2⟩⟩
    · exact ⟨h1, h2.le⟩
    · exact ⟨h1, h2⟩

theorem Inv.getSlice {d : Dist} (hd : d.Inv) {a b : ℚ} (hab : a ≤ b) {d' : Dist}
    (h : d.getSlice (some a) (some b) = some d') : d'.Inv ∧ d'.sorted <:+: d.sorted := by
  unfold Dist.getSlice at h
  simp only [Option.bind_eq_bind, Option.bind_some, Option.bind_eq_some_iff] at h
  obtain ⟨sz, -, h⟩ := h
  split_ifs at h with hsz
  · injection h with h
    subst h
    refine ⟨inv_build _ 1 (by omega), ?_⟩
    show List.mergeSort (d.slice (some a) (some b)) (fun x y => decide (x ≤ y)) <:+: _
    rw [List.mergeSort_of_pairwise]
    · unfold slice
      exact (List.drop_suffix _ _).isInfix.trans (List.take_prefix _ _).isInfix
    · rw [slice_eq_filter d hd.data _ _ hab]
      exact (hd.data.filter _).imp (by intro x y h; simpa using h)
  · refine ⟨hd.clone hab h, ?_⟩
    rw [clone_eq d hd a b hab] at h
    injection h with h
    subst h
    simp only
    rw [← slice_eq_filter d hd.data]
    · unfold slice
      exact (List.drop_suffix _ _).isInfix.trans (List.take_prefix _ _).isInfix
    · obtain ⟨h1, h2⟩ := clone_indices d hd a b hab
      exact hd.le h1 h2

/-- A history of slicing operations `d[a1:b1][a2:b2]…` -/
def slices (d : Dist) : List (ℚ × ℚ) → Option Dist
  | [] => some d
  | r :: rs => (d.getSlice (some r.1) (some r.2)).bind (fun d' => d'.slices rs)

theorem slices_inv {d : Dist} (hd : d.Inv) (rs : List (ℚ × ℚ)) (hrs : ∀ r ∈ rs, r.1 ≤ r.2) {d' : Dist}
    (h : d.slices rs = some d') : d'.Inv ∧ d'.sorted <:+: d.sorted := by
  induction rs generalizing d with
  | nil => simp only [slices, Option.some.injEq] at h; subst h; exact ⟨hd, List.infix_rfl⟩
  | cons r rs ih =>
    simp only [slices, Option.bind_eq_some_iff] at h
    obtain ⟨d1, h1, h2⟩ := h
    obtain ⟨k1, k2⟩ := hd.getSlice (hrs r (by simp)) h1
    obtain ⟨k3, k4⟩ := ih k1 (fun r hr => hrs r (by simp [hr])) h2
    exact ⟨k3, k4.trans k2⟩

theorem slice_lower (d : Dist) (hd : d.sorted.Pairwise (· ≤ ·)) (a : ℚ) :
    d.slice (some a) none = d.sorted.filter (fun x => decide (a ≤ x)) := by
  unfold slice searchLeft
  simp only [List.take_length]
  rw [drop_countP_of_sorted hd (fun x => decide (x < a)) (by
    intro x y h1 h2; simp only [decide_eq_true_eq] at *; linarith)]
  apply List.filter_congr
  intro x _
  by_cases h : a ≤ x <;> simp [h, not_lt.mpr, not_le.mp]

/-- The elements a bin returns. -/
def binView (d : Dist) (i : ℕ) : List ℚ :=
  (d.sorted.filter (fun x => decide (d.edges.getD i 0 ≤ x))).take (d.hist.getD i 0)

theorem binView_spec (d : Dist) (hd : d.Inv) (i : ℕ) (hi : i < d.hist.length) :
    (d.binView i).length = d.hist.getD i 0 ∧ (d.binView i).Pairwise (· ≤ ·) ∧ d.binView i <:+: d.sorted ∧
      d.binView i <+: d.sorted.filter (fun x => decide (d.edges.getD i 0 ≤ x ∧ x ≤ d.edges.getD (i + 1) 0)) := by
  have hhigh := hd.high i hi
  set lo := d.edges.getD i 0 with hlo
  set up := d.edges.getD (i + 1) 0 with hup
  have e : (d.sorted.filter (fun x => decide (lo ≤ x))).take
      ((d.sorted.filter (fun x => decide (lo ≤ x))).countP (fun x => decide (x ≤ up))) =
      d.sorted.filter (fun x => decide (lo ≤ x ∧ x ≤ up)) := by
    rw [take_countP_of_sorted (hd.data.filter _) (fun x => decide (x ≤ up)) (by
      intro x y h1 h2; simp only [decide_eq_true_eq] at *; linarith), List.filter_filter]
    apply List.filter_congr
    intro x _
    by_cases h1 : lo ≤ x <;> by_cases h2 : x ≤ up <;> simp [h1, h2]
  have e2 : (d.sorted.filter (fun x => decide (lo ≤ x))).countP (fun x => decide (x ≤ up)) =
      d.sorted.countP (fun x => decide (lo ≤ x ∧ x ≤ up)) := by
    rw [List.countP_filter]
    apply List.countP_congr
    intro x _
    simp only [Bool.and_eq_true, decide_eq_true_eq]; tauto
  have hle : d.hist.getD i 0 ≤ (d.sorted.filter (fun x => decide (lo ≤ x))).length := by
    have : (d.sorted.filter (fun x => decide (lo ≤ x))).countP (fun x => decide (x ≤ up)) ≤ _ :=
      List.countP_le_length
    omega
  refine ⟨?_, ?_, ?_, ?_⟩
  · unfold binView; rw [List.length_take, ← hlo]; omega
  · exact (hd.data.filter _).take
  · unfold binView
    rw [← hlo, ← slice_lower d hd.data]
    unfold slice
    simp only [List.take_length]
    exact (List.take_prefix _ _).isInfix.trans (List.drop_suffix _ _).isInfix
  · rw [← e]
    unfold binView
    rw [e2]
    exact List.take_prefix_take_left hhigh

theorem getBin_eq (d : Dist) (hd : d.Inv) (i : ℕ) (hi : i < d.hist.length) :
    (d.hist.getD i 0 < 2 ∧ d.getBin i = some ⟨d.edges.getD i 0, d.edges.getD (i + 1) 0, d.hist.getD i 0, []⟩) ∨
      (∃ x y, 2 ≤ d.hist.getD i 0 ∧ (d.binView i).head? = some x ∧ (d.binView i).getLast? = some y ∧
        d.getBin i = some ⟨x, y, d.hist.getD i 0, d.binView i⟩) := by
  have hlen := hd.len
  unfold getBin
  rw [if_neg (by omega)]
  have e0 : ReducedLUT.pyIndex d.edges (i : ℤ) = some (d.edges.getD i 0) := by
    rw [pyIndex_nat, List.getD_eq_getElem?_getD, List.getElem?_eq_getElem (by omega)]; rfl
  have e1 : ReducedLUT.pyIndex d.edges ((i : ℤ) + 1) = some (d.edges.getD (i + 1) 0) := by
    rw [show ((i : ℤ) + 1) = ((i + 1 : ℕ) : ℤ) by push_cast; ring, pyIndex_nat, List.getD_eq_getElem?_getD,
      List.getElem?_eq_getElem (by omega)]; rfl
  have e2 : ReducedLUT.pyIndex d.hist (i : ℤ) = some (d.hist.getD i 0) := by
    rw [pyIndex_nat, List.getD_eq_getElem?_getD, List.getElem?_eq_getElem (by omega)]; rfl
  simp only [e0, e1, e2, Option.bind_eq_bind, Option.bind_some]
  by_cases h2 : d.hist.getD i 0 < 2
  · left; exact ⟨h2, by rw [if_pos h2]⟩
  · right
    rw [if_neg h2, slice_lower d hd.data]
    obtain ⟨k1, k2, k3, k4⟩ := binView_spec d hd i hi
    change (d.binView i).length = _ at k1
    have hne : d.binView i ≠ [] := by intro h; rw [h, List.length_nil] at k1; omega
    obtain ⟨x, t, hxt⟩ := List.exists_cons_of_ne_nil hne
    refine ⟨x, (d.binView i).getLast hne, by omega, by rw [hxt]; rfl, List.getLast?_eq_some_getLast hne, ?_⟩
    have hb : List.take (d.hist.getD i 0) (List.filter (fun x => decide (d.edges.getD i 0 ≤ x)) d.sorted) =
      d.binView i := rfl
    rw [hb, if_pos k1, List.getLast?_eq_some_getLast hne, show (d.binView i).head? = some x by rw [hxt]; rfl]

theorem getBin_spec (d : Dist) (hd : d.Inv) (i : ℕ) (hi : i < d.hist.length) :
    ∃ bin, d.getBin i = some bin ∧ bin.items = d.hist.getD i 0 ∧ bin.content <:+: d.sorted ∧
      (∀ x ∈ bin.content, bin.min ≤ x ∧ x ≤ bin.max) ∧
      d.edges.getD i 0 ≤ bin.min ∧ bin.min ≤ bin.max ∧ bin.max ≤ d.edges.getD (i + 1) 0 := by
  rcases getBin_eq d hd i hi with ⟨h1, h2⟩ | ⟨x, y, h1, h2, h3, h4⟩
  · refine ⟨_, h2, rfl, List.nil_infix, by simp, le_refl _, (hd.lt (Nat.lt_succ_self i) hi).le, le_refl _⟩
  · obtain ⟨k1, k2, k3, k4⟩ := binView_spec d hd i hi
    have hmem : ∀ z ∈ d.binView i, d.edges.getD i 0 ≤ z ∧ z ≤ d.edges.getD (i + 1) 0 := by
      intro z hz
      have := k4.subset hz
      rw [List.mem_filter] at this
      simpa using this.2
    have hx := List.mem_of_head? h2
    have hy := List.mem_of_getLast? h3
    have hall : ∀ z ∈ d.binView i, x ≤ z ∧ z ≤ y := by
      intro z hz
      constructor
      · obtain ⟨t, ht⟩ : ∃ t, d.binView i = x :: t := by
          cases hb : d.binView i with
          | nil => rw [hb] at h2; simp at h2
          | cons u v => rw [hb] at h2; simp at h2; exact ⟨v, by rw [h2]⟩
        rw [ht] at hz k2
        rw [List.pairwise_cons] at k2
        rcases List.mem_cons.mp hz with rfl | hz
        · exact le_refl _
        · exact k2.1 z hz
      · have hne : d.binView i ≠ [] := List.ne_nil_of_mem hz
        rw [List.getLast?_eq_some_getLast hne] at h3
        injection h3 with h3
        rw [← List.dropLast_append_getLast hne, List.mem_append] at hz
        rw [← List.dropLast_append_getLast hne, List.pairwise_append] at k2
        rcases hz with hz | hz
        · rw [← h3]; exact k2.2.2 z hz _ (by simp)
        · rw [List.mem_singleton] at hz; rw [hz, h3]
    exact ⟨_, h4, rfl, k3, hall, (hmem x hx).1, (hall x hx).2, (hmem y hy).2⟩

/-! ### The C32 statements -/

end Dist

open Dist

/-- C32, invariant.  Take any data, any number of bins ≥ 1 and any history of slices `d[a:b]` with `a ≤ b`.  If no
slice raises, the result has exactly one more edge than bins, strictly increasing edges, and its data is a contiguous
part of the sorted original data. -/
theorem C32_history (a : List ℚ) (n : ℕ) (hn : 1 ≤ n) (rs : List (ℚ × ℚ)) (hrs : ∀ r ∈ rs, r.1 ≤ r.2) (d : Dist)
    (h : (Dist.build a n).slices rs = some d) :
    d.edges.length = d.hist.length + 1 ∧ d.edges.Pairwise (· < ·) ∧
      d.sorted <:+: a.mergeSort (fun x y => decide (x ≤ y)) := by
  obtain ⟨h1, h2⟩ := slices_inv (inv_build a n hn) rs hrs h
  exact ⟨h1.len, h1.inc, h2⟩

/-- C32, bins.  In every state reached as above, reading any existing bin succeeds (the assertion in `get_bin` never
fails), reports the stored count, and its extremes lie inside the bin's edges; every element returned comes from the
sorted data, in order, and lies between the reported extremes. -/
theorem C32_bins (a : List ℚ) (n : ℕ) (hn : 1 ≤ n) (rs : List (ℚ × ℚ)) (hrs : ∀ r ∈ rs, r.1 ≤ r.2) (d : Dist)
    (h : (Dist.build a n).slices rs = some d) (i c : ℕ) (lo hi : ℚ) (hc : d.hist[i]? = some c)
    (hlo : d.edges[i]? = some lo) (hhi : d.edges[i + 1]? = some hi) :
    ∃ bin, d.getBin i = some bin ∧ bin.items = c ∧ lo ≤ bin.min ∧ bin.min ≤ bin.max ∧ bin.max ≤ hi ∧
      bin.content <:+: a.mergeSort (fun x y => decide (x ≤ y)) ∧
      (∀ x ∈ bin.content, x ∈ a ∧ bin.min ≤ x ∧ x ≤ bin.max) := by
  obtain ⟨h1, h2⟩ := slices_inv (inv_build a n hn) rs hrs h
  have hi' : i < d.hist.length := by
    by_contra hcon; rw [List.getElem?_eq_none (by omega)] at hc; simp at hc
  obtain ⟨bin, k1, k2, k3, k4, k5, k6, k7⟩ := getBin_spec d h1 i hi'
  rw [List.getD_eq_getElem?_getD, hc] at k2
  rw [List.getD_eq_getElem?_getD, hlo] at k5
  rw [List.getD_eq_getElem?_getD, hhi] at k7
  refine ⟨bin, k1, k2, k5, k6, k7, k3.trans h2, fun x hx => ⟨?_, k4 x hx⟩⟩
  exact (sorted_perm a).mem_iff.mp ((k3.trans h2).subset hx)

namespace Dist

theorem getMin_of_inv (d : Dist) (hd : d.Inv) {m : ℚ} (h : d.getMin = some m) :
    0 < d.hist.length ∧ ((d.hist.getD 0 0 < 2 ∧ m = d.edges.getD 0 0) ∨
      (2 ≤ d.hist.getD 0 0 ∧ (d.binView 0).head? = some m)) := by
  have hlen := hd.len
  have hpos : 0 < d.hist.length := by
    by_contra hc
    have h0 : d.hist = [] := List.length_eq_zero_iff.mp (by omega)
    have hbin : d.getBin 0 = none := by
      unfold getBin
      rw [h0]
      cases e : d.edges with
      | nil => simp [ReducedLUT.pyIndex]
      | cons u v =>
        rw [h0, e] at hlen
        have : v = [] := List.length_eq_zero_iff.mp (by simpa using hlen)
        subst this
        simp [ReducedLUT.pyIndex]
    unfold getMin at h
    rw [hbin] at h
    simp at h
  refine ⟨hpos, ?_⟩
  unfold getMin at h
  rw [show (0 : ℤ) = ((0 : ℕ) : ℤ) from rfl] at h
  rcases getBin_eq d hd 0 hpos with ⟨h1, h2⟩ | ⟨x, y, h1, h2, h3, h4⟩
  · rw [h2] at h
    simp only [Option.map_some, Option.some.injEq] at h
    exact Or.inl ⟨h1, h.symm⟩
  · rw [h4] at h
    simp only [Option.map_some, Option.some.injEq] at h
    exact Or.inr ⟨h1, by rw [← h]; exact h2⟩

theorem getMax_of_inv (d : Dist) (hd : d.Inv) {m : ℚ} (h : d.getMax = some m) :
    0 < d.hist.length ∧ ((d.hist.getD (d.hist.length - 1) 0 < 2 ∧ m = d.edges.getD d.hist.length 0) ∨
      (2 ≤ d.hist.getD (d.hist.length - 1) 0 ∧ (d.binView (d.hist.length - 1)).getLast? = some m)) := by
  have hlen := hd.len
  have hpos : 0 < d.hist.length := by
    by_contra hc
    have h0 : d.hist = [] := List.length_eq_zero_iff.mp (by omega)
    have hbin : d.getBin (-1) = none := by
      unfold getBin
      rw [h0]
      cases e : d.edges with
      | nil => simp [ReducedLUT.pyIndex]
      | cons u v =>
        rw [h0, e] at hlen
        have : v = [] := List.length_eq_zero_iff.mp (by simpa using hlen)
        subst this
        simp [ReducedLUT.pyIndex]
    unfold getMax at h
    rw [hbin] at h
    simp at h
  refine ⟨hpos, ?_⟩
  unfold getMax at h
  have hidx : d.getBin (-1) = d.getBin ((d.hist.length - 1 : ℕ) : ℤ) := by
    unfold getBin
    rw [if_pos (by omega), if_neg (by omega), show (d.edges.length : ℤ) - 1 + -1 = ((d.hist.length - 1 : ℕ) : ℤ) by omega]
  rw [hidx] at h
  rcases getBin_eq d hd _ (show d.hist.length - 1 < d.hist.length by omega) with ⟨h1, h2⟩ | ⟨x, y, h1, h2, h3, h4⟩
  · rw [h2] at h
    simp only [Option.map_some, Option.some.injEq] at h
    rw [show d.hist.length - 1 + 1 = d.hist.length by omega] at h
    exact Or.inl ⟨h1, h.symm⟩
  · rw [h4] at h
    simp only [Option.map_some, Option.some.injEq] at h
    exact Or.inr ⟨h1, by rw [← h]; exact h3⟩

theorem binView_bounds (d : Dist) (hd : d.Inv) (i : ℕ) (hi : i < d.hist.length) (z : ℚ) (hz : z ∈ d.binView i) :
    z ∈ d.sorted ∧ d.edges.getD i 0 ≤ z ∧ z ≤ d.edges.getD (i + 1) 0 := by
  obtain ⟨-, -, -, k4⟩ := binView_spec d hd i hi
  have := k4.subset hz
  rw [List.mem_filter] at this
  simpa using this

theorem clone_min_max (d : Dist) (hd : d.Inv) (a b : ℚ) (hab : a ≤ b) (d' : Dist) (h : d.clone a b = some d')
    (m M m' M' : ℚ) (hm : d.getMin = some m) (hM : d.getMax = some M) (hm' : d'.getMin = some m')
    (hM' : d'.getMax = some M') : m ≤ m' ∧ M' ≤ M := by
  obtain ⟨h1, h2⟩ := clone_indices d hd a b hab
  change d.cloneLo a ≤ d.cloneHi b at h1
  change d.cloneHi b ≤ d.hist.length at h2
  have hlen := hd.len
  have hd' := hd.clone hab h
  rw [clone_eq d hd a b hab] at h
  injection h with h
  obtain ⟨p1, p2⟩ := getMin_of_inv d hd hm
  obtain ⟨-, p3⟩ := getMax_of_inv d hd hM
  obtain ⟨q1, q2⟩ := getMin_of_inv d' hd' hm'
  obtain ⟨-, q3⟩ := getMax_of_inv d' hd' hM'
  have hl' : d'.hist.length = d.cloneHi b - d.cloneLo a := by
    rw [← h]; simp only [List.length_drop, List.length_take]; omega
  have he : ∀ i ≤ d'.hist.length, d'.edges.getD i 0 = d.edges.getD (d.cloneLo a + i) 0 := by
    intro i hi
    rw [← h]; exact getD_take_drop _ _ _ _ _ (by omega)
  have hh : ∀ i < d'.hist.length, d'.hist.getD i 0 = d.hist.getD (d.cloneLo a + i) 0 := by
    intro i hi
    rw [← h]; exact getD_take_drop _ _ _ _ _ (by omega)
  have hs : ∀ z ∈ d'.sorted, z ∈ d.sorted := by
    intro z hz
    rw [← h] at hz
    exact (List.mem_filter.mp hz).1
  constructor
  · have hm'1 : d'.edges.getD 0 0 ≤ m' := by
      rcases q2 with ⟨_, q⟩ | ⟨_, q⟩
      · rw [q]
      · exact (binView_bounds d' hd' 0 q1 m' (List.mem_of_head? q)).2.1
    rw [he 0 (by omega)] at hm'1
    rcases Nat.eq_zero_or_pos (d.cloneLo a) with hz | hz
    · rw [hz] at hm'1
      rcases p2 with ⟨_, p⟩ | ⟨hge, p⟩
      · rw [p]; exact hm'1
      · rcases q2 with ⟨hlt, _⟩ | ⟨_, q⟩
        · rw [hh 0 q1, hz] at hlt; simp only [Nat.add_zero] at hlt; omega
        · have hmem := binView_bounds d' hd' 0 q1 m' (List.mem_of_head? q)
          have hmf : m' ∈ d.sorted.filter (fun x => decide (d.edges.getD 0 0 ≤ x)) := by
            rw [List.mem_filter]
            refine ⟨hs _ hmem.1, ?_⟩
            simpa using hm'1
          have hpw : (d.sorted.filter (fun x => decide (d.edges.getD 0 0 ≤ x))).Pairwise (· ≤ ·) := hd.data.filter _
          unfold binView at p
          cases hf : d.sorted.filter (fun x => decide (d.edges.getD 0 0 ≤ x)) with
          | nil => rw [hf] at hmf; simp at hmf
          | cons u v =>
            rw [hf] at p hmf hpw
            rw [List.head?_take, if_neg (by omega)] at p
            simp only [List.head?_cons, Option.some.injEq] at p
            rw [List.pairwise_cons] at hpw
            rcases List.mem_cons.mp hmf with rfl | hmf
            · rw [p]
            · rw [← p]; exact hpw.1 _ hmf
    · have hme : m ≤ d.edges.getD 1 0 := by
        rcases p2 with ⟨_, p⟩ | ⟨_, p⟩
        · rw [p]; exact hd.le (by omega) (by omega)
        · exact (binView_bounds d hd 0 p1 m (List.mem_of_head? p)).2.2
      have := hd.le (show 1 ≤ d.cloneLo a + 0 by omega) (by omega)
      linarith
  · have hM'1 : M' ≤ d'.edges.getD d'.hist.length 0 := by
      rcases q3 with ⟨_, q⟩ | ⟨_, q⟩
      · rw [q]
      · have := (binView_bounds d' hd' _ (by omega) M' (List.mem_of_getLast? q)).2.2
        rwa [show d'.hist.length - 1 + 1 = d'.hist.length by omega] at this
    have hMe : d.edges.getD (d.hist.length - 1) 0 ≤ M := by
      rcases p3 with ⟨_, p⟩ | ⟨_, p⟩
      · rw [p]; exact hd.le (by omega) (by omega)
      · exact (binView_bounds d hd _ (by omega) M (List.mem_of_getLast? p)).2.1
    rcases Nat.lt_or_ge (d.cloneHi b) d.hist.length with hz | hz
    · rw [he _ (le_refl _), show d.cloneLo a + d'.hist.length = d.cloneHi b by omega] at hM'1
      have := hd.le (show d.cloneHi b ≤ d.hist.length - 1 by omega) (by omega)
      linarith
    · have hhi : d.cloneLo a + d'.hist.length = d.hist.length := by omega
      rw [he _ (le_refl _), hhi] at hM'1
      rcases p3 with ⟨_, p⟩ | ⟨hge, p⟩
      · rw [p]; exact hM'1
      · rcases q3 with ⟨hlt, _⟩ | ⟨_, q⟩
        · rw [hh _ (by omega), show d.cloneLo a + (d'.hist.length - 1) = d.hist.length - 1 by omega] at hlt
          omega
        · -- both views are prefixes of the same length of the same list
          obtain ⟨l1, -, -, l4⟩ := binView_spec d hd (d.hist.length - 1) (by omega)
          obtain ⟨l1', -, -, l4'⟩ := binView_spec d' hd' (d'.hist.length - 1) (by omega)
          have ee : d.sorted.filter (fun x => decide (d.edges.getD (d.hist.length - 1) 0 ≤ x ∧
              x ≤ d.edges.getD (d.hist.length - 1 + 1) 0)) =
              d'.sorted.filter (fun x => decide (d'.edges.getD (d'.hist.length - 1) 0 ≤ x ∧
              x ≤ d'.edges.getD (d'.hist.length - 1 + 1) 0)) := by
            rw [he _ (by omega), he _ (by omega),
              show d.cloneLo a + (d'.hist.length - 1) = d.hist.length - 1 by omega,
              show d.cloneLo a + (d'.hist.length - 1 + 1) = d.hist.length - 1 + 1 by omega]
            rw [← h]
            simp only
            rw [List.filter_filter]
            apply List.filter_congr
            intro x _
            have r1 := hd.le (show d.cloneLo a ≤ d.hist.length - 1 by omega) (by omega)
            have r2 := hd.le (show d.hist.length - 1 + 1 ≤ d.cloneHi b by omega) (by omega)
            rw [Bool.eq_iff_iff]
            simp only [Bool.and_eq_true, decide_eq_true_eq]
            constructor
            · intro ⟨x1, x2⟩; exact ⟨⟨x1, x2⟩, by linarith, by linarith⟩
            · exact fun hx => hx.1
          rw [← ee] at l4'
          have hll : (d.binView (d.hist.length - 1)).length = (d'.binView (d'.hist.length - 1)).length := by
            rw [l1, l1', hh _ (by omega), show d.cloneLo a + (d'.hist.length - 1) = d.hist.length - 1 by omega]
          have hsame : d.binView (d.hist.length - 1) = d'.binView (d'.hist.length - 1) := by
            rw [List.prefix_iff_eq_take.mp l4, List.prefix_iff_eq_take.mp l4', hll]
          rw [hsame, q] at p
          injection p with p
          exact p.le

end Dist

/-- C32, extremes.  In every state reached as above, a slice at least one bin wide has its minimum and maximum inside
those of the distribution it was taken from. -/
theorem C32_min_max (a : List ℚ) (n : ℕ) (hn : 1 ≤ n) (rs : List (ℚ × ℚ)) (hrs : ∀ r ∈ rs, r.1 ≤ r.2) (d d' : Dist)
    (h : (Dist.build a n).slices rs = some d) (x y w : ℚ) (hxy : x ≤ y) (hw : d.binSize = some w) (hwide : w ≤ y - x)
    (h' : d.getSlice (some x) (some y) = some d') (m M m' M' : ℚ) (hm : d.getMin = some m) (hM : d.getMax = some M)
    (hm' : d'.getMin = some m') (hM' : d'.getMax = some M') : m ≤ m' ∧ M' ≤ M := by
  obtain ⟨h1, -⟩ := slices_inv (inv_build a n hn) rs hrs h
  unfold Dist.getSlice at h'
  simp only [Option.bind_eq_bind, Option.bind_some, hw] at h'
  rw [if_neg (by rw [abs_sub_comm, abs_of_nonneg (by linarith)]; linarith)] at h'
  exact clone_min_max d h1 x y hxy d' h' m M m' M' hm hM hm' hM'

/-- C32, identity.  Slicing a fresh distribution without bounds returns it unchanged. -/
theorem C32_full_slice (a : List ℚ) (ha : a ≠ []) (n : ℕ) (hn : 3 ≤ n) :
    (Dist.build a n).getSlice none none = some (Dist.build a n) := by
  obtain ⟨m, hm, m1, m2, m3⟩ := Dist.getMin_build a ha n (by omega) true
  obtain ⟨M, hM, M1, M2, M3⟩ := Dist.getMax_build a ha n (by omega) true
  obtain ⟨ho, hall⟩ := Dist.outer_spec a ha
  have hinv := inv_build a n (by omega)
  have key : m = (Dist.outer a).1 ∧ M = (Dist.outer a).2 := by
    obtain ⟨b, t, rfl⟩ := List.exists_cons_of_ne_nil ha
    obtain ⟨lo, hlo⟩ : ∃ lo, (b :: t).min? = some lo := by simp [List.min?_cons]
    obtain ⟨hi, hhi⟩ : ∃ hi, (b :: t).max? = some hi := by simp [List.max?_cons]
    have k1 := (List.min?_eq_some_iff.mp hlo)
    have k2 := (List.max?_eq_some_iff.mp hhi)
    by_cases hc : lo = hi
    · have hconst : ∀ x ∈ b :: t, x = lo := fun x hx =>
        le_antisymm (by rw [hc]; exact k2.2 x hx) (k1.2 x hx)
      obtain ⟨q1, q2⟩ := Dist.hist_const _ ha n hn true lo hconst
      exact ⟨m3 q1, M3 q2⟩
    · have e : Dist.outer (b :: t) = (lo, hi) := by unfold Dist.outer; rw [hlo, hhi]; simp [hc]
      rw [e] at m2 M2 ⊢
      exact ⟨le_antisymm (m1 lo k1.1) m2, le_antisymm M2 (M1 hi k2.1)⟩
  have hE : (Dist.build a n).edges = linEdges (Dist.outer a).1 (Dist.outer a).2 n := rfl
  have hlenH : (Dist.build a n).hist.length = n := by
    show (counts a (linEdges _ _ n)).length = n
    simp [counts, linEdges_length]
  have hn0 : (0 : ℚ) < n := by exact_mod_cast (by omega : 0 < n)
  have hn3 : (3 : ℚ) ≤ n := by exact_mod_cast hn
  have hlt' : m < M := by rw [key.1, key.2]; exact ho
  have e0 : (Dist.build a n).edges.getD 0 0 = m := by
    rw [hE, linEdges_getD _ _ _ _ (by omega), key.1]; simp
  have en : (Dist.build a n).edges.getD n 0 = M := by
    rw [hE, linEdges_getD _ _ _ _ (le_refl _), key.2]; field_simp; ring
  have hsz : (Dist.build a n).binSize = some |((Dist.outer a).2 - (Dist.outer a).1) / n| := by
    unfold Dist.binSize
    rw [hE, linEdges_get _ _ _ _ (by omega), linEdges_get _ _ _ _ (by omega)]
    simp
  unfold Dist.getSlice
  have hm2 : (Dist.build a n).getMin = some m := hm
  have hM2 : (Dist.build a n).getMax = some M := hM
  simp only [hm2, hM2, hsz, Option.bind_eq_bind, Option.bind_some]
  rw [if_neg]
  swap
  · rw [not_lt, ← key.1, ← key.2, abs_sub_comm, abs_of_pos (show 0 < M - m by linarith),
      abs_of_pos (div_pos (show 0 < M - m by linarith) hn0), div_le_iff₀ hn0]
    nlinarith
  rw [clone_eq _ hinv m M hlt'.le]
  have hlo : (Dist.build a n).cloneLo m = 0 := by
    unfold Dist.cloneLo
    rcases lastEdgeLe_spec (Dist.build a n).edges m 0 with ⟨h1, _⟩ | ⟨h1, h2, _⟩
    · exact h1
    · by_contra hne
      have := hinv.lt (show 0 < lastEdgeLe (Dist.build a n).edges m 0 by omega) (by rw [hinv.len] at h1; omega)
      linarith
  have hhi : (Dist.build a n).cloneHi M = n := by
    unfold Dist.cloneHi
    rw [hlenH]
    rcases lastEdgeLe_spec (Dist.build a n).edges M n with ⟨h1, _⟩ | ⟨h1, h2, h3⟩
    · rw [h1]; omega
    · have := h3 n (by rw [hinv.len]; omega) en.le
      omega
  rw [hlo, hhi, e0, en]
  have hlenE : (Dist.build a n).edges.length = n + 1 := by rw [hinv.len, hlenH]
  simp only [Option.some.injEq]
  show Dist.mk _ _ _ _ = Dist.mk (Dist.build a n).sorted (Dist.build a n).edges (Dist.build a n).hist true
  congr 1
  · rw [List.filter_eq_self]
    intro x hx
    have := hall x ((Dist.sorted_perm a).mem_iff.mp hx)
    rw [← key.1, ← key.2] at this
    simpa using this
  · rw [List.drop_zero, ← hlenE, List.take_length]
  · rw [List.drop_zero, List.take_of_length_le (by omega)]

namespace Dist

/-- The defining property of `lastEdgeLe` when some edge is at most `v`. -/
theorem lastEdgeLe_unique (d : Dist) (hd : d.Inv) (v : ℚ) (dflt k : ℕ) (hk : k ≤ d.hist.length)
    (h1 : d.edges.getD k 0 ≤ v) (h2 : ∀ i ≤ d.hist.length, d.edges.getD i 0 ≤ v → i ≤ k) :
    lastEdgeLe d.edges v dflt = k := by
  have hlen := hd.len
  rcases lastEdgeLe_spec d.edges v dflt with ⟨_, h⟩ | ⟨h3, h4, h5⟩
  · exact absurd h1 (h k (by omega))
  · exact le_antisymm (h2 _ (by omega) h4) (h5 k (by omega) h1)

theorem clone_clone (d : Dist) (hd : d.Inv) (a b c e : ℚ) (hac : a ≤ c) (hce : c ≤ e) (heb : e ≤ b)
    (h0 : d.edges.getD 0 0 ≤ e) : (d.clone a b).bind (fun d' => d'.clone c e) = d.clone c e := by
  have hab : a ≤ b := by linarith
  have hlen := hd.len
  obtain ⟨i1, i2⟩ := clone_indices d hd a b hab
  obtain ⟨j1, j2⟩ := clone_indices d hd c e hce
  change d.cloneLo a ≤ d.cloneHi b at i1
  change d.cloneHi b ≤ d.hist.length at i2
  change d.cloneLo c ≤ d.cloneHi e at j1
  change d.cloneHi e ≤ d.hist.length at j2
  have hcl := clone_eq d hd a b hab
  have hinv' := hd.clone hab hcl
  rw [hcl, Option.bind_some]
  set d' : Dist := { sorted := d.sorted.filter (fun x => decide
          (d.edges.getD (d.cloneLo a) 0 ≤ x ∧ x ≤ d.edges.getD (d.cloneHi b) 0))
                     edges := (d.edges.take (d.cloneHi b + 1)).drop (d.cloneLo a)
                     hist := (d.hist.take (d.cloneHi b)).drop (d.cloneLo a)
                     partialBins := true } with hd'
  have hl' : d'.hist.length = d.cloneHi b - d.cloneLo a := by
    rw [hd']; simp only [List.length_drop, List.length_take]; omega
  have he : ∀ i ≤ d'.hist.length, d'.edges.getD i 0 = d.edges.getD (d.cloneLo a + i) 0 := by
    intro i hi
    rw [hd']; exact getD_take_drop _ _ _ _ _ (by omega)
  -- the last edge at most `e`
  obtain ⟨je, je1, je2, je3⟩ : ∃ j, j ≤ d.hist.length ∧ d.edges.getD j 0 ≤ e ∧
      ∀ i ≤ d.hist.length, d.edges.getD i 0 ≤ e → i ≤ j := by
    rcases lastEdgeLe_spec d.edges e 0 with ⟨_, h⟩ | ⟨h3, h4, h5⟩
    · exact absurd h0 (h 0 (by omega))
    · exact ⟨_, by omega, h4, fun i hi h => h5 i (by omega) h⟩
  obtain ⟨jb, jb1, jb2, jb3⟩ : ∃ j, j ≤ d.hist.length ∧ d.edges.getD j 0 ≤ b ∧
      ∀ i ≤ d.hist.length, d.edges.getD i 0 ≤ b → i ≤ j := by
    rcases lastEdgeLe_spec d.edges b 0 with ⟨_, h⟩ | ⟨h3, h4, h5⟩
    · exact absurd (le_trans h0 heb) (h 0 (by omega))
    · exact ⟨_, by omega, h4, fun i hi h => h5 i (by omega) h⟩
  have hje : je ≤ jb := jb3 je je1 (le_trans je2 heb)
  have hHb : d.cloneHi b = min (jb + 1) d.hist.length := by
    unfold cloneHi; rw [lastEdgeLe_unique d hd b _ jb jb1 jb2 jb3]
  have hHe : d.cloneHi e = min (je + 1) d.hist.length := by
    unfold cloneHi; rw [lastEdgeLe_unique d hd e _ je je1 je2 je3]
  have hLa_e : d.edges.getD (d.cloneLo a) 0 ≤ e := by
    unfold cloneLo
    rcases lastEdgeLe_spec d.edges a 0 with ⟨h, _⟩ | ⟨_, h, _⟩
    · rw [h]; exact h0
    · linarith
  have hLa : d.cloneLo a ≤ je := je3 _ (by omega) hLa_e
  have hHe' : d'.cloneHi e = d.cloneHi e - d.cloneLo a := by
    have hlast : lastEdgeLe d'.edges e d'.hist.length = je - d.cloneLo a := by
      apply lastEdgeLe_unique d' hinv'
      · omega
      · rw [he _ (by omega), show d.cloneLo a + (je - d.cloneLo a) = je by omega]; exact je2
      · intro i hi hie
        rw [he i hi] at hie
        have := je3 _ (by omega) hie
        omega
    have : d'.cloneHi e = min (je - d.cloneLo a + 1) d'.hist.length := by unfold cloneHi; rw [hlast]
    omega
  have hLc : d.cloneLo a ≤ d.cloneLo c ∧ d'.cloneLo c = d.cloneLo c - d.cloneLo a := by
    rcases lastEdgeLe_spec d.edges c 0 with ⟨g1, g2⟩ | ⟨g1, g2, g3⟩
    · have ha0 : d.cloneLo a = 0 := by
        unfold cloneLo
        rcases lastEdgeLe_spec d.edges a 0 with ⟨h, _⟩ | ⟨h, h', _⟩
        · exact h
        · exact absurd (le_trans h' hac) (g2 _ h)
      have hc0 : d.cloneLo c = 0 := g1
      rw [ha0, hc0]
      refine ⟨le_refl _, ?_⟩
      have hlen' := hinv'.len
      show lastEdgeLe d'.edges c 0 = 0
      rcases lastEdgeLe_spec d'.edges c 0 with ⟨h, _⟩ | ⟨h, h', _⟩
      · exact h
      · rw [he _ (by omega)] at h'
        exact absurd h' (g2 _ (by omega))
    · have hac' : d.cloneLo a ≤ d.cloneLo c := by
        show lastEdgeLe d.edges a 0 ≤ lastEdgeLe d.edges c 0
        rcases lastEdgeLe_spec d.edges a 0 with ⟨h, _⟩ | ⟨h, h', _⟩
        · rw [h]; exact Nat.zero_le _
        · exact g3 _ h (le_trans h' hac)
      refine ⟨hac', ?_⟩
      have hce' : d.cloneLo c ≤ je := je3 _ (by omega) (le_trans g2 hce)
      apply lastEdgeLe_unique d' hinv'
      · omega
      · rw [he _ (by omega), show d.cloneLo a + (d.cloneLo c - d.cloneLo a) = d.cloneLo c by omega]; exact g2
      · intro i hi hic
        rw [he i hi] at hic
        have h5 : d.cloneLo a + i ≤ d.cloneLo c := g3 _ (by omega) hic
        omega
  obtain ⟨hLc1, hLc2⟩ := hLc
  have hHle : d.cloneHi e ≤ d.cloneHi b := by omega
  rw [clone_eq d' hinv' c e hce, clone_eq d hd c e hce, hLc2, hHe', he _ (by omega), he _ (by omega),
    show d.cloneLo a + (d.cloneLo c - d.cloneLo a) = d.cloneLo c by omega,
    show d.cloneLo a + (d.cloneHi e - d.cloneLo a) = d.cloneHi e by omega]
  simp only [Option.some.injEq, Dist.mk.injEq, and_true]
  have hdt : ∀ {α : Type} (l : List α) (k k' u v : ℕ), u ≤ k' → k' ≤ k → u ≤ v → v ≤ k' →
      (((l.take k).drop u).take (k' - u)).drop (v - u) = (l.take k').drop v := by
    intro α l k k' u v h1 h2 h3 h4
    rw [← List.drop_take, List.drop_drop, List.take_take]
    congr 1
    · omega
    · congr 1; omega
  refine ⟨?_, ?_, ?_⟩
  · rw [hd']
    simp only
    rw [List.filter_filter]
    apply List.filter_congr
    intro x _
    have r1 := hd.le hLc1 (by omega)
    have r2 := hd.le hHle i2
    rw [Bool.eq_iff_iff]
    simp only [Bool.and_eq_true, decide_eq_true_eq]
    constructor
    · exact fun hx => hx.1
    · intro ⟨x1, x2⟩; exact ⟨⟨x1, x2⟩, by linarith, by linarith⟩
  · rw [hd']
    simp only
    rw [show d.cloneHi e - d.cloneLo a + 1 = d.cloneHi e + 1 - d.cloneLo a by omega]
    exact hdt _ _ _ _ _ (by omega) (by omega) hLc1 (by omega)
  · rw [hd']
    simp only
    exact hdt _ _ _ _ _ (by omega) (by omega) hLc1 (by omega)

end Dist

/-- C32, composition.  In every state reached as above, `d[x:y][u:v] = d[u:v]` for `x ≤ u ≤ v ≤ y`, when the inner
bounds are at least a bin apart and not below the first edge. -/
theorem C32_compose (a : List ℚ) (n : ℕ) (hn : 1 ≤ n) (rs : List (ℚ × ℚ)) (hrs : ∀ r ∈ rs, r.1 ≤ r.2) (d d' : Dist)
    (h : (Dist.build a n).slices rs = some d) (x y u v w w' e : ℚ) (hxu : x ≤ u) (huv : u ≤ v) (hvy : v ≤ y)
    (hw : d.binSize = some w) (hw1 : w ≤ v - u) (he : d.edges[0]? = some e) (hev : e ≤ v)
    (hd' : d.getSlice (some x) (some y) = some d') (hw' : d'.binSize = some w') (hw2 : w' ≤ v - u) :
    d'.getSlice (some u) (some v) = d.getSlice (some u) (some v) := by
  obtain ⟨h1, -⟩ := slices_inv (inv_build a n hn) rs hrs h
  have hcc := clone_clone d h1 x y u v hxu huv hvy (by rw [List.getD_eq_getElem?_getD, he]; exact hev)
  unfold Dist.getSlice at hd' ⊢
  simp only [Option.bind_eq_bind, Option.bind_some, hw, hw'] at hd' ⊢
  rw [if_neg (by rw [abs_sub_comm, abs_of_nonneg (by linarith)]; linarith)] at hd'
  rw [if_neg (by rw [abs_sub_comm, abs_of_nonneg (by linarith)]; linarith),
    if_neg (by rw [abs_sub_comm, abs_of_nonneg (by linarith)]; linarith), ← hcc, hd', Option.bind_some]

/-- A four-bin distribution on which the hypotheses of the C32 theorems are met by a two-step history; the slices
drop bins at both ends and `[1:3]` directly gives the same result. -/
example :
    let d : Dist := ⟨[0, 1 / 2, 1, 2, 5 / 2, 4], [0, 1, 2, 3, 4], [2, 1, 2, 1], true⟩
    d.slices [(1 / 2, 3), (1, 2)] = d.slices [(1, 2)] ∧
      d.slices [(1, 2)] = some ⟨[1, 2, 5 / 2], [1, 2, 3], [1, 2], true⟩ ∧ d.binSize = some 1 := by decide +kernel

/-- Reversed bounds with a whole bin between them break the invariant: the result has no edges, no bins (so not one
more edge than bins) and no data. -/
theorem C32_reversed_bounds (a : List ℚ) (n : ℕ) (hn : 1 ≤ n) (rs : List (ℚ × ℚ)) (hrs : ∀ r ∈ rs, r.1 ≤ r.2)
    (d : Dist) (h : (Dist.build a n).slices rs = some d) (x y w e : ℚ) (k : ℕ) (hw : d.binSize = some w)
    (hwide : w ≤ x - y) (he : d.edges[0]? = some e) (hey : e ≤ y) (b c : ℚ) (hb : d.edges[k]? = some b)
    (hc : d.edges[k + 1]? = some c) (hyb : y < b) (hcx : c ≤ x) :
    d.getSlice (some x) (some y) = some ⟨[], [], [], true⟩ := by
  obtain ⟨hd, -⟩ := slices_inv (inv_build a n hn) rs hrs h
  have hlen := hd.len
  have hk : k + 1 < d.edges.length := by
    by_contra hcon; rw [List.getElem?_eq_none (by omega)] at hc; simp at hc
  have gb : d.edges.getD k 0 = b := by rw [List.getD_eq_getElem?_getD, hb]; rfl
  have gc : d.edges.getD (k + 1) 0 = c := by rw [List.getD_eq_getElem?_getD, hc]; rfl
  have ge : d.edges.getD 0 0 = e := by rw [List.getD_eq_getElem?_getD, he]; rfl
  have hlo : k + 1 ≤ lastEdgeLe d.edges x 0 ∧ lastEdgeLe d.edges x 0 ≤ d.hist.length := by
    rcases lastEdgeLe_spec d.edges x 0 with ⟨-, h2⟩ | ⟨h1, -, h3⟩
    · exact absurd (by rw [gc]; exact hcx) (h2 (k + 1) hk)
    · exact ⟨h3 (k + 1) hk (by rw [gc]; exact hcx), by omega⟩
  have hhi : lastEdgeLe d.edges y d.hist.length < k := by
    rcases lastEdgeLe_spec d.edges y d.hist.length with ⟨-, h2⟩ | ⟨h1, h2, -⟩
    · exact absurd (by rw [ge]; exact hey) (h2 0 (by omega))
    · by_contra hcon
      have := hd.le (i := k) (j := lastEdgeLe d.edges y d.hist.length) (by omega) (by omega)
      rw [gb] at this
      linarith
  unfold Dist.getSlice
  simp only [Option.bind_eq_bind, Option.bind_some, hw]
  have hw0 : 0 ≤ w := by
    unfold Dist.binSize at hw
    simp only [Option.bind_eq_bind, Option.bind_eq_some_iff, Option.some.injEq] at hw
    obtain ⟨_, -, _, -, rfl⟩ := hw
    exact abs_nonneg _
  rw [if_neg (by rw [abs_of_nonneg (by linarith)]; linarith)]
  unfold Dist.clone
  simp only [hd.part, if_true]
  obtain ⟨lo, hlo'⟩ : ∃ lo, lo = lastEdgeLe d.edges x 0 := ⟨_, rfl⟩
  obtain ⟨hi, hhi'⟩ : ∃ hi, hi = min (lastEdgeLe d.edges y d.hist.length + 1) d.hist.length := ⟨_, rfl⟩
  rw [← hlo', ← hhi']
  rw [← hlo'] at hlo
  have hhik : hi ≤ k := by omega
  have e1 : d.edges[lo]? = some (d.edges.getD lo 0) := by
    rw [List.getD_eq_getElem?_getD, List.getElem?_eq_getElem (by omega)]; rfl
  have e2 : d.edges[hi]? = some (d.edges.getD hi 0) := by
    rw [List.getD_eq_getElem?_getD, List.getElem?_eq_getElem (by omega)]; rfl
  rw [e1, e2]
  simp only [Option.some.injEq, Dist.mk.injEq, and_true]
  refine ⟨?_, ?_, ?_⟩
  · unfold Dist.slice Dist.searchLeft Dist.searchRight
    simp only
    apply List.drop_eq_nil_of_le
    refine le_trans (List.length_take_le _ _) ?_
    apply List.countP_mono_left
    intro z _ hz
    have := hd.lt (i := hi) (j := lo) (by omega) (by omega)
    simp only [decide_eq_true_eq] at hz ⊢
    linarith
  · apply List.drop_eq_nil_of_le
    rw [List.length_take]; omega
  · apply List.drop_eq_nil_of_le
    rw [List.length_take]; omega

/-- A slice that ends below the first edge keeps every bin instead of none. -/
theorem C32_stop_below_range (a : List ℚ) (n : ℕ) (hn : 1 ≤ n) (rs : List (ℚ × ℚ)) (hrs : ∀ r ∈ rs, r.1 ≤ r.2)
    (d : Dist) (h : (Dist.build a n).slices rs = some d) (x y w e : ℚ) (hxy : x ≤ y) (hw : d.binSize = some w)
    (hwide : w ≤ y - x) (he : d.edges[0]? = some e) (hye : y < e) :
    ∃ d', d.getSlice (some x) (some y) = some d' ∧ d'.edges = d.edges ∧ d'.hist = d.hist := by
  obtain ⟨hd, -⟩ := slices_inv (inv_build a n hn) rs hrs h
  have hlen := hd.len
  have ge : d.edges.getD 0 0 = e := by rw [List.getD_eq_getElem?_getD, he]; rfl
  have hnone : ∀ v < e, ∀ i < d.edges.length, ¬ d.edges.getD i 0 ≤ v := by
    intro v hv i hi hle
    have := hd.le (i := 0) (j := i) (by omega) (by omega)
    rw [ge] at this; linarith
  have hlo : d.cloneLo x = 0 := by
    unfold cloneLo
    rcases lastEdgeLe_spec d.edges x 0 with ⟨h1, -⟩ | ⟨h1, h2, -⟩
    · exact h1
    · exact absurd h2 (hnone x (by linarith) _ h1)
  have hhi : d.cloneHi y = d.hist.length := by
    unfold cloneHi
    rcases lastEdgeLe_spec d.edges y d.hist.length with ⟨h1, -⟩ | ⟨h1, h2, -⟩
    · rw [h1]; omega
    · exact absurd h2 (hnone y hye _ h1)
  unfold Dist.getSlice
  simp only [Option.bind_eq_bind, Option.bind_some, hw]
  rw [if_neg (by rw [abs_sub_comm, abs_of_nonneg (by linarith)]; linarith), clone_eq d hd x y hxy, hlo, hhi]
  refine ⟨_, rfl, ?_, ?_⟩
  · simp only [List.drop_zero]; rw [List.take_of_length_le (by omega)]
  · simp only [List.drop_zero]; rw [List.take_of_length_le (by omega)]

/-- A slice narrower than a bin that contains a single value has its extremes half a unit outside that value. -/
theorem C32_narrow_slice (d : Dist) (x y v w : ℚ) (hd : d.slice (some x) (some y) = [v]) (hw : d.binSize = some w)
    (hxy : |x - y| < w) :
    ∃ d', d.getSlice (some x) (some y) = some d' ∧ d'.getMin = some (v - 1 / 2) ∧ d'.getMax = some (v + 1 / 2) := by
  unfold Dist.getSlice
  simp only [Option.bind_eq_bind, Option.bind_some, hw, hd]
  rw [if_pos hxy]
  refine ⟨_, rfl, ?_⟩
  have hc : Dist.counts [v] [v - 1 / 2, v + 1 / 2] = [1] := by
    simp only [Dist.counts, List.length_cons, List.length_nil]
    norm_num
  have : Dist.build [v] 1 = ⟨[v], [v - 1 / 2, v + 1 / 2], [1], true⟩ := by
    have ho : Dist.outer [v] = (v - 1 / 2, v + 1 / 2) := by simp [Dist.outer]
    have hl : Dist.linEdges (v - 1 / 2) (v + 1 / 2) 1 = [v - 1 / 2, v + 1 / 2] := by
      simp only [Dist.linEdges, List.range_succ, List.range_zero]
      norm_num
      ring
    unfold Dist.build
    simp only [ho, hl, hc]
    rw [List.mergeSort_singleton]
  rw [this]
  simp [Dist.getMin, Dist.getMax, Dist.getBin, ReducedLUT.pyIndex]

/-- Concrete cases: each of the three deviations on a four-bin distribution. -/
example :
    let d : Dist := ⟨[0, 1 / 2, 1, 2, 5 / 2, 4], [0, 1, 2, 3, 4], [2, 1, 2, 1], true⟩
    d.getSlice (some 4) (some 0) = some ⟨[], [], [], true⟩ ∧
      d.getSlice (some (-5)) (some (-1)) = some d ∧ d.slice (some 0) (some (1 / 4)) = [0] := by decide +kernel

end Verif
