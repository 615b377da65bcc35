import Verif.Lemmas.Float
import Verif.Props.Quant
import Verif.Props.FullyConnected

/-!
# Properties C72–C75: what is left of the exact properties in floating point

The other files treat floats as rationals.  Here `Fmt.f64.quantize` etc. perform the roundings of IEEE arithmetic
(model: `Verif.Model.Float`, vocabulary: `Verif.Spec.Float`).
-/

namespace Verif
open Spec

/-! ## The arithmetic itself -/

/-- C72.  `fl` is a correct rounding in the sense of the specification, in every format with a significand. -/
theorem C72_correct_rounding (F : Fmt) (hp : 1 ≤ F.p) (x : ℚ) : RoundsTo F.p F.emin x (F.fl x) :=
  ⟨Fmt.rep_fl F x, Fmt.fl_nearest hp x⟩

/-- One tenth, and a tie rounded to even. -/
example : Fmt.f64.fl (1 / 10) = 3602879701896397 / 2 ^ 55 ∧ Fmt.f64.fl (2 - 1 / 2 ^ 53) = 2 ∧
    Fmt.f32.fl (1 / 10) = 13421773 / 2 ^ 27 ∧ Fmt.f64.fl (1 / 2 ^ 1075) = 0 := by decide +kernel

namespace Fmt

theorem quantize_eq {F : Fmt} {d : GDtype} (h : Fits32 d.min d.max) (x : ℚ) (zp : ℤ) (s : ℚ) :
    F.quantize d x zp s = clip d.min d.max ⌊F.fl (F.floatRes x zp s + 1 / 2)⌋ := by
  unfold quantize round
  rw [castInt32_clip h]

/-- The accumulated error before the final `floor`. -/
theorem pre_err (F : Fmt) (hp : 6 ≤ F.p) (he : F.emin + F.p + 4 ≤ 0) (x : ℚ) (zp : ℤ) (s : ℚ) :
    |F.fl (F.floatRes x zp s + 1 / 2) - (x / s + zp + 1 / 2)| ≤
      (4 * |x / s| + 4 * |(zp : ℚ)| + 1) / 2 ^ F.p ∧
    |F.floatRes x zp s - (x / s + zp)| ≤ (4 * |x / s| + 4 * |(zp : ℚ)| + 1) / 2 ^ F.p := by
  obtain ⟨A, hA⟩ : ∃ A, A = |x / s| := ⟨_, rfl⟩
  obtain ⟨Z, hZ⟩ : ∃ Z, Z = |(zp : ℚ)| := ⟨_, rfl⟩
  have hA0 : 0 ≤ A := hA ▸ abs_nonneg _
  have hZ0 : 0 ≤ Z := hZ ▸ abs_nonneg _
  obtain ⟨u, hu⟩ : ∃ u : ℚ, u = 1 / 2 ^ F.p := ⟨_, rfl⟩
  have hu0 : 0 < u := by rw [hu]; positivity
  have hu1 : u ≤ 1 / 64 := by
    rw [hu]
    have : (2 : ℚ) ^ 6 ≤ 2 ^ F.p := pow_le_pow_right₀ (by norm_num) hp
    apply one_div_le_one_div_of_le (by norm_num)
    linarith
  obtain ⟨δ, hδ⟩ : ∃ δ : ℚ, δ = 2 ^ F.emin / 2 := ⟨_, rfl⟩
  have hδ0 : 0 < δ := by rw [hδ]; positivity
  have hδ1 : δ ≤ u / 32 := by
    have h : (2 : ℚ) ^ F.emin ≤ 2 ^ (-(F.p : ℤ) - 4) := zpow_le_zpow_right₀ (by norm_num) (by omega)
    have h2 : (2 : ℚ) ^ (-(F.p : ℤ) - 4) = u / 16 := by
      rw [zpow_sub₀ (by norm_num), zpow_neg, zpow_natCast, hu]; norm_num
    rw [h2] at h
    rw [hδ]; linarith
  have herr : ∀ y : ℚ, |F.fl y - y| ≤ |y| * u + δ := by
    intro y
    refine (fl_err F y).trans (max_le ?_ ?_)
    · rw [hu, mul_one_div]; linarith
    · have : 0 ≤ |y| * u := mul_nonneg (abs_nonneg _) hu0.le
      rw [← hδ]; linarith
  have h1 := herr (x / s)
  obtain ⟨a, ha⟩ : ∃ a, a = F.fl (x / s) := ⟨_, rfl⟩
  rw [← ha, ← hA] at h1
  have h2 := herr (a + zp)
  obtain ⟨b, hb⟩ : ∃ b, b = F.fl (a + zp) := ⟨_, rfl⟩
  rw [← hb] at h2
  have h3 := herr (b + 1 / 2)
  have hfr : F.floatRes x zp s = b := by unfold floatRes; rw [hb, ha]
  rw [hfr]
  obtain ⟨c, hc⟩ : ∃ c, c = F.fl (b + 1 / 2) := ⟨_, rfl⟩
  rw [← hc] at h3 ⊢
  rw [← hA, ← hZ]
  obtain ⟨X, hX⟩ : ∃ X, X = x / s := ⟨_, rfl⟩
  rw [← hX] at hA h1 ⊢
  have hz := abs_le.mp (le_of_eq hZ.symm)
  have hx := abs_le.mp (le_of_eq hA.symm)
  -- magnitudes
  have m1 : |a| ≤ A + (A * u + δ) := by
    have := abs_sub_abs_le_abs_sub a X; rw [← hA] at this; linarith
  have m2 : |a + (zp : ℚ)| ≤ A + (A * u + δ) + Z := by
    have := abs_add_le a (zp : ℚ); rw [← hZ] at this; linarith
  obtain ⟨P, hP⟩ : ∃ P, P = A + (A * u + δ) + Z := ⟨_, rfl⟩
  have e2 : |b - (a + zp)| ≤ P * u + δ := by
    have := mul_le_mul_of_nonneg_right m2 hu0.le
    rw [← hP] at this; linarith
  have m3 : |b + 1 / 2| ≤ P + (P * u + δ) + 1 / 2 := by
    have i1 := abs_add_le b (1 / 2)
    have i2 := abs_sub_abs_le_abs_sub b (a + zp)
    have i3 : |(1 / 2 : ℚ)| = 1 / 2 := by norm_num
    rw [i3] at i1; rw [← hP] at m2; linarith
  have e3 : |c - (b + 1 / 2)| ≤ (P + (P * u + δ) + 1 / 2) * u + δ := by
    have := mul_le_mul_of_nonneg_right m3 hu0.le
    linarith
  have hAu : A * u ≤ A / 64 := by nlinarith
  have hP1 : P ≤ A + A / 64 + δ + Z := by rw [hP]; linarith
  have hP0 : 0 ≤ P := by rw [hP]; have := mul_nonneg hA0 hu0.le; linarith
  have hPu : P * u ≤ (A + A / 64 + δ + Z) * u := mul_le_mul_of_nonneg_right hP1 hu0.le
  have hPu2 : P * u ≤ P / 64 := by nlinarith
  have hδu : δ ≤ 1 / 64 := by linarith
  have hTu : (P + (P * u + δ) + 1 / 2) * u ≤ (P + P / 64 + δ + 1 / 2) * u :=
    mul_le_mul_of_nonneg_right (by linarith) hu0.le
  have hTu2 : (P + P / 64 + δ + 1 / 2) * u ≤ ((A + A / 64 + δ + Z) * (65 / 64) + δ + 1 / 2) * u :=
    mul_le_mul_of_nonneg_right (by linarith) hu0.le
  have hAu0 := mul_nonneg hA0 hu0.le
  have hZu0 := mul_nonneg hZ0 hu0.le
  have hδu2 : δ * u ≤ u / 64 := by nlinarith
  have e12 : |b - (X + zp)| ≤ (A * u + δ) + (P * u + δ) := by
    have : b - (X + zp) = (b - (a + zp)) + (a - X) := by ring
    rw [this]; have := abs_add_le (b - (a + zp)) (a - X); linarith
  have e123 : |c - (X + zp + 1 / 2)| ≤ (A * u + δ) + (P * u + δ) + ((P + (P * u + δ) + 1 / 2) * u + δ) := by
    have : c - (X + zp + 1 / 2) = (c - (b + 1 / 2)) + (b - (X + zp)) := by ring
    rw [this]; have := abs_add_le (c - (b + 1 / 2)) (b - (X + zp)); linarith
  have hfin : (4 * A + 4 * Z + 1) / 2 ^ F.p = (4 * A + 4 * Z + 1) * u := by rw [hu]; ring
  rw [hfin]
  have x1 : (4 * A + 4 * Z + 1) * u = 4 * (A * u) + 4 * (Z * u) + u := by ring
  have x2 : (A + A / 64 + δ + Z) * u = 65 / 64 * (A * u) + δ * u + Z * u := by ring
  have x3 : ((A + A / 64 + δ + Z) * (65 / 64) + δ + 1 / 2) * u =
      4225 / 4096 * (A * u) + 129 / 64 * (δ * u) + 65 / 64 * (Z * u) + u / 2 := by ring
  rw [x1]
  rw [x2] at hPu
  rw [x3] at hTu2
  obtain ⟨Au, hAu'⟩ : ∃ t, t = A * u := ⟨_, rfl⟩
  obtain ⟨Zu, hZu'⟩ : ∃ t, t = Z * u := ⟨_, rfl⟩
  obtain ⟨Du, hDu'⟩ : ∃ t, t = δ * u := ⟨_, rfl⟩
  obtain ⟨Pu, hPu'⟩ : ∃ t, t = P * u := ⟨_, rfl⟩
  obtain ⟨T, hT'⟩ : ∃ t, t = (P + (P * u + δ) + 1 / 2) * u := ⟨_, rfl⟩
  have hT2 : T ≤ 4225 / 4096 * (A * u) + 129 / 64 * (δ * u) + 65 / 64 * (Z * u) + u / 2 := by
    rw [hT']; exact hTu.trans hTu2
  rw [← hT'] at e123
  rw [← hAu'] at e12 e123 hT2 hPu hAu0 ⊢
  rw [← hZu'] at hT2 hPu hZu0 ⊢
  rw [← hDu'] at hT2 hPu hδu2
  rw [← hPu'] at e12 e123 hPu
  clear hTu hTu2 e3 m3 e2 m2 m1 h1 h2 h3 hP hT' hfin x1 x2 x3 hPu2
  constructor
  · refine e123.trans ?_
    linarith
  · refine e12.trans ?_
    linarith

/-- Rounding half up of `t`, evaluated with an error of at most `e`. -/
theorem floor_err {c t e : ℚ} (h : |c - (t + 1 / 2)| ≤ e) : |((⌊c⌋ : ℤ) : ℚ) - t| ≤ 1 / 2 + e := by
  have h1 := Int.floor_le c
  have h2 := Int.lt_floor_add_one c
  obtain ⟨a, b⟩ := abs_le.mp h
  rw [abs_le]; constructor <;> linarith

theorem floor_agrees {c t e : ℚ} (h : |c - (t + 1 / 2)| ≤ e) : ⌊c⌋ = roundHalfUp t ∨ NearTie e t := by
  by_cases hne : ⌊c⌋ = roundHalfUp t
  · exact Or.inl hne
  · right
    obtain ⟨a, b⟩ := abs_le.mp h
    have h1 := Int.floor_le c
    have h2 := roundHalfUp_le t
    unfold roundHalfUp at *
    rcases lt_or_gt_of_ne hne with hlt | hgt
    · refine ⟨⌊t + 1 / 2⌋ - 1, ?_⟩
      have h3 : c < ⌊t + 1 / 2⌋ := Int.floor_lt.mp hlt
      rw [abs_le]; push_cast; constructor <;> linarith
    · refine ⟨⌊c⌋ - 1, ?_⟩
      have h3 : t + 1 / 2 < ⌊c⌋ := Int.floor_lt.mp hgt
      rw [abs_le]; push_cast; constructor <;> linarith

end Fmt

/-! ## C72: `quantize` and `dequantize` in float64 -/

/-- C72.  Every code is in the range of the dtype. -/
theorem C72_float_range (d : GDtype) (hd : Fits32 d.min d.max) (x : ℚ) (zp : ℤ) (s p : ℚ) (_hs : s ≠ 0) :
    Code d.min d.max (Fmt.f64.quantize d x zp s) ∧ Code d.min d.max (Fmt.f64.quantizePolicy d x zp s p) := by
  unfold Fmt.quantizePolicy Fmt.quantize Fmt.round
  rw [castInt32_clip hd, castInt32_clip hd]
  exact ⟨⟨clip_ge hd.2.1, clip_le⟩, ⟨clip_ge hd.2.1, clip_le⟩⟩

/-- C72.  Order is preserved exactly. -/
theorem C72_float_monotone (d : GDtype) (hd : Fits32 d.min d.max) (zp : ℤ) (s : ℚ) (hs : 0 < s)
    (x y : ℚ) (hxy : x ≤ y) : Fmt.f64.quantize d x zp s ≤ Fmt.f64.quantize d y zp s := by
  have hp : 1 ≤ Fmt.f64.p := by decide
  rw [Fmt.quantize_eq hd, Fmt.quantize_eq hd]
  apply clip_mono
  apply Int.floor_mono
  apply Fmt.fl_mono hp
  have : Fmt.f64.floatRes x zp s ≤ Fmt.f64.floatRes y zp s := by
    unfold Fmt.floatRes
    apply Fmt.fl_mono hp
    have := Fmt.fl_mono hp (div_le_div_of_nonneg_right hxy hs.le)
    linarith
  linarith

/-- C72.  The float64 result is the exact round-to-nearest-and-clip one, unless `x / s + zp` is within
`(4|x/s| + 4|zp| + 1)·2⁻⁵³` of a tie. -/
theorem C72_float_agrees (d : GDtype) (hd : Fits32 d.min d.max) (x : ℚ) (zp : ℤ) (s : ℚ) (_hs : s ≠ 0) :
    Fmt.f64.quantize d x zp s = Quantization.quantize d x zp s ∨
    NearTie ((4 * |x / s| + 4 * |(zp : ℚ)| + 1) / 2 ^ 53) (x / s + zp) := by
  have h := (Fmt.pre_err Fmt.f64 (by decide) (by decide) x zp s).1
  rw [Fmt.quantize_eq hd, Verif.quantize_eq hd]
  rcases Fmt.floor_agrees h with h1 | h1
  · left; rw [h1]
  · right; exact h1

/-- C72.  Inside the representable interval the error is at most half a step plus the rounding errors of three
operations; outside it the result saturates, exactly as in exact arithmetic (zero point and codes in int32). -/
theorem C72_float_accuracy (d : GDtype) (hd : Fits32 d.min d.max) (x : ℚ) (zp : ℤ) (hz : IsInt32 zp) (s : ℚ)
    (hs : 0 < s) :
    (real zp s d.min ≤ x → x ≤ real zp s d.max →
      |real zp s (Fmt.f64.quantize d x zp s) - x| ≤
        s * (1 / 2 + (4 * |x / s| + 4 * |(zp : ℚ)| + 1) / 2 ^ 53)) ∧
    (real zp s d.max ≤ x → Fmt.f64.quantize d x zp s = d.max) ∧
    (x ≤ real zp s d.min → Fmt.f64.quantize d x zp s = d.min) := by
  have hp : 1 ≤ Fmt.f64.p := by decide
  rw [Fmt.quantize_eq hd]
  have hint : ∀ n : ℤ, |n| ≤ 2 ^ 53 → Fmt.f64.Rep (n : ℚ) := fun n hn => Fmt.rep_int n hn (by decide)
  have hhalf : ∀ n : ℤ, IsInt32 n → Fmt.f64.Rep ((n : ℚ) + 1 / 2) := by
    intro n hn
    have := Fmt.rep_frac (F := Fmt.f64) (2 * n + 1) 1 (by
      unfold IsInt32 at hn; show |2 * n + 1| ≤ 2 ^ 53; rw [abs_le]; constructor <;> omega) (by decide)
    have e : ((2 * n + 1 : ℤ) : ℚ) / 2 ^ 1 = (n : ℚ) + 1 / 2 := by push_cast; ring
    rwa [e] at this
  refine ⟨?_, ?_, ?_⟩
  · intro h1 h2
    have h := Fmt.floor_err (Fmt.pre_err Fmt.f64 (by decide) (by decide) x zp s).1
    have hlo : (d.min : ℚ) ≤ x / s + zp := by
      unfold real at h1
      have : (d.min : ℚ) - zp ≤ x / s := by rw [le_div_iff₀ hs]; linarith
      linarith
    have hhi : x / s + zp ≤ (d.max : ℚ) := by
      unfold real at h2
      have : x / s ≤ (d.max : ℚ) - zp := by rw [div_le_iff₀ hs]; linarith
      linarith
    have hc := clip_error hd.2.1 _ _ _ h hlo hhi
    obtain ⟨q, hq⟩ : ∃ q, q = clip d.min d.max ⌊Fmt.f64.fl (Fmt.f64.floatRes x zp s + 1 / 2)⌋ := ⟨_, rfl⟩
    rw [← hq] at hc ⊢
    have : real zp s q - x = s * ((q : ℚ) - (x / s + zp)) := by unfold real; field_simp; ring
    rw [this, abs_mul, abs_of_pos hs]
    exact mul_le_mul_of_nonneg_left hc hs.le
  · intro h
    apply clip_of_ge
    have i : IsInt32 d.max := ⟨by have := hd.1; have := hd.2.1; omega, hd.2.2⟩
    unfold IsInt32 at i hz
    have h0 : ((d.max - zp : ℤ) : ℚ) ≤ x / s := by
      unfold real at h; rw [le_div_iff₀ hs]; push_cast; linarith
    have h1 := Fmt.le_fl hp (hint (d.max - zp) (by rw [abs_le]; constructor <;> omega)) h0
    have h2 : (d.max : ℚ) ≤ Fmt.f64.floatRes x zp s := by
      unfold Fmt.floatRes
      apply Fmt.le_fl hp (hint d.max (by rw [abs_le]; constructor <;> omega))
      push_cast at h1; linarith
    rw [Int.le_floor]
    have h3 := Fmt.le_fl hp (hhalf d.max i) (x := Fmt.f64.floatRes x zp s + 1 / 2) (by linarith)
    linarith
  · intro h
    apply clip_of_le hd.2.1
    have i : IsInt32 d.min := ⟨hd.1, by have := hd.2.2; have := hd.2.1; omega⟩
    unfold IsInt32 at i hz
    have h0 : x / s ≤ ((d.min - zp : ℤ) : ℚ) := by
      unfold real at h; rw [div_le_iff₀ hs]; push_cast; linarith
    have h1 := Fmt.fl_le hp (hint (d.min - zp) (by rw [abs_le]; constructor <;> omega)) h0
    have h2 : Fmt.f64.floatRes x zp s ≤ (d.min : ℚ) := by
      unfold Fmt.floatRes
      apply Fmt.fl_le hp (hint d.min (by rw [abs_le]; constructor <;> omega))
      push_cast at h1; linarith
    have h3 := Fmt.fl_le hp (hhalf d.min i) (x := Fmt.f64.floatRes x zp s + 1 / 2) (by linarith)
    have : (⌊Fmt.f64.fl (Fmt.f64.floatRes x zp s + 1 / 2)⌋ : ℤ) < d.min + 1 := by
      rw [Int.floor_lt]; push_cast; linarith
    omega

/-- C72.  Dequantizing and quantizing again gives the code back, exactly, for every normal float64 scale. -/
theorem C72_float_roundtrip (d : GDtype) (hd : Fits32 d.min d.max) (zp : ℤ) (s : ℚ)
    (hs : (2 : ℚ) ^ (-1022 : ℤ) ≤ s) (q : ℤ) (hq : Code d.min d.max q) (hzp : IsInt32 zp)
    (hz : IsInt32 (q - zp)) :
    Fmt.f64.quantize d (Fmt.f64.dequantize q zp s) zp s = q := by
  have hp : 1 ≤ Fmt.f64.p := by decide
  have hs0 : 0 < s := lt_of_lt_of_le (by positivity) hs
  have hq32 : IsInt32 q := ⟨by have := hd.1; have := hq.1; omega, by have := hd.2.2; have := hq.2; omega⟩
  unfold Fmt.dequantize
  rw [wrap32_of hq32, wrap32_of hz]
  obtain ⟨k, hk⟩ : ∃ k, k = q - zp := ⟨_, rfl⟩
  rw [← hk] at hz ⊢
  obtain ⟨v, hv⟩ : ∃ v, v = Fmt.f64.fl ((k : ℚ) * s) := ⟨_, rfl⟩
  rw [← hv]
  unfold IsInt32 at hz hzp hq32
  have hkQ : |(k : ℚ)| ≤ 2 ^ 31 := by
    have : |k| ≤ 2 ^ 31 := by rw [abs_le]; constructor <;> omega
    exact_mod_cast this
  -- the dequantized value, in code units
  have hvk : |v / s - k| ≤ 1 / 2 ^ 20 := by
    by_cases hk0 : k = 0
    · rw [hv, hk0]; simp [Fmt.fl_zero]
    · have h1 : (1 : ℚ) ≤ |(k : ℚ)| := by
        have : (1 : ℤ) ≤ |k| := Int.one_le_abs hk0
        exact_mod_cast this
      have hn : (2 : ℚ) ^ (Fmt.f64.emin + Fmt.f64.p - 1) ≤ |(k : ℚ) * s| := by
        have e : (Fmt.f64.emin + Fmt.f64.p - 1) = (-1022 : ℤ) := by decide
        rw [e, abs_mul, abs_of_pos hs0]
        nlinarith
      have h2 := Fmt.fl_err_normal Fmt.f64 _ hn
      rw [← hv, abs_mul, abs_of_pos hs0] at h2
      have e : v / s - k = (v - k * s) / s := by field_simp
      rw [e, abs_div, abs_of_pos hs0, div_le_iff₀ hs0]
      have e2 : (2 : ℚ) ^ Fmt.f64.p = 2 ^ 53 := rfl
      rw [e2] at h2
      refine h2.trans ?_
      rw [div_le_iff₀ (by norm_num)]
      nlinarith
  have hpre := (Fmt.pre_err Fmt.f64 (by decide) (by decide) v zp s).2
  have e2 : (2 : ℚ) ^ Fmt.f64.p = 2 ^ 53 := rfl
  rw [e2] at hpre
  have hzQ : |(zp : ℚ)| ≤ 2 ^ 31 := by
    have : |zp| ≤ 2 ^ 31 := by rw [abs_le]; constructor <;> omega
    exact_mod_cast this
  have hvs : |v / s| ≤ 2 ^ 31 + 1 := by
    have := abs_sub_abs_le_abs_sub (v / s) (k : ℚ)
    have : (1 : ℚ) / 2 ^ 20 ≤ 1 := by norm_num
    linarith
  have hpre2 : |Fmt.f64.floatRes v zp s - (v / s + zp)| ≤ 1 / 8 := by
    refine hpre.trans ?_
    rw [div_le_iff₀ (by norm_num)]
    have : (4 * ((2 : ℚ) ^ 31 + 1) + 4 * 2 ^ 31 + 1) ≤ 1 / 8 * 2 ^ 53 := by norm_num
    linarith
  have hkq : (k : ℚ) = q - zp := by rw [hk]; push_cast; ring
  have hb : |Fmt.f64.floatRes v zp s - q| ≤ 1 / 4 := by
    obtain ⟨a1, a2⟩ := abs_le.mp hpre2
    obtain ⟨b1, b2⟩ := abs_le.mp hvk
    have : (1 : ℚ) / 2 ^ 20 ≤ 1 / 8 := by norm_num
    rw [abs_le]; constructor <;> linarith
  obtain ⟨c1, c2⟩ := abs_le.mp hb
  rw [Fmt.quantize_eq hd]
  have hr : ∀ j : ℤ, |j| ≤ 3 → Fmt.f64.Rep ((q : ℚ) + j / 4) := by
    intro j hj
    have hj' := abs_le.mp hj
    have := Fmt.rep_frac (F := Fmt.f64) (4 * q + j) 2 (by
      show |4 * q + j| ≤ 2 ^ 53; rw [abs_le]; constructor <;> omega) (by decide)
    have e : ((4 * q + j : ℤ) : ℚ) / 2 ^ 2 = (q : ℚ) + j / 4 := by push_cast; ring
    rwa [e] at this
  have r1 := Fmt.le_fl hp (hr 1 (by decide)) (x := Fmt.f64.floatRes v zp s + 1 / 2) (by push_cast; linarith)
  have r2 := Fmt.fl_le hp (hr 3 (by decide)) (x := Fmt.f64.floatRes v zp s + 1 / 2) (by push_cast; linarith)
  have hfl : ⌊Fmt.f64.fl (Fmt.f64.floatRes v zp s + 1 / 2)⌋ = q := by
    rw [Int.floor_eq_iff]
    push_cast at r1 r2
    constructor <;> linarith
  rw [hfl, clip_of_mem hq.1 hq.2]

/-- C72.  Zero is exact, in float64 as well. -/
theorem C72_float_zero (d : GDtype) (hd : Fits32 d.min d.max) (zp : ℤ) (hzp : Code d.min d.max zp) (s : ℚ)
    (_hs : s ≠ 0) : Fmt.f64.quantize d 0 zp s = zp ∧ Fmt.f64.dequantize zp zp s = 0 := by
  have hp : 1 ≤ Fmt.f64.p := by decide
  have h32 : IsInt32 zp := ⟨by have := hd.1; have := hzp.1; omega, by have := hd.2.2; have := hzp.2; omega⟩
  constructor
  · rw [Fmt.quantize_eq hd]
    unfold Fmt.floatRes
    rw [zero_div, Fmt.fl_zero, zero_add]
    unfold IsInt32 at h32
    rw [Fmt.fl_rep hp (Fmt.rep_int zp (by show |zp| ≤ 2 ^ 53; rw [abs_le]; constructor <;> omega) (by decide))]
    have := Fmt.rep_frac (F := Fmt.f64) (2 * zp + 1) 1 (by
      show |2 * zp + 1| ≤ 2 ^ 53; rw [abs_le]; constructor <;> omega) (by decide)
    have e : ((2 * zp + 1 : ℤ) : ℚ) / 2 ^ 1 = (zp : ℚ) + 1 / 2 := by push_cast; ring
    rw [e] at this
    rw [Fmt.fl_rep hp this]
    have h := roundHalfUp_int zp
    unfold roundHalfUp at h
    rw [h, clip_of_mem hzp.1 hzp.2]
  · unfold Fmt.dequantize
    rw [wrap32_of h32, sub_self]
    have : wrapS 32 0 = 0 := by decide
    rw [this]; simp [Fmt.fl_zero]

/-- C72.  Dequantization is off by at most one part in `2⁵³` (for every float64 scale, subnormal or not). -/
theorem C72_float_dequantize (q zp : ℤ) (hq : IsInt32 q) (hz : IsInt32 (q - zp)) (s : ℚ)
    (hs : IsFloat 53 (-1074) s) :
    |Fmt.f64.dequantize q zp s - real zp s q| ≤ |real zp s q| / 2 ^ 53 := by
  unfold Fmt.dequantize
  rw [wrap32_of hq, wrap32_of hz]
  have e : ((q - zp : ℤ) : ℚ) * s = real zp s q := by unfold real; push_cast; ring
  have h := Fmt.fl_err_multiple Fmt.f64 _ (Fmt.multiple_mul_int (F := Fmt.f64) (Fmt.multiple_of_rep hs) (q - zp))
  rw [mul_comm s, e] at h
  rw [e]; exact h

/-- The exception of `C72_float_agrees` is real: the largest float64 below one half (with scale 1) quantizes to 1. -/
theorem C72_tie_differs : Fmt.f64.quantize (intDtype 7) (1 / 2 - 1 / 2 ^ 54) 0 1 = 1 ∧
    Quantization.quantize (intDtype 7) (1 / 2 - 1 / 2 ^ 54) 0 1 = 0 := by decide +kernel

example : Fmt.f64.quantize (intDtype 7) (Fmt.f64.fl (1 / 10)) 3 (Fmt.f64.fl (1 / 1000)) = 103 ∧
    Fmt.f64.dequantize 103 3 (Fmt.f64.fl (1 / 1000)) = Fmt.f64.fl (1 / 10) ∧
    (2 : ℚ) ^ (-1022 : ℤ) ≤ Fmt.f64.fl (1 / 1000) := by
  refine ⟨by decide +kernel, by decide +kernel, ?_⟩
  have : (2 : ℚ) ^ (-1022 : ℤ) ≤ 2 ^ (-10 : ℤ) := zpow_le_zpow_right₀ (by norm_num) (by norm_num)
  have h : (2 : ℚ) ^ (-10 : ℤ) ≤ Fmt.f64.fl (1 / 1000) := by decide +kernel
  exact this.trans h

/-! ## C73: the base rounding policy in floating point -/

namespace Fmt

/-- The base rounding bit, away from integers and ties: whether the fractional part is at least a half. -/
theorem baseRounding_eq (G : Fmt) (hp : 6 ≤ G.p) (he : G.emin + G.p + 4 ≤ 0) (x s : ℚ)
    (hs : (2 : ℚ) ^ (G.emin + G.p - 1) ≤ s) (h1 : ¬ NearInt ((8 * |x / s| + 8) / 2 ^ G.p) (x / s))
    (h2 : ¬ NearTie ((8 * |x / s| + 8) / 2 ^ G.p) (x / s)) :
    G.baseRounding x s = roundHalfUp (x / s) - ⌊x / s⌋ := by
  have hs0 : 0 < s := lt_of_lt_of_le (by positivity) hs
  have hp1 : 1 ≤ G.p := by omega
  obtain ⟨u, hu⟩ : ∃ u : ℚ, u = 1 / 2 ^ G.p := ⟨_, rfl⟩
  have hu0 : 0 < u := by rw [hu]; positivity
  have hu1 : u ≤ 1 / 64 := by
    rw [hu]
    have : (2 : ℚ) ^ 6 ≤ 2 ^ G.p := pow_le_pow_right₀ (by norm_num) hp
    apply one_div_le_one_div_of_le (by norm_num)
    linarith
  have hdiv : ∀ y : ℚ, y / 2 ^ G.p = y * u := by intro y; rw [hu]; ring
  rw [hdiv] at h1 h2
  -- the scale, converted
  have hse := fl_err_normal G s (by rw [abs_of_pos hs0]; exact hs)
  rw [hdiv, abs_of_pos hs0] at hse
  obtain ⟨s', hs'⟩ : ∃ s', s' = G.fl s := ⟨_, rfl⟩
  rw [← hs'] at hse
  obtain ⟨a1, a2⟩ := abs_le.mp hse
  have hsu : s * u ≤ s / 64 := by nlinarith
  have hs'0 : 0 < s' := by linarith
  obtain ⟨T, hT⟩ : ∃ T, T = x / s := ⟨_, rfl⟩
  rw [← hT] at h1 h2 ⊢
  have hx : x = T * s := by rw [hT]; field_simp
  have hT' : |x / s' - T| ≤ 64 / 63 * (|T| * u) := by
    have e : x / s' - T = T * (s - s') / s' := by rw [hx]; field_simp
    rw [e, abs_div, abs_mul, abs_of_pos hs'0, div_le_iff₀ hs'0]
    have i1 : |s - s'| ≤ s * u := by rw [abs_sub_comm]; exact hse
    have i2 : s ≤ 64 / 63 * s' := by linarith
    calc |T| * |s - s'| ≤ |T| * (s * u) := mul_le_mul_of_nonneg_left i1 (abs_nonneg _)
      _ = |T| * u * s := by ring
      _ ≤ |T| * u * (64 / 63 * s') :=
          mul_le_mul_of_nonneg_left i2 (mul_nonneg (abs_nonneg _) hu0.le)
      _ = _ := by ring
  have hmag : |x / s'| ≤ 64 / 63 * |T| + |T| / 60 := by
    have i := abs_sub_abs_le_abs_sub (x / s') T
    have : |T| * u ≤ |T| / 64 := by nlinarith [abs_nonneg T]
    have := abs_nonneg T
    linarith
  have hfr : G.floatRes x 0 s' = G.fl (x / s') := by
    unfold floatRes
    rw [Int.cast_zero, add_zero, fl_rep hp1 (rep_fl G _)]
  obtain ⟨e1, e2⟩ := pre_err G hp he x 0 s'
  rw [hfr] at e1 e2
  rw [hdiv, Int.cast_zero, abs_zero, mul_zero, add_zero, add_zero] at e1 e2
  obtain ⟨t, ht⟩ : ∃ t, t = G.fl (x / s') := ⟨_, rfl⟩
  rw [← ht] at e1 e2
  obtain ⟨c, hc⟩ : ∃ c, c = G.fl (t + 1 / 2) := ⟨_, rfl⟩
  rw [← hc] at e1
  have hb : (4 * |x / s'| + 1) * u ≤ (5 * |T| + 1) * u := by
    apply mul_le_mul_of_nonneg_right _ hu0.le
    have := abs_nonneg T
    linarith
  obtain ⟨η, hη⟩ : ∃ η, η = (8 * |T| + 8) * u := ⟨_, rfl⟩
  rw [← hη] at h1 h2
  have hle : 64 / 63 * (|T| * u) + (5 * |T| + 1) * u < η := by
    rw [hη]
    have := mul_nonneg (abs_nonneg T) hu0.le
    nlinarith
  have f1 : |t - T| < η := by
    have : t - T = (t - x / s') + (x / s' - T) := by ring
    rw [this]; have := abs_add_le (t - x / s') (x / s' - T); linarith
  have f2 : |c - (T + 1 / 2)| < η := by
    have : c - (T + 1 / 2) = (c - (x / s' + 1 / 2)) + (x / s' - T) := by ring
    rw [this]; have := abs_add_le (c - (x / s' + 1 / 2)) (x / s' - T); linarith
  have hbase : G.baseRounding x s = if ((⌊c⌋ : ℤ) : ℚ) > t then 1 else 0 := by
    unfold baseRounding
    rw [hc, ht, hs']
  rw [hbase]
  obtain ⟨g1, g2⟩ := abs_lt.mp f1
  obtain ⟨g3, g4⟩ := abs_lt.mp f2
  have k1 := Int.floor_le T
  have k2 := Int.lt_floor_add_one T
  obtain ⟨k, hk⟩ : ∃ k, k = ⌊T⌋ := ⟨_, rfl⟩
  rw [← hk] at k1 k2 ⊢
  have n1 : η < T - k := by
    by_contra hc'
    exact h1 ⟨k, by rw [abs_le]; constructor <;> linarith⟩
  have n2 : η < k + 1 - T := by
    by_contra hc'
    exact h1 ⟨k + 1, by rw [abs_le]; push_cast; constructor <;> linarith⟩
  rcases le_or_gt T (k + 1 / 2) with hT2 | hT2
  · have n3 : η < k + 1 / 2 - T := by
      by_contra hc'
      exact h2 ⟨k, by rw [abs_le]; constructor <;> linarith⟩
    have hfc : ⌊c⌋ = k := by rw [Int.floor_eq_iff]; constructor <;> linarith
    have hr : roundHalfUp T = k := by
      unfold roundHalfUp; rw [Int.floor_eq_iff]; constructor <;> linarith
    rw [hfc, hr, if_neg (by push Not; linarith)]; ring
  · have n3 : η < T - (k + 1 / 2) := by
      by_contra hc'
      exact h2 ⟨k, by rw [abs_le]; constructor <;> linarith⟩
    have hfc : ⌊c⌋ = k + 1 := by rw [Int.floor_eq_iff]; push_cast; constructor <;> linarith
    have hr : roundHalfUp T = k + 1 := by
      unfold roundHalfUp; rw [Int.floor_eq_iff]; push_cast; constructor <;> linarith
    rw [hfc, hr, if_pos (by push_cast; linarith)]; ring

end Fmt

/-- C73.  Let the base policy bit be computed in any format of at most 53 bits (numpy: the tensor's own format,
float32 for Keras weights) and the quantization in float64, as in the code.  The base policy then gives the
round-to-nearest code, unless `x / s` is within `(8|x/s| + 8|zp| + 8)·2⁻ᵖ` of an integer or of a tie. -/
theorem C73_float_base_policy (G : Fmt) (hp : 6 ≤ G.p) (hp2 : G.p ≤ 53) (he : G.emin + G.p + 4 ≤ 0) (d : GDtype)
    (hd : Fits32 d.min d.max) (x : ℚ) (zp : ℤ) (s : ℚ) (hs : (2 : ℚ) ^ (G.emin + G.p - 1) ≤ s) :
    Fmt.f64.quantizePolicy d x zp s (G.baseRounding x s) = Fmt.f64.quantize d x zp s ∨
    NearInt ((8 * |x / s| + 8 * |(zp : ℚ)| + 8) / 2 ^ G.p) (x / s) ∨
    NearTie ((8 * |x / s| + 8 * |(zp : ℚ)| + 8) / 2 ^ G.p) (x / s) := by
  by_contra hcon
  push Not at hcon
  obtain ⟨hne, h1, h2⟩ := hcon
  apply hne
  have hs0 : 0 < s := lt_of_lt_of_le (by positivity) hs
  have hpos : (0 : ℚ) < 2 ^ G.p := by positivity
  have hmono : (8 * |x / s| + 8) / 2 ^ G.p ≤ (8 * |x / s| + 8 * |(zp : ℚ)| + 8) / 2 ^ G.p := by
    apply div_le_div_of_nonneg_right _ hpos.le
    have := abs_nonneg (zp : ℚ); linarith
  have hbit := Fmt.baseRounding_eq G hp he x s hs (fun ⟨k, hk⟩ => h1 ⟨k, hk.trans hmono⟩)
    (fun ⟨k, hk⟩ => h2 ⟨k, hk.trans hmono⟩)
  rw [hbit]
  have hv : (2 : ℚ) ^ G.p ≤ 2 ^ 53 := pow_le_pow_right₀ (by norm_num) hp2
  obtain ⟨T, hT⟩ : ∃ T, T = x / s := ⟨_, rfl⟩
  have hpre := Fmt.pre_err Fmt.f64 (by decide) (by decide) x zp s
  rw [← hT] at h1 h2 hpre ⊢
  obtain ⟨η, hη⟩ : ∃ η, η = (8 * |T| + 8 * |(zp : ℚ)| + 8) / 2 ^ G.p := ⟨_, rfl⟩
  rw [← hη] at h1 h2
  have hT0 := abs_nonneg T
  have hZ0 := abs_nonneg (zp : ℚ)
  have hη53 : (8 * |T| + 8 * |(zp : ℚ)| + 8) / 2 ^ 53 ≤ η := by
    rw [hη]; apply div_le_div_of_nonneg_left _ hpos hv; linarith
  have e53 : (2 : ℚ) ^ Fmt.f64.p = 2 ^ 53 := rfl
  rw [e53] at hpre
  -- no policy
  have hq : Fmt.f64.quantize d x zp s = clip d.min d.max (roundHalfUp T + zp) := by
    rcases C72_float_agrees d hd x zp s hs0.ne' with h | ⟨k, hk⟩
    · rw [h, Verif.quantize_eq hd, ← hT, roundHalfUp_add_int]
    · exfalso
      rw [← hT] at hk
      refine h2 ⟨k - zp, ?_⟩
      have e : T - (((k - zp : ℤ) : ℚ) + 1 / 2) = T + zp - (k + 1 / 2) := by push_cast; ring
      rw [e]
      refine hk.trans (le_trans ?_ hη53)
      apply div_le_div_of_nonneg_right _ (by norm_num)
      linarith
  rw [hq]
  -- with the policy
  obtain ⟨b, hb⟩ : ∃ b, b = Fmt.f64.floatRes x zp s := ⟨_, rfl⟩
  rw [← hb] at hpre
  unfold Fmt.quantizePolicy Fmt.round
  rw [castInt32_clip hd, ← hb, add_zero, Fmt.fl_rep (by decide) (Fmt.rep_fl _ _)]
  congr 1
  have k1 := Int.floor_le T
  have k2 := Int.lt_floor_add_one T
  obtain ⟨k, hk⟩ : ∃ k, k = ⌊T⌋ := ⟨_, rfl⟩
  rw [← hk] at k1 k2 ⊢
  obtain ⟨r, hr⟩ : ∃ r, r = roundHalfUp T - k := ⟨_, rfl⟩
  have hr01 : r = 0 ∨ r = 1 := by
    have i1 := roundHalfUp_le T
    have i2 := lt_roundHalfUp T
    have j1 : ((roundHalfUp T : ℤ) : ℚ) < ((k + 2 : ℤ) : ℚ) := by push_cast; linarith
    have j2 : ((k - 1 : ℤ) : ℚ) < ((roundHalfUp T : ℤ) : ℚ) := by push_cast; linarith
    have j1' : roundHalfUp T < k + 2 := by exact_mod_cast j1
    have j2' : k - 1 < roundHalfUp T := by exact_mod_cast j2
    omega
  rw [← hr, show roundHalfUp T = k + r by omega]
  have hrq : 0 ≤ (r : ℚ) ∧ (r : ℚ) ≤ 1 := by
    rcases hr01 with h | h <;> rw [h] <;> norm_num
  have hδ : (2 : ℚ) ^ Fmt.f64.emin / 2 ≤ 1 / 2 ^ 53 := by
    have : (2 : ℚ) ^ Fmt.f64.emin ≤ 2 ^ (-(53 : ℤ)) := zpow_le_zpow_right₀ (by norm_num) (by decide)
    have e : (2 : ℚ) ^ (-(53 : ℤ)) = 1 / 2 ^ 53 := by rw [zpow_neg]; norm_num
    rw [e] at this
    have h0 : (0 : ℚ) < 1 / 2 ^ 53 := by norm_num
    linarith
  have herr := Fmt.fl_err Fmt.f64 (b + r)
  rw [e53] at herr
  obtain ⟨w, hw⟩ : ∃ w, w = Fmt.f64.fl (b + r) := ⟨_, rfl⟩
  rw [← hw] at herr ⊢
  have hbm : |b| ≤ |T| + |(zp : ℚ)| + (4 * |T| + 4 * |(zp : ℚ)| + 1) / 2 ^ 53 := by
    have i1 := abs_sub_abs_le_abs_sub b (T + zp)
    have i2 := abs_add_le T (zp : ℚ)
    linarith [hpre.2]
  have hbr : |b + r| ≤ |b| + 1 := by
    have i := abs_add_le b (r : ℚ)
    rw [abs_of_nonneg hrq.1] at i; linarith
  have hm : max (|b + r| / 2 ^ 53) (2 ^ Fmt.f64.emin / 2) ≤ (2 * |T| + 2 * |(zp : ℚ)| + 3) / 2 ^ 53 := by
    apply max_le
    · apply div_le_div_of_nonneg_right _ (by norm_num)
      have : (4 * |T| + 4 * |(zp : ℚ)| + 1) / 2 ^ 53 ≤ |T| + |(zp : ℚ)| + 1 := by
        rw [div_le_iff₀ (by norm_num)]
        have : (1 : ℚ) * 4 ≤ 2 ^ 53 := by norm_num
        nlinarith
      linarith
    · refine hδ.trans ?_
      apply div_le_div_of_nonneg_right _ (by norm_num)
      linarith
  have hfin : |w - (T + zp + r)| ≤ η := by
    have e : w - (T + zp + r) = (w - (b + r)) + (b - (T + zp)) := by ring
    rw [e]
    have i := abs_add_le (w - (b + r)) (b - (T + zp))
    have j : (2 * |T| + 2 * |(zp : ℚ)| + 3) / 2 ^ 53 + (4 * |T| + 4 * |(zp : ℚ)| + 1) / 2 ^ 53 ≤
        (8 * |T| + 8 * |(zp : ℚ)| + 8) / 2 ^ 53 := by
      rw [← add_div]
      apply div_le_div_of_nonneg_right _ (by norm_num)
      linarith
    linarith [hpre.2]
  obtain ⟨g1, g2⟩ := abs_le.mp hfin
  have n1 : η < T - k := by
    by_contra hc'
    exact h1 ⟨k, by rw [abs_le]; constructor <;> linarith⟩
  have n2 : η < k + 1 - T := by
    by_contra hc'
    exact h1 ⟨k + 1, by rw [abs_le]; push_cast; constructor <;> linarith⟩
  rw [Int.floor_eq_iff]
  push_cast
  constructor <;> linarith

/-- C73.  The exception is met by calibrated weights: if the largest weight of a float32 kernel is 0.001 and the
scale is calibrated symmetrically (`0.001 / 127`, in float64; 0.003 if in float32), the base policy stores the
largest weight as 126, one whole step too low, while rounding to nearest stores it as 127. -/
theorem C73_largest_weight :
    (let x := Fmt.f32.fl (1 / 1000)
     let s := Fmt.f64.fl (x / 127)
     Fmt.f64.quantizePolicy (intDtype 7) x 0 s (Fmt.f32.baseRounding x s) = 126 ∧
     Fmt.f64.quantize (intDtype 7) x 0 s = 127) ∧
    (let x := Fmt.f32.fl (3 / 1000)
     let s := Fmt.f32.fl (x / 127)
     Fmt.f64.quantizePolicy (intDtype 7) x 0 s (Fmt.f32.baseRounding x s) = 126 ∧
     Fmt.f64.quantize (intDtype 7) x 0 s = 127) := by
  decide +kernel

/-- The hypotheses are met by float32 and float64, and the ordinary case by 0.1 with scale 0.003. -/
example : (6 ≤ Fmt.f32.p ∧ Fmt.f32.p ≤ 53 ∧ Fmt.f32.emin + Fmt.f32.p + 4 ≤ 0) ∧
    (6 ≤ Fmt.f64.p ∧ Fmt.f64.p ≤ 53 ∧ Fmt.f64.emin + Fmt.f64.p + 4 ≤ 0) ∧
    Fmt.f32.baseRounding (Fmt.f32.fl (1 / 10)) (Fmt.f64.fl (3 / 1000)) = 0 ∧
    Fmt.f64.quantizePolicy (intDtype 7) (Fmt.f32.fl (1 / 10)) 0 (Fmt.f64.fl (3 / 1000)) 0 = 33 := by
  decide +kernel

end Verif
