import Verif.Props.Float
import Verif.Props.Distribution

/-!
# Property C74: calibration in floating point (C29–C31 with rounding)
-/

namespace Verif
open Spec

namespace Fmt
variable {F : Fmt}

/-- The unit roundoff. -/
theorem unit_facts (F : Fmt) (hp : 8 ≤ F.p) : ∃ u : ℚ, u = 1 / 2 ^ F.p ∧ 0 < u ∧ u ≤ 1 / 256 ∧
    ∀ y : ℚ, y / 2 ^ F.p = y * u := by
  refine ⟨_, rfl, by positivity, ?_, fun y => by ring⟩
  have : (2 : ℚ) ^ 8 ≤ 2 ^ F.p := pow_le_pow_right₀ (by norm_num) hp
  apply one_div_le_one_div_of_le (by norm_num)
  linarith

theorem rep_min_zero {m : ℚ} (hm : F.Rep m) : F.Rep (min m 0) := by
  rcases min_choice m 0 with h | h <;> rw [h]
  · exact hm
  · exact rep_zero F

theorem rep_max_zero {m : ℚ} (hm : F.Rep m) : F.Rep (max m 0) := by
  rcases max_choice m 0 with h | h <;> rw [h]
  · exact hm
  · exact rep_zero F

/-- The computed zero point, before it is rounded to an integer. -/
def zpValue (F : Fmt) (mn mx : ℚ) (lo hi : ℤ) : ℚ :=
  F.fl (F.fl (F.fl (mn * hi) - F.fl (mx * lo)) / F.fl (mn - mx))

theorem zpValue_bounds (hp : 8 ≤ F.p) (he : F.emin ≤ -2) {mn mx : ℚ} (hmn : F.Rep mn) (hmx : F.Rep mx)
    (h0 : mn ≤ 0) (h1 : 0 ≤ mx) (hlt : mn < mx) {lo hi : ℤ} (hlo : lo ≤ 0) (hhi : 0 ≤ hi)
    (hw : hi - lo ≤ 2 ^ (F.p - 3)) :
    (lo : ℚ) - 1 / 4 ≤ F.zpValue mn mx lo hi ∧ F.zpValue mn mx lo hi ≤ hi + 1 / 4 := by
  have hp1 : 1 ≤ F.p := by omega
  obtain ⟨u, hu, hu0, hu1, hdiv⟩ := unit_facts F hp
  have hpow : (2 : ℤ) ^ F.p = 2 ^ (F.p - 3) * 8 := by
    rw [show (8 : ℤ) = 2 ^ 3 by norm_num, ← pow_add]; congr 1; omega
  have hpowq : (2 : ℚ) ^ F.p = 2 ^ (F.p - 3) * 8 := by exact_mod_cast hpow
  have hhiu : (hi : ℚ) * u ≤ 1 / 4 ∧ -(lo : ℚ) * u ≤ 1 / 4 := by
    have a : (hi : ℚ) ≤ 2 ^ (F.p - 3) := by
      have : hi ≤ 2 ^ (F.p - 3) := by omega
      exact_mod_cast this
    have b : -(lo : ℚ) ≤ 2 ^ (F.p - 3) := by
      have : -lo ≤ 2 ^ (F.p - 3) := by omega
      exact_mod_cast this
    have c : (2 : ℚ) ^ (F.p - 3) * u = 1 / 8 := by
      rw [hu, hpowq]; field_simp
    constructor
    · have := mul_le_mul_of_nonneg_right a hu0.le; linarith
    · have := mul_le_mul_of_nonneg_right b hu0.le; linarith
  have hloq : (lo : ℚ) ≤ 0 := by exact_mod_cast hlo
  have hhiq : (0 : ℚ) ≤ hi := by exact_mod_cast hhi
  -- the two products
  have hA := fl_err_multiple F (mn * hi) (multiple_mul_int (multiple_of_rep hmn) hi)
  have hB := fl_err_multiple F (mx * lo) (multiple_mul_int (multiple_of_rep hmx) lo)
  have hA0 : F.fl (mn * hi) ≤ 0 := fl_le hp1 (rep_zero F) (mul_nonpos_of_nonpos_of_nonneg h0 hhiq)
  have hB0 : F.fl (mx * lo) ≤ 0 := fl_le hp1 (rep_zero F) (mul_nonpos_of_nonneg_of_nonpos h1 hloq)
  have rA : F.Rep (F.fl (mn * hi)) := rep_fl F _
  have rB : F.Rep (F.fl (mx * lo)) := rep_fl F _
  rw [hdiv] at hA hB
  obtain ⟨A, hAe⟩ : ∃ A, A = F.fl (mn * hi) := ⟨_, rfl⟩
  obtain ⟨B, hBe⟩ : ∃ B, B = F.fl (mx * lo) := ⟨_, rfl⟩
  rw [← hAe] at hA hA0 rA
  rw [← hBe] at hB hB0 rB
  have hN1 : A ≤ F.fl (A - B) := le_fl hp1 rA (by linarith)
  have hN2 : F.fl (A - B) ≤ -B := fl_le hp1 (rep_neg rB) (by linarith)
  have hD1 : F.fl (mn - mx) ≤ mn := fl_le hp1 hmn (by linarith)
  have hD2 : F.fl (mn - mx) ≤ -mx := fl_le hp1 (rep_neg hmx) (by linarith)
  have hD0 : F.fl (mn - mx) < 0 := by
    rcases lt_or_eq_of_le h0 with h | h
    · linarith
    · linarith
  unfold zpValue
  rw [← hAe, ← hBe]
  obtain ⟨N, hNe⟩ : ∃ N, N = F.fl (A - B) := ⟨_, rfl⟩
  obtain ⟨D, hDe⟩ : ∃ D, D = F.fl (mn - mx) := ⟨_, rfl⟩
  rw [← hNe] at hN1 hN2 ⊢
  rw [← hDe] at hD1 hD2 hD0 ⊢
  have hquarter : ∀ n j : ℤ, |4 * n + j| ≤ 2 ^ F.p → F.Rep ((n : ℚ) + j / 4) := by
    intro n j hj
    have := rep_frac (F := F) (4 * n + j) 2 hj (by omega)
    have e : ((4 * n + j : ℤ) : ℚ) / 2 ^ 2 = (n : ℚ) + j / 4 := by push_cast; ring
    rwa [e] at this
  have hb : 8 * (hi - lo) ≤ 2 ^ F.p := by rw [hpow]; omega
  have h256 : (256 : ℤ) ≤ 2 ^ F.p := by
    have : (2 : ℤ) ^ 8 ≤ 2 ^ F.p := pow_le_pow_right₀ (by norm_num) hp
    linarith
  constructor
  · have r : F.Rep ((lo : ℚ) - 1 / 4) := by
      have := hquarter lo (-1) (by rw [abs_le]; constructor <;> omega)
      have e : (lo : ℚ) + ((-1 : ℤ) : ℚ) / 4 = (lo : ℚ) - 1 / 4 := by push_cast; ring
      rwa [e] at this
    apply le_fl hp1 r
    rw [le_div_iff_of_neg hD0]
    -- N ≤ -B ≤ (lo - 1/4) D
    have hBm : -B ≤ mx * (-lo) * (1 + u) := by
      have a := (abs_le.mp hB).1
      have e : |mx * (lo : ℚ)| = mx * (-lo) := by
        rw [abs_of_nonpos (mul_nonpos_of_nonneg_of_nonpos h1 hloq)]; ring
      rw [e] at a; linarith
    have h2 : mx * (-lo) * (1 + u) ≤ mx * (-lo + 1 / 4) := by
      have : mx * (-lo) * (1 + u) = mx * (-lo + -lo * u) := by ring
      rw [this]; exact mul_le_mul_of_nonneg_left (by linarith [hhiu.2]) h1
    have h3 : mx * (-lo + 1 / 4) ≤ -D * (-lo + 1 / 4) :=
      mul_le_mul_of_nonneg_right (by linarith) (by linarith)
    linarith
  · have r : F.Rep ((hi : ℚ) + 1 / 4) := by
      have := hquarter hi 1 (by rw [abs_le]; constructor <;> omega)
      have e : (hi : ℚ) + ((1 : ℤ) : ℚ) / 4 = (hi : ℚ) + 1 / 4 := by push_cast; ring
      rwa [e] at this
    apply fl_le hp1 r
    rw [div_le_iff_of_neg hD0]
    have hAm : (-mn) * hi * (1 + u) ≥ -A := by
      have a := (abs_le.mp hA).1
      have e : |mn * (hi : ℚ)| = (-mn) * hi := by
        rw [abs_of_nonpos (mul_nonpos_of_nonpos_of_nonneg h0 hhiq)]; ring
      rw [e] at a; linarith
    have h2 : (-mn) * hi * (1 + u) ≤ (-mn) * (hi + 1 / 4) := by
      have : (-mn) * hi * (1 + u) = (-mn) * (hi + hi * u) := by ring
      rw [this]; exact mul_le_mul_of_nonneg_left (by linarith [hhiu.1]) (by linarith)
    have h3 : (-mn) * (hi + 1 / 4) ≤ -D * (hi + 1 / 4) :=
      mul_le_mul_of_nonneg_right (by linarith) (by linarith)
    linarith

theorem roundHalfEven_quarter {v : ℚ} {n : ℤ} : (v ≤ n + 1 / 4 → roundHalfEven v ≤ n) ∧
    ((n : ℚ) - 1 / 4 ≤ v → n ≤ roundHalfEven v) := by
  have h := abs_le.mp (abs_roundHalfEven_sub_le v)
  constructor
  · intro hv
    have : ((roundHalfEven v : ℤ) : ℚ) < ((n + 1 : ℤ) : ℚ) := by push_cast; linarith
    have : roundHalfEven v < n + 1 := by exact_mod_cast this
    omega
  · intro hv
    have : ((n - 1 : ℤ) : ℚ) < ((roundHalfEven v : ℤ) : ℚ) := by push_cast; linarith
    have : n - 1 < roundHalfEven v := by exact_mod_cast this
    omega

theorem calibrate_eq (F : Fmt) (m M : ℚ) (q : GDtype) (sym : Bool) (hq : calLo q sym < q.max)
    (hlt : min m 0 < max M 0) :
    F.calibrate m M q sym = (let s := F.fl (F.fl (max M 0 - min m 0) / ((q.max : ℚ) - calLo q sym))
      if s = 0 then some (1, 0) else some (s, roundHalfEven (F.zpValue (min m 0) (max M 0) (calLo q sym) q.max))) := by
  unfold calibrate zpValue
  have hc : (if sym = true then -q.max else q.min) = calLo q sym := by rfl
  simp only [hc]
  rw [if_neg]
  rintro (h | h)
  · omega
  · linarith

end Fmt

/-- C74 (C29 in floating point).  Calibrating on float data with a non-degenerate range always yields a positive
scale and a zero point inside the integer range in use — in every format with enough bits for that range. -/
theorem C74_float_valid_parameters (F : Fmt) (hp : 8 ≤ F.p) (he : F.emin ≤ -2) (m M : ℚ)
    (hm : IsFloat F.p F.emin m) (hM : IsFloat F.p F.emin M) (q : GDtype) (sym : Bool)
    (hq : calLo q sym < q.max) (hlo : calLo q sym ≤ 0) (hhi : 0 ≤ q.max)
    (hw : q.max - calLo q sym ≤ 2 ^ (F.p - 3)) (hlt : min m 0 < max M 0) :
    ∃ s zp, F.calibrate m M q sym = some (s, zp) ∧ 0 < s ∧ Code (calLo q sym) q.max zp := by
  have hp1 : 1 ≤ F.p := by omega
  have hb := Fmt.zpValue_bounds hp he (Fmt.rep_min_zero hm) (Fmt.rep_max_zero hM) (min_le_right _ _)
    (le_max_right _ _) hlt hlo hhi hw
  rw [Fmt.calibrate_eq F m M q sym hq hlt]
  simp only
  have hs0 : 0 ≤ F.fl (F.fl (max M 0 - min m 0) / ((q.max : ℚ) - calLo q sym)) := by
    apply Fmt.le_fl hp1 (Fmt.rep_zero F)
    apply div_nonneg
    · exact Fmt.le_fl hp1 (Fmt.rep_zero F) (by linarith)
    · have : (calLo q sym : ℚ) < q.max := by exact_mod_cast hq
      linarith
  split_ifs with h
  · exact ⟨1, 0, rfl, by norm_num, hlo, hhi⟩
  · exact ⟨_, _, rfl, lt_of_le_of_ne hs0 (Ne.symm h), Fmt.roundHalfEven_quarter.2 hb.1,
      Fmt.roundHalfEven_quarter.1 hb.2⟩

/-- Clipping, when value and target may leave the range by a little. -/
theorem clip_error' {lo hi : ℤ} (hlh : lo ≤ hi) (r : ℤ) (t e : ℚ) (h : |(r : ℚ) - t| ≤ e) (h1 : (lo : ℚ) - e ≤ t)
    (h2 : t ≤ hi + e) : |((clip lo hi r : ℤ) : ℚ) - t| ≤ e := by
  obtain ⟨a, b⟩ := abs_le.mp h
  rcases lt_or_ge r lo with h3 | h3
  · rw [clip_of_le hlh h3.le, abs_le]
    have : (r : ℚ) ≤ lo := by exact_mod_cast h3.le
    constructor <;> linarith
  · rcases lt_or_ge hi r with h4 | h4
    · rw [clip_of_ge h4.le, abs_le]
      have : (hi : ℚ) ≤ r := by exact_mod_cast h4.le
      constructor <;> linarith
    · rw [clip_of_mem h3 h4]; exact h

namespace Fmt
variable {F : Fmt}

/-- The computed scale: `W / R` with two roundings. -/
theorem scale_err (hp : 8 ≤ F.p) {W R : ℚ} (hW : ∃ n : ℤ, W = n * 2 ^ F.emin) (hW0 : 0 < W) (hR : 1 ≤ R)
    (hn : R * 2 ^ (F.emin + F.p) ≤ W) :
    |F.fl (F.fl W / R) - W / R| ≤ W / R * (3 / 2 ^ F.p) := by
  obtain ⟨u, hu, hu0, hu1, hdiv⟩ := unit_facts F hp
  have h1 := fl_err_multiple F W hW
  rw [hdiv, abs_of_pos hW0] at h1
  obtain ⟨D, hD⟩ : ∃ D, D = F.fl W := ⟨_, rfl⟩
  rw [← hD] at h1 ⊢
  obtain ⟨a1, a2⟩ := abs_le.mp h1
  have hWu : W * u ≤ W / 256 := by nlinarith
  have hD0 : 0 < D := by linarith
  have hR0 : 0 < R := by linarith
  have hn2 : (2 : ℚ) ^ (F.emin + F.p - 1) ≤ |D / R| := by
    rw [abs_of_pos (div_pos hD0 hR0), le_div_iff₀ hR0, zpow_sub₀ (by norm_num), zpow_one]
    linarith
  have h2 := fl_err_normal F _ hn2
  rw [hdiv, abs_of_pos (div_pos hD0 hR0)] at h2
  have e : F.fl (D / R) - W / R = (F.fl (D / R) - D / R) + (D - W) / R := by rw [sub_div]; ring
  have i := abs_add_le (F.fl (D / R) - D / R) ((D - W) / R)
  rw [← e, abs_div, abs_of_pos hR0] at i
  have j : |D - W| / R ≤ W / R * u := by
    rw [div_le_iff₀ hR0]; have : W / R * u * R = W * u := by field_simp
    linarith
  have k : D / R ≤ W / R * 2 := by
    rw [div_mul_eq_mul_div]; apply div_le_div_of_nonneg_right _ hR0.le; linarith
  have l := mul_le_mul_of_nonneg_right k hu0.le
  rw [show (3 : ℚ) / 2 ^ F.p = 3 * u by rw [hu]; ring]
  calc _ ≤ D / R * u + W / R * u := by linarith
    _ ≤ W / R * 2 * u + W / R * u := by linarith
    _ = _ := by ring

set_option maxHeartbeats 400000 in
/-- The computed zero point against the exact one. -/
theorem zpValue_err (hp : 8 ≤ F.p) (he : F.emin + F.p + 4 ≤ 0) {mn mx : ℚ} (hmn : F.Rep mn) (hmx : F.Rep mx)
    (h0 : mn ≤ 0) (h1 : 0 ≤ mx) (hlt : mn < mx) {lo hi : ℤ} (hlo : lo ≤ 0) (hhi : 0 ≤ hi) (hlh : lo < hi) :
    |F.zpValue mn mx lo hi - (mn * hi - mx * lo) / (mn - mx)| ≤ 6 * ((hi : ℚ) - lo) / 2 ^ F.p := by
  obtain ⟨u, hu, hu0, hu1, hdiv⟩ := unit_facts F hp
  have hloq : (lo : ℚ) ≤ 0 := by exact_mod_cast hlo
  have hhiq : (0 : ℚ) ≤ hi := by exact_mod_cast hhi
  have hR1 : (1 : ℚ) ≤ (hi : ℚ) - lo := by
    have : (1 : ℤ) ≤ hi - lo := by omega
    exact_mod_cast this
  have hA := fl_err_multiple F (mn * hi) (multiple_mul_int (multiple_of_rep hmn) hi)
  have hB := fl_err_multiple F (mx * lo) (multiple_mul_int (multiple_of_rep hmx) lo)
  rw [hdiv] at hA hB
  have eA : |mn * (hi : ℚ)| = (-mn) * hi := by
    rw [abs_of_nonpos (mul_nonpos_of_nonpos_of_nonneg h0 hhiq)]; ring
  have eB : |mx * (lo : ℚ)| = mx * (-lo) := by
    rw [abs_of_nonpos (mul_nonpos_of_nonneg_of_nonpos h1 hloq)]; ring
  rw [eA] at hA
  rw [eB] at hB
  have hN := fl_err_multiple F (F.fl (mn * hi) - F.fl (mx * lo))
    (multiple_sub (multiple_of_rep (rep_fl F _)) (multiple_of_rep (rep_fl F _)))
  have hD := fl_err_multiple F (mn - mx) (multiple_sub (multiple_of_rep hmn) (multiple_of_rep hmx))
  rw [hdiv] at hN hD
  have hV := fl_err F (F.fl (F.fl (mn * hi) - F.fl (mx * lo)) / F.fl (mn - mx))
  rw [hdiv] at hV
  unfold zpValue
  obtain ⟨A, hAe⟩ : ∃ A, A = F.fl (mn * hi) := ⟨_, rfl⟩
  obtain ⟨B, hBe⟩ : ∃ B, B = F.fl (mx * lo) := ⟨_, rfl⟩
  rw [← hAe] at hA hN hV ⊢
  rw [← hBe] at hB hN hV ⊢
  obtain ⟨N, hNe⟩ : ∃ N, N = F.fl (A - B) := ⟨_, rfl⟩
  rw [← hNe] at hN hV ⊢
  obtain ⟨D, hDe⟩ : ∃ D, D = F.fl (mn - mx) := ⟨_, rfl⟩
  rw [← hDe] at hD hV ⊢
  obtain ⟨V, hVe⟩ : ∃ V, V = F.fl (N / D) := ⟨_, rfl⟩
  rw [← hVe] at hV ⊢
  obtain ⟨R, hR⟩ : ∃ R, R = (hi : ℚ) - lo := ⟨_, rfl⟩
  rw [← hR] at hR1 ⊢
  obtain ⟨W, hW⟩ : ∃ W, W = mx - mn := ⟨_, rfl⟩
  have hW0 : 0 < W := by linarith
  have eD : |mn - mx| = W := by rw [abs_of_neg (by linarith), hW]; ring
  rw [eD] at hD
  have hD' : D ≤ -(W * (255 / 256)) := by
    have := (abs_le.mp hD).2
    have : W * u ≤ W / 256 := by nlinarith
    linarith
  obtain ⟨a, ha⟩ : ∃ a, a = (-mn) * (hi : ℚ) := ⟨_, rfl⟩
  obtain ⟨b, hb⟩ : ∃ b, b = mx * (-lo : ℚ) := ⟨_, rfl⟩
  rw [← ha] at hA
  rw [← hb] at hB
  have ha0 : 0 ≤ a := by rw [ha]; exact mul_nonneg (by linarith) hhiq
  have hb0 : 0 ≤ b := by rw [hb]; exact mul_nonneg h1 (by linarith)
  have hab : a + b ≤ W * R := by
    rw [ha, hb, hW, hR]
    have p1 := mul_nonneg (neg_nonneg.mpr h0) (neg_nonneg.mpr hloq)
    have p2 := mul_nonneg h1 hhiq
    nlinarith
  have emn : mn * (hi : ℚ) = -a := by rw [ha]; ring
  have emx : mx * (lo : ℚ) = -b := by rw [hb]; ring
  rw [emn] at hA ⊢
  rw [emx] at hB ⊢
  obtain ⟨Q, hQ⟩ : ∃ Q, Q = W * R := ⟨_, rfl⟩
  rw [← hQ] at hab
  have hQu : a * u + b * u ≤ Q * u := by rw [← add_mul]; exact mul_le_mul_of_nonneg_right hab hu0.le
  have hQ0 : 0 < Q := by rw [hQ]; exact mul_pos hW0 (by linarith)
  have hau : 0 ≤ a * u := mul_nonneg ha0 hu0.le
  have hbu : 0 ≤ b * u := mul_nonneg hb0 hu0.le
  have hQu2 : Q * u ≤ Q / 256 := by nlinarith
  obtain ⟨A1, A2⟩ := abs_le.mp hA
  obtain ⟨B1, B2⟩ := abs_le.mp hB
  have hAB : |A - B| ≤ Q * (257 / 256) := by rw [abs_le]; constructor <;> linarith
  have hNu : |N - (A - B)| ≤ Q * u * (257 / 256) := by
    refine hN.trans ?_
    have := mul_le_mul_of_nonneg_right hAB hu0.le
    linarith
  obtain ⟨N1, N2⟩ := abs_le.mp hNu
  have hNe2 : |N - (b - a)| ≤ Q * u * (5 / 2) := by
    have : 0 ≤ Q * u := mul_nonneg hQ0.le hu0.le
    rw [abs_le]; constructor <;> linarith
  have hdz : (-a - -b) / (mn - mx) = (a - b) / W := by
    rw [hW, div_eq_div_iff (by linarith) (by linarith)]; ring
  rw [hdz]
  -- N / D against (a - b) / W
  have hDn : D ≠ 0 := by linarith
  have hND : |N / D - (a - b) / W| ≤ 4 * (R * u) := by
    have e : N / D - (a - b) / W = ((N - (b - a)) * W + (b - a) * (W + D)) / (D * W) := by
      field_simp; ring
    rw [e, abs_div, div_le_iff₀ (by rw [abs_pos]; exact mul_ne_zero hDn hW0.ne')]
    have q1 : |(N - (b - a)) * W + (b - a) * (W + D)| ≤ Q * u * (5 / 2) * W + Q * (W * u) := by
      refine (abs_add_le _ _).trans ?_
      rw [abs_mul, abs_mul, abs_of_pos hW0]
      have c1 := mul_le_mul_of_nonneg_right hNe2 hW0.le
      have c2 : |b - a| ≤ Q := by rw [abs_le]; constructor <;> linarith
      have c3 : |W + D| ≤ W * u := by
        have : W + D = D - (mn - mx) := by rw [hW]; ring
        rw [this]; exact hD
      have c4 := mul_le_mul c2 c3 (abs_nonneg _) hQ0.le
      linarith
    have q2 : W * (255 / 256) * W ≤ |D * W| := by
      rw [abs_mul, abs_of_pos hW0, abs_of_neg (by linarith)]
      exact mul_le_mul_of_nonneg_right (by linarith) hW0.le
    refine q1.trans (le_trans ?_ (mul_le_mul_of_nonneg_left q2 (by positivity)))
    rw [hQ]
    have x0 : 0 ≤ W * R * u * W := by positivity
    have x1 : W * R * u * (5 / 2) * W + W * R * (W * u) = 7 / 2 * (W * R * u * W) := by ring
    have x2 : 4 * (R * u) * (W * (255 / 256) * W) = 255 / 64 * (W * R * u * W) := by ring
    rw [x1, x2]
    linarith
  have hmag : |N / D| ≤ R + 4 * (R * u) := by
    have c1 : |(a - b) / W| ≤ R := by
      rw [abs_div, abs_of_pos hW0, div_le_iff₀ hW0]
      have : |a - b| ≤ Q := by rw [abs_le]; constructor <;> linarith
      rw [hQ] at this; linarith
    have := abs_sub_abs_le_abs_sub (N / D) ((a - b) / W)
    linarith
  have hδ : (2 : ℚ) ^ F.emin / 2 ≤ u / 32 := by
    have h : (2 : ℚ) ^ F.emin ≤ 2 ^ (-(F.p : ℤ) - 4) := zpow_le_zpow_right₀ (by norm_num) (by omega)
    have h2 : (2 : ℚ) ^ (-(F.p : ℤ) - 4) = u / 16 := by
      rw [zpow_sub₀ (by norm_num), zpow_neg, zpow_natCast, hu]; norm_num
    rw [h2] at h
    linarith
  have hRu : u ≤ R * u := by have := mul_le_mul_of_nonneg_right hR1 hu0.le; linarith
  have hVu : |V - N / D| ≤ 2 * (R * u) := by
    refine hV.trans (max_le ?_ (by linarith))
    have c1 := mul_le_mul_of_nonneg_right hmag hu0.le
    have c2 : (R + 4 * (R * u)) * u ≤ 2 * (R * u) := by
      have : R * u * u ≤ R * u / 256 := by
        have := mul_le_mul_of_nonneg_left hu1 (a := R * u) (by positivity)
        linarith
      have x1 : (R + 4 * (R * u)) * u = R * u + 4 * (R * u * u) := by ring
      rw [x1]
      linarith
    linarith
  have efin : 6 * R / 2 ^ F.p = 6 * (R * u) := by rw [hu]; ring
  rw [efin]
  have : V - (a - b) / W = (V - N / D) + (N / D - (a - b) / W) := by ring
  rw [this]
  have := abs_add_le (V - N / D) (N / D - (a - b) / W)
  linarith

/-- With a scale and a zero point that are almost exact, and quantization in float64, the error is almost half a
step. -/
theorem half_step_core (F : Fmt) (hp : 8 ≤ F.p) (hp2 : F.p ≤ 53) (q : GDtype) (hd : Fits32 q.min q.max) (lo : ℤ)
    (hsub : q.min ≤ lo) (hlo : lo ≤ 0) (hhi : 0 ≤ q.max) (hlh : lo < q.max) (mn mx : ℚ)
    (h0 : mn ≤ 0) (h1 : 0 ≤ mx) (hlt : mn < mx) (s : ℚ) (zp : ℤ)
    (hs : |s - (mx - mn) / ((q.max : ℚ) - lo)| ≤ (mx - mn) / ((q.max : ℚ) - lo) * (3 / 2 ^ F.p))
    (hz : |(zp : ℚ) - (mn * q.max - mx * lo) / (mn - mx)| ≤ 1 / 2 + 6 * ((q.max : ℚ) - lo) / 2 ^ F.p)
    (hzc : Code lo q.max zp) (x : ℚ) (hx1 : mn ≤ x) (hx2 : x ≤ mx) :
    0 < s ∧ |real zp s (Fmt.f64.quantize q x zp s) - x| ≤ s * (1 / 2 + 16 * ((q.max : ℚ) - lo) / 2 ^ F.p) := by
  obtain ⟨u, hu, hu0, hu1, hdiv⟩ := unit_facts F hp
  obtain ⟨c1, c2, c3, c4⟩ := cal_core mn mx h0 h1 hlt lo q.max hlh
  have c5 := c4 x hx1 hx2
  obtain ⟨S, hS⟩ : ∃ S, S = (mx - mn) / ((q.max : ℚ) - lo) := ⟨_, rfl⟩
  obtain ⟨Z, hZ⟩ : ∃ Z, Z = (mn * q.max - mx * lo) / (mn - mx) := ⟨_, rfl⟩
  rw [← hS] at hs c1 c5
  rw [← hZ] at hz c5
  have hloq : (lo : ℚ) ≤ 0 := by exact_mod_cast hlo
  have hhiq : (0 : ℚ) ≤ q.max := by exact_mod_cast hhi
  have hR1 : (1 : ℚ) ≤ (q.max : ℚ) - lo := by
    have : (1 : ℤ) ≤ q.max - lo := by omega
    exact_mod_cast this
  obtain ⟨R, hR⟩ : ∃ R, R = (q.max : ℚ) - lo := ⟨_, rfl⟩
  rw [← hR] at hS hz hR1 ⊢
  have h3u : (3 : ℚ) / 2 ^ F.p = 3 * u := by rw [hu]; ring
  have h6u : 6 * R / 2 ^ F.p = 6 * (R * u) := by rw [hu]; ring
  have h16u : 16 * R / 2 ^ F.p = 16 * (R * u) := by rw [hu]; ring
  rw [h3u] at hs
  rw [h6u] at hz
  rw [h16u]
  obtain ⟨s1, s2⟩ := abs_le.mp hs
  have hSu : S * (3 * u) ≤ S * (3 / 256) := mul_le_mul_of_nonneg_left (by linarith) c1.le
  have hs0 : 0 < s := by linarith
  have hSs : S ≤ s * (256 / 253) := by linarith
  refine ⟨hs0, ?_⟩
  have hxW : |x| ≤ S * R := by
    have : S * R = mx - mn := by rw [hS]; field_simp
    rw [this, abs_le]; constructor <;> linarith
  have hxs : |x / s| ≤ R * (256 / 253) := by
    rw [abs_div, abs_of_pos hs0, div_le_iff₀ hs0]
    have := mul_le_mul_of_nonneg_right hSs (show 0 ≤ R by linarith)
    linarith
  have hxd : |x / s - x / S| ≤ 4 * (R * u) := by
    have e : x / s - x / S = x * (S - s) / (s * S) := by field_simp
    rw [e, abs_div, abs_mul, abs_of_pos (mul_pos hs0 c1), div_le_iff₀ (mul_pos hs0 c1)]
    have i1 : |S - s| ≤ S * (3 * u) := by rw [abs_sub_comm]; exact hs
    have i2 := mul_le_mul hxW i1 (abs_nonneg _) (by positivity)
    refine i2.trans ?_
    have i3 := mul_le_mul_of_nonneg_left hSs (show 0 ≤ R * (3 * u) * S by positivity)
    have i4 : 0 ≤ R * u * S * s := by positivity
    nlinarith
  have hzR : |(zp : ℚ)| ≤ R := by
    have a : (lo : ℚ) ≤ zp := by exact_mod_cast hzc.1
    have b : (zp : ℚ) ≤ q.max := by exact_mod_cast hzc.2
    rw [hR, abs_le]; constructor <;> linarith
  obtain ⟨d1, d2⟩ := abs_le.mp hxd
  obtain ⟨z1, z2⟩ := abs_le.mp hz
  have hsub' : (q.min : ℚ) ≤ lo := by exact_mod_cast hsub
  have hRu : 0 ≤ R * u := by positivity
  have hRu1 : u ≤ R * u := by nlinarith
  rw [Fmt.quantize_eq hd]
  have hpre := (Fmt.pre_err Fmt.f64 (by decide) (by decide) x zp s).1
  have e53 : (2 : ℚ) ^ Fmt.f64.p = 2 ^ 53 := rfl
  rw [e53] at hpre
  have hη : (4 * |x / s| + 4 * |(zp : ℚ)| + 1) / 2 ^ 53 ≤ 16 * (R * u) := by
    have i1 : (4 * |x / s| + 4 * |(zp : ℚ)| + 1) / 2 ^ 53 ≤ (4 * |x / s| + 4 * |(zp : ℚ)| + 1) / 2 ^ F.p := by
      apply div_le_div_of_nonneg_left _ (by positivity) (pow_le_pow_right₀ (by norm_num) hp2)
      have := abs_nonneg (x / s); have := abs_nonneg (zp : ℚ); linarith
    rw [hdiv] at i1
    refine i1.trans ?_
    have i2 : 4 * |x / s| + 4 * |(zp : ℚ)| + 1 ≤ 16 * R := by linarith
    have := mul_le_mul_of_nonneg_right i2 hu0.le
    linarith
  have hfe := Fmt.floor_err hpre
  have hc := clip_error' hd.2.1 _ (x / s + zp) (1 / 2 + 16 * (R * u)) (hfe.trans (by linarith))
    (by linarith [c5.1]) (by linarith [c5.2])
  obtain ⟨k, hk⟩ : ∃ k, k = clip q.min q.max ⌊Fmt.f64.fl (Fmt.f64.floatRes x zp s + 1 / 2)⌋ := ⟨_, rfl⟩
  rw [← hk] at hc ⊢
  have : real zp s k - x = s * ((k : ℚ) - (x / s + zp)) := by unfold real; field_simp; ring
  rw [this, abs_mul, abs_of_pos hs0]
  exact mul_le_mul_of_nonneg_left hc hs0.le

end Fmt

/-- C74 (C30 in floating point).  Scale and zero point calibrated in a format of 8 to 53 bits (float32, float64) on
float data with minimum `m` and maximum `M` whose range is not subnormal; quantization in float64.  Every value
between `m` and `M` survives up to `s·(1/2 + 16·R·2⁻ᵖ)`, `R` being the number of steps of the dtype. -/
theorem C74_float_half_step (F : Fmt) (hp : 8 ≤ F.p) (hp2 : F.p ≤ 53) (he : F.emin + F.p + 4 ≤ 0) (m M : ℚ)
    (hm : IsFloat F.p F.emin m) (hM : IsFloat F.p F.emin M) (q : GDtype) (hd : Fits32 q.min q.max) (sym : Bool)
    (hq : calLo q sym < q.max) (hsub : q.min ≤ calLo q sym) (hlo : calLo q sym ≤ 0) (hhi : 0 ≤ q.max)
    (hw : q.max - calLo q sym ≤ 2 ^ (F.p - 3))
    (hn : ((q.max : ℚ) - calLo q sym) * 2 ^ (F.emin + F.p) ≤ max M 0 - min m 0)
    (s : ℚ) (zp : ℤ) (h : F.calibrate m M q sym = some (s, zp)) (x : ℚ) (hx1 : m ≤ x) (hx2 : x ≤ M) :
    |real zp s (Fmt.f64.quantize q x zp s) - x| ≤ s * (1 / 2 + 16 * ((q.max : ℚ) - calLo q sym) / 2 ^ F.p) := by
  have hqQ : (1 : ℚ) ≤ (q.max : ℚ) - calLo q sym := by
    have : (1 : ℤ) ≤ q.max - calLo q sym := by omega
    exact_mod_cast this
  have hpw : (0 : ℚ) < 2 ^ (F.emin + F.p) := by positivity
  have hlt : min m 0 < max M 0 := by nlinarith
  have rm := Fmt.rep_min_zero hm
  have rM := Fmt.rep_max_zero hM
  have hse := Fmt.scale_err hp (Fmt.multiple_sub (Fmt.multiple_of_rep rM) (Fmt.multiple_of_rep rm))
    (by linarith) hqQ hn
  have hze := Fmt.zpValue_err hp he rm rM (min_le_right _ _) (le_max_right _ _) hlt hlo hhi hq
  have hzb := Fmt.zpValue_bounds hp (by omega) rm rM (min_le_right _ _) (le_max_right _ _) hlt hlo hhi hw
  have hzc : Code (calLo q sym) q.max (roundHalfEven (F.zpValue (min m 0) (max M 0) (calLo q sym) q.max)) :=
    ⟨Fmt.roundHalfEven_quarter.2 hzb.1, Fmt.roundHalfEven_quarter.1 hzb.2⟩
  have hzr := abs_roundHalfEven_sub_le (F.zpValue (min m 0) (max M 0) (calLo q sym) q.max)
  have hzz : |((roundHalfEven (F.zpValue (min m 0) (max M 0) (calLo q sym) q.max) : ℤ) : ℚ) -
      (min m 0 * q.max - max M 0 * calLo q sym) / (min m 0 - max M 0)| ≤
      1 / 2 + 6 * ((q.max : ℚ) - calLo q sym) / 2 ^ F.p := by
    have := abs_sub_le ((roundHalfEven (F.zpValue (min m 0) (max M 0) (calLo q sym) q.max) : ℤ) : ℚ)
      (F.zpValue (min m 0) (max M 0) (calLo q sym) q.max)
      ((min m 0 * q.max - max M 0 * calLo q sym) / (min m 0 - max M 0))
    linarith
  obtain ⟨hs0, hcore⟩ := Fmt.half_step_core F hp hp2 q hd _ hsub hlo hhi hq (min m 0) (max M 0) (min_le_right _ _)
    (le_max_right _ _) hlt _ _ hse hzz hzc x (le_trans (min_le_left _ _) hx1) (le_trans hx2 (le_max_left _ _))
  rw [Fmt.calibrate_eq F m M q sym hq hlt] at h
  simp only at h
  rw [if_neg hs0.ne'] at h
  simp only [Option.some.injEq, Prod.mk.injEq] at h
  obtain ⟨rfl, rfl⟩ := h
  exact hcore

/-- C74 (C31 in floating point): symmetric calibration with the zero point forced to 0, as for kernels.  Every value
between the minimum and the maximum survives up to `s·(1/2 + 8·qmax·2⁻ᵖ)`. -/
theorem C74_float_symmetric (F : Fmt) (hp : 8 ≤ F.p) (hp2 : F.p ≤ 53) (m M : ℚ) (q : GDtype)
    (hd : Fits32 q.min q.max) (hlo : q.min ≤ -q.max) (hhi : 1 ≤ q.max)
    (hn : (q.max : ℚ) * 2 ^ (F.emin + F.p - 1) ≤ max (-m) M)
    (s : ℚ) (h : F.forcedScale m M q true = some s) (x : ℚ) (hx1 : m ≤ x) (hx2 : x ≤ M) :
    0 < s ∧ |real 0 s (Fmt.f64.quantize q x 0 s) - x| ≤ s * (1 / 2 + 8 * (q.max : ℚ) / 2 ^ F.p) := by
  obtain ⟨u, hu, hu0, hu1, hdiv⟩ := Fmt.unit_facts F hp
  have hR1 : (1 : ℚ) ≤ q.max := by exact_mod_cast hhi
  obtain ⟨R, hR⟩ : ∃ R : ℚ, R = q.max := ⟨_, rfl⟩
  have hpw : (0 : ℚ) < 2 ^ (F.emin + F.p - 1) := by positivity
  obtain ⟨W, hW⟩ : ∃ W, W = max |min m 0| |max M 0| := ⟨_, rfl⟩
  have hWn : max (-m) M ≤ W := by
    rw [hW]
    apply max_le_max
    · exact (neg_le_neg (min_le_left m 0)).trans (neg_le_abs _)
    · exact (le_max_left M 0).trans (le_abs_self _)
  have hxW : |x| ≤ W := by
    rw [abs_le]
    have a := le_trans (le_max_left (-m) M) hWn
    have b := le_trans (le_max_right (-m) M) hWn
    constructor <;> linarith
  rw [← hR] at hn hR1 ⊢
  have hR0 : 0 < R := by linarith
  have hW0 : 0 < W := by
    have : 0 < R * 2 ^ (F.emin + F.p - 1) := mul_pos hR0 hpw
    linarith
  have hS0 : 0 < W / R := div_pos hW0 hR0
  have hse := Fmt.fl_err_normal F (W / R) (by
    rw [abs_of_pos hS0, le_div_iff₀ hR0]; linarith)
  rw [hdiv, abs_of_pos hS0] at hse
  have hSu : W / R * u ≤ W / R * (1 / 256) := mul_le_mul_of_nonneg_left hu1 hS0.le
  have hs0' : 0 < F.fl (W / R) := by have := (abs_le.mp hse).1; linarith
  have hs : s = F.fl (W / R) := by
    unfold Fmt.forcedScale at h
    simp only [if_true] at h
    rw [if_neg] at h
    · rw [← hW, ← hR, if_neg hs0'.ne'] at h
      simpa using h.symm
    · rintro (h' | h')
      · have h1 : min m 0 ≤ 0 := min_le_right _ _
        have h2 : 0 ≤ max M 0 := le_max_right _ _
        have e1 : min m 0 = 0 := by linarith
        have e2 : max M 0 = 0 := by linarith
        rw [e1, e2] at hW; simp at hW; linarith
      · omega
  rw [← hs] at hse hs0'
  refine ⟨hs0', ?_⟩
  obtain ⟨S, hS⟩ : ∃ S, S = W / R := ⟨_, rfl⟩
  rw [← hS] at hse hSu hS0
  obtain ⟨s1, s2⟩ := abs_le.mp hse
  have hWS : W = S * R := by rw [hS]; field_simp
  have hSs : S ≤ s * (256 / 255) := by linarith
  have hSs2 : S ≤ s + 2 * (s * u) := by
    have := mul_le_mul_of_nonneg_right hSs hu0.le
    have : 0 ≤ s * u := by positivity
    linarith
  have hxs : |x / s| ≤ R + 2 * (R * u) := by
    rw [abs_div, abs_of_pos hs0', div_le_iff₀ hs0']
    have := mul_le_mul_of_nonneg_right hSs2 hR0.le
    rw [← hWS] at this
    have e : (s + 2 * (s * u)) * R = (R + 2 * (R * u)) * s := by ring
    rw [e] at this
    linarith
  have hRu : 0 ≤ R * u := by positivity
  have hRu1 : u ≤ R * u := by have := mul_le_mul_of_nonneg_right hR1 hu0.le; linarith
  have hRu2 : R * u ≤ R / 256 := by have := mul_le_mul_of_nonneg_left hu1 hR0.le; linarith
  have h8u : 8 * R / 2 ^ F.p = 8 * (R * u) := by rw [hu]; ring
  rw [h8u, Fmt.quantize_eq hd]
  have hpre := (Fmt.pre_err Fmt.f64 (by decide) (by decide) x 0 s).1
  have e53 : (2 : ℚ) ^ Fmt.f64.p = 2 ^ 53 := rfl
  rw [e53, Int.cast_zero, abs_zero, mul_zero, add_zero, add_zero] at hpre
  have hη : (4 * |x / s| + 1) / 2 ^ 53 ≤ 8 * (R * u) := by
    have i1 : (4 * |x / s| + 1) / 2 ^ 53 ≤ (4 * |x / s| + 1) / 2 ^ F.p := by
      apply div_le_div_of_nonneg_left _ (by positivity) (pow_le_pow_right₀ (by norm_num) hp2)
      have := abs_nonneg (x / s); linarith
    rw [hdiv] at i1
    refine i1.trans ?_
    have i2 : 4 * |x / s| + 1 ≤ 8 * R := by linarith
    have := mul_le_mul_of_nonneg_right i2 hu0.le
    linarith
  have hfe := Fmt.floor_err hpre
  obtain ⟨x1, x2⟩ := abs_le.mp hxs
  have hloq : (q.min : ℚ) ≤ -R := by rw [hR]; exact_mod_cast hlo
  have hc := clip_error' hd.2.1 _ (x / s) (1 / 2 + 8 * (R * u)) (hfe.trans (by linarith))
    (by linarith) (by rw [← hR]; linarith)
  obtain ⟨k, hk⟩ : ∃ k, k = clip q.min q.max ⌊Fmt.f64.fl (Fmt.f64.floatRes x 0 s + 1 / 2)⌋ := ⟨_, rfl⟩
  rw [← hk] at hc ⊢
  have : real 0 s k - x = s * ((k : ℚ) - x / s) := by unfold real; field_simp; push_cast; ring
  rw [this, abs_mul, abs_of_pos hs0']
  exact mul_le_mul_of_nonneg_left hc hs0'.le

/-- float64 and float32 calibration of int8 data meets the hypotheses. -/
example : (let m := Fmt.f32.fl (-1 / 3)
     let M := Fmt.f32.fl (1 / 10)
     Fmt.f64.calibrate m M (intDtype 7) false = some (7836852264065883 / 2 ^ 62, 68) ∧
     Fmt.f32.calibrate m M (intDtype 7) false = some (14597275 / 2 ^ 33, 68)) ∧
    (8 ≤ Fmt.f32.p ∧ Fmt.f32.p ≤ 53 ∧ Fmt.f32.emin + Fmt.f32.p + 4 ≤ 0) ∧
    (intDtype 7).max - calLo (intDtype 7) false ≤ 2 ^ (Fmt.f32.p - 3) ∧
    (((intDtype 7).max : ℚ) - calLo (intDtype 7) false) * 2 ^ (Fmt.f32.emin + Fmt.f32.p) ≤ 1 / 10 - -1 / 3 := by
  decide +kernel

/-- A float32 kernel with largest weight 0.001. -/
example : Fmt.f64.forcedScale (Fmt.f32.fl (-1 / 2000)) (Fmt.f32.fl (1 / 1000)) (intDtype 7) true =
      some (Fmt.f64.fl (Fmt.f32.fl (1 / 1000) / 127)) ∧
    (((intDtype 7).max : ℤ) : ℚ) * 2 ^ (Fmt.f32.emin + Fmt.f32.p - 1) ≤ 1 / 1001 ∧
    Fmt.f64.quantize (intDtype 7) (Fmt.f32.fl (-1 / 2000)) 0 (Fmt.f64.fl (Fmt.f32.fl (1 / 1000) / 127)) = -63 := by
  decide +kernel

end Verif
