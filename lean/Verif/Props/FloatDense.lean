import Verif.Props.Float

/-!
# Property C75: the multiplier and the dense layer with floating point scales (C15, C21 with rounding)
-/

namespace Verif
open Spec

/-- The accuracy of a dense layer whose rescale is accurate, however its multiplier was obtained. -/
theorem FC.saturation_core (sx : ℚ) (xzp : ℤ) (sw : ℚ) (wzp : ℤ) (n : ℕ) (W : List (List ℤ))
    (b : List ℤ) (so : ℚ) (ozp : ℤ) (d : GDtype) (p : Mult) (ρ : ℚ)
    (hso : 0 < so) (hd : d.min ≤ d.max) (hpos : 0 < sx * sw / so) (hwf : p.WF)
    (hres : ∀ acc : ℤ, |acc| ≤ 3 * 2 ^ 30 →
      |(p.rescale acc : ℚ) - acc * (sx * sw / so)| ≤ 1 / 2 + |(acc : ℚ)| * (sx * sw / so) * ρ)
    (x : List ℤ)
    (hbd : FC.Bounds ⟨xzp, n, W.map (fun r => r.map (fun w => w - wzp)), b, p, ozp, d⟩ x) :
    ∃ out, FC.infer ⟨xzp, n, W.map (fun r => r.map (fun w => w - wzp)), b, p, ozp, d⟩ (.vec x) = some (.vec out) ∧
      out.length = W.length ∧
      ∀ (j : ℕ) q Y, out[j]? = some q →
        (denseQ (W.map (fun r => r.map (real wzp sw))) (b.map (real 0 (sx * sw))) (x.map (real xzp sx)))[j]? = some Y →
        Code d.min d.max q ∧
        |real ozp so q - max (real ozp so d.min) (min (real ozp so d.max) Y)| ≤ so / 2 + |Y| * ρ := by
  refine ⟨_, C18_no_overflow _ x hbd, ?_, ?_⟩
  · have := hbd.biasLen
    simp only [List.length_map] at this
    simp [denseZ, this]
  · intro j q Y hq hY
    have hbl := hbd.biasLen
    simp only [denseZ, denseQ, List.getElem?_map, List.getElem?_zipWith] at hq hY
    cases hw : W[j]? with
    | none => rw [hw] at hq; simp at hq
    | some row =>
      cases hb : b[j]? with
      | none => rw [hw, hb] at hq; simp at hq
      | some bj =>
        rw [hw, hb] at hq hY
        simp only [Option.map_some, Option.some.injEq] at hq hY
        set acc : ℤ := dotZ (row.map (fun w => w - wzp)) (x.map (· - xzp)) + bj with hacc
        have hYacc : Y = sx * sw * acc := by
          rw [← hY, dotQ_real, hacc]; unfold real; push_cast; ring
        have hrow : row.map (fun w => w - wzp) ∈ W.map (fun r => r.map (fun w => w - wzp)) :=
          List.mem_map.mpr ⟨row, List.mem_of_getElem? hw, rfl⟩
        have hab := FC.acc_bound hbd _ hrow
        have hbb := hbd.bias bj (List.mem_of_getElem? hb)
        simp only at hab
        have habs : |acc| ≤ 3 * 2 ^ 30 := by
          have h1 := abs_le.mp hab
          have h2 := abs_le.mp hbb
          rw [abs_le, hacc]; constructor <;> omega
        have herr := hres acc habs
        have hfin := FC.finish_exact _ hbd.mult hbd.outZp acc habs
        rw [← hfin] at hq
        simp only [FC.finish] at hq
        -- the addition of the zero point does not wrap
        have hq' : q = clip d.min d.max (p.rescale acc + ozp) := by
          have := hfin
          unfold FC.finish FC.finishExact at this
          simp only at this
          rw [← hq, this, rescale_exact hwf habs, hwf.round_eq,
            shift_round _ _ hwf.sh_pos]
          rfl
        refine ⟨by rw [hq']; exact ⟨clip_ge hd, clip_le⟩, ?_⟩
        -- in code units
        set t : ℚ := Y / so + ozp with ht
        have hYso : (acc : ℚ) * (sx * sw / so) = Y / so := by rw [hYacc]; ring
        have habsY : |(acc : ℚ)| * (sx * sw / so) = |Y| / so := by
          rw [← abs_of_pos hpos, ← abs_mul, hYso, abs_div, abs_of_pos hso]
        have herr' : |((p.rescale acc + ozp : ℤ) : ℚ) - t| ≤ 1 / 2 + |Y| / so * ρ := by
          rw [hYso, habsY] at herr
          have : ((p.rescale acc + ozp : ℤ) : ℚ) - t = (p.rescale acc : ℚ) - Y / so := by
            rw [ht]; push_cast; ring
          rw [this]; exact herr
        have hc := clip_lipschitz hd _ t _ herr'
        rw [← hq'] at hc
        have hYt : Y = so * (t - ozp) := by rw [ht]; field_simp; ring
        have hsat : max (real ozp so d.min) (min (real ozp so d.max) Y) = so * (max (d.min : ℚ) (min (d.max : ℚ) t) - ozp) := by
          have e : ∀ u v c : ℚ, min (u - c) (v - c) = min u v - c := fun u v c => by
            simp only [sub_eq_add_neg, min_add_add_right]
          have e' : ∀ u v c : ℚ, max (u - c) (v - c) = max u v - c := fun u v c => by
            simp only [sub_eq_add_neg, max_add_add_right]
          unfold real
          rw [hYt]
          push_cast
          rw [← mul_min_of_nonneg _ _ hso.le, e, ← mul_max_of_nonneg _ _ hso.le, e']
        have hfinal : real ozp so q - max (real ozp so d.min) (min (real ozp so d.max) Y) =
            so * ((q : ℚ) - max (d.min : ℚ) (min (d.max : ℚ) t)) := by
          rw [hsat]; unfold real; push_cast; ring
        rw [hfinal, abs_mul, abs_of_pos hso]
        calc so * |(q : ℚ) - max (d.min : ℚ) (min (d.max : ℚ) t)| ≤ so * (1 / 2 + |Y| / so * ρ) :=
              mul_le_mul_of_nonneg_left hc hso.le
          _ = so / 2 + |Y| * ρ := by field_simp

namespace Fmt

/-- Two roundings of a product and a quotient of positive numbers. -/
theorem multiplier_err (F : Fmt) (hp : 8 ≤ F.p) {is ws os : ℚ} (h1 : (2 : ℚ) ^ (F.emin + F.p - 1) ≤ is * ws)
    (hos : 0 < os) (h2 : (2 : ℚ) ^ (F.emin + F.p) ≤ is * ws / os) :
    |F.multiplier is ws os - is * ws / os| ≤ is * ws / os * (3 / 2 ^ F.p) := by
  have hu0 : (0 : ℚ) < 1 / 2 ^ F.p := by positivity
  have hu1 : (1 : ℚ) / 2 ^ F.p ≤ 1 / 256 := by
    have : (2 : ℚ) ^ 8 ≤ 2 ^ F.p := pow_le_pow_right₀ (by norm_num) hp
    apply one_div_le_one_div_of_le (by norm_num)
    linarith
  obtain ⟨u, hu⟩ : ∃ u : ℚ, u = 1 / 2 ^ F.p := ⟨_, rfl⟩
  rw [← hu] at hu0 hu1
  have hdiv : ∀ y : ℚ, y / 2 ^ F.p = y * u := by intro y; rw [hu]; ring
  obtain ⟨P, hP⟩ : ∃ P, P = is * ws := ⟨_, rfl⟩
  unfold multiplier
  rw [← hP] at h1 h2 ⊢
  have hP0 : 0 < P := lt_of_lt_of_le (by positivity) h1
  have e1 := fl_err_normal F P (by rw [abs_of_pos hP0]; exact h1)
  rw [hdiv, abs_of_pos hP0] at e1
  obtain ⟨D, hD⟩ : ∃ D, D = F.fl P := ⟨_, rfl⟩
  rw [← hD] at e1 ⊢
  obtain ⟨a1, a2⟩ := abs_le.mp e1
  have hPu : P * u ≤ P * (1 / 256) := mul_le_mul_of_nonneg_left hu1 hP0.le
  have hD0 : 0 < D := by linarith
  have hn2 : (2 : ℚ) ^ (F.emin + F.p - 1) ≤ |D / os| := by
    rw [abs_of_pos (div_pos hD0 hos), le_div_iff₀ hos, zpow_sub₀ (by norm_num), zpow_one]
    rw [le_div_iff₀ hos] at h2
    linarith
  have e2 := fl_err_normal F _ hn2
  rw [hdiv, abs_of_pos (div_pos hD0 hos)] at e2
  have e : F.fl (D / os) - P / os = (F.fl (D / os) - D / os) + (D - P) / os := by rw [sub_div]; ring
  have i := abs_add_le (F.fl (D / os) - D / os) ((D - P) / os)
  rw [← e, abs_div, abs_of_pos hos] at i
  have j : |D - P| / os ≤ P / os * u := by
    rw [div_le_iff₀ hos]; have : P / os * u * os = P * u := by field_simp
    linarith
  have k : D / os ≤ P / os * 2 := by
    rw [div_mul_eq_mul_div]; apply div_le_div_of_nonneg_right _ hos.le; linarith
  have l := mul_le_mul_of_nonneg_right k hu0.le
  rw [show (3 : ℚ) / 2 ^ F.p = 3 * u by rw [hu]; ring]
  calc _ ≤ D / os * u + P / os * u := by linarith
    _ ≤ P / os * 2 * u + P / os * u := by linarith
    _ = _ := by ring

end Fmt

/-- C75 (C15 in floating point).  If the multiplier is built from the factor computed in float64, the integer rescale
differs from `acc · is·ws/os` — the exact factor — by at most `1/2 + |acc|·M·(2⁻³¹ + 2⁻⁵¹)`. -/
theorem C75_float_rescale (is ws os : ℚ) (h1 : (2 : ℚ) ^ (-1022 : ℤ) ≤ is * ws) (hos : 0 < os)
    (hm : 1 / 1000000 ≤ Fmt.f64.multiplier is ws os) (p : Mult)
    (hp : Mult.build (Fmt.f64.multiplier is ws os) = some p) (acc : ℤ) (hacc : |acc| ≤ 3 * 2 ^ 30) :
    |(p.rescale acc : ℚ) - acc * (is * ws / os)| ≤
      1 / 2 + |(acc : ℚ)| * (is * ws / os) * (1 / 2 ^ 31 + 1 / 2 ^ 51) := by
  have hP0 : 0 < is * ws := lt_of_lt_of_le (by positivity) h1
  have hM0 : 0 < is * ws / os := div_pos hP0 hos
  have e53 : (2 : ℚ) ^ Fmt.f64.p = 2 ^ 53 := rfl
  -- the quotient cannot be subnormal, otherwise the float factor would be tiny
  have h2 : (2 : ℚ) ^ (Fmt.f64.emin + Fmt.f64.p) ≤ is * ws / os := by
    by_contra hc
    push Not at hc
    have hb : (2 : ℚ) ^ (Fmt.f64.emin + Fmt.f64.p) ≤ 1 / 2 ^ 30 := by
      have : (2 : ℚ) ^ (Fmt.f64.emin + Fmt.f64.p) ≤ 2 ^ (-(30 : ℤ)) :=
        zpow_le_zpow_right₀ (by norm_num) (by decide)
      have e : (2 : ℚ) ^ (-(30 : ℤ)) = 1 / 2 ^ 30 := by rw [zpow_neg]; norm_num
      rwa [e] at this
    have f1 : Fmt.f64.fl (is * ws) ≤ 2 * (is * ws) := by
      have := Fmt.fl_err_normal Fmt.f64 (is * ws) (by
        rw [abs_of_pos hP0]
        have e : Fmt.f64.emin + (Fmt.f64.p : ℤ) - 1 = -1022 := by decide
        rw [e]; exact h1)
      rw [abs_of_pos hP0, e53] at this
      have h := (abs_le.mp this).2
      have : is * ws / 2 ^ 53 ≤ is * ws := div_le_self hP0.le (by norm_num)
      linarith
    have f2 : Fmt.f64.fl (is * ws) / os ≤ 1 / 2 ^ 29 := by
      have : Fmt.f64.fl (is * ws) / os ≤ 2 * (is * ws) / os := div_le_div_of_nonneg_right f1 hos.le
      have e : 2 * (is * ws) / os = 2 * (is * ws / os) := by ring
      rw [e] at this
      have : (2 : ℚ) * (1 / 2 ^ 30) = 1 / 2 ^ 29 := by norm_num
      linarith
    have r : Fmt.f64.Rep (((1 : ℤ) : ℚ) / 2 ^ 29) := Fmt.rep_frac (F := Fmt.f64) 1 29 (by decide) (by decide)
    have f3 : Fmt.f64.multiplier is ws os ≤ 1 / 2 ^ 29 := by
      have := Fmt.fl_le (by decide) r (x := Fmt.f64.fl (is * ws) / os) (by push_cast; exact f2)
      push_cast at this
      exact this
    have : (1 : ℚ) / 2 ^ 29 < 1 / 1000000 := by norm_num
    linarith
  have herr := Fmt.multiplier_err Fmt.f64 (by decide) (is := is) (ws := ws) (os := os) (by
    have e : Fmt.f64.emin + (Fmt.f64.p : ℤ) - 1 = -1022 := by decide
    rw [e]; exact h1) hos h2
  rw [e53] at herr
  have h15 := C15_rescale_error _ hm p hp acc hacc
  obtain ⟨M, hM⟩ : ∃ M, M = is * ws / os := ⟨_, rfl⟩
  obtain ⟨m, hm'⟩ : ∃ m, m = Fmt.f64.multiplier is ws os := ⟨_, rfl⟩
  rw [← hM] at herr hM0 ⊢
  rw [← hm'] at herr h15
  obtain ⟨A, hA⟩ : ∃ A, A = |(acc : ℚ)| := ⟨_, rfl⟩
  rw [← hA] at h15 ⊢
  have hA0 : 0 ≤ A := hA ▸ abs_nonneg _
  have i : |(p.rescale acc : ℚ) - acc * M| ≤ |(p.rescale acc : ℚ) - acc * m| + A * (M * (3 / 2 ^ 53)) := by
    have e : (p.rescale acc : ℚ) - acc * M = ((p.rescale acc : ℚ) - acc * m) + acc * (m - M) := by ring
    rw [e]
    refine (abs_add_le _ _).trans ?_
    rw [abs_mul, ← hA]
    have := mul_le_mul_of_nonneg_left herr hA0
    linarith
  have hmM : m ≤ M + M * (3 / 2 ^ 53) := by have := (abs_le.mp herr).2; linarith
  have j : A * m / 2 ^ 31 ≤ A * (M + M * (3 / 2 ^ 53)) / 2 ^ 31 :=
    div_le_div_of_nonneg_right (mul_le_mul_of_nonneg_left hmM hA0) (by norm_num)
  have hAM : 0 ≤ A * M := mul_nonneg hA0 hM0.le
  have x1 : A * (M + M * (3 / 2 ^ 53)) / 2 ^ 31 = A * M * ((1 + 3 / 2 ^ 53) / 2 ^ 31) := by ring
  have x2 : A * (M * (3 / 2 ^ 53)) = A * M * (3 / 2 ^ 53) := by ring
  rw [x1] at j
  rw [x2] at i
  have x3 : A * M * ((1 + 3 / 2 ^ 53) / 2 ^ 31) + A * M * (3 / 2 ^ 53) ≤ A * M * (1 / 2 ^ 31 + 1 / 2 ^ 51) := by
    rw [← mul_add]
    exact mul_le_mul_of_nonneg_left (by norm_num) hAM
  linarith

/-- C75 (C21 in floating point, with saturation).  A dense layer built with the float64 multiplier: each output code is
in the output dtype and within `so/2 + |Y|·(2⁻³¹ + 2⁻⁵¹)` of the real pre-activation `Y` of the dequantized operands,
saturated to the values the output can represent. -/
theorem C75_float_dense_saturation (sx : ℚ) (xzp : ℤ) (sw : ℚ) (wzp : ℤ) (n : ℕ) (W : List (List ℤ))
    (b : List ℤ) (so : ℚ) (ozp : ℤ) (d : GDtype) (l : FC)
    (hl : Fmt.f64.buildFC sx xzp sw wzp n W b so ozp d = some l) (hso : 0 < so) (hd : d.min ≤ d.max)
    (h1 : (2 : ℚ) ^ (-1022 : ℤ) ≤ sx * sw) (hm : 1 / 1000000 ≤ Fmt.f64.multiplier sx sw so)
    (x : List ℤ) (hbd : l.Bounds x) :
    ∃ out, l.infer (.vec x) = some (.vec out) ∧ out.length = W.length ∧
      ∀ (j : ℕ) q Y, out[j]? = some q →
        (denseQ (W.map (fun r => r.map (real wzp sw))) (b.map (real 0 (sx * sw))) (x.map (real xzp sx)))[j]? = some Y →
        Code d.min d.max q ∧
        |real ozp so q - max (real ozp so d.min) (min (real ozp so d.max) Y)| ≤
          so / 2 + |Y| * (1 / 2 ^ 31 + 1 / 2 ^ 51) := by
  unfold Fmt.buildFC at hl
  split at hl
  · cases hl
  · rename_i p hp
    injection hl with hl
    subst hl
    exact FC.saturation_core sx xzp sw wzp n W b so ozp d p _ hso hd
      (div_pos (lt_of_lt_of_le (by positivity) h1) hso) (build_wf hp)
      (fun acc hacc => C75_float_rescale sx sw so h1 hso hm p hp acc hacc) x hbd

/-- C75 (C21 in floating point).  A dense layer built with the float64 multiplier: each output code is within
`so/2 + |Y|·(2⁻³¹ + 2⁻⁵¹)` of the real pre-activation `Y` of the dequantized operands, provided `Y` is representable. -/
theorem C75_float_dense_accuracy (sx : ℚ) (xzp : ℤ) (sw : ℚ) (wzp : ℤ) (n : ℕ) (W : List (List ℤ))
    (b : List ℤ) (so : ℚ) (ozp : ℤ) (d : GDtype) (l : FC)
    (hl : Fmt.f64.buildFC sx xzp sw wzp n W b so ozp d = some l) (hso : 0 < so) (hd : d.min ≤ d.max)
    (h1 : (2 : ℚ) ^ (-1022 : ℤ) ≤ sx * sw) (hm : 1 / 1000000 ≤ Fmt.f64.multiplier sx sw so)
    (x : List ℤ) (hbd : l.Bounds x) :
    ∃ out, l.infer (.vec x) = some (.vec out) ∧ out.length = W.length ∧
      ∀ (j : ℕ) q Y, out[j]? = some q →
        (denseQ (W.map (fun r => r.map (real wzp sw))) (b.map (real 0 (sx * sw))) (x.map (real xzp sx)))[j]? = some Y →
        real ozp so d.min ≤ Y → Y ≤ real ozp so d.max →
        |real ozp so q - Y| ≤ so / 2 + |Y| * (1 / 2 ^ 31 + 1 / 2 ^ 51) := by
  obtain ⟨out, h1, h2, h3⟩ := C75_float_dense_saturation sx xzp sw wzp n W b so ozp d l hl hso hd h1 hm x hbd
  refine ⟨out, h1, h2, fun j q Y hq hY hY1 hY2 => ?_⟩
  have := (h3 j q Y hq hY).2
  rwa [min_eq_right hY2, max_eq_right hY1] at this

/-- A layer with scales 0.1, 0.02 and 0.3 as float64 numbers. -/
example : (Fmt.f64.buildFC (Fmt.f64.fl (1 / 10)) 3 (Fmt.f64.fl (1 / 50)) 0 2 [[1, -2], [100, 50]] [10, -2000]
      (Fmt.f64.fl (3 / 10)) (-5) (intDtype 7)).isSome ∧
    1 / 1000000 ≤ Fmt.f64.multiplier (Fmt.f64.fl (1 / 10)) (Fmt.f64.fl (1 / 50)) (Fmt.f64.fl (3 / 10)) ∧
    (2 : ℚ) ^ (-10 : ℤ) ≤ Fmt.f64.fl (1 / 10) * Fmt.f64.fl (1 / 50) ∧
    Fmt.f64.multiplier (Fmt.f64.fl (1 / 10)) (Fmt.f64.fl (1 / 50)) (Fmt.f64.fl (3 / 10)) ≠
      Fmt.f64.fl (1 / 10) * Fmt.f64.fl (1 / 50) / Fmt.f64.fl (3 / 10) := by decide +kernel

end Verif
