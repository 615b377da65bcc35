import Verif.Props.Exporter
import Verif.Props.FloatEngine
import Verif.Props.FloatCal

/-!
# Property C95: quantizer and engine together in floating point
-/

namespace Verif
open Keras Spec

namespace Spec

/-- Error of the int8 code stored for the number `v`: half a step, the rounding errors of three float64 operations, and
what saturation cuts off. -/
def codeErr (s : ℚ) (z : ℤ) (v : ℚ) : ℚ :=
  s * (1 / 2 + (4 * |v / s| + 4 * |(z : ℚ)| + 1) / 2 ^ 53) + |saturate s z v - v|

/-- Error of the int32 code stored for the bias `v` with the rounded product `S` of two scales, if it is read with the exact
product: the same, and the relative error of the product (float32 or float64). -/
def biasErr (S v : ℚ) : ℚ :=
  let e := S * (1 / 2 + (4 * |v / S| + 1) / 2 ^ 53) + max 0 (|v| - S * (2 ^ 31 - 1))
  e + (|v| + e) / 2 ^ 23

/-- Error of an entry of a look-up table from codes with scale `si` to codes with scale `so`, for a function with values in
[-1, 1] that the exporter evaluates with an error of at most `δ`: one step, and rounding errors. -/
def tableErr (δ si so : ℚ) : ℚ := so * (1 + 1032 / 2 ^ 53) + (8 * (1 + δ) + 255 * si) / 2 ^ 53 + δ

/-- The dense layers of a model. -/
def denseLayers (ls : List KLayer) : List KDense :=
  ls.filterMap (fun | .dense l => some l | _ => none)

/-- The integers stored for a layer's weights and biases, with input scale `sx`, weight scale `sw` and scale `S` of the
biases, stand for its weights and biases. -/
structure Stores (l : KDense) (sx sw S : ℚ) (W : List (List ℤ)) (b : List ℤ) : Prop where
  kernel : List.Forall₂ (fun r row => List.Forall₂ (fun c w => Code (-128) 127 c ∧ |real 0 sw c - w| ≤ codeErr sw 0 w) r row)
    W l.kernelT
  bias : List.Forall₂ (fun c v => IsInt32 c ∧
    ((2 : ℚ) ^ (-126 : ℤ) ≤ sx * sw → |real 0 (sx * sw) c - v| ≤ biasErr S v)) b l.biasV

/-- The operators of the file are those of the layers, one after the other: a dense operator that stores the layer's weights;
the activation is left to saturation, or a table with the activation function (as accurate as `tableErr` says).  `p` are the
parameters of the codes at the beginning, `M` the rounding of products of scales. -/
inductive ExportedFile (M : ℚ → ℚ) (δ : ℚ) : ℚ × ℤ → List KDense → List FileOp → Prop
  | nil (p : ℚ × ℤ) : ExportedFile M δ p [] []
  | plain {l : KDense} {ls : List KDense} {fs : List FileOp} {sx : ℚ} {zx : ℤ} {sw so : ℚ} {zo : ℤ} {W : List (List ℤ)}
      {b : List ℤ} (hact : upper l.actName ∈ ["LINEAR".toList, "SOFTMAX".toList, "RELU".toList, "RELU6".toList])
      (hst : Stores l sx sw (M (sx * sw)) W b) (hsw : 0 < sw) (hso : 0 < so) (hzo : Code (-128) 127 zo)
      (hrest : ExportedFile M δ (so, zo) ls fs) :
      ExportedFile M δ (sx, zx) (l :: ls) (.dense sx zx sw 0 W b so zo (target l) :: fs)
  | tabled {l : KDense} {ls : List KDense} {fs : List FileOp} {sx : ℚ} {zx : ℤ} {sw so : ℚ} {zo : ℤ} {sa : ℚ} {za : ℤ}
      {W : List (List ℤ)} {b : List ℤ} (hact : upper l.actName ∈ ["TANH".toList, "SIGMOID".toList])
      (hst : Stores l sx sw (M (sx * sw)) W b) (hsw : 0 < sw) (hso : 0 < so) (hzo : Code (-128) 127 zo)
      (hsa : 0 < sa) (hza : Code (-128) 127 za) (hrest : ExportedFile M δ (sa, za) ls fs) :
      ExportedFile M δ (sx, zx) (l :: ls)
        (.dense sx zx sw 0 W b so zo id :: .act l.act 1 (tableErr δ so sa) so zo sa za :: fs)

/-- How far the pre-activation of one neuron with stored weights is from the float one, if the inputs (`t` in the float
model) are off by at most `d`. -/
def neuronDrift (sw S : ℚ) (row : List ℚ) (v : ℚ) (t d : List ℚ) : ℚ :=
  (List.zipWith (fun w (p : ℚ × ℚ) => (|w| + codeErr sw 0 w) * p.2 + codeErr sw 0 w * |p.1|) row (List.zip t d)).sum +
    biasErr S v

/-- How far what the file means in real arithmetic is from the float model. -/
def drift (M : ℚ → ℚ) : List FileOp → List KDense → List ℚ → List ℚ → List ℚ
  | .dense sx _ sw _ _ _ _ _ _ :: fs, l :: ls, t, d =>
    drift M fs ls ((denseRow l t).map (target l))
      (List.zipWith (fun row v => neuronDrift sw (M (sx * sw)) row v t d) l.kernelT l.biasV)
  | .act .. :: fs, ls, t, d => drift M fs ls t d
  | _, _, _, d => d

/-- The factors of the file's dense operators are neither tiny nor huge. -/
def Factors : List FileOp → Prop
  | [] => True
  | .dense sx _ sw _ _ _ so _ _ :: fs =>
    (2 : ℚ) ^ (-126 : ℤ) ≤ sx * sw ∧ 1 / 999999 ≤ sx * sw / so ∧ sx * sw / so ≤ 2 ^ 29 ∧ Factors fs
  | .act .. :: fs => Factors fs

/-- The same, read off the exported file. -/
def FileFactors (g : List OpJ) : Prop :=
  ∀ op ∈ g, ∀ sx sw so zo, op.opType = "FULLY_CONNECTED" → fcParams op = some (sx, sw, so, zo) →
    (2 : ℚ) ^ (-126 : ℤ) ≤ sx * sw ∧ 1 / 999999 ≤ sx * sw / so ∧ sx * sw / so ≤ 2 ^ 29

/-- IEEE single or double precision. -/
def Ieee (F : Fmt) : Prop := F = Fmt.f32 ∨ F = Fmt.f64

/-- The exporter evaluates the activations of all dense layers with an error of at most `δ`; `tanh` and `sigmoid` have values in
[-1, 1]. -/
def ActsOk (act : KDense → ℚ → ℚ) (δ : ℚ) (ls : List KLayer) : Prop :=
  ∀ l, KLayer.dense l ∈ ls → (∀ a, |act l a - l.act a| ≤ δ) ∧
    (upper l.actName ∈ ["TANH".toList, "SIGMOID".toList] → ∀ a, |l.act a| ≤ 1)

end Spec

namespace FloatExport
open Accuracy FloatEngine

theorem isFloat_of_ieee {F : Fmt} (h : Ieee F) {x : ℚ} (hx : IsFloat F.p F.emin x) : IsFloat 53 (-1074) x := by
  obtain ⟨m, e, h1, h2, h3⟩ := hx
  refine ⟨m, e, le_trans h1 ?_, ?_, h3⟩
  · rcases h with rfl | rfl <;> decide
  · refine le_trans ?_ h2
    rcases h with rfl | rfl <;> decide

theorem cal_float {F : Formats} (hF : ∀ d, Ieee (F.data d)) {K : FloatKeras}
    {d : Dist} {p : ℚ × ℤ} (h : (Arith.float F K).calibrate d (intDtype 7) = some p) :
    0 < p.1 ∧ Code (-128) 127 p.2 ∧ IsFloat 53 (-1074) p.1 := by
  simp only [Arith.float, Option.bind_eq_bind, Option.bind_eq_some_iff] at h
  obtain ⟨m, -, M, -, h⟩ := h
  replace hF := hF d
  generalize F.data d = D at h hF
  have hp : 1 ≤ D.p := by rcases hF with h | h <;> rw [h] <;> decide
  have hlt : min (D.fl m) 0 < max (D.fl M) 0 := by
    refine lt_of_le_of_ne (le_trans (min_le_right _ _) (le_max_right _ _)) (fun e => ?_)
    unfold Fmt.calibrate at h
    simp [e] at h
  have hlo : calLo (intDtype 7) false = -128 := by decide +kernel
  obtain ⟨s, z, h1, h2, h3⟩ := C74_float_valid_parameters D (by rcases hF with h | h <;> rw [h] <;> decide)
    (by rcases hF with h | h <;> rw [h] <;> decide) (D.fl m) (D.fl M) (Fmt.rep_fl _ _) (Fmt.rep_fl _ _)
    (intDtype 7) false (by decide +kernel) (by decide +kernel) (by decide +kernel)
    (by rcases hF with h | h <;> rw [h] <;> decide +kernel) hlt
  rw [h, Option.some.injEq] at h1
  subst h1
  rw [hlo, int8_range.2] at h3
  refine ⟨h2, h3, isFloat_of_ieee hF ?_⟩
  rw [Fmt.calibrate_eq D _ _ _ _ (by decide +kernel) hlt] at h
  simp only at h
  split_ifs at h with h0
  · rw [Option.some.injEq, Prod.mk.injEq] at h
    rw [← h.1]
    exact_mod_cast Fmt.rep_int (F := D) 1 (by rcases hF with h | h <;> rw [h] <;> decide)
      (by rcases hF with h | h <;> rw [h] <;> decide)
  · rw [Option.some.injEq, Prod.mk.injEq] at h
    rw [← h.1]
    exact Fmt.rep_fl _ _

/-- A calibration with the forced zero point 0. -/
theorem forced_float {F : Formats} (hF : ∀ d, Ieee (F.weight d)) {K : FloatKeras} {d : Dist} {sym : Bool} {p : ℚ × ℤ}
    (h : (Arith.float F K).calibrateKernel d (intDtype 7) sym = some p) :
    0 < p.1 ∧ p.2 = 0 ∧ IsFloat 53 (-1074) p.1 := by
  simp only [Arith.float, Option.bind_eq_bind, Option.bind_eq_some_iff, Option.some.injEq] at h
  obtain ⟨m, -, M, -, s, hs, rfl⟩ := h
  replace hF := hF d
  generalize F.weight d = W at hs hF
  have hd : (0 : ℚ) ≤ ((if sym = true then (intDtype 7).max else |(intDtype 7).min| : ℤ) : ℚ) := by
    cases sym <;> decide +kernel
  obtain ⟨D, hD⟩ : ∃ D : ℤ, D = if sym = true then (intDtype 7).max else |(intDtype 7).min| := ⟨_, rfl⟩
  rw [← hD] at hd
  unfold Fmt.forcedScale at hs
  simp only [← hD] at hs
  by_cases h1 : min (W.fl m) 0 - max (W.fl M) 0 = 0 ∨ D = 0
  · rw [if_pos h1] at hs; cases hs
  · rw [if_neg h1] at hs
    by_cases h2 : W.fl (max |min (W.fl m) 0| |max (W.fl M) 0| / D) = 0
    · rw [if_pos h2, Option.some.injEq] at hs
      simp only [← hs]
      refine ⟨by norm_num, trivial, isFloat_of_ieee hF ?_⟩
      exact_mod_cast Fmt.rep_int (F := W) 1 (by rcases hF with h | h <;> rw [h] <;> decide)
        (by rcases hF with h | h <;> rw [h] <;> decide)
    · rw [if_neg h2, Option.some.injEq] at hs
      simp only [← hs]
      refine ⟨lt_of_le_of_ne ?_ (Ne.symm h2), trivial, isFloat_of_ieee hF (Fmt.rep_fl _ _)⟩
      exact Fmt.le_fl (by rcases hF with h | h <;> rw [h] <;> decide) (Fmt.rep_zero _)
        (div_nonneg (le_max_of_le_left (abs_nonneg _)) hd)

theorem kernel_float {F : Formats} (hF : ∀ d, Ieee (F.weight d)) {K : FloatKeras}
    {l : KDense} (hu : 0 < l.units) (hk : 0 < l.kernel.length) {sym : Bool} {k : (ℚ × ℤ) × List ℚ}
    (h : (Arith.float F K).kernel l (intDtype 7) sym = some k) :
    0 < k.1.1 ∧ k.1.2 = 0 ∧ k.2 = l.kernelT.flatten := by
  unfold Arith.kernel at h
  simp only [Option.bind_eq_bind, Option.bind_eq_some_iff, Option.some.injEq] at h
  obtain ⟨p, hp, lo, hlo, hi, hhi, rfl⟩ := h
  obtain ⟨m, M, hm, hM, hlt, hall⟩ := Dist.min_lt_max l.kernelT.flatten (kernel_ne hu hk) 512 (by omega) true
  rw [hm, Option.some.injEq] at hlo
  rw [hM, Option.some.injEq] at hhi
  subst hlo hhi
  have hid : l.kernelT.flatten.map (clip m M) = l.kernelT.flatten := by
    conv_rhs => rw [← List.map_id l.kernelT.flatten]
    apply List.map_congr_left
    intro x hx
    exact clip_of_mem (hall x hx).1 (hall x hx).2
  obtain ⟨f1, f2, -⟩ := forced_float hF hp
  exact ⟨f1, f2, hid⟩

theorem code8 (x : ℚ) (z : ℤ) (s : ℚ) : Code (-128) 127 (Fmt.f64.quantize (intDtype 7) x z s) := by
  rw [Fmt.quantize_eq int8_fits, int8_range.1, int8_range.2]
  exact ⟨clip_ge (by norm_num), clip_le⟩

theorem code32 (x : ℚ) (z : ℤ) (s : ℚ) : IsInt32 (Fmt.f64.quantize (intDtype 31) x z s) := by
  rw [Fmt.quantize_eq int32_fits, int32_range.1, int32_range.2]
  exact ⟨clip_ge (by norm_num), by have := clip_le (lo := -2 ^ 31) (hi := 2 ^ 31 - 1) (x := ⌊Fmt.f64.fl (Fmt.f64.floatRes x z s + 1 / 2)⌋); omega⟩

/-- A product of scales that is not tiny, rounded. -/
theorem product_near {F : Fmt} (hF : Ieee F) {P : ℚ} (hP : (2 : ℚ) ^ (-126 : ℤ) ≤ P) :
    |F.fl P - P| ≤ P / 2 ^ 24 := by
  have h0 : (0 : ℚ) < P := lt_of_lt_of_le (by positivity) hP
  have := Fmt.fl_err_normal F P (by
    rw [abs_of_pos h0]
    refine le_trans (zpow_le_zpow_right₀ (by norm_num) ?_) hP
    rcases hF with h | h <;> rw [h] <;> decide)
  rw [abs_of_pos h0] at this
  refine this.trans ?_
  apply div_le_div_of_nonneg_left h0.le (by norm_num)
  rcases hF with h | h <;> rw [h]
  · exact le_of_eq rfl
  · show (2 : ℚ) ^ 24 ≤ 2 ^ 53; norm_num

theorem bias_near {F : Fmt} (hF : Ieee F) {P : ℚ} (hP : (2 : ℚ) ^ (-126 : ℤ) ≤ P) (v : ℚ) :
    |real 0 P (Fmt.f64.quantize (intDtype 31) v 0 (F.fl P)) - v| ≤ biasErr (F.fl P) v := by
  have h0 : (0 : ℚ) < P := lt_of_lt_of_le (by positivity) hP
  have hn := product_near hF hP
  obtain ⟨S, hS⟩ : ∃ S, S = F.fl P := ⟨_, rfl⟩
  rw [← hS] at hn ⊢
  obtain ⟨n1, n2⟩ := abs_le.mp hn
  have hS1 : P * (1 - 1 / 2 ^ 24) ≤ S := by linarith
  have hS0 : 0 < S := lt_of_lt_of_le (mul_pos h0 (by norm_num)) hS1
  obtain ⟨a1, a2, a3⟩ := C72_float_accuracy (intDtype 31) int32_fits v 0 (by unfold IsInt32; omega) S hS0
  rw [int32_range.1, int32_range.2] at a1
  rw [int32_range.2] at a2
  rw [int32_range.1] at a3
  obtain ⟨c, hc⟩ : ∃ c, c = Fmt.f64.quantize (intDtype 31) v 0 S := ⟨_, rfl⟩
  rw [← hc] at a1 a2 a3 ⊢
  obtain ⟨e, he⟩ : ∃ e, e = S * (1 / 2 + (4 * |v / S| + 1) / 2 ^ 53) + max 0 (|v| - S * (2 ^ 31 - 1)) := ⟨_, rfl⟩
  have hr1 : 0 ≤ S * (1 / 2 + (4 * |v / S| + 1) / 2 ^ 53) := by positivity
  have hr2 : S / 2 ≤ S * (1 / 2 + (4 * |v / S| + 1) / 2 ^ 53) := by
    have : 0 ≤ S * ((4 * |v / S| + 1) / 2 ^ 53) := by positivity
    linarith
  have hm0 := le_max_left 0 (|v| - S * (2 ^ 31 - 1))
  have hm1 := le_max_right 0 (|v| - S * (2 ^ 31 - 1))
  simp only [Int.cast_zero, abs_zero, mul_zero, add_zero] at a1
  have hb : biasErr S v = e + (|v| + e) / 2 ^ 23 := by unfold biasErr; rw [he]
  obtain ⟨R, hR⟩ : ∃ R, R = S * (1 / 2 + (4 * |v / S| + 1) / 2 ^ 53) := ⟨_, rfl⟩
  obtain ⟨x, hx⟩ : ∃ x, x = max 0 (|v| - S * (2 ^ 31 - 1)) := ⟨_, rfl⟩
  rw [← hR] at a1 he hr1 hr2
  rw [← hx] at he hm0 hm1
  have key : |real 0 S c - v| ≤ e := by
    rcases le_total (real 0 S (-(2 ^ 31))) v with h1 | h1
    · rcases le_total v (real 0 S (2 ^ 31 - 1)) with h2 | h2
      · have := a1 h1 h2
        linarith
      · rw [a2 h2]
        have e1 : real 0 S (2 ^ 31 - 1) = S * (2 ^ 31 - 1) := by unfold real; push_cast; ring
        rw [e1] at h2 ⊢
        rw [abs_of_nonpos (by linarith)]
        have := le_abs_self v
        linarith
    · rw [a3 h1]
      have e1 : real 0 S (-(2 ^ 31)) = -(S * 2 ^ 31) := by unfold real; push_cast; ring
      rw [e1] at h1 ⊢
      rw [abs_of_nonneg (by linarith)]
      have := neg_le_abs v
      linarith
  rw [hb]
  have e2 : real 0 P c - v = (real 0 S c - v) + real 0 S c * ((P - S) / S) := by
    unfold real; field_simp; ring
  rw [e2]
  refine (abs_add_le _ _).trans (add_le_add key ?_)
  rw [abs_mul, abs_div, abs_of_pos hS0]
  have h5 : |real 0 S c| ≤ |v| + e := by
    have := abs_sub_abs_le_abs_sub (real 0 S c) v
    linarith
  have h6 : |P - S| / S ≤ 1 / 2 ^ 23 := by
    rw [div_le_iff₀ hS0, abs_sub_comm]
    refine hn.trans ?_
    have : P / 2 ^ 24 ≤ 1 / 2 ^ 23 * (P * (1 - 1 / 2 ^ 24)) := by
      have : P * (1 / 2 ^ 24) ≤ P * (1 / 2 ^ 23 * (1 - 1 / 2 ^ 24)) := mul_le_mul_of_nonneg_left (by norm_num) h0.le
      linarith
    refine this.trans ?_
    exact mul_le_mul_of_nonneg_left hS1 (by norm_num)
  have h7 : (|v| + e) / 2 ^ 23 = (|v| + e) * (1 / 2 ^ 23) := by ring
  rw [h7]
  exact mul_le_mul h5 h6 (by positivity) (le_trans (abs_nonneg _) h5)

/-- The code a policy bit leads to, before clipping. -/
theorem policy_near (x : ℚ) (zp : ℤ) (s : ℚ) (r : ℤ) (hr : r = 0 ∨ r = 1) :
    |((⌊Fmt.f64.fl (Fmt.f64.floatRes x zp s + r)⌋ : ℤ) : ℚ) - (x / s + zp)| ≤
      1 + (8 * |x / s| + 8 * |(zp : ℚ)| + 8) / 2 ^ 53 := by
  have hpre := (Fmt.pre_err Fmt.f64 (by decide) (by decide) x zp s).2
  obtain ⟨T, hT⟩ : ∃ T, T = x / s := ⟨_, rfl⟩
  obtain ⟨b, hb⟩ : ∃ b, b = Fmt.f64.floatRes x zp s := ⟨_, rfl⟩
  have e53 : (2 : ℚ) ^ Fmt.f64.p = 2 ^ 53 := rfl
  rw [e53, ← hb, ← hT] at hpre
  rw [← hT, ← hb]
  have hT0 := abs_nonneg T
  have hZ0 := abs_nonneg (zp : ℚ)
  have hrq : 0 ≤ (r : ℚ) ∧ (r : ℚ) ≤ 1 := by
    rcases hr with h | h <;> rw [h] <;> norm_num
  have hδ : (2 : ℚ) ^ Fmt.f64.emin / 2 ≤ 1 / 2 ^ 53 := by
    have : (2 : ℚ) ^ Fmt.f64.emin ≤ 2 ^ (-(53 : ℤ)) := zpow_le_zpow_right₀ (by norm_num) (by decide)
    have e : (2 : ℚ) ^ (-(53 : ℤ)) = 1 / 2 ^ 53 := by rw [zpow_neg]; norm_num
    rw [e] at this
    have h0 : (0 : ℚ) < 1 / 2 ^ 53 := by norm_num
    linarith
  have herr := Fmt.fl_err Fmt.f64 (b + r)
  rw [e53] at herr
  obtain ⟨w, hw⟩ : ∃ w, w = Fmt.f64.fl (b + r) := ⟨_, rfl⟩
  rw [← hw] at herr ⊢
  have hbm : |b| ≤ |T| + |(zp : ℚ)| + (4 * |T| + 4 * |(zp : ℚ)| + 1) / 2 ^ 53 := by
    have i1 := abs_sub_abs_le_abs_sub b (T + zp)
    have i2 := abs_add_le T (zp : ℚ)
    linarith
  have hbr : |b + r| ≤ |b| + 1 := by
    have i := abs_add_le b (r : ℚ)
    rw [abs_of_nonneg hrq.1] at i; linarith
  have hm : max (|b + r| / 2 ^ 53) (2 ^ Fmt.f64.emin / 2) ≤ (2 * |T| + 2 * |(zp : ℚ)| + 3) / 2 ^ 53 := by
    apply max_le
    · apply div_le_div_of_nonneg_right _ (by norm_num)
      have : (4 * |T| + 4 * |(zp : ℚ)| + 1) / 2 ^ 53 ≤ |T| + |(zp : ℚ)| + 1 := by
        rw [div_le_iff₀ (by norm_num)]
        have : (1 : ℚ) * 4 ≤ 2 ^ 53 := by norm_num
        nlinarith
      linarith
    · refine hδ.trans ?_
      apply div_le_div_of_nonneg_right _ (by norm_num)
      linarith
  have hfin : |w - (T + zp + r)| ≤ (8 * |T| + 8 * |(zp : ℚ)| + 8) / 2 ^ 53 := by
    have e : w - (T + zp + r) = (w - (b + r)) + (b - (T + zp)) := by ring
    rw [e]
    have i := abs_add_le (w - (b + r)) (b - (T + zp))
    have j : (2 * |T| + 2 * |(zp : ℚ)| + 3) / 2 ^ 53 + (4 * |T| + 4 * |(zp : ℚ)| + 1) / 2 ^ 53 ≤
        (8 * |T| + 8 * |(zp : ℚ)| + 8) / 2 ^ 53 := by
      rw [← add_div]
      apply div_le_div_of_nonneg_right _ (by norm_num)
      linarith
    linarith
  obtain ⟨f1, f2⟩ := abs_le.mp hfin
  have g1 := Int.floor_le w
  have g2 := Int.lt_floor_add_one w
  rw [abs_le]
  constructor <;> linarith [hrq.1, hrq.2]

/-- An entry of a table computed in floating point. -/
theorem entry_near {f g : ℚ → ℚ} {δ : ℚ} (hf : ∀ a b, |f a - f b| ≤ 1 * |a - b|) (h1 : ∀ a, |f a| ≤ 1)
    (hg : ∀ a, |g a - f a| ≤ δ) {si : ℚ} (hsi : 0 < si) (hfi : IsFloat 53 (-1074) si) {zi : ℤ} (hzi : Code (-128) 127 zi)
    {so : ℚ} (hso : 0 < so) {zo : ℤ} (hzo : Code (-128) 127 zo) (G : Fmt) (q : ℤ) (hq : Code (-128) 127 q) (v : ℚ)
    (hv : v = g (Fmt.f64.dequantize q zi si)) :
    Code (-128) 127 (Fmt.f64.quantizePolicy (intDtype 7) v zo so (G.baseRounding v so)) ∧
      |real zo so (Fmt.f64.quantizePolicy (intDtype 7) v zo so (G.baseRounding v so)) - saturate so zo (f (real zi si q))| ≤
        tableErr δ si so := by
  have hr : G.baseRounding v so = 0 ∨ G.baseRounding v so = 1 := by
    unfold Fmt.baseRounding
    simp only
    split_ifs
    · right; rfl
    · left; rfl
  have hp := policy_near v zo so _ hr
  have e : Fmt.f64.quantizePolicy (intDtype 7) v zo so (G.baseRounding v so) =
      clip (-128) 127 ⌊Fmt.f64.fl (Fmt.f64.floatRes v zo so + (G.baseRounding v so : ℤ))⌋ := by
    unfold Fmt.quantizePolicy Fmt.round
    rw [castInt32_clip int8_fits, add_zero, Fmt.fl_rep (by decide) (Fmt.rep_fl _ _), int8_range.1, int8_range.2]
  rw [e]
  obtain ⟨r, hrd⟩ : ∃ r, r = ⌊Fmt.f64.fl (Fmt.f64.floatRes v zo so + (G.baseRounding v so : ℤ))⌋ := ⟨_, rfl⟩
  rw [← hrd] at hp ⊢
  refine ⟨⟨clip_ge (by norm_num), clip_le⟩, ?_⟩
  rw [real_clip so hso]
  refine (rat_clip_sub_le _ _ _ _).trans ?_
  -- the unclipped code against the exact value
  have hd := C72_float_dequantize q zi (code_int32 hq) (by unfold Code at hzi hq; unfold IsInt32; omega) si hfi
  have h3 := hf (Fmt.f64.dequantize q zi si) (real zi si q)
  have h4 := hg (Fmt.f64.dequantize q zi si)
  rw [← hv] at h4
  rw [one_mul] at h3
  have hδ0 : 0 ≤ δ := (abs_nonneg _).trans h4
  have hv1 : |v| ≤ 1 + δ := by
    have := abs_sub_abs_le_abs_sub v (f (Fmt.f64.dequantize q zi si))
    have := h1 (Fmt.f64.dequantize q zi si)
    linarith
  have hre : |real zi si q| ≤ 255 * si := by
    unfold real
    rw [abs_mul, abs_of_pos hsi, mul_comm]
    refine mul_le_mul_of_nonneg_right ?_ hsi.le
    have : |q - zi| ≤ 255 := by unfold Code at hzi hq; rw [abs_le]; omega
    exact_mod_cast this
  have hzz : |(zo : ℚ)| ≤ 128 := by
    have : |zo| ≤ 128 := by unfold Code at hzo; rw [abs_le]; omega
    exact_mod_cast this
  have e1 : real zo so r - f (real zi si q) = so * ((r : ℚ) - (v / so + zo)) +
      ((v - f (Fmt.f64.dequantize q zi si)) + (f (Fmt.f64.dequantize q zi si) - f (real zi si q))) := by
    unfold real; field_simp; ring
  rw [e1]
  refine (abs_add_le _ _).trans ?_
  refine (add_le_add_right (abs_add_le _ _) _).trans ?_
  rw [abs_mul, abs_of_pos hso]
  have h5 := mul_le_mul_of_nonneg_left hp hso.le
  have h6 : so * (1 + (8 * |v / so| + 8 * |(zo : ℚ)| + 8) / 2 ^ 53) ≤
      so * (1 + 1032 / 2 ^ 53) + 8 * (1 + δ) / 2 ^ 53 := by
    have i1 : so * |v / so| = |v| := by rw [abs_div, abs_of_pos hso]; field_simp
    have i2 : so * |(zo : ℚ)| ≤ so * 128 := mul_le_mul_of_nonneg_left hzz hso.le
    have i3 : so * (1 + (8 * |v / so| + 8 * |(zo : ℚ)| + 8) / 2 ^ 53) =
      so + (8 * (so * |v / so|) + 8 * (so * |(zo : ℚ)|) + 8 * so) / 2 ^ 53 := by ring
    rw [i3, i1]
    have i4 : (8 * |v| + 8 * (so * |(zo : ℚ)|) + 8 * so) / 2 ^ 53 ≤ (8 * (1 + δ) + 8 * (so * 128) + 8 * so) / 2 ^ 53 :=
      div_le_div_of_nonneg_right (by linarith) (by norm_num)
    refine (add_le_add_right i4 _).trans (le_of_eq ?_)
    ring
  have h7 : |real zi si q| / 2 ^ 53 ≤ 255 * si / 2 ^ 53 := div_le_div_of_nonneg_right hre (by norm_num)
  unfold tableErr
  have h8 : (8 * (1 + δ) + 255 * si) / 2 ^ 53 = 8 * (1 + δ) / 2 ^ 53 + 255 * si / 2 ^ 53 := by ring
  rw [h8]
  linarith

/-- The stored integers of a layer. -/
theorem stores {F : Formats} (hF : Ieee F.product) {l : KDense} {sx sw : ℚ} (hsw : 0 < sw) :
    Stores l sx sw (F.product.fl (sx * sw)) (l.kernelT.map (fun r => r.map (fun x => Fmt.f64.quantize (intDtype 7) x 0 sw)))
      (l.biasV.map (fun x => Fmt.f64.quantize (intDtype 31) x 0 (F.product.fl (sx * sw)))) := by
  constructor
  · rw [List.forall₂_map_left_iff, List.forall₂_same]
    intro row _
    rw [List.forall₂_map_left_iff, List.forall₂_same]
    intro w _
    exact quant_near hsw (by unfold Code; norm_num) w
  · rw [List.forall₂_map_left_iff, List.forall₂_same]
    intro v _
    exact ⟨code32 _ _ _, fun hP => bias_near hF hP v⟩

theorem int8_repr : NamesType (intDtype 7).repr "int" 8 := by unfold NamesType; decide +kernel

theorem declared_ok (s : ℚ) (z : ℤ) (shape : List ℕ) :
    HasParams (declared s z (intDtype 7) shape) s z ∧ IsInt8 (declared s z (intDtype 7) shape) :=
  ⟨⟨rfl, rfl⟩, _, rfl, int8_repr⟩

theorem act_names {l : KDense} (h : upper l.actName ∈ supportedActivations) :
    upper l.actName ∈ skipFunctions ∨
      (upper l.actName ∉ skipFunctions ∧ upper l.actName ∈ ["TANH".toList, "SIGMOID".toList] ∧
        ∀ inp out, (actJson l.actName inp out).opType = "TANHLUT" ∨ (actJson l.actName inp out).opType = "SIGMOIDLUT") := by
  by_cases hs : upper l.actName ∈ skipFunctions
  · exact .inl hs
  · have hl := lut_of_supported h hs
    refine .inr ⟨hs, hl, fun inp out => ?_⟩
    have e : (actJson l.actName inp out).opType = String.ofList (upper l.actName ++ "LUT".toList) := by
      unfold actJson
      simp only [hl, decide_true, if_true]
    rw [e]
    unfold lutFunctions at hl
    rw [List.mem_cons, List.mem_singleton] at hl
    rcases hl with h | h
    · left; rw [h]; rfl
    · right; rw [h]; rfl

/-- Where the exporter stands: codes with these parameters. -/
structure TipOk (t : Tip) : Prop where
  params : HasParams t.node t.scale t.zp
  int8 : IsInt8 t.node
  zp : Code (-128) 127 t.zp
  float : IsFloat 53 (-1074) t.scale

/-- One dense layer. -/
theorem dense_export {F : Formats} (h1 : ∀ d, Ieee (F.data d)) (h2 : ∀ d, Ieee (F.weight d)) (h3 : Ieee F.product)
    {K : FloatKeras} {c : DenseCfg} (hc : Int8Cfg c) {l : KDense} {n : ℕ}
    (hsh : ShapeOk l n) (hsup : upper l.actName ∈ supportedActivations) {δ : ℚ} (hδ : ∀ a, |K.act l a - l.act a| ≤ δ)
    (hlut : upper l.actName ∈ ["TANH".toList, "SIGMOID".toList] →
      (∀ a, |l.act a| ≤ 1) ∧ ∀ a b, |l.act a - l.act b| ≤ |a - b|)
    {t t' : Tip} (ht : TipOk t) {ops : List OpJ} (h : (Arith.float F K).dense c l t = some (ops, t')) :
    TipOk t' ∧ ∃ fs, List.Forall₂ FileMeans ops fs ∧ (∀ p, fileLast p fs = (t'.scale, t'.zp)) ∧
      ∀ ls rest, ExportedFile F.product.fl δ (t'.scale, t'.zp) ls rest →
        ExportedFile F.product.fl δ (t.scale, t.zp) (l :: ls) (fs ++ rest) := by
  have hk : 0 < l.kernel.length := by rw [hsh.inputs]; exact hsh.pos
  unfold Arith.dense at h
  rw [int8_of_names hc.kernel, int8_of_names hc.activation, int8_of_names hc.biasAdd, int32_of_names hc.bias] at h
  simp only [Option.bind_eq_bind, Option.bind_some, Option.bind_eq_some_iff] at h
  obtain ⟨k, hkn, pr, -, d, -, o, ho, h⟩ := h
  cases had : c.adaround with
  | true => rw [had] at h; simp at h
  | false =>
  rw [had] at h
  simp only [Bool.false_eq_true, if_false] at h
  obtain ⟨ho1, ho2, ho3⟩ := cal_float h1 ho
  obtain ⟨⟨sw, zw⟩, data⟩ := k
  obtain ⟨hk1, hk2, hk3⟩ := kernel_float h2 hsh.units hk hkn
  simp only at hk1 hk2 hk3 h
  subst hk2 hk3
  obtain ⟨so, zo⟩ := o
  simp only at ho1 ho2 ho3
  obtain ⟨W, hW⟩ : ∃ W, W = l.kernelT.map (fun r => r.map (fun x => Fmt.f64.quantize (intDtype 7) x 0 sw)) := ⟨_, rfl⟩
  obtain ⟨b, hb⟩ : ∃ b, b = l.biasV.map (fun x => Fmt.f64.quantize (intDtype 31) x 0 (F.product.fl (t.scale * sw))) := ⟨_, rfl⟩
  have hst : Stores l t.scale sw (F.product.fl (t.scale * sw)) W b := by rw [hW, hb]; exact stores h3 hk1
  have eK : (Arith.float F K).stored sw 0 (intDtype 7) [l.units, l.kernel.length] l.kernelT.flatten =
      ⟨some sw, some 0, some ⟨some (.mat W), [l.units, l.kernel.length], (intDtype 7).repr⟩, none⟩ := by
    have := Arr.chunks_flatten (fun x => Fmt.f64.quantize (intDtype 7) x 0 sw) l.kernel.length l.kernelT
      (fun r hr => kernelT_row hr)
    rw [kernelT_length] at this
    rw [hW, ← this]
    rfl
  have eB : (Arith.float F K).stored ((Arith.float F K).mul t.scale sw) 0 (intDtype 31) [l.biasV.length] l.biasV =
      ⟨some (F.product.fl (t.scale * sw)), some 0, some ⟨some (.vec b), [l.biasV.length], (intDtype 31).repr⟩, none⟩ := by
    rw [hb]; rfl
  rw [eK, eB] at h
  have means : ∀ (out : NodeJ) (g : ℚ → ℚ), HasParams out so zo → IsInt8 out →
      FileMeans (fcJson l.name t.node
        ⟨some sw, some 0, some ⟨some (.mat W), [l.units, l.kernel.length], (intDtype 7).repr⟩, none⟩
        ⟨some (F.product.fl (t.scale * sw)), some 0, some ⟨some (.vec b), [l.biasV.length], (intDtype 31).repr⟩, none⟩ out)
        (.dense t.scale t.zp sw 0 W b so zo g) := fun out g hp h8 =>
    .dense rfl rfl rfl ht.params ⟨rfl, rfl⟩ rfl rfl rfl rfl hp h8
  obtain ⟨dp, d8⟩ := declared_ok so zo t.data.shape
  unfold Arith.activation at h
  rcases act_names hsup with hs | ⟨hs, hl, hop⟩
  · rw [if_pos hs, Option.some.injEq, Prod.mk.injEq] at h
    obtain ⟨rfl, rfl⟩ := h
    refine ⟨⟨dp, d8, ho2, ho3⟩, [.dense t.scale t.zp sw 0 W b so zo (target l)], .cons (means _ _ dp d8) .nil, fun p => rfl, ?_⟩
    intro ls rest hrest
    exact .plain hs hst hk1 ho1 ho2 hrest
  · rw [if_neg hs, Option.map_eq_some_iff] at h
    obtain ⟨⟨sa, za⟩, ha, h⟩ := h
    obtain ⟨ha1, ha2, ha3⟩ := cal_float h1 ha
    simp only at ha1 ha2 ha3
    rw [Prod.mk.injEq] at h
    obtain ⟨rfl, rfl⟩ := h
    obtain ⟨ap, a8⟩ := declared_ok sa za (pr.map ((Arith.float F K).act l)).shape
    obtain ⟨hb1, hb2⟩ := hlut hl
    have hin : decide (upper l.actName ∈ lutFunctions) = true := decide_eq_true hl
    obtain ⟨T, hT⟩ : ∃ T, T = (Arith.float F K).table (intDtype 7) (K.act l) so zo sa za := ⟨_, rfl⟩
    have eT : (Arith.float F K).tabled l (intDtype 7) (so, zo) (sa, za) (declared so zo (intDtype 7) t.data.shape) =
        ⟨some so, some zo, some ⟨none, t.data.shape.drop 1, (intDtype 7).repr⟩, some ⟨some T, some (-(intDtype 7).min), none⟩⟩ := by
      unfold Arith.tabled
      rw [if_pos hin, hT]
      rfl
    rw [eT]
    refine ⟨⟨ap, a8, ha2, ha3⟩, [.dense t.scale t.zp sw 0 W b so zo id, .act l.act 1 (tableErr δ so sa) so zo sa za],
      .cons (means _ _ ⟨rfl, rfl⟩ ⟨_, rfl, int8_repr⟩) (.cons ?_ .nil), fun p => rfl, ?_⟩
    · refine .act (l := ⟨.plain T, -(intDtype 7).min⟩) (hop _ _) rfl ?_
      intro q hq
      have hq' : Code (intDtype 7).min (intDtype 7).max q := by rw [int8_range.1, int8_range.2]; exact hq
      refine ⟨_, ?_, entry_near (fun a b => by rw [one_mul]; exact hb2 a b) hb1 hδ ho1 ho3 ho2 ha1 ha2 F.policy q hq _ rfl⟩
      show ReducedLUT.pyIndex T (q + -(intDtype 7).min) = _
      have hidx : q + -(intDtype 7).min = ((q - (intDtype 7).min).toNat : ℤ) := by unfold Code at hq'; omega
      rw [hidx, hT]
      simp only [ReducedLUT.pyIndex, Int.natCast_nonneg, if_true, Int.toNat_natCast, Arith.float, List.getElem?_map,
        codes_get hq', Option.map_some]
    · intro ls rest hrest
      exact .tabled hl hst hk1 ho1 ho2 ha1 ha2 hrest

/-- All layers. -/
theorem layers_export {F : Formats} (h1 : ∀ d, Ieee (F.data d)) (h2 : ∀ d, Ieee (F.weight d)) (h3 : Ieee F.product)
    {K : FloatKeras} {cfg : Cfg} {δ : ℚ} (ls : List KLayer) :
    ∀ {n : ℕ}, Int8Layers cfg n ls → ActsOk K.act δ ls → ∀ {t t' : Tip}, TipOk t → ∀ {ops : List OpJ},
      (Arith.float F K).layers cfg t ls = some (ops, t') →
      TipOk t' ∧ ∃ fs, List.Forall₂ FileMeans ops fs ∧ fileLast (t.scale, t.zp) fs = (t'.scale, t'.zp) ∧
        ExportedFile F.product.fl δ (t.scale, t.zp) (denseLayers ls) fs := by
  induction ls with
  | nil =>
    intro n _ _ t t' ht ops h
    simp only [Arith.layers, Option.some.injEq, Prod.mk.injEq] at h
    obtain ⟨rfl, rfl⟩ := h
    exact ⟨ht, [], .nil, rfl, .nil _⟩
  | cons l ls ih =>
    intro n h8 ha t t' ht ops h
    have ha' : ActsOk K.act δ ls := fun l hl => ha l (List.mem_cons_of_mem _ hl)
    cases l with
    | lstm l => exact absurd h8 id
    | other => exact absurd h8 id
    | dropout => exact ih (n := n) h8 ha' ht h
    | input => exact ih (n := n) h8 ha' ht h
    | dense l =>
      obtain ⟨hsh, hn, hcfg, hsup, hlip, h8⟩ := h8
      simp only [Arith.layers, Option.bind_eq_bind, Option.bind_eq_some_iff, Option.some.injEq, Prod.mk.injEq] at h
      obtain ⟨c, hc, ⟨ops1, t1⟩, hd, ⟨ops2, t2⟩, hl, rfl, rfl⟩ := h
      obtain ⟨hδ, hb⟩ := ha l List.mem_cons_self
      obtain ⟨ht1, fs1, m1, l1, e1⟩ := dense_export h1 h2 h3 (hcfg c hc) hsh hsup hδ (fun hu => ⟨hb hu, hlip hu⟩) ht hd
      obtain ⟨ht2, fs2, m2, l2, e2⟩ := ih h8 ha' ht1 hl
      refine ⟨ht2, fs1 ++ fs2, List.rel_append m1 m2, ?_, e1 _ _ e2⟩
      have happ : ∀ (p : ℚ × ℤ) (a b : List FileOp), fileLast p (a ++ b) = fileLast (fileLast p a) b := by
        intro p a
        induction a generalizing p with
        | nil => intro b; rfl
        | cons x a iha => intro b; exact iha _ b
      rw [happ, l1, l2]

/-- Shapes of dense layers. -/
def Shapes : ℕ → List KDense → Prop
  | _, [] => True
  | n, l :: ls => ShapeOk l n ∧ n ≤ 2 ^ 14 ∧
    (upper l.actName ∈ ["TANH".toList, "SIGMOID".toList] → ∀ a b, |l.act a - l.act b| ≤ |a - b|) ∧ Shapes l.units ls

theorem shapes {cfg : Cfg} (ls : List KLayer) : ∀ {n : ℕ}, Int8Layers cfg n ls → Shapes n (denseLayers ls) := by
  induction ls with
  | nil => intro n _; trivial
  | cons l ls ih =>
    intro n h
    cases l with
    | lstm l => exact absurd h id
    | other => exact absurd h id
    | dropout => exact ih (n := n) h
    | input => exact ih (n := n) h
    | dense l =>
      obtain ⟨h1, h2, -, -, h3, h4⟩ := h
      exact ⟨h1, h2, h3, ih h4⟩

theorem biasV_length {l : KDense} {n : ℕ} (h : ShapeOk l n) : l.biasV.length = l.units := by
  unfold KDense.biasV
  cases hb : l.bias with
  | none => simp
  | some b => simpa using h.bias b hb

theorem dense_fits {l : KDense} {n : ℕ} (hsh : ShapeOk l n) (hn : n ≤ 2 ^ 14) {sx sw S so : ℚ} {zx zo : ℤ}
    {W : List (List ℤ)} {b : List ℤ} (hst : Stores l sx sw S W b) (hso : 0 < so) (hzo : Code (-128) 127 zo)
    (hzx : Code (-128) 127 zx) (f1 : (2 : ℚ) ^ (-126 : ℤ) ≤ sx * sw) (f2 : 1 / 999999 ≤ sx * sw / so)
    (f3 : sx * sw / so ≤ 2 ^ 29) (g : ℚ → ℚ) :
    (FileOp.dense sx zx sw 0 W b so zo g).Fits n ∧ W.length = l.units := by
  have hWl : W.length = l.units := by rw [hst.kernel.length_eq, kernelT_length]
  refine ⟨⟨le_trans (zpow_le_zpow_right₀ (by norm_num) (by norm_num)) f1, hso, f2, f3, hzx, by unfold Code; norm_num, hzo, hn,
    ?_, ?_, ?_, ?_⟩, hWl⟩
  · intro h
    have := hsh.units
    rw [h] at hWl
    simp at hWl; omega
  · rw [hst.bias.length_eq, biasV_length hsh, hWl]
  · intro r hr
    obtain ⟨i, hi, rfl⟩ := List.mem_iff_getElem.mp hr
    have hk := (List.forall₂_iff_get.mp hst.kernel).2 i hi (by rw [← hst.kernel.length_eq]; exact hi)
    simp only [List.get_eq_getElem] at hk
    refine ⟨?_, ?_⟩
    · rw [hk.length_eq, kernelT_row (List.getElem_mem _), hsh.inputs]
    · intro w hw
      obtain ⟨j, hj, rfl⟩ := List.mem_iff_getElem.mp hw
      exact ((List.forall₂_iff_get.mp hk).2 j hj (by rw [← hk.length_eq]; exact hj)).1
  · intro v hv
    obtain ⟨i, hi, rfl⟩ := List.mem_iff_getElem.mp hv
    exact ((List.forall₂_iff_get.mp hst.bias).2 i hi (by rw [← hst.bias.length_eq]; exact hi)).1

theorem exported_fits {M : ℚ → ℚ} {δ : ℚ} {p : ℚ × ℤ} {ls : List KDense} {fs : List FileOp} (h : ExportedFile M δ p ls fs) :
    ∀ {n : ℕ}, Shapes n ls → Factors fs → Code (-128) 127 p.2 → fileFits p fs n := by
  induction h with
  | nil p => intro n _ _ _; trivial
  | plain hact hst hsw hso hzo hrest ih =>
    intro n hs hf hz
    obtain ⟨hsh, hn, -, hs⟩ := hs
    obtain ⟨f1, f2, f3, hf⟩ := hf
    obtain ⟨d1, d2⟩ := dense_fits hsh hn hst hso hzo hz f1 f2 f3 _
    refine ⟨rfl, d1, ?_⟩
    simp only [FileOp.writes, FileOp.size, d2]
    exact ih hs hf hzo
  | tabled hact hst hsw hso hzo hsa hza hrest ih =>
    intro n hs hf hz
    obtain ⟨hsh, hn, hlip, hs⟩ := hs
    obtain ⟨f1, f2, f3, hf⟩ := hf
    obtain ⟨d1, d2⟩ := dense_fits hsh hn hst hso hzo hz f1 f2 f3 _
    refine ⟨rfl, d1, rfl, ⟨?_, by norm_num, fun a b => by rw [one_mul]; exact hlip hact a b, hza⟩, ?_⟩
    · simp only [FileOp.size, d2]; exact hsh.units
    · simp only [FileOp.writes, FileOp.size, d2]
      exact ih hs hf hza

/-- One neuron with stored weights. -/
theorem neuron_drift {sw : ℚ} {c : List ℤ} {row : List ℚ}
    (h : List.Forall₂ (fun c w => Code (-128) 127 c ∧ |real 0 sw c - w| ≤ codeErr sw 0 w) c row) :
    ∀ {u t d : List ℚ}, Within u t d →
      |dotQ (c.map (real 0 sw)) u - dotQ row t| ≤
        (List.zipWith (fun w (p : ℚ × ℚ) => (|w| + codeErr sw 0 w) * p.2 + codeErr sw 0 w * |p.1|) row (List.zip t d)).sum := by
  induction h with
  | nil => intro u t d _; simp [dotQ]
  | @cons a w c row h1 _ ih =>
    intro u t d hw
    obtain ⟨hl, hw⟩ := hw
    cases t with
    | nil => cases hw; simp [dotQ]
    | cons y t =>
      cases d with
      | nil => simp at hl
      | cons e d =>
        cases hw with
        | @cons x _ u _ h2 h3 =>
          have i := ih (u := u) (t := t) (d := d) ⟨by simpa using hl, h3⟩
          simp only [dotQ, List.map_cons, List.zipWith_cons_cons, List.sum_cons, List.zip_cons_cons] at i ⊢
          have e1 : real 0 sw a * x + (List.zipWith (· * ·) (c.map (real 0 sw)) u).sum - (w * y + (List.zipWith (· * ·) row t).sum)
              = (real 0 sw a * (x - y) + (real 0 sw a - w) * y) +
                ((List.zipWith (· * ·) (c.map (real 0 sw)) u).sum - (List.zipWith (· * ·) row t).sum) := by ring
          rw [e1]
          refine (abs_add_le _ _).trans (add_le_add ?_ i)
          refine (abs_add_le _ _).trans ?_
          rw [abs_mul, abs_mul]
          have h4 := h1.2
          have h5 : |real 0 sw a| ≤ |w| + codeErr sw 0 w := by
            have := abs_sub_abs_le_abs_sub (real 0 sw a) w
            linarith
          simp only at h2
          exact add_le_add (mul_le_mul h5 h2 (abs_nonneg _) (le_trans (abs_nonneg _) h5))
            (mul_le_mul_of_nonneg_right h4 (abs_nonneg _))

theorem denseRow_eq {l : KDense} {n : ℕ} (h : ShapeOk l n) (x : List ℚ) : denseRow l x = denseQ l.kernelT l.biasV x := by
  have := preRow_eq h x
  exact this.symm

/-- One dense layer with stored weights. -/
theorem dense_drift {l : KDense} {n : ℕ} (hsh : ShapeOk l n) {sx sw S : ℚ} {W : List (List ℤ)} {b : List ℤ}
    (hst : Stores l sx sw S W b) (hP : (2 : ℚ) ^ (-126 : ℤ) ≤ sx * sw) {u t d : List ℚ} (hw : Within u t d) :
    Within (denseQ (realMatrix 0 sw W) (b.map (real 0 (sx * sw))) u) (denseRow l t)
      (List.zipWith (fun row v => neuronDrift sw S row v t d) l.kernelT l.biasV) := by
  rw [denseRow_eq hsh]
  obtain ⟨hk, hb⟩ := hst
  unfold denseQ realMatrix
  generalize l.kernelT = K at hk
  generalize l.biasV = B at hb
  refine ⟨by simp, ?_⟩
  induction hk generalizing b B with
  | nil => simp
  | @cons c row W K h1 _ ih =>
    cases hb with
    | nil => simp
    | @cons a v b B h2 h3 =>
      simp only [List.map_cons, List.zipWith_cons_cons, List.zip_cons_cons]
      refine .cons ?_ (ih _ h3)
      have i1 := neuron_drift h1 hw
      have i2 := h2.2 hP
      unfold neuronDrift
      have e : dotQ (c.map (real 0 sw)) u + real 0 (sx * sw) a - (dotQ row t + v) =
          (dotQ (c.map (real 0 sw)) u - dotQ row t) + (real 0 (sx * sw) a - v) := by ring
      simp only
      rw [e]
      refine (abs_add_le _ _).trans ?_
      linarith

theorem within_map {f : ℚ → ℚ} (hf : ∀ a b, |f a - f b| ≤ |a - b|) {u t d : List ℚ} (h : Within u t d) :
    Within (u.map f) (t.map f) d := by
  obtain ⟨hl, h⟩ := h
  refine ⟨by simpa using hl, ?_⟩
  induction t generalizing u d with
  | nil => cases h; simp
  | cons y t ih =>
    cases d with
    | nil => simp at hl
    | cons e d =>
      cases h with
      | cons h1 h2 => exact .cons ((hf _ _).trans h1) (ih (by simpa using hl) h2)

/-- What the stored network means against the float network. -/
theorem drift_within {M : ℚ → ℚ} {δ : ℚ} {p : ℚ × ℤ} {ls : List KDense} {fs : List FileOp} (h : ExportedFile M δ p ls fs) :
    ∀ {n : ℕ}, Shapes n ls → Factors fs → (∀ l ∈ ls, ∀ a b, |target l a - target l b| ≤ |a - b|) →
      ∀ {u t d : List ℚ}, Within u t d →
        Within (fileExact fs u) (ls.foldl (fun x l => (denseRow l x).map (target l)) t) (drift M fs ls t d) := by
  induction h with
  | nil p => intro n _ _ _ u t d hw; exact hw
  | @plain l ls fs sx zx sw so zo W b hact hst hsw hso hzo hrest ih =>
    intro n hs hf hlip u t d hw
    obtain ⟨hsh, hn, -, hs⟩ := hs
    obtain ⟨f1, f2, f3, hf⟩ := hf
    have h1 := within_map (hlip l List.mem_cons_self) (dense_drift hsh hst f1 hw)
    exact ih hs hf (fun l hl => hlip l (List.mem_cons_of_mem _ hl)) h1
  | @tabled l ls fs sx zx sw so zo sa za W b hact hst hsw hso hzo hsa hza hrest ih =>
    intro n hs hf hlip u t d hw
    obtain ⟨hsh, hn, -, hs⟩ := hs
    obtain ⟨f1, f2, f3, hf⟩ := hf
    have h1 := within_map (hlip l List.mem_cons_self) (dense_drift hsh hst f1 hw)
    have h2 := ih hs hf (fun l hl => hlip l (List.mem_cons_of_mem _ hl)) h1
    have e : target l = l.act := by
      funext y
      unfold target
      rw [if_neg]
      intro hc
      rw [hc] at hact
      exact absurd hact (by decide)
    rw [e] at h2
    simp only [fileExact, FileOp.exact, List.map_id, drift, List.foldl_cons, e]
    exact h2

theorem factors {ops : List OpJ} {fs : List FileOp} (h : List.Forall₂ FileMeans ops fs) (hf : FileFactors ops) : Factors fs := by
  induction h with
  | nil => trivial
  | @cons op f ops fs h1 _ ih =>
    have ih := ih (fun o ho => hf o (List.mem_cons_of_mem _ ho))
    cases h1 with
    | @dense i k c o rest kt ct sx zx sw zw W b so zo g ht hin hout hi hk hkt hW hct hb ho ho8 =>
      obtain ⟨a, b, c⟩ := hf op List.mem_cons_self sx sw so zo ht (by
        unfold fcParams
        rw [hin, hout]
        simp only [List.getElem?_cons_zero, List.getElem?_cons_succ, Option.bind_eq_bind, Option.bind_some, hi.1, hk.1, ho.1,
          ho.2])
      exact ⟨a, b, c, ih⟩
    | act => exact ih
    | relu => exact ih

theorem forward_foldl (ls : List KLayer) : ∀ x, forward ls x = (denseLayers ls).foldl (fun x l => (denseRow l x).map (target l)) x := by
  induction ls with
  | nil => intro x; rfl
  | cons l ls ih =>
    intro x
    cases l with
    | dense l => exact ih _
    | lstm l => exact ih _
    | other => exact ih _
    | dropout => exact ih _
    | input => exact ih _

end FloatExport

open FloatExport

/-- C95 (the file).  Whatever the exporter writes in floating point arithmetic for an int8 model of dense layers is a network
file in the sense of C92 (so the engine loads it), and its operators are those of the layers, one after the other, with
integers that stand for the layers' weights and biases and tables that stand for their activations, as accurately as
`codeErr`, `biasErr` and `tableErr` say. -/
theorem C95_file (F : Formats) (h1 : ∀ d, Ieee (F.data d)) (h2 : ∀ d, Ieee (F.weight d)) (h3 : Ieee F.product)
    (K : FloatKeras) (cfg : Cfg) (X : Arr ℚ) (ls : List KLayer) (n : ℕ)
    (h8 : Int8Layers cfg n ls) (hq : NamesType cfg.quantizeDtype "int" 8) (δ : ℚ) (ha : ActsOk K.act δ ls) (g : List OpJ)
    (h : (Arith.float F K).graph cfg X ls = some g) :
    ∃ s z fs, NetMeans (exportJson g) s z fs ∧ 0 < s ∧ Code (-128) 127 z ∧ IsFloat 53 (-1074) (fileLast (s, z) fs).1 ∧
      ExportedFile F.product.fl δ (s, z) (denseLayers ls) fs := by
  unfold Arith.graph at h
  rw [Accuracy.int8_of_names hq] at h
  simp only [Option.bind_eq_bind, Option.bind_some, Option.bind_eq_some_iff, Option.some.injEq] at h
  obtain ⟨p, hp, ⟨ops, t'⟩, hl, rfl⟩ := h
  obtain ⟨p1, p2, p3⟩ := cal_float h1 hp
  obtain ⟨dp, d8⟩ := declared_ok p.1 p.2 X.shape
  obtain ⟨ht', fs, m, l, e⟩ := layers_export h1 h2 h3 ls h8 ha (t := ⟨declared p.1 p.2 (intDtype 7) X.shape, p.1, p.2, X⟩)
    ⟨dp, d8, p2, p3⟩ hl
  simp only at l e
  refine ⟨p.1, p.2, fs, ⟨(by decide : upper "tflite" = "TFLITE".toList), ⟨_, rfl⟩, ⟨_, rfl⟩, ?_⟩, p1, p2, by rw [l]; exact ht'.float, e⟩
  refine ⟨_, ops, _, rfl, ⟨rfl, (by decide : contains "QUANT" (upper "QUANTIZE") = true), _, [], rfl, dp, d8⟩, m, rfl, _, [], rfl, ?_, ht'.int8⟩
  rw [l]; exact ht'.params

/-- C95 (weights).  What the stored integers mean in real arithmetic is within `drift` of the float model, for every
input. -/
theorem C95_drift (M : ℚ → ℚ) (δ s : ℚ) (z : ℤ) (cfg : Cfg) (ls : List KLayer) (n : ℕ) (h8 : Int8Layers cfg n ls)
    (fs : List FileOp) (h : ExportedFile M δ (s, z) (denseLayers ls) fs) (hf : Factors fs)
    (hlip : ∀ l, KLayer.dense l ∈ ls → ∀ a b, |target l a - target l b| ≤ |a - b|) (x : List ℚ) :
    Within (fileExact fs x) (forward ls x) (drift M fs (denseLayers ls) x (x.map (fun _ => 0))) := by
  rw [forward_foldl]
  refine drift_within h (shapes ls h8) hf ?_ ⟨by simp, ?_⟩
  · intro l hl
    apply hlip
    unfold denseLayers at hl
    rw [List.mem_filterMap] at hl
    obtain ⟨k, hk, e⟩ := hl
    cases k with
    | dense k =>
      simp only [Option.some.injEq] at e
      subst e; exact hk
    | lstm k => cases e
    | dropout => cases e
    | input => cases e
    | other => cases e
  · induction x with
    | nil => exact .nil
    | cons y x ih => exact .cons (by simp) ih

theorem FloatExport.within_trans {y t x E D : List ℚ} (h1 : Within y t E) (h2 : Within t x D) :
    Within y x (List.zipWith (· + ·) E D) := by
  obtain ⟨a, b⟩ := h1
  obtain ⟨c, d⟩ := h2
  have hlen : t.length = x.length := by rw [d.length_eq, List.length_zip, c, min_self]
  refine ⟨by simp [a, c, hlen], ?_⟩
  induction y generalizing t x E D with
  | nil =>
    cases t with
    | nil =>
      cases x with
      | nil => simp
      | cons u x => simp at hlen
    | cons u t =>
      cases E with
      | nil => simp at a
      | cons e E => cases b
  | cons v y ih =>
    cases t with
    | nil => cases b
    | cons u t =>
      cases E with
      | nil => simp at a
      | cons e E =>
        cases x with
        | nil => simp at hlen
        | cons w x =>
          cases D with
          | nil => simp at c
          | cons f D =>
            cases b with
            | cons b1 b2 =>
              cases d with
              | cons d1 d2 =>
                refine .cons ?_ (ih (by simpa using a) b2 (by simpa using c) d2 (by simpa using hlen))
                have := abs_sub_le v u w
                simp only at b1 d1 ⊢
                linarith

/-- C95.  Quantizer and engine together, both in floating point: the exported file loads, and for every sample and every
non-empty batch of samples the engine's outputs are within an explicit bound of the float model — what the engine loses on
the file (C92), plus what the file loses on the model (`drift`) — if the scales of the file are neither tiny nor huge. -/
theorem C95_accuracy (ext : Ext) (F : Formats) (h1 : ∀ d, Ieee (F.data d)) (h2 : ∀ d, Ieee (F.weight d)) (h3 : Ieee F.product)
    (K : FloatKeras) (cfg : Cfg) (X : Arr ℚ) (ls : List KLayer) (n : ℕ)
    (h8 : Int8Layers cfg n ls) (hq : NamesType cfg.quantizeDtype "int" 8) (δ : ℚ) (ha : ActsOk K.act δ ls)
    (hlip : ∀ l, KLayer.dense l ∈ ls → ∀ a b, |target l a - target l b| ≤ |a - b|) (g : List OpJ)
    (h : (Arith.float F K).graph cfg X ls = some g) (hg : FileFactors g) :
    ∃ s z fs, NetMeans (exportJson g) s z fs ∧ ExportedFile F.product.fl δ (s, z) (denseLayers ls) fs ∧
      ∃ N, Fmt.f64.load (exportJson g) = some N ∧
        (∀ x : List ℚ, x.length = n → ∃ y rec, Fmt.f64.infer ext N (.flt (.vec x)) = some (.flt (.vec y), rec) ∧
          Within y (forward ls x) (List.zipWith (· + ·)
            (outputBound (fileExact fs x) (fileBound fs x (inputBound s z x)))
            (drift F.product.fl fs (denseLayers ls) x (x.map (fun _ => 0))))) ∧
        ∀ B : List (List ℚ), B ≠ [] → (∀ x ∈ B, x.length = n) →
          ∃ Y rec, Fmt.f64.infer ext N (.flt (.mat B)) = some (.flt (.mat Y), rec) ∧
            List.Forall₂ (fun y x => Within y (forward ls x) (List.zipWith (· + ·)
              (outputBound (fileExact fs x) (fileBound fs x (inputBound s z x)))
              (drift F.product.fl fs (denseLayers ls) x (x.map (fun _ => 0))))) Y B := by
  obtain ⟨s, z, fs, hm, hs, hz, hlast, he⟩ := C95_file F h1 h2 h3 K cfg X ls n h8 hq δ ha g h
  have hf : Factors fs := by
    obtain ⟨-, -, -, q, ops, d, hgr, -, hops, -⟩ := hm
    refine factors hops (fun op hop => hg op ?_)
    change g = _ at hgr
    rw [hgr]; simp [hop]
  refine ⟨s, z, fs, hm, he, ?_⟩
  obtain ⟨N, n1, n2, n3⟩ := C92_accuracy ext (exportJson g) s z fs hm hs hz n (exported_fits he (shapes ls h8) hf hz) hlast
  have hd := fun x => C95_drift F.product.fl δ s z cfg ls n h8 fs he hf hlip x
  refine ⟨N, n1, ?_, ?_⟩
  · intro x hx
    obtain ⟨y, rec, e1, e2⟩ := n2 x hx
    exact ⟨y, rec, e1, within_trans e2 (hd x)⟩
  · intro B hB hx
    obtain ⟨Y, rec, e1, e2⟩ := n3 B hB hx
    exact ⟨Y, rec, e1, e2.imp (fun y x h => within_trans h (hd x))⟩

namespace C95Case

/-- Two inputs, a layer with a hard tanh (weights -1/3 and bias 1/10 are not floats), dropout, a linear layer. -/
def layers : List KLayer :=
  [.dense ⟨"a", 1, [[1], [-1/3]], some [1/10], "tanh", clip (-1) 1⟩, .dropout, .dense ⟨"b", 1, [[3]], none, "linear", id⟩]

/-- Everything in float32, as with a Keras model and float32 data. -/
def formats : Formats := ⟨fun _ => Fmt.f32, fun _ => Fmt.f32, Fmt.f32, Fmt.f64⟩

def pre (l : KDense) (x : Arr ℚ) : Option (Arr ℚ) := (l.pre x).map (fun y => y.map Fmt.f32.fl)
def act (l : KDense) (v : ℚ) : ℚ := l.act v

/-- Keras' float32 results; there is no LSTM layer. -/
def keras : FloatKeras := ⟨pre, act, fun _ _ => none, id, id⟩

/-- The exporter succeeds, and its scales are as required. -/
theorem exported : ∃ g, (Arith.float formats keras).graph {} (.mat [[1, -1/2]]) layers = some g ∧
    g.filterMap (fun op => if op.opType = "FULLY_CONNECTED" then fcParams op else none) = [(12632257 / 2147483648, 1 / 128, 14877991 / 2147483648, -128),
      (12632257 / 2147483648, 7 / 256, 14737633 / 1073741824, -128)] := by
  have h : ((Arith.float formats keras).graph {} (.mat [[1, -1/2]]) layers).map
      (fun g => g.filterMap (fun op => if op.opType = "FULLY_CONNECTED" then fcParams op else none)) = some [(12632257 / 2147483648, 1 / 128, 14877991 / 2147483648, -128),
      (12632257 / 2147483648, 7 / 256, 14737633 / 1073741824, -128)] := by
    decide +kernel
  rw [Option.map_eq_some_iff] at h
  exact h

theorem clip_lip (a b : ℚ) : |clip (-1) 1 a - clip (-1) 1 b| ≤ |a - b| := by
  unfold clip
  refine (abs_min_sub_min_le_max _ _ _ _).trans ?_
  rw [sub_self, abs_zero]
  refine max_le (abs_nonneg _) ((abs_max_sub_max_le_max _ _ _ _).trans ?_)
  rw [sub_self, abs_zero]
  exact max_le (abs_nonneg _) le_rfl

theorem int8 : Int8Layers {} 2 layers := by
  have hc : ∀ c, Cfg.denseFor {} "a" = some c → Int8Cfg c := by
    intro c hc
    rw [show Cfg.denseFor {} "a" = some {} from rfl, Option.some.injEq] at hc
    subst hc
    refine ⟨?_, ?_, ?_, ?_⟩ <;> (unfold NamesType; decide +kernel)
  refine ⟨⟨rfl, by norm_num, by norm_num, by simp⟩, by norm_num, hc, by decide, fun _ => clip_lip,
    ⟨rfl, by norm_num, by norm_num, by simp⟩, by norm_num, hc, by decide, fun h => absurd h (by decide), trivial⟩

/-- All hypotheses of `C95_accuracy` hold. -/
theorem accurate (ext : Ext) : ∃ g, (Arith.float formats keras).graph {} (.mat [[1, -1/2]]) layers = some g ∧
    ∃ s z fs, NetMeans (exportJson g) s z fs ∧ ExportedFile Fmt.f32.fl 0 (s, z) (denseLayers layers) fs ∧
      ∃ N, Fmt.f64.load (exportJson g) = some N ∧
        ∀ x : List ℚ, x.length = 2 → ∃ y rec, Fmt.f64.infer ext N (.flt (.vec x)) = some (.flt (.vec y), rec) ∧
          Within y (forward layers x) (List.zipWith (· + ·)
            (outputBound (fileExact fs x) (fileBound fs x (inputBound s z x)))
            (drift Fmt.f32.fl fs (denseLayers layers) x (x.map (fun _ => 0)))) := by
  obtain ⟨g, hg, hsc⟩ := exported
  refine ⟨g, hg, ?_⟩
  have hff : FileFactors g := by
    intro op hop sx sw so zo ht hp
    have hm : (sx, sw, so, zo) ∈ g.filterMap (fun op => if op.opType = "FULLY_CONNECTED" then fcParams op else none) :=
      List.mem_filterMap.mpr ⟨op, hop, by rw [if_pos ht, hp]⟩
    rw [hsc] at hm
    simp only [List.mem_cons, List.not_mem_nil, or_false, Prod.mk.injEq] at hm
    have h126 : (2 : ℚ) ^ (-126 : ℤ) ≤ 2 ^ (-40 : ℤ) := zpow_le_zpow_right₀ (by norm_num) (by norm_num)
    have h40 : (2 : ℚ) ^ (-40 : ℤ) = 1 / 2 ^ 40 := by rw [zpow_neg]; norm_num
    rw [h40] at h126
    rcases hm with ⟨rfl, rfl, rfl, -⟩ | ⟨rfl, rfl, rfl, -⟩ <;>
      exact ⟨h126.trans (by norm_num), by norm_num, by norm_num⟩
  have hact : ActsOk keras.act 0 layers := by
    intro l hl
    refine ⟨fun a => by simp [keras, act], ?_⟩
    simp only [layers, List.mem_cons, KLayer.dense.injEq, reduceCtorEq, false_or, List.not_mem_nil, or_false] at hl
    rcases hl with rfl | rfl
    · intro _ a
      rw [abs_le]
      exact ⟨clip_ge (by norm_num), clip_le⟩
    · intro h; exact absurd h (by decide)
  have hlip : ∀ l, KLayer.dense l ∈ layers → ∀ a b, |target l a - target l b| ≤ |a - b| := by
    intro l hl a b
    simp only [layers, List.mem_cons, KLayer.dense.injEq, reduceCtorEq, false_or, List.not_mem_nil, or_false] at hl
    rcases hl with rfl | rfl
    · have e : ∀ y, target ⟨"a", 1, [[1], [-1/3]], some [1/10], "tanh", clip (-1) 1⟩ y = clip (-1) 1 y := fun y => by
        unfold target; exact if_neg (by decide)
      rw [e, e]; exact clip_lip a b
    · have e : ∀ y, target ⟨"b", 1, [[3]], none, "linear", id⟩ y = y := fun y => by
        unfold target; exact if_neg (by decide)
      rw [e, e]
  obtain ⟨s, z, fs, m, e, N, n1, n2, -⟩ := C95_accuracy ext formats (fun _ => .inl rfl) (fun _ => .inl rfl) (.inl rfl) keras {} _ layers 2 int8
    (by unfold NamesType; decide +kernel) 0 hact hlip g hg hff
  exact ⟨s, z, fs, m, e, N, n1, n2⟩

end C95Case

end Verif
