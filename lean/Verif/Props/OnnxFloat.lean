import Verif.Props.OnnxAccuracy
import Verif.Props.FloatEngine

/-!
# C98: converted ONNX networks in IEEE binary64 arithmetic
-/

namespace Verif

open Spec Onnx2Json

namespace Spec

/-- Error of an operator's result in float64 if the error of the argument, exactly `x`, is `e`; `ideal` are the functions
meant, `ls`, `lt` Lipschitz constants of its sigmoid and tanh, `δ` the accuracy of the library functions used instead. -/
def OnnxOp.bound64 (ideal : Ext) (ls lt δ : ℚ) (o : OnnxOp) (x : List ℚ) (e : ℚ) : ℚ :=
  match o with
  | .quantize S Z => e + S * (1 / 2 + 1 / 2 ^ 40) + excess S Z x
  | .dequantize S _ => e + S / 2 ^ 40
  | .matmul _ _ _ c W wS wZ oS oZ => gain W c wS wZ * e + oS * (1 / 2 + 1 / 2 ^ 40) + excess oS oZ (o.exact ideal x)
  | .add iS _ _ bS _ oS oZ => e + (iS + |bS|) / 2 ^ 40 + oS * (1 / 2 + 1 / 2 ^ 40) + excess oS oZ (o.exact ideal x)
  | .sigmoid iS _ oS oZ => ls * (e + iS / 2 ^ 40) + δ + oS * (1 / 2 + 1 / 2 ^ 40) + excess oS oZ (o.exact ideal x)
  | .tanh => lt * e + δ
  | .softmax => e

/-- The accumulated error. -/
def onnxBound64 (ideal : Ext) (ls lt δ : ℚ) : List OnnxOp → List ℚ → ℚ → ℚ
  | [], _, e => e
  | o :: os, x, e => onnxBound64 ideal ls lt δ os (o.exact ideal x) (o.bound64 ideal ls lt δ x e)

/-- Every scale of a result is at least the smallest normal float32 number. -/
def NormalScales (ops : List OnnxOp) : Prop := ∀ o ∈ ops, ∀ S Z, o.after = some (S, Z) → (2 : ℚ) ^ (-126 : ℤ) ≤ S

/-- The functions of `f` are those of `ideal` up to `δ`. -/
def Approximates (δ : ℚ) (f ideal : Ext) : Prop :=
  ∀ a, |f.sigmoid a - ideal.sigmoid a| ≤ δ ∧ |f.tanh a - ideal.tanh a| ≤ δ

end Spec

namespace OnnxF64

open OnnxAcc

/-- The smallest positive number and its half. -/
theorem fl_abs (x : ℚ) : |Fmt.f64.fl x - x| ≤ |x| / 2 ^ 53 + (2 : ℚ) ^ (-1075 : ℤ) := by
  have h := Fmt.fl_err Fmt.f64 x
  have e : (2 : ℚ) ^ Fmt.f64.emin / 2 = 2 ^ (-1075 : ℤ) := by
    show (2 : ℚ) ^ (-1074 : ℤ) / 2 = _
    rw [show (-1075 : ℤ) = -1074 - 1 by norm_num, zpow_sub₀ (by norm_num), zpow_one]
  rw [e] at h
  have h1 : (0 : ℚ) ≤ |x| / 2 ^ 53 := by positivity
  have h2 : (0 : ℚ) ≤ 2 ^ (-1075 : ℤ) := by positivity
  refine h.trans (max_le ?_ ?_)
  · show |x| / 2 ^ 53 ≤ _
    linarith
  · linarith

theorem tiny {S : ℚ} (hS : (2 : ℚ) ^ (-126 : ℤ) ≤ S) : (2 : ℚ) ^ (-1075 : ℤ) ≤ S / 2 ^ 100 := by
  have h1 : (2 : ℚ) ^ (-1075 : ℤ) ≤ 2 ^ (-226 : ℤ) := zpow_le_zpow_right₀ (by norm_num) (by norm_num)
  have h2 : (2 : ℚ) ^ (-226 : ℤ) = 2 ^ (-126 : ℤ) / 2 ^ 100 := by
    rw [show (-226 : ℤ) = -126 - 100 by norm_num, zpow_sub₀ (by norm_num)]; norm_num
  rw [h2] at h1
  refine h1.trans ?_
  have := div_le_div_of_nonneg_right hS (show (0 : ℚ) ≤ 2 ^ 100 by positivity)
  exact this

theorem clip8_eq (t : ℚ) {z : ℤ} : Fmt.f64.clip8 t z = clip 0 255 (roundHalfEven t + z) := by
  unfold Fmt.clip8
  rw [show ((roundHalfEven t : ℤ) : ℚ) + (z : ℚ) = ((roundHalfEven t + z : ℤ) : ℚ) by push_cast; rfl]
  generalize roundHalfEven t + z = n
  have hp : 1 ≤ Fmt.f64.p := by decide
  have hrep : ∀ k : ℤ, |k| ≤ 2 ^ 53 → Fmt.f64.fl (k : ℚ) = k := fun k hk =>
    Fmt.fl_rep hp (Fmt.rep_int k hk (by decide))
  have h0 := hrep 0 (by norm_num)
  have h255 := hrep 255 (by norm_num)
  rcases le_total n 0 with h | h
  · have : Fmt.f64.fl (n : ℚ) ≤ 0 := by
      have := Fmt.fl_mono hp (show (n : ℚ) ≤ ((0 : ℤ) : ℚ) by exact_mod_cast h)
      rw [h0] at this; simpa using this
    rw [clip_of_le (by norm_num) h, max_eq_left (le_trans (min_le_right _ _) this)]
    exact trunc_int 0
  · rcases le_total n 255 with h' | h'
    · rw [hrep n (by rw [abs_le]; constructor <;> omega), clip_of_mem h h',
        min_eq_right (by exact_mod_cast h'), max_eq_right (by exact_mod_cast h)]
      exact trunc_int n
    · have : 255 ≤ Fmt.f64.fl (n : ℚ) := by
        have := Fmt.fl_mono hp (show ((255 : ℤ) : ℚ) ≤ (n : ℚ) by exact_mod_cast h')
        rw [h255] at this; simpa using this
      rw [clip_of_ge h', min_eq_left this, max_eq_right (by norm_num)]
      exact trunc_int 255

/-- The code of an inexact quotient `t'` of `t`. -/
theorem code_near {S : ℚ} (hS : 0 < S) {Z : ℤ} (hZ : Code 0 255 Z) {t t' : ℚ}
    (ht : |t' - t| ≤ |t| / 2 ^ 50 + 1 / 2 ^ 50) :
    |real Z S (clip 0 255 (roundHalfEven t' + Z)) - saturate8 S Z (S * t)| ≤ S * (1 / 2 + 1 / 2 ^ 40) := by
  have hmm : real Z S 0 ≤ real Z S 255 := Accuracy.real_mono hS Z (by norm_num)
  have hr := abs_le.mp (abs_roundHalfEven_sub_le t')
  obtain ⟨z0, z1⟩ := hZ
  have hpos : (0 : ℚ) ≤ S * (1 / 2 + 1 / 2 ^ 40) := by positivity
  have z0' : (0 : ℚ) ≤ Z := by exact_mod_cast z0
  have z1' : (Z : ℚ) ≤ 255 := by exact_mod_cast z1
  have h := abs_le.mp ht
  rcases le_or_gt |t| 600 with hb | hb
  · have h1 : |t' - t| ≤ 1 / 2 ^ 40 := ht.trans (by
      have := div_le_div_of_nonneg_right hb (show (0 : ℚ) ≤ 2 ^ 50 by positivity)
      refine (add_le_add_left this _).trans ?_
      norm_num)
    rw [real_clip8 hS]
    refine (Accuracy.rat_clip_sub_le _ _ _ _).trans ?_
    have e : real Z S (roundHalfEven t' + Z) - S * t = S * (((roundHalfEven t' : ℚ) - t') + (t' - t)) := by
      unfold real; push_cast; ring
    rw [e, abs_mul, abs_of_pos hS]
    refine mul_le_mul_of_nonneg_left ((abs_add_le _ _).trans ?_) hS.le
    have := abs_roundHalfEven_sub_le t'
    linarith
  · rcases lt_abs.mp hb with hb' | hb'
    · rw [abs_of_pos (by linarith)] at h
      have h1 : (500 : ℚ) ≤ roundHalfEven t' := by
        have : t / 2 ^ 50 ≤ t / 100 := div_le_div_of_nonneg_left (by linarith) (by norm_num) (by norm_num)
        have : (1 : ℚ) / 2 ^ 50 ≤ 1 := by norm_num
        linarith [h.1, hr.1]
      have h1' : (500 : ℤ) ≤ roundHalfEven t' := by exact_mod_cast h1
      have h2 : saturate8 S Z (S * t) = real Z S 255 := by
        unfold saturate8
        rw [min_eq_left, max_eq_right hmm]
        unfold real
        have : (255 - Z : ℚ) ≤ t := by linarith
        have := mul_le_mul_of_nonneg_left this hS.le
        push_cast; linarith
      rw [clip_of_ge (by omega), h2, sub_self, abs_zero]
      exact hpos
    · rw [abs_of_neg (by linarith)] at h
      have h1 : (roundHalfEven t' : ℚ) ≤ -500 := by
        have : -t / 2 ^ 50 ≤ -t / 100 := div_le_div_of_nonneg_left (by linarith) (by norm_num) (by norm_num)
        have : (1 : ℚ) / 2 ^ 50 ≤ 1 := by norm_num
        linarith [h.2, hr.2]
      have h1' : roundHalfEven t' ≤ (-500 : ℤ) := by exact_mod_cast h1
      have h2 : saturate8 S Z (S * t) = real Z S 0 := by
        unfold saturate8
        refine max_eq_left (le_trans (min_le_right _ _) ?_)
        unfold real
        have : t ≤ (0 - Z : ℚ) := by linarith
        have := mul_le_mul_of_nonneg_left this hS.le
        push_cast; linarith
      rw [clip_of_le (by norm_num) (by omega), h2, sub_self, abs_zero]
      exact hpos

/-- From a code near the saturated `v` to its distance from `y`. -/
theorem sat_near {S : ℚ} {Z q : ℤ} {v y e c : ℚ} (hq : |real Z S q - saturate8 S Z v| ≤ c) (hv : |v - y| ≤ e) :
    |real Z S q - y| ≤ e + c + |saturate8 S Z y - y| := by
  have h1 : |saturate8 S Z v - saturate8 S Z y| ≤ |v - y| := Accuracy.rat_clip_sub_le _ _ _ _
  have h2 := abs_sub_le (real Z S q) (saturate8 S Z v) (saturate8 S Z y)
  have h3 := abs_sub_le (real Z S q) (saturate8 S Z y) y
  linarith

theorem quant_sat {S : ℚ} (hS : 0 < S) {Z : ℤ} (hZ : Code 0 255 Z) (x : ℚ) :
    Code 0 255 (Fmt.f64.quantize (uintDtype 8) x Z S) ∧
      |real Z S (Fmt.f64.quantize (uintDtype 8) x Z S) - saturate8 S Z x| ≤ S * (1 / 2 + 1 / 2 ^ 40) := by
  have hr := (C72_float_range (uintDtype 8) uint8_fits x Z S 0 hS.ne').1
  refine ⟨hr, ?_⟩
  obtain ⟨z0, z1⟩ := hZ
  obtain ⟨a1, a2, a3⟩ := C72_float_accuracy (uintDtype 8) uint8_fits x Z (by unfold IsInt32; omega) S hS
  change real Z S 0 ≤ x → x ≤ real Z S 255 → _ at a1
  change real Z S 255 ≤ x → _ = (255 : ℤ) at a2
  change x ≤ real Z S 0 → _ = (0 : ℤ) at a3
  have z0' : (0 : ℚ) ≤ Z := by exact_mod_cast z0
  have z1' : (Z : ℚ) ≤ 255 := by exact_mod_cast z1
  have hpos : (0 : ℚ) ≤ S * (1 / 2 + 1 / 2 ^ 40) := by positivity
  have hmm : real Z S 0 ≤ real Z S 255 := Accuracy.real_mono hS Z (by norm_num)
  rcases le_total (real Z S 0) x with h1 | h1
  · rcases le_total x (real Z S 255) with h2 | h2
    · have e : saturate8 S Z x = x := by unfold saturate8; rw [min_eq_right h2, max_eq_right h1]
      rw [e]
      refine (a1 h1 h2).trans (mul_le_mul_of_nonneg_left ?_ hS.le)
      have hx : |x / S| ≤ 255 := by
        rw [abs_le, le_div_iff₀ hS, div_le_iff₀ hS]
        unfold real at h1 h2
        push_cast at h1 h2
        constructor <;> nlinarith
      rw [abs_of_nonneg z0']
      have : (4 * |x / S| + 4 * (Z : ℚ) + 1) / 2 ^ 53 ≤ 2041 / 2 ^ 53 :=
        div_le_div_of_nonneg_right (by linarith) (by positivity)
      have h3 : (2041 : ℚ) / 2 ^ 53 ≤ 1 / 2 ^ 40 := by norm_num
      linarith
    · rw [a2 h2]
      have : saturate8 S Z x = real Z S 255 := by unfold saturate8; rw [min_eq_left h2, max_eq_right hmm]
      rw [this, sub_self, abs_zero]; exact hpos
  · rw [a3 h1]
    have : saturate8 S Z x = real Z S 0 := by
      unfold saturate8; rw [max_eq_left (le_trans (min_le_right _ _) h1)]
    rw [this, sub_self, abs_zero]; exact hpos

theorem quantize_row {S : ℚ} (hS : 0 < S) {Z : ℤ} (hZ : Code 0 255 Z) {y x : List ℚ} {e : ℚ}
    (h : List.Forall₂ (fun a b => |a - b| ≤ e) y x) :
    List.Forall₂ (fun a b => Code 0 255 a ∧ |real Z S a - b| ≤ e + S * (1 / 2 + 1 / 2 ^ 40) + excess S Z x)
      (y.map (fun v => Fmt.f64.quantize (uintDtype 8) v Z S)) x := by
  rw [List.forall₂_map_left_iff]
  refine forall2_imp_mem h (fun a b _ hb hab => ?_)
  obtain ⟨h1, h2⟩ := quant_sat hS hZ a
  have h3 := sat_near h2 hab
  have h4 := le_excess S Z x b hb
  exact ⟨h1, h3.trans (by linarith)⟩

theorem deq {S : ℚ} (hS : (2 : ℚ) ^ (-126 : ℤ) ≤ S) {Z q : ℤ} (hZ : Code 0 255 Z) (hq : Code 0 255 q) :
    |Fmt.f64.dequantize q Z S - real Z S q| ≤ S / 2 ^ 40 := by
  have hS0 : 0 < S := lt_of_lt_of_le (by positivity) hS
  obtain ⟨z0, z1⟩ := hZ
  obtain ⟨q0, q1⟩ := hq
  have h := FloatEngine.deq_err (.inr (le_trans (zpow_le_zpow_right₀ (by norm_num) (by norm_num)) hS)) q Z
    (by unfold IsInt32; omega) (by unfold IsInt32; omega)
  refine h.trans ?_
  have h1 : |real Z S q| ≤ 255 * S := by
    unfold real
    rw [abs_mul, abs_of_pos hS0, mul_comm]
    refine mul_le_mul_of_nonneg_right ?_ hS0.le
    have : |q - Z| ≤ 255 := by rw [abs_le]; constructor <;> omega
    exact_mod_cast this
  refine (div_le_div_of_nonneg_right h1 (by positivity)).trans ?_
  rw [div_le_div_iff₀ (by positivity) (by positivity)]
  nlinarith

theorem dequantize_row {S : ℚ} (hS : (2 : ℚ) ^ (-126 : ℤ) ≤ S) {Z : ℤ} (hZ : Code 0 255 Z) {q : List ℤ} {x : List ℚ} {e : ℚ}
    (h : List.Forall₂ (fun a b => Code 0 255 a ∧ |real Z S a - b| ≤ e) q x) :
    List.Forall₂ (fun a b => |a - b| ≤ e + S / 2 ^ 40) (q.map (fun v => Fmt.f64.dequantize v Z S)) x := by
  rw [List.forall₂_map_left_iff]
  refine h.imp (fun a b hab => ?_)
  have h1 := deq hS hZ hab.1
  have h2 := abs_sub_le (Fmt.f64.dequantize a Z S) (real Z S a) b
  linarith [hab.2]

/-- The factor of a matrix product and the scaled accumulator. -/
theorem scaled_near {iS wS oS : ℚ} (ho : (2 : ℚ) ^ (-126 : ℤ) ≤ oS) {acc : ℤ} (hacc : |(acc : ℚ)| ≤ 2 ^ 31) :
    |Fmt.f64.fl (Fmt.f64.fl (Fmt.f64.fl (iS * wS) / oS) * acc) - iS * wS / oS * acc| ≤
      |iS * wS / oS * acc| / 2 ^ 50 + 1 / 2 ^ 50 := by
  have ho0 : 0 < oS := lt_of_lt_of_le (by positivity) ho
  obtain ⟨P, hP⟩ : ∃ P, P = Fmt.f64.fl (iS * wS) := ⟨_, rfl⟩
  obtain ⟨m', hm'⟩ : ∃ m', m' = Fmt.f64.fl (P / oS) := ⟨_, rfl⟩
  obtain ⟨m, hm⟩ : ∃ m, m = iS * wS / oS := ⟨_, rfl⟩
  have h1 := fl_abs (iS * wS)
  have h2 := fl_abs (P / oS)
  have h3 := fl_abs (m' * acc)
  rw [← hP] at h1 ⊢
  rw [← hm'] at h2 ⊢
  rw [← hm]
  obtain ⟨τ, hτ⟩ : ∃ τ : ℚ, τ = 2 ^ (-1075 : ℤ) := ⟨_, rfl⟩
  have htiny := tiny ho
  have hτ1 : τ ≤ 1 / 2 ^ 100 := by
    rw [hτ, show (-1075 : ℤ) = -((1075 : ℕ) : ℤ) by norm_num, zpow_neg, zpow_natCast, ← one_div]
    exact div_le_div_of_nonneg_left (by norm_num) (by positivity) (pow_le_pow_right₀ (by norm_num) (by norm_num))
  rw [← hτ] at h1 h2 h3 htiny
  -- the product of the scales, divided
  have g1 : |P / oS - m| ≤ |m| / 2 ^ 53 + 1 / 2 ^ 100 := by
    have e : P / oS - m = (P - iS * wS) / oS := by rw [hm]; ring
    have e2 : |m| = |iS * wS| / oS := by rw [hm, abs_div, abs_of_pos ho0]
    rw [e, abs_div, abs_of_pos ho0, e2, div_le_iff₀ ho0]
    have e3 : (|iS * wS| / oS / 2 ^ 53 + 1 / 2 ^ 100) * oS = |iS * wS| / 2 ^ 53 + oS / 2 ^ 100 := by field_simp
    rw [e3]
    linarith
  have g2 : |m' - m| ≤ |m| * (3 / 2 ^ 53) + 3 / 2 ^ 100 := by
    have := abs_sub_le m' (P / oS) m
    have a := abs_sub_abs_le_abs_sub (P / oS) m
    have hm0 := abs_nonneg m
    generalize |P / oS| = A at *
    generalize |m' - P / oS| = B at *
    generalize |P / oS - m| = C at *
    generalize |m| = M at *
    linarith
  have g3 : |m' * acc - m * acc| ≤ |m * acc| * (3 / 2 ^ 53) + 3 / 2 ^ 69 := by
    rw [← sub_mul, abs_mul, abs_mul]
    have := mul_le_mul_of_nonneg_right g2 (abs_nonneg (acc : ℚ))
    have h4 : (3 : ℚ) / 2 ^ 100 * |(acc : ℚ)| ≤ 3 / 2 ^ 100 * 2 ^ 31 := mul_le_mul_of_nonneg_left hacc (by norm_num)
    have h5 : (3 : ℚ) / 2 ^ 100 * 2 ^ 31 = 3 / 2 ^ 69 := by norm_num
    have e : (|m| * (3 / 2 ^ 53) + 3 / 2 ^ 100) * |(acc : ℚ)| = |m| * |(acc : ℚ)| * (3 / 2 ^ 53) + 3 / 2 ^ 100 * |(acc : ℚ)| := by
      ring
    rw [e] at this
    linarith
  have g4 := abs_sub_le (Fmt.f64.fl (m' * acc)) (m' * acc) (m * acc)
  have g5 := abs_sub_abs_le_abs_sub (m' * acc) (m * acc)
  have g6 := abs_nonneg (m * (acc : ℚ))
  generalize |m' * (acc : ℚ)| = A at *
  generalize |m * (acc : ℚ)| = M at *
  generalize |Fmt.f64.fl (m' * acc) - m' * acc| = B at *
  generalize |m' * (acc : ℚ) - m * acc| = C at *
  linarith

theorem matmul_row {iS wS oS : ℚ} {iZ wZ oZ : ℤ} {r c : ℕ} {W : List (List ℤ)} (ho : (2 : ℚ) ^ (-126 : ℤ) ≤ oS)
    (hoz : Code 0 255 oZ) (hr : r ≤ 2 ^ 15)
    (_hW : W.length = r) (hWc : ∀ row ∈ W, row.length = c ∧ ∀ v ∈ row, Code 0 255 v) (hiz : Code 0 255 iZ)
    (hwz : Code 0 255 wZ) {q : List ℤ} {x : List ℚ} {e : ℚ} (he : 0 ≤ e) (hx : x.length = r)
    (h : List.Forall₂ (fun a b => Code 0 255 a ∧ |real iZ iS a - b| ≤ e) q x) :
    List.Forall₂ (fun a b => Code 0 255 a ∧ |real oZ oS a - b| ≤ gain W c wS wZ * e + oS * (1 / 2 + 1 / 2 ^ 40) +
        excess oS oZ ((List.range c).map (fun j => dotQ ((column W j).map (real wZ wS)) x)))
      (Fmt.f64.qmatmulRow ⟨Fmt.f64.fl (Fmt.f64.fl (iS * wS) / oS), r, c, W, iZ, wZ, oZ⟩ q)
      ((List.range c).map (fun j => dotQ ((column W j).map (real wZ wS)) x)) := by
  have ho0 : 0 < oS := lt_of_lt_of_le (by positivity) ho
  have hq : q.length = r := by rw [← hx]; exact h.length_eq
  have hqc : ∀ v ∈ q, Code 0 255 v := by
    intro v hv
    obtain ⟨i, hi, rfl⟩ := List.mem_iff_getElem.mp hv
    exact ((List.forall₂_iff_get.mp h).2 i hi (by rw [← h.length_eq]; exact hi)).1
  unfold Fmt.qmatmulRow
  rw [List.forall₂_map_left_iff, List.forall₂_map_right_iff, List.forall₂_same]
  intro j hj
  have hjc : j < c := List.mem_range.mp hj
  have hcol : ∀ v ∈ column W j, Code 0 255 v := by
    intro v hv
    obtain ⟨row, hrow, rfl⟩ := List.mem_map.mp hv
    obtain ⟨h1, h2⟩ := hWc row hrow
    rw [List.getD_eq_getElem?_getD, List.getElem?_eq_getElem (by rw [h1]; exact hjc)]
    exact h2 _ (List.getElem_mem _)
  have hcx : q.map (center32 iZ) = q.map (· - iZ) := List.map_congr_left (fun v hv => center32_eq (hqc v hv) hiz)
  have hcw : W.map (fun row => center32 wZ (row.getD j 0)) = (column W j).map (fun w => w - wZ) := by
    unfold column
    rw [List.map_map]
    refine List.map_congr_left (fun row hrow => center32_eq (hcol _ (List.mem_map.mpr ⟨row, hrow, rfl⟩)) hwz)
  have hb : ∀ (zp : ℤ), Code 0 255 zp → ∀ l : List ℤ, (∀ v ∈ l, Code 0 255 v) → ∀ y ∈ l.map (· - zp), |y| ≤ 255 := by
    intro zp hz l hl y hy
    obtain ⟨v, hv, rfl⟩ := List.mem_map.mp hy
    have a := hl v hv
    rw [abs_le]
    obtain ⟨a1, a2⟩ := a; obtain ⟨b1, b2⟩ := hz
    constructor <;> omega
  simp only
  have hrange : |((dot32 (q.map (center32 iZ)) (W.map (fun row => center32 wZ (row.getD j 0))) : ℤ) : ℚ)| ≤ 2 ^ 31 := by
    have : |dot32 (q.map (center32 iZ)) (W.map (fun row => center32 wZ (row.getD j 0)))| ≤ 2 ^ 31 := by
      generalize q.map (center32 iZ) = a
      generalize W.map (fun row => center32 wZ (row.getD j 0)) = b
      cases a <;> cases b <;> simp only [dot32] <;> try norm_num
      rename_i a as b bs
      have := wrapS_range 31 (wrapS 32 (a * b) + dot32 as bs)
      rw [show (31 + 1 : ℕ) = 32 from rfl] at this
      rw [abs_le]
      constructor <;> omega
    exact_mod_cast this
  rw [hcx, hcw] at hrange
  rw [hcx, hcw]
  rw [dot32_exact 255 255 (by norm_num) (by norm_num) _ _ (hb iZ hiz q hqc) (hb wZ hwz _ hcol)
    (by rw [List.length_map, hq]
        have : (r : ℤ) ≤ 2 ^ 15 := by exact_mod_cast hr
        omega)] at hrange ⊢
  set acc := dotZ (q.map (· - iZ)) ((column W j).map (fun w => w - wZ)) with hacc
  have hY : oS * (iS * wS / oS * (acc : ℚ)) = dotQ ((column W j).map (real wZ wS)) (q.map (real iZ iS)) := by
    rw [dotQ_real, dotZ_comm, ← hacc]
    field_simp
  rw [clip8_eq]
  have h1 := code_near ho0 hoz (scaled_near (iS := iS) (wS := wS) ho hrange)
  have h2 : |oS * (iS * wS / oS * (acc : ℚ)) - dotQ ((column W j).map (real wZ wS)) x| ≤ gain W c wS wZ * e := by
    rw [hY]
    refine le_trans (dot_sub he (x := x) ?_) ?_
    · rw [List.forall₂_map_left_iff]
      exact h.imp (fun _ _ h => h.2)
    · refine mul_le_mul_of_nonneg_right ?_ he
      rw [List.map_map]
      exact le_foldr_max _ _ (List.mem_map.mpr ⟨j, hj, rfl⟩)
  have h3 := sat_near h1 h2
  have h4 := le_excess oS oZ ((List.range c).map (fun j => dotQ ((column W j).map (real wZ wS)) x)) _
    (List.mem_map.mpr ⟨j, hj, rfl⟩)
  exact ⟨⟨clip_ge (by norm_num), clip_le⟩, le_trans h3 (by linarith)⟩

/-- One addition: the rounded sum stands for a number near the sum. -/
theorem add_near {iS bS oS : ℚ} (hi : (2 : ℚ) ^ (-126 : ℤ) ≤ iS) (ho : (2 : ℚ) ^ (-126 : ℤ) ≤ oS) {m n : ℤ} (hm : |m| ≤ 255)
    (hn : |n| ≤ 255) :
    ∃ t, |Fmt.f64.fl (Fmt.f64.fl (Fmt.f64.fl (iS * m) + Fmt.f64.fl (bS * n)) / oS) - t| ≤ |t| / 2 ^ 50 + 1 / 2 ^ 50 ∧
      |oS * t - (iS * m + bS * n)| ≤ (iS + |bS|) / 2 ^ 40 := by
  have ho0 : 0 < oS := lt_of_lt_of_le (by positivity) ho
  have hi0 : 0 < iS := lt_of_lt_of_le (by positivity) hi
  obtain ⟨A, hA⟩ : ∃ A, A = Fmt.f64.fl (iS * m) := ⟨_, rfl⟩
  obtain ⟨B, hB⟩ : ∃ B, B = Fmt.f64.fl (bS * n) := ⟨_, rfl⟩
  obtain ⟨s, hs⟩ : ∃ s, s = Fmt.f64.fl (A + B) := ⟨_, rfl⟩
  obtain ⟨τ, hτ⟩ : ∃ τ : ℚ, τ = 2 ^ (-1075 : ℤ) := ⟨_, rfl⟩
  have h1 := fl_abs (iS * m)
  have h2 := fl_abs (bS * n)
  have h3 := fl_abs (A + B)
  have h4 := fl_abs (s / oS)
  have t1 := tiny hi
  have t2 := tiny ho
  have hτ1 : τ ≤ 1 / 2 ^ 100 := by
    rw [hτ, show (-1075 : ℤ) = -((1075 : ℕ) : ℤ) by norm_num, zpow_neg, zpow_natCast, ← one_div]
    exact div_le_div_of_nonneg_left (by norm_num) (by positivity) (pow_le_pow_right₀ (by norm_num) (by norm_num))
  rw [← hA, ← hτ] at h1
  rw [← hB, ← hτ] at h2
  rw [← hs, ← hτ] at h3
  rw [← hτ] at h4 t1 t2
  rw [← hA, ← hB, ← hs]
  have hm' : |(m : ℚ)| ≤ 255 := by exact_mod_cast hm
  have hn' : |(n : ℚ)| ≤ 255 := by exact_mod_cast hn
  refine ⟨(A + B) / oS, ?_, ?_⟩
  · obtain ⟨t, ht⟩ : ∃ t, t = (A + B) / oS := ⟨_, rfl⟩
    rw [← ht]
    have g1 : |s / oS - t| ≤ |t| / 2 ^ 53 + 1 / 2 ^ 100 := by
      have e : s / oS - t = (s - (A + B)) / oS := by rw [ht]; ring
      have e2 : |t| = |A + B| / oS := by rw [ht, abs_div, abs_of_pos ho0]
      rw [e, abs_div, abs_of_pos ho0, e2, div_le_iff₀ ho0]
      have e3 : (|A + B| / oS / 2 ^ 53 + 1 / 2 ^ 100) * oS = |A + B| / 2 ^ 53 + oS / 2 ^ 100 := by field_simp
      rw [e3]
      linarith
    have := abs_sub_le (Fmt.f64.fl (s / oS)) (s / oS) t
    have a := abs_sub_abs_le_abs_sub (s / oS) t
    have ht0 := abs_nonneg t
    generalize |s / oS| = U at *
    generalize |Fmt.f64.fl (s / oS) - s / oS| = V at *
    generalize |s / oS - t| = C at *
    generalize |t| = M at *
    linarith
  · have e : oS * ((A + B) / oS) - (iS * m + bS * n) = (A - iS * m) + (B - bS * n) := by field_simp; ring
    rw [e]
    refine (abs_add_le _ _).trans ?_
    rw [abs_mul, abs_of_pos hi0] at h1
    rw [abs_mul] at h2
    have h5 := mul_le_mul_of_nonneg_left hm' hi0.le
    have h6 := mul_le_mul_of_nonneg_left hn' (abs_nonneg bS)
    have h7 := abs_nonneg bS
    generalize |A - iS * m| = U at *
    generalize |B - bS * n| = V at *
    generalize iS * |(m : ℚ)| = X at *
    generalize |bS| * |(n : ℚ)| = Y at *
    generalize |bS| = b at *
    linarith

theorem add_row_aux {iS bS oS : ℚ} {iZ bZ oZ : ℤ} (hi : (2 : ℚ) ^ (-126 : ℤ) ≤ iS) (ho : (2 : ℚ) ^ (-126 : ℤ) ≤ oS)
    (hoz : Code 0 255 oZ) (hiz : Code 0 255 iZ) (hbz : Code 0 255 bZ) {e : ℚ}
    {B b : List ℤ} {q : List ℤ} {x : List ℚ} (h : List.Forall₂ (fun a b => Code 0 255 a ∧ |real iZ iS a - b| ≤ e) q x)
    (hb : ∀ v ∈ b, Code 0 255 v) (E : ℚ)
    (hE : ∀ y ∈ List.zipWith (fun v q => v + real bZ bS q) x b, |saturate8 oS oZ y - y| ≤ E) :
    List.Forall₂ (fun a b => Code 0 255 a ∧ |real oZ oS a - b| ≤ e + (iS + |bS|) / 2 ^ 40 + oS * (1 / 2 + 1 / 2 ^ 40) + E)
      (List.zipWith (Fmt.f64.qaddElem ⟨iS, iZ, B, bS, bZ, oS, oZ⟩) q b) (List.zipWith (fun v q => v + real bZ bS q) x b) := by
  have ho0 : 0 < oS := lt_of_lt_of_le (by positivity) ho
  induction h generalizing b with
  | nil => simp
  | cons hab _ ih =>
    rename_i u v q x _
    cases b with
    | nil => simp
    | cons w b =>
      rw [List.zipWith_cons_cons, List.zipWith_cons_cons]
      rw [List.zipWith_cons_cons] at hE
      refine .cons ?_ (ih (fun v hv => hb v (by simp [hv])) (fun y hy => hE y (List.mem_cons_of_mem _ hy)))
      have hw := hb w (by simp)
      unfold Fmt.qaddElem
      simp only
      rw [center32_eq hab.1 hiz, center32_eq hw hbz, clip8_eq]
      obtain ⟨t, h1, h2⟩ := add_near (bS := bS) hi ho (m := u - iZ) (n := w - bZ)
        (by have := hab.1; unfold Code at this hiz; rw [abs_le]; constructor <;> omega)
        (by unfold Code at hw hbz; rw [abs_le]; constructor <;> omega)
      have h3 : |oS * t - (v + real bZ bS w)| ≤ e + (iS + |bS|) / 2 ^ 40 := by
        have e1 : oS * t - (v + real bZ bS w) = (oS * t - (iS * ((u - iZ : ℤ) : ℚ) + bS * ((w - bZ : ℤ) : ℚ))) +
            (real iZ iS u - v) := by
          unfold real; push_cast; ring
        rw [e1]
        refine (abs_add_le _ _).trans ?_
        linarith [hab.2]
      have h4 := sat_near (code_near ho0 hoz h1) h3
      exact ⟨⟨clip_ge (by norm_num), clip_le⟩, le_trans h4 (by have := hE _ (List.mem_cons_self ..); linarith)⟩

/-- A table layer loaded from the converter's JSON. -/
theorem table_infer (g : ℤ → ℤ) (p : ℤ × ℤ) (sc : Option ℚ) (zp : Option ℤ) :
    ∃ l, LutLayer.ofNode ⟨sc, zp, none, some ⟨some ((Quantization.codes (uintDtype 8)).map g), some 0,
          some (ReducedLUT.mk' ((Quantization.codes (uintDtype 8)).map g) p.1 p.2).serialize⟩⟩ = some l ∧
      ∀ x : Arr ℤ, x.flat ≠ [] → (∀ v ∈ x.flat, Code 0 255 v) → l.infer x = some (x.map g) := by
  refine ⟨_, rfl, ?_⟩
  intro x hne hx
  unfold LutLayer.infer
  rw [if_neg hne]
  refine arr_mapM_eq _ _ x (fun v hv => ?_)
  obtain ⟨h1, h2⟩ := hx v hv
  obtain ⟨k, rfl⟩ := Int.eq_ofNat_of_zero_le h1
  have hlt : k < ((Quantization.codes (uintDtype 8)).map g).length := by
    show k < ((((List.range 256).map _)).map g).length
    simp only [List.length_map, List.length_range]
    omega
  show ReducedLUT.get _ _ = _
  simp only [Option.getD_some]
  rw [show ((k : ℤ) + 0) = (k : ℤ) by ring]
  rw [C12_deserialized_correct _ _ _ k hlt]
  congr 1
  rw [List.getElem_map]
  congr 1
  simp [Quantization.codes, uintDtype]

/-- Dequantize, apply a function, quantize. -/
theorem fn_row {f ideal : ℚ → ℚ} {l δ : ℚ} (hl : ∀ a b, |ideal a - ideal b| ≤ l * |a - b|) (hl0 : 0 ≤ l)
    (hf : ∀ a, |f a - ideal a| ≤ δ) {iS oS : ℚ} {iZ oZ : ℤ} (hi : (2 : ℚ) ^ (-126 : ℤ) ≤ iS) (ho : 0 < oS)
    (hiz : Code 0 255 iZ) (hoz : Code 0 255 oZ) {q : List ℤ} {x : List ℚ} {e : ℚ}
    (h : List.Forall₂ (fun a b => Code 0 255 a ∧ |real iZ iS a - b| ≤ e) q x) :
    List.Forall₂ (fun a b => Code 0 255 a ∧ |real oZ oS a - b| ≤ l * (e + iS / 2 ^ 40) + δ + oS * (1 / 2 + 1 / 2 ^ 40) +
        excess oS oZ (x.map ideal))
      (q.map (fun v => Fmt.f64.quantize (uintDtype 8) (f (Fmt.f64.dequantize v iZ iS)) oZ oS)) (x.map ideal) := by
  have h1 : List.Forall₂ (fun a b => |a - b| ≤ l * (e + iS / 2 ^ 40) + δ) (q.map (fun v => f (Fmt.f64.dequantize v iZ iS)))
      (x.map ideal) := by
    rw [List.forall₂_map_left_iff, List.forall₂_map_right_iff]
    refine h.imp (fun a b hab => ?_)
    have h1 := deq hi hiz hab.1
    have h2 := abs_sub_le (Fmt.f64.dequantize a iZ iS) (real iZ iS a) b
    have h3 := hl (Fmt.f64.dequantize a iZ iS) b
    have h4 := hf (Fmt.f64.dequantize a iZ iS)
    have h5 := abs_sub_le (f (Fmt.f64.dequantize a iZ iS)) (ideal (Fmt.f64.dequantize a iZ iS)) (ideal b)
    have h6 : l * |Fmt.f64.dequantize a iZ iS - b| ≤ l * (e + iS / 2 ^ 40) :=
      mul_le_mul_of_nonneg_left (by linarith [hab.2]) hl0
    linarith
  have := quantize_row ho hoz h1
  rw [List.map_map] at this
  exact this

/-- The engine's operator in float64. -/
def layer64 : OnnxOp → Layer
  | .matmul iS iZ r c W wS wZ oS oZ => .qmatmul ⟨Fmt.f64.fl (Fmt.f64.fl (iS * wS) / oS), r, c, W, iZ, wZ, oZ⟩
  | o => o.layer

/-- Parameters that data can have. -/
def POk64 (p : Option (ℚ × ℤ)) : Prop := ∀ s z, p = some (s, z) → (2 : ℚ) ^ (-126 : ℤ) ≤ s ∧ Code 0 255 z

theorem POk64.pok {p : Option (ℚ × ℤ)} (h : POk64 p) : POk p := fun s z hs =>
  ⟨lt_of_lt_of_le (by positivity) (h s z hs).1, (h s z hs).2⟩

theorem after_ok64 {o : OnnxOp} {p : Option (ℚ × ℤ)} {n : ℕ} (ho : o.Fits p n)
    (ha : ∀ S Z, o.after = some (S, Z) → (2 : ℚ) ^ (-126 : ℤ) ≤ S) : POk64 o.after := fun s z h =>
  ⟨ha s z h, (after_ok ho s z h).2⟩

section
variable {ext ideal : Ext} {ls lt δ : ℚ} (hls : 0 ≤ ls) (hlt : 0 ≤ lt)
    (hs : ∀ a b, |ideal.sigmoid a - ideal.sigmoid b| ≤ ls * |a - b|)
    (ht : ∀ a b, |ideal.tanh a - ideal.tanh b| ≤ lt * |a - b|)
include hls hlt hs ht

theorem bound_nonneg (hδ : 0 ≤ δ) {o : OnnxOp} {p : Option (ℚ × ℤ)} {n : ℕ} (hp : POk p)
    (ho : o.Fits p n) (x : List ℚ) {e : ℚ} (he : 0 ≤ e) : 0 ≤ o.bound64 ideal ls lt δ x e := by
  have hx : ∀ s z ys, 0 ≤ excess s z ys := fun s z ys => foldr_max_nonneg _
  cases o with
  | quantize S Z =>
    have h1 := ho.2.1; have h2 := hx S Z x; simp only [OnnxOp.bound64]; positivity
  | dequantize S Z =>
    have h1 := (hp S Z ho).1
    simp only [OnnxOp.bound64]; positivity
  | matmul iS iZ r c W wS wZ oS oZ =>
    obtain ⟨-, -, -, -, -, -, -, h, -⟩ := ho
    have h1 : 0 ≤ gain W c wS wZ := foldr_max_nonneg _
    have h2 := hx oS oZ ((OnnxOp.matmul iS iZ r c W wS wZ oS oZ).exact ideal x)
    simp only [OnnxOp.bound64]; positivity
  | add iS iZ b bS bZ oS oZ =>
    obtain ⟨h0, -, -, -, h, -⟩ := ho
    have h1 := (hp iS iZ h0).1
    have h2 := hx oS oZ ((OnnxOp.add iS iZ b bS bZ oS oZ).exact ideal x)
    simp only [OnnxOp.bound64]; positivity
  | sigmoid iS iZ oS oZ =>
    obtain ⟨h0, h, -⟩ := ho
    have h1 := (hp iS iZ h0).1
    have h2 := hx oS oZ ((OnnxOp.sigmoid iS iZ oS oZ).exact ideal x)
    simp only [OnnxOp.bound64]; positivity
  | tanh => simp only [OnnxOp.bound64]; positivity
  | softmax => exact ho.elim

/-- One operator. -/
theorem layer_near (ha : Approximates δ ext ideal) {o : OnnxOp} {p : Option (ℚ × ℤ)} {n : ℕ} (hp : POk64 p) (ho : o.Fits p n)
    (hS : ∀ S Z, o.after = some (S, Z) → (2 : ℚ) ^ (-126 : ℤ) ≤ S) {t : Tensor} {X : List (List ℚ)}
    {f : List ℚ → List ℚ} {g : List ℚ → ℚ} (hn : ∀ x ∈ X, (f x).length = n) (hg : ∀ x ∈ X, 0 ≤ g x)
    (h : Near p t X f g) :
    ∃ t', Fmt.f64.inferLayer ext (layer64 o) t = some t' ∧
      Near o.after t' X (fun x => o.exact ideal (f x)) (fun x => o.bound64 ideal ls lt δ (f x) (g x)) := by
  cases o with
  | quantize S Z =>
    obtain ⟨rfl, h1, h2⟩ := ho
    obtain ⟨Y, rfl, hY⟩ := h
    refine ⟨_, rfl, _, rfl, ?_⟩
    rw [List.forall₂_map_left_iff]
    exact hY.imp (fun y x hyx => quantize_row h1 h2 hyx)
  | dequantize S Z =>
    have ho : p = some (S, Z) := ho
    subst ho
    obtain ⟨h1, h2⟩ := hp S Z rfl
    obtain ⟨Y, rfl, hY⟩ := h
    refine ⟨_, rfl, _, rfl, ?_⟩
    rw [List.forall₂_map_left_iff]
    exact hY.imp (fun y x hyx => dequantize_row h1 h2 hyx)
  | matmul iS iZ r c W wS wZ oS oZ =>
    have h8 := hS oS oZ rfl
    obtain ⟨rfl, rfl, h1, h2, h3, h4, h5, h6, h7⟩ := ho
    obtain ⟨hi, hz⟩ := hp iS iZ rfl
    obtain ⟨Q, rfl, hQ⟩ := h
    have hlen := rows_length (R := fun x a b => Code 0 255 a ∧ |real iZ iS a - b| ≤ g x) hn hQ
    refine ⟨.int (.mat (Q.map (Fmt.f64.qmatmulRow ⟨Fmt.f64.fl (Fmt.f64.fl (iS * wS) / oS), n, c, W, iZ, wZ, oZ⟩))), ?_, _,
      rfl, ?_⟩
    · show (Fmt.f64.qmatmulInfer ⟨Fmt.f64.fl (Fmt.f64.fl (iS * wS) / oS), n, c, W, iZ, wZ, oZ⟩ (.mat Q)).map Tensor.int = _
      simp only [Fmt.qmatmulInfer]
      rw [if_pos hlen]; rfl
    · rw [List.forall₂_map_left_iff]
      exact forall2_imp_mem hQ (fun q x _ hx hqx => matmul_row h8 h7 h1 h3 h4 hz h5 (hg x hx) (hn x hx) hqx)
  | add iS iZ b bS bZ oS oZ =>
    have h8 := hS oS oZ rfl
    obtain ⟨rfl, rfl, h1, h2, h3, h4⟩ := ho
    obtain ⟨hi, hz⟩ := hp iS iZ rfl
    obtain ⟨Q, rfl, hQ⟩ := h
    have hlen := rows_length (R := fun x a b => Code 0 255 a ∧ |real iZ iS a - b| ≤ g x) hn hQ
    refine ⟨.int (.mat (Q.map (fun x => List.zipWith (Fmt.f64.qaddElem ⟨iS, iZ, b, bS, bZ, oS, oZ⟩) x b))), ?_, _, rfl, ?_⟩
    · show (Fmt.f64.qaddInfer ⟨iS, iZ, b, bS, bZ, oS, oZ⟩ (.mat Q)).map Tensor.int = _
      simp only [Fmt.qaddInfer]
      rw [if_pos hlen]; rfl
    · rw [List.forall₂_map_left_iff]
      exact hQ.imp (fun q x hqx => add_row_aux hi h8 h4 hz h2 hqx h1 _ (fun y hy => le_excess oS oZ _ y hy))
  | sigmoid iS iZ oS oZ =>
    obtain ⟨rfl, h1, h2⟩ := ho
    obtain ⟨hi, hz⟩ := hp iS iZ rfl
    obtain ⟨Q, rfl, hQ⟩ := h
    refine ⟨_, rfl, _, rfl, ?_⟩
    rw [List.forall₂_map_left_iff]
    exact hQ.imp (fun q x hqx => fn_row hs hls (fun a => (ha a).1) hi h1 hz h2 hqx)
  | tanh =>
    have ho : p = none := ho
    subst ho
    obtain ⟨Y, rfl, hY⟩ := h
    refine ⟨_, rfl, _, rfl, ?_⟩
    rw [List.forall₂_map_left_iff]
    refine hY.imp (fun y x hyx => ?_)
    simp only [OnnxOp.exact]
    rw [List.forall₂_map_left_iff, List.forall₂_map_right_iff]
    refine hyx.imp (fun a b hab => ?_)
    have h1 := ht a b
    have h2 := (ha a).2
    have h3 := mul_le_mul_of_nonneg_left hab hlt
    have h4 := abs_sub_le (ext.tanh a) (ideal.tanh a) (ideal.tanh b)
    simp only [OnnxOp.bound64]
    linarith
  | softmax => exact ho.elim

/-- A table layer of the converter, for a function `f`. -/
theorem table_near {f ideal : ℚ → ℚ} {l : ℚ} (hl : ∀ a b, |ideal a - ideal b| ≤ l * |a - b|) (hl0 : 0 ≤ l)
    (hf : ∀ a, |f a - ideal a| ≤ δ) {iS oS : ℚ} {iZ oZ : ℤ} (hi : (2 : ℚ) ^ (-126 : ℤ) ≤ iS) (ho : 0 < oS)
    (hiz : Code 0 255 iZ) (hoz : Code 0 255 oZ) {T : LutLayer}
    (hT : ∀ x : Arr ℤ, x.flat ≠ [] → (∀ v ∈ x.flat, Code 0 255 v) → T.infer x =
      some (x.map (fun v => Fmt.f64.quantize (uintDtype 8) (f (Fmt.f64.dequantize v iZ iS)) oZ oS)))
    {n : ℕ} {t : Tensor} {X : List (List ℚ)} (hX : X ≠ []) (h0 : 0 < n)
    {F : List ℚ → List ℚ} {g : List ℚ → ℚ} (hn : ∀ x ∈ X, (F x).length = n) (h : Near (some (iS, iZ)) t X F g) :
    ∃ t', Fmt.f64.inferLayer ext (.lut T) t = some t' ∧
      Near (some (oS, oZ)) t' X (fun x => (F x).map ideal) (fun x => l * (g x + iS / 2 ^ 40) + δ + oS * (1 / 2 + 1 / 2 ^ 40) +
        excess oS oZ ((F x).map ideal)) := by
  have hc := near_codes hn h0 hX h
  obtain ⟨Q, rfl, hQ⟩ := h
  refine ⟨.int (.mat (Q.map (fun q => q.map (fun v =>
    Fmt.f64.quantize (uintDtype 8) (f (Fmt.f64.dequantize v iZ iS)) oZ oS)))), ?_, _, rfl, ?_⟩
  · show (T.infer (.mat Q)).map Tensor.int = _
    rw [hT (.mat Q) hc.1 hc.2]; rfl
  · rw [List.forall₂_map_left_iff]
    exact hQ.imp (fun q x hqx => fn_row hl hl0 hf hi ho hiz hoz hqx)

end

/-! ### Conversion with a rounded table -/

theorem build_plain (ext : Ext) (m : OModel) (t : String) (n : ONode) (T : Table) (h1 : t ≠ "TanhLUT")
    (h2 : t ≠ "QLinearSigmoid") : buildOp ext m ⟨t, [n]⟩ T = buildOp ext m ⟨t, [n]⟩ := by
  simp [buildOp, h1, h2]

theorem build_sigmoid (ext : Ext) (m : OModel) (n : ONode) (T : Table) : buildOp ext m ⟨"QLinearSigmoid", [n]⟩ T =
    (sigmoidLut ext.sigmoid m n T).map (fun b => ⟨"SigmoidLUT", "SigmoidLUT", b.1, b.2, none⟩) := by
  simp [buildOp]
  cases sigmoidLut ext.sigmoid m n T <;> rfl

theorem build_tanh (ext : Ext) (m : OModel) (ns : List ONode) (T : Table) : buildOp ext m ⟨"TanhLUT", ns⟩ T =
    (tanhLut ext.tanh m ns T).map (fun b => ⟨"TanhLUT", "TanhLUT", b.1, b.2, none⟩) := by
  simp [buildOp]
  cases tanhLut ext.tanh m ns T <;> rfl

theorem load_lut (op : OpJ) (h : op.opType = "TanhLUT" ∨ op.opType = "SigmoidLUT") :
    Fmt.f64.buildOperator op = (LutLayer.fromModel op).map .lut := by
  rw [← build_lut op h]
  unfold Fmt.buildOperator
  rcases h with h | h <;> simp [onnxKind, h]

theorem load_plain {op : OpJ} {L : Layer} (h : Verif.buildOperator op = some L) (hL : ∀ l, L ≠ .qmatmul l) :
    Fmt.f64.buildOperator op = some L := by
  unfold Fmt.buildOperator
  split
  · rename_i hk
    unfold Verif.buildOperator at h
    rw [hk] at h
    obtain ⟨l, -, rfl⟩ := Option.map_eq_some_iff.mp h
    exact absurd rfl (hL l)
  · exact h

/-- Constants of a `DequantizeLinear` or `QuantizeLinear` node. -/
theorem linear_means {m : OModel} {x s z : String} {out : List String} {t : String} {S : ℚ} {Z : ℤ} (hs : RealConst m s S)
    (hz : IntConst m z Z) (ho : out ≠ []) : linear m ⟨t, [x, s, z], out⟩ = some ([⟨some S, some Z, none, none⟩], []) := by
  obtain ⟨o, os, rfl⟩ := List.exists_cons_of_ne_nil ho
  simp only [linear, node_none hs hz, List.getElem?_cons_zero, Option.bind_eq_bind, Option.bind_some]

/-- A node that is not a quantized sigmoid converts and loads to the operator it stands for. -/
theorem convert_single (cext : Ext) (m : OModel) {n : ONode} {o : OnnxOp} (h : NodeMeans m n o)
    (hs : n.opType ≠ "QLinearSigmoid") :
    ∃ op, buildOp cext m ⟨n.opType, [n]⟩ Fmt.f64.uint8Table = some op ∧ Fmt.f64.buildOperator op = some (layer64 o) := by
  have hl : n.opType ≠ "TanhLUT" := by cases h <;> simp only <;> decide
  rw [build_plain cext m _ n _ hl hs]
  have h84 := C84_operators cext m n o h
  rw [unfused_ne _ _ _ hs] at h84
  obtain ⟨op, h1, h2⟩ := Option.bind_eq_some_iff.mp h84
  cases h with
  | matmul x is iz w ws wz os oz out iS wS oS iZ wZ oZ W r c wi his hiz hw hd hW hws hwz hos hoz ho =>
    obtain ⟨a1, a2, a3⟩ := his
    obtain ⟨b1, b2, b3⟩ := hiz
    obtain ⟨c1, c2, c3⟩ := hws
    obtain ⟨d1, d2, d3⟩ := hwz
    obtain ⟨e1, e2, e3⟩ := hos
    obtain ⟨f1, f2, f3⟩ := hoz
    refine ⟨_, by rw [build_matmul, matmul_json m ⟨"QLinearMatMul", [x, is, iz, w, ws, wz, os, oz], out⟩ x is iz w ws wz
      os oz a1 b1 wi c1 d1 e1 f1 iS wS oS iZ wZ oZ r c W rfl ho (init_const a2) a3 (init_const b2) b3 (init_const hw) hd hW
      (init_const c2) c3 (init_const d2) d3 (init_const e2) e3 (init_const f2) f3]; rfl, ?_⟩
    show (Fmt.f64.qmatmulFromModel _).map Layer.qmatmul = _
    unfold Fmt.qmatmulFromModel
    simp only
    rw [matmul_load iS wS oS iZ wZ oZ r c W hW.1 hW.2.1]
    rfl
  | quantize => exact ⟨op, h1, load_plain h2 (by intro l h; cases h)⟩
  | dequantize => exact ⟨op, h1, load_plain h2 (by intro l h; cases h)⟩
  | add => exact ⟨op, h1, load_plain h2 (by intro l h; cases h)⟩
  | sigmoid => exact absurd rfl hs
  | tanh => exact ⟨op, h1, load_plain h2 (by intro l h; cases h)⟩
  | softmax => exact ⟨op, h1, load_plain h2 (by intro l h; cases h)⟩

/-- A quantized sigmoid becomes a table. -/
theorem convert_sigmoid (cext : Ext) (m : OModel) {n : ONode} {o : OnnxOp} (h : NodeMeans m n o)
    (hs : n.opType = "QLinearSigmoid") :
    ∃ iS iZ oS oZ op T, o = .sigmoid iS iZ oS oZ ∧ buildOp cext m ⟨n.opType, [n]⟩ Fmt.f64.uint8Table = some op ∧
      Fmt.f64.buildOperator op = some (.lut T) ∧ ∀ x : Arr ℤ, x.flat ≠ [] → (∀ v ∈ x.flat, Code 0 255 v) → T.infer x =
        some (x.map (fun v => Fmt.f64.quantize (uintDtype 8) (cext.sigmoid (Fmt.f64.dequantize v iZ iS)) oZ oS)) := by
  cases h <;> simp only at hs
  case sigmoid x is iz os oz out iS oS iZ oZ his hiz hos hoz ho =>
    obtain ⟨o, os', rfl⟩ := List.exists_cons_of_ne_nil ho
    obtain ⟨T, h1, h2⟩ := table_infer (fun c => Fmt.f64.quantize (uintDtype 8) (cext.sigmoid (Fmt.f64.dequantize c iZ iS)) oZ oS)
      (3, 0) (some iS) (some iZ)
    have hb : sigmoidLut cext.sigmoid m ⟨"QLinearSigmoid", [x, is, iz, os, oz], o :: os'⟩ Fmt.f64.uint8Table = some
        ([⟨some iS, some iZ, none, some ⟨some (Fmt.f64.uint8Table cext.sigmoid iS iZ oS oZ), some 0,
          some (ReducedLUT.mk' (Fmt.f64.uint8Table cext.sigmoid iS iZ oS oZ) 3 0).serialize⟩⟩], []) := by
      unfold sigmoidLut
      simp [qlinearSigmoid, node_none his hiz, node_none hos hoz]
    refine ⟨iS, iZ, oS, oZ, _, T, rfl, by rw [build_sigmoid, hb]; rfl, ?_, h2⟩
    rw [load_lut _ (.inr rfl)]
    unfold LutLayer.fromModel
    simp only
    have h1' : LutLayer.ofNode ⟨some iS, some iZ, none, some ⟨some (Fmt.f64.uint8Table cext.sigmoid iS iZ oS oZ), some 0,
          some (ReducedLUT.mk' (Fmt.f64.uint8Table cext.sigmoid iS iZ oS oZ) 3 0).serialize⟩⟩ = some T := h1
    rw [h1']
    rfl
  all_goals exact absurd hs (by decide)

/-- A fused triple becomes a table. -/
theorem convert_triple (cext : Ext) (m : OModel) {a b c : ONode} {oa ob oc : OnnxOp} (ha : NodeMeans m a oa)
    (hb : NodeMeans m b ob) (hc : NodeMeans m c oc) (ha' : a.opType = "DequantizeLinear") (hb' : b.opType = "Tanh")
    (hc' : c.opType = "QuantizeLinear") :
    ∃ iS iZ oS oZ, oa = .dequantize iS iZ ∧ ob = .tanh ∧ oc = .quantize oS oZ ∧ (iS ≠ 0 → oS ≠ 0 → ∃ op T,
      buildOp cext m ⟨"TanhLUT", [a, b, c]⟩ Fmt.f64.uint8Table = some op ∧
      Fmt.f64.buildOperator op = some (.lut T) ∧ ∀ x : Arr ℤ, x.flat ≠ [] → (∀ v ∈ x.flat, Code 0 255 v) → T.infer x =
        some (x.map (fun v => Fmt.f64.quantize (uintDtype 8) (cext.tanh (Fmt.f64.dequantize v iZ iS)) oZ oS))) := by
  cases ha <;> simp only at ha'
  case dequantize xa sa za outa iS iZ hsa hza hoa =>
    cases hb <;> simp only at hb'
    case tanh =>
      cases hc <;> simp only at hc'
      case quantize xc sc zc outc oS oZ hsc hzc hoc =>
        refine ⟨iS, iZ, oS, oZ, rfl, rfl, rfl, fun hi ho => ?_⟩
        obtain ⟨T, h1, h2⟩ := table_infer (fun c => Fmt.f64.quantize (uintDtype 8) (cext.tanh (Fmt.f64.dequantize c iZ iS)) oZ oS)
          (3, 10) none none
        refine ⟨⟨"TanhLUT", "TanhLUT", [⟨none, none, none, some ⟨some (Fmt.f64.uint8Table cext.tanh iS iZ oS oZ), some 0,
              some (ReducedLUT.mk' (Fmt.f64.uint8Table cext.tanh iS iZ oS oZ) 3 10).serialize⟩⟩], [], none⟩, T, by
          rw [build_tanh]
          unfold tanhLut
          simp only [List.getElem?_cons_zero, List.getElem?_cons_succ, Option.bind_eq_bind, Option.bind_some,
            linear_means hsa hza hoa, linear_means hsc hzc hoc, orElse_zero, orElse_ne _ hi, orElse_ne _ ho, Option.map_some], ?_, h2⟩
        rw [load_lut _ (.inl rfl)]
        unfold LutLayer.fromModel
        simp only
        have h1' : LutLayer.ofNode ⟨none, none, none, some ⟨some (Fmt.f64.uint8Table cext.tanh iS iZ oS oZ), some 0,
              some (ReducedLUT.mk' (Fmt.f64.uint8Table cext.tanh iS iZ oS oZ) 3 10).serialize⟩⟩ = some T := h1
        rw [h1']
        rfl
      all_goals exact absurd hc' (by decide)
    all_goals exact absurd hb' (by decide)
  all_goals exact absurd ha' (by decide)

theorem run_cons {ext : Ext} {l : Layer} {ls : List Layer} {x y out : Tensor} {rest : List Tensor}
    (h1 : Fmt.f64.inferLayer ext l x = some y) (h2 : Fmt.f64.runLayers ext ls y = some (out, rest)) :
    Fmt.f64.runLayers ext (l :: ls) x = some (out, y :: rest) := by
  simp only [Fmt.runLayers, h1, Option.bind_eq_bind, Option.bind_some, h2]

/-- The whole list of operators. -/
theorem fused_near {ext cext ideal : Ext} {ls lt δ : ℚ} (hls : 0 ≤ ls) (hlt : 0 ≤ lt)
    (hs : ∀ a b, |ideal.sigmoid a - ideal.sigmoid b| ≤ ls * |a - b|)
    (ht : ∀ a b, |ideal.tanh a - ideal.tanh b| ≤ lt * |a - b|) (hδ : 0 ≤ δ) (he : Approximates δ ext ideal)
    (hce : Approximates δ cext ideal) (m : OModel) {nodes : List ONode} {cs : List Cand} (hF : Fused nodes cs) :
    ∀ (ops : List OnnxOp) (p : Option (ℚ × ℤ)) (n : ℕ), List.Forall₂ (NodeMeans m) nodes ops → POk64 p →
      onnxFits ops p n → NormalScales ops → 0 < n →
      ∃ js Ls, cs.mapM (fun c => buildOp cext m c Fmt.f64.uint8Table) = some js ∧ js.mapM Fmt.f64.buildOperator = some Ls ∧
        ∀ (X : List (List ℚ)) (t : Tensor) (f : List ℚ → List ℚ) (g : List ℚ → ℚ), X ≠ [] → (∀ x ∈ X, (f x).length = n) →
          (∀ x ∈ X, 0 ≤ g x) → Near p t X f g → ∃ out mids, Fmt.f64.runLayers ext Ls t = some (out, mids) ∧
            Near (onnxAfter ops p) out X (fun x => onnxExact ideal ops (f x))
              (fun x => onnxBound64 ideal ls lt δ ops (f x) (g x)) := by
  induction hF with
  | nil =>
    intro ops p n hm hp hf hS h0
    cases hm
    exact ⟨[], [], rfl, rfl, fun X t f g _ _ _ h => ⟨t, [], rfl, h⟩⟩
  | triple a b c rest cs h1 h2 h3 _ ih =>
    intro ops p n hm hp hf hS h0
    cases hm with | cons ma hm => cases hm with | cons mb hm => cases hm with | cons mc hm =>
    obtain ⟨iS, iZ, oS, oZ, rfl, rfl, rfl, hc⟩ := convert_triple cext m ma mb mc h1 h2 h3
    rename_i ops
    obtain ⟨f1, f2, f3, f4⟩ := hf
    have f1 : p = some (iS, iZ) := f1
    subst f1
    obtain ⟨hi, hiz⟩ := hp iS iZ rfl
    obtain ⟨-, ho, hoz⟩ := f3
    have hi0 : 0 < iS := lt_of_lt_of_le (by positivity) hi
    obtain ⟨op, T, c1, c2, c3⟩ := hc hi0.ne' ho.ne'
    have hoS := hS (.quantize oS oZ) (by simp) oS oZ rfl
    obtain ⟨js, Ls, r1, r2, r3⟩ := ih ops (some (oS, oZ)) n hm (by
      intro s z h
      simp only [Option.some.injEq, Prod.mk.injEq] at h
      obtain ⟨rfl, rfl⟩ := h
      exact ⟨hoS, hoz⟩) f4 (fun o ho => hS o (by simp [ho])) h0
    refine ⟨op :: js, .lut T :: Ls, mapM_cons_of c1 r1, mapM_cons_of c2 r2, ?_⟩
    intro X t f g hX hn hg h
    obtain ⟨t', e1, e2⟩ := table_near (ext := ext) hls hlt hs ht ht hlt (fun a => (hce a).2) hi ho hiz hoz c3 hX h0 hn h
    obtain ⟨out, mids, g1, g2⟩ := r3 X t' _ _ hX (fun x hx => by rw [List.length_map]; exact hn x hx) (fun x hx => by
      have := hg x hx
      have hx : 0 ≤ excess oS oZ ((f x).map ideal.tanh) := foldr_max_nonneg _
      positivity) e2
    exact ⟨out, t' :: mids, run_cons e1 g1, g2⟩
  | single n0 rest cs hn0 _ ih =>
    intro ops p n hm hp hf hS h0
    cases hm with | cons mo hm =>
    rename_i o ops
    obtain ⟨f1, f2⟩ := hf
    have hSo : ∀ S Z, o.after = some (S, Z) → (2 : ℚ) ^ (-126 : ℤ) ≤ S := hS o (by simp)
    have hsize : 0 < o.size n := (exact_size (ext := ideal) f1 h0 (List.replicate n 0) (by simp)).2
    obtain ⟨js, Ls, r1, r2, r3⟩ := ih ops o.after (o.size n) hm (after_ok64 f1 hSo) f2 (fun o ho => hS o (by simp [ho])) hsize
    have step : ∃ op L, buildOp cext m ⟨n0.opType, [n0]⟩ Fmt.f64.uint8Table = some op ∧ Fmt.f64.buildOperator op = some L ∧
        ∀ (X : List (List ℚ)) (t : Tensor) (f : List ℚ → List ℚ) (g : List ℚ → ℚ), X ≠ [] → (∀ x ∈ X, (f x).length = n) →
          (∀ x ∈ X, 0 ≤ g x) → Near p t X f g → ∃ t', Fmt.f64.inferLayer ext L t = some t' ∧
            Near o.after t' X (fun x => o.exact ideal (f x)) (fun x => o.bound64 ideal ls lt δ (f x) (g x)) := by
      by_cases hsig : n0.opType = "QLinearSigmoid"
      · obtain ⟨iS, iZ, oS, oZ, op, T, rfl, c1, c2, c3⟩ := convert_sigmoid cext m mo hsig
        refine ⟨op, _, c1, c2, fun X t f g hX hn hg h => ?_⟩
        obtain ⟨rfl, ho, hoz⟩ := f1
        obtain ⟨hi, hiz⟩ := hp iS iZ rfl
        exact table_near (ext := ext) hls hlt hs ht hs hls (fun a => (hce a).1) hi ho hiz hoz c3 hX h0 hn h
      · obtain ⟨op, c1, c2⟩ := convert_single cext m mo hsig
        exact ⟨op, _, c1, c2, fun X t f g hX hn hg h => layer_near hls hlt hs ht he hp f1 hSo hn hg h⟩
    obtain ⟨op, L, c1, c2, c3⟩ := step
    refine ⟨op :: js, L :: Ls, mapM_cons_of c1 r1, mapM_cons_of c2 r2, ?_⟩
    intro X t f g hX hn hg h
    obtain ⟨t', e1, e2⟩ := c3 X t f g hX hn hg h
    obtain ⟨out, mids, g1, g2⟩ := r3 X t' _ _ hX
      (fun x hx => (exact_size (ext := ideal) f1 h0 (f x) (hn x hx)).1)
      (fun x hx => bound_nonneg hls hlt hs ht hδ hp.pok f1 (f x) (hg x hx)) e2
    exact ⟨out, t' :: mids, run_cons e1 g1, g2⟩

/-- Conversion and loading of a model whose first node is `QuantizeLinear`. -/
theorem loads (cext : Ext) (m : OModel) {first : ONode} {rest : List ONode} {cs : List Cand} {js : List OpJ} {Ls : List Layer}
    (hnodes : m.nodes = first :: rest) (hfirst : first.opType = "QuantizeLinear") (hin : m.inputs ≠ [])
    (hcs : candidates m.nodes.length m.nodes = some cs) (hF : Fused m.nodes cs)
    (h1 : cs.mapM (fun c => buildOp cext m c Fmt.f64.uint8Table) = some js)
    (h2 : js.mapM Fmt.f64.buildOperator = some Ls) :
    ∃ net, model2json cext m Fmt.f64.uint8Table = some net ∧ Fmt.f64.load net = some ⟨true, 0, 1, Ls⟩ := by
  obtain ⟨i, is, hi⟩ : ∃ i is, m.inputs = i :: is := List.exists_cons_of_ne_nil hin
  obtain ⟨op, js', hjs, hname⟩ : ∃ op js', js = op :: js' ∧ op.name = "QuantizeLinear" := by
    rw [hnodes] at hF
    cases hF with
    | triple _ _ _ _ _ hd _ _ _ => rw [hfirst] at hd; exact absurd hd (by decide)
    | single _ _ cs' _ _ =>
      obtain ⟨op, js', hop, _, rfl⟩ := mapM_cons_some h1
      refine ⟨op, js', rfl, ?_⟩
      rw [hfirst, build_plain _ _ _ _ _ (by decide) (by decide), build_linear cext m first _ (.inr rfl)] at hop
      obtain ⟨b, _, rfl⟩ := Option.map_eq_some_iff.mp hop
      rfl
  have hg : buildGraph cext m Fmt.f64.uint8Table = some js := by
    unfold buildGraph
    rw [hcs]
    exact h1
  refine ⟨⟨"ONNX", 0, js, m.inputs.map infoNode, m.inputs.map infoNode⟩, ?_, ?_⟩
  · unfold model2json
    rw [hg]; rfl
  · unfold Fmt.load
    have n1 : ¬ "TFLITE".toList = upper "ONNX" := by decide +kernel
    have n2 : "ONNX".toList = upper "ONNX" := by decide +kernel
    simp only
    rw [if_neg n1, if_pos n2]
    unfold Fmt.loadWith
    rw [hi]
    subst hjs
    simp only [List.map_cons, List.getElem?_cons_zero, Option.bind_eq_bind, Option.bind_some, hname, infoNode, h2,
      Option.getD_none]
    rw [show contains "QUANT" (upper "QuantizeLinear") = true by decide +kernel]

end OnnxF64

/-- C98.  An ONNX model of quantizations, dequantizations, matrix products, additions, sigmoids and tanhs whose nodes fit
together and whose scales are normal float32 numbers is converted with look-up tables computed in float64, by library
functions `cext`, and run in float64, with library functions `ext`; both are within `δ` of the `ideal` functions.  The
network answers every non-empty batch of real vectors of the right length, and every number it returns (or that a returned
code stands for) differs from the result of the model in exact real arithmetic, row by row, by at most the accumulated
bound: that of C85 with half steps enlarged by 2⁻⁴⁰ steps, and δ for each function. -/
theorem C98_accuracy (ext cext ideal : Ext) (ls lt δ : ℚ) (hls : 0 ≤ ls) (hlt : 0 ≤ lt)
    (hs : ∀ a b, |ideal.sigmoid a - ideal.sigmoid b| ≤ ls * |a - b|)
    (ht : ∀ a b, |ideal.tanh a - ideal.tanh b| ≤ lt * |a - b|) (he : Approximates δ ext ideal)
    (hce : Approximates δ cext ideal)
    (m : OModel) (S : ℚ) (Z : ℤ) (ops : List OnnxOp) (hm : List.Forall₂ (NodeMeans m) m.nodes (.quantize S Z :: ops))
    (hin : m.inputs ≠ []) (n : ℕ) (hn : 0 < n) (hf : onnxFits (.quantize S Z :: ops) none n)
    (hN : NormalScales (.quantize S Z :: ops)) :
    ∃ net s, model2json cext m Fmt.f64.uint8Table = some net ∧ Fmt.f64.load net = some s ∧
      ∀ X : List (List ℚ), X ≠ [] → (∀ x ∈ X, x.length = n) →
        ∃ out mids, Fmt.f64.infer ext s (.flt (.mat X)) = some (out, mids) ∧
          Near (onnxAfter ops (some (S, Z))) out X (onnxExact ideal (.quantize S Z :: ops))
            (fun x => onnxBound64 ideal ls lt δ (.quantize S Z :: ops) x 0) := by
  have hδ : 0 ≤ δ := le_trans (abs_nonneg _) (he 0).1
  obtain ⟨first, rest, hnodes⟩ : ∃ first rest, m.nodes = first :: rest := by
    cases hn : m.nodes with
    | nil => rw [hn] at hm; cases hm
    | cons a l => exact ⟨a, l, rfl⟩
  have hfirst : first.opType = "QuantizeLinear" := by
    rw [hnodes] at hm
    cases hm with
    | cons h _ => cases h; rfl
  have hplain : ∀ n ∈ m.nodes, PlainType n.opType := by
    intro n hn
    obtain ⟨i, hi, rfl⟩ := List.mem_iff_getElem.mp hn
    have hi' : i < (OnnxOp.quantize S Z :: ops).length := by rw [← hm.length_eq]; exact hi
    exact OnnxAcc.means_plain ((List.forall₂_iff_get.mp hm).2 i hi hi')
  obtain ⟨cs, hcs, hF⟩ := C48_fusion m.nodes hplain m.nodes.length le_rfl
  obtain ⟨js, Ls, h1, h2, h3⟩ := OnnxF64.fused_near hls hlt hs ht hδ he hce m hF (.quantize S Z :: ops) none n hm
    (by intro s z h; cases h) hf hN hn
  obtain ⟨net, n1, n2⟩ := OnnxF64.loads cext m hnodes hfirst hin hcs hF h1 h2
  refine ⟨net, ⟨true, 0, 1, Ls⟩, n1, n2, ?_⟩
  intro X hX hXn
  obtain ⟨out, mids, r1, r2⟩ := h3 X (.flt (.mat X)) id (fun _ => 0) hX hXn (fun _ _ => le_rfl) ⟨X, rfl, by
    rw [List.forall₂_same]
    intro x _
    rw [id, List.forall₂_same]
    intro a _
    simp⟩
  exact ⟨out, mids, r1, r2⟩

/-- C98 (sigmoid operator).  A `QLinearSigmoid` operator in a hand-written network file, with normal float32 scales and uint8 zero
points, loads, keeps the shape of a uint8 array, and in float64 returns codes for the ideal sigmoid of the numbers the input
codes stand for, up to half an output step (and 2⁻⁴⁰ steps, the error of the library function, the excess of the range). -/
theorem C98_sigmoid (ext ideal : Ext) (ls δ : ℚ) (hls : 0 ≤ ls)
    (hs : ∀ a b, |ideal.sigmoid a - ideal.sigmoid b| ≤ ls * |a - b|) (he : ∀ a, |ext.sigmoid a - ideal.sigmoid a| ≤ δ)
    (op : OpJ) (hop : op.opType = "QLinearSigmoid") (i o : NodeJ) (rest : List NodeJ) (hin : op.inputs = i :: o :: rest)
    (iS oS : ℚ) (iZ oZ : ℤ) (h1 : i.scale = some iS) (h2 : i.zeroPoint = some iZ) (h3 : o.scale = some oS)
    (h4 : o.zeroPoint = some oZ) (hi : (2 : ℚ) ^ (-126 : ℤ) ≤ iS) (ho : 0 < oS) (hiz : Code 0 255 iZ) (hoz : Code 0 255 oZ) :
    ∃ L, Fmt.f64.buildOperator op = some L ∧ ∀ x : Arr ℤ, (∀ q ∈ x.flat, Code 0 255 q) →
      ∃ g : ℤ → ℤ, Fmt.f64.inferLayer ext L (.int x) = some (.int (x.map g)) ∧ ∀ q ∈ x.flat, Code 0 255 (g q) ∧
        |real oZ oS (g q) - ideal.sigmoid (real iZ iS q)| ≤ ls * (iS / 2 ^ 40) + δ + oS * (1 / 2 + 1 / 2 ^ 40) +
          |saturate8 oS oZ (ideal.sigmoid (real iZ iS q)) - ideal.sigmoid (real iZ iS q)| := by
  refine ⟨.qsigmoid iS iZ oS oZ, ?_, fun x hx => ⟨_, rfl, fun q hq => ?_⟩⟩
  · unfold Fmt.buildOperator Verif.buildOperator qsigmoidFromModel
    simp [onnxKind, hop, hin, h1, h2, h3, h4]
  · have h := OnnxF64.fn_row (q := [q]) (x := [real iZ iS q]) (e := 0) hs hls he hi ho hiz hoz
      (.cons ⟨hx q hq, by simp⟩ .nil)
    cases h with
    | cons h _ =>
      refine ⟨h.1, h.2.trans (le_of_eq ?_)⟩
      rw [zero_add]
      congr 1
      simp [excess]

namespace C98Case

open C48Case (model ext)
open C85Case (ops means fits)

/-- Library functions with an error of at most 2⁻⁵⁰. -/
def lib : Ext := ⟨fun x => x / 2 + 1 / 2 ^ 50, fun x => x / 2 + 1 - 1 / 2 ^ 51, fun x => x⟩

theorem approx : Approximates (1 / 2 ^ 50) lib ext := by
  intro a
  constructor
  · show |a / 2 + 1 - 1 / 2 ^ 51 - (a / 2 + 1)| ≤ _
    rw [show a / 2 + 1 - 1 / 2 ^ 51 - (a / 2 + 1) = -(1 / 2 ^ 51 : ℚ) by ring, abs_neg, abs_of_pos (by norm_num)]
    norm_num
  · show |a / 2 + 1 / 2 ^ 50 - a / 2| ≤ _
    rw [add_sub_cancel_left, abs_of_pos (by norm_num)]

theorem normal : NormalScales (.quantize (1 / 16) 128 :: ops) := by
  have h : (2 : ℚ) ^ (-126 : ℤ) ≤ 1 / 16 := by decide +kernel
  intro o ho S Z hS
  simp only [ops, List.mem_cons, List.not_mem_nil, or_false] at ho
  rcases ho with rfl | rfl | rfl | rfl | rfl | rfl | rfl <;>
    simp only [OnnxOp.after, Option.some.injEq, Prod.mk.injEq, reduceCtorEq] at hS <;> rw [← hS.1] <;> exact h

/-- The hypotheses of `C98_accuracy` hold; in float64 the network is within 1/4 of the real result on this batch. -/
example : ∃ net s Y mids, model2json lib model Fmt.f64.uint8Table = some net ∧ Fmt.f64.load net = some s ∧
    Fmt.f64.infer lib s (.flt (.mat [[1, -1], [1 / 3, 1 / 7]])) = some (.flt (.mat Y), mids) ∧
    List.Forall₂ (fun y x => List.Forall₂ (fun a b => |a - b| ≤ 1 / 4) y
      (onnxExact ext (.quantize (1 / 16) 128 :: ops) x)) Y [[1, -1], [1 / 3, 1 / 7]] := by
  have hl : ∀ a b : ℚ, |a / 2 - b / 2| ≤ 1 / 2 * |a - b| := by
    intro a b
    rw [show a / 2 - b / 2 = 1 / 2 * (a - b) by ring, abs_mul]
    norm_num
  obtain ⟨net, s, h1, h2, h3⟩ := C98_accuracy lib lib ext (1 / 2) (1 / 2) (1 / 2 ^ 50) (by norm_num) (by norm_num)
    (fun a b => by have := hl a b; show |a / 2 + 1 - (b / 2 + 1)| ≤ _; rwa [add_sub_add_right_eq_sub]) hl approx approx model
    (1 / 16) 128 ops means (by decide) 2 (by decide) fits normal
  obtain ⟨out, mids, h4, Y, rfl, h5⟩ := h3 [[1, -1], [1 / 3, 1 / 7]] (by simp) (by simp)
  refine ⟨net, s, Y, mids, h1, h2, h4, OnnxAcc.forall2_imp_mem h5 (fun y x _ hx hyx => hyx.imp (fun a b hab => le_trans hab ?_))⟩
  rcases List.mem_cons.mp hx with rfl | hx
  · decide +kernel
  · rw [List.mem_singleton] at hx; subst hx; decide +kernel

/-- The hypotheses of `C98_sigmoid` hold. -/
example : ∃ L, Fmt.f64.buildOperator ⟨"QLinearSigmoid", "s", [⟨some (1 / 16), some 128, none, none⟩, ⟨some (1 / 16), some 128, none, none⟩], [], none⟩ = some L ∧
    ∃ g : ℤ → ℤ, Fmt.f64.inferLayer lib L (.int (.cube [[[128, 144]], [[112, 130]]])) = some (.int (.cube [[[g 128, g 144]], [[g 112, g 130]]])) ∧
      |real 128 (1 / 16) (g 144) - ext.sigmoid 1| ≤ 1 / 30 := by
  obtain ⟨L, h1, h2⟩ := C98_sigmoid lib ext (1 / 2) (1 / 2 ^ 50) (by norm_num) (by
    intro a b
    show |a / 2 + 1 - (b / 2 + 1)| ≤ _
    rw [show a / 2 + 1 - (b / 2 + 1) = 1 / 2 * (a - b) by ring, abs_mul]
    norm_num) (fun a => (approx a).1)
    ⟨"QLinearSigmoid", "s", [⟨some (1 / 16), some 128, none, none⟩, ⟨some (1 / 16), some 128, none, none⟩], [], none⟩ rfl _ _ [] rfl
    (1 / 16) (1 / 16) 128 128 rfl rfl rfl rfl (by decide +kernel) (by norm_num) (by decide) (by decide)
  obtain ⟨g, h3, h4⟩ := h2 (.cube [[[128, 144]], [[112, 130]]]) (by
    intro q hq
    simp [Arr.flat] at hq
    rcases hq with rfl | rfl | rfl | rfl <;> decide)
  refine ⟨L, h1, g, h3, ?_⟩
  have h5 := (h4 144 (by simp [Arr.flat])).2
  rw [show real 128 (1 / 16) 144 = 1 by decide +kernel] at h5
  exact h5.trans (by decide +kernel)

end C98Case
end Verif
