import Verif.Props.OnnxModel
import Verif.Lemmas.Accuracy

/-!
# C85: how far a converted ONNX network is from its real-number meaning
-/

namespace Verif

open Spec Onnx2Json

namespace Spec

/-- The nearest real number a uint8 code with parameters `(s, z)` can stand for. -/
def saturate8 (s : ℚ) (z : ℤ) (y : ℚ) : ℚ := max (real z s 0) (min (real z s 255) y)

/-- How far the numbers `ys` are outside the range of `(s, z)`, at most. -/
def excess (s : ℚ) (z : ℤ) (ys : List ℚ) : ℚ := (ys.map (fun y => |saturate8 s z y - y|)).foldr max 0

/-- The largest absolute column sum of the real matrix `W` stands for. -/
def gain (W : List (List ℤ)) (c : ℕ) (wS : ℚ) (wZ : ℤ) : ℚ :=
  ((List.range c).map (fun j => ((column W j).map (fun w => |real wZ wS w|)).sum)).foldr max 0

namespace OnnxOp

/-- The operator in exact real arithmetic: quantization and dequantization do nothing. -/
def exact (ext : Ext) : OnnxOp → List ℚ → List ℚ
  | .quantize _ _, x => x
  | .dequantize _ _, x => x
  | .matmul _ _ _ c W wS wZ _ _, x => (List.range c).map (fun j => dotQ ((column W j).map (real wZ wS)) x)
  | .add _ _ b bS bZ _ _, x => List.zipWith (fun v q => v + real bZ bS q) x b
  | .sigmoid _ _ _ _, x => x.map ext.sigmoid
  | .tanh, x => x.map ext.tanh
  | .softmax, x => x.map (fun v => ext.exp v / (x.map ext.exp).sum)

/-- The parameters of the operator's result; `none` for real numbers. -/
def after : OnnxOp → Option (ℚ × ℤ)
  | .quantize S Z => some (S, Z)
  | .dequantize _ _ => none
  | .matmul _ _ _ _ _ _ _ oS oZ => some (oS, oZ)
  | .add _ _ _ _ _ oS oZ => some (oS, oZ)
  | .sigmoid _ _ oS oZ => some (oS, oZ)
  | .tanh => none
  | .softmax => none

/-- The length of the result. -/
def size : OnnxOp → ℕ → ℕ
  | .matmul _ _ _ c _ _ _ _ _, _ => c
  | _, n => n

/-- The operator suits data with parameters `p` and length `n`: it expects these parameters, sizes fit, zero points and
constants are uint8 codes, scales are positive. -/
def Fits : OnnxOp → Option (ℚ × ℤ) → ℕ → Prop
  | .quantize S Z, p, _ => p = none ∧ 0 < S ∧ Code 0 255 Z
  | .dequantize S Z, p, _ => p = some (S, Z)
  | .matmul iS iZ r c W _ wZ oS oZ, p, n => p = some (iS, iZ) ∧ n = r ∧ r ≤ 2 ^ 15 ∧ 0 < c ∧ W.length = r ∧
      (∀ row ∈ W, row.length = c ∧ ∀ v ∈ row, Code 0 255 v) ∧ Code 0 255 wZ ∧ 0 < oS ∧ Code 0 255 oZ
  | .add iS iZ b _ bZ oS oZ, p, n => p = some (iS, iZ) ∧ n = b.length ∧ (∀ v ∈ b, Code 0 255 v) ∧ Code 0 255 bZ ∧
      0 < oS ∧ Code 0 255 oZ
  | .sigmoid iS iZ oS oZ, p, _ => p = some (iS, iZ) ∧ 0 < oS ∧ Code 0 255 oZ
  | .tanh, p, _ => p = none
  | .softmax, _, _ => False

/-- Error of the result if the error of the argument, exactly `x`, is `e`; `ls`, `lt` are Lipschitz constants of sigmoid
and tanh. -/
def bound (ext : Ext) (ls lt : ℚ) (o : OnnxOp) (x : List ℚ) (e : ℚ) : ℚ :=
  match o with
  | .quantize S Z => e + S / 2 + excess S Z x
  | .dequantize _ _ => e
  | .matmul _ _ _ c W wS wZ oS oZ => gain W c wS wZ * e + oS / 2 + excess oS oZ (o.exact ext x)
  | .add _ _ _ _ _ oS oZ => e + oS / 2 + excess oS oZ (o.exact ext x)
  | .sigmoid _ _ oS oZ => ls * e + oS / 2 + excess oS oZ (o.exact ext x)
  | .tanh => lt * e
  | .softmax => e

end OnnxOp

/-- All operators of a model in exact real arithmetic. -/
def onnxExact (ext : Ext) : List OnnxOp → List ℚ → List ℚ
  | [], x => x
  | o :: os, x => onnxExact ext os (o.exact ext x)

/-- The parameters of the model's result. -/
def onnxAfter : List OnnxOp → Option (ℚ × ℤ) → Option (ℚ × ℤ)
  | [], p => p
  | o :: os, _ => onnxAfter os o.after

/-- Every operator suits the result of the one before. -/
def onnxFits : List OnnxOp → Option (ℚ × ℤ) → ℕ → Prop
  | [], _, _ => True
  | o :: os, p, n => o.Fits p n ∧ onnxFits os o.after (o.size n)

/-- The accumulated error. -/
def onnxBound (ext : Ext) (ls lt : ℚ) : List OnnxOp → List ℚ → ℚ → ℚ
  | [], _, e => e
  | o :: os, x, e => onnxBound ext ls lt os (o.exact ext x) (o.bound ext ls lt x e)

/-- The tensor `t`, with parameters `p`, stands for the batch of rows `f x`, one for each row `x` of `X`, up to `g x`. -/
def Near (p : Option (ℚ × ℤ)) (t : Tensor) (X : List (List ℚ)) (f : List ℚ → List ℚ) (g : List ℚ → ℚ) : Prop :=
  match p with
  | none => ∃ Y, t = .flt (.mat Y) ∧ List.Forall₂ (fun y x => List.Forall₂ (fun a b => |a - b| ≤ g x) y (f x)) Y X
  | some (s, z) => ∃ Q, t = .int (.mat Q) ∧
      List.Forall₂ (fun q x => List.Forall₂ (fun a b => Code 0 255 a ∧ |real z s a - b| ≤ g x) q (f x)) Q X

end Spec

namespace OnnxAcc

theorem real_clip8 {s : ℚ} (hs : 0 < s) (z r : ℤ) : real z s (clip 0 255 r) = saturate8 s z (real z s r) := by
  unfold saturate8
  have hm : ∀ a b : ℤ, a ≤ b → real z s a ≤ real z s b := fun a b h => Accuracy.real_mono hs z h
  rcases le_total r 0 with h | h
  · rw [clip_of_le (by norm_num) h, min_eq_right (hm r 255 (by omega)), max_eq_left (hm r 0 h)]
  · rcases le_total r 255 with h' | h'
    · rw [clip_of_mem h h', min_eq_right (hm r 255 h'), max_eq_right (hm 0 r h)]
    · rw [clip_of_ge h', min_eq_left (hm 255 r h'), max_eq_right (hm 0 255 (by omega))]

/-- Rounding to the nearest code, clipping: half a step, the error of the argument and the excess of the target. -/
theorem clip_near {s : ℚ} (hs : 0 < s) {z r : ℤ} {v y e : ℚ} (hr : |real z s r - v| ≤ s / 2) (hv : |v - y| ≤ e) :
    Code 0 255 (clip 0 255 r) ∧ |real z s (clip 0 255 r) - y| ≤ e + s / 2 + |saturate8 s z y - y| := by
  refine ⟨⟨clip_ge (by norm_num), clip_le⟩, ?_⟩
  rw [real_clip8 hs]
  have h1 : |saturate8 s z (real z s r) - saturate8 s z y| ≤ |real z s r - y| := Accuracy.rat_clip_sub_le _ _ _ _
  have h2 := abs_sub_le (real z s r) v y
  have h3 := abs_sub_le (saturate8 s z (real z s r)) (saturate8 s z y) y
  linarith

theorem le_foldr_max (l : List ℚ) (x : ℚ) (h : x ∈ l) : x ≤ l.foldr max 0 := by
  induction l with
  | nil => cases h
  | cons a l ih =>
    rw [List.foldr_cons]
    rcases List.mem_cons.mp h with rfl | h
    · exact le_max_left _ _
    · exact le_trans (ih h) (le_max_right _ _)

theorem foldr_max_nonneg (l : List ℚ) : 0 ≤ l.foldr max 0 := by
  induction l with
  | nil => exact le_rfl
  | cons a l ih => exact le_trans ih (le_max_right _ _)

theorem le_excess (s : ℚ) (z : ℤ) (ys : List ℚ) (y : ℚ) (h : y ∈ ys) : |saturate8 s z y - y| ≤ excess s z ys :=
  le_foldr_max _ _ (List.mem_map.mpr ⟨y, h, rfl⟩)

theorem forall2_imp_mem {α β : Type} {R S : α → β → Prop} {l : List α} {m : List β} (h : List.Forall₂ R l m)
    (hi : ∀ a b, a ∈ l → b ∈ m → R a b → S a b) : List.Forall₂ S l m := by
  induction h with
  | nil => exact .nil
  | cons h _ ih =>
    exact .cons (hi _ _ (by simp) (by simp) h) (ih (fun a b ha hb => hi a b (by simp [ha]) (by simp [hb])))

theorem quantize_row {S : ℚ} (hS : 0 < S) (Z : ℤ) {y x : List ℚ} {e : ℚ}
    (h : List.Forall₂ (fun a b => |a - b| ≤ e) y x) :
    List.Forall₂ (fun a b => Code 0 255 a ∧ |real Z S a - b| ≤ e + S / 2 + excess S Z x)
      (y.map (fun v => Quantization.quantize (uintDtype 8) v Z S)) x := by
  rw [List.forall₂_map_left_iff]
  refine forall2_imp_mem h (fun a b _ hb hab => ?_)
  rw [quantize_eq uint8_fits]
  have h1 := abs_roundHalfUp_sub_le (a / S + Z)
  have h2 : |real Z S (roundHalfUp (a / S + Z)) - a| ≤ S / 2 := by
    have e : real Z S (roundHalfUp (a / S + Z)) - a = S * ((roundHalfUp (a / S + Z) : ℚ) - (a / S + Z)) := by
      unfold real; field_simp; ring
    rw [e, abs_mul, abs_of_pos hS]
    nlinarith
  have h3 := clip_near hS (z := Z) h2 hab
  have h4 := le_excess S Z x b hb
  exact ⟨h3.1, le_trans h3.2 (by linarith)⟩

theorem dequantize_row {S : ℚ} {Z : ℤ} (hZ : Code 0 255 Z) {q : List ℤ} {x : List ℚ} {e : ℚ}
    (h : List.Forall₂ (fun a b => Code 0 255 a ∧ |real Z S a - b| ≤ e) q x) :
    List.Forall₂ (fun a b => |a - b| ≤ e) (q.map (fun v => Quantization.dequantize v Z S)) x := by
  rw [List.forall₂_map_left_iff]
  refine h.imp (fun a b hab => ?_)
  obtain ⟨⟨h1, h2⟩, h3⟩ := hab
  obtain ⟨h4, h5⟩ := hZ
  rw [dequantize_eq (by unfold IsInt32; omega) (by unfold IsInt32; omega)]
  exact h3

/-- Rounding half to even and adding the zero point. -/
theorem even_half {oS : ℚ} (ho : 0 < oS) (oZ : ℤ) (t : ℚ) : |real oZ oS (roundHalfEven t + oZ) - oS * t| ≤ oS / 2 := by
  have h1 := abs_roundHalfEven_sub_le t
  have e : real oZ oS (roundHalfEven t + oZ) - oS * t = oS * ((roundHalfEven t : ℚ) - t) := by
    unfold real; push_cast; ring
  rw [e, abs_mul, abs_of_pos ho]
  nlinarith

/-- The effect of an error of the vector on a product. -/
theorem dot_sub {w : List ℚ} {y x : List ℚ} {e : ℚ} (he : 0 ≤ e) (h : List.Forall₂ (fun a b => |a - b| ≤ e) y x) :
    |dotQ w y - dotQ w x| ≤ (w.map (fun v => |v|)).sum * e := by
  induction h generalizing w with
  | nil =>
    have h1 : 0 ≤ (w.map (fun v => |v|)).sum := List.sum_nonneg (by
      intro v hv
      obtain ⟨u, _, rfl⟩ := List.mem_map.mp hv
      exact abs_nonneg u)
    have h2 : dotQ w [] = 0 := by cases w <;> simp [dotQ]
    rw [h2, sub_self, abs_zero]
    exact mul_nonneg h1 he
  | cons hab _ ih =>
    rename_i a b y x _
    cases w with
    | nil => simp [dotQ]
    | cons v w =>
      have := ih (w := w)
      simp only [dotQ, List.zipWith_cons_cons, List.sum_cons, List.map_cons] at this ⊢
      have e1 : v * a + (List.zipWith (· * ·) w y).sum - (v * b + (List.zipWith (· * ·) w x).sum) =
          v * (a - b) + ((List.zipWith (· * ·) w y).sum - (List.zipWith (· * ·) w x).sum) := by ring
      rw [e1]
      have h2 := abs_add_le (v * (a - b)) ((List.zipWith (· * ·) w y).sum - (List.zipWith (· * ·) w x).sum)
      have h3 : |v * (a - b)| ≤ |v| * e := by rw [abs_mul]; exact mul_le_mul_of_nonneg_left hab (abs_nonneg v)
      linarith

theorem matmul_row {iS wS oS : ℚ} {iZ wZ oZ : ℤ} {r c : ℕ} {W : List (List ℤ)} (ho : 0 < oS) (hr : r ≤ 2 ^ 15)
    (hW : W.length = r) (hWc : ∀ row ∈ W, row.length = c ∧ ∀ v ∈ row, Code 0 255 v) (hiz : Code 0 255 iZ)
    (hwz : Code 0 255 wZ) {q : List ℤ} {x : List ℚ} {e : ℚ} (he : 0 ≤ e) (hx : x.length = r)
    (h : List.Forall₂ (fun a b => Code 0 255 a ∧ |real iZ iS a - b| ≤ e) q x) :
    List.Forall₂ (fun a b => Code 0 255 a ∧ |real oZ oS a - b| ≤ gain W c wS wZ * e + oS / 2 +
        excess oS oZ ((List.range c).map (fun j => dotQ ((column W j).map (real wZ wS)) x)))
      ((QMatMul.mk (iS * wS / oS) r c W iZ wZ oZ).row q)
      ((List.range c).map (fun j => dotQ ((column W j).map (real wZ wS)) x)) := by
  have hq : q.length = r := by rw [← hx]; exact h.length_eq
  have hqc : ∀ v ∈ q, Code 0 255 v := by
    intro v hv
    obtain ⟨i, hi, rfl⟩ := List.mem_iff_getElem.mp hv
    exact ((List.forall₂_iff_get.mp h).2 i hi (by rw [← h.length_eq]; exact hi)).1
  unfold QMatMul.row
  rw [List.forall₂_map_left_iff, List.forall₂_map_right_iff, List.forall₂_same]
  intro j hj
  have hjc : j < c := List.mem_range.mp hj
  have hcol : ∀ v ∈ column W j, Code 0 255 v := by
    intro v hv
    obtain ⟨row, hrow, rfl⟩ := List.mem_map.mp hv
    obtain ⟨h1, h2⟩ := hWc row hrow
    rw [List.getD_eq_getElem?_getD, List.getElem?_eq_getElem (by rw [h1]; exact hjc)]
    exact h2 _ (List.getElem_mem _)
  have hcx : q.map (center32 iZ) = q.map (· - iZ) := List.map_congr_left (fun v hv => center32_eq (hqc v hv) hiz)
  have hcw : W.map (fun row => center32 wZ (row.getD j 0)) = (column W j).map (fun w => w - wZ) := by
    unfold column
    rw [List.map_map]
    refine List.map_congr_left (fun row hrow => center32_eq (hcol _ (List.mem_map.mpr ⟨row, hrow, rfl⟩)) hwz)
  have hb : ∀ (zp : ℤ), Code 0 255 zp → ∀ l : List ℤ, (∀ v ∈ l, Code 0 255 v) → ∀ y ∈ l.map (· - zp), |y| ≤ 255 := by
    intro zp hz l hl y hy
    obtain ⟨v, hv, rfl⟩ := List.mem_map.mp hy
    have a := hl v hv
    rw [abs_le]
    obtain ⟨a1, a2⟩ := a; obtain ⟨b1, b2⟩ := hz
    constructor <;> omega
  simp only
  rw [hcx, hcw, dot32_exact 255 255 (by norm_num) (by norm_num) _ _ (hb iZ hiz q hqc) (hb wZ hwz _ hcol)
    (by rw [List.length_map, hq]
        have : (r : ℤ) ≤ 2 ^ 15 := by exact_mod_cast hr
        omega)]
  unfold QMatMul.finish
  simp only
  set acc := dotZ (q.map (· - iZ)) ((column W j).map (fun w => w - wZ)) with hacc
  have hY : oS * (iS * wS / oS * (acc : ℚ)) = dotQ ((column W j).map (real wZ wS)) (q.map (real iZ iS)) := by
    rw [dotQ_real, dotZ_comm, ← hacc]
    field_simp
  have h1 := even_half ho oZ (iS * wS / oS * (acc : ℚ))
  have h2 : |oS * (iS * wS / oS * (acc : ℚ)) - dotQ ((column W j).map (real wZ wS)) x| ≤ gain W c wS wZ * e := by
    rw [hY]
    refine le_trans (dot_sub he (x := x) ?_) ?_
    · rw [List.forall₂_map_left_iff]
      exact h.imp (fun _ _ h => h.2)
    · refine mul_le_mul_of_nonneg_right ?_ he
      rw [List.map_map]
      exact le_foldr_max _ _ (List.mem_map.mpr ⟨j, hj, rfl⟩)
  have h3 := clip_near ho h1 h2
  have h4 := le_excess oS oZ ((List.range c).map (fun j => dotQ ((column W j).map (real wZ wS)) x)) _
    (List.mem_map.mpr ⟨j, hj, rfl⟩)
  exact ⟨h3.1, le_trans h3.2 (by linarith)⟩

theorem add_row_aux {iS bS oS : ℚ} {iZ bZ oZ : ℤ} (ho : 0 < oS) (hiz : Code 0 255 iZ) (hbz : Code 0 255 bZ) {e : ℚ}
    {B b : List ℤ} {q : List ℤ} {x : List ℚ} (h : List.Forall₂ (fun a b => Code 0 255 a ∧ |real iZ iS a - b| ≤ e) q x)
    (hb : ∀ v ∈ b, Code 0 255 v) (E : ℚ)
    (hE : ∀ y ∈ List.zipWith (fun v q => v + real bZ bS q) x b, |saturate8 oS oZ y - y| ≤ E) :
    List.Forall₂ (fun a b => Code 0 255 a ∧ |real oZ oS a - b| ≤ e + oS / 2 + E)
      (List.zipWith (QAdd.elem ⟨iS, iZ, B, bS, bZ, oS, oZ⟩) q b) (List.zipWith (fun v q => v + real bZ bS q) x b) := by
  induction h generalizing b with
  | nil => simp
  | cons hab _ ih =>
    rename_i u v q x _
    cases b with
    | nil => simp
    | cons w b =>
      rw [List.zipWith_cons_cons, List.zipWith_cons_cons]
      rw [List.zipWith_cons_cons] at hE
      refine .cons ?_ (ih (fun v hv => hb v (by simp [hv])) (fun y hy => hE y (List.mem_cons_of_mem _ hy)))
      unfold QAdd.elem
      simp only
      rw [center32_eq hab.1 hiz, center32_eq (hb w (by simp)) hbz]
      have h1 := even_half ho oZ ((iS * ((u - iZ : ℤ) : ℚ) + bS * ((w - bZ : ℤ) : ℚ)) / oS)
      have h2 : |oS * ((iS * ((u - iZ : ℤ) : ℚ) + bS * ((w - bZ : ℤ) : ℚ)) / oS) - (v + real bZ bS w)| ≤ e := by
        have e1 : oS * ((iS * ((u - iZ : ℤ) : ℚ) + bS * ((w - bZ : ℤ) : ℚ)) / oS) - (v + real bZ bS w) =
            real iZ iS u - v := by
          unfold real; push_cast; field_simp; ring
        rw [e1]; exact hab.2
      have h3 := clip_near ho h1 h2
      exact ⟨h3.1, le_trans h3.2 (by have := hE _ (List.mem_cons_self ..); linarith)⟩

theorem sigmoid_row {ext : Ext} {ls : ℚ} (hl : ∀ a b, |ext.sigmoid a - ext.sigmoid b| ≤ ls * |a - b|) (hls : 0 ≤ ls)
    {iS oS : ℚ} {iZ oZ : ℤ} (ho : 0 < oS) (hiz : Code 0 255 iZ) {q : List ℤ} {x : List ℚ} {e : ℚ}
    (h : List.Forall₂ (fun a b => Code 0 255 a ∧ |real iZ iS a - b| ≤ e) q x) :
    List.Forall₂ (fun a b => Code 0 255 a ∧ |real oZ oS a - b| ≤ ls * e + oS / 2 + excess oS oZ (x.map ext.sigmoid))
      (q.map (fun v => Quantization.quantize (uintDtype 8) (ext.sigmoid (Quantization.dequantize v iZ iS)) oZ oS))
      (x.map ext.sigmoid) := by
  have h1 : List.Forall₂ (fun a b => |a - b| ≤ ls * e) (q.map (fun v => ext.sigmoid (Quantization.dequantize v iZ iS)))
      (x.map ext.sigmoid) := by
    rw [List.forall₂_map_left_iff, List.forall₂_map_right_iff]
    refine h.imp (fun a b hab => ?_)
    obtain ⟨⟨h1, h2⟩, h3⟩ := hab
    obtain ⟨h4, h5⟩ := hiz
    rw [dequantize_eq (by unfold IsInt32; omega) (by unfold IsInt32; omega)]
    exact le_trans (hl _ _) (mul_le_mul_of_nonneg_left h3 hls)
  have := quantize_row ho oZ h1
  rw [List.map_map] at this
  exact this

theorem rows_length {α : Type} {R : List ℚ → α → ℚ → Prop} {Q : List (List α)} {X : List (List ℚ)}
    {f : List ℚ → List ℚ} {n : ℕ} (hn : ∀ x ∈ X, (f x).length = n)
    (h : List.Forall₂ (fun q x => List.Forall₂ (R x) q (f x)) Q X) : ∀ q ∈ Q, q.length = n := by
  intro q hq
  obtain ⟨i, hi, rfl⟩ := List.mem_iff_getElem.mp hq
  have hi' : i < X.length := by rw [← h.length_eq]; exact hi
  have := (List.forall₂_iff_get.mp h).2 i hi hi'
  rw [show Q[i].length = (f X[i]).length from this.length_eq]
  exact hn _ (List.getElem_mem _)

theorem bound_nonneg {ext : Ext} {ls lt : ℚ} (hls : 0 ≤ ls) (hlt : 0 ≤ lt) {o : OnnxOp} {p : Option (ℚ × ℤ)} {n : ℕ}
    (ho : o.Fits p n) (x : List ℚ) {e : ℚ} (he : 0 ≤ e) : 0 ≤ o.bound ext ls lt x e := by
  have hx : ∀ s z ys, 0 ≤ excess s z ys := fun s z ys => foldr_max_nonneg _
  cases o with
  | quantize S Z => have := ho.2.1; have := hx S Z x; simp only [OnnxOp.bound]; linarith
  | dequantize S Z => exact he
  | matmul iS iZ r c W wS wZ oS oZ =>
    obtain ⟨-, -, -, -, -, -, -, h, -⟩ := ho
    have h1 : 0 ≤ gain W c wS wZ := foldr_max_nonneg _
    have h2 := hx oS oZ ((OnnxOp.matmul iS iZ r c W wS wZ oS oZ).exact ext x)
    have h3 := mul_nonneg h1 he
    simp only [OnnxOp.bound]; linarith
  | add iS iZ b bS bZ oS oZ =>
    obtain ⟨-, -, -, -, h, -⟩ := ho
    have h2 := hx oS oZ ((OnnxOp.add iS iZ b bS bZ oS oZ).exact ext x)
    simp only [OnnxOp.bound]; linarith
  | sigmoid iS iZ oS oZ =>
    obtain ⟨-, h, -⟩ := ho
    have h2 := hx oS oZ ((OnnxOp.sigmoid iS iZ oS oZ).exact ext x)
    have h3 := mul_nonneg hls he
    simp only [OnnxOp.bound]; linarith
  | tanh => exact mul_nonneg hlt he
  | softmax => exact ho.elim

/-- Parameters that data can have. -/
def POk (p : Option (ℚ × ℤ)) : Prop := ∀ s z, p = some (s, z) → 0 < s ∧ Code 0 255 z

theorem after_ok {o : OnnxOp} {p : Option (ℚ × ℤ)} {n : ℕ} (ho : o.Fits p n) : POk o.after := by
  intro s z h
  cases o with
  | quantize S Z => simp only [OnnxOp.after, Option.some.injEq, Prod.mk.injEq] at h; obtain ⟨rfl, rfl⟩ := h; exact ho.2
  | dequantize S Z => cases h
  | matmul iS iZ r c W wS wZ oS oZ =>
    simp only [OnnxOp.after, Option.some.injEq, Prod.mk.injEq] at h; obtain ⟨rfl, rfl⟩ := h
    obtain ⟨-, -, -, -, -, -, -, h⟩ := ho; exact h
  | add iS iZ b bS bZ oS oZ =>
    simp only [OnnxOp.after, Option.some.injEq, Prod.mk.injEq] at h; obtain ⟨rfl, rfl⟩ := h
    obtain ⟨-, -, -, -, h⟩ := ho; exact h
  | sigmoid iS iZ oS oZ =>
    simp only [OnnxOp.after, Option.some.injEq, Prod.mk.injEq] at h; obtain ⟨rfl, rfl⟩ := h; exact ho.2
  | tanh => cases h
  | softmax => exact ho.elim

theorem exact_size {ext : Ext} {o : OnnxOp} {p : Option (ℚ × ℤ)} {n : ℕ} (ho : o.Fits p n) (hn : 0 < n) (x : List ℚ)
    (hx : x.length = n) : (o.exact ext x).length = o.size n ∧ 0 < o.size n := by
  cases o with
  | quantize S Z => exact ⟨hx, hn⟩
  | dequantize S Z => exact ⟨hx, hn⟩
  | matmul iS iZ r c W wS wZ oS oZ => exact ⟨by simp [OnnxOp.exact, OnnxOp.size], ho.2.2.2.1⟩
  | add iS iZ b bS bZ oS oZ =>
    refine ⟨?_, hn⟩
    have := ho.2.1
    simp only [OnnxOp.exact, OnnxOp.size, List.length_zipWith]; omega
  | sigmoid iS iZ oS oZ => exact ⟨by simp [OnnxOp.exact, OnnxOp.size, hx], hn⟩
  | tanh => exact ⟨by simp [OnnxOp.exact, OnnxOp.size, hx], hn⟩
  | softmax => exact ho.elim

/-- One operator. -/
theorem op_near {ext : Ext} {ls lt : ℚ} (hls : 0 ≤ ls) (hlt : 0 ≤ lt)
    (hs : ∀ a b, |ext.sigmoid a - ext.sigmoid b| ≤ ls * |a - b|) (ht : ∀ a b, |ext.tanh a - ext.tanh b| ≤ lt * |a - b|)
    {o : OnnxOp} {p : Option (ℚ × ℤ)} {n : ℕ} (hp : POk p) (ho : o.Fits p n) {t : Tensor} {X : List (List ℚ)}
    {f : List ℚ → List ℚ} {g : List ℚ → ℚ} (hn : ∀ x ∈ X, (f x).length = n) (hg : ∀ x ∈ X, 0 ≤ g x)
    (h : Near p t X f g) :
    ∃ t', o.layer.infer ext t = some t' ∧
      Near o.after t' X (fun x => o.exact ext (f x)) (fun x => o.bound ext ls lt (f x) (g x)) := by
  cases o with
  | quantize S Z =>
    obtain ⟨rfl, h1, h2⟩ := ho
    obtain ⟨Y, rfl, hY⟩ := h
    refine ⟨_, rfl, _, rfl, ?_⟩
    rw [List.forall₂_map_left_iff]
    exact hY.imp (fun y x hyx => quantize_row h1 Z hyx)
  | dequantize S Z =>
    have ho : p = some (S, Z) := ho
    subst ho
    obtain ⟨h1, h2⟩ := hp S Z rfl
    obtain ⟨Y, rfl, hY⟩ := h
    refine ⟨_, rfl, _, rfl, ?_⟩
    rw [List.forall₂_map_left_iff]
    exact hY.imp (fun y x hyx => dequantize_row h2 hyx)
  | matmul iS iZ r c W wS wZ oS oZ =>
    obtain ⟨rfl, rfl, h1, h2, h3, h4, h5, h6, h7⟩ := ho
    obtain ⟨hi, hz⟩ := hp iS iZ rfl
    obtain ⟨Q, rfl, hQ⟩ := h
    have hlen := rows_length (R := fun x a b => Code 0 255 a ∧ |real iZ iS a - b| ≤ g x) hn hQ
    refine ⟨.int (.mat (Q.map (QMatMul.mk (iS * wS / oS) n c W iZ wZ oZ).row)), ?_, _, rfl, ?_⟩
    · show ((QMatMul.mk (iS * wS / oS) n c W iZ wZ oZ).infer (.mat Q)).map Tensor.int = _
      simp only [QMatMul.infer]
      rw [if_pos hlen]; rfl
    · rw [List.forall₂_map_left_iff]
      exact forall2_imp_mem hQ (fun q x _ hx hqx => matmul_row h6 h1 h3 h4 hz h5 (hg x hx) (hn x hx) hqx)
  | add iS iZ b bS bZ oS oZ =>
    obtain ⟨rfl, rfl, h1, h2, h3, h4⟩ := ho
    obtain ⟨hi, hz⟩ := hp iS iZ rfl
    obtain ⟨Q, rfl, hQ⟩ := h
    have hlen := rows_length (R := fun x a b => Code 0 255 a ∧ |real iZ iS a - b| ≤ g x) hn hQ
    refine ⟨.int (.mat (Q.map (QAdd.mk iS iZ b bS bZ oS oZ).row)), ?_, _, rfl, ?_⟩
    · show ((QAdd.mk iS iZ b bS bZ oS oZ).infer (.mat Q)).map Tensor.int = _
      simp only [QAdd.infer]
      rw [if_pos hlen]; rfl
    · rw [List.forall₂_map_left_iff]
      exact hQ.imp (fun q x hqx => add_row_aux h3 hz h2 hqx h1 _ (fun y hy => le_excess oS oZ _ y hy))
  | sigmoid iS iZ oS oZ =>
    obtain ⟨rfl, h1, h2⟩ := ho
    obtain ⟨hi, hz⟩ := hp iS iZ rfl
    obtain ⟨Q, rfl, hQ⟩ := h
    refine ⟨_, rfl, _, rfl, ?_⟩
    rw [List.forall₂_map_left_iff]
    exact hQ.imp (fun q x hqx => sigmoid_row hs hls h1 hz hqx)
  | tanh =>
    have ho : p = none := ho
    subst ho
    obtain ⟨Y, rfl, hY⟩ := h
    refine ⟨_, rfl, _, rfl, ?_⟩
    rw [List.forall₂_map_left_iff]
    refine hY.imp (fun y x hyx => ?_)
    simp only [OnnxOp.exact]
    rw [List.forall₂_map_left_iff, List.forall₂_map_right_iff]
    exact hyx.imp (fun a b hab => le_trans (ht _ _) (mul_le_mul_of_nonneg_left hab hlt))
  | softmax => exact ho.elim

/-- Operators that read codes. -/
def ReadsCodes (o : OnnxOp) : Prop := (∃ S Z, o = .dequantize S Z) ∨ ∃ iS iZ oS oZ, o = .sigmoid iS iZ oS oZ

theorem near_codes {s : ℚ} {z : ℤ} {t : Tensor} {X : List (List ℚ)} {f : List ℚ → List ℚ} {g : List ℚ → ℚ} {n : ℕ}
    (hn : ∀ x ∈ X, (f x).length = n) (h0 : 0 < n) (hX : X ≠ []) (h : Near (some (s, z)) t X f g) : Codes t := by
  obtain ⟨Q, rfl, hQ⟩ := h
  have hlen := rows_length (R := fun x a b => Code 0 255 a ∧ |real z s a - b| ≤ g x) hn hQ
  constructor
  · intro hf
    obtain ⟨x, X', rfl⟩ := List.exists_cons_of_ne_nil hX
    cases hQ with
    | cons h1 h2 =>
      rename_i q Q'
      have h3 := hlen q (by simp)
      have : q = [] := by
        have : (q :: Q').flatten = [] := hf
        rw [List.flatten_cons, List.append_eq_nil_iff] at this
        exact this.1
      rw [this] at h3
      simp at h3
      omega
  · intro v hv
    obtain ⟨q, hq, hv⟩ := List.mem_flatten.mp hv
    obtain ⟨i, hi, rfl⟩ := List.mem_iff_getElem.mp hq
    have h1 := (List.forall₂_iff_get.mp hQ).2 i hi (by rw [← hQ.length_eq]; exact hi)
    simp only [List.get_eq_getElem] at h1
    obtain ⟨j, hj, rfl⟩ := List.mem_iff_getElem.mp hv
    exact ((List.forall₂_iff_get.mp h1).2 j hj (by rw [← h1.length_eq]; exact hj)).1

theorem ops_near {ext : Ext} {ls lt : ℚ} (hls : 0 ≤ ls) (hlt : 0 ≤ lt)
    (hs : ∀ a b, |ext.sigmoid a - ext.sigmoid b| ≤ ls * |a - b|) (ht : ∀ a b, |ext.tanh a - ext.tanh b| ≤ lt * |a - b|)
    {X : List (List ℚ)} (hX : X ≠ []) :
    ∀ (ops : List OnnxOp) (p : Option (ℚ × ℤ)) (n : ℕ) (t : Tensor) (f : List ℚ → List ℚ) (g : List ℚ → ℚ), POk p →
      onnxFits ops p n → 0 < n → (∀ x ∈ X, (f x).length = n) → (∀ x ∈ X, 0 ≤ g x) → Near p t X f g →
      ∃ out mids, SeqNet.runLayers ext (ops.map OnnxOp.layer) t = some (out, mids) ∧
        Near (onnxAfter ops p) out X (fun x => onnxExact ext ops (f x)) (fun x => onnxBound ext ls lt ops (f x) (g x)) ∧
        ∀ (i : ℕ) o u, ops[i]? = some o → ReadsCodes o → (t :: mids)[i]? = some u → Codes u := by
  intro ops
  induction ops with
  | nil =>
    intro p n t f g _ _ _ _ _ h
    exact ⟨t, [], rfl, h, by intro i o u hi; simp at hi⟩
  | cons o ops ih =>
    intro p n t f g hp hf h0 hn hg h
    obtain ⟨h1, h2⟩ := hf
    obtain ⟨t', e1, e2⟩ := op_near hls hlt hs ht hp h1 hn hg h
    obtain ⟨x, X', hXe⟩ := List.exists_cons_of_ne_nil hX
    obtain ⟨out, mids, r1, r2, r3⟩ := ih o.after (o.size n) t' _ _ (after_ok h1) h2
      (exact_size (ext := ext) h1 h0 (f x) (hn x (by rw [hXe]; simp))).2
      (fun x hx => (exact_size (ext := ext) h1 h0 (f x) (hn x hx)).1)
      (fun x hx => bound_nonneg hls hlt h1 (f x) (hg x hx)) e2
    refine ⟨out, t' :: mids, runLayers_of e1 r1, r2, ?_⟩
    intro i o' u hi hr hu
    cases i with
    | zero =>
      simp only [List.getElem?_cons_zero, Option.some.injEq] at hi hu
      subst hi; subst hu
      rcases hr with ⟨S, Z, rfl⟩ | ⟨iS, iZ, oS, oZ, rfl⟩
      · have h1 : p = some (S, Z) := h1
        subst h1
        exact near_codes hn h0 hX h
      · obtain ⟨rfl, -, -⟩ := h1
        exact near_codes hn h0 hX h
    | succ i =>
      rw [List.getElem?_cons_succ] at hi hu
      exact r3 i o' u hi hr hu

theorem params_ok : ∀ (ops : List OnnxOp) (p : Option (ℚ × ℤ)) (n : ℕ), POk p → onnxFits ops p n →
    ∀ l ∈ ops.map OnnxOp.layer, ParamsOk l := by
  intro ops
  induction ops with
  | nil => intro p n _ _ l hl; simp at hl
  | cons o ops ih =>
    intro p n hp hf l hl
    obtain ⟨h1, h2⟩ := hf
    rw [List.map_cons] at hl
    rcases List.mem_cons.mp hl with rfl | hl
    · cases o with
      | quantize S Z => exact h1.2.1.ne'
      | dequantize S Z => obtain ⟨a, b⟩ := hp S Z h1; exact ⟨a.ne', b⟩
      | matmul iS iZ r c W wS wZ oS oZ => trivial
      | add iS iZ b bS bZ oS oZ => trivial
      | sigmoid iS iZ oS oZ => exact (hp iS iZ h1.1).2
      | tanh => trivial
      | softmax => trivial
    · exact ih _ _ (after_ok h1) h2 l hl

theorem means_plain {m : OModel} {n : ONode} {o : OnnxOp} (h : NodeMeans m n o) : PlainType n.opType := by
  cases h <;> simp only [] <;> unfold PlainType <;> decide +kernel

theorem means_reads {m : OModel} {n : ONode} {o : OnnxOp} (h : NodeMeans m n o)
    (ht : n.opType = "DequantizeLinear" ∨ n.opType = "QLinearSigmoid") : ReadsCodes o := by
  cases h <;> simp only [] at ht
  case dequantize => exact .inl ⟨_, _, rfl⟩
  case sigmoid => exact .inr ⟨_, _, _, _, rfl⟩
  all_goals exact absurd ht (by decide)

theorem mapM_means {ext : Ext} {m : OModel} {nodes : List ONode} {ops : List OnnxOp}
    (h : List.Forall₂ (NodeMeans m) nodes ops) : nodes.mapM (unfusedLayer ext m) = some (ops.map OnnxOp.layer) := by
  induction h with
  | nil => rfl
  | cons h _ ih => exact mapM_cons_of (C84_operators ext m _ _ h) ih

end OnnxAcc

/-- C84 (network).  Take any ONNX model whose nodes have the meanings `ops`, with ordinary parameters, and whose first node
quantizes the input.  The model converts and loads, and whenever the engine's operators for `ops`, one by one, give `out`
on `x`, with every dequantization and every quantized sigmoid receiving uint8 codes, the loaded network gives `out`. -/
theorem C84_network (ext : Ext) (m : OModel) (S : ℚ) (Z : ℤ) (ops : List OnnxOp)
    (hm : List.Forall₂ (NodeMeans m) m.nodes (.quantize S Z :: ops)) (hin : m.inputs ≠ [])
    (hp : ∀ l ∈ (OnnxOp.quantize S Z :: ops).map OnnxOp.layer, ParamsOk l) :
    ∃ net s, model2json ext m = some net ∧ SeqNet.load net = some s ∧
      ∀ x out mids, SeqNet.runLayers ext ((OnnxOp.quantize S Z :: ops).map OnnxOp.layer) x = some (out, mids) →
        (∀ (i : ℕ) o t, (OnnxOp.quantize S Z :: ops)[i]? = some o →
          ((∃ s z, o = .dequantize s z) ∨ ∃ is iz os oz, o = .sigmoid is iz os oz) → (x :: mids)[i]? = some t → Codes t) →
        ∃ mids', s.infer ext x = some (out, mids') := by
  obtain ⟨first, rest, hnodes⟩ : ∃ first rest, m.nodes = first :: rest := by
    cases hn : m.nodes with
    | nil => rw [hn] at hm; cases hm
    | cons a l => exact ⟨a, l, rfl⟩
  have hfirst : first.opType = "QuantizeLinear" := by
    rw [hnodes] at hm
    cases hm with
    | cons h _ => cases h; rfl
  have hplain : ∀ n ∈ m.nodes, PlainType n.opType := by
    intro n hn
    obtain ⟨i, hi, rfl⟩ := List.mem_iff_getElem.mp hn
    have hi' : i < (OnnxOp.quantize S Z :: ops).length := by rw [← hm.length_eq]; exact hi
    exact OnnxAcc.means_plain ((List.forall₂_iff_get.mp hm).2 i hi hi')
  obtain ⟨net, s, h1, h2, h3⟩ := C48_converted_network ext m first rest _ hnodes hfirst hin hplain (OnnxAcc.mapM_means hm) hp
  refine ⟨net, s, h1, h2, fun x out mids hrun hc => h3 x out mids hrun ?_⟩
  intro i n t hn ht hu
  obtain ⟨hi, rfl⟩ := List.getElem?_eq_some_iff.mp hn
  have hi' : i < (OnnxOp.quantize S Z :: ops).length := by rw [← hm.length_eq]; exact hi
  exact hc i _ t (List.getElem?_eq_getElem hi') (OnnxAcc.means_reads ((List.forall₂_iff_get.mp hm).2 i hi hi') ht) hu

/-- C85.  For every ONNX model of quantizations, dequantizations, matrix products, additions, sigmoids and tanhs whose
nodes fit together, the converted and loaded network answers every non-empty batch of real vectors of the right length, and
every number it returns (or that a returned code stands for) differs from the result of the model in exact real
arithmetic, row by row, by at most the bound accumulated over the operators. -/
theorem C85_accuracy (ext : Ext) (ls lt : ℚ) (hls : 0 ≤ ls) (hlt : 0 ≤ lt)
    (hs : ∀ a b, |ext.sigmoid a - ext.sigmoid b| ≤ ls * |a - b|) (ht : ∀ a b, |ext.tanh a - ext.tanh b| ≤ lt * |a - b|)
    (m : OModel) (S : ℚ) (Z : ℤ) (ops : List OnnxOp) (hm : List.Forall₂ (NodeMeans m) m.nodes (.quantize S Z :: ops))
    (hin : m.inputs ≠ []) (n : ℕ) (hn : 0 < n) (hf : onnxFits (.quantize S Z :: ops) none n) :
    ∃ net s, model2json ext m = some net ∧ SeqNet.load net = some s ∧
      ∀ X : List (List ℚ), X ≠ [] → (∀ x ∈ X, x.length = n) →
        ∃ out mids, s.infer ext (.flt (.mat X)) = some (out, mids) ∧
          Near (onnxAfter ops (some (S, Z))) out X (onnxExact ext (.quantize S Z :: ops))
            (fun x => onnxBound ext ls lt (.quantize S Z :: ops) x 0) := by
  have hp : OnnxAcc.POk none := by intro s z h; cases h
  obtain ⟨net, s, h1, h2, h3⟩ := C84_network ext m S Z ops hm hin (OnnxAcc.params_ok _ none n hp hf)
  refine ⟨net, s, h1, h2, fun X hX hXn => ?_⟩
  obtain ⟨out, mids, r1, r2, r3⟩ := OnnxAcc.ops_near hls hlt hs ht hX (.quantize S Z :: ops) none n (.flt (.mat X)) id
    (fun _ => 0) hp hf hn hXn (fun _ _ => le_rfl) ⟨X, rfl, by
      rw [List.forall₂_same]
      intro x _
      rw [id, List.forall₂_same]
      intro a _
      simp⟩
  obtain ⟨mids', h4⟩ := h3 _ out mids r1 r3
  exact ⟨out, mids', h4, r2⟩

namespace OnnxAcc

theorem runLayers_snoc {ext : Ext} {l : Layer} : ∀ {ls : List Layer} {x y out : Tensor} {mids : List Tensor},
    SeqNet.runLayers ext ls x = some (y, mids) → l.infer ext y = some out →
    SeqNet.runLayers ext (ls ++ [l]) x = some (out, mids ++ [out]) := by
  intro ls
  induction ls with
  | nil =>
    intro x y out mids h hl
    simp only [SeqNet.runLayers, Option.some.injEq, Prod.mk.injEq] at h
    obtain ⟨rfl, rfl⟩ := h
    exact runLayers_of hl rfl
  | cons a ls ih =>
    intro x y out mids h hl
    simp only [SeqNet.runLayers, Option.bind_eq_bind, Option.bind_eq_some_iff, Option.some.injEq, Prod.mk.injEq] at h
    obtain ⟨z, h1, ⟨o, r⟩, h2, rfl, rfl⟩ := h
    exact runLayers_of h1 (ih h2 hl)

theorem runLayers_length {ext : Ext} : ∀ {ls : List Layer} {x out : Tensor} {mids : List Tensor},
    SeqNet.runLayers ext ls x = some (out, mids) → mids.length = ls.length := by
  intro ls
  induction ls with
  | nil =>
    intro x out mids h
    simp only [SeqNet.runLayers, Option.some.injEq, Prod.mk.injEq] at h
    rw [← h.2]; rfl
  | cons a ls ih =>
    intro x out mids h
    simp only [SeqNet.runLayers, Option.bind_eq_bind, Option.bind_eq_some_iff, Option.some.injEq, Prod.mk.injEq] at h
    obtain ⟨z, h1, ⟨o, r⟩, h2, rfl, rfl⟩ := h
    rw [List.length_cons, List.length_cons, ih h2]

/-- Sums of positive numbers, term by term within a factor. -/
theorem sum_within {f : ℚ → ℚ} {K e : ℚ} (hK : ∀ a b, |a - b| ≤ e → f a ≤ K * f b) {y x : List ℚ}
    (h : List.Forall₂ (fun a b => |a - b| ≤ e) y x) : (y.map f).sum ≤ K * (x.map f).sum := by
  induction h with
  | nil => simp
  | cons h _ ih =>
    have := hK _ _ h
    simp only [List.map_cons, List.sum_cons]
    linarith

theorem mem_le_sum {f : ℚ → ℚ} (hf : ∀ a, 0 < f a) {x : List ℚ} {a : ℚ} (h : a ∈ x) : f a ≤ (x.map f).sum := by
  induction x with
  | nil => cases h
  | cons b x ih =>
    have hx : 0 ≤ (x.map f).sum := List.sum_nonneg (by
      intro v hv
      obtain ⟨u, _, rfl⟩ := List.mem_map.mp hv
      exact (hf u).le)
    have hb := hf b
    rw [List.map_cons, List.sum_cons]
    rcases List.mem_cons.mp h with rfl | h
    · linarith
    · have := ih h; linarith

theorem softmax_row {f : ℚ → ℚ} (hf : ∀ a, 0 < f a) {K e : ℚ} (hK : ∀ a b, |a - b| ≤ e → f a ≤ K * f b) {y x : List ℚ}
    (h : List.Forall₂ (fun a b => |a - b| ≤ e) y x) :
    List.Forall₂ (fun a b => |a - b| ≤ K ^ 2 - 1) (y.map (fun v => f v / (y.map f).sum))
      (x.map (fun v => f v / (x.map f).sum)) := by
  rw [List.forall₂_map_left_iff, List.forall₂_map_right_iff]
  have hs := sum_within hK h
  have hs' := sum_within (f := f) (K := K) (e := e) hK (y := x) (x := y) (by
    exact h.flip.imp (fun a b hab => by rw [abs_sub_comm]; exact hab))
  refine forall2_imp_mem h (fun a b ha hb hab => ?_)
  have h1 := hK _ _ hab
  have h2 := hK b a (by rw [abs_sub_comm]; exact hab)
  have ha' := mem_le_sum hf ha
  have hb' := mem_le_sum hf hb
  have pa := hf a
  have pb := hf b
  have hK1 : 1 ≤ K := by
    have := hK a a (by rw [sub_self, abs_zero]; exact le_trans (abs_nonneg _) hab)
    by_contra hlt
    nlinarith
  generalize (y.map f).sum = A at *
  generalize (x.map f).sum = B at *
  generalize f a = p at *
  generalize f b = q at *
  have hA : 0 < A := by linarith
  have hB : 0 < B := by linarith
  have e1 : p / A ≤ K ^ 2 * (q / B) := by
    rw [← mul_div_assoc, div_le_div_iff₀ hA hB]
    have : p * B ≤ (K * q) * (K * A) := mul_le_mul h1 hs' hB.le (by nlinarith)
    nlinarith
  have e2 : q / B ≤ K ^ 2 * (p / A) := by
    rw [← mul_div_assoc, div_le_div_iff₀ hB hA]
    have : q * A ≤ (K * p) * (K * B) := mul_le_mul h2 hs hA.le (by nlinarith)
    nlinarith
  have e3 : p / A ≤ 1 := (div_le_one hA).mpr ha'
  have e4 : q / B ≤ 1 := (div_le_one hB).mpr hb'
  have e5 : 0 < p / A := div_pos pa hA
  have e6 : 0 < q / B := div_pos pb hB
  generalize p / A = u at *
  generalize q / B = v at *
  have hKK : 0 ≤ K ^ 2 - 1 := by nlinarith
  rw [abs_le]
  constructor <;> nlinarith

end OnnxAcc

/-- C85 (softmax).  A model as above followed by a softmax, on a single row: if numbers within the error `e` of the other
operators have exponentials within a factor `K`, every probability is within `K² − 1` of the exact one. -/
theorem C85_softmax (ext : Ext) (ls lt : ℚ) (hls : 0 ≤ ls) (hlt : 0 ≤ lt)
    (hs : ∀ a b, |ext.sigmoid a - ext.sigmoid b| ≤ ls * |a - b|) (ht : ∀ a b, |ext.tanh a - ext.tanh b| ≤ lt * |a - b|)
    (he : ∀ a, 0 < ext.exp a) (m : OModel) (S : ℚ) (Z : ℤ) (ops : List OnnxOp)
    (hm : List.Forall₂ (NodeMeans m) m.nodes (.quantize S Z :: ops ++ [.softmax])) (hin : m.inputs ≠ []) (n : ℕ)
    (hn : 0 < n) (hf : onnxFits (.quantize S Z :: ops) none n) (hr : onnxAfter ops (some (S, Z)) = none) :
    ∃ net s, model2json ext m = some net ∧ SeqNet.load net = some s ∧
      ∀ (x : List ℚ) (K : ℚ), x.length = n →
        (∀ a b, |a - b| ≤ onnxBound ext ls lt (.quantize S Z :: ops) x 0 → ext.exp a ≤ K * ext.exp b) →
        ∃ y mids, s.infer ext (.flt (.mat [x])) = some (.flt (.mat [y]), mids) ∧
          List.Forall₂ (fun a b => |a - b| ≤ K ^ 2 - 1) y (onnxExact ext (.quantize S Z :: ops ++ [.softmax]) x) := by
  have hp : OnnxAcc.POk none := by intro s z h; cases h
  have hpo := OnnxAcc.params_ok _ none n hp hf
  obtain ⟨net, s, h1, h2, h3⟩ := C84_network ext m S Z (ops ++ [OnnxOp.softmax]) hm hin (by
    intro l hl
    rw [← List.cons_append, List.map_append] at hl
    rcases List.mem_append.mp hl with hl | hl
    · exact hpo l hl
    · rw [List.map_singleton, List.mem_singleton] at hl; subst hl; trivial)
  refine ⟨net, s, h1, h2, fun x K hx hK => ?_⟩
  obtain ⟨out, mids, r1, r2, r3⟩ := OnnxAcc.ops_near hls hlt hs ht (X := [x]) (by simp) (.quantize S Z :: ops) none n
    (.flt (.mat [x])) id (fun _ => 0) hp hf hn (by simpa using hx) (fun _ _ => le_rfl) ⟨[x], rfl, by
      rw [List.forall₂_same]
      intro x _
      rw [id, List.forall₂_same]
      intro a _
      simp⟩
  have hr' : onnxAfter (OnnxOp.quantize S Z :: ops) none = none := hr
  rw [hr'] at r2
  obtain ⟨Y, rfl, hY⟩ := r2
  obtain ⟨y, rfl⟩ : ∃ y, Y = [y] := by
    have := hY.length_eq
    exact List.length_eq_one_iff.mp this
  have hy : List.Forall₂ (fun a b => |a - b| ≤ onnxBound ext ls lt (.quantize S Z :: ops) x 0) y
      (onnxExact ext (.quantize S Z :: ops) x) := by
    cases hY with
    | cons h _ => exact h
  have hinf : Layer.osoftmax.infer ext (.flt (.mat [y])) =
      some (.flt (.mat [y.map (fun v => ext.exp v / (y.map ext.exp).sum)])) := by
    simp [Layer.infer, onnxSoftmax, Tensor.toFlt, Arr.map, Arr.flat]
  have hrun := OnnxAcc.runLayers_snoc r1 hinf
  obtain ⟨mids', h4⟩ := h3 _ _ _ (by rw [← List.cons_append, List.map_append]; exact hrun) (by
    intro i o t hi ho hu
    have hlen : mids.length = (OnnxOp.quantize S Z :: ops).length := by
      have := OnnxAcc.runLayers_length r1
      rw [List.length_map] at this
      exact this
    rw [← List.cons_append] at hi
    by_cases hlt : i < (OnnxOp.quantize S Z :: ops).length
    · rw [List.getElem?_append_left hlt] at hi
      rw [← List.cons_append, List.getElem?_append_left (by simp only [List.length_cons] at hlt hlen ⊢; omega)] at hu
      exact r3 i o t hi ho hu
    · rw [List.getElem?_append_right (by omega)] at hi
      have : o = .softmax := by
        have := List.mem_of_getElem? hi
        simpa using this
      subst this
      rcases ho with ⟨_, _, h⟩ | ⟨_, _, _, _, h⟩ <;> cases h)
  refine ⟨_, mids', h4, ?_⟩
  have hex : ∀ (os : List OnnxOp) (v : List ℚ), onnxExact ext (os ++ [.softmax]) v =
      (onnxExact ext os v).map (fun w => ext.exp w / ((onnxExact ext os v).map ext.exp).sum) := by
    intro os
    induction os with
    | nil => intro v; rfl
    | cons o os ih => intro v; exact ih _
  rw [hex]
  exact OnnxAcc.softmax_row he hK hy

namespace C85Case

open C48Case (model ext)

/-- The meaning of the model of `C48Case`: matrix product, tanh, sigmoid. -/
def ops : List OnnxOp :=
  [.matmul (1 / 16) 128 2 2 [[128, 144], [112, 130]] (1 / 16) 128 (1 / 16) 128, .dequantize (1 / 16) 128, .tanh,
    .quantize (1 / 16) 128, .sigmoid (1 / 16) 128 (1 / 16) 128, .dequantize (1 / 16) 128]

theorem scale : RealConst model "s" (1 / 16) :=
  ⟨⟨"s", [1 / 16], [], [], []⟩, ⟨[], _, rfl, rfl, by decide⟩, rfl⟩

theorem zero : IntConst model "z" 128 :=
  ⟨⟨"z", [], [128], [], []⟩, ⟨[⟨"s", [1 / 16], [], [], []⟩], _, rfl, rfl, by decide⟩, rfl⟩

theorem means : List.Forall₂ (NodeMeans model) model.nodes (.quantize (1 / 16) 128 :: ops) := by
  refine .cons (.quantize _ _ _ _ _ _ scale zero (by simp)) <| .cons
    (.matmul _ _ _ _ _ _ _ _ _ _ _ _ _ _ _ _ _ _ ⟨"w", [], [], [128, 144, 112, 130], [2, 2]⟩ scale zero
      ⟨[⟨"s", [1 / 16], [], [], []⟩, ⟨"z", [], [128], [], []⟩], [], rfl, rfl, by simp⟩ rfl ⟨rfl, by decide, rfl⟩ scale zero
      scale zero (by simp)) <| .cons (.dequantize _ _ _ _ _ _ scale zero (by simp)) <| .cons
    (.tanh "c" "d" [] [] 2 2 (.inl ⟨[("b", 2)], [("d", 2)], by simp, rfl, by decide⟩)
      (.inl ⟨[("b", 2), ("c", 2)], [], by simp, rfl, by simp⟩)) <| .cons (.quantize _ _ _ _ _ _ scale zero (by simp)) <|
    .cons (.sigmoid _ _ _ _ _ _ _ _ _ _ scale zero scale zero (by simp)) <| .cons
    (.dequantize _ _ _ _ _ _ scale zero (by simp)) .nil

theorem fits : onnxFits (.quantize (1 / 16) 128 :: ops) none 2 := by
  simp [onnxFits, ops, OnnxOp.Fits, OnnxOp.after, OnnxOp.size, Code]

/-- The hypotheses of `C85_accuracy` hold; the network is within 1/4 of the real result on this batch. -/
example : ∃ net s Y mids, model2json ext model = some net ∧ SeqNet.load net = some s ∧
    s.infer ext (.flt (.mat [[1, -1], [1 / 3, 1 / 7]])) = some (.flt (.mat Y), mids) ∧
    List.Forall₂ (fun y x => List.Forall₂ (fun a b => |a - b| ≤ 1 / 4) y
      (onnxExact ext (.quantize (1 / 16) 128 :: ops) x)) Y [[1, -1], [1 / 3, 1 / 7]] := by
  have hl : ∀ a b : ℚ, |a / 2 - b / 2| ≤ 1 / 2 * |a - b| := by
    intro a b
    rw [show a / 2 - b / 2 = 1 / 2 * (a - b) by ring, abs_mul]
    norm_num
  obtain ⟨net, s, h1, h2, h3⟩ := C85_accuracy ext (1 / 2) (1 / 2) (by norm_num) (by norm_num)
    (fun a b => by have := hl a b; show |a / 2 + 1 - (b / 2 + 1)| ≤ _; rwa [add_sub_add_right_eq_sub]) hl model (1 / 16) 128
    ops means (by decide) 2 (by decide) fits
  obtain ⟨out, mids, h4, Y, rfl, h5⟩ := h3 [[1, -1], [1 / 3, 1 / 7]] (by simp) (by simp)
  refine ⟨net, s, Y, mids, h1, h2, h4, OnnxAcc.forall2_imp_mem h5 (fun y x _ hx hyx => hyx.imp (fun a b hab => le_trans hab ?_))⟩
  rcases List.mem_cons.mp hx with rfl | hx
  · decide +kernel
  · rw [List.mem_singleton] at hx; subst hx; decide +kernel

/-- The same model followed by a softmax. -/
def model' : OModel :=
  { model with
    nodes := model.nodes ++ [⟨"Softmax", ["g"], ["h"]⟩]
    valueInfo := [("b", 2), ("c", 2), ("d", 2), ("g", 2)]
    outputs := [("h", 2)] }

/-- A positive "exponential" of bounded growth. -/
def ext' : Ext := ⟨fun x => x / 2, fun x => x / 2 + 1, fun x => max (-1) (min 1 x) + 10⟩

theorem scale' : RealConst model' "s" (1 / 16) :=
  ⟨⟨"s", [1 / 16], [], [], []⟩, ⟨[], _, rfl, rfl, by decide⟩, rfl⟩

theorem zero' : IntConst model' "z" 128 :=
  ⟨⟨"z", [], [128], [], []⟩, ⟨[⟨"s", [1 / 16], [], [], []⟩], _, rfl, rfl, by decide⟩, rfl⟩

theorem means' : List.Forall₂ (NodeMeans model') model'.nodes (.quantize (1 / 16) 128 :: ops ++ [.softmax]) := by
  refine .cons (.quantize _ _ _ _ _ _ scale' zero' (by simp)) <| .cons
    (.matmul _ _ _ _ _ _ _ _ _ _ _ _ _ _ _ _ _ _ ⟨"w", [], [], [128, 144, 112, 130], [2, 2]⟩ scale' zero'
      ⟨[⟨"s", [1 / 16], [], [], []⟩, ⟨"z", [], [128], [], []⟩], [], rfl, rfl, by simp⟩ rfl ⟨rfl, by decide, rfl⟩ scale' zero'
      scale' zero' (by simp)) <| .cons (.dequantize _ _ _ _ _ _ scale' zero' (by simp)) <| .cons
    (.tanh "c" "d" [] [] 2 2 (.inl ⟨[("b", 2)], [("d", 2), ("g", 2)], by simp, rfl, by decide⟩)
      (.inl ⟨[("b", 2), ("c", 2)], [("g", 2)], by simp, rfl, by decide⟩)) <|
    .cons (.quantize _ _ _ _ _ _ scale' zero' (by simp)) <|
    .cons (.sigmoid _ _ _ _ _ _ _ _ _ _ scale' zero' scale' zero' (by simp)) <| .cons
    (.dequantize _ _ _ _ _ _ scale' zero' (by simp)) <| .cons
    (.softmax "g" "h" [] [] 2 2 (.inl ⟨[("b", 2), ("c", 2), ("d", 2)], [], by simp, rfl, by simp⟩)
      (.inr ⟨by decide, .inr ⟨⟨("x", 2), rfl, by decide⟩, rfl⟩⟩)) .nil

/-- The hypotheses of `C85_softmax` hold; the probabilities of this input are within 6 %. -/
example : ∃ net s y mids, model2json ext' model' = some net ∧ SeqNet.load net = some s ∧
    s.infer ext' (.flt (.mat [[1, -1]])) = some (.flt (.mat [y]), mids) ∧
    List.Forall₂ (fun a b => |a - b| ≤ 6 / 100) y
      (onnxExact ext' (.quantize (1 / 16) 128 :: ops ++ [.softmax]) [1, -1]) := by
  have hl : ∀ a b : ℚ, |a / 2 - b / 2| ≤ 1 / 2 * |a - b| := by
    intro a b
    rw [show a / 2 - b / 2 = 1 / 2 * (a - b) by ring, abs_mul]
    norm_num
  have hb : ∀ a : ℚ, 9 ≤ max (-1) (min 1 a) + 10 := by
    intro a
    have := le_max_left (-1) (min 1 a)
    linarith
  obtain ⟨net, s, h1, h2, h3⟩ := C85_softmax ext' (1 / 2) (1 / 2) (by norm_num) (by norm_num)
    (fun a b => by have := hl a b; show |a / 2 + 1 - (b / 2 + 1)| ≤ _; rwa [add_sub_add_right_eq_sub]) hl
    (fun a => by have := hb a; show (0 : ℚ) < max (-1) (min 1 a) + 10; linarith) model' (1 / 16) 128
    ops means' (by decide) 2 (by decide) fits rfl
  obtain ⟨y, mids, h4, h5⟩ := h3 [1, -1] (1 + 1 / 36) rfl (by
    intro a b h
    have h0 : onnxBound ext' (1 / 2) (1 / 2) (.quantize (1 / 16) 128 :: ops) [1, -1] 0 ≤ 1 / 4 := by decide +kernel
    have h1 := Accuracy.rat_clip_sub_le (-1) 1 a b
    have h2 := hb b
    have h3 := abs_le.mp (le_trans h1 (le_trans h h0))
    show max (-1) (min 1 a) + 10 ≤ (1 + 1 / 36) * (max (-1) (min 1 b) + 10)
    linarith [h3.2])
  exact ⟨net, s, y, mids, h1, h2, h4, h5.imp (fun a b h => le_trans h (by norm_num))⟩

/-- The hypotheses of `C84_tensor_sizes` and `C84_interface` hold. -/
example : ∃ op i o, buildOp ext' model' ⟨"Softmax", [⟨"Softmax", ["g"], ["h"]⟩]⟩ = some op ∧ op.opType = "Softmax" ∧
    op.inputs = [i] ∧ op.outputs = [o] ∧ (i.tensor.map (·.shape)) = some [2] ∧ (o.tensor.map (·.shape)) = some [2] :=
  C84_tensor_sizes ext' model' "Softmax" (.inr rfl) "g" "h" [] [] 2 2
    (.inl ⟨[("b", 2), ("c", 2), ("d", 2)], [], by simp, rfl, by simp⟩)
    (.inr ⟨by decide, .inr ⟨⟨("x", 2), rfl, by decide⟩, rfl⟩⟩)

example : ∃ net, model2json ext' model' = some net ∧ net.output = net.input ∧ net.input.length = 1 := by
  obtain ⟨net, s, h1, -, -⟩ := C84_network ext' model' (1 / 16) 128 (ops ++ [OnnxOp.softmax]) means' (by decide) (by
    intro l hl
    rw [← List.cons_append, List.map_append] at hl
    rcases List.mem_append.mp hl with hl | hl
    · exact OnnxAcc.params_ok _ none 2 (by intro s z h; cases h) fits l hl
    · rw [List.map_singleton, List.mem_singleton] at hl; subst hl; trivial)
  obtain ⟨-, h2, h3, -⟩ := C84_interface ext' model' net h1
  exact ⟨net, h1, h3, h2⟩

end C85Case

end Verif
