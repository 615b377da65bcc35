import Verif.Props.OnnxFloat
import Verif.Lemmas.RealFunctions

/-!
# C108: converted ONNX networks against the real sigmoid and tanh
-/

namespace Verif

open Spec Onnx2Json

namespace Spec

noncomputable section

/-- The nearest real number a uint8 code with parameters `(s, z)` can stand for. -/
def realSaturate8 (s : ℚ) (z : ℤ) (y : ℝ) : ℝ := max ((real z s 0 : ℚ) : ℝ) (min ((real z s 255 : ℚ) : ℝ) y)

/-- How far the numbers `ys` are outside the range of `(s, z)`, at most. -/
def realExcess (s : ℚ) (z : ℤ) (ys : List ℝ) : ℝ := (ys.map (fun y => |realSaturate8 s z y - y|)).foldr max 0

/-- What the operator means: real numbers, the sigmoid `1 / (1 + exp (-x))`, the hyperbolic tangent. -/
def OnnxOp.realExact : OnnxOp → List ℝ → List ℝ
  | .quantize _ _, x => x
  | .dequantize _ _, x => x
  | .matmul _ _ _ c W wS wZ _ _, x =>
    (List.range c).map (fun j => (List.zipWith (fun (w : ℚ) (v : ℝ) => (w : ℝ) * v) ((column W j).map (real wZ wS)) x).sum)
  | .add _ _ b bS bZ _ _, x => List.zipWith (fun (v : ℝ) (q : ℤ) => v + ((real bZ bS q : ℚ) : ℝ)) x b
  | .sigmoid _ _ _ _, x => x.map Real.sigmoid
  | .tanh, x => x.map Real.tanh
  | .softmax, x => x.map (fun v => Real.exp v / (x.map Real.exp).sum)

/-- Error of the operator's result in float64 if the error of the argument, exactly `x`, is `e`, and the library functions are
accurate up to `δ`: 1/4 is the Lipschitz constant of the sigmoid, 1 that of tanh. -/
def OnnxOp.realBound (δ : ℚ) (o : OnnxOp) (x : List ℝ) (e : ℝ) : ℝ :=
  match o with
  | .quantize S Z => e + S * (1 / 2 + 1 / 2 ^ 40) + realExcess S Z x
  | .dequantize S _ => e + S / 2 ^ 40
  | .matmul _ _ _ c W wS wZ oS oZ => gain W c wS wZ * e + oS * (1 / 2 + 1 / 2 ^ 40) + realExcess oS oZ (o.realExact x)
  | .add iS _ _ bS _ oS oZ => e + (iS + |bS|) / 2 ^ 40 + oS * (1 / 2 + 1 / 2 ^ 40) + realExcess oS oZ (o.realExact x)
  | .sigmoid iS _ oS oZ => 1 / 4 * (e + iS / 2 ^ 40) + δ + oS * (1 / 2 + 1 / 2 ^ 40) + realExcess oS oZ (o.realExact x)
  | .tanh => e + δ
  | .softmax => e

/-- All operators of the model. -/
def onnxReal : List OnnxOp → List ℝ → List ℝ
  | [], x => x
  | o :: os, x => onnxReal os (o.realExact x)

/-- The accumulated error. -/
def onnxRealBound (δ : ℚ) : List OnnxOp → List ℝ → ℝ → ℝ
  | [], _, e => e
  | o :: os, x, e => onnxRealBound δ os (o.realExact x) (o.realBound δ x e)

/-- The tensor `t`, with parameters `p`, stands for the batch of rows `f x`, one for each row `x` of `X`, up to `g x`. -/
def NearReal (p : Option (ℚ × ℤ)) (t : Tensor) (X : List (List ℚ)) (f : List ℝ → List ℝ) (g : List ℝ → ℝ) : Prop :=
  match p with
  | none => ∃ Y, t = .flt (.mat Y) ∧ List.Forall₂ (fun (y x : List ℚ) =>
      List.Forall₂ (fun (a : ℚ) (b : ℝ) => |(a : ℝ) - b| ≤ g (x.map (↑))) y (f (x.map (↑)))) Y X
  | some (s, z) => ∃ Q, t = .int (.mat Q) ∧ List.Forall₂ (fun (q : List ℤ) (x : List ℚ) =>
      List.Forall₂ (fun (a : ℤ) (b : ℝ) => Code 0 255 a ∧ |((real z s a : ℚ) : ℝ) - b| ≤ g (x.map (↑))) q (f (x.map (↑)))) Q X

/-- The library's sigmoid and tanh are those of real analysis up to `δ`. -/
def Accurate (δ : ℚ) (f : Ext) : Prop :=
  ∀ a : ℚ, |(f.sigmoid a : ℝ) - Real.sigmoid a| ≤ δ ∧ |(f.tanh a : ℝ) - Real.tanh a| ≤ δ

end

end Spec

namespace RealOnnx

/-- Entry by entry. -/
def Close (d : ℝ) (xs : List ℚ) (ys : List ℝ) : Prop := List.Forall₂ (fun (a : ℚ) (b : ℝ) => |(a : ℝ) - b| ≤ d) xs ys

theorem Close.mono {d d' : ℝ} (h : d ≤ d') {xs : List ℚ} {ys : List ℝ} (hc : Close d xs ys) : Close d' xs ys :=
  List.Forall₂.imp (fun _ _ hab => hab.trans h) hc

theorem close_cast (xs : List ℚ) : Close 0 xs (xs.map (↑)) := by
  induction xs with
  | nil => exact .nil
  | cons x xs ih => exact .cons (by simp) ih

theorem close_map {d d' : ℝ} {f : ℚ → ℚ} {g : ℝ → ℝ} (h : ∀ (a : ℚ) (b : ℝ), |(a : ℝ) - b| ≤ d → |(f a : ℝ) - g b| ≤ d')
    {xs : List ℚ} {ys : List ℝ} (hc : Close d xs ys) : Close d' (xs.map f) (ys.map g) := by
  induction hc with
  | nil => exact .nil
  | cons hab _ ih => exact .cons (h _ _ hab) ih

theorem excess_close (S : ℚ) (Z : ℤ) {d : ℝ} (hd : 0 ≤ d) {xs : List ℚ} {ys : List ℝ} (hc : Close d xs ys) :
    |(excess S Z xs : ℝ) - realExcess S Z ys| ≤ 2 * d := by
  induction hc with
  | nil => simp only [excess, realExcess, List.map_nil, List.foldr_nil, Rat.cast_zero, sub_self, abs_zero]; linarith
  | @cons a b xs ys hab _ ih =>
    have e1 : excess S Z (a :: xs) = max |saturate8 S Z a - a| (excess S Z xs) := rfl
    have e2 : realExcess S Z (b :: ys) = max |realSaturate8 S Z b - b| (realExcess S Z ys) := rfl
    rw [e1, e2, Rat.cast_max]
    refine (abs_max_sub_max_le_max _ _ _ _).trans (max_le ?_ ih)
    have e3 : ((saturate8 S Z a : ℚ) : ℝ) = realSaturate8 S Z a := by
      unfold saturate8 realSaturate8
      rw [Rat.cast_max, Rat.cast_min]
    have h1 : |realSaturate8 S Z a - realSaturate8 S Z b| ≤ |(a : ℝ) - b| := by
      unfold realSaturate8
      refine (abs_max_sub_max_le_max _ _ _ _).trans (max_le (by simp) ?_)
      exact (abs_min_sub_min_le_max _ _ _ _).trans (max_le (by simp) (le_refl _))
    rw [Rat.cast_abs, Rat.cast_sub, e3]
    refine (abs_abs_sub_abs_le_abs_sub _ _).trans ?_
    have h2 := abs_sub (realSaturate8 S Z a - realSaturate8 S Z b) ((a : ℝ) - b)
    rw [show realSaturate8 S Z a - ↑a - (realSaturate8 S Z b - b) =
      realSaturate8 S Z a - realSaturate8 S Z b - (↑a - b) by ring]
    linarith

theorem dot_close (ws : List ℚ) {d : ℝ} (hd : 0 ≤ d) {xs : List ℚ} {ys : List ℝ} (hc : Close d xs ys) :
    |(dotQ ws xs : ℝ) - (List.zipWith (fun (w : ℚ) (v : ℝ) => (w : ℝ) * v) ws ys).sum| ≤ ((ws.map (fun w => |w|)).sum : ℚ) * d := by
  induction ws generalizing xs ys with
  | nil => simp [dotQ]
  | cons w ws ih =>
    have hpos : (0 : ℝ) ≤ ((ws.map (fun w => |w|)).sum : ℚ) := by
      exact_mod_cast List.sum_nonneg (fun x hx => by obtain ⟨w, -, rfl⟩ := List.mem_map.mp hx; exact abs_nonneg w)
    cases hc with
    | nil =>
      simp only [dotQ, List.zipWith_nil_right, List.sum_nil, Rat.cast_zero, sub_zero, abs_zero, List.map_cons, List.sum_cons]
      push_cast
      have := abs_nonneg (w : ℝ)
      push_cast at hpos
      positivity
    | @cons a b xs ys hab hc =>
      have h := ih hc
      have e1 : dotQ (w :: ws) (a :: xs) = w * a + dotQ ws xs := by simp [dotQ]
      rw [e1]
      simp only [List.zipWith_cons_cons, List.sum_cons, List.map_cons]
      push_cast
      push_cast at h
      rw [show (w : ℝ) * a + (dotQ ws xs : ℝ) - (w * b + (List.zipWith (fun (w : ℚ) (v : ℝ) => (w : ℝ) * v) ws ys).sum) =
        w * (a - b) + ((dotQ ws xs : ℝ) - (List.zipWith (fun (w : ℚ) (v : ℝ) => (w : ℝ) * v) ws ys).sum) by ring]
      refine (abs_add_le _ _).trans ?_
      rw [abs_mul, add_mul]
      exact add_le_add (mul_le_mul_of_nonneg_left hab (abs_nonneg _)) h

theorem gain_nonneg (W : List (List ℤ)) (c : ℕ) (wS : ℚ) (wZ : ℤ) : 0 ≤ gain W c wS wZ := by
  unfold gain
  induction (List.range c).map (fun j => ((column W j).map (fun w => |real wZ wS w|)).sum) with
  | nil => simp
  | cons a l ih => exact le_trans ih (le_max_right _ _)

/-- What one operator does to small differences. -/
theorem step (o : OnnxOp) (ho : o ≠ .softmax) :
    ∃ C : ℝ, 0 ≤ C ∧ ∀ (ideal : Ext) (η δ : ℚ) (d : ℝ), 0 ≤ η → 0 ≤ d → Accurate η ideal →
      ∀ (x : List ℚ) (y : List ℝ) (e : ℚ) (e' : ℝ), Close d x y → |(e : ℝ) - e'| ≤ d →
        Close (C * (d + η)) (o.exact ideal x) (o.realExact y) ∧
          |(o.bound64 ideal (1 / 4) 1 (δ + η) x e : ℝ) - o.realBound δ y e'| ≤ C * (d + η) := by
  cases o with
  | quantize S Z =>
    refine ⟨3, by norm_num, fun ideal η δ d hη hd hi x y e e' hx he => ?_⟩
    have hη' : (0 : ℝ) ≤ η := by exact_mod_cast hη
    have hc : Close (3 * (d + η)) x y := hx.mono (by linarith)
    refine ⟨hc, ?_⟩
    have h1 := excess_close S Z hd hx
    show |((e + S * (1 / 2 + 1 / 2 ^ 40) + excess S Z x : ℚ) : ℝ) - (e' + S * (1 / 2 + 1 / 2 ^ 40) + realExcess S Z y)| ≤ _
    push_cast
    rw [show (e : ℝ) + S * (1 / 2 + 1 / 2 ^ 40) + excess S Z x - (e' + S * (1 / 2 + 1 / 2 ^ 40) + realExcess S Z y) =
      (e - e') + (excess S Z x - realExcess S Z y) by ring]
    refine (abs_add_le _ _).trans ?_
    linarith
  | dequantize S Z =>
    refine ⟨1, by norm_num, fun ideal η δ d hη hd hi x y e e' hx he => ?_⟩
    have hη' : (0 : ℝ) ≤ η := by exact_mod_cast hη
    refine ⟨hx.mono (by linarith), ?_⟩
    show |((e + S / 2 ^ 40 : ℚ) : ℝ) - (e' + S / 2 ^ 40)| ≤ _
    push_cast
    rw [show (e : ℝ) + S / 2 ^ 40 - (e' + S / 2 ^ 40) = e - e' by ring]
    linarith
  | matmul iS iZ r c W wS wZ oS oZ =>
    have hg : (0 : ℝ) ≤ gain W c wS wZ := by exact_mod_cast gain_nonneg W c wS wZ
    refine ⟨3 * gain W c wS wZ, by positivity, fun ideal η δ d hη hd hi x y e e' hx he => ?_⟩
    have hη' : (0 : ℝ) ≤ η := by exact_mod_cast hη
    have hc : Close (gain W c wS wZ * d) (OnnxOp.exact ideal (.matmul iS iZ r c W wS wZ oS oZ) x)
        (OnnxOp.realExact (.matmul iS iZ r c W wS wZ oS oZ) y) := by
      show List.Forall₂ _ (List.map _ _) (List.map _ _)
      rw [List.forall₂_map_left_iff, List.forall₂_map_right_iff, List.forall₂_same]
      intro j hj
      refine (dot_close _ hd hx).trans ?_
      refine mul_le_mul_of_nonneg_right ?_ hd
      rw [List.map_map]
      exact_mod_cast OnnxAcc.le_foldr_max _ _ (List.mem_map.mpr ⟨j, hj, rfl⟩)
    have hgd : (0 : ℝ) ≤ gain W c wS wZ * d := by positivity
    have hgη : (0 : ℝ) ≤ gain W c wS wZ * η := by positivity
    refine ⟨hc.mono (by nlinarith), ?_⟩
    have h1 := excess_close oS oZ hgd hc
    show |((gain W c wS wZ * e + oS * (1 / 2 + 1 / 2 ^ 40) +
      excess oS oZ (OnnxOp.exact ideal (.matmul iS iZ r c W wS wZ oS oZ) x) : ℚ) : ℝ) - (gain W c wS wZ * e' +
        oS * (1 / 2 + 1 / 2 ^ 40) + realExcess oS oZ (OnnxOp.realExact (.matmul iS iZ r c W wS wZ oS oZ) y))| ≤ _
    generalize excess oS oZ (OnnxOp.exact ideal (.matmul iS iZ r c W wS wZ oS oZ) x) = u at *
    generalize realExcess oS oZ (OnnxOp.realExact (.matmul iS iZ r c W wS wZ oS oZ) y) = v at *
    push_cast
    rw [show (gain W c wS wZ : ℝ) * e + oS * (1 / 2 + 1 / 2 ^ 40) + u - (gain W c wS wZ * e' + oS * (1 / 2 + 1 / 2 ^ 40) + v) =
      gain W c wS wZ * (e - e') + (u - v) by ring]
    refine (abs_add_le _ _).trans ?_
    rw [abs_mul, abs_of_nonneg hg]
    have := mul_le_mul_of_nonneg_left he hg
    nlinarith
  | add iS iZ b bS bZ oS oZ =>
    refine ⟨3, by norm_num, fun ideal η δ d hη hd hi x y e e' hx he => ?_⟩
    have hη' : (0 : ℝ) ≤ η := by exact_mod_cast hη
    have hc : Close d (OnnxOp.exact ideal (.add iS iZ b bS bZ oS oZ) x) (OnnxOp.realExact (.add iS iZ b bS bZ oS oZ) y) := by
      show Close d (List.zipWith _ _ _) (List.zipWith _ _ _)
      clear ho he
      induction hx generalizing b with
      | nil => exact .nil
      | @cons a a' xs ys hab _ ih =>
        cases b with
        | nil => exact .nil
        | cons q b =>
          refine .cons ?_ (ih b)
          push_cast
          rw [show (a : ℝ) + (real bZ bS q : ℝ) - (a' + (real bZ bS q : ℝ)) = a - a' by ring]
          exact hab
    refine ⟨hc.mono (by linarith), ?_⟩
    have h1 := excess_close oS oZ hd hc
    show |((e + (iS + |bS|) / 2 ^ 40 + oS * (1 / 2 + 1 / 2 ^ 40) +
      excess oS oZ (OnnxOp.exact ideal (.add iS iZ b bS bZ oS oZ) x) : ℚ) : ℝ) - (e' + (iS + ((|bS| : ℚ) : ℝ)) / 2 ^ 40 +
        oS * (1 / 2 + 1 / 2 ^ 40) + realExcess oS oZ (OnnxOp.realExact (.add iS iZ b bS bZ oS oZ) y))| ≤ _
    generalize excess oS oZ (OnnxOp.exact ideal (.add iS iZ b bS bZ oS oZ) x) = u at *
    generalize realExcess oS oZ (OnnxOp.realExact (.add iS iZ b bS bZ oS oZ) y) = v at *
    generalize |bS| = B at *
    push_cast
    rw [show (e : ℝ) + (iS + B) / 2 ^ 40 + oS * (1 / 2 + 1 / 2 ^ 40) + u - (e' + (iS + B) / 2 ^ 40 +
      oS * (1 / 2 + 1 / 2 ^ 40) + v) = (e - e') + (u - v) by ring]
    refine (abs_add_le _ _).trans ?_
    linarith
  | sigmoid iS iZ oS oZ =>
    refine ⟨5, by norm_num, fun ideal η δ d hη hd hi x y e e' hx he => ?_⟩
    have hη' : (0 : ℝ) ≤ η := by exact_mod_cast hη
    have hc : Close (d + η) (OnnxOp.exact ideal (.sigmoid iS iZ oS oZ) x) (OnnxOp.realExact (.sigmoid iS iZ oS oZ) y) := by
      refine close_map (fun a b hab => ?_) hx
      have h1 := (hi a).1
      have h2 := RealFn.sigmoid_lip a b
      have h3 := abs_sub_le (ideal.sigmoid a : ℝ) (Real.sigmoid a) (Real.sigmoid b)
      linarith
    refine ⟨hc.mono (by linarith), ?_⟩
    have h1 := excess_close oS oZ (by linarith) hc
    show |((1 / 4 * (e + iS / 2 ^ 40) + (δ + η) + oS * (1 / 2 + 1 / 2 ^ 40) +
      excess oS oZ (OnnxOp.exact ideal (.sigmoid iS iZ oS oZ) x) : ℚ) : ℝ) - (1 / 4 * (e' + iS / 2 ^ 40) + δ +
        oS * (1 / 2 + 1 / 2 ^ 40) + realExcess oS oZ (OnnxOp.realExact (.sigmoid iS iZ oS oZ) y))| ≤ _
    generalize excess oS oZ (OnnxOp.exact ideal (.sigmoid iS iZ oS oZ) x) = u at *
    generalize realExcess oS oZ (OnnxOp.realExact (.sigmoid iS iZ oS oZ) y) = v at *
    push_cast
    rw [show (1 / 4 : ℝ) * (e + iS / 2 ^ 40) + (δ + η) + oS * (1 / 2 + 1 / 2 ^ 40) + u - (1 / 4 * (e' + iS / 2 ^ 40) + δ +
      oS * (1 / 2 + 1 / 2 ^ 40) + v) = 1 / 4 * (e - e') + η + (u - v) by ring]
    refine (abs_add_three _ _ _).trans ?_
    rw [abs_mul, abs_of_nonneg hη', abs_of_pos (by norm_num : (0 : ℝ) < 1 / 4)]
    linarith
  | tanh =>
    refine ⟨2, by norm_num, fun ideal η δ d hη hd hi x y e e' hx he => ?_⟩
    have hη' : (0 : ℝ) ≤ η := by exact_mod_cast hη
    constructor
    · refine close_map (fun a b hab => ?_) hx
      have h1 := (hi a).2
      have h2 := RealFn.tanh_lip a b
      have h3 := abs_sub_le (ideal.tanh a : ℝ) (Real.tanh a) (Real.tanh b)
      linarith
    · show |((1 * e + (δ + η) : ℚ) : ℝ) - (e' + δ)| ≤ _
      push_cast
      rw [show (1 : ℝ) * e + (δ + η) - (e' + δ) = (e - e') + η by ring]
      refine (abs_add_le _ _).trans ?_
      rw [abs_of_nonneg hη']
      linarith
  | softmax => exact absurd rfl ho

theorem steps (ops : List OnnxOp) (ho : ∀ o ∈ ops, o ≠ .softmax) :
    ∃ C : ℝ, 0 ≤ C ∧ ∀ (ideal : Ext) (η δ : ℚ) (d : ℝ), 0 ≤ η → 0 ≤ d → Accurate η ideal →
      ∀ (x : List ℚ) (y : List ℝ) (e : ℚ) (e' : ℝ), Close d x y → |(e : ℝ) - e'| ≤ d →
        Close (C * (d + η)) (onnxExact ideal ops x) (onnxReal ops y) ∧
          |(onnxBound64 ideal (1 / 4) 1 (δ + η) ops x e : ℝ) - onnxRealBound δ ops y e'| ≤ C * (d + η) := by
  induction ops with
  | nil =>
    refine ⟨1, by norm_num, fun ideal η δ d hη hd hi x y e e' hx he => ?_⟩
    have hη' : (0 : ℝ) ≤ η := by exact_mod_cast hη
    exact ⟨hx.mono (by linarith), he.trans (by linarith)⟩
  | cons o os ih =>
    obtain ⟨C1, hC1, h1⟩ := step o (ho o List.mem_cons_self)
    obtain ⟨C2, hC2, h2⟩ := ih (fun o' ho' => ho o' (List.mem_cons_of_mem _ ho'))
    refine ⟨C2 * (C1 + 1), by positivity, fun ideal η δ d hη hd hi x y e e' hx he => ?_⟩
    have hη' : (0 : ℝ) ≤ η := by exact_mod_cast hη
    obtain ⟨a1, a2⟩ := h1 ideal η δ d hη hd hi x y e e' hx he
    obtain ⟨b1, b2⟩ := h2 ideal η δ (C1 * (d + η)) hη (by positivity) hi _ _ _ _ a1 a2
    have hle : C2 * (C1 * (d + η) + η) ≤ C2 * (C1 + 1) * (d + η) := by
      rw [mul_assoc]
      refine mul_le_mul_of_nonneg_left ?_ hC2
      linarith
    exact ⟨b1.mono hle, b2.trans hle⟩

theorem no_softmax (ops : List OnnxOp) (p : Option (ℚ × ℤ)) (n : ℕ) (h : onnxFits ops p n) : ∀ o ∈ ops, o ≠ .softmax := by
  induction ops generalizing p n with
  | nil => intro o ho; cases ho
  | cons o os ih =>
    intro o' ho'
    rcases List.mem_cons.mp ho' with rfl | ho'
    · rintro rfl; exact h.1
    · exact ih _ _ h.2 o' ho'

/-- Rational-valued functions as close to the real ones as one likes, with the Lipschitz constants of the real ones. -/
theorem exists_ideal (η : ℚ) (hη : 0 < η) :
    ∃ ideal : Ext, Accurate η ideal ∧ (∀ a b, |ideal.sigmoid a - ideal.sigmoid b| ≤ 1 / 4 * |a - b|) ∧
      ∀ a b, |ideal.tanh a - ideal.tanh b| ≤ 1 * |a - b| := by
  obtain ⟨g, g1, g2⟩ := RealFn.exists_rat Real.sigmoid (1 / 4) (by norm_num)
    (fun x y => by have := RealFn.sigmoid_lip x y; push_cast; exact this) RealFn.abs_sigmoid_le η hη
  obtain ⟨t, t1, t2⟩ := RealFn.exists_rat Real.tanh 1 (by norm_num)
    (fun x y => by have := RealFn.tanh_lip x y; push_cast; linarith) RealFn.abs_tanh_le η hη
  exact ⟨⟨t, g, fun a => a⟩, fun a => ⟨g2 a, t2 a⟩, g1, t1⟩

theorem approximates {δ η : ℚ} {f ideal : Ext} (hf : Accurate δ f) (hi : Accurate η ideal) :
    Approximates (δ + η) f ideal := by
  intro a
  obtain ⟨f1, f2⟩ := hf a
  obtain ⟨i1, i2⟩ := hi a
  constructor
  · have h := abs_sub_le (f.sigmoid a : ℝ) (Real.sigmoid a) (ideal.sigmoid a)
    rw [abs_sub_comm (Real.sigmoid a)] at h
    have : |(f.sigmoid a : ℝ) - ideal.sigmoid a| ≤ ((δ + η : ℚ) : ℝ) := by push_cast; linarith
    exact_mod_cast this
  · have h := abs_sub_le (f.tanh a : ℝ) (Real.tanh a) (ideal.tanh a)
    rw [abs_sub_comm (Real.tanh a)] at h
    have : |(f.tanh a : ℝ) - ideal.tanh a| ≤ ((δ + η : ℚ) : ℝ) := by push_cast; linarith
    exact_mod_cast this

/-- What holds up to any small number holds. -/
theorem limit {a B C : ℝ} (hC : 0 ≤ C) (h : ∀ η : ℚ, 0 < η → a ≤ B + C * η) : a ≤ B := by
  by_contra hlt
  rw [not_le] at hlt
  obtain ⟨q, q0, q1⟩ := exists_rat_btwn (show (0 : ℝ) < (a - B) / (C + 1) from div_pos (by linarith) (by linarith))
  have hq : (0 : ℚ) < q := by exact_mod_cast q0
  have := h q hq
  rw [lt_div_iff₀ (by linarith)] at q1
  nlinarith

theorem row_limit {α : Type} (P : α → Prop) (v : α → ℚ) (row : List α) (R : List ℝ) (B C : ℝ) (hC : 0 ≤ C)
    (h : ∀ η : ℚ, 0 < η → ∃ (t : List ℚ) (E : ℚ), List.Forall₂ (fun a b => P a ∧ |v a - b| ≤ E) row t ∧ Close (C * η) t R ∧
      |(E : ℝ) - B| ≤ C * η) : List.Forall₂ (fun a b => P a ∧ |(v a : ℝ) - b| ≤ B) row R := by
  obtain ⟨t1, E1, h1, h2, -⟩ := h 1 one_pos
  refine List.forall₂_iff_get.mpr ⟨h1.length_eq.trans h2.length_eq, fun i hi hi' => ⟨?_, ?_⟩⟩
  · exact ((List.forall₂_iff_get.mp h1).2 i hi (by rw [← h1.length_eq]; exact hi)).1
  · refine limit (C := 2 * C) (by positivity) (fun η hη => ?_)
    obtain ⟨t, E, g1, g2, g3⟩ := h η hη
    have hit : i < t.length := by rw [← g1.length_eq]; exact hi
    have k1 := ((List.forall₂_iff_get.mp g1).2 i hi hit).2
    have k2 := (List.forall₂_iff_get.mp g2).2 i hit hi'
    have k1' : |(v (row.get ⟨i, hi⟩) : ℝ) - t.get ⟨i, hit⟩| ≤ E := by exact_mod_cast k1
    have k3 := abs_sub_le (v (row.get ⟨i, hi⟩) : ℝ) (t.get ⟨i, hit⟩) (R.get ⟨i, hi'⟩)
    obtain ⟨-, k4⟩ := abs_le.mp g3
    linarith

end RealOnnx

open RealOnnx in
/-- **C108**: converted ONNX networks in float64 against the model with the sigmoid and tanh of real analysis. -/
theorem C108_onnx (ext cext : Ext) (δ : ℚ) (he : Accurate δ ext) (hce : Accurate δ cext)
    (m : OModel) (S : ℚ) (Z : ℤ) (ops : List OnnxOp) (hm : List.Forall₂ (NodeMeans m) m.nodes (.quantize S Z :: ops))
    (hin : m.inputs ≠ []) (n : ℕ) (hn : 0 < n) (hf : onnxFits (.quantize S Z :: ops) none n)
    (hN : NormalScales (.quantize S Z :: ops)) :
    ∃ net s, model2json cext m Fmt.f64.uint8Table = some net ∧ Fmt.f64.load net = some s ∧
      ∀ X : List (List ℚ), X ≠ [] → (∀ x ∈ X, x.length = n) →
        ∃ out mids, Fmt.f64.infer ext s (.flt (.mat X)) = some (out, mids) ∧
          NearReal (onnxAfter ops (some (S, Z))) out X (onnxReal (.quantize S Z :: ops))
            (fun x => onnxRealBound δ (.quantize S Z :: ops) x 0) := by
  have main : ∀ η : ℚ, 0 < η → ∃ ideal : Ext, Accurate η ideal ∧ ∃ net s, model2json cext m Fmt.f64.uint8Table = some net ∧
      Fmt.f64.load net = some s ∧ ∀ X : List (List ℚ), X ≠ [] → (∀ x ∈ X, x.length = n) →
        ∃ out mids, Fmt.f64.infer ext s (.flt (.mat X)) = some (out, mids) ∧
          Near (onnxAfter ops (some (S, Z))) out X (onnxExact ideal (.quantize S Z :: ops))
            (fun x => onnxBound64 ideal (1 / 4) 1 (δ + η) (.quantize S Z :: ops) x 0) := by
    intro η hη
    obtain ⟨ideal, h1, h2, h3⟩ := exists_ideal η hη
    exact ⟨ideal, h1, C98_accuracy ext cext ideal (1 / 4) 1 (δ + η) (by norm_num) (by norm_num) h2 h3 (approximates he h1)
      (approximates hce h1) m S Z ops hm hin n hn hf hN⟩
  obtain ⟨C, hC, hsteps⟩ := steps _ (no_softmax _ _ _ hf)
  obtain ⟨-, -, net, s, hnet, hs, -⟩ := main 1 one_pos
  refine ⟨net, s, hnet, hs, fun X hX hX' => ?_⟩
  have near : ∀ η : ℚ, 0 < η → ∃ ideal : Ext, Accurate η ideal ∧ ∃ out mids,
      Fmt.f64.infer ext s (.flt (.mat X)) = some (out, mids) ∧
        Near (onnxAfter ops (some (S, Z))) out X (onnxExact ideal (.quantize S Z :: ops))
          (fun x => onnxBound64 ideal (1 / 4) 1 (δ + η) (.quantize S Z :: ops) x 0) := by
    intro η hη
    obtain ⟨ideal, hi, net', s', hnet', hs', h⟩ := main η hη
    rw [hnet, Option.some.injEq] at hnet'
    subst hnet'
    rw [hs, Option.some.injEq] at hs'
    subst hs'
    exact ⟨ideal, hi, h X hX hX'⟩
  obtain ⟨i1, -, out, mids, hout, hnear⟩ := near 1 one_pos
  refine ⟨out, mids, hout, ?_⟩
  have near' : ∀ η : ℚ, 0 < η → ∃ ideal : Ext, Accurate η ideal ∧
      Near (onnxAfter ops (some (S, Z))) out X (onnxExact ideal (.quantize S Z :: ops))
          (fun x => onnxBound64 ideal (1 / 4) 1 (δ + η) (.quantize S Z :: ops) x 0) := by
    intro η hη
    obtain ⟨ideal, hi, out', mids', hout', h⟩ := near η hη
    rw [hout, Option.some.injEq, Prod.mk.injEq] at hout'
    rw [hout'.1]
    exact ⟨ideal, hi, h⟩
  have cl : ∀ (η : ℚ) (ideal : Ext) (x : List ℚ), 0 < η → Accurate η ideal →
      Close (C * η) (onnxExact ideal (.quantize S Z :: ops) x) (onnxReal (.quantize S Z :: ops) (x.map (↑))) ∧
      |(onnxBound64 ideal (1 / 4) 1 (δ + η) (.quantize S Z :: ops) x 0 : ℝ) -
        onnxRealBound δ (.quantize S Z :: ops) (x.map (↑)) 0| ≤ C * η := by
    intro η ideal x hη hi
    have := hsteps ideal η δ 0 hη.le (le_refl _) hi x (x.map (↑)) 0 0 (close_cast x) (by simp)
    rw [zero_add] at this
    exact this
  generalize onnxAfter ops (some (S, Z)) = p at *
  cases p with
  | none =>
    obtain ⟨Y, rfl, hY⟩ := hnear
    refine ⟨Y, rfl, List.forall₂_iff_get.mpr ⟨hY.length_eq, fun i hi hi' => ?_⟩⟩
    refine (row_limit (fun _ => True) id _ _ _ C hC (fun η hη => ?_)).imp (fun _ _ h => h.2)
    obtain ⟨ideal, hid, Y', hYe, hY'⟩ := near' η hη
    simp only [Tensor.flt.injEq, Arr.mat.injEq] at hYe
    subst hYe
    obtain ⟨c1, c2⟩ := cl η ideal (X.get ⟨i, hi'⟩) hη hid
    exact ⟨_, _, ((List.forall₂_iff_get.mp hY').2 i hi hi').imp (fun _ _ h => ⟨trivial, h⟩), c1, c2⟩
  | some q =>
    obtain ⟨a, b⟩ := q
    obtain ⟨Y, rfl, hY⟩ := hnear
    refine ⟨Y, rfl, List.forall₂_iff_get.mpr ⟨hY.length_eq, fun i hi hi' => ?_⟩⟩
    refine row_limit (Code 0 255) (real b a) _ _ _ C hC (fun η hη => ?_)
    obtain ⟨ideal, hid, Y', hYe, hY'⟩ := near' η hη
    simp only [Tensor.int.injEq, Arr.mat.injEq] at hYe
    subst hYe
    obtain ⟨c1, c2⟩ := cl η ideal (X.get ⟨i, hi'⟩) hη hid
    exact ⟨_, _, (List.forall₂_iff_get.mp hY').2 i hi hi', c1, c2⟩

/-! ## A concrete model -/

namespace C108OnnxCase
open C48Case (model)
open C85Case (ops means fits)

/-- Nothing saturates in the model of `C48Case` while the numbers stay between -8 and 7. -/
theorem no_excess (ys : List ℝ) (h : ∀ y ∈ ys, |y| ≤ 7) : realExcess (1 / 16) 128 ys = 0 := by
  induction ys with
  | nil => rfl
  | cons y ys ih =>
    have e1 : real 128 (1 / 16) 0 = -8 := by decide +kernel
    have e2 : real 128 (1 / 16) 255 = 127 / 16 := by decide +kernel
    have hy := abs_le.mp (h y List.mem_cons_self)
    have e3 : realSaturate8 (1 / 16) 128 y = y := by
      unfold realSaturate8
      rw [e1, e2]
      push_cast
      rw [min_eq_right (by linarith), max_eq_right (by linarith)]
    show max |realSaturate8 (1 / 16) 128 y - y| (realExcess (1 / 16) 128 ys) = 0
    rw [ih (fun y hy => h y (List.mem_cons_of_mem _ hy)), e3, sub_self, abs_zero, max_self]

/-- Weights `[[0, 1], [-1, 1/8]]`, then tanh, then sigmoid. With any library accurate up to 2⁻⁵⁰, and there are such, the converted
network answers `[1, -1]` in float64 with two numbers within 1/16 of the sigmoids of `tanh 1` and `tanh (7/8)`. -/
example : (∃ lib, Accurate (1 / 2 ^ 50) lib) ∧ ∀ lib, Accurate (1 / 2 ^ 50) lib → ∃ net s a b mids,
    model2json lib model Fmt.f64.uint8Table = some net ∧ Fmt.f64.load net = some s ∧
    Fmt.f64.infer lib s (.flt (.mat [[1, -1]])) = some (.flt (.mat [[a, b]]), mids) ∧
    |(a : ℝ) - Real.sigmoid (Real.tanh 1)| ≤ 1 / 16 ∧ |(b : ℝ) - Real.sigmoid (Real.tanh (7 / 8))| ≤ 1 / 16 := by
  refine ⟨(RealOnnx.exists_ideal (1 / 2 ^ 50) (by norm_num)).imp (fun _ h => h.1), fun lib hlib => ?_⟩
  obtain ⟨net, s, h1, h2, h3⟩ := C108_onnx lib lib (1 / 2 ^ 50) hlib hlib model (1 / 16) 128 ops means (by decide) 2 (by decide) fits
    C98Case.normal
  obtain ⟨out, mids, h4, Y, rfl, h5⟩ := h3 [[1, -1]] (by simp) (by simp)
  cases h5 with
  | cons h6 h7 =>
  cases h7
  have hmat : (OnnxOp.matmul (1 / 16) 128 2 2 [[128, 144], [112, 130]] (1 / 16) 128 (1 / 16) 128).realExact [1, -1] = [1, 7 / 8] := by
    have e : real 128 16⁻¹ 128 = 0 ∧ real 128 16⁻¹ 144 = 1 ∧ real 128 16⁻¹ 112 = -1 ∧ real 128 16⁻¹ 130 = 1 / 8 := by
      decide +kernel
    simp [OnnxOp.realExact, column, List.range_succ]
    rw [e.1, e.2.1, e.2.2.1, e.2.2.2]
    norm_num
  have hexact : onnxReal (.quantize (1 / 16) 128 :: ops) [1, -1] =
      [Real.sigmoid (Real.tanh 1), Real.sigmoid (Real.tanh (7 / 8))] := by
    simp only [onnxReal, ops]
    rw [show (OnnxOp.quantize (1 / 16) 128).realExact [1, -1] = [1, -1] from rfl, hmat]
    simp only [OnnxOp.realExact, List.map_cons, List.map_nil]
  have hbound : onnxRealBound (1 / 2 ^ 50) (.quantize (1 / 16) 128 :: ops) [1, -1] 0 ≤ 1 / 16 := by
    have t : ∀ x : ℝ, |Real.tanh x| ≤ 7 := fun x => (abs_le.mpr ⟨by linarith [Real.neg_one_lt_tanh x], (Real.tanh_lt_one x).le⟩).trans
      (by norm_num)
    have s' : ∀ x : ℝ, |Real.sigmoid x| ≤ 7 := fun x => by
      rw [abs_of_pos (Real.sigmoid_pos x)]; linarith [Real.sigmoid_lt_one x]
    have hg : gain [[128, 144], [112, 130]] 2 (1 / 16) 128 = 9 / 8 := by decide +kernel
    simp only [onnxRealBound, ops]
    rw [show (OnnxOp.quantize (1 / 16) 128).realExact [1, -1] = [1, -1] from rfl, hmat]
    simp only [OnnxOp.realBound]
    rw [hmat, hg]
    simp only [OnnxOp.realExact, List.map_cons, List.map_nil]
    rw [no_excess [1, -1] (by simp), no_excess [1, 7 / 8] (by simp; norm_num [abs_le]), no_excess _ (by simp [t]),
      no_excess _ (by simp [s'])]
    push_cast
    norm_num
  have hx : (([1, -1] : List ℚ).map (fun q : ℚ => (q : ℝ))) = [1, -1] := by simp
  rw [hx, hexact] at h6
  cases h6 with
  | cons ha h6 =>
  cases h6 with
  | cons hb h6 =>
  cases h6
  exact ⟨net, s, _, _, mids, h1, h2, h4, ha.trans hbound, hb.trans hbound⟩

end C108OnnxCase

end Verif
