import Verif.Model.FullyConnected
import Verif.Spec.Dense
import Verif.Spec.Quant
import Verif.Lemmas.Multiplier
import Verif.Lemmas.Quant

namespace Verif
open Spec

theorem dot64_comm (xs ys : List ℤ) : dot64 xs ys = dot64 ys xs := by
  induction xs generalizing ys with
  | nil => cases ys <;> simp [dot64]
  | cons x xs ih =>
    cases ys with
    | nil => simp [dot64]
    | cons y ys => simp [dot64, ih ys, mul_comm]

theorem dotZ_cons (x y : ℤ) (xs ys) : dotZ (x :: xs) (y :: ys) = x * y + dotZ xs ys := by
  simp [dotZ]

theorem abs_dotZ_le (a b : ℤ) (ha : 0 ≤ a) (hb : 0 ≤ b) (xs ys : List ℤ)
    (hx : ∀ x ∈ xs, |x| ≤ a) (hy : ∀ y ∈ ys, |y| ≤ b) : |dotZ xs ys| ≤ xs.length * (a * b) := by
  induction xs generalizing ys with
  | nil => simp [dotZ]
  | cons x xs ih =>
    cases ys with
    | nil => simp [dotZ]; positivity
    | cons y ys =>
      rw [dotZ_cons]
      have h1 := ih ys (fun z hz => hx z (by simp [hz])) (fun z hz => hy z (by simp [hz]))
      have h2 : |x * y| ≤ a * b := by
        rw [abs_mul]
        exact mul_le_mul (hx x (by simp)) (hy y (by simp)) (abs_nonneg _) ha
      calc |x * y + dotZ xs ys| ≤ |x * y| + |dotZ xs ys| := abs_add_le _ _
        _ ≤ a * b + xs.length * (a * b) := by linarith
        _ = _ := by simp; ring

/-- Without overflow the int64 dot product is the exact one. -/
theorem dot64_exact (a b : ℤ) (ha : 0 ≤ a) (hb : 0 ≤ b) (xs ys : List ℤ)
    (hx : ∀ x ∈ xs, |x| ≤ a) (hy : ∀ y ∈ ys, |y| ≤ b) (hn : xs.length * (a * b) < 2 ^ 63) :
    dot64 xs ys = dotZ xs ys := by
  induction xs generalizing ys with
  | nil => simp [dotZ, dot64]
  | cons x xs ih =>
    cases ys with
    | nil => simp [dotZ, dot64]
    | cons y ys =>
      have hab : 0 ≤ a * b := mul_nonneg ha hb
      simp only [List.length_cons] at hn
      push_cast at hn
      have hlen : (0 : ℤ) ≤ (xs.length : ℤ) * (a * b) := by positivity
      have hle : ((xs.length : ℤ) + 1) * (a * b) = xs.length * (a * b) + a * b := by ring
      rw [hle] at hn
      have h2 : |x * y| ≤ a * b := by
        rw [abs_mul]
        exact mul_le_mul (hx x (by simp)) (hy y (by simp)) (abs_nonneg _) ha
      have h3 := abs_dotZ_le a b ha hb xs ys (fun z hz => hx z (by simp [hz])) (fun z hz => hy z (by simp [hz]))
      obtain ⟨p1, p2⟩ := abs_le.mp h2
      obtain ⟨q1, q2⟩ := abs_le.mp h3
      simp only [dot64, dotZ_cons]
      rw [ih ys (fun z hz => hx z (by simp [hz])) (fun z hz => hy z (by simp [hz])) (by omega)]
      rw [wrapS_of_mem (b := 63) (x := x * y) (by omega) (by omega)]
      exact wrapS_of_mem (b := 63) (by omega) (by omega)

theorem list_eq_map_range (l : List ℤ) : (List.range l.length).map (fun i => l.getD i 0) = l := by
  apply List.ext_getElem
  · simp
  · intro i h1 h2
    simp [List.getD_eq_getElem?_getD, List.getElem?_eq_getElem h2]

/-- `X @ W.T` computes, row by row, `W @ x`. -/
theorem matMul_transpose (W : List (List ℤ)) (m : ℕ) (hW : ∀ r ∈ W, r.length = m) (X : List (List ℤ)) :
    matMul X (transpose W m) W.length = X.map (matVec W) := by
  unfold matMul
  apply List.map_congr_left
  intro row _
  unfold matVec
  apply List.ext_getElem
  · simp
  · intro j h1 h2
    simp only [List.getElem_map, List.getElem_range]
    rw [dot64_comm]
    congr 1
    have hj : j < W.length := by simpa using h2
    unfold transpose
    rw [List.map_map]
    conv_rhs => rw [← list_eq_map_range W[j]]
    rw [hW W[j] (List.getElem_mem hj)]
    apply List.map_congr_left
    intro i _
    simp [entry, List.getD_eq_getElem?_getD, hj]

/-- Well-formed layer: a rectangular weight matrix. -/
def FC.WF (l : FC) : Prop := ∀ r ∈ l.weights, r.length = l.nIn

/-- A row passes the shape checks. -/
theorem FC.infer_vec (l : FC) (x : List ℤ) :
    l.infer (.vec x) = if x.length = l.nIn ∧ l.bias.length = l.weights.length then
      some (.vec ((FC.addBias l.bias (matVec l.weights (l.center x))).map l.finish)) else none := by
  unfold FC.infer FC.accumulator
  by_cases h : x.length = l.nIn ∧ l.bias.length = l.weights.length
  · simp only [if_pos h]
  · simp only [if_neg h]

theorem FC.infer_mat (l : FC) (hl : l.WF) (X : List (List ℤ)) :
    l.infer (.mat X) = if (∀ x ∈ X, x.length = l.nIn) ∧ l.bias.length = l.weights.length then
      some (.mat (X.map (fun x => (FC.addBias l.bias (matVec l.weights (l.center x))).map l.finish))) else none := by
  unfold FC.infer FC.accumulator
  by_cases h : (∀ x ∈ X, x.length = l.nIn) ∧ l.bias.length = l.weights.length
  · simp only [if_pos h]
    rw [matMul_transpose _ _ hl]
    simp
  · simp only [if_neg h]

end Verif
