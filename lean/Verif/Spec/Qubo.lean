import Verif.Spec.Quant
import Mathlib.Algebra.BigOperators.Group.Finset.Basic

/-!
# Specification vocabulary for rounding optimisation (no reference to the model)
-/

namespace Verif.Spec

/-- Mean squared error, over `N` samples, of the linear neuron with real weights `w` and bias `b` on the inputs `inp`
against the wanted outputs `out`. -/
def mse (N D : ℕ) (out : ℕ → ℚ) (inp : ℕ → ℕ → ℚ) (w : ℕ → ℚ) (b : ℚ) : ℚ :=
  (∑ s ∈ Finset.range N, (out s - ((∑ i ∈ Finset.range D, w i * inp s i) + b)) ^ 2) / N

/-- A 0/1 assignment. -/
def Binary (x : ℕ → ℚ) : Prop := ∀ v, x v = 0 ∨ x v = 1

/-- `x` minimises `E` among the 0/1 assignments. -/
def Minimises (E : (ℕ → ℚ) → ℚ) (x : ℕ → ℚ) : Prop := Binary x ∧ ∀ y, Binary y → E x ≤ E y

end Verif.Spec
