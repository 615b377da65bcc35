import Mathlib.Data.Rat.Floor
import Mathlib.Algebra.BigOperators.Group.List.Basic

/-! # Specification of a dense layer over exact integers and over the reals -/

namespace Verif.Spec

/-- Inner product over ℤ. -/
def dotZ (xs ys : List ℤ) : ℤ := (List.zipWith (· * ·) xs ys).sum

/-- Inner product over ℚ. -/
def dotQ (xs ys : List ℚ) : ℚ := (List.zipWith (· * ·) xs ys).sum

/-- Exact integer pre-activations of a quantized dense layer: for each neuron
`Σ_k w[k] * (x[k] - xzp) + b`. -/
def denseZ (W : List (List ℤ)) (b : List ℤ) (xzp : ℤ) (x : List ℤ) : List ℤ :=
  List.zipWith (fun row b => dotZ row (x.map (· - xzp)) + b) W b

/-- Real dense layer (no activation). -/
def denseQ (W : List (List ℚ)) (b : List ℚ) (x : List ℚ) : List ℚ :=
  List.zipWith (fun row b => dotQ row x + b) W b

end Verif.Spec
