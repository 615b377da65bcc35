import Mathlib.Data.Int.Notation

/-! # Specification of dtype names and integer ranges (independent of the model) -/

namespace Verif.Spec

/-- ASCII lower case. -/
def lowerText (s : String) : List Char := s.toList.map Char.toLower

/-- `s`, ignoring case, is the type word `ty` followed by the usual decimal notation of `n`. -/
def NamesType (s ty : String) (n : Nat) : Prop := lowerText s = ty.toList ++ (Nat.repr n).toList

/-- `v` is representable with `n` bits, signed (two's complement) or unsigned. -/
def Representable (signed : Bool) (n : Nat) (v : Int) : Prop :=
  if signed then -(2 ^ (n - 1)) ≤ v ∧ v ≤ 2 ^ (n - 1) - 1 else 0 ≤ v ∧ v ≤ 2 ^ n - 1

/-- All elements are representable. -/
def AllRepresentable (signed : Bool) (n : Nat) (vs : List Int) : Prop :=
  ∀ v ∈ vs, Representable signed n v

/-- Element-wise exact result of an operation on two arrays of the same length. -/
def Elementwise (op : Int → Int → Int) (xs ys zs : List Int) : Prop :=
  zs.length = xs.length ∧
    ∀ (i : Nat) (x y : Int), xs[i]? = some x → ys[i]? = some y → zs[i]? = some (op x y)

end Verif.Spec
