import Mathlib.Data.Rat.Floor

/-!
# Specification vocabulary for binary floating point

Written without reference to the model: which numbers are floating point numbers, and what correct rounding is.
-/

namespace Verif.Spec

/-- `x` is a floating point number with at most `p` significant bits, a multiple of `2^emin`.  (IEEE binary64:
`p = 53`, `emin = -1074`; there is no largest number here.) -/
def IsFloat (p : ℕ) (emin : ℤ) (x : ℚ) : Prop := ∃ m e : ℤ, |m| ≤ 2 ^ p ∧ emin ≤ e ∧ x = m * 2 ^ e

/-- `y` is a correct rounding of the real result `x`: a floating point number, and no other one is closer. -/
def RoundsTo (p : ℕ) (emin : ℤ) (x y : ℚ) : Prop :=
  IsFloat p emin y ∧ ∀ z, IsFloat p emin z → |y - x| ≤ |z - x|

/-- `t` is within `e` of a tie, i.e. of a number exactly half way between two integers. -/
def NearTie (e t : ℚ) : Prop := ∃ k : ℤ, |t - (k + 1 / 2)| ≤ e

/-- `t` is within `e` of an integer. -/
def NearInt (e t : ℚ) : Prop := ∃ k : ℤ, |t - k| ≤ e

end Verif.Spec
