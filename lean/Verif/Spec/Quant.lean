import Mathlib.Data.Rat.Floor

/-!
# Specification vocabulary for affine quantization

Written without reference to the model: what an integer code means, and what a correct quantizer does.
-/

namespace Verif.Spec

/-- The real number denoted by code `q` under zero point `zp` and scale `s`. -/
def real (zp : ℤ) (s : ℚ) (q : ℤ) : ℚ := s * (q - zp)

/-- `q` is one of the codes `lo..hi`. -/
def Code (lo hi q : ℤ) : Prop := lo ≤ q ∧ q ≤ hi

/-- `q` is a code in `lo..hi` whose real value is at least as close to `x` as that of any other code. -/
def Nearest (lo hi zp : ℤ) (s x : ℚ) (q : ℤ) : Prop :=
  Code lo hi q ∧ ∀ q', Code lo hi q' → |real zp s q - x| ≤ |real zp s q' - x|

/-- The integer range `lo..hi` is non-empty and fits a signed 32-bit container. -/
def Fits32 (lo hi : ℤ) : Prop := -(2 ^ 31) ≤ lo ∧ lo ≤ hi ∧ hi < 2 ^ 31

/-- Signed 32-bit integer. -/
def IsInt32 (x : ℤ) : Prop := -(2 ^ 31) ≤ x ∧ x < 2 ^ 31

instance (lo hi q : ℤ) : Decidable (Code lo hi q) := inferInstanceAs (Decidable (_ ∧ _))
instance (lo hi : ℤ) : Decidable (Fits32 lo hi) := inferInstanceAs (Decidable (_ ∧ _ ∧ _))
instance (x : ℤ) : Decidable (IsInt32 x) := inferInstanceAs (Decidable (_ ∧ _))

end Verif.Spec
