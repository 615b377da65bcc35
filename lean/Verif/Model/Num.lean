import Mathlib.Data.Rat.Floor
import Mathlib.Algebra.Order.Floor.Ring
import Mathlib.Data.Int.Log

/-!
# Numeric primitives of Python / numpy used by the model

Floats are exact rationals (see DESIGN.md §1).  Nothing in this file models repository code by itself:
these are the Python/numpy primitives the repository calls.
-/

namespace Verif

/-- `np.clip(x, lo, hi)`, i.e. `minimum(hi, maximum(x, lo))` (numpy definition; if `lo > hi` the result is
`hi`).  Used e.g. in core/itcl_quantization/quantization/operators.py:162. -/
def clip {α : Type} [Max α] [Min α] (lo hi x : α) : α := min hi (max lo x)

/-- `np.floor(x + 0.5)`, the rounding used in
core/itcl_quantization/quantization/operators.py:160 (`extra = 0.5`). -/
def roundHalfUp (x : ℚ) : ℤ := ⌊x + 1 / 2⌋

/-- Python's built-in `round` and `np.round`: to nearest, ties to even.
Used e.g. in quantizer/.../distribution.py and inference_engine/.../fullyconnected.py:343. -/
def roundHalfEven (x : ℚ) : ℤ :=
  let f := ⌊x⌋
  if x - f < 1 / 2 then f
  else if 1 / 2 < x - f then f + 1
  else if f % 2 = 0 then f else f + 1

/-- Float to integer conversion (`int(x)`, `.astype(intN)` before wrap-around): truncation towards zero. -/
def trunc (x : ℚ) : ℤ := if 0 ≤ x then ⌊x⌋ else ⌈x⌉

/-- Conversion of an integer to a signed `b`-bit integer with wrap-around (numpy `astype(intb)`). -/
def wrapS (b : ℕ) (x : ℤ) : ℤ := Int.bmod x (2 ^ b)

/-- Conversion of an integer to an unsigned `b`-bit integer with wrap-around (numpy `astype(uintb)`). -/
def wrapU (b : ℕ) (x : ℤ) : ℤ := x % 2 ^ b

/-- Arithmetic shift right of a signed integer, `x >> k` in Python and numpy:
floor division by `2^k`. -/
def shiftRight (x : ℤ) (k : ℕ) : ℤ := x / 2 ^ k

end Verif
