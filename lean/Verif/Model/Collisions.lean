import Verif.Model.Num
import Mathlib.Data.List.Dedup

/-!
# Model of `quantizer/itcl_quantizer/util/collisions.py`

Tensors are flattened (`np.unique` flattens its argument).
-/

namespace Verif.Collisions

/-- `np.unique(x, return_counts=True)[1]`.  numpy sorts by value; the order is irrelevant for the sums taken. -/
def counts {α : Type} [DecidableEq α] (l : List α) : List ℤ := l.dedup.map (fun x => (l.count x : ℤ))

/-- `np.around(x, decimals)` for `decimals > 0`, over exact rationals (ties to even). -/
def around (d : ℕ) (x : ℚ) : ℚ := roundHalfEven (x * 10 ^ d) / 10 ^ d

/-- `calc_collisions` (collisions.py:4-22). -/
def calcCollisions (fp : List ℚ) (q : List ℤ) (epsilon : ℤ) : ℤ :=
  let rounded := if 0 < epsilon then fp.map (around epsilon.toNat) else fp
  ((counts q).map (fun c => c * (if c ≠ 1 then 1 else 0))).sum - ((counts rounded).map (fun c => c - 1)).sum

end Verif.Collisions
