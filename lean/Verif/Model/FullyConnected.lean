import Verif.Model.Multiplier
import Verif.Model.Quant

/-!
# Model of `inference_engine/itcl_inference_engine/layers/tflite/fullyconnected.py`, class `FullyConnected`

Arrays are lists (1-D) and lists of rows (2-D).  A numpy shape error is `none`.
-/

namespace Verif

/-- A 1-D, 2-D or 3-D array. -/
inductive Arr (α : Type) where
  | vec (x : List α)
  | mat (x : List (List α))
  | cube (x : List (List (List α)))
deriving DecidableEq, Repr

/-- int64 dot product as numpy's `matmul` computes it: every product and every partial sum in int64. -/
def dot64 : List ℤ → List ℤ → ℤ
  | x :: xs, y :: ys => wrapS 64 (wrapS 64 (x * y) + dot64 xs ys)
  | _, _ => 0

/-- Entry `M[i][j]` of a matrix given by rows. -/
def entry (M : List (List ℤ)) (i j : ℕ) : ℤ := (M.getD i []).getD j 0

/-- `M.T` for a matrix with `M.length` rows and `m` columns. -/
def transpose (M : List (List ℤ)) (m : ℕ) : List (List ℤ) :=
  (List.range m).map (fun j => (List.range M.length).map (fun i => entry M i j))

/-- `np.matmul(W, x)` for a matrix and a vector. -/
def matVec (W : List (List ℤ)) (x : List ℤ) : List ℤ := W.map (fun row => dot64 row x)

/-- `np.matmul(X, B)` for two matrices, `B` with `m` columns: `out[i][j] = Σ_k X[i][k] * B[k][j]`. -/
def matMul (X B : List (List ℤ)) (m : ℕ) : List (List ℤ) :=
  X.map (fun row => (List.range m).map (fun j => dot64 row (B.map (fun brow => brow.getD j 0))))

/-- The fields of a `FullyConnected` layer (fullyconnected.py:39-80).  `weights` already has the weight zero
point subtracted; `nIn` is `weights.shape[1]`. -/
structure FC where
  inputZp : ℤ
  nIn : ℕ
  weights : List (List ℤ)
  bias : List ℤ
  mult : Mult
  outputZp : ℤ
  outDtype : GDtype
deriving DecidableEq, Repr

namespace FC

/-- `FullyConnected.build` (fullyconnected.py:82-124): subtracts the weight zero point, builds the multiplier
from the three scales; `bias_s` and `bias_zp` are ignored by the code.  `none` when the multiplier's
assertions fail. -/
def build (inputS : ℚ) (inputZp : ℤ) (weightS : ℚ) (weightZp : ℤ) (nIn : ℕ) (weights : List (List ℤ))
    (_biasS : ℚ) (_biasZp : ℤ) (bias : List ℤ) (outputS : ℚ) (outputZp : ℤ) (outDtype : GDtype) : Option FC :=
  match Mult.build (inputS * weightS / outputS) with
  | none => none
  | some p => some
      { inputZp := inputZp, nIn := nIn, weights := weights.map (fun r => r.map (fun w => w - weightZp)),
        bias := bias, mult := p, outputZp := outputZp, outDtype := outDtype }

/-- Element-wise int64 `mmul_res + bias` (fullyconnected.py:195). -/
def addBias (bias acc : List ℤ) : List ℤ := List.zipWith (fun a b => wrapS 64 (a + b)) acc bias

/-- `input_.astype(np.int64) - np.int64(z1)` (fullyconnected.py:184). -/
def center (l : FC) (x : List ℤ) : List ℤ := x.map (fun v => wrapS 64 (wrapS 64 v - l.inputZp))

/-- `__calculate_accumulator` (fullyconnected.py:171-195; the code after the first `return` is dead).
1-D: `W @ x + b`; 2-D: `X @ W.T + b`.  Shape mismatches raise.  A bias of length 1, which numpy would
broadcast, is treated as a mismatch unless there is one output. -/
def accumulator (l : FC) : Arr ℤ → Option (Arr ℤ)
  | .vec x =>
    if x.length = l.nIn ∧ l.bias.length = l.weights.length then
      some (.vec (addBias l.bias (matVec l.weights (l.center x))))
    else none
  | .mat X =>
    if (∀ x ∈ X, x.length = l.nIn) ∧ l.bias.length = l.weights.length then
      some (.mat ((matMul (X.map l.center) (transpose l.weights l.nIn) l.weights.length).map (addBias l.bias)))
    else none
  | .cube _ => none

/-- Rescale, add the output zero point, clip to the output dtype: one element
(fullyconnected.py:218-232, 258-267, 269-281). -/
def finish (l : FC) (acc : ℤ) : ℤ :=
  clip l.outDtype.min l.outDtype.max (wrapS 64 (l.mult.rescale acc + l.outputZp))

/-- `FullyConnected.infer` (fullyconnected.py:269-281); the assertion on `ndim` rejects 3-D inputs. -/
def infer (l : FC) (x : Arr ℤ) : Option (Arr ℤ) :=
  match l.accumulator x with
  | none => none
  | some (.vec a) => some (.vec (a.map l.finish))
  | some (.mat A) => some (.mat (A.map (fun a => a.map l.finish)))
  | some (.cube _) => none

end FC
end Verif
