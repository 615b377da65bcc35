import Verif.Model.Json

/-!
# Model of the ONNX operators of the inference engine
(`inference_engine/itcl_inference_engine/layers/onnx/`)

Inputs are int/uint arrays; `astype(np.int32)` and the int32 subtraction of the zero point are modelled with
wrap-around; the scaled values are exact rationals.
-/

namespace Verif

/-- int32 dot product (`np.matmul` on int32 arrays). -/
def dot32 : List ℤ → List ℤ → ℤ
  | x :: xs, y :: ys => wrapS 32 (wrapS 32 (x * y) + dot32 xs ys)
  | _, _ => 0

/-- `x.astype(np.int32) - zp`. -/
def center32 (zp x : ℤ) : ℤ := wrapS 32 (wrapS 32 x - zp)

/-- Fields of a `QLinearAdd` with a 1-D bias tensor (q_linear_add.py:14-43). -/
structure QAdd where
  iS : ℚ
  iZp : ℤ
  b : List ℤ
  bS : ℚ
  bZp : ℤ
  oS : ℚ
  oZp : ℤ
deriving DecidableEq, Repr

namespace QAdd

/-- One element (q_linear_add.py:95-104): `np.clip(np.round((i_s*i + b_s*b)/o_s) + o_zp, 0, 255).astype(uint8)`. -/
def elem (l : QAdd) (x b : ℤ) : ℤ :=
  clip 0 255 (roundHalfEven ((l.iS * center32 l.iZp x + l.bS * center32 l.bZp b) / l.oS) + l.oZp)

/-- One row. -/
def row (l : QAdd) (x : List ℤ) : List ℤ := List.zipWith l.elem x l.b

/-- `QLinearAdd.infer` (q_linear_add.py:80-104): the bias broadcasts over the rows of a matrix. -/
def infer (l : QAdd) : Arr ℤ → Option (Arr ℤ)
  | .vec x => if x.length = l.b.length then some (.vec (l.row x)) else none
  | .mat X => if ∀ x ∈ X, x.length = l.b.length then some (.mat (X.map l.row)) else none
  | .cube X => if ∀ m ∈ X, ∀ x ∈ m, x.length = l.b.length then some (.cube (X.map (fun m => m.map l.row)))
      else none

/-- `QLinearAdd.from_model` (q_linear_add.py:45-78); `inputs[2]` carries the *output* parameters; the shape
assertion is modelled for 1-D tensors. -/
def fromModel (op : OpJ) : Option QAdd := do
  let i0 ← op.inputs[0]?
  let i1 ← op.inputs[1]?
  let i2 ← op.inputs[2]?
  let t ← i1.tensor
  match t.data with
  | some (.vec b) =>
    if t.shape = [b.length] then
      some ⟨← i0.scale, ← i0.zeroPoint, b, ← i1.scale, ← i1.zeroPoint, ← i2.scale, ← i2.zeroPoint⟩
    else none
  | _ => none

end QAdd

/-- Fields of a `QLinearMatMul` (q_linear_mmul.py:16-46).  `w` is the already transposed weight array
`[in][out]`; `nIn`, `nOut` its shape. -/
structure QMatMul where
  m : ℚ
  nIn : ℕ
  nOut : ℕ
  w : List (List ℤ)
  iZp : ℤ
  wZp : ℤ
  oZp : ℤ
deriving DecidableEq, Repr

namespace QMatMul

/-- `QLinearMatMul.__init__` (q_linear_mmul.py:16-46) with a weight tensor of shape `[r][c]`: transposes it. -/
def mk' (iS : ℚ) (iZp : ℤ) (weights : List (List ℤ)) (c : ℕ) (wS : ℚ) (wZp : ℤ) (oS : ℚ) (oZp : ℤ) : QMatMul :=
  { m := iS * wS / oS, nIn := c, nOut := weights.length, w := transpose weights c,
    iZp := iZp, wZp := wZp, oZp := oZp }

/-- One output element from the int32 accumulator (q_linear_mmul.py:98-100). -/
def finish (l : QMatMul) (acc : ℤ) : ℤ := clip 0 255 (roundHalfEven (l.m * acc) + l.oZp)

/-- One row: `i @ w` (q_linear_mmul.py:95-100). -/
def row (l : QMatMul) (x : List ℤ) : List ℤ :=
  (List.range l.nOut).map (fun j =>
    l.finish (dot32 (x.map (center32 l.iZp)) (l.w.map (fun r => center32 l.wZp (r.getD j 0)))))

/-- `QLinearMatMul.infer` (q_linear_mmul.py:83-100). -/
def infer (l : QMatMul) : Arr ℤ → Option (Arr ℤ)
  | .vec x => if x.length = l.nIn then some (.vec (l.row x)) else none
  | .mat X => if ∀ x ∈ X, x.length = l.nIn then some (.mat (X.map l.row)) else none
  | .cube X => if ∀ m ∈ X, ∀ x ∈ m, x.length = l.nIn then some (.cube (X.map (fun m => m.map l.row)))
      else none

/-- `QLinearMatMul.from_model` (q_linear_mmul.py:48-81). -/
def fromModel (op : OpJ) : Option QMatMul := do
  let i0 ← op.inputs[0]?
  let i1 ← op.inputs[1]?
  let i2 ← op.inputs[2]?
  let t ← i1.tensor
  match t.data, t.shape with
  | some (.mat w), [r, c] =>
    if r = w.length ∧ ∀ row ∈ w, row.length = c then
      some (mk' (← i0.scale) (← i0.zeroPoint) w c (← i1.scale) (← i1.zeroPoint) (← i2.scale) (← i2.zeroPoint))
    else none
  | _, _ => none

end QMatMul

/-- The whole tensor's `Exp(x) / ReduceSum(Exp(x))` (onnx/softmax.py:24-35); `np.sum` without an axis sums over
the *whole* array.  `exp` is an arbitrary function. -/
def onnxSoftmax (exp : ℚ → ℚ) (x : Arr ℚ) : Arr ℚ :=
  x.map (fun v => exp v / ((x.flat.map exp).sum))

end Verif
