import Verif.Model.Float
import Verif.Model.Sequential

/-!
# The inference engine in floating point

The inference engine (`layers/tflite/*.py`, `layers/common/*.py`, `layers/onnx/*.py`, `network/sequential.py`) as in
`Verif.Model.Layers` and `Verif.Model.Sequential`, but with the rounding of floating point arithmetic wherever the code
computes with floats: in the rescale factor of a fully connected layer or matrix product, when it quantizes and
dequantizes, in `RELU` and in the ONNX additions and matrix products.  Integer arithmetic (accumulators, multiplier,
look-up tables) is the same.

Simplifications: `np.tanh`, `sigmoid` and `np.exp` (inside `ext`) are arbitrary functions; in a network the sum of the ONNX
`Softmax` is taken from left to right (`np.sum` may add up in another order: `Fmt.softmax` takes the summation as an
argument, `Fmt.Sums` says what any order can give).
-/

namespace Verif
namespace Fmt

/-- `FullyConnected.from_model` (layers/tflite/fullyconnected.py:126-169), the factor computed in floating point. -/
def fcFromModel (F : Fmt) (op : OpJ) : Option FC := do
  let i0 ← op.inputs[0]?
  let i1 ← op.inputs[1]?
  let i2 ← op.inputs[2]?
  let o ← op.outputs[0]?
  let wt ← i1.tensor
  let bt ← i2.tensor
  let ot ← o.tensor
  let d ← (GDtype.ofString ot.dtype.toList).toOption
  match wt.data, bt.data with
  | some (.mat w), some (.vec b) =>
    F.buildFC (← i0.scale) (← i0.zeroPoint) (← i1.scale) (← i1.zeroPoint) (w.getD 0 []).length w b
      (← o.scale) (← o.zeroPoint) d
  | _, _ => none

/-- `RELU.from_model` (layers/common/relu.py:18-24) with a rounded quotient of the scales. -/
def reluFromModel (F : Fmt) (op : OpJ) : Option Layer := do
  let i ← op.inputs[0]?
  let o ← op.outputs[0]?
  some (.relu ⟨F.fl ((← i.scale) / (← o.scale)), ← i.zeroPoint, ← o.zeroPoint⟩)

/-- `build_layer` (layers/tflite/build_layer.py:17-45). -/
def buildLayer (F : Fmt) (op : OpJ) : Option Layer :=
  match layerKind op.opType with
  | some .fullyConnected => (F.fcFromModel op).map .fc
  | some .relu => F.reluFromModel op
  | some .lstm => (LSTM.fromModel op (some F)).map .lstm
  | _ => Verif.buildLayer op

/-- `RELU.infer` on one element (layers/common/relu.py:26-39). -/
def reluElem (F : Fmt) (l : Relu) (x : ℤ) : ℤ :=
  let y := max (wrapS 16 x) l.inputZp
  wrapS 8 (trunc (F.fl (l.outputZp + F.fl (l.k * (y - l.outputZp)))))

/-- `np.clip(np.round(t) + zp, 0, 255).astype(np.uint8)` (layers/onnx/q_linear_add.py:98-104, q_linear_mmul.py:98-100):
the sum is rounded, and clipped before it becomes an integer. -/
def clip8 (F : Fmt) (t : ℚ) (zp : ℤ) : ℤ := trunc (max 0 (min 255 (F.fl (roundHalfEven t + zp))))

/-- One element of `QLinearAdd.infer` (layers/onnx/q_linear_add.py:95-104). -/
def qaddElem (F : Fmt) (l : QAdd) (x b : ℤ) : ℤ :=
  F.clip8 (F.fl (F.fl (F.fl (l.iS * center32 l.iZp x) + F.fl (l.bS * center32 l.bZp b)) / l.oS)) l.oZp

/-- `QLinearAdd.infer` (layers/onnx/q_linear_add.py:80-104), with the shapes of `QAdd.infer`. -/
def qaddInfer (F : Fmt) (l : QAdd) : Arr ℤ → Option (Arr ℤ)
  | .vec x => if x.length = l.b.length then some (.vec (List.zipWith (F.qaddElem l) x l.b)) else none
  | .mat X => if ∀ x ∈ X, x.length = l.b.length then some (.mat (X.map (fun x => List.zipWith (F.qaddElem l) x l.b)))
      else none
  | .cube X => if ∀ m ∈ X, ∀ x ∈ m, x.length = l.b.length then
      some (.cube (X.map (fun m => m.map (fun x => List.zipWith (F.qaddElem l) x l.b)))) else none

/-- `QLinearMatMul.from_model` and `__init__` (layers/onnx/q_linear_mmul.py:48-81, 39) with a rounded factor. -/
def qmatmulFromModel (F : Fmt) (op : OpJ) : Option QMatMul := do
  let i0 ← op.inputs[0]?
  let i1 ← op.inputs[1]?
  let i2 ← op.inputs[2]?
  let l ← QMatMul.fromModel op
  some { l with m := F.fl (F.fl ((← i0.scale) * (← i1.scale)) / (← i2.scale)) }

/-- One row of `QLinearMatMul.infer` (layers/onnx/q_linear_mmul.py:95-100): the integer product as in `QMatMul.row`. -/
def qmatmulRow (F : Fmt) (l : QMatMul) (x : List ℤ) : List ℤ :=
  (List.range l.nOut).map (fun j =>
    F.clip8 (F.fl (l.m * dot32 (x.map (center32 l.iZp)) (l.w.map (fun r => center32 l.wZp (r.getD j 0))))) l.oZp)

/-- `QLinearMatMul.infer` (layers/onnx/q_linear_mmul.py:83-100), with the shapes of `QMatMul.infer`. -/
def qmatmulInfer (F : Fmt) (l : QMatMul) : Arr ℤ → Option (Arr ℤ)
  | .vec x => if x.length = l.nIn then some (.vec (F.qmatmulRow l x)) else none
  | .mat X => if ∀ x ∈ X, x.length = l.nIn then some (.mat (X.map (F.qmatmulRow l))) else none
  | .cube X => if ∀ m ∈ X, ∀ x ∈ m, x.length = l.nIn then some (.cube (X.map (fun m => m.map (F.qmatmulRow l))))
      else none

/-- `build_operator` (layers/onnx/build_operator.py:16-55). -/
def buildOperator (F : Fmt) (op : OpJ) : Option Layer :=
  match onnxKind op.opType with
  | some .qmatmul => (F.qmatmulFromModel op).map .qmatmul
  | _ => Verif.buildOperator op

/-- `create_LUT` for uint8 codes (core/itcl_quantization/quantization/operators.py:164-193), as the ONNX converter calls it
(model_converters/onnx2json/util/quantization.py:14). -/
def uint8Table (F : Fmt) (f : ℚ → ℚ) (is : ℚ) (izp : ℤ) (os : ℚ) (ozp : ℤ) : List ℤ :=
  (Quantization.codes (uintDtype 8)).map (fun c => F.quantize (uintDtype 8) (f (F.dequantize c izp is)) ozp os)

/-- `create_LUT` for int8 codes (core/itcl_quantization/quantization/operators.py:164-193), as the TFLite converter calls it
(model_converters/tflite2json/itcl_tflite2json/operators/TanhLUT.py:40-46, SigmoidLUT.py). -/
def int8Table (F : Fmt) (f : ℚ → ℚ) (is : ℚ) (izp : ℤ) (os : ℚ) (ozp : ℤ) : List ℤ :=
  (Quantization.codes (intDtype 7)).map (fun c => F.quantize (intDtype 7) (f (F.dequantize c izp is)) ozp os)

/-- `s` is a result of adding up the numbers, rounding after each addition, in some order (what `np.sum` does: the order
depends on the length and the memory layout).  (A numpy primitive, not repository code.) -/
inductive Sums (F : Fmt) : List ℚ → ℚ → Prop
  | one (x : ℚ) : Sums F [x] x
  | add {xs ys zs : List ℚ} {a b : ℚ} : Sums F xs a → Sums F ys b → (xs ++ ys).Perm zs → Sums F zs (F.fl (a + b))

/-- Adding up from left to right. -/
def sumLeft (F : Fmt) : List ℚ → ℚ
  | [] => 0
  | x :: xs => xs.foldl (fun a b => F.fl (a + b)) x

/-- `np.exp(input_) / np.sum(np.exp(input_))` (layers/onnx/softmax.py:24-35): the exponentials are rounded, `sum` is the
summation of floats, and the quotient is rounded. -/
def softmax (F : Fmt) (exp : ℚ → ℚ) (sum : List ℚ → ℚ) (x : Arr ℚ) : Arr ℚ :=
  x.map (fun v => F.fl (F.fl (exp v) / sum (x.flat.map (fun u => F.fl (exp u)))))

/-- `infer` of each layer (layers/tflite/quantize.py:52-61, dequantize.py:47-56, tanh.py:62-73, logistic.py:60-72,
layers/common/relu.py:26-39, layers/onnx/q_linear_sigmoid.py:58-76, q_linear_add.py:80-104, q_linear_mmul.py:83-100,
softmax.py:24-35); integer layers as in `Layer.infer`. -/
def inferLayer (F : Fmt) (ext : Ext) : Layer → Tensor → Option Tensor
  | .quantize d zp s, t => some (.int (t.toFlt.map (fun x => F.quantize d x zp s)))
  | .dequantize zp s, t => some (.flt (t.toInt.map (fun q => F.dequantize q zp s)))
  | .tanh zp s, t => some (.int (t.toInt.map (fun q =>
      F.quantize (intDtype 7) (ext.tanh (F.dequantize q zp s)) 0 (1 / 128))))
  | .sigmoid zp s, t => some (.int (t.toInt.map (fun q =>
      F.quantize (intDtype 7) (ext.sigmoid (F.dequantize q zp s)) (-128) (1 / 256))))
  | .relu l, t => some (.int (t.toInt.map (F.reluElem l)))
  | .qadd l, t => (F.qaddInfer l t.toInt).map .int
  | .qmatmul l, t => (F.qmatmulInfer l t.toInt).map .int
  | .qsigmoid iS iZp oS oZp, t => some (.int (t.toInt.map (fun q =>
      F.quantize (uintDtype 8) (ext.sigmoid (F.dequantize q iZp iS)) oZp oS)))
  | .osoftmax, t => some (.flt (F.softmax ext.exp F.sumLeft t.toFlt))
  | l, t => l.infer ext t

/-- `SequentialNetwork.__init__` (network/sequential.py:31-71) with the engine's constructor of operators. -/
def loadWith (build : OpJ → Option Layer) (net : NetJ) : Option SeqNet := do
  let inp ← (← net.input[0]?)
  let _out ← (← net.output[0]?)
  let first ← net.graph[0]?
  let layers ← net.graph.mapM build
  some
    { hasQuantLayers := contains "QUANT" (upper first.name)
      inputZp := inp.zeroPoint.getD 0
      inputScale := match inp.scale with
        | none => 1
        | some s => if s = 0 then 1 else s
      layers := layers }

/-- `SequentialNetwork.__init__` and `get_engine` (network/sequential.py:31-71, 116-141). -/
def load (F : Fmt) (net : NetJ) : Option SeqNet :=
  if "TFLITE".toList = upper net.engine then loadWith F.buildLayer net
  else if "ONNX".toList = upper net.engine then loadWith F.buildOperator net
  else none

/-- The layer loop of `infer` (network/sequential.py:104-109). -/
def runLayers (F : Fmt) (ext : Ext) : List Layer → Tensor → Option (Tensor × List Tensor)
  | [], x => some (x, [])
  | l :: ls, x => do
    let y ← F.inferLayer ext l x
    let (out, rest) ← F.runLayers ext ls y
    some (out, y :: rest)

/-- What the first layer receives (network/sequential.py:95-102). -/
def prepare (F : Fmt) (net : SeqNet) (x : Tensor) : Tensor :=
  if net.hasQuantLayers then x
  else .int (x.toFlt.map (fun v => F.quantize (intDtype 7) v net.inputZp net.inputScale))

/-- `SequentialNetwork.infer` (network/sequential.py:80-114). -/
def infer (F : Fmt) (ext : Ext) (net : SeqNet) (x : Tensor) : Option (Tensor × List Tensor) :=
  F.runLayers ext net.layers (F.prepare net x)

end Fmt
end Verif
