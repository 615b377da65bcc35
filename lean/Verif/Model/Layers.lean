import Verif.Model.LSTM
import Verif.Model.Onnx

/-!
# Model of the inference engine's layers and their construction from JSON operators
(`inference_engine/itcl_inference_engine/layers/`, `util/check_layer_type.py`, `util/quantization.py`)
-/

namespace Verif

/-- An activation tensor: integers or reals. -/
inductive Tensor
  | int (x : Arr ℤ)
  | flt (x : Arr ℚ)
deriving DecidableEq, Repr

/-- numpy conversion to integers: truncation of floats. -/
def Tensor.toInt : Tensor → Arr ℤ
  | .int x => x
  | .flt x => x.map trunc

/-- numpy conversion to float64. -/
def Tensor.toFlt : Tensor → Arr ℚ
  | .int x => x.map (fun (v : ℤ) => (v : ℚ))
  | .flt x => x

/-- External real functions used by layers (`np.tanh`, Keras' `sigmoid`, `np.exp`); arbitrary. -/
structure Ext where
  tanh : ℚ → ℚ
  sigmoid : ℚ → ℚ
  exp : ℚ → ℚ

/-- `RELU` (layers/common/relu.py:8-16). -/
structure Relu where
  k : ℚ
  inputZp : ℤ
  outputZp : ℤ
deriving DecidableEq, Repr

/-- `RELU.infer` on one element (relu.py:26-39): `y = int16(x).clip(min=input_zp)`, then
`(output_zp + k * (y - output_zp)).astype(int8)`. -/
def Relu.elem (l : Relu) (x : ℤ) : ℤ :=
  let y := max (wrapS 16 x) l.inputZp
  wrapS 8 (trunc (l.outputZp + l.k * (y - l.outputZp)))

/-- Layers (TFLite-style and ONNX-style). -/
inductive Layer
  | fc (l : FC)
  | lut (l : LutLayer)
  | quantize (d : GDtype) (zp : ℤ) (s : ℚ)
  | dequantize (zp : ℤ) (s : ℚ)
  | tanh (zp : ℤ) (s : ℚ)
  | sigmoid (zp : ℤ) (s : ℚ)
  | softmax
  | relu (l : Relu)
  | lstm (l : LSTM)
  | qadd (l : QAdd)
  | qmatmul (l : QMatMul)
  | qsigmoid (iS : ℚ) (iZp : ℤ) (oS : ℚ) (oZp : ℤ)
  | osoftmax
  | otanh
deriving DecidableEq, Repr

/-- `infer` of each layer; `none` is an exception.
* quantize / dequantize: layers/tflite/quantize.py:52-61, dequantize.py:47-56, layers/onnx/quantize_linear.py:39-49,
  dequantize_linear.py:44-45;
* tanh: layers/tflite/tanh.py:62-73 (output scale 1/128, zero point 0, int8);
* sigmoid: layers/tflite/logistic.py:60-72 (output scale 1/256, zero point -128, int8);
* softmax: layers/tflite/softmax.py:28-29 (identity);
* qsigmoid: layers/onnx/q_linear_sigmoid.py:58-76; otanh: layers/onnx/tanh.py:18-27.
Look-up tables and LSTMs on float tensors are not modelled (`none`). -/
def Layer.infer (ext : Ext) : Layer → Tensor → Option Tensor
  | .fc l, t => (l.infer t.toInt).map .int
  | .lut l, .int x => (l.infer x).map .int
  | .lut _, .flt _ => none
  | .quantize d zp s, t => some (.int (t.toFlt.map (fun x => Quantization.quantize d x zp s)))
  | .dequantize zp s, t => some (.flt (t.toInt.map (fun q => Quantization.dequantize q zp s)))
  | .tanh zp s, t => some (.int (t.toInt.map (fun q =>
      Quantization.quantize (intDtype 7) (ext.tanh (Quantization.dequantize q zp s)) 0 (1 / 128))))
  | .sigmoid zp s, t => some (.int (t.toInt.map (fun q =>
      Quantization.quantize (intDtype 7) (ext.sigmoid (Quantization.dequantize q zp s)) (-128) (1 / 256))))
  | .softmax, t => some t
  | .relu l, t => some (.int (t.toInt.map l.elem))
  | .lstm l, .int x => (l.infer x).map .int
  | .lstm _, .flt _ => none
  | .qadd l, t => (l.infer t.toInt).map .int
  | .qmatmul l, t => (l.infer t.toInt).map .int
  | .qsigmoid iS iZp oS oZp, t => some (.int (t.toInt.map (fun q =>
      Quantization.quantize (uintDtype 8) (ext.sigmoid (Quantization.dequantize q iZp iS)) oZp oS)))
  | .osoftmax, t => some (.flt (onnxSoftmax ext.exp t.toFlt))
  | .otanh, t => some (.flt (t.toFlt.map ext.tanh))

/-! ## Dispatch on the operator name -/

/-- The layer classes `build_layer` can choose (layers/tflite/build_layer.py:1-14). -/
inductive LayerKind
  | tanh | tanhLUT | fullyConnected | sigmoid | sigmoidLUT | softmax | quantize | dequantize | relu | lstm
deriving DecidableEq, Repr

/-- The `if/elif` chain of `build_layer` (layers/tflite/build_layer.py:17-43) with the tests of
util/check_layer_type.py:1-40.  `none` is the `ValueError`. -/
def layerKind (opType : String) : Option LayerKind :=
  let u := upper opType
  if "TANH".toList = u then some .tanh
  else if "TANHLUT".toList = u then some .tanhLUT
  else if contains "FULLY_CONN" u then some .fullyConnected
  else if contains "LOGISTIC" u then some .sigmoid
  else if contains "SIGMOIDLUT" u then some .sigmoidLUT
  else if contains "SOFTMAX" u then some .softmax
  else if "QUANTIZE".toList = u then some .quantize
  else if contains "DEQUANTIZE" u then some .dequantize
  else if "RELU".toList = u then some .relu
  else if "LSTM".toList = u then some .lstm
  else none

/-- The operator classes `build_operator` can choose (layers/onnx/build_operator.py:33-53). -/
inductive OnnxKind
  | qadd | qmatmul | quantizeLinear | qsigmoid | sigmoidLUT | dequantizeLinear | softmax | tanh | tanhLUT
deriving DecidableEq, Repr

/-- The `if/elif` chain of `build_operator` (layers/onnx/build_operator.py:31-55), exact string comparison. -/
def onnxKind (opType : String) : Option OnnxKind :=
  if opType = "QLinearAdd" then some .qadd
  else if opType = "QLinearMatMul" then some .qmatmul
  else if opType = "QuantizeLinear" then some .quantizeLinear
  else if opType = "QLinearSigmoid" then some .qsigmoid
  else if opType = "SigmoidLUT" then some .sigmoidLUT
  else if opType = "DequantizeLinear" then some .dequantizeLinear
  else if opType = "Softmax" then some .softmax
  else if opType = "Tanh" then some .tanh
  else if opType = "TanhLUT" then some .tanhLUT
  else none

/-- `FullyConnected.from_model` (fullyconnected.py:126-169).  Missing bias/weight tensors become `[]`. -/
def FC.fromModel (op : OpJ) : Option FC := do
  let i0 ← op.inputs[0]?
  let i1 ← op.inputs[1]?
  let i2 ← op.inputs[2]?
  let o ← op.outputs[0]?
  let wt ← i1.tensor
  let bt ← i2.tensor
  let ot ← o.tensor
  let d ← (GDtype.ofString ot.dtype.toList).toOption
  match wt.data, bt.data with
  | some (.mat w), some (.vec b) =>
    FC.build (← i0.scale) (← i0.zeroPoint) (← i1.scale) (← i1.zeroPoint) (w.getD 0 []).length w
      (i2.scale.getD 1) (i2.zeroPoint.getD 0) b (← o.scale) (← o.zeroPoint) d
  | _, _ => none

/-- `Quantize.from_model` (layers/tflite/quantize.py:35-50): parameters of the first *output*. -/
def quantizeFromModel (op : OpJ) : Option Layer := do
  let o ← op.outputs[0]?
  let t ← o.tensor
  let d ← (GDtype.ofString t.dtype.toList).toOption
  some (.quantize d (← o.zeroPoint) (← o.scale))

/-- `Dequantize.from_model` (layers/tflite/dequantize.py:29-45): parameters of the first *input*. -/
def dequantizeFromModel (op : OpJ) : Option Layer := do
  let i ← op.inputs[0]?
  let t ← i.tensor
  let _ ← (GDtype.ofString t.dtype.toList).toOption
  some (.dequantize (← i.zeroPoint) (← i.scale))

/-- `RELU.from_model` (layers/common/relu.py:18-24). -/
def reluFromModel (op : OpJ) : Option Layer := do
  let i ← op.inputs[0]?
  let o ← op.outputs[0]?
  some (.relu ⟨(← i.scale) / (← o.scale), ← i.zeroPoint, ← o.zeroPoint⟩)

/-- Layers that only need scale and zero point of the first input node
(tanh.py:38-48, logistic.py:48-58, softmax.py:24-26, onnx/quantize_linear.py:23-37, dequantize_linear.py:28-42). -/
def firstInputParams (op : OpJ) : Option (ℤ × ℚ) := do
  let i ← op.inputs[0]?
  some (← i.zeroPoint, ← i.scale)

/-- `build_layer` (layers/tflite/build_layer.py:17-45).  `None` scales and zero points, which the code would
only trip over at inference time, are rejected here already. -/
def buildLayer (op : OpJ) : Option Layer :=
  match layerKind op.opType with
  | none => none
  | some .tanh => (firstInputParams op).map (fun p => .tanh p.1 p.2)
  | some .tanhLUT => (LutLayer.fromModel op).map .lut
  | some .fullyConnected => (FC.fromModel op).map .fc
  | some .sigmoid => (firstInputParams op).map (fun p => .sigmoid p.1 p.2)
  | some .sigmoidLUT => (LutLayer.fromModel op).map .lut
  | some .softmax => (op.inputs[0]?).map (fun _ => .softmax)
  | some .quantize => quantizeFromModel op
  | some .dequantize => dequantizeFromModel op
  | some .relu => reluFromModel op
  | some .lstm => (LSTM.fromModel op).map .lstm

/-- `QLinearSigmoid.from_model` (layers/onnx/q_linear_sigmoid.py:37-56). -/
def qsigmoidFromModel (op : OpJ) : Option Layer := do
  let i ← op.inputs[0]?
  let o ← op.inputs[1]?
  some (.qsigmoid (← i.scale) (← i.zeroPoint) (← o.scale) (← o.zeroPoint))

/-- `build_operator` (layers/onnx/build_operator.py:16-55). -/
def buildOperator (op : OpJ) : Option Layer :=
  match onnxKind op.opType with
  | none => none
  | some .qadd => (QAdd.fromModel op).map .qadd
  | some .qmatmul => (QMatMul.fromModel op).map .qmatmul
  | some .quantizeLinear => (firstInputParams op).map (fun p => .quantize (uintDtype 8) p.1 p.2)
  | some .qsigmoid => qsigmoidFromModel op
  | some .sigmoidLUT => (LutLayer.fromModel op).map .lut
  | some .dequantizeLinear => (firstInputParams op).map (fun p => .dequantize p.1 p.2)
  | some .softmax => some .osoftmax
  | some .tanh => some .otanh
  | some .tanhLUT => (LutLayer.fromModel op).map .lut

end Verif
