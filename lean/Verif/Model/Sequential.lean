import Verif.Model.Layers

/-!
# Model of `inference_engine/itcl_inference_engine/network/sequential.py`, class `SequentialNetwork`
-/

namespace Verif

/-- A loaded network (sequential.py:43-71): the layers and, for legacy models without QUANTIZE layer, the
parameters with which the input is converted to int8. -/
structure SeqNet where
  hasQuantLayers : Bool
  inputZp : ℤ
  inputScale : ℚ
  layers : List Layer
deriving DecidableEq, Repr

namespace SeqNet

/-- `get_engine` (sequential.py:116-124); `none` is the `ValueError`. -/
def engine (net : NetJ) : Option (OpJ → Option Layer) :=
  if "TFLITE".toList = upper net.engine then some buildLayer
  else if "ONNX".toList = upper net.engine then some buildOperator
  else none

/-- `SequentialNetwork.__init__` (sequential.py:31-71, 126-141).  `self.input_zero_point or 0` and
`self.input_scale or 1` (line 102) are folded into the fields.  `none` where the constructor raises: missing
first input/output/operator, unknown engine, or an operator that cannot be built. -/
def load (net : NetJ) : Option SeqNet := do
  let inp ← (← net.input[0]?)
  let _out ← (← net.output[0]?)
  let first ← net.graph[0]?
  let build ← engine net
  let layers ← net.graph.mapM build
  some
    { hasQuantLayers := contains "QUANT" (upper first.name)
      inputZp := inp.zeroPoint.getD 0
      inputScale := match inp.scale with
        | none => 1
        | some s => if s = 0 then 1 else s
      layers := layers }

/-- The layer loop of `infer` (sequential.py:104-109) with the recorded intermediate results, most recent last.
`none` if some layer raises. -/
def runLayers (ext : Ext) : List Layer → Tensor → Option (Tensor × List Tensor)
  | [], x => some (x, [])
  | l :: ls, x => do
    let y ← l.infer ext x
    let (out, rest) ← runLayers ext ls y
    some (out, y :: rest)

/-- What the first layer receives (sequential.py:95-102): legacy networks quantize the input to int8. -/
def prepare (net : SeqNet) (x : Tensor) : Tensor :=
  if net.hasQuantLayers then x
  else .int (x.toFlt.map (fun v => Quantization.quantize (intDtype 7) v net.inputZp net.inputScale))

/-- `SequentialNetwork.infer` (sequential.py:80-114): the result and `_intermediate_results`. -/
def infer (ext : Ext) (net : SeqNet) (x : Tensor) : Option (Tensor × List Tensor) :=
  runLayers ext net.layers (net.prepare x)

end SeqNet
end Verif
