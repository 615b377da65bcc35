import Verif.Model.Sequential

/-!
# Model of the ONNX converter
(`model_converters/onnx2json/helpers/`, `model_converters/onnx2json/2json.py`)

Simplifications: of the ONNX protobuf only the fields the converter reads are kept; weights are uint8 tensors of one or
two dimensions (other ranks are rejected); free-text descriptions and tensor names are dropped; scales and activation
functions are over the rationals.
-/

namespace Verif.Onnx2Json

/-- An initializer (constant tensor) of the ONNX graph. -/
structure Initializer where
  name : String
  floatData : List ℚ
  int32Data : List ℤ
  rawData : List ℤ
  dims : List ℕ
deriving DecidableEq, Repr

/-- A node of the ONNX graph. -/
structure ONode where
  opType : String
  input : List String
  output : List String
deriving DecidableEq, Repr

/-- An ONNX model; tensor infos are (name, second dimension). -/
structure OModel where
  nodes : List ONode
  initializers : List Initializer
  valueInfo : List (String × ℕ)
  inputs : List (String × ℕ)
  outputs : List (String × ℕ)
deriving DecidableEq, Repr

/-- `initializers[id2idx[id]]` (buildBaseNode.py:31-39): a dict comprehension, so the last initializer of that name;
`none` is the `KeyError`. -/
def OModel.init (m : OModel) (id : String) : Option Initializer := m.initializers.reverse.find? (fun i => i.name = id)

/-- `np.reshape(data, dims)` for one or two dimensions (buildBaseNode.py:40-41). -/
def reshape (data : List ℤ) : List ℕ → Option (Arr ℤ)
  | [n] => if n = data.length then some (.vec data) else none
  | [r, c] =>
    if r * c = data.length then some (.mat ((List.range r).map (fun i => (data.drop (i * c)).take c))) else none
  | _ => none

/-- `np.transpose` (buildBaseNode.py:43-44) of an array with the given shape. -/
def transposeArr : Arr ℤ → List ℕ → Arr ℤ
  | .mat w, [_, c] => .mat (transpose w c)
  | a, _ => a

/-- `build_quantized_node` (buildBaseNode.py:6-54). -/
def quantizedNode (m : OModel) (tensorId : Option String) (scaleId zpId : String) (tr : Bool := false) : Option NodeJ := do
  let s ← m.init scaleId
  let z ← m.init zpId
  let tensor ← match tensorId with
    | none => some none
    | some id => do
      let i ← m.init id
      let arr ← reshape i.rawData i.dims
      some (some (if tr then ⟨some (transposeArr arr i.dims), i.dims.reverse, "uint8"⟩
        else ⟨some arr, i.dims, "uint8"⟩ : TensorJ))
  some { scale := some (← s.floatData[0]?), zeroPoint := some (← z.int32Data[0]?), tensor := tensor, lut := none }

/-- `build_base_node` (buildBaseNode.py:57-101).  `if idx:` treats index 0 as "not found". -/
def baseNode (m : OModel) (id : String) : Option NodeJ := do
  let idx := (List.range m.valueInfo.length).reverse.find? (fun i => (m.valueInfo.map Prod.fst)[i]? = some id)
  let info ← match idx with
    | some (i + 1) => m.valueInfo[i + 1]?
    | _ => do
      let i ← m.inputs[0]?
      if id = i.1 then some i
      else do
        let o ← m.outputs[0]?
        if id = o.1 then some o else none
  some { scale := none, zeroPoint := none, tensor := some ⟨none, [info.2], "?"⟩, lut := none }

/-- What a builder returns: the operator's inputs and outputs. -/
abbrev Built := List NodeJ × List NodeJ

/-- `Tanh.build`, `Softmax.build` (nodeBuilders/Tanh.py:13-29, Softmax.py:7-16). -/
def passThrough (m : OModel) (n : ONode) : Option Built := do
  let i ← n.input[0]?
  let o ← n.output[0]?
  some ([← baseNode m i], [← baseNode m o])

/-- `QuantizeLinear.build` / `DequantizeLinear.build` (nodeBuilders/QuantizeLinear.py:6-10, DequantizeLinear.py:11-15):
exactly three inputs. -/
def linear (m : OModel) (n : ONode) : Option Built :=
  match n.input with
  | [_, scale, zp] => do
    let _ ← n.output[0]?
    some ([← quantizedNode m none scale zp], [])
  | _ => none

/-- `QLinearMatMul.build` and `QLinearAdd.build` (nodeBuilders/QLinearMatMul.py:10-42, QLinearAdd.py:10-38): exactly
eight inputs; the matmul transposes its weights. -/
def qlinear (tr : Bool) (m : OModel) (n : ONode) : Option Built :=
  match n.input with
  | [_, iScale, iZp, a, aScale, aZp, bScale, bZp] => do
    let _ ← n.output[0]?
    some ([← quantizedNode m none iScale iZp, ← quantizedNode m (some a) aScale aZp tr,
      ← quantizedNode m none bScale bZp], [])
  | _ => none

/-- Python's `x or d`. -/
def orElse {α : Type} [DecidableEq α] (zero : α) (x : Option α) (d : α) : α :=
  match x with
  | none => d
  | some v => if v = zero then d else v

/-- `create_lut` (util/quantization.py:14): function, input scale and zero point, output scale and zero point. -/
abbrev Table := (ℚ → ℚ) → ℚ → ℤ → ℚ → ℤ → List ℤ

/-- `TanhLUT.build` (nodeBuilders/Tanh.py:32-79) with its defaults `depth = 3`, `min_reduce = 10`.  (`table` is
`create_lut`; the default computes exactly, see `Fmt.uint8Table` for the one that rounds.) -/
def tanhLut (tanh : ℚ → ℚ) (m : OModel) (ns : List ONode)
    (table : Table := fun f is izp os ozp => Quantization.createLUT (uintDtype 8) f is izp os ozp) : Option Built := do
  let dq ← linear m (← ns[0]?)
  let q ← linear m (← ns[2]?)
  let i ← dq.1[0]?
  let o ← q.1[0]?
  let lut := table tanh (orElse 0 i.scale 1) (orElse 0 i.zeroPoint 0)
    (orElse 0 o.scale 1) (orElse 0 o.zeroPoint 0)
  some ([{ scale := none, zeroPoint := none, tensor := none,
           lut := some ⟨some lut, some 0, some (ReducedLUT.mk' lut 3 10).serialize⟩ }], [])

/-- `QLinearSigmoid.build` (nodeBuilders/QLinearSigmoid.py:10-22): exactly five inputs. -/
def qlinearSigmoid (m : OModel) (n : ONode) : Option Built :=
  match n.input with
  | [_, iScale, iZp, oScale, oZp] => do
    let _ ← n.output[0]?
    some ([← quantizedNode m none iScale iZp, ← quantizedNode m none oScale oZp], [])
  | _ => none

/-- `SigmoidLUT.build` (nodeBuilders/QLinearSigmoid.py:28-69) with the settings `lut_depth = 3`, `min_removal = 0`
(settings.yaml). -/
def sigmoidLut (sigmoid : ℚ → ℚ) (m : OModel) (n : ONode)
    (table : Table := fun f is izp os ozp => Quantization.createLUT (uintDtype 8) f is izp os ozp) : Option Built := do
  let b ← qlinearSigmoid m n
  let i ← b.1[0]?
  let o ← b.1[1]?
  let lut := table sigmoid (← i.scale) (← i.zeroPoint) (← o.scale) (← o.zeroPoint)
  some ([{ scale := i.scale, zeroPoint := i.zeroPoint, tensor := none,
           lut := some ⟨some lut, some 0, some (ReducedLUT.mk' lut 3 0).serialize⟩ }], [])

/-- `BuildOperatorCandidate` (buildOperator.py:15-26); a simple operator is a one-element list here. -/
structure Cand where
  opType : String
  nodes : List ONode
deriving DecidableEq, Repr

/-- The builder chosen by `buildOperator` and the exported type (buildOperator.py:33-54); `none` is the `ValueError`. -/
def buildOp (ext : Ext) (m : OModel) (c : Cand)
    (table : Table := fun f is izp os ozp => Quantization.createLUT (uintDtype 8) f is izp os ozp) : Option OpJ := do
  let one := c.nodes[0]?
  let t := c.opType
  let (name, b) ←
    if t = "Tanh" then some (t, ← passThrough m (← one))
    else if t = "TanhLUT" then some (t, ← tanhLut ext.tanh m c.nodes table)
    else if t = "Softmax" then some (t, ← passThrough m (← one))
    else if t = "QuantizeLinear" then some (t, ← linear m (← one))
    else if t = "DequantizeLinear" then some (t, ← linear m (← one))
    else if t = "QLinearAdd" then some (t, ← qlinear false m (← one))
    else if t = "QLinearMatMul" then some (t, ← qlinear true m (← one))
    else if t = "QLinearSigmoid" then some ("SigmoidLUT", ← sigmoidLut ext.sigmoid m (← one) table)
    else none
  some { opType := name, name := name, inputs := b.1, outputs := b.2 }

/-- `".".join(...)` of the operator types (graph.py:61-63). -/
def joinTypes (ts : List (List Char)) : List Char := ['.'].intercalate ts

/-- `ADVANCED_OPERATORS` (graph.py:6-8), the only entry. -/
def tanhSeq : List (List Char) := ["DequantizeLinear".toList, "Tanh".toList, "QuantizeLinear".toList]

/-- `__get_next_ops` (graph.py:44-78) on the remaining nodes `n :: ns`: the candidate and what remains after it.  The
match is a *string prefix* test on the dotted types. -/
def nextOp (n : ONode) (ns : List ONode) : Cand × List ONode :=
  if joinTypes tanhSeq <+: joinTypes ((n :: ns).map (fun o => o.opType.toList)) then
    (⟨"TanhLUT", (n :: ns).take 3⟩, (n :: ns).drop 3)
  else (⟨n.opType, [n]⟩, ns)

/-- The `while` loop of `build_graph` (graph.py:37-40) without the builders; `none` if it were still running after
`fuel` rounds. -/
def candidates : ℕ → List ONode → Option (List Cand)
  | _, [] => some []
  | 0, _ :: _ => none
  | k + 1, n :: ns => (candidates k (nextOp n ns).2).map ((nextOp n ns).1 :: ·)

/-- `OnnxGraph(model).build_graph()` (graph.py:29-42). -/
def buildGraph (ext : Ext) (m : OModel)
    (table : Table := fun f is izp os ozp => Quantization.createLUT (uintDtype 8) f is izp os ozp) : Option (List OpJ) := do
  (← candidates m.nodes.length m.nodes).mapM (fun c => buildOp ext m c table)

/-- `layer_info_to_tensor` inside an input/output entry (2json.py:31-32). -/
def infoNode (i : String × ℕ) : Option NodeJ :=
  some { scale := none, zeroPoint := none, tensor := some ⟨none, [i.2], "?"⟩, lut := none }

/-- `model2json` (2json.py:24-33).  The `output` list is built from the graph's *inputs*, as in the code; the missing
`operators` count is 0. -/
def model2json (ext : Ext) (m : OModel)
    (table : Table := fun f is izp os ozp => Quantization.createLUT (uintDtype 8) f is izp os ozp) : Option NetJ := do
  some { engine := "ONNX", operators := 0, graph := ← buildGraph ext m table, input := m.inputs.map infoNode,
         output := m.inputs.map infoNode }

end Verif.Onnx2Json
