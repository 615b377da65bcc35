import Verif.Model.Sequential
import Verif.Model.Keras
import Verif.Model.Onnx2Json

/-!
# Model of the TFLite converter
(`model_converters/tflite2json/itcl_tflite2json/__init__.py`, `_tflite2json.py`, `operators/*.py`, `util/enum2str.py`,
`settings.yaml`)

`_tflite2json.py` repeats the code of `__init__.py`.  `FullyConnectedOperator` (operators/FullyConnected.py) is never
reached (`if False and …`, __init__.py:80) and not modelled.

Simplifications: of the flatbuffer only what the converter reads is kept, plus the fused activation it does not read;
tensor and buffer indices are natural numbers and reading past a vector is a failure (omitted optional operands, index
-1, are not modelled: the flatbuffer reader then reinterprets unrelated bytes); constant tensors hold integers and have one
to three dimensions; texts of the format (descriptions, tensor names) and the version number are dropped; scales are
rational.
-/

namespace Verif.Tflite2Json

/-- A tensor of the subgraph. -/
structure TTensor where
  /-- `node.Name().decode("utf8")`. -/
  name : String
  /-- `node.Buffer()`. -/
  buffer : ℕ
  /-- `node.Type()`. -/
  type : ℤ
  /-- `node.ShapeAsNumpy()`, `none` if the field is absent. -/
  shape : Option (List ℕ)
  /-- `node.Quantization()` with its scale and zero point vectors; an absent vector is empty. -/
  quant : Option (List ℚ × List ℤ)
deriving DecidableEq, Repr

/-- The fused activation of an operator (`FusedActivationFunction` of its builtin options): never read. -/
inductive Fused
  | none | relu | relu6
deriving DecidableEq, Repr

/-- An operator of the subgraph. -/
structure TOp where
  opcodeIndex : ℕ
  inputs : List ℕ
  outputs : List ℕ
  fused : Fused := .none
deriving DecidableEq, Repr

/-- A TFLite model: the builtin codes of its operator codes, whether each buffer has a data vector, and its first
subgraph. -/
structure TModel where
  opcodes : List ℤ
  buffers : List Bool
  tensors : List TTensor
  operators : List TOp
  inputs : List ℕ
  outputs : List ℕ
deriving DecidableEq, Repr

/-- The TFLite interpreter: name and index of every tensor (`get_tensor_details()`), contents (`get_tensor(index)`,
`none` where it raises). -/
structure Interp where
  details : List (String × ℕ)
  content : ℕ → Option (Arr ℤ)

/-- Members of an enumeration class of the `tflite` package, as `getmembers` lists them. -/
abbrev Enum := List (String × ℤ)

/-- The dictionaries `_dtype_lut`, `_layers_lut` and their look-up (util/enum2str.py:6-12, 24, 28-34, 46): names with a
double underscore are left out, the last name of a code wins, an unknown code is "?". -/
def enum2str (e : Enum) (code : ℤ) : String :=
  (((e.filter (fun p => ¬ contains "__" p.1.toList)).reverse.find? (fun p => p.2 = code)).map Prod.fst).getD "?"

/-- The enumerations the converter uses: `tflite.BuiltinOperator`, `tflite.TensorType`. -/
structure Enums where
  ops : Enum
  types : Enum

/-- `v.ScaleAsNumpy() or 0`: an absent or empty vector, or one element equal to 0, gives the integer 0 (inner `none`); a
vector of several elements has no truth value and raises. -/
def orZero {α : Type} [DecidableEq α] (zero : α) : List α → Option (Option α)
  | [] => some none
  | [x] => some (if x = zero then none else some x)
  | _ => none

/-- Scale and zero point of a tensor (operators/BaseOperator.py:97-109). -/
def params : Option (List ℚ × List ℤ) → Option (Option ℚ × Option ℤ)
  | none => some (none, none)
  | some (s, z) => do
    let s ← orZero 0 s
    let z ← orZero 0 z
    some (if s.isSome || z.isSome then (some (s.getD 0), some (z.getD 0)) else (none, none))

/-- Contents of a tensor, by the name it is exported with (operators/BaseOperator.py:85-95): only if its buffer has a data
vector.  `layer_name2idx` (__init__.py:23-25) is a dict comprehension, so the last tensor of a name wins; `get_tensor("")`
for an unknown name raises. -/
def readData (ip : Interp) (name : String) (stored : Bool) : Option (Option (Arr ℤ)) :=
  if stored then
    match ip.details.reverse.find? (fun e => e.1 = name) with
    | some e => (ip.content e.2).map some
    | none => none
  else some none

/-- The exported shape (operators/BaseOperator.py:114): that of the contents if there are any. -/
def shapeOf : Option (Arr ℤ) → Option (List ℕ) → Option (List ℕ)
  | some a, _ => some a.shape
  | none, s => s

/-- `BaseOperator.build_from_node` (operators/BaseOperator.py:62-120). -/
def buildNode (en : Enums) (ip : Interp) (m : TModel) (t : TTensor) : Option NodeJ := do
  let stored ← m.buffers[t.buffer]?
  let data ← readData ip (if t.name = "" then "?" else t.name) stored
  let p ← params t.quant
  let shape ← shapeOf data t.shape
  some { scale := p.1, zeroPoint := p.2, tensor := some ⟨data, shape, enum2str en.types t.type⟩, lut := none }

/-- `build_from_node(…, subgraph.Tensors(i), …)` (__init__.py:36-47, BaseOperator.py:37-57). -/
def nodeAt (en : Enums) (ip : Interp) (m : TModel) (i : ℕ) : Option NodeJ := do
  buildNode en ip m (← m.tensors[i]?)

/-- `BaseOperator.build` (operators/BaseOperator.py:32-58). -/
def baseOp (en : Enums) (ip : Interp) (m : TModel) (op : TOp) : Option OpJ := do
  let name := enum2str en.ops (← m.opcodes[op.opcodeIndex]?)
  let inputs ← op.inputs.mapM (nodeAt en ip m)
  let outputs ← op.outputs.mapM (nodeAt en ip m)
  some { opType := name, name := name, inputs := inputs, outputs := outputs }

/-- `TanhLUT.build` and `SigmoidLUT.build` (operators/TanhLUT.py:18-55, SigmoidLUT.py:31-72) with the settings
`lut_depth = 3`, `min_removal = 0` (settings.yaml): an int8 table stored in the first input node.  `table` is `create_LUT`;
the default computes exactly, see `Fmt.int8Table` for the one that rounds. -/
def lutOp (f : ℚ → ℚ) (name : String) (en : Enums) (ip : Interp) (m : TModel) (op : TOp)
    (table : Onnx2Json.Table := fun f is izp os ozp => Quantization.createLUT (intDtype 7) f is izp os ozp) : Option OpJ := do
  let b ← baseOp en ip m op
  match b.inputs, b.outputs with
  | i :: is, o :: _ =>
    let lut := table f (Onnx2Json.orElse 0 i.scale 1) (Onnx2Json.orElse 0 i.zeroPoint 0)
      (Onnx2Json.orElse 0 o.scale 1) (Onnx2Json.orElse 0 o.zeroPoint 0)
    if lut.length = 256 then
      some { opType := name, name := name, outputs := b.outputs
             inputs := { i with lut := some ⟨some lut, some 128, some (ReducedLUT.mk' lut 3 0).serialize⟩ } :: is }
    else none
  | _, _ => none

/-- `_build_from_operator` (__init__.py:67-87). -/
def buildOp (ext : Ext) (en : Enums) (ip : Interp) (m : TModel) (op : TOp)
    (table : Onnx2Json.Table := fun f is izp os ozp => Quantization.createLUT (intDtype 7) f is izp os ozp) : Option OpJ := do
  let name := enum2str en.ops (← m.opcodes[op.opcodeIndex]?)
  if name = "TANH" then lutOp ext.tanh "TANHLUT" en ip m op table
  else if name = "LOGISTIC" then lutOp ext.sigmoid "SIGMOIDLUT" en ip m op table
  else baseOp en ip m op

/-- `convert` (__init__.py:18-63), up to writing the file. -/
def convert (ext : Ext) (en : Enums) (ip : Interp) (m : TModel)
    (table : Onnx2Json.Table := fun f is izp os ozp => Quantization.createLUT (intDtype 7) f is izp os ozp) : Option NetJ := do
  let inputs ← m.inputs.mapM (nodeAt en ip m)
  let outputs ← m.outputs.mapM (nodeAt en ip m)
  let graph ← m.operators.mapM (fun op => buildOp ext en ip m op table)
  some { engine := "TFLITE", operators := m.operators.length, graph := graph, input := inputs.map some
         output := outputs.map some }

end Verif.Tflite2Json
