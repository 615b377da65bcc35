import Verif.Model.Sequential
import Verif.Model.Node

/-!
# Model of the float Keras converter
(`model_converters/keras2json/keras2json/_convert.py`, `layers/*.py`)

Simplifications: of a Keras layer only what the converter reads is kept, an absent attribute or configuration key is
`none` (reading it raises); `str.upper`/`str.lower` are their ASCII parts; descriptions and dates are dropped; numbers
are rational.
-/

namespace Verif.Keras2Json

/-- A numpy array with its dtype name. -/
structure FTensor where
  dtype : String
  arr : FArr
deriving DecidableEq, Repr

/-- What the converter reads from a Keras layer object. -/
structure Layer where
  className : String
  name : String
  weights : List FTensor
  /-- `layer.activation`: its `__name__` if it has one, and the name of its type. -/
  activation : Option (Option String × String)
  /-- `layer.get_config()["units"]`. -/
  units : Option ℕ
  /-- `layer.get_config()["return_sequences"]`. -/
  returnSequences : Option Bool
  /-- `layer._batch_input_shape`; an entry is `none` if that dimension is open. -/
  batchInputShape : Option (List (Option ℕ))
  strides : Option (List ℕ)
  padding : Option String
  poolSize : Option (List ℕ)
deriving DecidableEq, Repr

/-- The value list of an attribute (specification.py:50-55). -/
inductive Attr where
  | ints (v : List ℕ)
  | bools (v : List Bool)
  | steps (v : Option ℕ)
deriving DecidableEq, Repr

/-- A node of the float format: tensor name and tensor; scale, zero point and table are always `None`. -/
structure FNode where
  name : String
  tensor : FTensor
deriving DecidableEq, Repr

/-- `Operator` (specification.py:57-67); the outputs are always empty. -/
structure FOp where
  opType : String
  name : String
  inputs : List FNode
  attributes : List (String × Attr) := []
deriving DecidableEq, Repr

/-- `JsonNetwork` (specification.py:69-81) as the converter fills it; input and output lists are always empty. -/
structure FNet where
  engine : String
  operators : ℕ
  graph : List FOp
  input : List FNode
  output : List FNode
deriving DecidableEq, Repr

/-- Every `d`-th element from position `j`. -/
def every (d j : ℕ) (data : List ℚ) : List ℚ := (List.range (data.length / d)).map (fun i => data.getD (i * d + j) 0)

/-- Row-major data of the transposed array; the first argument is the reversed shape. -/
def transposeData : List ℕ → List ℚ → List ℚ
  | [], data => data
  | d :: rest, data => (List.range d).flatMap (fun j => transposeData rest (every d j data))

/-- `a.T`. -/
def transpose (t : FTensor) : FTensor :=
  ⟨t.dtype, t.arr.shape.reverse, transposeData t.arr.shape.reverse t.arr.data⟩

/-- `Dense.from_model` (layers/dense.py:12-82).  `np.zeros(len(kernel))` is a float64 vector as long as the kernel has
rows; `len` of a 0-dimensional array raises. -/
def dense (l : Layer) : Option (List FOp) := do
  let act ← l.activation
  let kernel ← l.weights[0]?
  let bias ← match l.weights[1]? with
    | some b => some b
    | none => (kernel.arr.shape[0]?).map (fun n => ⟨"float64", [n], List.replicate n 0⟩)
  let fn ← act.1
  some
    [{ opType := "FULLY_CONNECTED_F", name := l.name
       inputs := [⟨l.name ++ "/Kernel", transpose kernel⟩, ⟨l.name ++ "/Bias", bias⟩] },
     { opType := fn, name := fn ++ " activation function", inputs := [] }]

/-- `_LAYER_TYPES` (layers/lstm.py:7). -/
def gateNames : List String := ["input", "forget_gate", "cell", "output"]

/-- The placeholder `np.array([[0]] * 4)` rows (layers/lstm.py:42-55), in exported order. -/
def placeholders : List FNode :=
  ["kernel/", "recurrent_kernel/", "bias/"].flatMap (fun p =>
    gateNames.map (fun g => ⟨p ++ g, ⟨"int64", [1], [0]⟩⟩))

/-- `LSTM.from_model` (layers/lstm.py:24-90). -/
def lstm (l : Layer) : Option (List FOp) := do
  let units ← l.units
  let W ← l.weights[0]?
  let U ← l.weights[1]?
  let B ← l.weights[2]?
  let shape ← l.batchInputShape
  if shape.length ≠ 3 then none
  else do
    let window ← shape[1]?
    let rs ← l.returnSequences
    some
      [{ opType := "LSTM_F", name := "LSTM Layer"
         inputs := placeholders ++ [⟨"kernel/complete", transpose W⟩, ⟨"recurrent_kernel/complete", transpose U⟩,
           ⟨"bias/complete", B⟩]
         attributes := [("units", .ints [units]), ("return_sequences", .bools [rs]), ("steps", .steps window)] }]

/-- `0 if "valid" in str(layer.padding).lower() else 1` (layers/conv2d.py:19, maxpool2d.py:16). -/
def paddingCode (p : String) : ℕ := if contains "valid" (p.toList.map Char.toLower) then 0 else 1

/-- `get_activation_name` (layers/_activations.py:1-6). -/
def activationName (a : Option String × String) : String := String.ofList (upper (a.1.getD a.2))

/-- `Conv2d.from_model` (layers/conv2d.py:12-49). -/
def conv2d (l : Layer) : Option (List FOp) := do
  let W ← l.weights[0]?
  let B ← l.weights[1]?
  let strides ← l.strides
  let padding ← l.padding
  let act ← l.activation
  let fn := activationName act
  some
    [{ opType := "CONV_2D_F", name := "2D Convolution Layer", inputs := [⟨"kernel", W⟩, ⟨"bias", B⟩]
       attributes := [("strides", .ints strides), ("padding", .ints [paddingCode padding])] },
     { opType := fn ++ "_F", name := fn ++ " Float Activation", inputs := [] }]

/-- `Flatten.from_model` (layers/flatten.py:6-19). -/
def flatten (_ : Layer) : Option (List FOp) := some [{ opType := "FLATTEN", name := "Flatten Layer", inputs := [] }]

/-- `MaxPool2D.from_model` (layers/maxpool2d.py:11-37). -/
def maxPool2d (l : Layer) : Option (List FOp) := do
  let strides ← l.strides
  let padding ← l.padding
  let pool ← l.poolSize
  some
    [{ opType := "MAXPOOLING_2D_F", name := "2D Max Pooling Layer", inputs := []
       attributes := [("strides", .ints strides), ("pool_size", .ints pool), ("padding", .ints [paddingCode padding])] }]

/-- `_from_layer` (_convert.py:11-29); `none` is the `ValueError` (or an error of the builder). -/
def fromLayer (l : Layer) : Option (List FOp) :=
  let name := upper l.className
  if contains "DENSE" name then dense l
  else if contains "LSTM" name then lstm l
  else if contains "CONV2D" name then conv2d l
  else if contains "FLATTEN" name then flatten l
  else if contains "MAXPOOLING2D" name then maxPool2d l
  else if name ∈ ["INPUT".toList, "OUTPUT".toList, "INPUTLAYER".toList, "DROPOUT".toList] then some []
  else none

/-- The loop `for l in model.layers: operators.extend(_from_layer(l))` (_convert.py:42-44). -/
def operatorsOf : List Layer → Option (List FOp)
  | [] => some []
  | l :: ls => do
    let ops ← fromLayer l
    let rest ← operatorsOf ls
    some (ops ++ rest)

/-- `keras2json` (_convert.py:32-56). -/
def keras2json (layers : List Layer) : Option FNet := do
  let ops ← operatorsOf layers
  some { engine := "keras", operators := ops.length, graph := ops, input := [], output := [] }

end Verif.Keras2Json
