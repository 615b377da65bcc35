import Verif.Model.Node
import Verif.Model.Distribution
import Verif.Model.Sequential

/-!
# Model of the Keras quantization pipeline
(`quantizer/itcl_quantizer/tensor_extractor/keras/keras_builder.py` and its `layers/`,
`quantizer/itcl_quantizer/tensor_extractor/operator.py`, `quantizer/itcl_quantizer/util/network.py`)

Node objects live in a `World` (`Verif.Model.Node`); operators refer to them by identity, as in Python, so a later
parameter update of a node is visible in every operator that uses it.

Simplifications: float32 arithmetic of TensorFlow is exact rational arithmetic; activation functions act element-wise
(the only non-element-wise one, softmax, is never applied by this code); descriptions, dates and node names are dropped.
The debug-mode-only `_quantization_noise` is not modelled.
-/

namespace Verif

namespace Arr

/-- Shape of a numpy array. -/
def shape {α : Type} : Arr α → List ℕ
  | vec x => [x.length]
  | mat x => [x.length, (x.getD 0 []).length]
  | cube x => [x.length, (x.getD 0 []).length, ((x.getD 0 []).getD 0 []).length]

/-- The array as shape and flat data. -/
def toFArr (a : Arr ℚ) : FArr := ⟨a.shape, a.flat⟩

/-- `m` consecutive rows of length `n` of a flat array. -/
def chunks {α : Type} (m n : ℕ) (l : List α) : List (List α) :=
  (List.range m).map (fun i => (l.drop (i * n)).take n)

/-- The array of a given shape with the given row-major data (`ndarray.tolist()`); arrays with more than three
dimensions are not modelled. -/
def ofShape {α : Type} : List ℕ → List α → Option (Arr α)
  | [_], l => some (vec l)
  | [m, n], l => some (mat (chunks m n l))
  | [k, m, n], l => some (cube ((chunks k (m * n) l).map (chunks m n)))
  | _, _ => none

end Arr

namespace Keras

/-- An operator's reference to a node object.  `exclude` is `_exclude_batch_dimension` and `_exclude_tensor`, which
are always set together (keras_dense.py:233-235, keras_input.py:24-29, activations.py:85-90, keras_lstm.py:203-208). -/
structure Ref where
  id : ℕ
  exclude : Bool
deriving DecidableEq, Repr

/-- `Operator` (operator.py:25-48). -/
structure Op where
  opType : String
  name : String
  inputs : List Ref
  outputs : List Ref
  returnSequences : Option Bool := none
deriving DecidableEq, Repr

/-- `QuantizationResult` (abstract_layer.py:21-40).  `operators` is `None` only in the artificial input of
`KerasInput.quantize`, which does not look at it. -/
structure QRes where
  data : Arr ℚ
  out : Option Ref
  ops : List Op

/-- `KerasDenseCfg` (config/models/keras.py:83-90), as far as the pipeline reads it.  `adaround` says whether an
optimizer is configured. -/
structure DenseCfg where
  activationDtype : String := "int8"
  biasAddDtype : String := "int8"
  biasDtype : String := "int32"
  kernelDtype : String := "int8"
  kernelSymmetric : Bool := false
  adaround : Bool := false
deriving DecidableEq, Repr

/-- `QuantizerCfg` (config/models/keras.py:120-126), as far as `_quantize` reads it.  A layer-specific entry that is
not a `KerasDenseCfg` (`none`) lacks the attributes of one. -/
structure Cfg where
  dense : DenseCfg := {}
  quantizeDtype : String := "int8"
  specific : List (String × Option DenseCfg) := []

/-- A Keras `Dense` layer: `kernel[input][unit]`, optional bias, activation function and its `__name__`. -/
structure KDense where
  name : String
  units : ℕ
  kernel : List (List ℚ)
  bias : Option (List ℚ)
  actName : String
  act : ℚ → ℚ

/-- A Keras `LSTM` layer: kernel `[feature][4·units]`, recurrent kernel `[unit][4·units]`, bias `[4·units]`. -/
structure KLSTM where
  name : String
  units : ℕ
  kernel : List (List ℚ)
  recurrent : List (List ℚ)
  bias : List ℚ
  returnSequences : Bool

/-- The layers of a Keras model, as `CheckType` (keras/utils.py:4-28) sees them. -/
inductive KLayer
  | dense (l : KDense)
  | lstm (l : KLSTM)
  | dropout
  | input
  | other

/-- `Quantization(dtype)` for a dtype text; `none` where it raises. -/
def quantization (dtype : String) : Option GDtype := (GDtype.ofString dtype.toList).toOption

/-! ## Activations -/

/-- `SKIP_FUNCTIONS` (activations.py:19). -/
def skipFunctions : List (List Char) := ["LINEAR".toList, "SOFTMAX".toList, "RELU".toList, "RELU6".toList]

/-- `LUT_FUNCTIONS` (activations.py:16). -/
def lutFunctions : List (List Char) := ["TANH".toList, "SIGMOID".toList]

/-- `quantize_activation_node` (activations.py:32-95) with the default arguments, the only ones used.  The override
of SOFTMAX is dead code (SOFTMAX is skipped before).  `none` where calibration raises. -/
def quantizeActivation (w : World) (fn : ℚ → ℚ) (actName : String) (data : Arr ℚ) (q : GDtype) (inp : Ref) :
    Option (World × Option Op × Arr ℚ) :=
  let u := upper actName
  if u ∈ skipFunctions then some (w, none, data)
  else do
    let activated := data.map fn
    let p ← (Dist.build activated.flat).quantize q
    let isLut := decide (u ∈ lutFunctions)
    let opName := String.ofList (if isLut then u ++ "LUT".toList else u)
    let w := if isLut then w.setNode inp.id ((w.nodes inp.id).withLut fn p.1 p.2) else w
    let out : Ref := ⟨w.next, true⟩
    let w := w.alloc ((Node.base p.1 p.2 q).withTensor activated.toFArr)
    some (w, some { opType := opName, name := opName, inputs := [inp], outputs := [out] }, activated)

/-! ## Dense -/

namespace KDense

/-- `np.transpose(weights[0])` (keras_dense.py:95): one row per unit. -/
def kernelT (l : KDense) : List (List ℚ) :=
  (List.range l.units).map (fun j => l.kernel.map (fun r => r.getD j 0))

/-- The bias, zeros if the layer has none (keras_dense.py:96-100). -/
def biasV (l : KDense) : List ℚ := l.bias.getD (List.replicate l.units 0)

/-- One row through the layer without its activation: `x @ kernel + bias`. -/
def preRow (l : KDense) (x : List ℚ) : List ℚ :=
  List.zipWith (fun row b => (List.zipWith (· * ·) row x).sum + b) l.kernelT l.biasV

/-- The layer without activation on a batch (keras_dense.py:253-255); Keras rejects other widths and 1-D inputs. -/
def pre (l : KDense) : Arr ℚ → Option (Arr ℚ)
  | .vec _ => none
  | .mat X => if ∀ x ∈ X, x.length = l.kernel.length then some (.mat (X.map l.preRow)) else none
  | .cube X =>
    if ∀ M ∈ X, ∀ x ∈ M, x.length = l.kernel.length then some (.cube (X.map (fun M => M.map l.preRow))) else none

/-- `__bias_add_trim` (keras_dense.py:35-55, 114-117): `x[0:]` for RELU, `x[0:6]` for RELU6, identity otherwise. -/
def trim (l : KDense) (d : Dist) : Option Dist :=
  if upper l.actName = "RELU".toList then d.getSlice (some 0) none
  else if upper l.actName = "RELU6".toList then d.getSlice (some 0) (some 6)
  else some d

/-- `__quantize_kernel` (keras_dense.py:153-184): calibrate with forced zero point 0, clip to the calibrated range. -/
def kernelNode (l : KDense) (q : GDtype) (symmetric : Bool) : Option Node := do
  let d := Dist.build l.kernelT.flatten
  let p ← d.quantize q (some 0) none symmetric
  let lo ← d.getMin
  let hi ← d.getMax
  some ((Node.base p.1 p.2 q).withTensor ⟨[l.units, l.kernel.length], l.kernelT.flatten.map (clip lo hi)⟩)

/-- `quantize` (keras_dense.py:288-379) with the constructor's dtype parsing (keras_dense.py:106-109).  Kernel and
bias nodes and their hooks are `World.dense`.  The bias-add node keeps the layer's *input* as its tensor
(keras_dense.py:262-265).  A configured layer-wise AdaRound raises `NotImplementedError` (keras_dense.py:353-361). -/
def quantize (w : World) (c : DenseCfg) (l : KDense) (prev : QRes) : Option (World × QRes) := do
  let qk ← quantization c.kernelDtype
  let qa ← quantization c.activationDtype
  let qba ← quantization c.biasAddDtype
  let qb ← quantization c.biasDtype
  let input ← prev.out
  let kn ← l.kernelNode qk c.kernelSymmetric
  let kid := w.next
  let w := w.dense input.id kn qb ⟨[l.biasV.length], l.biasV⟩
  let pre ← l.pre prev.data
  let d ← l.trim (Dist.build pre.flat)
  let p ← d.quantize qba
  let ba : Ref := ⟨w.next, true⟩
  let w := w.alloc ((Node.base p.1 p.2 qba).withTensor prev.data.toFArr)
  let fc : Op := { opType := "FULLY_CONNECTED", name := "fully_connected " ++ l.name,
                   inputs := [input, ⟨kid, false⟩, ⟨kid + 1, false⟩], outputs := [ba] }
  if c.adaround then none
  else
    let r ← quantizeActivation w l.act l.actName pre qa ba
    match r.2.1 with
    | none => some (r.1, { data := r.2.2, out := some ba, ops := [fc] })
    | some a => some (r.1, { data := r.2.2, out := a.outputs.head?, ops := [fc, a] })

end KDense

/-! ## LSTM -/

namespace KLSTM

/-- Columns `i·n .. (i+1)·n` of a matrix (`M[:, i*n:(i+1)*n]`). -/
def cols (n i : ℕ) (M : List (List ℚ)) : List (List ℚ) := M.map (fun r => (r.drop (i * n)).take n)

/-- `row @ M` for a matrix with `n` columns. -/
def vecMatQ (row : List ℚ) (M : List (List ℚ)) (n : ℕ) : List ℚ :=
  (List.range n).map (fun j => (List.zipWith (· * ·) row (M.map (fun r => r.getD j 0))).sum)

/-- One step of the float LSTM for one sample (keras_lstm.py:654-682): the recurrent sum `Y`, the new cell state and
the new hidden state. -/
def stepRow (ext : Ext) (l : KLSTM) (x h c : List ℚ) : List ℚ × List ℚ × List ℚ :=
  let n := l.units
  let y := List.zipWith (· + ·) (vecMatQ h l.recurrent (4 * n))
    (List.zipWith (· + ·) (vecMatQ x l.kernel (4 * n)) l.bias)
  let i := (y.take n).map ext.sigmoid
  let f := ((y.drop n).take n).map ext.sigmoid
  let g := ((y.drop (2 * n)).take n).map ext.tanh
  let o := (y.drop (3 * n)).map ext.sigmoid
  let c' := List.zipWith (· + ·) (List.zipWith (· * ·) f c) (List.zipWith (· * ·) i g)
  (y, c', List.zipWith (· * ·) o (c'.map ext.tanh))

/-- All steps of the float LSTM on a batch (keras_lstm.py:654-682), one list entry per time step holding the recurrent
sums, cell states and hidden states of all samples. -/
def steps (ext : Ext) (l : KLSTM) : List (List (List ℚ)) → List (List ℚ) → List (List ℚ) →
    List (List (List ℚ) × List (List ℚ) × List (List ℚ))
  | [], _, _ => []
  | X :: Xs, H, C =>
    let r := List.zipWith (fun x hc => stepRow ext l x hc.1 hc.2) X (List.zip H C)
    (r.map (fun s => s.1), r.map (fun s => s.2.1), r.map (fun s => s.2.2)) ::
      steps ext l Xs (r.map (fun s => s.2.2)) (r.map (fun s => s.2.1))

/-- `LSTM.__call__` (keras_lstm.py:621-699) on `X[batch][time][feature]`: the list of steps.  `none` for a wrong number
of features, ragged samples, or no samples/steps (later slicing raises). -/
def call (ext : Ext) (l : KLSTM) (X : List (List (List ℚ))) :
    Option (List (List (List ℚ) × List (List ℚ) × List (List ℚ))) :=
  match X with
  | [] => none
  | s :: _ =>
    if (∀ x ∈ X, x.length = s.length ∧ ∀ r ∈ x, r.length = l.kernel.length) ∧ s ≠ [] then
      let z := List.replicate X.length (List.replicate l.units (0 : ℚ))
      some (steps ext l (LSTM.swap X s.length []) z z)
    else none

/-- `_get_scale_zp` (keras_lstm.py:67-86). -/
def scaleZp (data : List ℚ) (q : GDtype) (symmetric : Bool := false) : Option (ℚ × ℤ) :=
  (Dist.build data).quantize q (if symmetric then some 0 else none) none symmetric

/-- A calibrated node with its tensor. -/
def calNode (a : Arr ℚ) (q : GDtype) (symmetric : Bool := false) : Option Node := do
  let p ← scaleZp a.flat q symmetric
  some ((Node.base p.1 p.2 q).withTensor a.toFArr)

/-- Creating several node objects in order. -/
def allocAll (w : World) (ns : List Node) : World := ns.foldl World.alloc w

/-- References to `k` consecutive objects starting at `i`. -/
def refs (i k : ℕ) (exclude : Bool) : List Ref := (List.range k).map (fun j => ⟨i + j, exclude⟩)

/-- One gate activation of `KerasLSTM.quantize` (keras_lstm.py:417-466): `deepcopy` of the gate's node, then
`quantize_activation_node`; returns the new input node (with the table) and output node. -/
def gateAct (w : World) (src : ℕ) (fn : ℚ → ℚ) (actName : String) (data : Arr ℚ) (q : GDtype) :
    Option (World × List Ref) := do
  let inp : Ref := ⟨w.next, true⟩
  let w := w.alloc (w.nodes src)
  let r ← quantizeActivation w fn actName data q inp
  match r.2.1 with
  | none => none
  | some op => some (r.1, [inp] ++ op.outputs.take 1)

/-- The recorded float tensors, one matrix `[sample][column]` per time step (keras_lstm.py:688-697): recurrent sums,
cell states, hidden states. -/
abbrev Steps := List (List (List ℚ) × List (List ℚ) × List (List ℚ))

/-- `recurrent_add[:, :, i*n:(i+1)*n]`. -/
def gateCols (l : KLSTM) (st : Steps) (i : ℕ) : Arr ℚ := .cube (st.map (fun s => cols l.units i s.1))

/-- `hidden_state` (keras_lstm.py:689). -/
def hiddens (st : Steps) : List (List (List ℚ)) := st.map (fun s => s.2.2)

/-- `cell_state` (keras_lstm.py:690). -/
def cells (st : Steps) : List (List (List ℚ)) := st.map (fun s => s.2.1)

/-- The four bias nodes (keras_lstm.py:142-171). -/
def biasNodes (l : KLSTM) (inScale : ℚ) (ks : List Node) : List Node :=
  (List.range 4).map (fun i =>
    (Node.base (inScale * ((ks.map Node.scale).getD i 0)) 0 (intDtype 31)).withTensor
      (Arr.vec ((l.bias.drop (i * l.units)).take l.units)).toFArr)

/-- The four bias-add nodes (keras_lstm.py:173-210); `bias_add` is recorded as the recurrent sum
(keras_lstm.py:691). -/
def biasAddNodes (l : KLSTM) (st : Steps) (us : List Node) (hidScale : ℚ) : List Node :=
  (List.range 4).map (fun i =>
    (Node.base ((us.map Node.scale).getD i 0 * hidScale) 0 (intDtype 31)).withTensor (l.gateCols st i).toFArr)

/-- The 22 calibrated nodes of an LSTM (keras_lstm.py:399-411), in the order kernels, recurrent kernels, biases,
hidden state, bias-adds, recurrent sums, cell state; with the default dtypes of the constructor (all `int8`, bias and
bias-add `int32`), the only ones used (keras_builder.py:126). -/
def nodes (l : KLSTM) (inScale : ℚ) (st : Steps) : Option (List Node) := do
  let ks ← (List.range 4).mapM (fun i => calNode (.mat (cols l.units i l.kernel)) (intDtype 7))
  let us ← (List.range 4).mapM (fun i => calNode (.mat (cols l.units i l.recurrent)) (intDtype 7))
  let hid ← calNode (.cube (hiddens st)) (intDtype 7)
  let ras ← (List.range 4).mapM (fun i => calNode (l.gateCols st i) (intDtype 7))
  let cell ← calNode (.cube (cells st)) (intDtype 7) true
  some (ks ++ us ++ l.biasNodes inScale ks ++ [hid] ++ l.biasAddNodes st us hid.scale ++ ras ++ [cell])

/-- The five activation operators (keras_lstm.py:413-488) as their input and output nodes.  `k0` is the first of the 22
nodes.  The input gate's activation is calibrated on `recurrent_add[: n_units]`, i.e. on the first `n_units` *time steps*
of all gates (keras_lstm.py:422). -/
def acts (ext : Ext) (l : KLSTM) (w : World) (k0 : ℕ) (st : Steps) : Option (World × List Ref) := do
  let a0 ← gateAct w (k0 + 17) ext.sigmoid "sigmoid" (.cube ((st.map (fun s => s.1)).take l.units)) (intDtype 7)
  let a1 ← gateAct a0.1 (k0 + 18) ext.sigmoid "sigmoid" (l.gateCols st 1) (intDtype 7)
  let a2 ← gateAct a1.1 (k0 + 19) ext.tanh "tanh" (l.gateCols st 2) (intDtype 7)
  let a3 ← gateAct a2.1 (k0 + 20) ext.sigmoid "sigmoid"
    (.cube (st.map (fun s => s.1.map (fun r => r.drop (3 * l.units))))) (intDtype 7)
  let a4 ← gateAct a3.1 (k0 + 21) ext.tanh "tanh" (.cube (cells st)) (intDtype 7)
  some (a4.1, a0.2 ++ a1.2 ++ a2.2 ++ a3.2 ++ a4.2)

/-- The LSTM operator (keras_lstm.py:493-514). -/
def op (l : KLSTM) (input : Ref) (k0 : ℕ) (actRefs : List Ref) : Op :=
  { opType := "LSTM", name := "lstm_quant " ++ l.name
    inputs := [input] ++ refs k0 4 false ++ refs (k0 + 4) 4 false ++ refs (k0 + 8) 4 false ++
      refs (k0 + 13) 4 true ++ refs (k0 + 17) 4 true ++ refs (k0 + 21) 1 true ++ actRefs
    outputs := [⟨k0 + 12, true⟩]
    returnSequences := some l.returnSequences }

/-- The float output of the layer (keras_lstm.py:684-686). -/
def result (l : KLSTM) (batch : ℕ) (st : Steps) : Option (Arr ℚ) :=
  if l.returnSequences then some (Arr.cube (LSTM.swap (hiddens st) batch [])) else (hiddens st).getLast?.map Arr.mat

/-- The samples of a 3-D array. -/
def samples3 : Arr ℚ → Option (List (List (List ℚ)))
  | .cube X => some X
  | _ => none

/-- `KerasLSTM.quantize` (keras_lstm.py:372-532). -/
def quantize (ext : Ext) (w : World) (l : KLSTM) (prev : QRes) : Option (World × QRes) := do
  let input ← prev.out
  let X ← samples3 prev.data
  let st ← l.call ext X
  let ns ← l.nodes (w.nodes input.id).scale st
  let a ← l.acts ext (allocAll w ns) w.next st
  let res ← l.result X.length st
  some (a.1, { data := res, out := some ⟨w.next + 12, true⟩, ops := [l.op input w.next a.2] })

end KLSTM

/-! ## The pipeline -/

/-- `KerasInput.quantize` (keras_input.py:18-37). -/
def inputQuantize (w : World) (dtype : String) (x : Arr ℚ) : Option (World × QRes) := do
  let q ← quantization dtype
  let p ← (Dist.build x.flat).quantize q
  let r : Ref := ⟨w.next, true⟩
  some (w.alloc ((Node.base p.1 p.2 q).withTensor x.toFArr),
    { data := x, out := some r, ops := [{ opType := "QUANTIZE", name := "QUANTIZE", inputs := [], outputs := [r] }] })

/-- `Dequantize.quantize` (dequantize.py:23-42). -/
def dequantize (prev : QRes) : Option QRes := do
  let op ← prev.ops.getLast?
  let o ← op.outputs.getLast?
  some { data := prev.data, out := none,
         ops := [{ opType := "DEQUANTIZE", name := "DEQUANTIZE", inputs := [o], outputs := [] }] }

/-- `cfg.specific_layers.get(name, cfg.dense)` (keras_builder.py:112); `none` is the `AttributeError`. -/
def Cfg.denseFor (cfg : Cfg) (name : String) : Option DenseCfg := (cfg.specific.lookup name).getD (some cfg.dense)

/-- The body of the layer loop of `_quantize` and `get_layer_quantizer` (keras_builder.py:48-56, 108-134) on the list
of results so far, whose last element is `prev`. -/
def layerStep (ext : Ext) (cfg : Cfg) (w : World) (prev : QRes) : KLayer → Option (World × Option QRes)
  | .dense l => do
    let c ← cfg.denseFor l.name
    let r ← l.quantize w c prev
    some (r.1, some r.2)
  | .lstm l => do
    let r ← l.quantize ext w prev
    some (r.1, some r.2)
  | .dropout => some (w, none)
  | .input => some (w, none)
  | .other => none

/-- The layer loop of `_quantize` (keras_builder.py:48-56): the results of the layers, in order, and the last result
(of the input if no layer produced one). -/
def quantizeLayers (ext : Ext) (cfg : Cfg) : World → QRes → List KLayer → Option (World × QRes × List QRes)
  | w, prev, [] => some (w, prev, [])
  | w, prev, l :: ls => do
    let r ← layerStep ext cfg w prev l
    match r.2 with
    | none => quantizeLayers ext cfg r.1 prev ls
    | some q =>
      let t ← quantizeLayers ext cfg r.1 q ls
      some (t.1, t.2.1, q :: t.2.2)

/-- `_quantize` (keras_builder.py:28-61), starting without any node. -/
def quantizeModel (ext : Ext) (cfg : Cfg) (x : Arr ℚ) (layers : List KLayer) : Option (World × List QRes) := do
  let i ← inputQuantize (World.empty (Node.base 0 0 (intDtype 7))) cfg.quantizeDtype x
  let r ← quantizeLayers ext cfg i.1 i.2 layers
  let d ← dequantize r.2.1
  some (r.1, [i.2] ++ r.2.2 ++ [d])

/-! ## Serialization -/

/-- `NodeTensorTensor.as_json` and `NodeLUT.as_json` (tensor.py:159-171, 326-335, 494-522).  The reduced table is never
built (tensor.py:77-79); quantization parameters are never excluded. -/
def nodeJson (n : Node) (exclude : Bool) : NodeJ :=
  { scale := some n.scale
    zeroPoint := some n.zp
    tensor := n.tensor.map (fun t =>
      { data := if exclude then none else Arr.ofShape t.fp.shape t.quantized
        shape := if exclude then t.fp.shape.drop 1 else t.fp.shape
        dtype := n.quant.repr })
    lut := n.lut.map (fun l => { lut := some l.lut, offset := some l.offset, reduced := none }) }

/-- `Operator.as_json` (operator.py:62-70). -/
def opJson (w : World) (op : Op) : OpJ :=
  { opType := op.opType, name := op.name
    inputs := op.inputs.map (fun r => nodeJson (w.nodes r.id) r.exclude)
    outputs := op.outputs.map (fun r => nodeJson (w.nodes r.id) r.exclude)
    returnSequences := op.returnSequences }

/-- `Network.__init__` (util/network.py:26-37): the operators of all results, in order. -/
def networkOps (rs : List QRes) : List Op := rs.flatMap QRes.ops

/-- `Network.as_json` (util/network.py:57-94). -/
def networkJson (w : World) (rs : List QRes) : NetJ :=
  { engine := "tflite"
    operators := (networkOps rs).length
    graph := (networkOps rs).map (opJson w)
    input := [some { scale := none, zeroPoint := none,
                     tensor := some { data := none, shape := [1, 784], dtype := "FLOAT32" }, lut := none }]
    output := [some { scale := none, zeroPoint := none,
                      tensor := some { data := none, shape := [1, 10], dtype := "FLOAT32" }, lut := none }] }

/-- `Network.as_sequential_network` (util/network.py:96-103). -/
def asSequential (w : World) (rs : List QRes) : Option SeqNet := SeqNet.load (networkJson w rs)

end Keras
end Verif
