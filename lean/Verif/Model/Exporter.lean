import Verif.Model.Keras
import Verif.Model.Float

/-!
# The exporter without objects, over any arithmetic

The same code as in `Verif.Model.Keras` (`keras_builder.py`, `keras_dense.py`, `keras_lstm.py`, `keras_input.py`,
`dequantize.py`, `activations.py`, `tensor.py`), written as a function from weights, configuration and calibration data to the operators of
the exported file, without the heap of node objects, and with the arithmetic as a parameter.  With exact arithmetic it is
proved equal to the heap model (`C94_file`); with floating point arithmetic it is the subject of C95 and C97.
-/

namespace Verif
namespace Keras

/-- The arithmetic the exporter uses, and the float layers of the Keras model. -/
structure Arith where
  /-- `Quantization.quantize` of one number (operators.py:112-139). -/
  quantize : GDtype → ℚ → ℤ → ℚ → ℤ
  /-- The table of `NodeLUT.__init__` (tensor.py:29-80): type, function, input scale and zero point, output scale and zero
  point. -/
  table : GDtype → (ℚ → ℚ) → ℚ → ℤ → ℚ → ℤ → List ℤ
  /-- The product of two scales (keras_dense.py:218). -/
  mul : ℚ → ℚ → ℚ
  /-- `Distribution.quantize` (distribution.py:121-171) without forced values. -/
  calibrate : Dist → GDtype → Option (ℚ × ℤ)
  /-- `Distribution.quantize` with the forced zero point 0. -/
  calibrateKernel : Dist → GDtype → Bool → Option (ℚ × ℤ)
  /-- The Keras layer without its activation, on the calibration data (keras_dense.py:253-255). -/
  pre : KDense → Arr ℚ → Option (Arr ℚ)
  /-- The activation function, as evaluated on calibration data and for tables. -/
  act : KDense → ℚ → ℚ
  /-- The run of an LSTM layer on the calibration data (keras_lstm.py:621-699). -/
  run : KLSTM → List (List (List ℚ)) → Option KLSTM.Steps
  /-- `tf.math.sigmoid`, as evaluated on calibration data and for tables (keras_lstm.py:420, 430, 450). -/
  sigmoid : ℚ → ℚ
  /-- `np.tanh`, as evaluated on calibration data and for tables (keras_lstm.py:440, 463). -/
  tanh : ℚ → ℚ

/-- Exact arithmetic. -/
def Arith.exact (ext : Ext) : Arith where
  quantize d x z s := Quantization.quantize d x z s
  table q fn s z so zo := (NodeLUT.init q fn s z so zo).lut
  mul := (· * ·)
  calibrate d q := d.quantize q
  calibrateKernel d q sym := d.quantize q (some 0) none sym
  pre := KDense.pre
  act := KDense.act
  run := KLSTM.call ext
  sigmoid := ext.sigmoid
  tanh := ext.tanh

/-- The formats of the exporter's floats: of the calibrated data (`np.float32` for what Keras computes, `np.float64` for
most inputs: any choice for each distribution), of the weights of dense layers and the cell states of LSTM layers, of the product of two scales (numpy takes the wider of the two), and of the numbers the
rounding policy of a table is computed from. -/
structure Formats where
  data : Dist → Fmt
  weight : Dist → Fmt
  product : Fmt
  policy : Fmt

/-- What Keras, TensorFlow and numpy compute in floating point: arbitrary functions. -/
structure FloatKeras where
  /-- A dense layer without its activation on the calibration data (keras_dense.py:253-255). -/
  pre : KDense → Arr ℚ → Option (Arr ℚ)
  /-- The activations of dense layers. -/
  act : KDense → ℚ → ℚ
  /-- An LSTM layer on the calibration data (keras_lstm.py:621-699). -/
  run : KLSTM → List (List (List ℚ)) → Option KLSTM.Steps
  /-- `tf.math.sigmoid`. -/
  sigmoid : ℚ → ℚ
  /-- `np.tanh`. -/
  tanh : ℚ → ℚ

/-- Floating point arithmetic (IEEE rounding after every operation, as in `Verif.Model.Float`).  Keras' own float results
are arbitrary functions.  Simplification: `np.histogram`'s outer bin edges are rounded once from the exact
ones (they are the minimum and the maximum of the data, unless all data are equal or the layer is rectified). -/
def Arith.float (F : Formats) (K : FloatKeras) : Arith where
  quantize d x z s := Fmt.f64.quantize d x z s
  table q fn s z so zo := (Quantization.codes q).map (fun c =>
    Fmt.f64.quantizePolicy q (fn (Fmt.f64.dequantize c z s)) zo so (F.policy.baseRounding (fn (Fmt.f64.dequantize c z s)) so))
  mul a b := F.product.fl (a * b)
  calibrate d q := do
    let m ← d.getMin
    let M ← d.getMax
    (F.data d).calibrate ((F.data d).fl m) ((F.data d).fl M) q false
  calibrateKernel d q sym := do
    let m ← d.getMin
    let M ← d.getMax
    let s ← (F.weight d).forcedScale ((F.weight d).fl m) ((F.weight d).fl M) q sym
    some (s, 0)
  pre := K.pre
  act := K.act
  run := K.run
  sigmoid := K.sigmoid
  tanh := K.tanh

/-- A serialized node with its integers (tensor.py:494-522). -/
def Arith.stored (A : Arith) (s : ℚ) (z : ℤ) (q : GDtype) (shape : List ℕ) (data : List ℚ) : NodeJ :=
  ⟨some s, some z, some ⟨Arr.ofShape shape (data.map (fun x => A.quantize q x z s)), shape, q.repr⟩, none⟩

/-- A serialized node without its integers and without batch dimension (tensor.py:494-522). -/
def declared (s : ℚ) (z : ℤ) (q : GDtype) (shape : List ℕ) : NodeJ :=
  ⟨some s, some z, some ⟨none, shape.drop 1, q.repr⟩, none⟩

/-- Where the exporter is: the node the last operator wrote, its scale and zero point, and the calibration data there. -/
structure Tip where
  node : NodeJ
  scale : ℚ
  zp : ℤ
  data : Arr ℚ

/-- The fully connected operator (keras_dense.py:337-351). -/
def fcJson (name : String) (inp kernel bias out : NodeJ) : OpJ :=
  ⟨"FULLY_CONNECTED", "fully_connected " ++ name, [inp, kernel, bias], [out], none⟩

/-- The activation operator (activations.py:60-95). -/
def actJson (actName : String) (inp out : NodeJ) : OpJ :=
  let name := String.ofList (if decide (upper actName ∈ lutFunctions) then upper actName ++ "LUT".toList else upper actName)
  ⟨name, name, [inp], [out], none⟩

/-- A node with the table of an activation that has one (activations.py:66-80). -/
def Arith.tabled (A : Arith) (l : KDense) (q : GDtype) (p a : ℚ × ℤ) (n : NodeJ) : NodeJ :=
  ⟨n.scale, n.zeroPoint, n.tensor,
    if decide (upper l.actName ∈ lutFunctions) then
      some ⟨some (A.table q (A.act l) p.1 p.2 a.1 a.2), some (-q.min), none⟩
    else none⟩

/-- `quantize_activation_node` (activations.py:32-95): the operators of a dense layer whose fully connected operator `fc`
writes the node `out` with parameters `o`. -/
def Arith.activation (A : Arith) (l : KDense) (qa qba : GDtype) (pre : Arr ℚ) (fc : NodeJ → OpJ) (out : NodeJ) (o : ℚ × ℤ) :
    Option (List OpJ × Tip) :=
  if upper l.actName ∈ skipFunctions then some ([fc out], ⟨out, o.1, o.2, pre⟩)
  else (A.calibrate (Dist.build (pre.map (A.act l)).flat) qa).map (fun a =>
    ([fc (A.tabled l qba o a out),
      actJson l.actName (A.tabled l qba o a out) (declared a.1 a.2 qa (pre.map (A.act l)).shape)],
      ⟨declared a.1 a.2 qa (pre.map (A.act l)).shape, a.1, a.2, pre.map (A.act l)⟩))

/-- `__quantize_kernel` (keras_dense.py:153-184): scale and zero point, and the clipped weights. -/
def Arith.kernel (A : Arith) (l : KDense) (q : GDtype) (symmetric : Bool) : Option ((ℚ × ℤ) × List ℚ) := do
  let d := Dist.build l.kernelT.flatten
  let p ← A.calibrateKernel d q symmetric
  let lo ← d.getMin
  let hi ← d.getMax
  some (p, l.kernelT.flatten.map (clip lo hi))

/-- `KerasDense.quantize` (keras_dense.py:288-379): the operators of a dense layer. -/
def Arith.dense (A : Arith) (c : DenseCfg) (l : KDense) (t : Tip) : Option (List OpJ × Tip) := do
  let qk ← quantization c.kernelDtype
  let qa ← quantization c.activationDtype
  let qba ← quantization c.biasAddDtype
  let qb ← quantization c.biasDtype
  let k ← A.kernel l qk c.kernelSymmetric
  let pre ← A.pre l t.data
  let d ← l.trim (Dist.build pre.flat)
  let o ← A.calibrate d qba
  if c.adaround then none
  else
    A.activation l qa qba pre
      (fcJson l.name t.node (A.stored k.1.1 k.1.2 qk [l.units, l.kernel.length] k.2)
        (A.stored (A.mul t.scale k.1.1) 0 qb [l.biasV.length] l.biasV))
      (declared o.1 o.2 qba t.data.shape) o

/-! ### LSTM layers (keras_lstm.py:372-532) -/

/-- `_get_scale_zp` (keras_lstm.py:67-86) of an array, as int8. -/
def Arith.scaleZp (A : Arith) (a : Arr ℚ) : Option (ℚ × ℤ) := A.calibrate (Dist.build a.flat) (intDtype 7)

/-- The nodes of a weight matrix, one for each gate (keras_lstm.py:92-140). -/
def Arith.matNode (A : Arith) (p : ℚ × ℤ) (M : List (List ℚ)) : NodeJ :=
  A.stored p.1 p.2 (intDtype 7) (Arr.mat M).shape (Arr.mat M).flat

/-- The functions and the data of the five activations (keras_lstm.py:417-466): input gate (its calibration data are the first
`n_units` *time steps* of all gates, keras_lstm.py:422), forget gate, candidate, output gate, cell state. -/
def Arith.lstmActs (A : Arith) (l : KLSTM) (st : KLSTM.Steps) : List ((ℚ → ℚ) × Arr ℚ) :=
  [(A.sigmoid, .cube ((st.map (fun s => s.1)).take l.units)), (A.sigmoid, l.gateCols st 1), (A.tanh, l.gateCols st 2),
    (A.sigmoid, .cube (st.map (fun s => s.1.map (fun r => r.drop (3 * l.units))))), (A.tanh, .cube (KLSTM.cells st))]

/-- The calibrated parameters of an LSTM layer: kernels, recurrent kernels, hidden state, recurrent sums, cell state and
activations (keras_lstm.py:395-466). -/
structure LstmCal where
  K : List (ℚ × ℤ)
  U : List (ℚ × ℤ)
  H : ℚ × ℤ
  A : List (ℚ × ℤ)
  C : ℚ × ℤ
  T : List (ℚ × ℤ)

/-- All calibrations of an LSTM layer (keras_lstm.py:395-466). -/
def Arith.lstmCal (A : Arith) (l : KLSTM) (st : KLSTM.Steps) : Option LstmCal := do
  let K ← (List.range 4).mapM (fun i => A.scaleZp (.mat (KLSTM.cols l.units i l.kernel)))
  let U ← (List.range 4).mapM (fun i => A.scaleZp (.mat (KLSTM.cols l.units i l.recurrent)))
  let H ← A.scaleZp (.cube (KLSTM.hiddens st))
  let R ← (List.range 4).mapM (fun i => A.scaleZp (l.gateCols st i))
  let C ← A.calibrateKernel (Dist.build (Arr.cube (KLSTM.cells st)).flat) (intDtype 7) true
  let T ← (A.lstmActs l st).mapM (fun f => A.scaleZp (f.2.map f.1))
  some ⟨K, U, H, R, C, T⟩

/-- The ten nodes of the activations: each node read, with its table, and each node written (keras_lstm.py:417-488). -/
def Arith.lstmTables (A : Arith) (l : KLSTM) (st : KLSTM.Steps) (c : LstmCal) : List NodeJ :=
  (List.zip (A.lstmActs l st) (List.zip (List.zip (c.A ++ [c.C])
      ((List.range 4).map (fun i => (l.gateCols st i).shape) ++ [(Arr.cube (KLSTM.cells st)).shape])) c.T)).flatMap
    (fun x =>
      [⟨some x.2.1.1.1, some x.2.1.1.2, some ⟨none, x.2.1.2.drop 1, (intDtype 7).repr⟩,
          some ⟨some (A.table (intDtype 7) x.1.1 x.2.1.1.1 x.2.1.1.2 x.2.2.1 x.2.2.2), some (-(intDtype 7).min), none⟩⟩,
        declared x.2.2.1 x.2.2.2 (intDtype 7) (x.1.2.map x.1.1).shape])

/-- The LSTM operator (keras_lstm.py:493-514). -/
def Arith.lstmJson (A : Arith) (l : KLSTM) (t : Tip) (st : KLSTM.Steps) (c : LstmCal) : OpJ where
  opType := "LSTM"
  name := "lstm_quant " ++ l.name
  inputs := [t.node] ++
    (List.range 4).map (fun i => A.matNode (c.K.getD i (0, 0)) (KLSTM.cols l.units i l.kernel)) ++
    (List.range 4).map (fun i => A.matNode (c.U.getD i (0, 0)) (KLSTM.cols l.units i l.recurrent)) ++
    (List.range 4).map (fun i => A.stored (A.mul t.scale (c.K.getD i (0, 0)).1) 0 (intDtype 31)
      (Arr.vec ((l.bias.drop (i * l.units)).take l.units)).shape (Arr.vec ((l.bias.drop (i * l.units)).take l.units)).flat) ++
    (List.range 4).map (fun i => declared (A.mul (c.U.getD i (0, 0)).1 c.H.1) 0 (intDtype 31) (l.gateCols st i).shape) ++
    (List.range 4).map (fun i => declared (c.A.getD i (0, 0)).1 (c.A.getD i (0, 0)).2 (intDtype 7) (l.gateCols st i).shape) ++
    [declared c.C.1 c.C.2 (intDtype 7) (Arr.cube (KLSTM.cells st)).shape] ++ A.lstmTables l st c
  outputs := [declared c.H.1 c.H.2 (intDtype 7) (Arr.cube (KLSTM.hiddens st)).shape]
  returnSequences := some l.returnSequences

/-- `KerasLSTM.quantize` (keras_lstm.py:372-532): the operator of an LSTM layer. -/
def Arith.lstm (A : Arith) (l : KLSTM) (t : Tip) : Option (List OpJ × Tip) := do
  let X ← KLSTM.samples3 t.data
  let st ← A.run l X
  let c ← A.lstmCal l st
  let res ← l.result X.length st
  some ([A.lstmJson l t st c],
    ⟨declared c.H.1 c.H.2 (intDtype 7) (Arr.cube (KLSTM.hiddens st)).shape, c.H.1, c.H.2, res⟩)

/-- The layer loop (keras_builder.py:48-56). -/
def Arith.layers (A : Arith) (cfg : Cfg) : Tip → List KLayer → Option (List OpJ × Tip)
  | t, [] => some ([], t)
  | t, .dense l :: ls => do
    let c ← cfg.denseFor l.name
    let r ← A.dense c l t
    let r' ← A.layers cfg r.2 ls
    some (r.1 ++ r'.1, r'.2)
  | t, .dropout :: ls => A.layers cfg t ls
  | t, .input :: ls => A.layers cfg t ls
  | t, .lstm l :: ls => do
    let r ← A.lstm l t
    let r' ← A.layers cfg r.2 ls
    some (r.1 ++ r'.1, r'.2)
  | _, .other :: _ => none

/-- The exported operators: quantize, the layers, dequantize (keras_builder.py:28-61, util/network.py:57-94). -/
def Arith.graph (A : Arith) (cfg : Cfg) (x : Arr ℚ) (ls : List KLayer) : Option (List OpJ) := do
  let q ← quantization cfg.quantizeDtype
  let p ← A.calibrate (Dist.build x.flat) q
  let node := declared p.1 p.2 q x.shape
  let r ← A.layers cfg ⟨node, p.1, p.2, x⟩ ls
  some (⟨"QUANTIZE", "QUANTIZE", [], [node], none⟩ :: r.1 ++ [⟨"DEQUANTIZE", "DEQUANTIZE", [r.2.node], [], none⟩])

/-- The exported file (util/network.py:57-94). -/
def exportJson (graph : List OpJ) : NetJ where
  engine := "tflite"
  operators := graph.length
  graph := graph
  input := [some ⟨none, none, some ⟨none, [1, 784], "FLOAT32"⟩, none⟩]
  output := [some ⟨none, none, some ⟨none, [1, 10], "FLOAT32"⟩, none⟩]

end Keras
end Verif
