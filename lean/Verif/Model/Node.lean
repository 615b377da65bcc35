import Verif.Model.Quant
import Verif.Model.ReducedLUT

/-!
# Model of `quantizer/itcl_quantizer/tensor_extractor/tensor.py` and of the hook wiring of
`quantizer/itcl_quantizer/tensor_extractor/keras/layers/keras_dense.py`

Names and the serialization flags (`_exclude_params`, `_exclude_batch_dimension`, `_exclude_tensor`) have no effect on
the state modelled here and are left out.
-/

namespace Verif

/-- An n-dimensional float array: shape and row-major data. -/
structure FArr where
  shape : List ℕ
  data : List ℚ
deriving DecidableEq, Repr

/-- Shape and number of elements agree (true of every numpy array). -/
def FArr.WF (a : FArr) : Prop := a.data.length = a.shape.prod

/-- `get_base_rounding(tensor, scale)` on an array (irounding_policy.py:23-33). -/
def baseRoundingFArr (a : FArr) (s : ℚ) : FArr := ⟨a.shape, a.data.map (fun x => (baseRounding x s : ℚ))⟩

/-- The fields of `NodeLUT` (tensor.py:46-80). -/
structure NodeLUT where
  quant : GDtype
  fn : ℚ → ℚ
  inS : ℚ
  inZp : ℤ
  outS : ℚ
  outZp : ℤ
  policy : List ℚ
  lut : List ℤ
  offset : ℤ

namespace NodeLUT

/-- `_create` (tensor.py:64-80): recomputes table and offset from the stored parameters and the stored policy. -/
def create (l : NodeLUT) : NodeLUT :=
  { l with
    lut := Quantization.createLUT l.quant l.fn l.inS l.inZp l.outS l.outZp (some l.policy)
    offset := -l.quant.min }

/-- `NodeLUT.__init__` (tensor.py:29-62).  The policy is the round-to-nearest policy of the initial parameters. -/
def init (quant : GDtype) (fn : ℚ → ℚ) (inS : ℚ) (inZp : ℤ) (outS : ℚ) (outZp : ℤ) : NodeLUT :=
  create
    { quant := quant, fn := fn, inS := inS, inZp := inZp, outS := outS, outZp := outZp
      policy := (Quantization.floatActivation quant fn inS inZp).map (fun y => (baseRounding y outS : ℚ))
      lut := [], offset := 0 }

/-- `_update_in_qparams` (tensor.py:82-91): stores the parameters and rebuilds the table. -/
def updateIn (l : NodeLUT) (s : ℚ) (zp : ℤ) : NodeLUT := create { l with inS := s, inZp := zp }

/-- `_update_out_qparams` (tensor.py:93-101): stores the parameters only. -/
def updateOut (l : NodeLUT) (s : ℚ) (zp : ℤ) : NodeLUT := { l with outS := s, outZp := zp }

/-- `rounding_policy` setter (tensor.py:155-157): stores the policy only. -/
def setPolicy (l : NodeLUT) (p : List ℚ) : NodeLUT := { l with policy := p }

/-- `__call__` (tensor.py:118-131), with Python list indexing. -/
def call (l : NodeLUT) (v : ℤ) : Option ℤ := ReducedLUT.pyIndex l.lut (v + l.offset)

end NodeLUT

/-- The tensor part of a `NodeTensorTensor` (tensor.py:379-395). -/
structure TensorPart where
  fp : FArr
  policy : FArr
  ogPolicy : FArr
  quantized : List ℤ
deriving DecidableEq

/-- A node: `NodeTensorBase` (tensor.py:194-208), with `tensor := none`, or `NodeTensorTensor`. -/
structure Node where
  quant : GDtype
  scale : ℚ
  zp : ℤ
  ogScale : ℚ
  ogZp : ℤ
  lut : Option NodeLUT
  tensor : Option TensorPart

namespace Node

/-- `NodeTensorBase.__init__` (tensor.py:194-208). -/
def base (scale : ℚ) (zp : ℤ) (quant : GDtype) : Node :=
  { quant := quant, scale := scale, zp := zp, ogScale := scale, ogZp := zp, lut := none, tensor := none }

/-- `with_tensor` / `NodeTensorTensor.__init__` (tensor.py:273-283, 379-395). -/
def withTensor (n : Node) (fp : FArr) : Node :=
  { n with
    tensor := some
      { fp := fp, policy := baseRoundingFArr fp n.scale, ogPolicy := baseRoundingFArr fp n.scale
        quantized := Quantization.quantizeArray n.quant fp.data n.zp n.scale } }

/-- `with_lut` (tensor.py:285-311). -/
def withLut (n : Node) (fn : ℚ → ℚ) (outS : ℚ) (outZp : ℤ) : Node :=
  { n with lut := some (NodeLUT.init n.quant fn n.scale n.zp outS outZp) }

/-- `_requantize` (tensor.py:349-353 and 484-492): requantize the tensor with the stored policy, then rebuild the LUT.
(The repository registers no `on_requantize` hooks.) -/
def requantize (n : Node) : Node :=
  { n with
    tensor := n.tensor.map (fun t =>
      { t with quantized := Quantization.quantizeArray n.quant t.fp.data n.zp n.scale (some t.policy.data) })
    lut := n.lut.map (fun l => l.updateIn n.scale n.zp) }

/-- `update_quant_parameters` without the hooks (tensor.py:255-270). -/
def update (n : Node) (s : ℚ) (zp : ℤ) (requant : Bool) : Node :=
  let n := { n with scale := s, zp := zp }
  if requant then n.requantize else n

/-- `rounding_policy` setter (tensor.py:444-463); `none` is the `ValueError`, or the missing attribute on a node
without tensor. -/
def setPolicy (n : Node) (p : FArr) : Option Node :=
  match n.tensor with
  | none => none
  | some t =>
    if p.shape ≠ t.fp.shape then none
    else
      let q := Quantization.quantizeArray n.quant t.fp.data n.zp n.scale (some p.data)
      some { n with tensor := some { t with policy := p, quantized := q } }

/-- `reset_rounding` (tensor.py:422-424). -/
def resetRounding (n : Node) : Option Node :=
  match n.tensor with
  | none => none
  | some t => n.setPolicy t.ogPolicy

/-- `reset_scale` (tensor.py:215-217). -/
def resetScale (n : Node) : Node := { n with scale := n.ogScale }

/-- `reset_zp` (tensor.py:251-253). -/
def resetZp (n : Node) : Node := { n with zp := n.ogZp }

/-- `dequantized` (tensor.py:474-482): `self.quantized * self.scale + self.zero_point`. -/
def dequantized (n : Node) : Option (List ℚ) :=
  n.tensor.map (fun t => t.quantized.map (fun (q : ℤ) => (q : ℚ) * n.scale + n.zp))

end Node

/-- One `update_bias_scale_fn` closure (keras_dense.py:328-330): the objects it captures. -/
structure Link where
  kernel : ℕ
  input : ℕ
  bias : ℕ
deriving DecidableEq

/-- All node objects, addressed by identity, with their `on_quant_param_update` hook lists.  Objects `≥ next` do not
exist yet. -/
structure World where
  nodes : ℕ → Node
  hooks : ℕ → List Link
  next : ℕ

namespace World

/-- Write one object. -/
def setNode (w : World) (id : ℕ) (n : Node) : World :=
  { w with nodes := fun i => if i = id then n else w.nodes i }

/-- `update_quant_parameters` with its hooks (tensor.py:255-271; hooks keras_dense.py:328-330).  `fuel` is Python's
recursion limit; `none` is `RecursionError`. -/
def update : ℕ → World → ℕ → ℚ → ℤ → Bool → Option World
  | 0, _, _, _, _, _ => none
  | fuel + 1, w, id, s, zp, rq =>
    let w := w.setNode id ((w.nodes id).update s zp rq)
    (w.hooks id).foldlM (fun w l =>
      update fuel w l.bias ((w.nodes l.kernel).scale * (w.nodes l.input).scale) (w.nodes l.bias).zp true) w

/-- Creating a node object. -/
def alloc (w : World) (n : Node) : World :=
  { nodes := fun i => if i = w.next then n else w.nodes i
    hooks := fun i => if i = w.next then [] else w.hooks i
    next := w.next + 1 }

/-- Appending a closure to a hook list. -/
def addHook (w : World) (id : ℕ) (l : Link) : World :=
  { w with hooks := fun i => if i = id then w.hooks i ++ [l] else w.hooks i }

/-- The node-creating part of `Dense.quantize` (keras_dense.py:288-334): kernel node, bias node with
`bias_s = input_scale * kernel_scale`, `bias_zp = 0` (keras_dense.py:204-222), and the two hooks.  The kernel node is
given (its calibration is modelled in `Verif.Model.Distribution`). -/
def dense (w : World) (input : ℕ) (kernel : Node) (qBias : GDtype) (bias : FArr) : World :=
  let k := w.next
  let w := w.alloc kernel
  let b := w.next
  let w := w.alloc ((Node.base ((w.nodes input).scale * (w.nodes k).scale) 0 qBias).withTensor bias)
  let l : Link := ⟨k, input, b⟩
  (w.addHook k l).addHook input l

/-- The operations a quantizer performs on nodes. -/
inductive Op where
  | alloc (n : Node)
  | dense (input : ℕ) (kernel : Node) (qBias : GDtype) (bias : FArr)
  | update (id : ℕ) (s : ℚ) (zp : ℤ) (requantize : Bool)
  | setPolicy (id : ℕ) (p : FArr)

/-- Python's default recursion limit. -/
def recursionLimit : ℕ := 1000

/-- One operation; `none` where Python raises. -/
def step (w : World) : Op → Option World
  | .alloc n => some (w.alloc n)
  | .dense i k q b => some (w.dense i k q b)
  | .update id s z rq => update recursionLimit w id s z rq
  | .setPolicy id p => ((w.nodes id).setPolicy p).map (w.setNode id)

/-- A history of operations. -/
def run (w : World) (ops : List Op) : Option World := ops.foldlM step w

/-- The world before any node exists. -/
def empty (dummy : Node) : World := { nodes := fun _ => dummy, hooks := fun _ => [], next := 0 }

/-- The ids of the bias nodes created so far. -/
def biases (w : World) : Set ℕ := { b | ∃ i, ∃ l ∈ w.hooks i, l.bias = b }

end World
end Verif
