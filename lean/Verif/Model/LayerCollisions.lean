import Verif.Model.Keras
import Verif.Model.Collisions
import Verif.Model.Float
import Verif.Model.Qubo

/-!
# Model of the per-layer collision report
(`calc_collisions` and `sum_collisions` of `quantizer/itcl_quantizer/tensor_extractor/abstract_layer.py` and
`quantizer/itcl_quantizer/tensor_extractor/keras/layers/keras_dense.py`)

The collision policy is an arbitrary function of the float tensor and the codes; it is called twice on the bias-add node
(once for a `print`), so it is assumed to have no effects.
-/

namespace Verif.LayerCollisions
open Keras

/-- What `calc_collisions` is given to count with. -/
abbrev Policy := FArr → List ℤ → ℤ

/-- `partial(util.collisions.calc_collisions, epsilon=eps)`, the policy of `quantize_mnist.py:51`. -/
def counting (eps : ℤ) : Policy := fun fp q => Collisions.calcCollisions fp.data q eps

/-- `math.ceil(count / shape[0])` (keras_dense.py:480-483): the quotient is a binary64 number; `none` is
`ZeroDivisionError` (or, for an array without dimensions, `IndexError`).  A numpy count divided by 0 gives infinity or
NaN, which `math.ceil` rejects as well. -/
def meanUp (count : ℤ) (shape : List ℕ) : Option ℤ :=
  match shape with
  | [] => none
  | 0 :: _ => none
  | b :: _ => some ⌈Fmt.f64.fl (count / b)⌉

/-- Node names given by `KerasDense` (keras_dense.py:162, 230) and `quantize_activation_node` (activations.py:84). -/
def kernelName (l : KDense) (sym : Bool) : String := l.name ++ "/Kernel" ++ (if sym then "Sym" else "")

/-- keras_dense.py:230. -/
def biasAddName (l : KDense) : String := l.name ++ "/BiasAdd"

/-- activations.py:84: the activation's name in capitals, with `LUT` if it became a table. -/
def outName (act : Op) : String := act.name ++ "/OUT"

/-- `_get_nodes_eq` (keras_dense.py:407-419) with the names of the nodes. -/
def nodesEq (l : KDense) (sym : Bool) (r : QRes) : Option (List (String × ℕ)) :=
  match r.ops with
  | [] => none
  | fc :: rest => do
    let kernel ← fc.inputs[1]?
    let out ← fc.outputs[0]?
    match rest with
    | [act] => do
      let a ← act.outputs[0]?
      some [(kernelName l sym, kernel.id), (biasAddName l, out.id), (outName act, a.id)]
    | _ => some [(kernelName l sym, kernel.id), (biasAddName l, out.id)]

/-- `KerasDense.calc_collisions` (keras_dense.py:463-492).  `sym` is the layer's `kernel_symmetric`. -/
def report (policy : Policy) (w : World) (l : KDense) (sym : Bool) (r : QRes) : Option (Dict String ℤ) := do
  let nodes ← nodesEq l sym r
  if nodes.all (fun n => (w.nodes n.2).tensor.isSome) then
    let kernel ← nodes[0]?
    let kt ← (w.nodes kernel.2).tensor
    let res : Dict String ℤ := Dict.set [] kernel.1 (policy kt.fp kt.quantized)
    let ba ← nodes[1]?
    let bt ← (w.nodes ba.2).tensor
    let c ← meanUp (policy bt.fp bt.quantized) bt.fp.shape
    let res := Dict.set res ba.1 c
    if nodes.length = 3 then do
      let act ← nodes[2]?
      let t ← (w.nodes act.2).tensor
      let c ← meanUp (policy t.fp t.quantized) t.fp.shape
      some (Dict.set res act.1 c)
    else some res
  else none

/-- `sum_collisions` (abstract_layer.py:114-134) of a reported dictionary. -/
def sum (res : Dict String ℤ) : ℤ := if res.length = 0 then 0 else (res.map (fun e => e.2)).sum

/-- `calc_collisions` of the layer objects that take part in a network: dense layers as above; input and output layers
inherit the empty report (abstract_layer.py:107-112); for an LSTM `result.layer` is the Keras layer itself
(keras_lstm.py:520), which has no such method. -/
def layerReport (policy : Policy) (w : World) (dense : Option (KDense × Bool)) (r : QRes) : Option (Dict String ℤ) :=
  match dense with
  | some (l, sym) => report policy w l sym r
  | none => if (r.ops.head?.map (fun o => o.opType)) = some "LSTM" then none else some []

end Verif.LayerCollisions
