import Verif.Model.Build

/-!
# Model of `ParamEqualizerNet`, the layer-wise parameter search
(`quantizer/itcl_quantizer/equalizers/param_equalizer/param_equalizer.py:13-52`, `tensor_extractor/keras/layers/keras_dense.py`
method `param_equalizer`, `tensor_extractor/abstract_layer.py` default `param_equalizer`)

`keras_builder.py:91` has the call commented out; the class is public and importable.  The optimizer factory is
`lambda: BFSEqualizer(max_retries)`.  Random numbers are inputs, one list of moves per search.
-/

namespace Verif.Build
open Keras

/-- The searches `result.layer.param_equalizer` runs, in order: the nodes of each (keras_dense.py:418-443: kernel,
bias-add output and activation output together, then the activation output alone; abstract_layer.py:83-98: nothing for
input and output layers).  For an LSTM `result.layer` is the Keras layer itself: `AttributeError`. -/
def searchesOf (r : QRes) : Option (List (List ℕ)) :=
  match r.ops with
  | [] => none
  | fc :: rest =>
    if fc.opType = "FULLY_CONNECTED" then do
      let kernel ← fc.inputs[1]?
      let out ← fc.outputs[0]?
      match rest with
      | [act] => do
        let a ← act.outputs[0]?
        some [[kernel.id, out.id, a.id], [a.id]]
      | _ => some [[kernel.id, out.id]]
    else if fc.opType = "LSTM" then none
    else some []

/-- The searches of one layer (keras_dense.py:433-443); returns the unused random numbers. -/
def searchLoop (lossFn : Option SeqNet → ℚ) (maxRetries : ℕ) (rs : List QRes) :
    List (List ℕ) → List (List (List ParamEq.Draw)) → World → Option (World × List (List (List ParamEq.Draw)))
  | [], ds, w => some (w, ds)
  | _ :: _, [], _ => none
  | ids :: todo, d :: ds, w =>
    if d.all (fun m => m.length == ids.length && m.all drawOk) then do
      let r ← ParamEq.optimize (cost lossFn w rs) maxRetries w ids d
      searchLoop lossFn maxRetries rs todo ds r.1
    else none

/-- The loop over the layers still to do (param_equalizer.py:46-52). -/
def equalizeLoop (lossFn : Option SeqNet → ℚ) (maxRetries : ℕ) (rs : List QRes) :
    List QRes → List (List (List ParamEq.Draw)) → World → Option World
  | [], _, w => some w
  | r :: todo, ds, w => do
    let ss ← searchesOf r
    let (w, ds) ← searchLoop lossFn maxRetries rs ss ds w
    equalizeLoop lossFn maxRetries rs todo ds w

/-- `ParamEqualizerNet(net, loss_fn, lambda: BFSEqualizer(max_retries)).equalize()` (param_equalizer.py:39-52): the
layers from the last to the first. -/
def equalizeLayers (lossFn : Option SeqNet → ℚ) (maxRetries : ℕ) (draws : List (List (List ParamEq.Draw)))
    (w : World) (rs : List QRes) : Option World :=
  equalizeLoop lossFn maxRetries rs rs.reverse draws w

end Verif.Build
