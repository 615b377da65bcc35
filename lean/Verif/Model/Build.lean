import Verif.Model.Config
import Verif.Model.ParamEqualizer
import Verif.Model.Annealer

/-!
# Model of `build` with its equalizers
(`quantizer/itcl_quantizer/tensor_extractor/keras/keras_builder.py:64-105`,
`equalizers/param_equalizer/param_equalizer.py` class `ParamEqualizerFullNet`,
`equalizers/adaround/adaround.py` classes `AdaRound` and `AdaroundNet`, and the hooks of `KerasDense` into them)

Simplifications.  The loss function sees `none` where building the `SequentialNetwork` raises (Python would stop there;
the model goes on with an arbitrary loss, so every Python run that returns is a run of the model).  Rounding policies
are 0/1 arrays.  Negative `max_retries` and the QUBO optimizer are not modelled (the latter is a parameter).  Random
numbers are inputs; the model refuses (`none`) values that `random()` and `randrange` cannot return.
-/

namespace Verif.Build
open Keras

/-- The loss as the equalizers compute it: `loss_fn(net.as_sequential_network())` on the current nodes
(param_equalizer.py:73, adaround.py:132). -/
def cost (lossFn : Option SeqNet → ℚ) (w : World) (rs : List QRes) (nodes : ℕ → Node) : ℚ :=
  lossFn (asSequential { w with nodes := nodes } rs)

/-- `param_equalizer_bundle` of one result (keras_dense.py:445-461; abstract_layer.py:100-110 for input and output
layers, which subscribe nothing).  For an LSTM `result.layer` is the Keras layer itself (keras_lstm.py:520), which has
no such method: `AttributeError`. -/
def bundleOf (r : QRes) : Option (List ℕ) :=
  match r.ops with
  | [] => none
  | fc :: rest =>
    if fc.opType = "FULLY_CONNECTED" then do
      let kernel ← fc.inputs[1]?
      let out ← fc.outputs[0]?
      match rest with
      | [act] => do
        let a ← act.outputs[0]?
        some [kernel.id, out.id, a.id]
      | _ => some [kernel.id, out.id]
    else if fc.opType = "LSTM" then none
    else some []

/-- The loop over the results (param_equalizer.py:67-69). -/
def bundle : List QRes → Option (List ℕ)
  | [] => some []
  | r :: rs => do
    let a ← bundleOf r
    let b ← bundle rs
    some (a ++ b)

/-- Three numbers `random()` can return. -/
def drawOk (d : ParamEq.Draw) : Bool :=
  (decide (0 ≤ d.z) && decide (d.z < 1)) && ((decide (0 ≤ d.r) && decide (d.r < 1)) &&
    (decide (0 ≤ d.sg) && decide (d.sg < 1)))

/-- `ParamEqualizerFullNet.equalize` with a `BFSEqualizer` (param_equalizer.py:66-75, keras_builder.py:91-95). -/
def equalizeNet (lossFn : Option SeqNet → ℚ) (draws : List (List ParamEq.Draw)) (c : Config.ParamEqualizerCfg)
    (w : World) (rs : List QRes) : Option World := do
  let ids ← bundle rs
  if draws.all (fun ds => ds.length == ids.length && ds.all drawOk) then
  let r ← ParamEq.optimize (cost lossFn w rs) c.maxRetries.toNat w ids draws
  some r.1
  else none

/-- What AdaRound changes: a node's tensor, or the table of a node. -/
inductive Target
  | tensor (id : ℕ)
  | lut (id : ℕ)
deriving DecidableEq

/-- The tensors `KerasDense.adaround` collects (keras_dense.py:381-399): kernel and bias, and the table of the
activation's input node if it has one.  Input and output layers do nothing (abstract_layer.py:62-81); LSTM as for
`bundleOf`. -/
def targetsOf (w : World) (r : QRes) : Option (List Target) :=
  match r.ops with
  | [] => none
  | fc :: rest =>
    if fc.opType = "FULLY_CONNECTED" then do
      let ts := (fc.inputs.drop 1).map (fun i => Target.tensor i.id)
      match rest with
      | [] => some ts
      | act :: _ => do
        let i ← act.inputs[0]?
        some (if (w.nodes i.id).lut.isSome then ts ++ [.lut i.id] else ts)
    else if fc.opType = "LSTM" then none
    else some []

/-- `t.rounding_policy` (tensor.py:145-153, 434-442). -/
def policyOf (w : World) : Target → Option Pol
  | .tensor i => (w.nodes i).tensor.map (fun t => ⟨t.policy.shape, t.policy.data.map (fun v => v.num.toNat)⟩)
  | .lut i => (w.nodes i).lut.map (fun l => ⟨[l.policy.length], l.policy.map (fun v => v.num.toNat)⟩)

/-- `tensor.rounding_policy = neigh` for one tensor (adaround.py:74-75; tensor.py:155-157, 444-463). -/
def writeOne (w : World) (t : Target) (p : Pol) : Option World :=
  match t with
  | .tensor i => ((w.nodes i).setPolicy ⟨p.shape, p.data.map (fun (v : ℕ) => (v : ℚ))⟩).map (w.setNode i)
  | .lut i => (w.nodes i).lut.map (fun l =>
      w.setNode i { w.nodes i with lut := some (l.setPolicy (p.data.map (fun (v : ℕ) => (v : ℚ)))) })

/-- `_update_weights` (adaround.py:60-76). -/
def write (w : World) : List Target → List Pol → Option World
  | t :: ts, p :: ps => do
    let w ← writeOne w t p
    write w ts ps
  | _, _ => some w

/-- `AdaRound._cost_fn` (adaround.py:46-58): every evaluation overwrites all the policies. -/
def energy (lossFn : Option SeqNet → ℚ) (rs : List QRes) (w : World) (ts : List Target) (ps : List Pol) : ℚ :=
  lossFn (asSequential ((write w ts ps).getD w) rs)

/-- The random choices of one annealer: how many iterations of the refinement are looked at, the acceptances of
simulated annealing, and the drawn positions. -/
structure Choices where
  fuel : ℕ
  accepts : List Bool
  draws : List (List ℕ)

/-- One position per tensor that `randrange(0, len(t))` can return. -/
def positionsOk (ps : List Pol) (d : List ℕ) : Bool :=
  ps.length == d.length && (List.zipWith (fun (t : Pol) i => decide (i < t.len)) ps d).all id

/-- `KerasDense.adaround` (keras_dense.py:381-405) with a `RoundingAnnealer`: `AdaRound(...).round(tensors)`. -/
def adaroundLayer (lossFn : Option SeqNet → ℚ) (rs : List QRes) (maxRetries : ℕ) (w : World) (ts : List Target)
    (c : Choices) : Option World := do
  let ps ← ts.mapM (policyOf w)
  if c.draws.all (positionsOk ps) then
  let r ← Annealer.adaround (energy lossFn rs w ts) maxRetries c.fuel ps c.accepts c.draws
  write w ts r.1
  else none

/-- The loop of `AdaroundNet.round` (adaround.py:121-133); layers without tensors use no choices. -/
def adaroundLoop (lossFn : Option SeqNet → ℚ) (rs : List QRes) (maxRetries : ℕ) :
    List QRes → World → List Choices → Option World
  | [], w, _ => some w
  | r :: todo, w, cs => do
    let ts ← targetsOf w r
    match ts, cs with
    | [], cs => adaroundLoop lossFn rs maxRetries todo w cs
    | _ :: _, [] => none
    | ts, c :: cs => do
      let w ← adaroundLayer lossFn rs maxRetries w ts c
      adaroundLoop lossFn rs maxRetries todo w cs

/-- `AdaroundNet(network, loss_fn, cfg.build).round()` (keras_builder.py:97-98; config/models/keras.py:37-73): the
"base" optimizer is the annealer without annealing steps. -/
def adaroundNet (lossFn : Option SeqNet → ℚ) (qubo : World → List QRes → Option World) (cs : List Choices)
    (c : Config.AdaCfg) (w : World) (rs : List QRes) : Option World :=
  match c with
  | .annealer _ _ _ steps m =>
    if ∀ c ∈ cs, c.accepts.length = steps.toNat then adaroundLoop lossFn rs m.toNat rs w cs else none
  | .base m => if ∀ c ∈ cs, c.accepts = [] then adaroundLoop lossFn rs m.toNat rs w cs else none
  | .qubo => qubo w rs

/-- `build` (keras_builder.py:64-105) with a loss function, without file access. -/
def build (ext : Ext) (lossFn : Option SeqNet → ℚ) (qubo : World → List QRes → Option World)
    (draws : List (List ParamEq.Draw)) (cs : List Choices) (cfg : Config.QuantizerCfg) (x : Arr ℚ)
    (layers : List KLayer) : Option (World × List QRes) :=
  Config.build ext (equalizeNet lossFn draws) (adaroundNet lossFn qubo cs) true cfg x layers

end Verif.Build
