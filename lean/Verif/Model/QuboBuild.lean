import Verif.Model.Build
import Verif.Model.QuboExtra

/-!
# Model of the QUBO optimizer inside `build`
(`equalizers/adaround/qubo.py` class `QUBOAnnealer` as driven by `AdaroundNet.round`, adaround.py:121-133, and
`KerasDense.adaround`, keras_dense.py:381-405)

This is an instance of the parameter `qubo` of `Verif.Build.build`.  Simplifications: calibration data reaching a layer is
a matrix (one row per sample), the only case `_qubo_dense` indexes correctly (`input_f[:,0].shape[0]` samples, qubo.py:192);
other shapes are `none`.  The sampler's answers are 0/1 by type; answer `k` of layer `n` may be any function of the QUBO.
Console output and the file `Matrix.txt` (C80) are left out.
-/

namespace Verif.Build
open Keras

/-- The samples of a 2-D array with at least one row (`input_f[0]`, qubo.py:153, raises `IndexError` otherwise). -/
def samples2 : Arr ℚ → Option (List (List ℚ))
  | .mat [] => none
  | .mat X => some X
  | _ => none

/-- What `_qubo_dense` reads (qubo.py:65-86, 153-156): the layer's own (unclipped) weights, the float input of the layer,
the *result* of the layer (after its activation, if that became an operator) and the scales of the three input nodes of the
fully-connected operator. -/
def quboIn (w : World) (fc : Op) (l : KDense) (X Y : List (List ℚ)) : Option QuboIn := do
  let x ← fc.inputs[0]?
  let k ← fc.inputs[1]?
  let b ← fc.inputs[2]?
  some { N := X.length
         D := (X.getD 0 []).length
         O := l.biasV.length
         input := fun s i => (X.getD s []).getD i 0
         output := fun s j => (Y.getD s []).getD j 0
         kernel := fun j i => (l.kernelT.getD j []).getD i 0
         bias := fun j => l.biasV.getD j 0
         sx := (w.nodes x.id).scale
         sw := (w.nodes k.id).scale
         sb := (w.nodes b.id).scale }

/-- `QUBOAnnealer.optimize` on a dense layer (qubo.py:257-272): the two policies.  `[]` for other layers, which never get
here. -/
def quboPolicies (ask : ℕ → QDict → ℕ → Bool) (p : QuboIn) : Option (List Pol) := do
  let r ← quboDenseBoth (fun k J v => if ask k J v then 1 else 0) p
  some [⟨[p.O, p.D], r.2.1.flatten.map (fun v => v.num.toNat)⟩, ⟨[p.O], r.2.2.map (fun v => v.num.toNat)⟩]

/-- `KerasDense.adaround` with a `QUBOAnnealer` (keras_dense.py:381-405; adaround.py:78-93): the policies of kernel and bias
are written; a table in the list of tensors gets none (`zip`, adaround.py:74). -/
def quboLayer (ask : ℕ → QDict → ℕ → Bool) (w : World) (r : QRes) (ts : List Target) (l : KDense) (input : Arr ℚ) :
    Option World := do
  let fc ← r.ops.head?
  let X ← samples2 input
  let Y ← samples2 r.data
  let p ← quboIn w fc l X Y
  let ps ← quboPolicies ask p
  write w ts ps

/-- The layer objects of the dense results, in order. -/
def denses (ls : List KLayer) : List KDense :=
  ls.filterMap (fun l => match l with
    | .dense d => some d
    | _ => none)

/-- `AdaroundNet.round` (adaround.py:121-133) with a `QUBOAnnealer` per layer.  `prev` is the data of the previous result,
which `quantize` kept as `_last_float_input` (keras_dense.py:303-304); input and output layers do nothing
(abstract_layer.py:62-81). -/
def quboLoop (ask : ℕ → ℕ → QDict → ℕ → Bool) : ℕ → List KDense → Arr ℚ → List QRes → World → Option World
  | _, _, _, [], w => some w
  | n, ds, prev, r :: todo, w => do
    let ts ← targetsOf w r
    match ts, ds with
    | [], ds => quboLoop ask n ds r.data todo w
    | _ :: _, [] => none
    | ts, d :: ds => do
      let w ← quboLayer (ask n) w r ts d prev
      quboLoop ask (n + 1) ds r.data todo w

/-- The optimizer for a model with the given layers, calibrated on `x` (the first result carries `x` itself). -/
def quboNet (ask : ℕ → ℕ → QDict → ℕ → Bool) (x : Arr ℚ) (ls : List KLayer) (w : World) (rs : List QRes) :
    Option World :=
  quboLoop ask 0 (denses ls) x rs w

end Verif.Build
