import Verif.Model.Sequential

/-!
# Model of a call of `SequentialNetwork.infer` with all its arguments
-/

namespace Verif
namespace SeqNet

/-- `SequentialNetwork.infer(input_, isInputQuant, verbose, isBatch)`
(inference_engine/itcl_inference_engine/network/sequential.py:80-114), statement by statement: `isBatch` leads to a warning
(lines 95-96), `verbose` to a log entry per layer (lines 108-109), and `isInputQuant` occurs nowhere in the body.  The logger is not
modelled; the second component is `_intermediate_results`. -/
def inferCall (ext : Ext) (net : SeqNet) (x : Tensor) (_isInputQuant verbose isBatch : Bool) : Option (Tensor × List Tensor) :=
  let x := if isBatch then x else x
  let x := if net.hasQuantLayers then x
    else .int (x.toFlt.map (fun v => Quantization.quantize (intDtype 7) v net.inputZp net.inputScale))
  net.layers.foldl (fun acc l => acc.bind (fun (out, rec) => (l.infer ext out).map (fun y =>
    let y := if verbose then y else y
    (y, rec ++ [y])))) (some (x, []))

end SeqNet
end Verif
