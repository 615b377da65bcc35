import Verif.Model.Layers

/-!
# Model of the loss functions handed to `build` by the scripts of the repository
(`quantizer/quantize_mnist.py`, `quantizer/qubo_adaround/quantize.py`, `quantize_clasificacion.py`, `quantizepruebas.py`: minus
the number of correctly classified samples; `quantizer/qubo_adaround/quantize_regresion.py`, `quantizer/quantize_wind_speed.py`,
`quantizer/quantize_regression_x3.py`, `demo/x3_fpga/quantize_x3.py`: mean squared error)

Simplifications.  Labels are integers.  The mean squared error is exact (numpy rounds it) and defined for 2-D arrays of the
same shape (numpy would broadcast others).  `none` means that Python raises, or NaN for the mean of nothing.
-/

namespace Verif.Losses

/-- The rest of an `argmax`: position of the next element, best position and value so far. -/
def argmaxFrom : List ℚ → ℕ → ℕ → ℚ → ℕ
  | [], _, best, _ => best
  | x :: xs, i, best, m => if m < x then argmaxFrom xs (i + 1) i x else argmaxFrom xs (i + 1) best m

/-- `argmax` of one sample's scores (quantize_mnist.py:26): the first position of the largest element; `ValueError` if there is
none. -/
def argmax : List ℚ → Option ℕ
  | [] => none
  | x :: xs => some (argmaxFrom xs 1 0 x)

/-- The loop over `zip(res, y_test)` (quantize_mnist.py:28-32). -/
def hits : List ℕ → List ℤ → ℕ
  | p :: ps, l :: ls => (if (p : ℤ) = l then 1 else 0) + hits ps ls
  | _, _ => 0

/-- `loss` of the classification scripts, given `res = net.infer(x_test)` (quantize_mnist.py:24-33, quantize.py:31-41):
`res.T.argmax(axis=0)` is the `argmax` of every row of `res`.  A 1-D result raises (its `argmax` is a number, which `zip` cannot
iterate); 3-D results are not modelled. -/
def hitLoss (res : Tensor) (labels : List ℤ) : Option ℤ :=
  match res with
  | .flt (.mat Y) => (Y.mapM argmax).map (fun ps => -(hits ps labels : ℤ))
  | .int (.mat Y) => (Y.mapM (fun y => argmax (y.map (fun (q : ℤ) => (q : ℚ))))).map (fun ps => -(hits ps labels : ℤ))
  | _ => none

/-- `loss` of the regression scripts, given `predictions = net.infer(x_test)` (quantize_regresion.py:30-33,
quantize_wind_speed.py:20-23, quantize_regression_x3.py:20-23, demo/x3_fpga/quantize_x3.py:29-30). -/
def mseLoss (res : Tensor) (y : List (List ℚ)) : Option ℚ :=
  match res with
  | .flt (.mat P) =>
    if P.map List.length = y.map List.length ∧ P.flatten ≠ [] then
      some ((List.zipWith (fun p t => (p - t) ^ 2) P.flatten y.flatten).sum / P.flatten.length)
    else none
  | _ => none

end Verif.Losses
