import Verif.Model.Optimizers
import Mathlib.Analysis.SpecialFunctions.Log.Basic

/-!
# Model of the noise metrics and of the noise-driven range search
(`quantizer/itcl_quantizer/quantizer/metrics/noise.py`, `distributions/distribution.py` `normalize`/`compare`,
`optimizers/scipy_optimizer.py`)

Simplifications.  Arithmetic is exact, logarithms are real.  A float result that may be NaN or infinite is an `Option`
(`none`); an exception is `none` of an outer `Option`.  Arrays of different lengths raise (numpy would broadcast an array
of length one).  `scipy.optimize.minimize` is not modelled: its result is an arbitrary pair.
-/

namespace Verif.Metrics

/-- `Distribution.normalize` (distribution.py:94-101); `none` is an array of NaN (`0 / 0` in every bin). -/
def normalize (h : List ℕ) : Option (List ℚ) :=
  if h.sum = 0 then none else some (h.map (fun (c : ℕ) => (c : ℚ) / (h.sum : ℚ)))

/-- `scipy.special.kl_div` of two numbers (scipy's documentation); `none` is infinity. -/
noncomputable def klTerm (x y : ℝ) : Option ℝ :=
  if 0 < x ∧ 0 < y then some (x * Real.log (x / y) - x + y)
  else if x = 0 ∧ 0 ≤ y then some y
  else none

/-- `p[p == 0] = 1e-10` on an array of floats (noise.py:9-10). -/
noncomputable def smooth (x : ℝ) : ℝ := if x = 0 then 1 / 10 ^ 10 else x

/-- `.sum()` of an array: infinite if an entry is. -/
def total (l : List (Option ℝ)) : Option ℝ := (l.mapM id).map List.sum

/-- `kl_divergence` of two arrays of floats (noise.py:7-11). -/
noncomputable def kl (p q : List ℝ) : Option ℝ :=
  total (List.zipWith klTerm (p.map smooth) (q.map smooth))

/-- `kl_divergence` of two arrays of integers (noise.py:7-11): storing `1e-10` in an integer array stores 0. -/
noncomputable def klInt (p q : List ℕ) : Option ℝ :=
  total (List.zipWith (fun (a b : ℕ) => klTerm a b) p q)

/-- `kl_divergence` of two arrays of floats that may hold NaN (noise.py:7-11): one NaN makes the sum NaN. -/
noncomputable def klDiv (p q : List (Option ℚ)) : Option ℝ := do
  let p ← p.mapM id
  let q ← q.mapM id
  kl (p.map (fun (x : ℚ) => (x : ℝ))) (q.map (fun (x : ℚ) => (x : ℝ)))

/-- `KLDivergenceOptimizer(bins, target).trim` (kl_div_optimizer.py:21-51) with its divergence (line 43). -/
noncomputable def klOptimize (bins target : ℕ) (d : Dist) : Option Dist := Optim.klTrim klDiv bins target d

/-- `mse` (noise.py:14-15); the mean of nothing is NaN. -/
noncomputable def mse (p q : List ℝ) : Option ℝ :=
  let d := List.zipWith (fun a b => (a - b) ^ 2) p q
  if d.length = 0 then none else some (d.sum / d.length)

/-- `cross_entropy` (noise.py:18-19): `log 0` is minus infinity, and `0` times it NaN. -/
noncomputable def crossEntropy (p q : List ℝ) : Option ℝ :=
  if ∀ y ∈ q, 0 < y then some (-(List.zipWith (fun a b => a * Real.log b) p q).sum) else none

/-- A comparison function, on arrays of floats and on arrays of integers. -/
structure Metric where
  onFloats : List ℝ → List ℝ → Option ℝ
  onInts : List ℕ → List ℕ → Option ℝ

/-- noise.py:7-11. -/
noncomputable def Metric.kl : Metric := ⟨Metrics.kl, klInt⟩
/-- noise.py:14-15. -/
noncomputable def Metric.mse : Metric :=
  ⟨Metrics.mse, fun p q => Metrics.mse (p.map (fun (x : ℕ) => (x : ℝ))) (q.map (fun (x : ℕ) => (x : ℝ)))⟩
/-- noise.py:18-19. -/
noncomputable def Metric.crossEntropy : Metric :=
  ⟨Metrics.crossEntropy,
    fun p q => Metrics.crossEntropy (p.map (fun (x : ℕ) => (x : ℝ))) (q.map (fun (x : ℕ) => (x : ℝ)))⟩

/-- `Distribution.compare` (distribution.py:173-198): outer `none` is the exception for different numbers of bins. -/
noncomputable def compare (m : Metric) (d e : Dist) (norm : Bool := true) : Option (Option ℝ) :=
  if d.hist.length = e.hist.length then
    if norm then
      match normalize d.hist, normalize e.hist with
      | some p, some q => some (m.onFloats (p.map (fun (x : ℚ) => (x : ℝ))) (q.map (fun (x : ℚ) => (x : ℝ))))
      | _, _ => some none
    else some (m.onInts d.hist e.hist)
  else none

/-- `ScipyOptimizer.trim`'s `minimize_noise` (scipy_optimizer.py:27-45).  The parameters are those of an int8
quantization of the trimmed data, whatever the optimizer's own type `Q` is. -/
noncomputable def scipyCost (Q : GDtype) (m : Metric) (d : Dist) (x0 x1 : ℚ) : Option (Option ℝ) := do
  let lo ← d.edges.head?
  let hi ← d.edges.getLast?
  if x1 - x0 < 1 ∨ x0 < lo ∨ hi < x1 then some (some 999999999)
  else do
    let trimmed ← d.getSlice (some x0) (some x1)
    let (s, zp) ← trimmed.quantize (intDtype 7)
    let codes := Quantization.quantizeArray Q d.sorted zp s
    let back := Quantization.dequantizeArray codes zp s
    let e ← Optim.buildOn back d.edges
    compare m d e

/-- `ScipyOptimizer.trim` (scipy_optimizer.py:23-61), where the minimiser returns `x`. -/
def scipyTrim (x : ℚ × ℚ) (d : Dist) : Option Dist := d.getSlice (some x.1) (some x.2)

end Verif.Metrics
