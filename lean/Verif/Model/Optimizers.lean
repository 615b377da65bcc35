import Verif.Model.Distribution

/-!
# Model of the calibration optimizers
(`quantizer/itcl_quantizer/optimizers/minmax.py`, `fixed_percent.py`, `kl_div_optimizer.py`)

Simplifications.  `np.percentile` and `np.histogram` with given edges are modelled from numpy's documentation, exactly.
A float that may be NaN is an `Option ℚ` (`none` is NaN); an exception is `none` of the outer `Option`.  The divergence
(`metrics/noise.py:7-11`, logarithms) is a parameter here; it and `scipy_optimizer.py` are modelled in `Model/Metrics`.
-/

namespace Verif.Optim

/-- `MinMaxOptimizer.trim` (minmax.py:9-19). -/
def minMax (d : Dist) : Dist := d

/-- `np.percentile(a, q)` of a sorted array, method `linear`; `none` is the `ValueError` for `q` outside 0..100 and the
failure on empty data. -/
def percentile (a : List ℚ) (q : ℚ) : Option ℚ :=
  if q < 0 ∨ 100 < q then none
  else
    let v := q / 100 * ((a.length : ℚ) - 1)
    match a[⌊v⌋.toNat]? with
    | none => none
    | some x => some (x + (a.getD (⌊v⌋.toNat + 1) x - x) * (v - ⌊v⌋))

/-- `Distribution(a, bins=edges)` (distribution.py:23-45): `np.histogram` rejects decreasing edges. -/
def buildOn (a edges : List ℚ) : Option Dist :=
  if edges.Pairwise (· ≤ ·) then
    some { sorted := a.mergeSort (fun x y => decide (x ≤ y)), edges := edges, hist := Dist.counts a edges
           partialBins := true }
  else none

/-- `FixedPercentOptimizer(percent).trim` (fixed_percent.py:10-19). -/
def fixedPercent (p : ℚ) (d : Dist) : Option Dist := do
  let low ← percentile d.sorted p
  let high ← percentile d.sorted (1 - p)
  buildOn (d.sorted.map (fun x => clip low high x)) d.edges

/-- One group of `KLDivergenceOptimizer.reduce` (kl_div_optimizer.py:70-76): the mean over the non-empty bins, NaN for
a group without any (`0 / 0`, and `0 * nan`). -/
def expand (g : List ℕ) : List (Option ℚ) :=
  let k := g.countP (fun x => decide (x ≠ 0))
  if k = 0 then g.map (fun _ => none)
  else g.map (fun x => some (if x = 0 then 0 else (g.sum : ℚ) / (k : ℚ)))

/-- `math.ceil(bin_count / target_bin_count)` (kl_div_optimizer.py:64). -/
def groupSize (bins target : ℕ) : ℕ := ⌈(bins : ℚ) / (target : ℚ)⌉.toNat

/-- `KLDivergenceOptimizer.reduce` (kl_div_optimizer.py:53-82). -/
def reduce (bins target : ℕ) (h : List ℕ) : Option (List (Option ℚ)) :=
  let k := groupSize bins target
  let e := (List.range target).flatMap (fun i => expand ((h.drop (i * k)).take k))
  if e.length = h.length then some e else none

/-- Dividing an array by its sum (kl_div_optimizer.py:35, 39); `0 / 0` and NaN entries give NaN. -/
def normalize (l : List (Option ℚ)) : List (Option ℚ) :=
  match l.mapM id with
  | none => l.map (fun _ => none)
  | some v => if v.sum = 0 then l.map (fun _ => none) else v.map (fun x => some (x / v.sum))

/-- The reference distribution for the first `i` bins (kl_div_optimizer.py:31-33): the outliers are added to bin
`i - 1`. -/
def reference (h : List ℕ) (i : ℕ) : List (Option ℚ) :=
  ((h.take i).modify (i - 1) (fun x => x + (h.drop i).sum)).map (fun (x : ℕ) => some (x : ℚ))

/-- `np.argmin`: NaN counts as smallest, the first position wins; empty input raises. -/
def argmin {α : Type} [LinearOrder α] (l : List (Option α)) : Option ℕ :=
  match l.findIdx? (fun x => decide (x = none)) with
  | some i => some i
  | none =>
    match (l.filterMap id).min? with
    | none => none
    | some m => l.findIdx? (fun x => decide (x = some m))

/-- `KLDivergenceOptimizer(bins, target).trim` (kl_div_optimizer.py:21-51) for `1 ≤ target`. -/
def klTrim {α : Type} [LinearOrder α] (div : List (Option ℚ) → List (Option ℚ) → Option α) (bins target : ℕ) (d : Dist) : Option Dist := do
  let d1 := Dist.build d.sorted bins
  let divergence ← ((List.range bins).drop target).mapM (fun i => do
    let cand ← reduce bins target (d1.hist.take i)
    if cand.length = (reference d1.hist i).length then
      some (div (normalize (reference d1.hist i)) (normalize cand))
    else none)
  let m ← argmin divergence
  let w ← d1.binSize
  d1.getSlice none (some (((m : ℚ) + 1 / 2) * w))

end Verif.Optim
