import Verif.Model.Quant
import Verif.Model.ReducedLUT

/-!
# Model of `quantizer/itcl_quantizer/quantizer/distributions/distribution.py`, class `Distribution`

`np.histogram` and `np.sort` are modelled exactly (over ℚ) from numpy's documentation.  `range=` and `weights=` are
never used by the repository and are not modelled.
-/

namespace Verif

/-- The fields of a `Distribution` (distribution.py:32-45). -/
structure Dist where
  sorted : List ℚ
  edges : List ℚ
  hist : List ℕ
  partialBins : Bool
deriving DecidableEq, Repr

/-- A `Bin` (distribution.py:10-19). -/
structure Bin where
  min : ℚ
  max : ℚ
  items : ℕ
  content : List ℚ
deriving DecidableEq, Repr

namespace Dist

/-- `np.histogram`'s outer edges: minimum and maximum of the data, widened by 1/2 if they coincide; `(0, 1)` for
empty data. -/
def outer (a : List ℚ) : ℚ × ℚ :=
  match a.min?, a.max? with
  | some lo, some hi => if lo = hi then (lo - 1 / 2, hi + 1 / 2) else (lo, hi)
  | _, _ => (0, 1)

/-- `np.linspace(first, last, bins + 1)`. -/
def linEdges (lo hi : ℚ) (bins : ℕ) : List ℚ :=
  (List.range (bins + 1)).map (fun (i : ℕ) => lo + (hi - lo) * (i : ℚ) / (bins : ℚ))

/-- `np.histogram` counts: half-open bins, the last one closed. -/
def counts (a edges : List ℚ) : List ℕ :=
  (List.range (edges.length - 1)).map (fun i =>
    a.countP (fun x => decide (edges.getD i 0 ≤ x ∧
      (x < edges.getD (i + 1) 0 ∨ (i + 2 = edges.length ∧ x ≤ edges.getD (i + 1) 0)))))

/-- `Distribution.__init__` with an integer number of bins (distribution.py:23-45). -/
def build (a : List ℚ) (bins : ℕ := 512) (partialBins : Bool := true) : Dist :=
  let o := outer a
  let e := linEdges o.1 o.2 bins
  { sorted := a.mergeSort (fun x y => decide (x ≤ y)), edges := e, hist := counts a e, partialBins := partialBins }

/-- `ndarray.searchsorted(v, side="left")` of a sorted array. -/
def searchLeft (a : List ℚ) (v : ℚ) : ℕ := a.countP (fun x => decide (x < v))

/-- `ndarray.searchsorted(v, side="right")` of a sorted array. -/
def searchRight (a : List ℚ) (v : ℚ) : ℕ := a.countP (fun x => decide (x ≤ v))

/-- `__slice_distribution` (distribution.py:237-261). -/
def slice (d : Dist) (lower upper : Option ℚ) : List ℚ :=
  let lo := match lower with
    | some v => searchLeft d.sorted v
    | none => 0
  let hi := match upper with
    | some v => searchRight d.sorted v
    | none => d.sorted.length
  (d.sorted.take hi).drop lo

/-- `get_bin` (distribution.py:200-225); `none` is an `IndexError` or the failing assertion. -/
def getBin (d : Dist) (idx : ℤ) : Option Bin := do
  let idx := if idx < 0 then ((d.edges.length : ℤ) - 1) + idx else idx
  let lower ← ReducedLUT.pyIndex d.edges idx
  let upper ← ReducedLUT.pyIndex d.edges (idx + 1)
  let bin ← ReducedLUT.pyIndex d.hist idx
  if bin < 2 then some ⟨lower, upper, bin, []⟩
  else
    let view := (d.slice (some lower) none).take bin
    if view.length = bin then
      match view.head?, view.getLast? with
      | some a, some b => some ⟨a, b, bin, view⟩
      | _, _ => none
    else none

/-- `get_min` (distribution.py:343-348). -/
def getMin (d : Dist) : Option ℚ := (d.getBin 0).map Bin.min

/-- `get_max` (distribution.py:350-355). -/
def getMax (d : Dist) : Option ℚ := (d.getBin (-1)).map Bin.max

/-- `get_bin_size` (distribution.py:357-361). -/
def binSize (d : Dist) : Option ℚ := do
  let a ← d.edges[1]?
  let b ← d.edges[0]?
  some |a - b|

/-- `quantize` (distribution.py:121-171).  The zero point is computed even when it is overridden, so data whose
minimum and maximum are both 0 always raise (`0 / 0`, then `round(nan)`).  The other zero denominators do not raise:
numpy returns an infinite scale with a warning; since there is no such number here, that is `none`, too. -/
def quantize (d : Dist) (q : GDtype) (forceZp : Option ℤ := none) (forceS : Option ℚ := none)
    (symmetric : Bool := false) : Option (ℚ × ℤ) := do
  let mn := min (← d.getMin) 0
  let mx := max (← d.getMax) 0
  let qmax := q.max
  let qmin := if symmetric then -qmax else q.min
  if qmax - qmin = 0 ∨ mn - mx = 0 then none
  else
    let scale := (mx - mn) / (qmax - qmin)
    let zp := roundHalfEven ((mn * qmax - mx * qmin) / (mn - mx))
    let (scale, zp) ← match forceZp with
      | none => some (scale, zp)
      | some z =>
        let denom := if symmetric then qmax else |qmin|
        if denom = 0 then none else some (max |mn| |mx| / denom, z)
    let scale := match forceS with
      | none => scale
      | some s => s
    if scale = 0 then some (1, 0) else some (scale, zp)

/-- The index loop of `__clone` (distribution.py:279-285): the last `i` with `edge ≤ v`, or the default. -/
def lastEdgeLe (edges : List ℚ) (v : ℚ) (dflt : ℕ) : ℕ :=
  (List.range edges.length).foldl (fun acc i => if edges.getD i 0 ≤ v then i else acc) dflt

/-- First index of the Python slice `l[i:]` of a list of the given length. -/
def pyStart (len : ℕ) (i : ℤ) : ℕ := if i < 0 then ((len : ℤ) + i).toNat else i.toNat

/-- `__clone` with both bounds present (distribution.py:263-313): `none` where indexing raises.  Without partial bins
(distribution.py:289-290) the first bin index can be `-1`, which Python reads from the end of the lists. -/
def clone (d : Dist) (start stop : ℚ) : Option Dist :=
  if d.partialBins then
    let lo := lastEdgeLe d.edges start 0
    let hi := min (lastEdgeLe d.edges stop d.hist.length + 1) d.hist.length
    match d.edges[lo]?, d.edges[hi]? with
    | some a, some b =>
      some { sorted := d.slice (some a) (some b)
             edges := (d.edges.take (min (hi + 1) d.edges.length)).drop lo
             hist := (d.hist.take hi).drop lo
             partialBins := d.partialBins }
    | _, _ => none
  else
    let hi := lastEdgeLe d.edges stop d.hist.length
    let lo := min ((lastEdgeLe d.edges start 0 : ℤ) + 1) ((hi : ℤ) - 1)
    match ReducedLUT.pyIndex d.edges lo, d.edges[hi]? with
    | some a, some b =>
      some { sorted := d.slice (some a) (some b)
             edges := (d.edges.take (min (hi + 1) d.edges.length)).drop (pyStart d.edges.length lo)
             hist := (d.hist.take hi).drop (pyStart d.hist.length lo)
             partialBins := d.partialBins }
    | _, _ => none

/-- `__getitem__` with a slice (distribution.py:315-337). -/
def getSlice (d : Dist) (start stop : Option ℚ) : Option Dist := do
  let start ← match start with
    | some v => some v
    | none => d.getMin
  let stop ← match stop with
    | some v => some v
    | none => d.getMax
  let size ← d.binSize
  if |start - stop| < size then some (build (d.slice (some start) (some stop)) 1)
  else d.clone start stop

/-- `__getitem__` with an integer (distribution.py:339-340). -/
def getIndex (d : Dist) (i : ℤ) : Option Dist := do
  let bin ← d.getBin i
  d.getSlice (some bin.min) (some bin.max)

end Dist
end Verif
