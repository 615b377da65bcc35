import Verif.Model.Num

/-!
# Model of `core/itcl_quantization/quantization/lut.py`, class `ReducedLUT`
-/

namespace Verif

namespace ReducedLUT

/-- The counting loop of `__reduce_lut_from_left` (lut.py:106-122).  `done` are the finished counter entries in
order, `(cur, cnt)` is `counter[-1]`; `len(counter) = done.length + 1`.  A new value while
`len(counter) == depth` breaks out of the loop; `depth` may be any integer. -/
def countRuns (depth : ℤ) : List (ℤ × ℕ) → ℤ → ℕ → List ℤ → List (ℤ × ℕ)
  | done, cur, cnt, [] => done ++ [(cur, cnt)]
  | done, cur, cnt, e :: es =>
    if e ≠ cur then
      if ((done.length + 1 : ℕ) : ℤ) = depth then done ++ [(cur, cnt)]
      else countRuns depth (done ++ [(cur, cnt)]) e 1 es
    else countRuns depth done cur (cnt + 1) es

/-- The interval loop (lut.py:127-133): cumulative ends; `base` is the end of the previous interval. -/
def intervals : ℕ → List (ℤ × ℕ) → List (ℤ × ℤ)
  | _, [] => []
  | base, (v, c) :: rest => (((base + c : ℕ) : ℤ), v) :: intervals (base + c) rest

/-- `__reduce_lut_from_left(lut, reverse)` (lut.py:82-141): the shift and the `(offset, value)` intervals. -/
def reduceFromLeft (depth : ℤ) (lut : List ℤ) (reverse : Bool) : ℕ × List (ℤ × ℤ) :=
  match (if reverse then lut.reverse else lut) with
  | [] => (0, [])
  | x :: xs =>
    let counter := countRuns depth [] x 0 (x :: xs)
    let shift := (counter.map Prod.snd).sum
    let ivs := intervals 0 counter
    (shift, if reverse then ivs.map (fun t => ((lut.length : ℤ) - t.1, t.2)) else ivs)

end ReducedLUT

/-- The fields of a `ReducedLUT` object (lut.py:30-47). -/
structure ReducedLUT where
  lut : List ℤ
  depth : ℤ
  minReduce : ℤ
  asymmetric : Bool
  leftShift : ℕ
  leftTuples : List (ℤ × ℤ)
  rightShift : ℕ
  rightTuples : List (ℤ × ℤ)
  reduced : List ℤ
deriving DecidableEq, Repr

namespace ReducedLUT

/-- Python slice `l[a : -r]`, or `l[a:]` when `r = 0` (lut.py:45-47).  For `r > 0` the stop index is
`max(0, len - r)`. -/
def sliceTail (l : List ℤ) (a r : ℕ) : List ℤ := (l.take (l.length - r)).drop a

/-- `ReducedLUT.__init__` (lut.py:18-47). -/
def mk' (lut : List ℤ) (depth minReduce : ℤ) (asymmetric : Bool := false) : ReducedLUT :=
  let l := reduceFromLeft depth lut false
  let r := reduceFromLeft depth (if asymmetric then lut.drop l.1 else lut) true
  { lut := lut, depth := depth, minReduce := minReduce, asymmetric := asymmetric,
    leftShift := l.1, leftTuples := l.2, rightShift := r.1, rightTuples := r.2,
    reduced := sliceTail lut l.1 r.1 }

/-- Python list indexing `l[i]` with a possibly negative index; `none` is `IndexError`. -/
def pyIndex {α : Type} (l : List α) (i : ℤ) : Option α :=
  if 0 ≤ i then l[i.toNat]?
  else if -(l.length : ℤ) ≤ i then l[(i + l.length).toNat]?
  else none

/-- `ReducedLUT.__getitem__` (lut.py:49-75).  `none` is `IndexError`. -/
def get (r : ReducedLUT) (index : ℤ) : Option ℤ :=
  let head : Option ℤ :=
    if index < r.leftShift then
      (r.leftTuples.find? (fun t => index < t.1)).map Prod.snd
    else none
  match head with
  | some v => some v
  | none =>
    let lutIdx := index - r.leftShift
    if lutIdx < r.reduced.length then pyIndex r.reduced lutIdx
    else (r.rightTuples.find? (fun t => t.1 ≤ index)).map Prod.snd

/-- `ReducedLUT.__iter__` (lut.py:77-80), as the list of yielded results (`none` where the iterator would
raise `IndexError`). -/
def iter (r : ReducedLUT) : List (Option ℤ) := (List.range r.lut.length).map (fun (i : ℕ) => r.get i)

/-- The JSON document produced by `serialize` (lut.py:143-162; core/itcl_quantization/json/specification.py).
The free-text `description` is omitted. -/
structure Json where
  reducedLen : ℕ
  reduced : List ℤ
  headShift : ℕ
  headLen : ℕ
  headTuples : List (ℤ × ℤ)
  tailShift : ℕ
  tailLen : ℕ
  tailTuples : List (ℤ × ℤ)
  depth : ℤ
  minReduce : ℤ
  asymmetric : Bool
deriving DecidableEq, Repr

/-- `ReducedLUT.serialize` (lut.py:143-162). -/
def serialize (r : ReducedLUT) : Json :=
  { reducedLen := r.reduced.length, reduced := r.reduced,
    headShift := r.leftShift, headLen := r.leftTuples.length, headTuples := r.leftTuples,
    tailShift := r.rightShift, tailLen := r.rightTuples.length, tailTuples := r.rightTuples,
    depth := r.depth, minReduce := r.minReduce, asymmetric := r.asymmetric }

/-- `ReducedLUT.deserialize` (lut.py:164-177): builds an object from the empty table, then overwrites the
shifts, tuples and the reduced table (but not `lut`). -/
def deserialize (j : Json) : ReducedLUT :=
  { mk' [] j.depth j.minReduce j.asymmetric with
    leftShift := j.headShift, leftTuples := j.headTuples,
    rightShift := j.tailShift, rightTuples := j.tailTuples,
    reduced := j.reduced }

end ReducedLUT
end Verif
