import Verif.Model.Node
import Mathlib.Data.Int.Log

/-!
# Model of `quantizer/itcl_quantizer/equalizers/param_equalizer/`

`abstract_param_optimizer.py`, `bfs_equalizer.py` and `annealer.py` (class `ParamEqAnnealer`).  Nodes are the objects
of `Verif.World`.  Random numbers are inputs.  `print` is left out.
-/

namespace Verif.ParamEq

/-- The random numbers of one node in one move: `z` for the zero point, `r` and `sg` for the scale
(abstract_param_optimizer.py:76, 95).  Each is a result of `random()`. -/
structure Draw where
  z : ℚ
  r : ℚ
  sg : ℚ
deriving DecidableEq

/-- `random()` returns a number in `[0, 1)`. -/
def Draw.Valid (d : Draw) : Prop := (0 ≤ d.z ∧ d.z < 1) ∧ (0 ≤ d.r ∧ d.r < 1) ∧ (0 ≤ d.sg ∧ d.sg < 1)

/-- `_eq_scale` (abstract_param_optimizer.py:65-77), over exact rationals.  `floor(log10(scale))` is `Int.log 10`;
`log10` raises `ValueError` unless the scale is positive. -/
def eqScale (scale : ℚ) (d : Draw) : Option ℚ :=
  if scale ≤ 0 then none
  else
    let numOfZeroes : ℤ := -Int.log 10 scale + 1
    some (scale + d.r / (10 : ℚ) ^ numOfZeroes * (if 1 / 2 < d.sg then -1 else 1))

/-- `_eq_zp` (abstract_param_optimizer.py:79-95).  The draw is ignored at the ends of the range. -/
def eqZp (zp : ℤ) (q : GDtype) (d : Draw) : ℤ :=
  if zp = q.min then zp + 1 else if zp = q.max then zp - 1 else zp + (if 1 / 2 < d.z then 1 else -1)

/-- `copy` (abstract_param_optimizer.py:97-108). -/
def copy (w : World) (dst src : List ℕ) (requantize : Bool) : Option World :=
  (dst.zip src).foldlM (fun w p =>
    World.update World.recursionLimit w p.1 (w.nodes p.2).scale (w.nodes p.2).zp requantize) w

/-- `move` (abstract_param_optimizer.py:110-124). -/
def move (w : World) (state : List ℕ) (ds : List Draw) : Option World :=
  (state.zip ds).foldlM (fun w p => do
    let zp := eqZp (w.nodes p.1).zp (w.nodes p.1).quant p.2
    let scale ← eqScale (w.nodes p.1).scale p.2
    World.update World.recursionLimit w p.1 scale zp true) w

/-- `deepcopy` of a list of nodes (bfs_equalizer.py:27; `copy_state` of simanneal): new objects with the same contents.
The hook lists are copied, but functions are not, so the closures of the copies still refer to the original kernel,
input and bias nodes.  The list has no repeated objects (`Verif.Spec.Searchable`). -/
def deepcopy (w : World) (ids : List ℕ) : World × List ℕ :=
  ({ nodes := fun i => if w.next ≤ i ∧ i < w.next + ids.length then w.nodes (ids.getD (i - w.next) 0) else w.nodes i
     hooks := fun i => if w.next ≤ i ∧ i < w.next + ids.length then w.hooks (ids.getD (i - w.next) 0) else w.hooks i
     next := w.next + ids.length }, List.range' w.next ids.length)

/-! ## `BFSEqualizer` -/

/-- Loop state of `BFSEqualizer.optimize` (bfs_equalizer.py:27-31). -/
structure BFS where
  w : World
  bestCost : ℚ
  retries : ℕ

/-- One iteration (bfs_equalizer.py:32-41).  The cost function takes no argument and reads the live objects; it is
called twice with the same result. -/
def bfsStep (cost : (ℕ → Node) → ℚ) (tensors best : List ℕ) (st : BFS) (ds : List Draw) : Option BFS := do
  let w ← move st.w tensors ds
  let c := cost w.nodes
  if c < st.bestCost then
    let w ← copy w best tensors false
    some { w := w, bestCost := c, retries := 0 }
  else
    let w ← copy w tensors best false
    some { st with w := w, retries := st.retries + 1 }

/-- The `while True` loop (bfs_equalizer.py:31-44), one entry of `draws` per iteration; `none` if the loop has not ended
when the draws run out. -/
def bfsLoop (cost : (ℕ → Node) → ℚ) (maxRetries : ℕ) (tensors best : List ℕ) : List (List Draw) → BFS → Option BFS
  | [], _ => none
  | ds :: draws, st => do
    let st ← bfsStep cost tensors best st ds
    if maxRetries < st.retries then some st else bfsLoop cost maxRetries tensors best draws st

/-- `BFSEqualizer.optimize` (bfs_equalizer.py:25-48): the world on return and the returned cost. -/
def optimize (cost : (ℕ → Node) → ℚ) (maxRetries : ℕ) (w : World) (tensors : List ℕ) (draws : List (List Draw)) :
    Option (World × ℚ) := do
  let (wc, best) := deepcopy w tensors
  let st ← bfsLoop cost maxRetries tensors best draws { w := wc, bestCost := cost wc.nodes, retries := 0 }
  let w ← copy st.w tensors best true
  some (w, st.bestCost)

/-! ## `ParamEqAnnealer` -/

/-- Loop state of `simanneal.Annealer.anneal` with `self.state` a list of node objects (library code; the class
sets no `copy_strategy`, so `copy_state` is `deepcopy`). -/
structure SA where
  w : World
  state : List ℕ
  prev : List ℕ
  prevE : ℚ
  best : List ℕ
  bestE : ℚ

/-- One step of `simanneal.Annealer.anneal`: move; a worse state is rejected (`self.state = copy_state(prevState)`) or
accepted at random, any other is accepted (`prevState = copy_state(self.state)`); the best is remembered. -/
def saStep (cost : (ℕ → Node) → ℚ) (accept : Bool) (s : SA) (ds : List Draw) : Option SA := do
  let w ← move s.w s.state ds
  let e := cost w.nodes
  if s.prevE < e ∧ accept = false then
    let (w, st) := deepcopy w s.prev
    some { s with w := w, state := st }
  else
    let (w, prev) := deepcopy w s.state
    if e < s.bestE then
      let (w, best) := deepcopy w s.state
      some { s with w := w, prev := prev, prevE := e, best := best, bestE := e }
    else some { s with w := w, prev := prev, prevE := e }

/-- The `while step < self.steps` loop. -/
def saLoop (cost : (ℕ → Node) → ℚ) : List (Bool × List Draw) → SA → Option SA
  | [], s => some s
  | c :: cs, s => do
    let s ← saStep cost c.1 s c.2
    saLoop cost cs s

/-- `ParamEqAnnealer.optimize` (annealer.py:37-63): the world on return, the returned list of nodes and the returned
energy.  `steps` has one entry per step. -/
def anneal (cost : (ℕ → Node) → ℚ) (w : World) (tensors : List ℕ) (steps : List (Bool × List Draw)) :
    Option (World × List ℕ × ℚ) := do
  let (w1, prev) := deepcopy w tensors
  let (w2, best) := deepcopy w1 tensors
  let s ← saLoop cost steps
    { w := w2, state := tensors, prev := prev, prevE := cost w2.nodes, best := best, bestE := cost w2.nodes }
  some ((deepcopy s.w s.best).1, s.best, s.bestE)

end Verif.ParamEq
