import Verif.Model.Num

/-!
# Model of the rounding annealer

`quantizer/itcl_quantizer/equalizers/adaround/annealer.py` (class `RoundingAnnealer`), the accept loop of its base class
`simanneal.Annealer` (third-party; modelled from its documented algorithm), and `AdaRound.round` of
`quantizer/itcl_quantizer/equalizers/adaround/adaround.py`.

Randomness is an explicit list of draws.  `none` means that Python raises, or that the list of draws is used up.
The energy is a function of the policies (the cost function of the code writes the policies into the tensors and then
evaluates the network).
-/

namespace Verif

/-- An integer policy array: shape and row-major data. -/
structure Pol where
  shape : List ℕ
  data : List ℕ
deriving DecidableEq, Repr

namespace Pol

/-- Shape and number of elements agree (true of every numpy array). -/
def WF (t : Pol) : Prop := t.data.length = t.shape.prod

/-- `len(t)`: the first dimension (`TypeError` for 0-d arrays, modelled as 0: `randrange(0)` raises as well). -/
def len (t : Pol) : ℕ := t.shape.headD 0

/-- Flip one bit of the flattened array (annealer.py:80-88): `flatten[idx] = flatten[idx] ^ 1`, reshaped back; `none` is
`IndexError`. -/
def flip (t : Pol) (idx : ℕ) : Option Pol :=
  if idx < t.data.length then some { t with data := t.data.modify idx (fun b => b ^^^ 1) } else none

end Pol

/-- Fields of `RoundingAnnealer` that change or matter (annealer.py:30-38, 55-61). -/
structure Annealer where
  state : List Pol
  past : List (List ℕ)
  maxPerm : ℕ
deriving DecidableEq

namespace Annealer

/-- `set_initial_neigh` (annealer.py:49-62), on a fresh annealer (`_past_permutations = set()`, annealer.py:37).
`reduce(lambda x, y: x * y, n.shape, 0)` starts from 0. -/
def init (neigh : List Pol) : Annealer :=
  { state := neigh, past := [], maxPerm := (neigh.map (fun n => n.shape.foldl (fun x y => x * y) 0)).sum }

/-- A tuple of `randrange(start=0, stop=len(t))`, one per tensor (annealer.py:71). -/
def ValidDraw (ts : List Pol) (d : List ℕ) : Prop := List.Forall₂ (fun t i => i < t.len) ts d

/-- The flips of a move (annealer.py:78-89): `zip(self.state, new_permutation)`. -/
def flips : List Pol → List ℕ → Option (List Pol)
  | t :: ts, i :: is => do
    let t' ← t.flip i
    let ts' ← flips ts is
    some (t' :: ts')
  | _, _ => some []

/-- `move` (annealer.py:64-89).  Returns the annealer and the remaining draws. -/
def move (a : Annealer) : List (List ℕ) → Option (Annealer × List (List ℕ))
  | [] => none
  | d :: ds =>
    if d ∉ a.past then (flips a.state d).map (fun s => ({ a with state := s }, ds))
    else if a.maxPerm ≤ a.past.length then some (a, ds)
    else move a ds

/-- Loop state of `_to_minima` (annealer.py:101-103). -/
structure Search where
  a : Annealer
  best : List Pol
  bestE : ℚ
  stuck : ℕ

/-- One iteration of `_to_minima`, before the `break` test (annealer.py:105-116). -/
def searchStep (E : List Pol → ℚ) (s : Search) (ds : List (List ℕ)) : Option (Search × List (List ℕ)) := do
  let (a, ds) ← s.a.move ds
  if E a.state < s.bestE then
    some ({ a := { a with past := [] }, best := a.state, bestE := E a.state, stuck := 0 }, ds)
  else
    some ({ s with a := { a with state := s.best }, stuck := s.stuck + 1 }, ds)

/-- The `while True` loop of `_to_minima` (annealer.py:105-119).  `fuel` bounds the number of iterations looked at;
`none` when it is used up. -/
def searchLoop (E : List Pol → ℚ) (maxRetries : ℕ) : ℕ → Search → List (List ℕ) → Option Search
  | 0, _, _ => none
  | fuel + 1, s, ds => do
    let (s, ds) ← searchStep E s ds
    if maxRetries < s.stuck then some s else searchLoop E maxRetries fuel s ds

/-- `_to_minima` (annealer.py:91-119). -/
def toMinima (E : List Pol → ℚ) (maxRetries : ℕ) (fuel : ℕ) (a : Annealer) (neigh : List Pol) (energy : ℚ)
    (ds : List (List ℕ)) : Option (List Pol × ℚ) :=
  (searchLoop E maxRetries fuel { a := a, best := neigh, bestE := energy, stuck := 0 } ds).map
    (fun s => (s.best, s.bestE))

/-- Loop state of `simanneal.Annealer.anneal`. -/
structure SA where
  a : Annealer
  prev : List Pol
  prevE : ℚ
  best : List Pol
  bestE : ℚ

/-- One step of `simanneal.Annealer.anneal`: move; a worse state is rejected or accepted at random (`accept`, decided in
the library by temperature and a random number), a state that is not worse is accepted; the best accepted state is
remembered. -/
def saStep (E : List Pol → ℚ) (accept : Bool) (s : SA) (ds : List (List ℕ)) : Option (SA × List (List ℕ)) := do
  let (a, ds) ← s.a.move ds
  let e := E a.state
  if s.prevE < e ∧ accept = false then some ({ s with a := { a with state := s.prev } }, ds)
  else
    let s' : SA := { s with a := a, prev := a.state, prevE := e }
    if e < s.bestE then some ({ s' with best := a.state, bestE := e }, ds) else some (s', ds)

/-- The loop of `simanneal.Annealer.anneal`, one entry of `accepts` per step. -/
def saLoop (E : List Pol → ℚ) : List Bool → SA → List (List ℕ) → Option (SA × List (List ℕ))
  | [], s, ds => some (s, ds)
  | c :: cs, s, ds => do
    let (s, ds) ← saStep E c s ds
    saLoop E cs s ds

/-- `sys.maxsize` on 64-bit platforms. -/
def sysMaxsize : ℚ := 2 ^ 63 - 1

/-- `anneal` (annealer.py:121-131): `neigh, energy = super().anneal()` (which ends with `self.state = best_state`), then
`self._to_minima(neigh, energy or sys.maxsize)`. -/
def anneal (E : List Pol → ℚ) (maxRetries : ℕ) (fuel : ℕ) (a : Annealer) (accepts : List Bool) (ds : List (List ℕ)) :
    Option (List Pol × ℚ) := do
  let (s, ds) ← saLoop E accepts
    { a := a, prev := a.state, prevE := E a.state, best := a.state, bestE := E a.state } ds
  let a := { s.a with state := s.best }
  toMinima E maxRetries fuel a s.best (if s.bestE = 0 then sysMaxsize else s.bestE) ds

/-- `AdaRound.round` with this optimizer (adaround.py:78-91): the policies of the tensors are the initial neighbourhood,
and the returned policies are written back (`zip` of tensors and policies, adaround.py:74-75). -/
def adaround (E : List Pol → ℚ) (maxRetries fuel : ℕ) (policies : List Pol) (accepts : List Bool) (ds : List (List ℕ)) :
    Option (List Pol × ℚ) :=
  (anneal E maxRetries fuel (init policies) accepts ds).map (fun r =>
    (List.zipWith (fun _ p => p) policies r.1 ++ policies.drop r.1.length, r.2))

end Annealer
end Verif
