import Mathlib.Data.List.Basic
import Verif.Model.Json

/-!
# Model of `demo/demo_lib/demo_lib/fpga.py`, class `InferFPGAMQTT`

The client publishes a batch in chunks and waits for one answer per chunk.  Answers arrive on the MQTT client's own
thread, so the model is a transition system interleaving the caller's steps with the callback's steps.

Simplifications: rows are an arbitrary type; publishing the model itself and the JSON text encoding are not modelled;
`wait(timeout)` may time out at any moment; messages that cannot be decoded raise inside the callback, are logged and
change nothing (fpga.py:83-88, mqtt.py:43-51), so they are no action at all.
-/

namespace Verif.Fpga

/-- `np.array_split(x, n)`: the first `len % n` parts have one row more.  `none` is the `ValueError` for `n = 0`. -/
def arraySplit {α : Type} (x : List α) (n : ℕ) : Option (List (List α)) :=
  if n = 0 then none
  else
    let each := x.length / n
    let extras := x.length % n
    some ((List.range n).map (fun i =>
      (x.drop (i * each + min i extras)).take (each + if i < extras then 1 else 0)))

/-- The chunks of `__call__` (fpga.py:61-65): `np.array_split(x, len(x) // max_batch_size)`.  `none` where it raises
(`max_batch_size = 0`: `ZeroDivisionError`). -/
def split {α : Type} (x : List α) (maxBatch : ℕ) : Option (List (List α)) :=
  if maxBatch = 0 then none else arraySplit x (x.length / maxBatch)

/-- `Input` / `Output` (fpga.py:130-150, 153-181): shape and flat data. -/
structure Msg (α : Type) where
  shape : List ℕ
  tensor : List α
deriving DecidableEq

/-- `Input.from_numpy` (fpga.py:137-144) for a 2-D batch; `none` is the `ZeroDivisionError` for an empty one. -/
def Msg.ofBatch {α : Type} (rows : List (List α)) : Option (Msg α) :=
  if rows.length = 0 then none
  else some ⟨[rows.length, rows.flatten.length / rows.length], rows.flatten⟩

/-- `len(batch)` of an array of one to three dimensions. -/
def len {α : Type} : Arr α → ℕ
  | .vec x => x.length
  | .mat x => x.length
  | .cube x => x.length

/-- `Input.from_numpy` (fpga.py:137-144) for an array of any of one to three dimensions: the message always claims two
dimensions. -/
def Msg.ofArr {α : Type} (x : Arr α) : Option (Msg α) :=
  if len x = 0 then none else some ⟨[len x, x.flat.length / len x], x.flat⟩

/-- `Output.as_numpy` (fpga.py:180-181) for a 2-D shape; `none` is the `ValueError` of `reshape`. -/
def Msg.toBatch {α : Type} (m : Msg α) : Option (List (List α)) :=
  match m.shape with
  | [r, c] =>
    if r * c = m.tensor.length then some ((List.range r).map (fun i => (m.tensor.drop (i * c)).take c)) else none
  | _ => none

/-- Where the caller is in the loop body (fpga.py:65-80).  `check` and `collect` are the two separate reads of
`self._result` in lines 75 and 79. -/
inductive PC
  | clear | reset | publish | wait | check | collect
deriving DecidableEq, Repr

/-- The state of a call in progress.  `storing`: the callback has stored a result but not yet set the event. -/
structure St (α β : Type) where
  todo : List (List α)
  pc : PC
  event : Bool
  result : Option (List β)
  storing : Bool
  collected : List (List β)
  published : List (List α)
  done : Option (Option (List β))

/-- The state when the loop is entered; `event` and `result` are left over from earlier calls. -/
def St.init {α β : Type} (chunks : List (List α)) (event : Bool) (result : Option (List β)) : St α β :=
  { todo := chunks, pc := .clear, event := event, result := result, storing := false, collected := [], published := [],
    done := none }

/-- Actions: a step of the caller, the caller's wait timing out, and the callback's two steps (fpga.py:87-88). -/
inductive Act (β : Type)
  | main
  | timeout
  | store (r : List β)
  | set
deriving DecidableEq

/-- One step (fpga.py:65-80 for the caller, 83-88 for the callback); `none` if the action is not possible.  A finished
call has `done = some none` if it raised (the decorator then returns `None`, mqtt.py:43-51) and
`done = some (some rows)` if it returned. -/
def St.step {α β : Type} (s : St α β) : Act β → Option (St α β)
  | .main =>
    if s.done.isSome then none
    else match s.todo with
      | [] => some { s with done := some (some s.collected.flatten) }
      | c :: rest =>
        match s.pc with
        | .clear => some { s with event := false, pc := .reset }
        | .reset => some { s with result := none, pc := .publish }
        | .publish => some { s with published := s.published ++ [c], pc := .wait }
        | .wait => if s.event then some { s with pc := .check } else none
        | .check =>
          match s.result with
          | none => some { s with done := some none }
          | some _ => some { s with pc := .collect }
        | .collect =>
          match s.result with
          | none => some { s with done := some none }
          | some r => some { s with collected := s.collected ++ [r], todo := rest, pc := .clear }
  | .timeout =>
    if s.done.isSome then none
    else match s.todo, s.pc with
      | _ :: _, .wait => some { s with pc := .check }
      | _, _ => none
  | .store r => if s.storing then none else some { s with result := some r, storing := true }
  | .set => if s.storing then some { s with event := true, storing := false } else none

/-- Several steps. -/
def St.run {α β : Type} (s : St α β) (acts : List (Act β)) : Option (St α β) := acts.foldlM St.step s

/-! ### `LossFPGA` (fpga.py:91-127): the cost function that asks the board for the loss of a candidate network -/

/-- Where the caller is in `LossFPGA.__call__` (fpga.py:115-125). -/
inductive LPC
  | clear | publish | wait
deriving DecidableEq, Repr

/-- A client making one call per candidate in `todo`, e.g. an annealer evaluating its cost (fpga.py:91-127).
`results` are the outcomes so far, `none` for a call that raised. -/
structure LSt (α β : Type) where
  todo : List α
  pc : LPC
  event : Bool
  loss : β
  storing : Bool
  published : List α
  results : List (Option β)

/-- The client before its first call (fpga.py:101-109: `_loss = 0`, event unset), generalised to any event and loss. -/
def LSt.init {α β : Type} (todo : List α) (event : Bool) (loss : β) : LSt α β :=
  { todo := todo, pc := .clear, event := event, loss := loss, storing := false, published := [], results := [] }

/-- Actions: the caller, its wait timing out, and the callback's two statements (fpga.py:126-127). -/
inductive LAct (β : Type)
  | main
  | timeout
  | store (r : β)
  | set
deriving DecidableEq

/-- One step (fpga.py:115-127); `none` if the action is not possible. -/
def LSt.step {α β : Type} (s : LSt α β) : LAct β → Option (LSt α β)
  | .main =>
    match s.todo with
    | [] => none
    | c :: rest =>
      match s.pc with
      | .clear => some { s with event := false, pc := .publish }
      | .publish => some { s with published := s.published ++ [c], pc := .wait }
      | .wait =>
        if s.event then some { s with results := s.results ++ [some s.loss], todo := rest, pc := .clear } else none
  | .timeout =>
    match s.todo, s.pc with
    | _ :: rest, .wait => some { s with results := s.results ++ [none], todo := rest, pc := .clear }
    | _, _ => none
  | .store r => if s.storing then none else some { s with loss := r, storing := true }
  | .set => if s.storing then some { s with event := true, storing := false } else none

end Verif.Fpga
