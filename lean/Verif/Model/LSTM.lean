import Verif.Model.LutLayer
import Verif.Model.Float

/-!
# Model of `inference_engine/itcl_inference_engine/layers/itclq/lstm.py`, class `LSTM`

int64 arithmetic of the matrix products is modelled with wrap-around; `float -> int64` conversions
(`.astype(np.int64)`) of values beyond 2⁶³ are not (they are plain truncations).
`FloatingIntegerApprox` is used by the code with `integer_only=False`, so `M * x` is the float product.

The float operations are those of the layer's arithmetic `rnd`: exact (`none`) or rounded to a format after every operation.
-/

namespace Verif

/-- One of the four gates: kernel `[features][cells]`, recurrent kernel `[cells][cells]`, bias, the two rescale
factors and the zero point of the recurrent sum (lstm.py:94-98, 110). -/
structure LSTMGate where
  kernel : List (List ℤ)
  recurrent : List (List ℤ)
  bias : List ℤ
  m1 : ℚ
  m2 : ℚ
  raZp : ℤ
deriving DecidableEq, Repr

/-- The fields of an `LSTM` layer (lstm.py:94-127).  The gates are indexed 0..3 in the code; here they are named
by the table they feed (lstm.py:308-314). -/
structure LSTM where
  nFeatures : ℕ
  nCells : ℕ
  gi : LSTMGate
  gf : LSTMGate
  gc : LSTMGate
  go : LSTMGate
  m3 : ℚ
  m4 : ℚ
  m5 : ℚ
  inputLut : LutLayer
  forgetLut : LutLayer
  cellLut : LutLayer
  outputLut : LutLayer
  stateLut : LutLayer
  inputZp : ℤ
  hiddenZp : ℤ
  inputGateZp : ℤ
  forgetGateZp : ℤ
  cellGateZp : ℤ
  outputGateZp : ℤ
  cellZp : ℤ
  cellActZp : ℤ
  raDtype : GDtype
  cellDtype : GDtype
  hiddenDtype : GDtype
  returnSequences : Bool
  rnd : Option Fmt := none
deriving DecidableEq, Repr

/-- The result of a float operation: exact, or rounded to a format.  (numpy, not repository code.) -/
def Fmt.opt (R : Option Fmt) (x : ℚ) : ℚ :=
  match R with
  | none => x
  | some F => F.fl x

namespace LSTM

/-- The result of a float operation of the layer. -/
def fl (l : LSTM) (x : ℚ) : ℚ := Fmt.opt l.rnd x

/-- `(M1 * n).astype(int64)` (lstm.py:287): numpy converts the integer to a float first. -/
def firstVal (l : LSTM) (g : LSTMGate) (n : ℤ) : ℤ := trunc (l.fl (g.m1 * l.fl n))

/-- `(n * M2 + zero_point).clip(...).astype(int64)` (lstm.py:295-302). -/
def sumVal (l : LSTM) (g : LSTMGate) (n : ℤ) : ℤ :=
  trunc (clip (l.raDtype.min : ℚ) (l.raDtype.max : ℚ) (l.fl (l.fl (l.fl n * g.m2) + g.raZp)))

/-- `row @ K` for a matrix with `n` columns (int64). -/
def vecMat (row : List ℤ) (K : List (List ℤ)) (n : ℕ) : List ℤ :=
  (List.range n).map (fun j => dot64 row (K.map (fun krow => krow.getD j 0)))

/-- `A @ K` for matrices. -/
def mmul (A K : List (List ℤ)) (n : ℕ) : List (List ℤ) := A.map (fun row => vecMat row K n)

/-- Element-wise binary operation on two matrices with broadcasting of a one-row left operand
(the initial states have one row, lstm.py:273-274); other shape mismatches raise. -/
def ew2 (f : ℤ → ℤ → ℤ) (A B : List (List ℤ)) : Option (List (List ℤ)) :=
  if A.length = B.length then some (List.zipWith (fun a b => List.zipWith f a b) A B)
  else match A with
    | [a] => some (B.map (fun b => List.zipWith f a b))
    | _ => none

/-- `bias_add` of one gate (lstm.py:286-287): `(M1 * ((x @ K) + b)).astype(int64)`. -/
def biasAdd (l : LSTM) (g : LSTMGate) (X : List (List ℤ)) : List (List ℤ) :=
  (mmul X g.kernel l.nCells).map (fun r =>
    List.zipWith (fun a b => l.firstVal g (wrapS 64 (a + b))) r g.bias)

/-- `recurrent_add` of one gate (lstm.py:294-302): float clip, then truncation. -/
def recurrentAdd (l : LSTM) (g : LSTMGate) (H ba : List (List ℤ)) : Option (List (List ℤ)) :=
  ew2 (fun a b => l.sumVal g (wrapS 64 (a + b))) (mmul H g.recurrent l.nCells) ba

/-- A gate's table applied to a matrix (lstm.py:308-314, 338). -/
def lutMat (t : LutLayer) (A : List (List ℤ)) : Option (List (List ℤ)) :=
  match t.infer (.mat A) with
  | some (.mat B) => some B
  | _ => none

/-- New cell value from forget, old cell, input and cell gate values (lstm.py:318-334). -/
def cellVal (l : LSTM) (f c i g : ℤ) : ℤ :=
  clip l.cellDtype.min l.cellDtype.max
    (trunc (l.fl (l.fl (l.cellZp + l.fl (l.fl (l.m3 * l.fl (f - l.forgetGateZp)) * l.fl (c - l.cellZp)))
      + l.fl (l.m4 * l.fl ((i - l.inputGateZp) * (g - l.cellGateZp))))))

/-- New hidden value from output gate and activated cell (lstm.py:343-358). -/
def hiddenVal (l : LSTM) (o a : ℤ) : ℤ :=
  clip l.hiddenDtype.min l.hiddenDtype.max
    (trunc (l.fl (l.hiddenZp + l.fl (l.m5 * l.fl ((o - l.outputGateZp) * (a - l.cellActZp))))))

/-- Broadcast of a one-row matrix to `n` rows (numpy broadcasting of the initial cell state). -/
def bcastRows (A : List (List ℤ)) (n : ℕ) : Option (List (List ℤ)) :=
  if A.length = n then some A
  else match A with
    | [a] => some (List.replicate n a)
    | _ => none

/-- One time step on a whole batch (lstm.py:279-360): from the inputs of this step `X` (one row per sample, zero
point already subtracted) and the previous hidden and cell states to the new ones. -/
def step (l : LSTM) (X H C : List (List ℤ)) : Option (List (List ℤ) × List (List ℤ)) := do
  let rI ← l.recurrentAdd l.gi H (l.biasAdd l.gi X)
  let rF ← l.recurrentAdd l.gf H (l.biasAdd l.gf X)
  let rC ← l.recurrentAdd l.gc H (l.biasAdd l.gc X)
  let rO ← l.recurrentAdd l.go H (l.biasAdd l.go X)
  let aI ← lutMat l.inputLut rI
  let aF ← lutMat l.forgetLut rF
  let aC ← lutMat l.cellLut rC
  let aO ← lutMat l.outputLut rO
  let Cb ← bcastRows C aF.length
  let C' := List.zipWith (fun fc ig => List.zipWith (fun (x y : ℤ × ℤ) => l.cellVal x.1 x.2 y.1 y.2) fc ig)
    (List.zipWith List.zip aF Cb) (List.zipWith List.zip aI aC)
  let aS ← lutMat l.stateLut C'
  let H' := List.zipWith (fun o a => List.zipWith l.hiddenVal o a) aO aS
  some (H', C')

/-- The loop over the time steps, collecting all (hidden, cell) states in order. -/
def run (l : LSTM) : List (List (List ℤ)) → List (List ℤ) → List (List ℤ) →
    Option (List (List (List ℤ) × List (List ℤ)))
  | [], _, _ => some []
  | X :: Xs, H, C => do
    let (H', C') ← l.step X H C
    let rest ← l.run Xs H' C'
    some ((H', C') :: rest)

/-- `swapaxes(0, 1)` of an array with `n` columns on the second axis. -/
def swap {α : Type} (X : List (List α)) (n : ℕ) (dflt : α) : List (List α) :=
  (List.range n).map (fun t => X.map (fun s => s.getD t dflt))

/-- The initial states: one row of zeros (lstm.py:273-274). -/
def zeroState (l : LSTM) : List (List ℤ) := [List.replicate l.nCells 0]

/-- The sequence of states of a batch `X[batch][time][feature]` (lstm.py:270-360).  `none` where the code raises:
wrong number of features, samples of different length (not an array), no sample or no time step. -/
def states (l : LSTM) (X : List (List (List ℤ))) : Option (List (List (List ℤ) × List (List ℤ))) :=
  match X with
  | [] => none
  | s :: _ =>
    if (∀ x ∈ X, x.length = s.length ∧ ∀ r ∈ x, r.length = l.nFeatures) ∧ s ≠ [] then
      l.run (swap (X.map (fun x => x.map (fun r => r.map (fun v => v - l.inputZp)))) s.length [])
        l.zeroState l.zeroState
    else none

/-- `LSTM.infer` (lstm.py:267-368). -/
def infer (l : LSTM) : Arr ℤ → Option (Arr ℤ)
  | .cube X =>
    match l.states X with
    | none => none
    | some st =>
      let hs := st.map Prod.fst
      if l.returnSequences then some (.cube (swap hs X.length []))
      else match hs.getLast? with
        | none => none
        | some h => some (.mat h)
  | _ => none

/-- Tensor of a node as a matrix with the zero point subtracted (lstm.py:200, 204). -/
def nodeMat (n : NodeJ) : Option (List (List ℤ)) := do
  let t ← n.tensor
  let zp ← n.zeroPoint
  match t.data with
  | some (.mat m) => some (m.map (fun r => r.map (fun v => v - zp)))
  | _ => none

/-- Tensor of a node as a vector with the zero point subtracted (lstm.py:208). -/
def nodeVec (n : NodeJ) : Option (List ℤ) := do
  let t ← n.tensor
  let zp ← n.zeroPoint
  match t.data with
  | some (.vec m) => some (m.map (fun v => v - zp))
  | _ => none

/-- Dtype of a node's tensor, parsed by `Quantization(dtype)`. -/
def nodeDtype (n : NodeJ) : Option GDtype := do
  let t ← n.tensor
  (GDtype.ofString t.dtype.toList).toOption

/-- One gate from its nodes: kernel, recurrent kernel, bias, recurrent sum (lstm.py:200-220, 251). -/
def buildGate (input hidden kernel recurrent bias ra : NodeJ) (R : Option Fmt := none) : Option LSTMGate := do
  let r' := Fmt.opt R
  let k ← nodeMat kernel
  let r ← nodeMat recurrent
  let b ← nodeVec bias
  let ks ← kernel.scale
  let rs ← recurrent.scale
  let is ← input.scale
  let hs ← hidden.scale
  let ras ← ra.scale
  some ⟨k, r, b, r' (r' (ks * is) / r' (hs * rs)), r' (r' (rs * hs) / ras), ra.zeroPoint.getD 0⟩

/-- `LSTM.from_model` and `LSTM.build` (lstm.py:131-265).  The positions of the 32 input nodes are those of
lstm.py:134-148.  `none` when a node, scale, tensor or table is missing, a dtype is invalid or a multiplier
cannot be represented.  `R` is the arithmetic in which the factors and then the layer compute. -/
def fromModel (op : OpJ) (R : Option Fmt := none) : Option LSTM := do
  let r' := Fmt.opt R
  let node := fun (i : ℕ) => op.inputs[i]?
  let input ← node 0
  let hidden ← op.outputs.head?
  let retSeq ← op.returnSequences
  let gi ← buildGate input hidden (← node 1) (← node 5) (← node 9) (← node 17) R
  let gf ← buildGate input hidden (← node 2) (← node 6) (← node 10) (← node 18) R
  let gc ← buildGate input hidden (← node 3) (← node 7) (← node 11) (← node 19) R
  let go ← buildGate input hidden (← node 4) (← node 8) (← node 12) (← node 20) R
  let cell ← node 21
  let inIn ← node 22
  let inOut ← node 23
  let foIn ← node 24
  let foOut ← node 25
  let ceIn ← node 26
  let ceOut ← node 27
  let ouIn ← node 28
  let ouOut ← node 29
  let csIn ← node 30
  let csOut ← node 31
  let m3 ← foOut.scale
  let m4 : ℚ := r' (r' ((← inOut.scale) * (← ceOut.scale)) / (← cell.scale))
  let m5 : ℚ := r' (r' ((← ouOut.scale) * (← csOut.scale)) / (← hidden.scale))
  let _ ← floatingApprox m3
  let _ ← floatingApprox m4
  let _ ← floatingApprox m5
  let _ ← nodeDtype (← node 13)
  some {
    nFeatures := gi.kernel.length
    nCells := (gi.kernel.getD 0 []).length
    gi := gi, gf := gf, gc := gc, go := go
    m3 := m3, m4 := m4, m5 := m5
    inputLut := ← LutLayer.ofNode inIn
    forgetLut := ← LutLayer.ofNode foIn
    cellLut := ← LutLayer.ofNode ceIn
    outputLut := ← LutLayer.ofNode ouIn
    stateLut := ← LutLayer.ofNode csIn
    inputZp := input.zeroPoint.getD 0
    hiddenZp := hidden.zeroPoint.getD 0
    inputGateZp := inOut.zeroPoint.getD 0
    forgetGateZp := foOut.zeroPoint.getD 0
    cellGateZp := ceOut.zeroPoint.getD 0
    outputGateZp := ouOut.zeroPoint.getD 0
    cellZp := cell.zeroPoint.getD 0
    cellActZp := csOut.zeroPoint.getD 0
    raDtype := ← nodeDtype (← node 17)
    cellDtype := ← nodeDtype csOut
    hiddenDtype := ← nodeDtype hidden
    returnSequences := retSeq
    rnd := R }

end LSTM
end Verif
