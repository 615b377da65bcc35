import Verif.Lemmas.Accuracy
import Verif.Props.LstmFloat

/-!
# C83: specification of the error bound of a quantized LSTM, and one step of it
-/

namespace Verif

open Spec Keras

namespace Spec

/-- `y` is at most half a step away from what some int8 code with parameters `(z, s)` stands for. -/
def Covered (z : ℤ) (s y : ℚ) : Prop := ∃ q, Code (-128) 127 q ∧ |real z s q - y| ≤ s / 2

/-- The quantities the error bound of an LSTM layer depends on: for the input, the largest centred code `amp`, the scale
`sIn` and the error `eIn`; per gate (0 input, 1 forget, 2 candidate, 3 output) the scales of kernel, recurrent kernel,
recurrent sum and gate output, and bounds for the absolute column sums of kernel and recurrent kernel; scales of cell
state, squashed cell state and hidden state and the zero point of the latter; Lipschitz constants of sigmoid and tanh and
a bound for the forget gate; the relative error `eps` of the engine's float operations (0 if they are exact); and what a
table entry may be off beyond half a step, `tab` (0 if the entries are the nearest codes); and per gate what a stored weight,
recurrent weight and bias may be off beyond half a step, `tolK`, `tolU` and `tolB` (0 if they are the nearest codes). -/
structure LstmBudget where
  features : ℕ
  units : ℕ
  amp : ℤ
  sIn : ℚ
  eIn : ℚ
  sK : ℕ → ℚ
  sU : ℕ → ℚ
  sA : ℕ → ℚ
  sT : ℕ → ℚ
  colK : ℕ → ℚ
  colU : ℕ → ℚ
  sC : ℚ
  sS : ℚ
  sH : ℚ
  zH : ℤ
  lipSigmoid : ℚ
  lipTanh : ℚ
  forget : ℚ
  eps : ℚ := 0
  tab : ℚ := 0
  tolK : ℕ → ℚ := fun _ => 0
  tolU : ℕ → ℚ := fun _ => 0
  tolB : ℕ → ℚ := fun _ => 0

namespace LstmBudget

/-- Size of the numbers that are rounded on the way to a recurrent sum: the two accumulators and the sum. -/
def sumRounding (b : LstmBudget) (g : ℕ) : ℚ :=
  b.sH * b.sU g * (b.units * (128 * 255) + 3) + 3 * (b.sIn * b.sK g * (b.features * (b.amp * 255) + 2 ^ 31)) +
    129 * b.sA g

/-- Error of a recurrent sum, if the recurrent products are off because the hidden state they use is off by `eu`: rounded
kernel, rounded inputs, rounded bias, rounded recurrent kernel, hidden state, one accumulator step for the first
truncation, the rounding of the float operations, and 3/2 steps of the sum for the second truncation and saturation. -/
def sumError (b : LstmBudget) (g : ℕ) (eu : ℚ) : ℚ :=
  b.features * (b.amp * b.sIn) * (b.sK g / 2 + b.tolK g) + b.eIn * b.colK g + (b.sIn * b.sK g / 2 + b.tolB g) +
    (b.units * (128 * b.sH) * (b.sU g / 2 + b.tolU g) + eu * b.colU g) + b.sH * b.sU g + b.eps * b.sumRounding g + 3 / 2 * b.sA g

/-- Error of a gate's output: the table costs one step, and the error of its entries. -/
def gateError (b : LstmBudget) (g : ℕ) (lip eu : ℚ) : ℚ := lip * b.sumError g eu + b.sT g + b.tab

/-- Error of the squashed cell state. -/
def squashError (b : LstmBudget) (ec' : ℚ) : ℚ := b.lipTanh * ec' + b.sS + b.tab

/-- Error of the new cell state from the errors of the recurrent hidden state and the old cell state. -/
def cellError (b : LstmBudget) (eu ec : ℚ) : ℚ :=
  b.forget * ec + b.gateError 1 b.lipSigmoid eu * (128 * b.sC) +
    (b.gateError 2 b.lipTanh eu + b.gateError 0 b.lipSigmoid eu +
      b.gateError 0 b.lipSigmoid eu * b.gateError 2 b.lipTanh eu) +
    b.eps * ((1 + b.gateError 1 b.lipSigmoid eu) * (128 * b.sC) +
      (1 + b.gateError 0 b.lipSigmoid eu) * (1 + b.gateError 2 b.lipTanh eu) + b.sC) + 3 / 2 * b.sC

/-- Error of the new hidden state from the errors of the recurrent hidden state and the new cell state. -/
def hiddenError (b : LstmBudget) (eu ec' : ℚ) : ℚ :=
  b.squashError ec' + b.gateError 3 b.lipSigmoid eu +
    b.gateError 3 b.lipSigmoid eu * b.squashError ec' +
    b.eps * ((1 + b.gateError 3 b.lipSigmoid eu) * (1 + b.squashError ec') + 129 * b.sH) + 3 / 2 * b.sH

/-- Errors of hidden and cell state after `t` steps.  The initial state is exact; from then on the recurrent products see
the hidden codes without their zero point subtracted (C54), which adds `|sH · zH|`. -/
def error (b : LstmBudget) : ℕ → ℚ × ℚ
  | 0 => (0, 0)
  | t + 1 =>
    let eu := if t = 0 then 0 else (b.error t).1 + |b.sH * b.zH|
    let ec' := b.cellError eu (b.error t).2
    (b.hiddenError eu ec', ec')

/-- All quantities are meaningful. -/
structure Ok (b : LstmBudget) : Prop where
  amp : 0 ≤ b.amp
  eIn : 0 ≤ b.eIn
  sIn : 0 < b.sIn
  sK : ∀ g < 4, 0 < b.sK g
  sU : ∀ g < 4, 0 < b.sU g
  sA : ∀ g < 4, 0 < b.sA g
  sT : ∀ g < 4, 0 < b.sT g
  sC : 0 < b.sC
  sS : 0 < b.sS
  sH : 0 < b.sH
  colK : ∀ g < 4, 0 ≤ b.colK g
  colU : ∀ g < 4, 0 ≤ b.colU g
  lipSigmoid : 0 ≤ b.lipSigmoid
  lipTanh : 0 ≤ b.lipTanh
  forget : 0 ≤ b.forget
  eps : 0 ≤ b.eps ∧ b.eps ≤ 1
  tab : 0 ≤ b.tab
  tol : ∀ g < 4, 0 ≤ b.tolK g ∧ 0 ≤ b.tolU g ∧ 0 ≤ b.tolB g

/-- What the bound needs to know about the float layer: bounded and Lipschitz activations, the column sums, biases that
fit the int32 range, and no int64 overflow in the two accumulators. -/
structure Holds (b : LstmBudget) (ext : Ext) (l : KLSTM) : Prop where
  features : b.features = l.kernel.length
  units : b.units = l.units
  amp : 0 ≤ b.amp
  eIn : 0 ≤ b.eIn
  lipSigmoid : 0 ≤ b.lipSigmoid
  lipTanh : 0 ≤ b.lipTanh
  forget : 0 ≤ b.forget
  eps : 0 ≤ b.eps ∧ b.eps ≤ 1
  tab : 0 ≤ b.tab
  tol : ∀ g < 4, 0 ≤ b.tolK g ∧ 0 ≤ b.tolU g ∧ 0 ≤ b.tolB g
  sigmoid : ∀ y, |ext.sigmoid y| ≤ 1
  tanh : ∀ y, |ext.tanh y| ≤ 1
  sigmoidLip : ∀ x y, |ext.sigmoid x - ext.sigmoid y| ≤ b.lipSigmoid * |x - y|
  tanhLip : ∀ x y, |ext.tanh x - ext.tanh y| ≤ b.lipTanh * |x - y|
  colK : ∀ g < 4, ∀ u < l.units,
    ((List.range l.kernel.length).map (fun f => |weight l.kernel f (g * l.units + u)|)).sum ≤ b.colK g
  colU : ∀ g < 4, ∀ u < l.units,
    ((List.range l.units).map (fun k => |weight l.recurrent k (g * l.units + u)|)).sum ≤ b.colU g
  bias : ∀ g < 4, ∀ u < l.units, |l.bias.getD (g * l.units + u) 0| ≤ b.sIn * b.sK g * (2 ^ 31 - 1)
  first : (b.features : ℤ) * (b.amp * 255) + 2 ^ 31 < 2 ^ 63
  second : ∀ g < 4, b.units * (128 * 255) +
    (1 + b.eps) * (b.sK g * b.sIn / (b.sH * b.sU g) * (b.features * (b.amp * 255) + 2 ^ 31) + 1) < 2 ^ 63

end LstmBudget

/-- What a gate of an int8 LSTM operator must hold to stand for gate number `gate` of the real layer `l`: weights and biases
within half a step and `dK`, `dU`, `dB`, the rescaling factors made of the scales, and a table whose entries are within half a step and `τ` of
the saturated value of the function. -/
structure GateCodes (l : KLSTM) (gate : ℕ) (fn : ℚ → ℚ) (τ dK dU dB sIn sH sK sU sA : ℚ) (g : LSTMGate) (t : LutLayer) (sOut : ℚ)
    (zOut : ℤ) : Prop where
  posK : 0 < sK
  posU : 0 < sU
  posA : 0 < sA
  posOut : 0 < sOut
  kernelShape : g.kernel.length = l.kernel.length ∧ ∀ r ∈ g.kernel, r.length = l.units
  kernel : ∀ (f c : ℕ) (v : ℚ), c < l.units → (l.kernel[f]?.bind (fun r => r[gate * l.units + c]?)) = some v →
    ∃ q : ℤ, (g.kernel[f]?.bind (fun r => r[c]?)) = some q ∧ |sK * q - v| ≤ sK / 2 + dK
  recurrentShape : g.recurrent.length = l.units ∧ ∀ r ∈ g.recurrent, r.length = l.units
  recurrent : ∀ (f c : ℕ) (v : ℚ), c < l.units → (l.recurrent[f]?.bind (fun r => r[gate * l.units + c]?)) = some v →
    ∃ q : ℤ, (g.recurrent[f]?.bind (fun r => r[c]?)) = some q ∧ |sU * q - v| ≤ sU / 2 + dU
  biasShape : g.bias.length = l.units
  bias : ∀ (c : ℕ) (v : ℚ), c < l.units → l.bias[gate * l.units + c]? = some v →
    ∃ q : ℤ, g.bias[c]? = some q ∧ |q| ≤ 2 ^ 31 ∧ |sIn * sK * q - v| ≤ sIn * sK / 2 + dB
  m1 : g.m1 = sK * sIn / (sH * sU)
  m2 : g.m2 = sU * sH / sA
  table : ∀ q, Code (-128) 127 q → ∃ a, t.look q = some a ∧
    |real zOut sOut a - saturate sOut zOut (fn (real g.raZp sA q))| ≤ sOut / 2 + τ

/-- What an int8 LSTM layer must hold to stand for the real layer `l`, with the scales and tolerances of `b`. -/
structure LstmCodes (ext : Ext) (l : KLSTM) (b : LstmBudget) (zIn : ℤ) (L : LSTM) : Prop where
  posH : 0 < b.sH
  posC : 0 < b.sC
  posS : 0 < b.sS
  features : L.nFeatures = l.kernel.length
  cells : L.nCells = l.units
  input : GateCodes l 0 ext.sigmoid b.tab (b.tolK 0) (b.tolU 0) (b.tolB 0) b.sIn b.sH (b.sK 0) (b.sU 0) (b.sA 0) L.gi L.inputLut (b.sT 0) L.inputGateZp
  forget : GateCodes l 1 ext.sigmoid b.tab (b.tolK 1) (b.tolU 1) (b.tolB 1) b.sIn b.sH (b.sK 1) (b.sU 1) (b.sA 1) L.gf L.forgetLut (b.sT 1) L.forgetGateZp
  candidate : GateCodes l 2 ext.tanh b.tab (b.tolK 2) (b.tolU 2) (b.tolB 2) b.sIn b.sH (b.sK 2) (b.sU 2) (b.sA 2) L.gc L.cellLut (b.sT 2) L.cellGateZp
  output : GateCodes l 3 ext.sigmoid b.tab (b.tolK 3) (b.tolU 3) (b.tolB 3) b.sIn b.sH (b.sK 3) (b.sU 3) (b.sA 3) L.go L.outputLut (b.sT 3) L.outputGateZp
  state : ∀ q, Code (-128) 127 q → ∃ a, L.stateLut.look q = some a ∧
    |real L.cellActZp b.sS a - saturate b.sS L.cellActZp (ext.tanh (real L.cellZp b.sC q))| ≤ b.sS / 2 + b.tab
  m3 : L.m3 = b.sT 1
  m4 : L.m4 = b.sT 0 * b.sT 2 / b.sC
  m5 : L.m5 = b.sT 3 * b.sS / b.sH
  inputZp : L.inputZp = zIn
  cellZp : L.cellZp = 0
  dtypes : L.raDtype = intDtype 7 ∧ L.cellDtype = intDtype 7 ∧ L.hiddenDtype = intDtype 7
  sequences : L.returnSequences = l.returnSequences
  codes : ∀ g ∈ [L.gi, L.gf, L.gc, L.go], ∀ r ∈ g.kernel ++ g.recurrent, ∀ q ∈ r, |q| ≤ 255

/-- The gate `g'` of the layer `L'` has the codes of `g`, and its two float computations (for all integers) are those of `g`
up to the relative error `ε` of float operations; the first one is then truncated. -/
structure GateNear (ε : ℚ) (L' : LSTM) (g g' : LSTMGate) : Prop where
  kernel : g'.kernel = g.kernel
  recurrent : g'.recurrent = g.recurrent
  bias : g'.bias = g.bias
  raZp : g'.raZp = g.raZp
  first : ∀ n : ℤ, |(L'.firstVal g' n : ℚ) - g.m1 * n| ≤ 1 + ε * (|g.m1 * n| + 1)
  sum : ∀ n : ℤ, ∃ v : ℚ, L'.sumVal g' n = trunc (clip (L'.raDtype.min : ℚ) (L'.raDtype.max : ℚ) v) ∧
    |v - (n * g.m2 + g.raZp)| ≤ ε * (|n * g.m2| + 129)

/-- `L'` is the layer `L` with float operations of relative error `ε`. -/
structure LstmNear (ε : ℚ) (L L' : LSTM) : Prop where
  cells : L'.nCells = L.nCells
  features : L'.nFeatures = L.nFeatures
  sequences : L'.returnSequences = L.returnSequences
  zps : L'.inputZp = L.inputZp ∧ L'.hiddenZp = L.hiddenZp
  dtypes : L'.raDtype = L.raDtype ∧ L'.cellDtype = L.cellDtype ∧ L'.hiddenDtype = L.hiddenDtype
  tables : L'.inputLut = L.inputLut ∧ L'.forgetLut = L.forgetLut ∧ L'.cellLut = L.cellLut ∧
    L'.outputLut = L.outputLut ∧ L'.stateLut = L.stateLut
  gi : GateNear ε L' L.gi L'.gi
  gf : GateNear ε L' L.gf L'.gf
  gc : GateNear ε L' L.gc L'.gc
  go : GateNear ε L' L.go L'.go
  cell : ∀ f c i g : ℤ, ∃ v : ℚ, L'.cellVal f c i g = clip L'.cellDtype.min L'.cellDtype.max (trunc v) ∧
    |v - (L.cellZp + L.m3 * (f - L.forgetGateZp) * (c - L.cellZp) + L.m4 * ((i - L.inputGateZp) * (g - L.cellGateZp)))| ≤
      ε * (|L.m3 * (f - L.forgetGateZp) * (c - L.cellZp)| + |L.m4 * ((i - L.inputGateZp) * (g - L.cellGateZp))| + 1)
  hidden : ∀ o a : ℤ, ∃ v : ℚ, L'.hiddenVal o a = clip L'.hiddenDtype.min L'.hiddenDtype.max (trunc v) ∧
    |v - (L.hiddenZp + L.m5 * ((o - L.outputGateZp) * (a - L.cellActZp)))| ≤
      ε * (|L.m5 * ((o - L.outputGateZp) * (a - L.cellActZp))| + 129)

/-- The recurrent sums of the float layer at step `t` (gate `g`, cell `u`). -/
def lstmSum (ext : Ext) (l : KLSTM) (x : List (List ℚ)) (t g u : ℕ) : ℚ :=
  gateSum l (x.getD t []) (lstmState ext l x t).1 (g * l.units + u)

/-- The first `T` steps of the float layer on `x` stay (up to half a step) in the ranges of the quantized layer, and its
forget gate below the given bound. -/
structure LstmInRange (ext : Ext) (l : KLSTM) (L : LSTM) (b : LstmBudget) (x : List (List ℚ)) (T : ℕ) : Prop where
  sumI : ∀ t < T, ∀ u < l.units, Covered L.gi.raZp (b.sA 0) (lstmSum ext l x t 0 u)
  sumF : ∀ t < T, ∀ u < l.units, Covered L.gf.raZp (b.sA 1) (lstmSum ext l x t 1 u)
  sumG : ∀ t < T, ∀ u < l.units, Covered L.gc.raZp (b.sA 2) (lstmSum ext l x t 2 u)
  sumO : ∀ t < T, ∀ u < l.units, Covered L.go.raZp (b.sA 3) (lstmSum ext l x t 3 u)
  outI : ∀ t < T, ∀ u < l.units, Covered L.inputGateZp (b.sT 0) (ext.sigmoid (lstmSum ext l x t 0 u))
  outF : ∀ t < T, ∀ u < l.units, Covered L.forgetGateZp (b.sT 1) (ext.sigmoid (lstmSum ext l x t 1 u))
  outG : ∀ t < T, ∀ u < l.units, Covered L.cellGateZp (b.sT 2) (ext.tanh (lstmSum ext l x t 2 u))
  outO : ∀ t < T, ∀ u < l.units, Covered L.outputGateZp (b.sT 3) (ext.sigmoid (lstmSum ext l x t 3 u))
  cell : ∀ t < T, ∀ u < l.units, Covered 0 b.sC ((lstmState ext l x (t + 1)).2 u)
  squashed : ∀ t < T, ∀ u < l.units, Covered L.cellActZp b.sS (ext.tanh ((lstmState ext l x (t + 1)).2 u))
  hidden : ∀ t < T, ∀ u < l.units, Covered L.hiddenZp b.sH ((lstmState ext l x (t + 1)).1 u)
  forget : ∀ t < T, ∀ u < l.units, |ext.sigmoid (lstmSum ext l x t 1 u)| ≤ b.forget

end Spec

namespace LstmAcc

theorem abs_add3 {a b c d e : ℚ} (h1 : |a - b| ≤ d) (h2 : |b - c| ≤ e) : |a - c| ≤ d + e := by
  have := abs_add_le (a - b) (b - c)
  rw [show a - b + (b - c) = a - c by ring] at this
  linarith

/-- `y` is within half a step of the representable range. -/
theorem Covered.sat {z : ℤ} {s y : ℚ} (hs : 0 < s) (h : Covered z s y) : |saturate s z y - y| ≤ s / 2 := by
  obtain ⟨q, ⟨h1, h2⟩, h3⟩ := h
  have m1 := Accuracy.real_mono hs z h1
  have m2 := Accuracy.real_mono hs z h2
  have m3 := Accuracy.real_mono hs z (show (-128 : ℤ) ≤ 127 by norm_num)
  rw [abs_le] at h3
  unfold saturate
  rcases le_total y (real z s 127) with h | h
  · rw [min_eq_right h]
    rcases le_total (real z s (-128)) y with h' | h'
    · rw [max_eq_right h', sub_self, abs_zero]; linarith
    · rw [max_eq_left h', abs_le]; constructor <;> linarith
  · rw [min_eq_left h, max_eq_right m3, abs_le]; constructor <;> linarith

/-- Saturating in code units, in real units. -/
theorem real_ratclip {s : ℚ} (hs : 0 < s) (z : ℤ) (v : ℚ) :
    s * (clip (-128 : ℚ) 127 v - z) = saturate s z (s * (v - z)) := by
  unfold saturate real
  have e : ∀ a b : ℚ, s * (a - z) ≤ s * (b - z) ↔ a ≤ b := fun a b => by
    rw [mul_le_mul_iff_right₀ hs]; constructor <;> intro h <;> linarith
  rcases le_total v (-128) with h | h
  · rw [clip_of_le (by norm_num) h, min_eq_right, max_eq_left]
    · norm_num
    · push_cast; rw [e]; exact h
    · push_cast; rw [e]; linarith
  · rcases le_total v 127 with h' | h'
    · rw [clip_of_mem h h', min_eq_right, max_eq_right]
      · push_cast; rw [e]; exact h
      · push_cast; rw [e]; exact h'
    · rw [clip_of_ge h', min_eq_left, max_eq_right]
      · norm_num
      · push_cast; rw [e]; norm_num
      · push_cast; rw [e]; exact h'

/-- Saturate, then truncate: 3/2 steps. -/
theorem clip_trunc {s : ℚ} (hs : 0 < s) {z : ℤ} {v y e : ℚ} (h : |s * (v - z) - y| ≤ e) (hy : Covered z s y) :
    |real z s (trunc (clip (-128 : ℚ) 127 v)) - y| ≤ e + 3 / 2 * s := by
  have h1 := (abs_trunc_sub_lt (clip (-128 : ℚ) 127 v)).le
  have h2 : |real z s (trunc (clip (-128 : ℚ) 127 v)) - s * (clip (-128 : ℚ) 127 v - z)| ≤ s := by
    unfold real
    rw [show s * ((trunc (clip (-128 : ℚ) 127 v) : ℚ) - z) - s * (clip (-128 : ℚ) 127 v - z) =
      s * ((trunc (clip (-128 : ℚ) 127 v) : ℚ) - clip (-128 : ℚ) 127 v) by ring, abs_mul, abs_of_pos hs]
    nlinarith
  rw [real_ratclip hs] at h2
  have h3 : |saturate s z (s * (v - z)) - saturate s z y| ≤ e := le_trans (Accuracy.rat_clip_sub_le _ _ _ _) h
  have := abs_add3 h2 (abs_add3 h3 (Covered.sat hs hy))
  linarith

/-- Truncate, then saturate: 3/2 steps. -/
theorem trunc_clip {s : ℚ} (hs : 0 < s) {z : ℤ} {v y e : ℚ} (h : |s * (v - z) - y| ≤ e) (hy : Covered z s y) :
    |real z s (clip (-128) 127 (trunc v)) - y| ≤ e + 3 / 2 * s := by
  have h1 := (abs_trunc_sub_lt v).le
  have h2 : |real z s (trunc v) - s * (v - z)| ≤ s := by
    unfold real
    rw [show s * ((trunc v : ℚ) - z) - s * (v - z) = s * ((trunc v : ℚ) - v) by ring, abs_mul, abs_of_pos hs]
    nlinarith
  have := Accuracy.clip_target hs (abs_add3 h2 h) (Covered.sat hs hy)
  linarith

/-- The nearest code is half a step from the saturated value. -/
theorem nearest_sat {s : ℚ} (hs : 0 < s) {z a : ℤ} {v : ℚ} (h : Nearest (-128) 127 z s v a) :
    |real z s a - saturate s z v| ≤ s / 2 := by
  obtain ⟨⟨h1, h2⟩, h3⟩ := h
  have m3 := Accuracy.real_mono hs z (show (-128 : ℤ) ≤ 127 by norm_num)
  have m1 := Accuracy.real_mono hs z h1
  have m2 := Accuracy.real_mono hs z h2
  unfold saturate
  rcases le_total v (real z s 127) with hv | hv
  · rw [min_eq_right hv]
    rcases le_total (real z s (-128)) v with hv' | hv'
    · rw [max_eq_right hv']
      exact nearest_err hs ⟨⟨h1, h2⟩, h3⟩ hv' hv
    · rw [max_eq_left hv']
      have := h3 (-128) (by unfold Code; omega)
      rw [abs_of_nonneg (by linarith), abs_of_nonneg (by linarith)] at this
      rw [abs_of_nonneg (by linarith)]; linarith
  · rw [min_eq_left hv, max_eq_right m3]
    have := h3 127 (by unfold Code; omega)
    rw [abs_of_nonpos (by linarith), abs_of_nonpos (by linarith)] at this
    rw [abs_of_nonpos (by linarith)]; linarith

/-- A table of nearest codes: one step on top of the error of its input. -/
theorem table_err {s : ℚ} (hs : 0 < s) {z a : ℤ} {fn : ℚ → ℚ} {lip u y e : ℚ}
    {τ : ℚ} (h1 : |real z s a - saturate s z (fn u)| ≤ s / 2 + τ) (hlip : ∀ a b, |fn a - fn b| ≤ lip * |a - b|) (hl : 0 ≤ lip)
    (he : |u - y| ≤ e) (hy : Covered z s (fn y)) : |real z s a - fn y| ≤ lip * e + s + τ := by
  have h2 : |saturate s z (fn u) - saturate s z (fn y)| ≤ lip * e :=
    le_trans (Accuracy.rat_clip_sub_le _ _ _ _) (le_trans (hlip u y) (mul_le_mul_of_nonneg_left he hl))
  have := abs_add3 h1 (abs_add3 h2 (Covered.sat hs hy))
  linarith

/-- An inner product of codes against the one of the numbers they stand for. -/
theorem sum_err (s1 s2 d M e : ℚ) (hM : 0 ≤ M) (he : 0 ≤ e) (a c : ℕ → ℤ) (p w : ℕ → ℚ) :
    ∀ n : ℕ, (∀ k < n, |s1 * a k| ≤ M) → (∀ k < n, |s1 * a k - p k| ≤ e) →
      (∀ k < n, |s2 * c k - w k| ≤ d) →
      |s1 * s2 * ((List.range n).map (fun k => a k * c k)).sum - ((List.range n).map (fun k => p k * w k)).sum| ≤
        n * M * d + e * ((List.range n).map (fun k => |w k|)).sum
  | 0, _, _, _ => by simp
  | n + 1, h1, h2, h3 => by
    have ih := sum_err s1 s2 d M e hM he a c p w n (fun k hk => h1 k (by omega)) (fun k hk => h2 k (by omega))
      (fun k hk => h3 k (by omega))
    simp only [List.range_succ, List.map_append, List.sum_append, List.map_cons, List.map_nil, List.sum_cons,
      List.sum_nil, add_zero]
    have d1 := h1 n (by omega)
    have d2 := h2 n (by omega)
    have d3 := h3 n (by omega)
    have t1 : |s1 * a n * (s2 * c n - w n)| ≤ M * d := by
      rw [abs_mul]; exact mul_le_mul d1 d3 (abs_nonneg _) hM
    have t2 : |(s1 * a n - p n) * w n| ≤ e * |w n| := by
      rw [abs_mul]; exact mul_le_mul_of_nonneg_right d2 (abs_nonneg _)
    have t3 := abs_add_le (s1 * a n * (s2 * c n - w n)) ((s1 * a n - p n) * w n)
    have t4 := abs_add_le
      (s1 * s2 * (((List.range n).map (fun k => a k * c k)).sum : ℤ) - ((List.range n).map (fun k => p k * w k)).sum)
      (s1 * a n * (s2 * c n - w n) + (s1 * a n - p n) * w n)
    push_cast at t4 ih ⊢
    refine le_trans (le_of_eq (congrArg abs ?_)) (le_trans t4 ?_)
    · ring
    · linarith

theorem dotZ_range (xs ys : List ℤ) (n : ℕ) (hx : xs.length = n) (hy : ys.length = n) :
    dotZ xs ys = ((List.range n).map (fun k => xs.getD k 0 * ys.getD k 0)).sum := by
  unfold dotZ
  have h1 := list_range xs 0
  have h2 := list_range ys 0
  rw [hx] at h1
  rw [hy] at h2
  conv_lhs => rw [h1, h2]
  rw [zipWith_range]

theorem column_getD (M : List (List ℤ)) (j k : ℕ) (hk : k < M.length) :
    (M.map (fun r => r.getD j 0)).getD k 0 = (M.getD k []).getD j 0 := by
  simp [List.getD_eq_getElem?_getD, hk]

theorem entry_of {M : List (List ℤ)} {f c : ℕ} {q : ℤ} (h : (M[f]?.bind (fun r => r[c]?)) = some q) :
    (M.getD f []).getD c 0 = q := by
  rw [Option.bind_eq_some_iff] at h
  obtain ⟨r, h1, h2⟩ := h
  simp [List.getD_eq_getElem?_getD, h1, h2]

theorem weight_some {M : List (List ℚ)} {f c n : ℕ} (hf : f < M.length) (hM : ∀ r ∈ M, r.length = n) (hc : c < n) :
    (M[f]?.bind (fun r => r[c]?)) = some (weight M f c) := by
  have h1 := List.getElem?_eq_getElem hf
  have h2 : c < (M[f]).length := by rw [hM _ (List.getElem_mem hf)]; exact hc
  rw [h1, Option.bind_some]
  simp [weight, List.getD_eq_getElem?_getD, hf, h2]

theorem column_abs {M : List (List ℤ)} {j : ℕ} (h : ∀ r ∈ M, ∀ q ∈ r, |q| ≤ 255) :
    ∀ q ∈ M.map (fun r => r.getD j 0), |q| ≤ 255 := by
  intro q hq
  obtain ⟨r, hr, rfl⟩ := List.mem_map.mp hq
  rcases lt_or_ge j r.length with hj | hj
  · rw [List.getD_eq_getElem?_getD, List.getElem?_eq_getElem hj]
    exact h r hr _ (List.getElem_mem hj)
  · rw [List.getD_eq_getElem?_getD, List.getElem?_eq_none hj]; simp

theorem mem_getD {l : List ℤ} {P : ℤ → Prop} (h : ∀ k < l.length, P (l.getD k 0)) : ∀ q ∈ l, P q := by
  intro q hq
  obtain ⟨k, hk, rfl⟩ := List.mem_iff_getElem.mp hq
  have := h k hk
  rwa [List.getD_eq_getElem?_getD, List.getElem?_eq_getElem hk] at this

theorem combine {P hD hb kD kb SK SU B Y e0 e1 e2 e3 e4 : ℚ} (f0 : |P - (hD + hb)| ≤ e0) (f1 : |hb - (kD + kb)| ≤ e1)
    (f2 : |kD - SK| ≤ e2) (f3 : |hD - SU| ≤ e3) (f4 : |kb - B| ≤ e4) (hY : Y = SK + SU + B) :
    |P - Y| ≤ e0 + e1 + e2 + e3 + e4 := by
  rw [abs_le] at *
  subst hY
  constructor <;> linarith

set_option maxHeartbeats 400000 in
/-- The code one gate of one cell presents to its table. -/
theorem gate_sum {l : KLSTM} (hl : LstmShape l) {L : LSTM} {b : LstmBudget} (hb : b.Ok) {gate : ℕ} (hg : gate < 4)
    {fn : ℚ → ℚ} {g g' : LSTMGate} {t : LutLayer} {zOut : ℤ} (hn : GateNear b.eps L g g')
    (hr : GateCodes l gate fn b.tab (b.tolK gate) (b.tolU gate) (b.tolB gate) b.sIn b.sH (b.sK gate) (b.sU gate) (b.sA gate) g t (b.sT gate) zOut)
    (hcells : L.nCells = l.units) (hd : L.raDtype = intDtype 7)
    (hcodes : ∀ r ∈ g.kernel ++ g.recurrent, ∀ q ∈ r, |q| ≤ 255)
    (hbf : b.features = l.kernel.length) (hbu : b.units = l.units)
    {x h : List ℤ} {xf : List ℚ} {hf : ℕ → ℚ} {u : ℕ} (hu : u < l.units) {eu : ℚ} (heu : 0 ≤ eu)
    (hxl : x.length = l.kernel.length) (hhl : h.length = l.units)
    (hx : ∀ f < l.kernel.length, |x.getD f 0| ≤ b.amp ∧ |b.sIn * (x.getD f 0 : ℤ) - xf.getD f 0| ≤ b.eIn)
    (hh : ∀ k < l.units, Code (-128) 127 (h.getD k 0) ∧ |b.sH * (h.getD k 0 : ℤ) - hf k| ≤ eu)
    (hcolK : ((List.range l.kernel.length).map (fun f => |weight l.kernel f (gate * l.units + u)|)).sum ≤ b.colK gate)
    (hcolU : ((List.range l.units).map (fun f => |weight l.recurrent f (gate * l.units + u)|)).sum ≤ b.colU gate)
    (ov1 : (b.features : ℤ) * (b.amp * 255) + 2 ^ 31 < 2 ^ 63)
    (ov2 : b.units * (128 * 255) +
      (1 + b.eps) * (b.sK gate * b.sIn / (b.sH * b.sU gate) * (b.features * (b.amp * 255) + 2 ^ 31) + 1) < 2 ^ 63)
    (hy : Covered g.raZp (b.sA gate) (gateSum l xf hf (gate * l.units + u))) :
    ∃ q, (L.gateRow g' x h)[u]? = some q ∧ Code (-128) 127 q ∧
      |real g.raZp (b.sA gate) q - gateSum l xf hf (gate * l.units + u)| ≤ b.sumError gate eu := by
  have hK := hb.sK gate hg
  have hU := hb.sU gate hg
  have hA := hb.sA gate hg
  have hH := hb.sH
  have hI := hb.sIn
  have hcol : gate * l.units + u < 4 * l.units := by nlinarith
  have hcK : ∀ r ∈ g.kernel, ∀ q ∈ r, |q| ≤ 255 := fun r h => hcodes r (List.mem_append_left _ h)
  have hcU : ∀ r ∈ g.recurrent, ∀ q ∈ r, |q| ≤ 255 := fun r h => hcodes r (List.mem_append_right _ h)
  obtain ⟨bq, hbq, hbc, hbr⟩ := hr.bias u (l.bias.getD (gate * l.units + u) 0) hu (by
    rw [List.getD_eq_getElem?_getD, List.getElem?_eq_getElem (by rw [hl.bias]; exact hcol)]; rfl)
  refine ⟨_, LSTM.gateRow_get L g' x h u (by rw [hcells]; exact hu) bq (by rw [hn.bias]; exact hbq), ?_⟩
  rw [hn.kernel, hn.recurrent]
  have he := hb.eps
  have hxa : ∀ q ∈ x, |q| ≤ b.amp := mem_getD (fun k hk => (hx k (by rw [← hxl]; exact hk)).1)
  have hha : ∀ q ∈ h, |q| ≤ 128 := mem_getD (fun k hk => by
    have := (hh k (by rw [← hhl]; exact hk)).1
    unfold Code at this
    rw [abs_le]; constructor <;> omega)
  have hamp := hb.amp
  have n1 : (x.length : ℤ) * (b.amp * 255) < 2 ^ 63 := by rw [hxl, ← hbf]; linarith
  have hm1 : 0 ≤ g.m1 := by rw [hr.m1]; positivity
  have ov2' : (b.units : ℚ) * (128 * 255) + (1 + b.eps) * (g.m1 * (b.features * (b.amp * 255) + 2 ^ 31) + 1) < 2 ^ 63 := by
    rw [hr.m1]; exact ov2
  have n2 : (h.length : ℤ) * (128 * 255) < 2 ^ 63 := by
    have hpos : 0 ≤ g.m1 * ((b.features : ℚ) * (b.amp * 255) + 2 ^ 31) := by
      have : (0 : ℚ) ≤ b.amp := by exact_mod_cast hamp
      positivity
    have hpos' : 0 ≤ (1 + b.eps) * (g.m1 * (b.features * (b.amp * 255) + 2 ^ 31) + 1) :=
      mul_nonneg (by linarith [he.1]) (by linarith)
    have : (b.units : ℚ) * (128 * 255) < 2 ^ 63 := by linarith
    rw [hhl, ← hbu]
    exact_mod_cast this
  rw [dot64_exact b.amp 255 hamp (by norm_num) x _ hxa (column_abs hcK) n1,
    dot64_exact 128 255 (by norm_num) (by norm_num) h _ hha (column_abs hcU) n2]
  have d1 := abs_dotZ_le b.amp 255 hamp (by norm_num) x _ hxa (column_abs (j := u) hcK)
  have d2 := abs_dotZ_le 128 255 (by norm_num) (by norm_num) h _ hha (column_abs (j := u) hcU)
  have lK : (g.kernel.map (fun r => r.getD u 0)).length = l.kernel.length := by rw [List.length_map, hr.kernelShape.1]
  have lU : (g.recurrent.map (fun r => r.getD u 0)).length = l.units := by rw [List.length_map, hr.recurrentShape.1]
  have rK := dotZ_range x _ _ hxl lK
  have rU := dotZ_range h _ _ hhl lU
  obtain ⟨DK, hDK⟩ : ∃ D, D = dotZ x (g.kernel.map (fun r => r.getD u 0)) := ⟨_, rfl⟩
  obtain ⟨DU, hDU⟩ : ∃ D, D = dotZ h (g.recurrent.map (fun r => r.getD u 0)) := ⟨_, rfl⟩
  rw [← hDK] at d1 rK ⊢
  rw [← hDU] at d2 rU ⊢
  rw [hxl, ← hbf] at d1
  rw [hhl, ← hbu] at d2
  have hacc : |DK + bq| ≤ b.features * (b.amp * 255) + 2 ^ 31 := le_trans (abs_add_le _ _) (add_le_add d1 hbc)
  have w1 : wrapS 64 (DK + bq) = DK + bq := by
    have := abs_le.mp hacc
    exact wrapS_of_mem (b := 63) (by linarith) (by linarith)
  rw [w1]
  obtain ⟨ba, hba⟩ : ∃ ba, ba = L.firstVal g' (DK + bq) := ⟨_, rfl⟩
  rw [← hba]
  have htr := hn.first (DK + bq)
  rw [← hba] at htr
  have haccQ : |((DK + bq : ℤ) : ℚ)| ≤ b.features * (b.amp * 255) + 2 ^ 31 := by exact_mod_cast hacc
  obtain ⟨A, hAd⟩ : ∃ A : ℚ, A = b.features * (b.amp * 255) + 2 ^ 31 := ⟨_, rfl⟩
  rw [← hAd] at haccQ ov2'
  have hmA : |g.m1 * ((DK + bq : ℤ) : ℚ)| ≤ g.m1 * A := by
    rw [abs_mul, abs_of_nonneg hm1]; exact mul_le_mul_of_nonneg_left haccQ hm1
  have htr' : |(ba : ℚ) - g.m1 * ((DK + bq : ℤ) : ℚ)| ≤ 1 + b.eps * (g.m1 * A + 1) :=
    le_trans htr (add_le_add le_rfl (mul_le_mul_of_nonneg_left (add_le_add hmA le_rfl) he.1))
  have hbaQ : |(ba : ℚ)| ≤ (1 + b.eps) * (g.m1 * A + 1) := by
    have h1 := abs_add_le ((ba : ℚ) - g.m1 * ((DK + bq : ℤ) : ℚ)) (g.m1 * ((DK + bq : ℤ) : ℚ))
    rw [sub_add_cancel] at h1
    linarith
  have hDUQ : |(DU : ℚ)| ≤ b.units * (128 * 255) := by exact_mod_cast d2
  have w2 : wrapS 64 (DU + ba) = DU + ba := by
    have h3 : |((DU + ba : ℤ) : ℚ)| < 2 ^ 63 := by
      push_cast
      have := abs_add_le (DU : ℚ) ba
      linarith
    have h4 : |DU + ba| < 2 ^ 63 := by exact_mod_cast h3
    have := abs_lt.mp h4
    exact wrapS_of_mem (b := 63) (by linarith) (by linarith)
  obtain ⟨v, hv, hve⟩ := hn.sum (DU + ba)
  rw [w2, hv, hd, int8_range.1, int8_range.2]
  refine ⟨trunc_clip_range (-128) 127 (by norm_num) _, ?_⟩
  push_cast at hve ⊢
  have key : |b.sA gate * (v - g.raZp) - gateSum l xf hf (gate * l.units + u)| ≤
      b.features * (b.amp * b.sIn) * (b.sK gate / 2 + b.tolK gate) + b.eIn * b.colK gate +
        (b.sIn * b.sK gate / 2 + b.tolB gate) +
    (b.units * (128 * b.sH) * (b.sU gate / 2 + b.tolU gate) + eu * b.colU gate) + b.sH * b.sU gate + b.eps * b.sumRounding gate := by
    have hHU := mul_pos hH hU
    have hm1A : b.sH * b.sU gate * (g.m1 * A) = b.sIn * b.sK gate * A := by rw [hr.m1]; field_simp
    have hP : 0 ≤ b.sIn * b.sK gate * A := by
      have : 0 ≤ A := le_trans (abs_nonneg _) haccQ
      positivity
    have f0 : |b.sA gate * (v - g.raZp) - b.sA gate * (((DU : ℚ) + ba) * g.m2)| ≤
        b.eps * (b.sH * b.sU gate * (b.units * (128 * 255) + 2) + 2 * (b.sIn * b.sK gate * A) + 129 * b.sA gate) := by
      rw [← mul_sub, abs_mul, abs_of_pos hA]
      have h1 : |v - g.raZp - ((DU : ℚ) + ba) * g.m2| ≤ b.eps * (|((DU : ℚ) + ba) * g.m2| + 129) := by
        refine le_trans (le_of_eq (congrArg abs ?_)) hve
        ring
      have h2 := mul_le_mul_of_nonneg_left h1 hA.le
      have h3 : b.sA gate * |((DU : ℚ) + ba) * g.m2| = b.sH * b.sU gate * |(DU : ℚ) + ba| := by
        have : b.sA gate * g.m2 = b.sH * b.sU gate := by rw [hr.m2]; field_simp
        have hm2 : 0 ≤ g.m2 := by rw [hr.m2]; positivity
        rw [abs_mul, abs_of_nonneg hm2, ← this]; ring
      have h4 : |(DU : ℚ) + ba| ≤ b.units * (128 * 255) + (1 + b.eps) * (g.m1 * A + 1) := by
        have := abs_add_le (DU : ℚ) ba
        linarith
      have h5 := mul_le_mul_of_nonneg_left h4 hHU.le
      have h6 : b.sH * b.sU gate * (b.units * (128 * 255) + (1 + b.eps) * (g.m1 * A + 1)) =
          b.sH * b.sU gate * (b.units * (128 * 255)) +
            (1 + b.eps) * (b.sIn * b.sK gate * A + b.sH * b.sU gate) := by
        rw [← hm1A]; ring
      rw [h6, ← h3] at h5
      have h7 : (1 + b.eps) * (b.sIn * b.sK gate * A + b.sH * b.sU gate) ≤
          2 * (b.sIn * b.sK gate * A + b.sH * b.sU gate) := by
        apply mul_le_mul_of_nonneg_right _ (by positivity)
        linarith [he.2]
      have h8 : b.sA gate * (b.eps * (|((DU : ℚ) + ba) * g.m2| + 129)) =
          b.eps * (b.sA gate * |((DU : ℚ) + ba) * g.m2| + 129 * b.sA gate) := by ring
      rw [h8] at h2
      refine le_trans h2 (mul_le_mul_of_nonneg_left ?_ he.1)
      linarith
    have e1 : b.sA gate * (((DU : ℚ) + ba) * g.m2) = b.sH * b.sU gate * DU + b.sH * b.sU gate * ba := by
      rw [hr.m2]; field_simp
    have e2 : b.sH * b.sU gate * (g.m1 * ((DK + bq : ℤ) : ℚ)) = b.sIn * b.sK gate * DK + b.sIn * b.sK gate * bq := by
      rw [hr.m1]; push_cast; field_simp
    have f1 : |b.sH * b.sU gate * ba - b.sH * b.sU gate * (g.m1 * ((DK + bq : ℤ) : ℚ))| ≤
        b.sH * b.sU gate + b.eps * (b.sIn * b.sK gate * A + b.sH * b.sU gate) := by
      rw [← mul_sub, abs_mul, abs_of_pos hHU, ← hm1A]
      have := mul_le_mul_of_nonneg_left htr' hHU.le
      linarith
    rw [e2] at f1
    have f2 := sum_err b.sIn (b.sK gate) (b.sK gate / 2 + b.tolK gate) (b.amp * b.sIn) b.eIn
      (by have : (0 : ℚ) ≤ b.amp := by exact_mod_cast hamp
          positivity) hb.eIn (fun k => x.getD k 0)
      (fun k => (g.kernel.map (fun r => r.getD u 0)).getD k 0) (fun k => xf.getD k 0)
      (fun k => weight l.kernel k (gate * l.units + u)) l.kernel.length
      (fun k hk => by
        have := (hx k hk).1
        have h' : |((x.getD k 0 : ℤ) : ℚ)| ≤ b.amp := by exact_mod_cast this
        rw [abs_mul, abs_of_pos hI, mul_comm]
        exact mul_le_mul_of_nonneg_right h' hI.le)
      (fun k hk => (hx k hk).2)
      (fun k hk => by
        rw [column_getD _ _ _ (by rw [hr.kernelShape.1]; exact hk)]
        obtain ⟨q, q1, q2⟩ := hr.kernel k u _ hu (weight_some hk hl.kernel hcol)
        rw [entry_of q1]; exact q2)
    have f3 := sum_err b.sH (b.sU gate) (b.sU gate / 2 + b.tolU gate) (128 * b.sH) eu (by positivity) heu (fun k => h.getD k 0)
      (fun k => (g.recurrent.map (fun r => r.getD u 0)).getD k 0) hf
      (fun k => weight l.recurrent k (gate * l.units + u)) l.units
      (fun k hk => by
        have := (hh k hk).1
        unfold Code at this
        have h' : |((h.getD k 0 : ℤ) : ℚ)| ≤ 128 := by
          rw [abs_le]; constructor
          · exact_mod_cast this.1
          · exact_mod_cast (by omega : h.getD k 0 ≤ 128)
        rw [abs_mul, abs_of_pos hH, mul_comm]
        exact mul_le_mul_of_nonneg_right h' hH.le)
      (fun k hk => (hh k hk).2)
      (fun k hk => by
        rw [column_getD _ _ _ (by rw [hr.recurrentShape.1]; exact hk)]
        obtain ⟨q, q1, q2⟩ := hr.recurrent k u _ hu (weight_some (by rw [hl.cells]; exact hk) hl.recurrent hcol)
        rw [entry_of q1]; exact q2)
    rw [← rK, ← hbf] at f2
    rw [← rU] at f3
    rw [e1] at f0
    have hround : b.eps * (b.sH * b.sU gate * (b.units * (128 * 255) + 2) + 2 * (b.sIn * b.sK gate * A) +
        129 * b.sA gate) + b.eps * (b.sIn * b.sK gate * A + b.sH * b.sU gate) = b.eps * b.sumRounding gate := by
      unfold LstmBudget.sumRounding
      rw [hAd]; ring
    rw [← hround]
    rw [hbu] at f0 ⊢
    have g1 := mul_le_mul_of_nonneg_left hcolK hb.eIn
    have g2 := mul_le_mul_of_nonneg_left hcolU heu
    rw [← hbf] at g1
    unfold gateSum
    rw [← hbf]
    refine le_trans (combine f0 f1 f2 f3 hbr (by ring)) ?_
    clear f0 f1 f2 f3 hbr hround ov1 ov2 ov2' n1 n2 hve htr htr' hbaQ hDUQ hacc haccQ
    linarith
  have := clip_trunc hA key hy
  unfold LstmBudget.sumError
  push_cast at this
  exact this

theorem mapM_at {α β : Type} {f : α → Option β} {xs : List α} {ys : List β} (h : xs.mapM f = some ys) {i : ℕ} {a : α}
    {b : β} (ha : xs[i]? = some a) (hf : f a = some b) : ys[i]? = some b := by
  obtain ⟨h1, h2⟩ := (mapM_some_iff _ _ _).mp h
  have hi : i < ys.length := by rw [← h1]; exact (List.getElem?_eq_some_iff.mp ha).1
  have := h2 i a ys[i] ha (List.getElem?_eq_getElem hi)
  rw [hf, Option.some.injEq] at this
  rw [this, List.getElem?_eq_getElem hi]

theorem abs_le_one_add {A a e : ℚ} (h : |A - a| ≤ e) (ha : |a| ≤ 1) : |A| ≤ 1 + e := by
  have := abs_add_le (A - a) a
  rw [sub_add_cancel] at this
  linarith

theorem mul_err {A B a b eA eB : ℚ} (hA : |A - a| ≤ eA) (hB : |B - b| ≤ eB) (ha : |a| ≤ 1) (hb : |b| ≤ 1) :
    |A * B - a * b| ≤ eB + eA + eA * eB := by
  have e : A * B - a * b = a * (B - b) + (A - a) * b + (A - a) * (B - b) := by ring
  rw [e]
  have t1 := abs_add_le (a * (B - b) + (A - a) * b) ((A - a) * (B - b))
  have t2 := abs_add_le (a * (B - b)) ((A - a) * b)
  rw [abs_mul, abs_mul] at t2
  rw [abs_mul (A - a) (B - b)] at t1
  have p1 := abs_nonneg (A - a)
  have p2 := abs_nonneg (B - b)
  have p3 := abs_nonneg a
  have p4 := abs_nonneg b
  have q1 : |a| * |B - b| ≤ eB := by nlinarith
  have q2 : |A - a| * |b| ≤ eA := by nlinarith
  have q3 : |A - a| * |B - b| ≤ eA * eB := mul_le_mul hA hB p2 (le_trans p1 hA)
  linarith

theorem LSTM_cell {L L' : LSTM} {ε : ℚ} (hn : LstmNear ε L L') (hd : L.cellDtype = intDtype 7) (sF sC sI sG : ℚ)
    (hC : 0 < sC) (hz : L.cellZp = 0) (hm3 : L.m3 = sF) (hm4 : L.m4 = sI * sG / sC) (f c i g : ℤ) (y e : ℚ)
    (h : |real L.forgetGateZp sF f * real 0 sC c + real L.inputGateZp sI i * real L.cellGateZp sG g - y| ≤ e)
    (hy : Covered 0 sC y) : |real 0 sC (L'.cellVal f c i g) - y| ≤
      e + ε * (|real L.forgetGateZp sF f * real 0 sC c| + |real L.inputGateZp sI i * real L.cellGateZp sG g| + sC) +
        3 / 2 * sC := by
  obtain ⟨v, hv, hve⟩ := hn.cell f c i g
  rw [hv, hn.dtypes.2.1, hd, int8_range.1, int8_range.2]
  refine trunc_clip hC (z := 0) ?_ hy
  have h1 := mul_le_mul_of_nonneg_left hve hC.le
  have eA : sC * |L.m3 * (f - L.forgetGateZp) * (c - L.cellZp)| = |real L.forgetGateZp sF f * real 0 sC c| := by
    nth_rw 1 [← abs_of_pos hC]
    rw [← abs_mul, hm3, hz]; congr 1; unfold real; push_cast; ring
  have eB : sC * |L.m4 * ((i - L.inputGateZp) * (g - L.cellGateZp))| =
      |real L.inputGateZp sI i * real L.cellGateZp sG g| := by
    nth_rw 1 [← abs_of_pos hC]
    rw [← abs_mul, hm4]; congr 1; unfold real; field_simp
  rw [show ∀ a b : ℚ, sC * (ε * (a + b + 1)) = ε * (sC * a + sC * b + sC) by intros; ring, eA, eB, ← abs_of_pos hC,
    ← abs_mul, abs_of_pos hC] at h1
  have h2 : sC * (v - (L.cellZp + L.m3 * (f - L.forgetGateZp) * (c - L.cellZp) +
      L.m4 * ((i - L.inputGateZp) * (g - L.cellGateZp)))) = sC * (v - (0 : ℤ)) -
      (real L.forgetGateZp sF f * real 0 sC c + real L.inputGateZp sI i * real L.cellGateZp sG g) := by
    rw [hm3, hm4, hz]; unfold real; push_cast; field_simp; ring
  rw [h2] at h1
  have := abs_add3 h1 h
  linarith

theorem LSTM_hidden {L L' : LSTM} {ε : ℚ} (hn : LstmNear ε L L') (hd : L.hiddenDtype = intDtype 7) (sO sA sH : ℚ)
    (hH : 0 < sH) (hm5 : L.m5 = sO * sA / sH) (o a : ℤ) (y e : ℚ)
    (h : |real L.outputGateZp sO o * real L.cellActZp sA a - y| ≤ e) (hy : Covered L.hiddenZp sH y) :
    |real L.hiddenZp sH (L'.hiddenVal o a) - y| ≤
      e + ε * (|real L.outputGateZp sO o * real L.cellActZp sA a| + 129 * sH) + 3 / 2 * sH := by
  obtain ⟨v, hv, hve⟩ := hn.hidden o a
  rw [hv, hn.dtypes.2.2, hd, int8_range.1, int8_range.2]
  refine trunc_clip hH ?_ hy
  have h1 := mul_le_mul_of_nonneg_left hve hH.le
  have eB : sH * |L.m5 * ((o - L.outputGateZp) * (a - L.cellActZp))| = |real L.outputGateZp sO o * real L.cellActZp sA a| := by
    nth_rw 1 [← abs_of_pos hH]
    rw [← abs_mul, hm5]; congr 1; unfold real; field_simp
  rw [show ∀ b : ℚ, sH * (ε * (b + 129)) = ε * (sH * b + 129 * sH) by intros; ring, eB, ← abs_of_pos hH,
    ← abs_mul, abs_of_pos hH] at h1
  have h2 : sH * (v - (L.hiddenZp + L.m5 * ((o - L.outputGateZp) * (a - L.cellActZp)))) = sH * (v - L.hiddenZp) -
      real L.outputGateZp sO o * real L.cellActZp sA a := by
    rw [hm5]; unfold real; field_simp; ring
  rw [h2] at h1
  have := abs_add3 h1 h
  linarith

/-- Exact arithmetic is within any relative error. -/
theorem near_refl {ε : ℚ} (hε : 0 ≤ ε) (L : LSTM) (h : L.rnd = none) : LstmNear ε L L := by
  have hg : ∀ g : LSTMGate, GateNear ε L g g := by
    intro g
    refine ⟨rfl, rfl, rfl, rfl, fun n => ?_, fun n => ⟨n * g.m2 + g.raZp, ?_, ?_⟩⟩
    · have := (abs_trunc_sub_lt (g.m1 * n)).le
      simp only [LSTM.firstVal, L.fl_exact h]
      have h0 : 0 ≤ ε * (|g.m1 * n| + 1) := by positivity
      linarith
    · simp only [LSTM.sumVal, L.fl_exact h]
    · rw [sub_self, abs_zero]; positivity
  refine ⟨rfl, rfl, rfl, ⟨rfl, rfl⟩, ⟨rfl, rfl, rfl⟩, ⟨rfl, rfl, rfl, rfl, rfl⟩, hg _, hg _, hg _, hg _,
    fun f c i g => ⟨L.cellZp + L.m3 * (f - L.forgetGateZp) * (c - L.cellZp) +
      L.m4 * ((i - L.inputGateZp) * (g - L.cellGateZp)), ?_, ?_⟩,
    fun o a => ⟨L.hiddenZp + L.m5 * ((o - L.outputGateZp) * (a - L.cellActZp)), ?_, ?_⟩⟩
  · simp only [LSTM.cellVal, L.fl_exact h]
  · rw [sub_self, abs_zero]; positivity
  · simp only [LSTM.hiddenVal, L.fl_exact h]
  · rw [sub_self, abs_zero]; positivity

/-- A gate that reads the layer in the sense of C52 has suitable codes. -/
theorem gate_codes {l : KLSTM} (hl : LstmShape l) {gate : ℕ} (hg : gate < 4) {fn : ℚ → ℚ} {sums : List (List (List ℚ))}
    {sIn sH sK sU sA : ℚ} {g : LSTMGate} {t : LutLayer} {sOut : ℚ} {zOut : ℤ} {τ dK dU dB : ℚ} (hτ : 0 ≤ τ) (hd : 0 ≤ dK ∧ 0 ≤ dU ∧ 0 ≤ dB)
    (hI : 0 < sIn)
    (hr : GateReads l gate fn sums sIn sH sK sU sA g t sOut zOut)
    (hb : ∀ u < l.units, |l.bias.getD (gate * l.units + u) 0| ≤ sIn * sK * (2 ^ 31 - 1)) :
    GateCodes l gate fn τ dK dU dB sIn sH sK sU sA g t sOut zOut where
  posK := hr.posK
  posU := hr.posU
  posA := hr.posA
  posOut := hr.posOut
  kernelShape := hr.kernelShape
  kernel := fun f c v hc hv => (hr.kernel f c v hc hv).imp (fun q h => ⟨h.1, by linarith [h.2, hd.1]⟩)
  recurrentShape := hr.recurrentShape
  recurrent := fun f c v hc hv => (hr.recurrent f c v hc hv).imp (fun q h => ⟨h.1, by linarith [h.2, hd.2.1]⟩)
  biasShape := hr.biasShape
  bias := by
    intro c v hc hv
    obtain ⟨q, hq, hn⟩ := hr.bias c v hc hv
    have hbias := hb c hc
    rw [List.getD_eq_getElem?_getD, hv, Option.getD_some] at hbias
    refine ⟨q, hq, ?_, ?_⟩
    · have := hn.1
      unfold Code at this
      rw [abs_le]; constructor <;> omega
    · have hp := mul_pos hI hr.posK
      have := nearest_err hp hn (by unfold real; push_cast; rw [abs_le] at hbias; linarith)
        (by unfold real; push_cast; rw [abs_le] at hbias; linarith)
      unfold real at this
      have h2 : |sIn * sK * q - v| ≤ sIn * sK / 2 := by simpa using this
      linarith [hd.2.2]
  m1 := hr.m1
  m2 := hr.m2
  table := by
    intro q hq
    obtain ⟨a, ha, hn⟩ := hr.table q hq
    have := nearest_sat hr.posOut hn
    exact ⟨a, ha, by linarith⟩

/-- A layer that reads a Keras layer in the sense of C52 has suitable codes. -/
theorem reads_codes {ext : Ext} {l : KLSTM} (hl : LstmShape l) {st : KLSTM.Steps} {zIn : ℤ} {L : LSTM} {b : LstmBudget}
    (hI : 0 < b.sIn)
    (hr : LstmReads ext l st b.sIn zIn L b.sK b.sU b.sA b.sH b.sC (b.sT 0) (b.sT 1) (b.sT 2) (b.sT 3) b.sS)
    (hb : b.Holds ext l) : LstmCodes ext l b zIn L where
  posH := hr.posH
  posC := hr.posC
  posS := hr.posS
  features := hr.features
  cells := hr.cells
  input := gate_codes hl (by omega) hb.tab (hb.tol 0 (by omega)) hI hr.input (hb.bias 0 (by omega))
  forget := gate_codes hl (by omega) hb.tab (hb.tol 1 (by omega)) hI hr.forget (hb.bias 1 (by omega))
  candidate := gate_codes hl (by omega) hb.tab (hb.tol 2 (by omega)) hI hr.candidate (hb.bias 2 (by omega))
  output := gate_codes hl (by omega) hb.tab (hb.tol 3 (by omega)) hI hr.output (hb.bias 3 (by omega))
  state := by
    intro q hq
    obtain ⟨a, ha, hn⟩ := hr.state q hq
    have := nearest_sat hr.posS hn
    exact ⟨a, ha, by linarith [hb.tab]⟩
  m3 := hr.m3
  m4 := hr.m4
  m5 := hr.m5
  inputZp := hr.inputZp
  cellZp := hr.cellZp
  dtypes := hr.dtypes
  sequences := hr.sequences
  codes := hr.codes

/-- The layer is well formed, whatever its scales. -/
theorem reads_shape {ext : Ext} {l : KLSTM} (hl : LstmShape l) {zIn : ℤ} {L : LSTM} {b : LstmBudget}
    (hr : LstmCodes ext l b zIn L) : L.Shaped ∧ TablesComplete L := by
  obtain ⟨d1, d2, d3⟩ := hr.dtypes
  have r := int8_range
  have ans : ∀ (t : LutLayer) (P : ℤ → ℤ → Prop), (∀ q, Code (-128) 127 q → ∃ a, t.look q = some a ∧ P q a) →
      Answers t (intDtype 7) := by
    intro t P ht q hq
    rw [r.1, r.2] at hq
    obtain ⟨a, ha, -⟩ := ht q hq
    exact ⟨a, ha⟩
  refine ⟨⟨by rw [hr.cells]; exact hl.units, by rw [hr.cells]; exact hr.input.biasShape,
    by rw [hr.cells]; exact hr.forget.biasShape, by rw [hr.cells]; exact hr.candidate.biasShape,
    by rw [hr.cells]; exact hr.output.biasShape⟩, ?_⟩
  constructor
  · rw [d1]; exact ans _ _ hr.input.table
  · rw [d1]; exact ans _ _ hr.forget.table
  · rw [d1]; exact ans _ _ hr.candidate.table
  · rw [d1]; exact ans _ _ hr.output.table
  · rw [d2]; exact ans _ _ hr.state

/-- So is the layer with rounded operations. -/
theorem near_shape {L L' : LSTM} {ε : ℚ} (hn : LstmNear ε L L') (h : L.Shaped ∧ TablesComplete L) :
    L'.Shaped ∧ TablesComplete L' := by
  obtain ⟨⟨h1, h2, h3, h4, h5⟩, ⟨t1, t2, t3, t4, t5⟩⟩ := h
  obtain ⟨e1, e2, e3, e4, e5⟩ := hn.tables
  obtain ⟨d1, d2, d3⟩ := hn.dtypes
  refine ⟨⟨by rw [hn.cells]; exact h1, by rw [hn.cells, hn.gi.bias]; exact h2, by rw [hn.cells, hn.gf.bias]; exact h3,
    by rw [hn.cells, hn.gc.bias]; exact h4, by rw [hn.cells, hn.go.bias]; exact h5⟩, ?_⟩
  constructor
  · rw [e1, d1]; exact t1
  · rw [e2, d1]; exact t2
  · rw [e3, d1]; exact t3
  · rw [e4, d1]; exact t4
  · rw [e5, d2]; exact t5

theorem budget_ok {ext : Ext} {l : KLSTM} (hl : LstmShape l) {zIn : ℤ} {L : LSTM} {b : LstmBudget}
    (hI : 0 < b.sIn) (hr : LstmCodes ext l b zIn L)
    (hb : b.Holds ext l) : b.Ok := by
  have four : ∀ {P : ℕ → Prop}, P 0 → P 1 → P 2 → P 3 → ∀ i < 4, P i := by
    intro P p0 p1 p2 p3 i hi
    match i, hi with
    | 0, _ => exact p0
    | 1, _ => exact p1
    | 2, _ => exact p2
    | 3, _ => exact p3
  refine ⟨hb.amp, hb.eIn, hI, four hr.input.posK hr.forget.posK hr.candidate.posK hr.output.posK,
    four hr.input.posU hr.forget.posU hr.candidate.posU hr.output.posU,
    four hr.input.posA hr.forget.posA hr.candidate.posA hr.output.posA,
    four hr.input.posOut hr.forget.posOut hr.candidate.posOut hr.output.posOut, hr.posC, hr.posS, hr.posH, ?_, ?_,
    hb.lipSigmoid, hb.lipTanh, hb.forget, hb.eps, hb.tab, hb.tol⟩
  · intro g hg
    refine le_trans (List.sum_nonneg ?_) (hb.colK g hg 0 hl.units)
    intro a ha
    obtain ⟨f, -, rfl⟩ := List.mem_map.mp ha
    exact abs_nonneg _
  · intro g hg
    refine le_trans (List.sum_nonneg ?_) (hb.colU g hg 0 hl.units)
    intro a ha
    obtain ⟨f, -, rfl⟩ := List.mem_map.mp ha
    exact abs_nonneg _

theorem sumError_nonneg {b : LstmBudget} (hb : b.Ok) {g : ℕ} (hg : g < 4) {eu : ℚ} (heu : 0 ≤ eu) :
    0 ≤ b.sumError g eu := by
  have h1 := hb.sK g hg
  have h2 := hb.sU g hg
  have h3 := hb.sA g hg
  have h4 := hb.colK g hg
  have h5 := hb.colU g hg
  have h6 := hb.sIn
  have h7 := hb.sH
  have h8 := hb.eIn
  have h9 : (0 : ℚ) ≤ b.amp := by exact_mod_cast hb.amp
  have h10 := hb.eps.1
  obtain ⟨h11, h12, h13⟩ := hb.tol g hg
  unfold LstmBudget.sumError LstmBudget.sumRounding
  positivity

theorem gateError_nonneg {b : LstmBudget} (hb : b.Ok) {g : ℕ} (hg : g < 4) {lip eu : ℚ} (hl : 0 ≤ lip) (heu : 0 ≤ eu) :
    0 ≤ b.gateError g lip eu := by
  have h1 := sumError_nonneg hb hg heu
  have h2 := hb.sT g hg
  have h3 := hb.tab
  unfold LstmBudget.gateError
  positivity

theorem cellError_nonneg {b : LstmBudget} (hb : b.Ok) {eu ec : ℚ} (heu : 0 ≤ eu) (hec : 0 ≤ ec) :
    0 ≤ b.cellError eu ec := by
  have h0 := gateError_nonneg hb (show 0 < 4 by omega) hb.lipSigmoid heu
  have h1 := gateError_nonneg hb (show 1 < 4 by omega) hb.lipSigmoid heu
  have h2 := gateError_nonneg hb (show 2 < 4 by omega) hb.lipTanh heu
  have h3 := hb.sC
  have h4 := hb.forget
  have h5 := hb.eps.1
  unfold LstmBudget.cellError
  positivity

theorem hiddenError_nonneg {b : LstmBudget} (hb : b.Ok) {eu ec : ℚ} (heu : 0 ≤ eu) (hec : 0 ≤ ec) :
    0 ≤ b.hiddenError eu ec := by
  have h1 := gateError_nonneg hb (show 3 < 4 by omega) hb.lipSigmoid heu
  have h2 := hb.lipTanh
  have h3 := hb.sH
  have h4 := hb.sS
  have h5 := hb.eps.1
  have h6 := hb.tab
  unfold LstmBudget.hiddenError LstmBudget.squashError
  positivity

theorem error_nonneg {b : LstmBudget} (hb : b.Ok) : ∀ t, 0 ≤ (b.error t).1 ∧ 0 ≤ (b.error t).2
  | 0 => ⟨le_rfl, le_rfl⟩
  | t + 1 => by
    obtain ⟨h1, h2⟩ := error_nonneg hb t
    have heu : (0 : ℚ) ≤ if t = 0 then 0 else (b.error t).1 + |b.sH * b.zH| := by
      split_ifs
      · exact le_rfl
      · positivity
    have hc := cellError_nonneg hb heu h2
    exact ⟨hiddenError_nonneg hb heu hc, hc⟩

/-- One step of one sample. -/
theorem step {ext : Ext} {l : KLSTM} (hl : LstmShape l) {zIn : ℤ} {L : LSTM} {b : LstmBudget}
    (hI : 0 < b.sIn) (hr : LstmCodes ext l b zIn L)
    (hb : b.Holds ext l) {L' : LSTM} (hn : LstmNear b.eps L L') {xf : List (List ℚ)} {T : ℕ} (hin : LstmInRange ext l L b xf T) {t : ℕ} (ht : t < T)
    {x h c : List ℤ} {eu ec : ℚ} (heu : 0 ≤ eu) (hxl : x.length = l.kernel.length) (hhl : h.length = l.units)
    (hcl : c.length = l.units)
    (hx : ∀ f < l.kernel.length, |x.getD f 0| ≤ b.amp ∧ |b.sIn * (x.getD f 0 : ℤ) - (xf.getD t []).getD f 0| ≤ b.eIn)
    (hh : ∀ k < l.units, Code (-128) 127 (h.getD k 0) ∧
      |b.sH * (h.getD k 0 : ℤ) - (lstmState ext l xf t).1 k| ≤ eu)
    (hc : ∀ k < l.units, Code (-128) 127 (c.getD k 0) ∧
      |real 0 b.sC (c.getD k 0) - (lstmState ext l xf t).2 k| ≤ ec) :
    ∃ r, L'.rowStep x h c = some r ∧ r.1.length = l.units ∧ r.2.length = l.units ∧ ∀ u < l.units,
      Code (-128) 127 (r.1.getD u 0) ∧ Code (-128) 127 (r.2.getD u 0) ∧
      |real 0 b.sC (r.2.getD u 0) - (lstmState ext l xf (t + 1)).2 u| ≤ b.cellError eu ec ∧
      |real L.hiddenZp b.sH (r.1.getD u 0) - (lstmState ext l xf (t + 1)).1 u| ≤
        b.hiddenError eu (b.cellError eu ec) := by
  have hok := budget_ok hl hI hr hb
  obtain ⟨hsh, htab⟩ := near_shape hn (reads_shape hl hr)
  obtain ⟨d1, d2, d3⟩ : L'.raDtype = intDtype 7 ∧ L'.cellDtype = intDtype 7 ∧ L'.hiddenDtype = intDtype 7 := by
    rw [hn.dtypes.1, hn.dtypes.2.1, hn.dtypes.2.2]; exact hr.dtypes
  have hcells : L'.nCells = l.units := hn.cells.trans hr.cells
  obtain ⟨r, hrow⟩ := L'.rowStep_total (by rw [d1]; decide +kernel) (by rw [d2]; decide +kernel) htab x h c
  have hlen := LSTM.rowStep_length L' hsh x h c (by rw [hcl, hcells]) r hrow
  rw [hcells] at hlen
  have hrange := L'.rowStep_range (by rw [d2]; decide +kernel) (by rw [d3]; decide +kernel) x h c r hrow
  rw [d2, d3, int8_range.1, int8_range.2] at hrange
  refine ⟨r, hrow, hlen.1, hlen.2, ?_⟩
  intro u hu
  have g1 : r.1[u]? = some (r.1.getD u 0) := by
    rw [List.getD_eq_getElem?_getD, List.getElem?_eq_getElem (by rw [hlen.1]; exact hu)]; rfl
  have g2 : r.2[u]? = some (r.2.getD u 0) := by
    rw [List.getD_eq_getElem?_getD, List.getElem?_eq_getElem (by rw [hlen.2]; exact hu)]; rfl
  refine ⟨hrange.1 _ (List.mem_of_getElem? g1), hrange.2 _ (List.mem_of_getElem? g2), ?_⟩
  simp only [LSTM.rowStep, Option.bind_eq_bind, Option.bind_eq_some_iff, Option.some.injEq] at hrow
  obtain ⟨aI, mI, aF, mF, aC, mC, aO, mO, aS, mS, hrr⟩ := hrow
  -- the four gates
  have gate : ∀ (g : ℕ) (hg : g < 4) (fn : ℚ → ℚ) (lip : ℚ) (G G' : LSTMGate) (tb : LutLayer) (zo : ℤ)
      (as : List ℤ), GateNear b.eps L' G G' →
      GateCodes l g fn b.tab (b.tolK g) (b.tolU g) (b.tolB g) b.sIn b.sH (b.sK g) (b.sU g) (b.sA g) G tb (b.sT g) zo →
      (∀ r ∈ G.kernel ++ G.recurrent, ∀ q ∈ r, |q| ≤ 255) → 0 ≤ lip → (∀ x y, |fn x - fn y| ≤ lip * |x - y|) →
      Covered G.raZp (b.sA g) (lstmSum ext l xf t g u) → Covered zo (b.sT g) (fn (lstmSum ext l xf t g u)) →
      (L'.gateRow G' x h).mapM tb.look = some as →
      ∃ a, as[u]? = some a ∧ |real zo (b.sT g) a - fn (lstmSum ext l xf t g u)| ≤ b.gateError g lip eu := by
    intro g hg fn lip G G' tb zo as hnG hG hcodes hlip hfn hcov hcovo hm
    obtain ⟨q, q1, q2, q3⟩ := gate_sum hl hok hg hnG hG hcells d1 hcodes hb.features hb.units hu heu hxl hhl hx hh
      (hb.colK g hg u hu) (hb.colU g hg u hu) hb.first (hb.second g hg) hcov
    obtain ⟨a, a1, a2⟩ := hG.table q q2
    exact ⟨a, mapM_at hm q1 a1, table_err (hok.sT g hg) a2 hfn hlip q3 hcovo⟩
  have hcd := hr.codes
  obtain ⟨i, i1, i2⟩ := gate 0 (by omega) ext.sigmoid b.lipSigmoid L.gi L'.gi L.inputLut L.inputGateZp aI hn.gi hr.input
    (hcd _ (by simp)) hok.lipSigmoid hb.sigmoidLip (hin.sumI t ht u hu) (hin.outI t ht u hu)
    (by rw [← hn.tables.1]; exact mI)
  obtain ⟨f, f1, f2⟩ := gate 1 (by omega) ext.sigmoid b.lipSigmoid L.gf L'.gf L.forgetLut L.forgetGateZp aF hn.gf hr.forget
    (hcd _ (by simp)) hok.lipSigmoid hb.sigmoidLip (hin.sumF t ht u hu) (hin.outF t ht u hu)
    (by rw [← hn.tables.2.1]; exact mF)
  obtain ⟨g, gg1, gg2⟩ := gate 2 (by omega) ext.tanh b.lipTanh L.gc L'.gc L.cellLut L.cellGateZp aC hn.gc hr.candidate
    (hcd _ (by simp)) hok.lipTanh hb.tanhLip (hin.sumG t ht u hu) (hin.outG t ht u hu)
    (by rw [← hn.tables.2.2.1]; exact mC)
  obtain ⟨o, o1, o2⟩ := gate 3 (by omega) ext.sigmoid b.lipSigmoid L.go L'.go L.outputLut L.outputGateZp aO hn.go hr.output
    (hcd _ (by simp)) hok.lipSigmoid hb.sigmoidLip (hin.sumO t ht u hu) (hin.outO t ht u hu)
    (by rw [← hn.tables.2.2.2.1]; exact mO)
  obtain ⟨hcc, hce⟩ := hc u hu
  have c1 : c[u]? = some (c.getD u 0) := by
    rw [List.getD_eq_getElem?_getD, List.getElem?_eq_getElem (by rw [hcl]; exact hu)]; rfl
  obtain ⟨cq, hcq⟩ : ∃ cq, cq = c.getD u 0 := ⟨_, rfl⟩
  rw [← hcq] at c1 hce hcc
  -- the cell
  have hcell : (L'.cellRow aF c aI aC)[u]? = some (L'.cellVal f cq i g) := by
    unfold LSTM.cellRow
    simp [List.getElem?_zipWith, List.zip, f1, c1, i1, gg1]
  have e2 : r.2.getD u 0 = L'.cellVal f cq i g := by
    rw [← hrr]
    show (L'.cellRow aF c aI aC).getD u 0 = _
    rw [List.getD_eq_getElem?_getD, hcell]; rfl
  have hcellerr : |real 0 b.sC (r.2.getD u 0) - (lstmState ext l xf (t + 1)).2 u| ≤ b.cellError eu ec := by
    rw [e2]
    have hC : |real 0 b.sC cq| ≤ 128 * b.sC := by
      unfold real
      rw [abs_mul, abs_of_pos hok.sC]
      have : |(cq : ℚ) - ((0 : ℤ) : ℚ)| ≤ 128 := by
        unfold Code at hcc
        push_cast
        rw [sub_zero, abs_le]; constructor
        · exact_mod_cast hcc.1
        · exact_mod_cast (by omega : cq ≤ 128)
      nlinarith [hok.sC]
    have hLc := fun hh => LSTM_cell hn hr.dtypes.2.1 (b.sT 1) b.sC (b.sT 0) (b.sT 2) hok.sC hr.cellZp hr.m3 hr.m4 f cq i g
      ((lstmState ext l xf (t + 1)).2 u) (b.forget * ec + b.gateError 1 b.lipSigmoid eu * (128 * b.sC) +
        (b.gateError 2 b.lipTanh eu + b.gateError 0 b.lipSigmoid eu +
          b.gateError 0 b.lipSigmoid eu * b.gateError 2 b.lipTanh eu)) hh (hin.cell t ht u hu)
    refine le_trans (hLc ?_) ?_
    rotate_left
    · unfold LstmBudget.cellError
      have p0 := abs_le_one_add i2 (hb.sigmoid _)
      have p1 := abs_le_one_add f2 (hb.sigmoid _)
      have p2 := abs_le_one_add gg2 (hb.tanh _)
      have q1 : |real L.forgetGateZp (b.sT 1) f * real 0 b.sC cq| ≤ (1 + b.gateError 1 b.lipSigmoid eu) * (128 * b.sC) := by
        rw [abs_mul]
        exact mul_le_mul p1 hC (abs_nonneg _) (le_trans (abs_nonneg _) p1)
      have q2 : |real L.inputGateZp (b.sT 0) i * real L.cellGateZp (b.sT 2) g| ≤
          (1 + b.gateError 0 b.lipSigmoid eu) * (1 + b.gateError 2 b.lipTanh eu) := by
        rw [abs_mul]
        exact mul_le_mul p0 p2 (abs_nonneg _) (le_trans (abs_nonneg _) p0)
      have q3 := mul_le_mul_of_nonneg_left (add_le_add (add_le_add q1 q2) (le_refl b.sC)) hok.eps.1
      linarith
    have hst : (lstmState ext l xf (t + 1)).2 u = ext.sigmoid (lstmSum ext l xf t 1 u) * (lstmState ext l xf t).2 u +
        ext.sigmoid (lstmSum ext l xf t 0 u) * ext.tanh (lstmSum ext l xf t 2 u) := rfl
    rw [hst]
    have hF := hin.forget t ht u hu
    have hIG := mul_err i2 gg2 (hb.sigmoid _) (hb.tanh _)
    obtain ⟨F, hFd⟩ : ∃ F, F = real L.forgetGateZp (b.sT 1) f := ⟨_, rfl⟩
    obtain ⟨C, hCd⟩ : ∃ C, C = real 0 b.sC cq := ⟨_, rfl⟩
    rw [← hFd] at f2 ⊢
    rw [← hCd] at hce hC ⊢
    have hFC : |F * C - ext.sigmoid (lstmSum ext l xf t 1 u) * (lstmState ext l xf t).2 u| ≤
        b.forget * ec + b.gateError 1 b.lipSigmoid eu * (128 * b.sC) := by
      obtain ⟨φ, hφ⟩ : ∃ φ, φ = ext.sigmoid (lstmSum ext l xf t 1 u) := ⟨_, rfl⟩
      obtain ⟨κ, hκ⟩ : ∃ κ, κ = (lstmState ext l xf t).2 u := ⟨_, rfl⟩
      rw [← hφ] at f2 hF ⊢
      rw [← hκ] at hce ⊢
      have e : F * C - φ * κ = φ * (C - κ) + (F - φ) * C := by ring
      rw [e]
      have := abs_add_le (φ * (C - κ)) ((F - φ) * C)
      rw [abs_mul, abs_mul] at this
      have p1 := mul_le_mul hF hce (abs_nonneg _) hok.forget
      have p2 := mul_le_mul f2 hC (abs_nonneg _) (gateError_nonneg hok (by omega) hok.lipSigmoid heu)
      linarith
    have := abs_add_le (F * C - ext.sigmoid (lstmSum ext l xf t 1 u) * (lstmState ext l xf t).2 u)
      (real L.inputGateZp (b.sT 0) i * real L.cellGateZp (b.sT 2) g -
        ext.sigmoid (lstmSum ext l xf t 0 u) * ext.tanh (lstmSum ext l xf t 2 u))
    refine le_trans (le_of_eq (congrArg abs ?_)) (le_trans this (add_le_add hFC hIG))
    ring
  refine ⟨hcellerr, ?_⟩
  -- the hidden state
  have hcellc : Code (-128) 127 (r.2.getD u 0) := hrange.2 _ (List.mem_of_getElem? g2)
  obtain ⟨s, s1, s2⟩ := hr.state (r.2.getD u 0) hcellc
  have hs : aS[u]? = some s := mapM_at mS hcell (by rw [← e2, hn.tables.2.2.2.2]; exact s1)
  have e1 : r.1.getD u 0 = L'.hiddenVal o s := by
    rw [← hrr]
    show (List.zipWith L'.hiddenVal aO aS).getD u 0 = _
    rw [List.getD_eq_getElem?_getD, List.getElem?_zipWith, o1, hs]; rfl
  rw [e1]
  rw [hr.cellZp] at s2
  have hserr : |real L.cellActZp b.sS s - ext.tanh ((lstmState ext l xf (t + 1)).2 u)| ≤ b.squashError (b.cellError eu ec) :=
    table_err hok.sS s2 hb.tanhLip hok.lipTanh hcellerr (hin.squashed t ht u hu)
  have hLh := LSTM_hidden hn hr.dtypes.2.2 (b.sT 3) b.sS b.sH hok.sH hr.m5 o s
    (ext.sigmoid (lstmSum ext l xf t 3 u) * ext.tanh ((lstmState ext l xf (t + 1)).2 u)) _
    (mul_err o2 hserr (hb.sigmoid _) (hb.tanh _)) (hin.hidden t ht u hu)
  refine le_trans hLh ?_
  have p3 := abs_le_one_add o2 (hb.sigmoid _)
  have p4 := abs_le_one_add hserr (hb.tanh _)
  have q : |real L.outputGateZp (b.sT 3) o * real L.cellActZp b.sS s| ≤
      (1 + b.gateError 3 b.lipSigmoid eu) * (1 + b.squashError (b.cellError eu ec)) := by
    rw [abs_mul]
    exact mul_le_mul p3 p4 (abs_nonneg _) (le_trans (abs_nonneg _) p3)
  have q3 := mul_le_mul_of_nonneg_left (add_le_add q (le_refl (129 * b.sH))) hok.eps.1
  unfold LstmBudget.hiddenError
  linarith

end LstmAcc
end Verif
