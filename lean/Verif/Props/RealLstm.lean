import Verif.Props.RealKeras
import Verif.Props.LstmFloatExport

/-!
# C110: recurrent models against the real sigmoid and tanh
-/

namespace Verif

open Spec Keras

namespace Spec

noncomputable section

/-- The sum feeding column `col` of the gates of a Keras LSTM over the real numbers, from features `x` and hidden state `h`. -/
def realGateSum (l : KLSTM) (x : List ℝ) (h : ℕ → ℝ) (col : ℕ) : ℝ :=
  ((List.range l.units).map (fun k => h k * (weight l.recurrent k col : ℝ))).sum +
    (((List.range l.kernel.length).map (fun f => x.getD f 0 * (weight l.kernel f col : ℝ))).sum + ((l.bias.getD col 0 : ℚ) : ℝ))

/-- Hidden and cell state of a Keras LSTM over the real numbers after `t` steps on one sample, with the true sigmoid and tanh. -/
def realState (l : KLSTM) (x : List (List ℝ)) : ℕ → (ℕ → ℝ) × (ℕ → ℝ)
  | 0 => (fun _ => 0, fun _ => 0)
  | t + 1 =>
    let h := (realState l x t).1
    let c := (realState l x t).2
    let y := fun g u => realGateSum l (x.getD t []) h (g * l.units + u)
    let c' := fun u => Real.sigmoid (y 1 u) * c u + Real.sigmoid (y 0 u) * Real.tanh (y 2 u)
    (fun u => Real.sigmoid (y 3 u) * Real.tanh (c' u), c')

/-- The hidden states of the layer on a sequence, one per step. -/
def realHidden (l : KLSTM) (x : List (List ℝ)) : List (List ℝ) :=
  (List.range x.length).map (fun t => (List.range l.units).map (realState l x (t + 1)).1)

/-- The hidden state of the layer after the last step. -/
def realLastHidden (l : KLSTM) (x : List (List ℝ)) : List ℝ := (List.range l.units).map (realState l x x.length).1

/-- The recurrent model over the real numbers on a sequence. -/
def realSeqForward : List KLayer → List (List ℝ) → List ℝ
  | .lstm l :: ls, x =>
    if l.returnSequences then realSeqForward ls (realHidden l x) else realForward ls (realLastHidden l x)
  | _ :: ls, x => realSeqForward ls x
  | [], _ => []

/-- The largest absolute column sum of the first `n` rows and `m` columns of a matrix. -/
def widest (M : List (List ℚ)) (n m : ℕ) : ℚ :=
  ((List.range m).map (fun c => ((List.range n).map (fun k => |weight M k c|)).sum)).foldr max 0

/-- How far hidden and cell state are from those over the real numbers after `t` steps, if sigmoid and tanh are off by at most `η`
and the inputs by at most `d`; `κ` and `υ` bound the column sums of the kernels.  The cell state grows by at most 1 per step, so
the error of the forget gate counts `t` times. -/
def lstmDrift (η d κ υ : ℝ) : ℕ → ℝ × ℝ
  | 0 => (0, 0)
  | t + 1 =>
    let G := κ * d + υ * (lstmDrift η d κ υ t).1
    let c := (lstmDrift η d κ υ t).2 + (η + 1 / 4 * G) * t + (η + 1 / 4 * G) + (η + G)
    (η + 1 / 4 * G + (η + c), c)

/-- How far the hidden states of the first `T` steps of a layer are from those over the real numbers. -/
def layerDrift (η d : ℝ) (l : KLSTM) (t : ℕ) : ℝ :=
  (lstmDrift η d ((widest l.kernel l.kernel.length (4 * l.units) : ℚ) : ℝ) ((widest l.recurrent l.units (4 * l.units) : ℚ) : ℝ) t).1

/-- The error of evaluating an activation function: only tanh and sigmoid are not computed exactly. -/
def actErr (η : ℝ) (name : String) : ℝ := if upper name ∈ ["TANH".toList, "SIGMOID".toList] then η else 0

/-- How far the dense layers of a model are from those over the real numbers, if their inputs are off by `d`. -/
def denseDrift (η : ℝ) : List KLayer → List ℝ → List ℝ
  | [], d => d
  | .dense l :: ls, d => denseDrift η ls ((List.range l.units).map (fun j =>
      actErr η l.actName + actLip l.actName * realDot (l.kernel.map (fun r => |r.getD j 0|)) d))
  | _ :: ls, d => denseDrift η ls d

/-- How far a recurrent model is from that over the real numbers on a sequence of `T` steps, if its inputs are off by `d`. -/
def seqDrift (η : ℝ) : List KLayer → ℕ → ℝ → List ℝ
  | .lstm l :: ls, T, d =>
    if l.returnSequences then seqDrift η ls T (((List.range T).map (fun t => layerDrift η d l (t + 1))).foldr max 0)
    else denseDrift η ls (List.replicate l.units (layerDrift η d l T))
  | _ :: ls, T, d => seqDrift η ls T d
  | [], _, _ => []

/-- The sigmoid and tanh of `ext` are off by at most `η`. -/
structure ExtClose (ext : Ext) (η : ℝ) : Prop where
  sigmoid : ∀ a : ℚ, |(ext.sigmoid a : ℝ) - Real.sigmoid a| ≤ η
  tanh : ∀ a : ℚ, |(ext.tanh a : ℝ) - Real.tanh a| ≤ η
  bounded : ∀ a, |ext.sigmoid a| ≤ 1

/-- The activations of the dense layers are those of their names, up to `η` for tanh and sigmoid. -/
def TargetsClose (η : ℝ) (ls : List KLayer) : Prop :=
  ∀ l, KLayer.dense l ∈ ls → ∀ a : ℚ, |(target l a : ℝ) - realAct l.actName a| ≤ actErr η l.actName

end

end Spec

namespace RealLstm

open RealKeras RealFiles

theorem sum_close (n : ℕ) (a : ℕ → ℚ) (b : ℕ → ℝ) (w : ℕ → ℚ) (e : ℝ) (h : ∀ k < n, |(a k : ℝ) - b k| ≤ e) :
    |((((List.range n).map (fun k => a k * w k)).sum : ℚ) : ℝ) - ((List.range n).map (fun k => b k * (w k : ℝ))).sum| ≤
      (((((List.range n).map (fun k => |w k|)).sum : ℚ)) : ℝ) * e := by
  induction n with
  | zero => simp
  | succ n ih =>
    have i := ih (fun k hk => h k (by omega))
    have h1 := h n (by omega)
    rw [List.range_succ, List.map_append, List.map_append, List.map_append, List.sum_append, List.sum_append, List.sum_append]
    simp only [List.map_cons, List.map_nil, List.sum_cons, List.sum_nil, add_zero]
    generalize (((List.range n).map (fun k => a k * w k)).sum : ℚ) = A at i ⊢
    generalize ((List.range n).map (fun k => b k * (w k : ℝ))).sum = B at i ⊢
    generalize (((List.range n).map (fun k => |w k|)).sum : ℚ) = C at i ⊢
    push_cast at i ⊢
    have h2 : |(a n : ℝ) * w n - b n * w n| ≤ |(w n : ℝ)| * e := by
      rw [← sub_mul, abs_mul, mul_comm]
      exact mul_le_mul_of_nonneg_left h1 (abs_nonneg _)
    have h3 := abs_add_le ((A : ℝ) - B) ((a n : ℝ) * w n - b n * w n)
    rw [show (A : ℝ) - B + ((a n : ℝ) * w n - b n * w n) = A + a n * w n - (B + b n * w n) by ring] at h3
    linarith [h3, i, h2, add_mul (C : ℝ) |(w n : ℝ)| e]

theorem le_foldr_max (L : List ℚ) {x : ℚ} (h : x ∈ L) : x ≤ L.foldr max 0 := by
  induction L with
  | nil => cases h
  | cons a L ih =>
    rcases List.mem_cons.mp h with rfl | h
    · exact le_max_left _ _
    · exact (ih h).trans (le_max_right _ _)

theorem le_foldr_maxR (L : List ℝ) {x : ℝ} (h : x ∈ L) : x ≤ L.foldr max 0 := by
  induction L with
  | nil => cases h
  | cons a L ih =>
    rcases List.mem_cons.mp h with rfl | h
    · exact le_max_left _ _
    · exact (ih h).trans (le_max_right _ _)

theorem foldr_maxR_nonneg (L : List ℝ) : 0 ≤ L.foldr max 0 := by
  cases L with
  | nil => exact le_rfl
  | cons a L =>
    induction L generalizing a with
    | nil => exact le_max_right _ _
    | cons b L ih => exact (ih b).trans (le_max_right _ _)

theorem widest_nonneg (M : List (List ℚ)) (n m : ℕ) : 0 ≤ widest M n m := by
  unfold widest
  generalize (List.range m).map _ = L
  induction L with
  | nil => exact le_rfl
  | cons a L ih => exact ih.trans (le_max_right _ _)

theorem col_le (M : List (List ℚ)) (n : ℕ) {m c : ℕ} (hc : c < m) :
    (((List.range n).map (fun k => |weight M k c|)).sum) ≤ widest M n m :=
  le_foldr_max _ (List.mem_map.mpr ⟨c, List.mem_range.mpr hc, rfl⟩)

theorem gate_close {l : KLSTM} {x : List ℚ} {y : List ℝ} {d : ℝ} (hd : 0 ≤ d) (hx : ∀ f, |((x.getD f 0 : ℚ) : ℝ) - y.getD f 0| ≤ d)
    {h : ℕ → ℚ} {h' : ℕ → ℝ} {e : ℝ} (he : 0 ≤ e) (hh : ∀ u < l.units, |(h u : ℝ) - h' u| ≤ e) {g u : ℕ} (hg : g < 4) (hu : u < l.units) :
    |((gateSum l x h (g * l.units + u) : ℚ) : ℝ) - realGateSum l y h' (g * l.units + u)| ≤
      ((widest l.kernel l.kernel.length (4 * l.units) : ℚ) : ℝ) * d + ((widest l.recurrent l.units (4 * l.units) : ℚ) : ℝ) * e := by
  have hc : g * l.units + u < 4 * l.units := by
    have : g * l.units ≤ 3 * l.units := Nat.mul_le_mul_right _ (by omega)
    omega
  have h1 := sum_close l.units h h' (fun k => weight l.recurrent k (g * l.units + u)) e hh
  have h2 := sum_close l.kernel.length (fun f => x.getD f 0) (fun f => y.getD f 0) (fun f => weight l.kernel f (g * l.units + u)) d
    (fun k _ => hx k)
  have c1 : ((((List.range l.units).map (fun k => |weight l.recurrent k (g * l.units + u)|)).sum : ℚ) : ℝ) * e ≤
      ((widest l.recurrent l.units (4 * l.units) : ℚ) : ℝ) * e :=
    mul_le_mul_of_nonneg_right (by exact_mod_cast col_le _ _ hc) he
  have c2 : ((((List.range l.kernel.length).map (fun k => |weight l.kernel k (g * l.units + u)|)).sum : ℚ) : ℝ) * d ≤
      ((widest l.kernel l.kernel.length (4 * l.units) : ℚ) : ℝ) * d :=
    mul_le_mul_of_nonneg_right (by exact_mod_cast col_le _ _ hc) hd
  have h1' := h1.trans c1
  have h2' := h2.trans c2
  unfold gateSum realGateSum
  generalize ((List.range l.units).map (fun k => h k * weight l.recurrent k (g * l.units + u))).sum = A at h1' ⊢
  generalize ((List.range l.kernel.length).map (fun f => x.getD f 0 * weight l.kernel f (g * l.units + u))).sum = B at h2' ⊢
  generalize ((List.range l.units).map (fun k => h' k * (weight l.recurrent k (g * l.units + u) : ℝ))).sum = A' at h1' ⊢
  generalize ((List.range l.kernel.length).map (fun f => y.getD f 0 * (weight l.kernel f (g * l.units + u) : ℝ))).sum = B' at h2' ⊢
  push_cast
  rw [show (A : ℝ) + (B + ((l.bias.getD (g * l.units + u) 0 : ℚ) : ℝ)) - (A' + (B' + ((l.bias.getD (g * l.units + u) 0 : ℚ) : ℝ))) =
    (A - A') + (B - B') by ring]
  have := abs_add_le ((A : ℝ) - A') (B - B')
  linarith

theorem sig_close {ext : Ext} {η : ℝ} (h : ExtClose ext η) {a : ℚ} {b G : ℝ} (hab : |(a : ℝ) - b| ≤ G) :
    |(ext.sigmoid a : ℝ) - Real.sigmoid b| ≤ η + 1 / 4 * G := by
  have h1 := abs_sub_le (ext.sigmoid a : ℝ) (Real.sigmoid a) (Real.sigmoid b)
  have h2 := RealFn.sigmoid_lip a b
  have h3 := h.sigmoid a
  linarith

theorem tanh_close {ext : Ext} {η : ℝ} (h : ExtClose ext η) {a : ℚ} {b G : ℝ} (hab : |(a : ℝ) - b| ≤ G) :
    |(ext.tanh a : ℝ) - Real.tanh b| ≤ η + G := by
  have h1 := abs_sub_le (ext.tanh a : ℝ) (Real.tanh a) (Real.tanh b)
  have h2 := RealFn.tanh_lip a b
  have h3 := h.tanh a
  linarith

theorem prod_close {p q p' q' P Q B : ℝ} (h1 : |p - p'| ≤ P) (h2 : |q - q'| ≤ Q) (hp : |p| ≤ 1) (hq : |q'| ≤ B) :
    |p * q - p' * q'| ≤ Q + P * B := by
  have e : p * q - p' * q' = p * (q - q') + (p - p') * q' := by ring
  rw [e]
  refine (abs_add_le _ _).trans ?_
  rw [abs_mul, abs_mul]
  have i1 : |p| * |q - q'| ≤ 1 * Q := mul_le_mul hp h2 (abs_nonneg _) zero_le_one
  have i2 : |p - p'| * |q'| ≤ P * B := mul_le_mul h1 hq (abs_nonneg _) ((abs_nonneg _).trans h1)
  linarith

theorem drift_nonneg {η d κ υ : ℝ} (hη : 0 ≤ η) (hd : 0 ≤ d) (hκ : 0 ≤ κ) (hυ : 0 ≤ υ) (t : ℕ) :
    0 ≤ (lstmDrift η d κ υ t).1 ∧ 0 ≤ (lstmDrift η d κ υ t).2 := by
  induction t with
  | zero => exact ⟨le_rfl, le_rfl⟩
  | succ t ih =>
    obtain ⟨i1, i2⟩ := ih
    simp only [lstmDrift]
    have := mul_nonneg hκ hd
    have := mul_nonneg hυ i1
    have ht : (0 : ℝ) ≤ t := Nat.cast_nonneg t
    constructor <;> positivity

/-- One layer, step by step. -/
theorem state_close {ext : Ext} {η : ℝ} (hext : ExtClose ext η) {l : KLSTM} {x : List (List ℚ)} {y : List (List ℝ)}
    {d : ℝ} (hd : 0 ≤ d) (hx : ∀ t f, |(((x.getD t []).getD f 0 : ℚ) : ℝ) - (y.getD t []).getD f 0| ≤ d) (t : ℕ) :
    ∀ u < l.units, |((lstmState ext l x t).1 u : ℝ) - (realState l y t).1 u| ≤ layerDrift η d l t ∧
      |((lstmState ext l x t).2 u : ℝ) - (realState l y t).2 u| ≤
        (lstmDrift η d ((widest l.kernel l.kernel.length (4 * l.units) : ℚ) : ℝ)
          ((widest l.recurrent l.units (4 * l.units) : ℚ) : ℝ) t).2 ∧ |(realState l y t).2 u| ≤ t := by
  have hη : 0 ≤ η := (abs_nonneg _).trans (hext.sigmoid 0)
  induction t with
  | zero => intro u _; simp [lstmState, realState, layerDrift, lstmDrift]
  | succ t ih =>
    intro u hu
    have hκ : (0 : ℝ) ≤ ((widest l.kernel l.kernel.length (4 * l.units) : ℚ) : ℝ) := by exact_mod_cast widest_nonneg _ _ _
    have hυ : (0 : ℝ) ≤ ((widest l.recurrent l.units (4 * l.units) : ℚ) : ℝ) := by exact_mod_cast widest_nonneg _ _ _
    have hG : ∀ g < 4, |((gateSum l (x.getD t []) (lstmState ext l x t).1 (g * l.units + u) : ℚ) : ℝ) -
        realGateSum l (y.getD t []) (realState l y t).1 (g * l.units + u)| ≤ _ := fun g hg =>
      gate_close hd (hx t) (drift_nonneg hη hd hκ hυ t).1 (fun u hu => (ih u hu).1) hg hu
    obtain ⟨-, i2, i3⟩ := ih u hu
    simp only [layerDrift, lstmDrift, lstmState, realState]
    generalize (widest l.kernel l.kernel.length (4 * l.units) : ℚ) = κ at *
    generalize (widest l.recurrent l.units (4 * l.units) : ℚ) = υ at *
    generalize (κ : ℝ) * d + (υ : ℝ) * (lstmDrift η d κ υ t).1 = G at *
    generalize (lstmDrift η d κ υ t).2 = C at *
    have g0 := hG 0 (by omega)
    have g1 := hG 1 (by omega)
    have g2 := hG 2 (by omega)
    have g3 := hG 3 (by omega)
    generalize gateSum l (x.getD t []) (lstmState ext l x t).1 (0 * l.units + u) = a0 at *
    generalize gateSum l (x.getD t []) (lstmState ext l x t).1 (1 * l.units + u) = a1 at *
    generalize gateSum l (x.getD t []) (lstmState ext l x t).1 (2 * l.units + u) = a2 at *
    generalize gateSum l (x.getD t []) (lstmState ext l x t).1 (3 * l.units + u) = a3 at *
    generalize realGateSum l (y.getD t []) (realState l y t).1 (0 * l.units + u) = b0 at *
    generalize realGateSum l (y.getD t []) (realState l y t).1 (1 * l.units + u) = b1 at *
    generalize realGateSum l (y.getD t []) (realState l y t).1 (2 * l.units + u) = b2 at *
    generalize realGateSum l (y.getD t []) (realState l y t).1 (3 * l.units + u) = b3 at *
    generalize (lstmState ext l x t).2 u = c at *
    generalize (realState l y t).2 u = c' at *
    have bnd : ∀ a, |((ext.sigmoid a : ℚ) : ℝ)| ≤ 1 := fun a => by exact_mod_cast hext.bounded a
    have p1 := prod_close (sig_close hext g1) i2 (bnd a1) i3
    have p2 := prod_close (sig_close hext g0) (tanh_close hext g2) (bnd a0) (RealFn.abs_tanh_le b2)
    have hc : |((ext.sigmoid a1 * c + ext.sigmoid a0 * ext.tanh a2 : ℚ) : ℝ) -
        (Real.sigmoid b1 * c' + Real.sigmoid b0 * Real.tanh b2)| ≤ C + (η + 1 / 4 * G) * t + (η + 1 / 4 * G) + (η + G) := by
      push_cast
      have := abs_add_le ((ext.sigmoid a1 : ℝ) * c - Real.sigmoid b1 * c') ((ext.sigmoid a0 : ℝ) * ext.tanh a2 - Real.sigmoid b0 * Real.tanh b2)
      rw [show (ext.sigmoid a1 : ℝ) * c - Real.sigmoid b1 * c' + ((ext.sigmoid a0 : ℝ) * ext.tanh a2 - Real.sigmoid b0 * Real.tanh b2) =
        (ext.sigmoid a1 : ℝ) * c + ext.sigmoid a0 * ext.tanh a2 - (Real.sigmoid b1 * c' + Real.sigmoid b0 * Real.tanh b2) by ring] at this
      linarith
    refine ⟨?_, hc, ?_⟩
    · have p3 := prod_close (sig_close hext g3) (tanh_close hext hc) (bnd a3)
        (RealFn.abs_tanh_le (Real.sigmoid b1 * c' + Real.sigmoid b0 * Real.tanh b2))
      rw [mul_one] at p3
      push_cast at p3 ⊢
      linarith
    · refine (abs_add_le _ _).trans ?_
      rw [abs_mul, abs_mul]
      have q1 : |Real.sigmoid b1| * |c'| ≤ 1 * t := mul_le_mul (RealFn.abs_sigmoid_le b1) i3 (abs_nonneg _) zero_le_one
      have q2 : |Real.sigmoid b0| * |Real.tanh b2| ≤ 1 * 1 :=
        mul_le_mul (RealFn.abs_sigmoid_le b0) (RealFn.abs_tanh_le b2) (abs_nonneg _) zero_le_one
      push_cast
      linarith

/-- The casts of a list of lists, entry by entry. -/
theorem cast_close (x : List (List ℚ)) (t f : ℕ) :
    |(((x.getD t []).getD f 0 : ℚ) : ℝ) - ((x.map (fun r => r.map ((↑) : ℚ → ℝ))).getD t []).getD f 0| ≤ 0 := by
  have e : ((x.map (fun r => r.map ((↑) : ℚ → ℝ))).getD t []).getD f 0 = (((x.getD t []).getD f 0 : ℚ) : ℝ) := by
    simp only [List.getD_eq_getElem?_getD, List.getElem?_map]
    cases x[t]? with
    | none => simp
    | some r =>
      simp only [Option.map_some, Option.getD_some, List.getElem?_map]
      cases r[f]? <;> simp
  rw [e, sub_self, abs_zero]

theorem hidden_close {ext : Ext} {η : ℝ} (hext : ExtClose ext η) {l : KLSTM} {x : List (List ℚ)} {y : List (List ℝ)}
    (hlen : y.length = x.length) {d : ℝ} (hd : 0 ≤ d)
    (hx : ∀ t f, |(((x.getD t []).getD f 0 : ℚ) : ℝ) - (y.getD t []).getD f 0| ≤ d) (t f : ℕ) :
    |((((hiddenSeq ext l x).getD t []).getD f 0 : ℚ) : ℝ) - ((realHidden l y).getD t []).getD f 0| ≤
      ((List.range x.length).map (fun t => layerDrift η d l (t + 1))).foldr max 0 := by
  unfold hiddenSeq realHidden
  rw [hlen]
  simp only [List.getD_eq_getElem?_getD, List.getElem?_map]
  by_cases ht : t < x.length
  · rw [List.getElem?_range ht]
    simp only [Option.map_some, Option.getD_some, List.getElem?_map]
    by_cases hf : f < l.units
    · rw [List.getElem?_range hf]
      simp only [Option.map_some, Option.getD_some]
      exact ((state_close hext hd hx (t + 1)) f hf).1.trans
        (le_foldr_maxR _ (List.mem_map.mpr ⟨t, List.mem_range.mpr ht, rfl⟩))
    · have e : (List.range l.units)[f]? = none := List.getElem?_eq_none (by simpa using hf)
      rw [e]
      simpa using foldr_maxR_nonneg _
  · have e : (List.range x.length)[t]? = none := List.getElem?_eq_none (by simpa using ht)
    rw [e]
    simpa using foldr_maxR_nonneg _

theorem dot_close (row : List ℚ) : ∀ {x : List ℚ} {t d : List ℝ}, WithinR (x.map (↑)) t d →
    |(dotQ row x : ℝ) - realDot row t| ≤ realDot (row.map (fun w => |w|)) d := by
  induction row with
  | nil => intro x t d _; simp [dotQ, realDot]
  | cons w row ih =>
    intro x t d hw
    obtain ⟨hl, hw⟩ := hw
    cases t with
    | nil =>
      cases x with
      | nil =>
        cases d with
        | nil => simp [dotQ, realDot]
        | cons e d => simp at hl
      | cons a x => cases hw
    | cons y t =>
      cases d with
      | nil => simp at hl
      | cons e d =>
        cases x with
        | nil => cases hw
        | cons a x =>
          simp only [List.map_cons, List.zip_cons_cons, List.forall₂_cons] at hw
          obtain ⟨h2, h3⟩ := hw
          have i := ih (x := x) (t := t) (d := d) ⟨by simpa using hl, h3⟩
          simp only [dotQ, realDot, List.map_cons, List.zipWith_cons_cons, List.sum_cons] at i ⊢
          generalize (List.zipWith (fun (w : ℚ) (v : ℝ) => (w : ℝ) * v) row t).sum = B at i ⊢
          generalize (List.zipWith (fun (w : ℚ) (v : ℝ) => (w : ℝ) * v) (row.map (fun w => |w|)) d).sum = D at i ⊢
          have h4 : |(w : ℝ) * a - w * y| ≤ |(w : ℝ)| * e := by
            rw [← mul_sub, abs_mul]
            exact mul_le_mul_of_nonneg_left h2 (abs_nonneg _)
          generalize (List.zipWith (fun x y => x * y) row x).sum = A at i ⊢
          push_cast at i ⊢
          have h5 := abs_add_le ((w : ℝ) * a - w * y) (A - B)
          rw [show (w : ℝ) * a - w * y + (A - B) = w * a + A - (w * y + B) by ring] at h5
          linarith

theorem row_close (l : KDense) {x : List ℚ} {t d : List ℝ} (hw : WithinR (x.map (↑)) t d) {η : ℝ}
    (ht : ∀ a : ℚ, |(target l a : ℝ) - realAct l.actName a| ≤ actErr η l.actName) :
    WithinR (((denseRow l x).map (target l)).map (↑)) ((realRow l t).map (realAct l.actName))
      ((List.range l.units).map (fun j =>
        actErr η l.actName + actLip l.actName * realDot (l.kernel.map (fun r => |r.getD j 0|)) d)) := by
  refine ⟨by simp [realRow], ?_⟩
  unfold denseRow realRow
  generalize List.range l.units = R
  induction R with
  | nil => simp
  | cons j R ih =>
    simp only [List.map_cons, List.zip_cons_cons]
    refine .cons ?_ ih
    have h1 := dot_close (l.kernel.map (fun r => r.getD j 0)) hw
    rw [List.map_map] at h1
    change _ ≤ realDot (l.kernel.map (fun r => |r.getD j 0|)) d at h1
    have h2 := ht (dotQ (l.kernel.map (fun r => r.getD j 0)) x + (l.bias.getD (List.replicate l.units 0)).getD j 0)
    have h3 := realAct_lip l.actName
      ((dotQ (l.kernel.map (fun r => r.getD j 0)) x + (l.bias.getD (List.replicate l.units 0)).getD j 0 : ℚ) : ℝ)
      (realDot (l.kernel.map (fun r => r.getD j 0)) t + (((l.bias.getD (List.replicate l.units 0)).getD j 0 : ℚ) : ℝ))
    have h4 : |((dotQ (l.kernel.map (fun r => r.getD j 0)) x + (l.bias.getD (List.replicate l.units 0)).getD j 0 : ℚ) : ℝ) -
        (realDot (l.kernel.map (fun r => r.getD j 0)) t + (((l.bias.getD (List.replicate l.units 0)).getD j 0 : ℚ) : ℝ))| ≤
        realDot (l.kernel.map (fun r => |r.getD j 0|)) d := by
      push_cast
      rw [add_sub_add_right_eq_sub]
      exact h1
    exact ((abs_sub_le _ _ _).trans (add_le_add h2 h3)).trans
      (add_le_add le_rfl (mul_le_mul_of_nonneg_left h4 (actLip_pos _)))

theorem forward_close {η : ℝ} (ls : List KLayer) (ht : TargetsClose η ls) :
    ∀ {x : List ℚ} {t d : List ℝ}, WithinR (x.map (↑)) t d →
      WithinR ((forward ls x).map (↑)) (realForward ls t) (denseDrift η ls d) := by
  induction ls with
  | nil => intro x t d h; exact h
  | cons k ls ih =>
    have ih' := @ih (fun l hl => ht l (List.mem_cons_of_mem _ hl))
    intro x t d h
    cases k with
    | dense l => exact ih' (row_close l h (ht l List.mem_cons_self))
    | lstm l => exact ih' h
    | dropout => exact ih' h
    | input => exact ih' h
    | other => exact ih' h

theorem last_close {ext : Ext} {η : ℝ} (hext : ExtClose ext η) {l : KLSTM} {x : List (List ℚ)} {y : List (List ℝ)}
    (hlen : y.length = x.length) {d : ℝ} (hd : 0 ≤ d)
    (hx : ∀ t f, |(((x.getD t []).getD f 0 : ℚ) : ℝ) - (y.getD t []).getD f 0| ≤ d) :
    WithinR ((lastHidden ext l x).map (↑)) (realLastHidden l y) (List.replicate l.units (layerDrift η d l x.length)) := by
  unfold lastHidden realLastHidden
  rw [hlen]
  refine ⟨by simp, ?_⟩
  have h : ∀ u ∈ List.range l.units, _ := fun u hu => (state_close hext hd hx x.length u (List.mem_range.mp hu)).1
  have e : List.replicate l.units (layerDrift η d l x.length) = (List.range l.units).map (fun _ => layerDrift η d l x.length) := by
    simp
  rw [e]
  generalize List.range l.units = R at h
  induction R with
  | nil => exact .nil
  | cons u R ih =>
    simp only [List.map_cons, List.zip_cons_cons]
    exact .cons (h u List.mem_cons_self) (ih (fun v hv => h v (List.mem_cons_of_mem _ hv)))

theorem model_close {ext : Ext} {η : ℝ} (hext : ExtClose ext η) (ls : List KLayer) (ht : TargetsClose η ls) :
    ∀ {x : List (List ℚ)} {y : List (List ℝ)} {d : ℝ}, y.length = x.length → 0 ≤ d →
      (∀ t f, |(((x.getD t []).getD f 0 : ℚ) : ℝ) - (y.getD t []).getD f 0| ≤ d) →
      WithinR ((seqForward ext ls x).map (↑)) (realSeqForward ls y) (seqDrift η ls x.length d) := by
  induction ls with
  | nil => intro x y d _ _ _; exact ⟨rfl, .nil⟩
  | cons k ls ih =>
    have ht' : TargetsClose η ls := fun l hl => ht l (List.mem_cons_of_mem _ hl)
    intro x y d hlen hd hx
    cases k with
    | dense l => exact ih ht' hlen hd hx
    | dropout => exact ih ht' hlen hd hx
    | input => exact ih ht' hlen hd hx
    | other => exact ih ht' hlen hd hx
    | lstm l =>
      unfold seqForward realSeqForward seqDrift
      cases l.returnSequences with
      | true =>
        rw [if_pos rfl, if_pos rfl, if_pos rfl]
        have := ih ht' (x := hiddenSeq ext l x) (y := realHidden l y) (by simp [hiddenSeq, realHidden, hlen])
          (foldr_maxR_nonneg _) (hidden_close hext hlen hd hx)
        have e : (hiddenSeq ext l x).length = x.length := by simp [hiddenSeq]
        rw [e] at this
        exact this
      | false =>
        rw [if_neg (by simp), if_neg (by simp), if_neg (by simp)]
        exact forward_close ls ht' (last_close hext hlen hd hx)

theorem within_cast {y t E : List ℚ} (h : Within y t E) : WithinReal y (t.map (↑)) (E.map (↑)) := by
  obtain ⟨h1, h2⟩ := h
  refine ⟨by simpa using h1, ?_⟩
  induction t generalizing y E with
  | nil => cases h2; simp
  | cons a t ih =>
    cases E with
    | nil => simp at h1
    | cons e E =>
      cases h2 with
      | cons i1 i2 =>
        simp only [List.map_cons, List.zip_cons_cons]
        refine .cons ?_ (ih (by simpa using h1) i2)
        simp only at i1 ⊢
        exact_mod_cast i1

end RealLstm

open RealLstm RealKeras in
/-- **C110** (models): a recurrent model evaluated with a sigmoid and a tanh that are off by at most `η` is, on every sequence of
any length, within the accumulated drift of the model over the real numbers. -/
theorem C110_model (ext : Ext) (η : ℝ) (hext : ExtClose ext η) (ls : List KLayer) (ht : TargetsClose η ls) (x : List (List ℚ)) :
    WithinR ((seqForward ext ls x).map (↑)) (realSeqForward ls (x.map (fun r => r.map (↑)))) (seqDrift η ls x.length 0) :=
  model_close hext ls ht (by simp) le_rfl (cast_close x)

/-- A rational approximation of a function with values in [-1, 1] that has such values itself. -/
theorem RealLstm.bounded_ideal (F : ℝ → ℝ) (L : ℚ) (hL : 0 < L) (hF : ∀ x y, |F x - F y| ≤ L * |x - y|) (hb : ∀ x, |F x| ≤ 1)
    (η : ℚ) (hη : 0 < η) :
    ∃ f : ℚ → ℚ, (∀ a b, |f a - f b| ≤ L * |a - b|) ∧ (∀ a, |f a| ≤ 1) ∧ ∀ a : ℚ, |(f a : ℝ) - F a| ≤ η := by
  obtain ⟨g, g1, g2⟩ := RealFn.exists_rat F L hL hF hb η hη
  refine ⟨fun a => max (-1) (min 1 (g a)), fun a b => ?_, fun a => ?_, fun a => ?_⟩
  · refine ((abs_max_sub_max_le_max _ _ _ _).trans (max_le (by simp) ?_)).trans (g1 a b)
    exact (abs_min_sub_min_le_max _ _ _ _).trans (max_le (by simp) (le_refl _))
  · rw [abs_le]
    exact ⟨le_max_left _ _, max_le (by norm_num) (min_le_left _ _)⟩
  · obtain ⟨b1, b2⟩ := abs_le.mp (hb a)
    have e : F a = max (-1) (min 1 (F a)) := by rw [min_eq_right b2, max_eq_right b1]
    rw [e]
    push_cast
    refine ((abs_max_sub_max_le_max _ _ _ _).trans (max_le (by simp) ?_)).trans (g2 a)
    exact (abs_min_sub_min_le_max _ _ _ _).trans (max_le (by simp) (le_refl _))

/-- **C110** (approximations): for every `η > 0` there are a sigmoid and a tanh on the rational numbers that are off by at most `η`,
have values in [-1, 1], and enlarge no distance (the sigmoid divides it by 4). -/
theorem C110_approximations (η : ℚ) (hη : 0 < η) : ∃ ext : Ext, ExtClose ext η ∧ (∀ a, |ext.tanh a| ≤ 1) ∧
    (∀ a b, |ext.sigmoid a - ext.sigmoid b| ≤ 1 / 4 * |a - b|) ∧ ∀ a b, |ext.tanh a - ext.tanh b| ≤ |a - b| := by
  obtain ⟨s, s1, s2, s3⟩ := RealLstm.bounded_ideal Real.sigmoid (1 / 4) (by norm_num)
    (fun x y => by have := RealFn.sigmoid_lip x y; push_cast; exact this) RealFn.abs_sigmoid_le η hη
  obtain ⟨t, t1, t2, t3⟩ := RealLstm.bounded_ideal Real.tanh 1 one_pos
    (fun x y => by have := RealFn.tanh_lip x y; push_cast; linarith) RealFn.abs_tanh_le η hη
  exact ⟨⟨t, s, fun a => a⟩, ⟨s3, t3, s2⟩, t2, s1, fun a b => by simpa using t1 a b⟩

open RealLstm RealKeras in
/-- **C110**: a recurrent model quantized and run in floating point against the model over the real numbers, with the true sigmoid
and tanh: the bound of C97 and the drift of the functions `ext`, which are off by at most `η`. -/
theorem C110_accuracy (ext : Ext) (η : ℝ) (hext : ExtClose ext η) (F : Formats) (h1 : ∀ d, Ieee (F.data d))
    (h2 : ∀ d, Ieee (F.weight d)) (h3 : Ieee F.product) (K : FloatKeras) (cfg : Cfg) (X : Arr ℚ) (ls : List KLayer) (n : ℕ)
    (hm : RecurrentModel cfg n ls) (hq : NamesType cfg.quantizeDtype "int" 8) (δ : ℚ) (ha : ActsOk K.act δ ls)
    (hr : TargetsClose η ls)
    (hs : ∀ a, |K.sigmoid a - ext.sigmoid a| ≤ δ) (ht : ∀ a, |K.tanh a - ext.tanh a| ≤ δ)
    (hsl : ∀ a b, |ext.sigmoid a - ext.sigmoid b| ≤ |a - b|) (htl : ∀ a b, |ext.tanh a - ext.tanh b| ≤ |a - b|)
    (hlip : ∀ l, KLayer.dense l ∈ ls → ∀ a b, |target l a - target l b| ≤ |a - b|) (g : List OpJ)
    (h : (Arith.float F K).graph cfg X ls = some g) (hg : FileFactors g) (bs : List LstmBudget)
    (hbs : LstmPlans ext F.product.fl δ ls g bs) :
    ∃ s z rs fs, SeqNetMeans ext (exportJson g) s z rs fs ∧ recFits (s, z) n rs ∧ rs.map (·.l) = lstmLayers ls ∧ rs.map (·.b) = bs ∧
      ExportedFile F.product.fl δ (recLast rs).1 (denseLayers ls) fs ∧
      ∃ N, Fmt.f64.load (exportJson g) = some N ∧
        ∀ (B : List (List (List ℚ))) (T : ℕ), B ≠ [] → 0 < T →
          (∀ x ∈ B, x.length = T ∧ (∀ r ∈ x, r.length = n) ∧
            ∃ e, (∀ r ∈ x, ∀ v ∈ inputBound s z r, v ≤ e) ∧ recInRange ext e rs x) →
          ∃ Y rec, Fmt.f64.infer ext N (.flt (.cube B)) = some (.flt (.mat Y), rec) ∧
            List.Forall₂ (fun (y : List ℚ) (x : List (List ℚ)) => WithinReal y (realSeqForward ls (x.map (fun r => r.map (↑))))
              (List.zipWith (· + ·) ((List.zipWith (· + ·)
                (outputBound (fileExact fs (recExact ext rs x)) (fileBound fs (recExact ext rs x) (recBound T rs)))
                (drift F.product.fl fs (denseLayers ls) (recExact ext rs x) ((recExact ext rs x).map (fun _ => 0)))).map (↑))
                (seqDrift η ls x.length 0))) Y B := by
  obtain ⟨s, z, rs, fs, c1, c2, c3, c4, c5, N, n1, n2⟩ :=
    C97_accuracy ext F h1 h2 h3 K cfg X ls n hm hq δ ha hs ht hsl htl hlip g h hg bs hbs
  refine ⟨s, z, rs, fs, c1, c2, c3, c4, c5, N, n1, fun B T hB hT hx => ?_⟩
  obtain ⟨Y, rec, e1, e2⟩ := n2 B T hB hT hx
  exact ⟨Y, rec, e1, e2.imp (fun y x h => RealKeras.within_trans (within_cast h) (C110_model ext η hext ls hr x))⟩

namespace C110Case

open C52Case (ext)

theorem sigmoid_eq (x : ℝ) : Real.sigmoid x = (Real.tanh (x / 2) + 1) / 2 := by
  rw [RealFn.tanh_eq, show 2 * (x / 2) = x by ring]; ring

/-- The functions of `C97Case`, piecewise linear, are off by at most 1/4. -/
theorem close : ExtClose ext (1 / 4) := by
  refine ⟨fun a => ?_, fun a => ?_, fun a => ?_⟩
  · have h := C109Case.hard (a / 2)
    show |((clip 0 1 (a / 4 + 1 / 2) : ℚ) : ℝ) - Real.sigmoid a| ≤ _
    rw [sigmoid_eq]
    have e : ((clip 0 1 (a / 4 + 1 / 2) : ℚ) : ℝ) = (((clip (-1) 1 (a / 2) : ℚ) : ℝ) + 1) / 2 := by
      have : clip 0 1 (a / 4 + 1 / 2) = (clip (-1) 1 (a / 2) + 1) / 2 := by
        unfold clip
        rcases le_total (a / 2) (-1) with h | h <;> rcases le_total (a / 2) 1 with h' | h' <;>
          simp only [min_def, max_def] <;> split_ifs <;> linarith
      rw [this]; push_cast; ring
    rw [e]
    generalize (clip (-1) 1 (a / 2) : ℚ) = c at h
    push_cast at h
    rw [show ((c : ℝ) + 1) / 2 - (Real.tanh (a / 2) + 1) / 2 = (c - Real.tanh (a / 2)) / 2 by ring, abs_div, abs_two]
    linarith [abs_nonneg ((c : ℝ) - Real.tanh (a / 2))]
  · exact C109Case.hard a
  · show |clip 0 1 (a / 4 + 1 / 2)| ≤ 1
    rw [abs_of_nonneg]
    · exact clip_le
    · exact clip_ge (by norm_num)

theorem targets : TargetsClose (1 / 4) C97Case.layers := by
  intro l hl a
  simp only [C97Case.layers, List.mem_cons, KLayer.dense.injEq, reduceCtorEq, false_or, List.not_mem_nil, or_false] at hl
  subst hl
  have e1 : target ⟨"d", 1, [[1]], none, "linear", id⟩ a = a := by unfold target; exact if_neg (by decide)
  have e2 : realAct "linear" = id := by
    unfold realAct
    rw [if_neg (by decide), if_neg (by decide), if_neg (by decide), if_neg (by decide)]
  have e3 : actErr (1 / 4) "linear" = 0 := by unfold actErr; exact if_neg (by decide)
  show |((target ⟨"d", 1, [[1]], none, "linear", id⟩ a : ℚ) : ℝ) - realAct "linear" a| ≤ actErr (1 / 4) "linear"
  rw [e1, e2, e3]
  simp

/-- The hypotheses of `C110_accuracy` hold for the model of `C97Case`, and its conclusion covers the calibration sequences. -/
example : ∃ g, (Arith.float C95Case.formats C97Case.keras).graph {} (.cube C83Case.X) C97Case.layers = some g ∧
    ∃ rs fs N Y rec, Fmt.f64.load (exportJson g) = some N ∧
      Fmt.f64.infer ext N (.flt (.cube C83Case.X)) = some (.flt (.mat Y), rec) ∧
        List.Forall₂ (fun (y : List ℚ) (x : List (List ℚ)) =>
          WithinReal y (realSeqForward C97Case.layers (x.map (fun r => r.map (↑)))) (List.zipWith (· + ·) ((List.zipWith (· + ·)
            (outputBound (fileExact fs (recExact ext rs x)) (fileBound fs (recExact ext rs x) (recBound 1 rs)))
            (drift Fmt.f32.fl fs (denseLayers C97Case.layers) (recExact ext rs x) ((recExact ext rs x).map (fun _ => 0)))).map (↑))
            (seqDrift (1 / 4) C97Case.layers x.length 0))) Y C83Case.X := by
  obtain ⟨g, h1, rs, fs, N, Y, rec, h2, -, -, h3, h4⟩ := C97Case.accurate
  exact ⟨g, h1, rs, fs, N, Y, rec, h2, h3, h4.imp (fun y x h =>
    RealKeras.within_trans (RealLstm.within_cast h) (C110_model ext (1 / 4) close _ targets x))⟩

end C110Case

end Verif
