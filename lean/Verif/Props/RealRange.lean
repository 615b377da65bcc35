import Verif.Props.RealLstm

/-!
# C110: the calibrated ranges, judged on the real model
-/

namespace Verif
open Spec Keras

namespace Spec

noncomputable section

/-- How far the cell states after `t` steps, and the sums of the gates in step `t`, are from those over the real numbers. -/
def cellDrift (η d : ℝ) (l : KLSTM) (t : ℕ) : ℝ :=
  (lstmDrift η d ((widest l.kernel l.kernel.length (4 * l.units) : ℚ) : ℝ) ((widest l.recurrent l.units (4 * l.units) : ℚ) : ℝ) t).2

def gateDrift (η d : ℝ) (l : KLSTM) (t : ℕ) : ℝ :=
  ((widest l.kernel l.kernel.length (4 * l.units) : ℚ) : ℝ) * d + ((widest l.recurrent l.units (4 * l.units) : ℚ) : ℝ) * layerDrift η d l t

/-- More than anything in step `t` is off by. -/
def stepMargin (η d : ℝ) (l : KLSTM) (t : ℕ) : ℝ := η + gateDrift η d l t + cellDrift η d l (t + 1) + layerDrift η d l (t + 1)

/-- The sum of gate `g` at unit `u` in step `t` over the real numbers. -/
def realSum (l : KLSTM) (y : List (List ℝ)) (t g u : ℕ) : ℝ := realGateSum l (y.getD t []) (realState l y t).1 (g * l.units + u)

/-- `v` is inside the range of the int8 codes with step `s` and zero point `z`, by a margin `m` (half a step outside is inside). -/
def RealCovered (z : ℤ) (s : ℚ) (m v : ℝ) : Prop :=
  0 < s ∧ ((real z s (-128) - s / 2 : ℚ) : ℝ) + m ≤ v ∧ v ≤ ((real z s 127 + s / 2 : ℚ) : ℝ) - m

/-- The layer over the real numbers stays, in its first `T` steps on `y`, in the calibrated ranges by the margins. -/
structure RealInRange (η d : ℝ) (l : KLSTM) (L : LSTM) (b : LstmBudget) (y : List (List ℝ)) (T : ℕ) : Prop where
  sumI : ∀ t < T, ∀ u < l.units, RealCovered L.gi.raZp (b.sA 0) (stepMargin η d l t) (realSum l y t 0 u)
  sumF : ∀ t < T, ∀ u < l.units, RealCovered L.gf.raZp (b.sA 1) (stepMargin η d l t) (realSum l y t 1 u)
  sumG : ∀ t < T, ∀ u < l.units, RealCovered L.gc.raZp (b.sA 2) (stepMargin η d l t) (realSum l y t 2 u)
  sumO : ∀ t < T, ∀ u < l.units, RealCovered L.go.raZp (b.sA 3) (stepMargin η d l t) (realSum l y t 3 u)
  outI : ∀ t < T, ∀ u < l.units, RealCovered L.inputGateZp (b.sT 0) (stepMargin η d l t) (Real.sigmoid (realSum l y t 0 u))
  outF : ∀ t < T, ∀ u < l.units, RealCovered L.forgetGateZp (b.sT 1) (stepMargin η d l t) (Real.sigmoid (realSum l y t 1 u))
  outG : ∀ t < T, ∀ u < l.units, RealCovered L.cellGateZp (b.sT 2) (stepMargin η d l t) (Real.tanh (realSum l y t 2 u))
  outO : ∀ t < T, ∀ u < l.units, RealCovered L.outputGateZp (b.sT 3) (stepMargin η d l t) (Real.sigmoid (realSum l y t 3 u))
  cell : ∀ t < T, ∀ u < l.units, RealCovered 0 b.sC (stepMargin η d l t) ((realState l y (t + 1)).2 u)
  squashed : ∀ t < T, ∀ u < l.units, RealCovered L.cellActZp b.sS (stepMargin η d l t) (Real.tanh ((realState l y (t + 1)).2 u))
  hidden : ∀ t < T, ∀ u < l.units, RealCovered L.hiddenZp b.sH (stepMargin η d l t) ((realState l y (t + 1)).1 u)
  forget : ∀ t < T, ∀ u < l.units, Real.sigmoid (realSum l y t 1 u) + stepMargin η d l t ≤ b.forget

/-- The recurrent layers, one after the other, stay in their calibrated ranges on the real sequence `y`; `d` is the drift of the
sequence, `e` bounds the error of its codes. -/
def recRealRange (η : ℝ) : ℝ → ℚ → List RecLayer → List (List ℝ) → Prop
  | _, _, [], _ => True
  | d, e, r :: rs, y => e ≤ r.b.eIn ∧ RealInRange η d r.l r.L r.b y y.length ∧
      ∃ e', (∀ t ≤ y.length, (r.b.error t).1 ≤ e') ∧
        recRealRange η (((List.range y.length).map (fun t => layerDrift η d r.l (t + 1))).foldr max 0) e' rs (realHidden r.l y)

end

end Spec

namespace RealLstm
open RealKeras RealFiles

theorem covered_of_range {z : ℤ} {s a : ℚ} (hs : 0 < s) (h1 : real z s (-128) - s / 2 ≤ a) (h2 : a ≤ real z s 127 + s / 2) : Covered z s a := by
  have key : |real z s (round (a / s + z)) - a| ≤ s / 2 := by
    have h := abs_sub_round (a / s + z)
    have e : real z s (round (a / s + z)) - a = -(s * (a / s + z - round (a / s + z))) := by
      unfold real; field_simp; ring
    rw [e, abs_neg, abs_mul, abs_of_pos hs]
    calc s * |a / s + z - round (a / s + z)| ≤ s * (1 / 2) := mul_le_mul_of_nonneg_left h hs.le
      _ = s / 2 := by ring
  rcases lt_or_ge (round (a / s + z)) (-128) with h | h
  · refine ⟨-128, by unfold Code; norm_num, ?_⟩
    have hr : real z s (round (a / s + z)) ≤ real z s (-128) - s := by
      have : ((round (a / s + z) : ℤ) : ℚ) ≤ ((-128 : ℤ) : ℚ) - 1 := by exact_mod_cast (by omega : round (a / s + z) ≤ -128 - 1)
      unfold real
      nlinarith
    obtain ⟨k1, k2⟩ := abs_le.mp key
    rw [abs_le]; constructor <;> linarith
  rcases lt_or_ge 127 (round (a / s + z)) with h' | h'
  · refine ⟨127, by unfold Code; norm_num, ?_⟩
    have hr : real z s 127 + s ≤ real z s (round (a / s + z)) := by
      have : ((127 : ℤ) : ℚ) + 1 ≤ ((round (a / s + z) : ℤ) : ℚ) := by exact_mod_cast (by omega : (127 : ℤ) + 1 ≤ round (a / s + z))
      unfold real
      nlinarith
    obtain ⟨k1, k2⟩ := abs_le.mp key
    rw [abs_le]; constructor <;> linarith
  · exact ⟨_, ⟨h, h'⟩, key⟩

theorem covered_of_real {z : ℤ} {s a : ℚ} {m v : ℝ} (h : RealCovered z s m v) (hv : |(a : ℝ) - v| ≤ m) : Covered z s a := by
  obtain ⟨hs, h1, h2⟩ := h
  obtain ⟨k1, k2⟩ := abs_le.mp hv
  refine covered_of_range hs ?_ ?_
  · have : ((real z s (-128) - s / 2 : ℚ) : ℝ) ≤ (a : ℝ) := by linarith
    exact_mod_cast this
  · have : (a : ℝ) ≤ ((real z s 127 + s / 2 : ℚ) : ℝ) := by linarith
    exact_mod_cast this

theorem layer_nonneg {η d : ℝ} (hη : 0 ≤ η) (hd : 0 ≤ d) (l : KLSTM) (t : ℕ) :
    0 ≤ layerDrift η d l t ∧ 0 ≤ cellDrift η d l t ∧ 0 ≤ gateDrift η d l t := by
  have hκ : (0 : ℝ) ≤ ((widest l.kernel l.kernel.length (4 * l.units) : ℚ) : ℝ) := by exact_mod_cast widest_nonneg _ _ _
  have hυ : (0 : ℝ) ≤ ((widest l.recurrent l.units (4 * l.units) : ℚ) : ℝ) := by exact_mod_cast widest_nonneg _ _ _
  obtain ⟨h1, h2⟩ := drift_nonneg hη hd hκ hυ t
  exact ⟨h1, h2, add_nonneg (mul_nonneg hκ hd) (mul_nonneg hυ h1)⟩

/-- Everything in a step is off by less than the margin. -/
theorem step_close {ext : Ext} {η : ℝ} (hext : ExtClose ext η) {l : KLSTM} {x : List (List ℚ)} {y : List (List ℝ)}
    {d : ℝ} (hd : 0 ≤ d) (hx : ∀ t f, |(((x.getD t []).getD f 0 : ℚ) : ℝ) - (y.getD t []).getD f 0| ≤ d) (t : ℕ) {u : ℕ}
    (hu : u < l.units) :
    (∀ g < 4, |((lstmSum ext l x t g u : ℚ) : ℝ) - realSum l y t g u| ≤ stepMargin η d l t) ∧
    (∀ g < 4, |((ext.sigmoid (lstmSum ext l x t g u) : ℚ) : ℝ) - Real.sigmoid (realSum l y t g u)| ≤ stepMargin η d l t) ∧
    (∀ g < 4, |((ext.tanh (lstmSum ext l x t g u) : ℚ) : ℝ) - Real.tanh (realSum l y t g u)| ≤ stepMargin η d l t) ∧
    |((lstmState ext l x (t + 1)).2 u : ℝ) - (realState l y (t + 1)).2 u| ≤ stepMargin η d l t ∧
    |((ext.tanh ((lstmState ext l x (t + 1)).2 u) : ℚ) : ℝ) - Real.tanh ((realState l y (t + 1)).2 u)| ≤ stepMargin η d l t ∧
    |((lstmState ext l x (t + 1)).1 u : ℝ) - (realState l y (t + 1)).1 u| ≤ stepMargin η d l t := by
  have hη : 0 ≤ η := (abs_nonneg _).trans (hext.sigmoid 0)
  obtain ⟨-, -, n3⟩ := layer_nonneg hη hd l t
  obtain ⟨n1, n2, -⟩ := layer_nonneg hη hd l (t + 1)
  have hG : ∀ g < 4, |((lstmSum ext l x t g u : ℚ) : ℝ) - realSum l y t g u| ≤ gateDrift η d l t := fun g hg =>
    gate_close hd (hx t) (layer_nonneg hη hd l t).1 (fun u hu => (state_close hext hd hx t u hu).1) hg hu
  obtain ⟨s1, s2, -⟩ := state_close hext hd hx (t + 1) u hu
  change |((lstmState ext l x (t + 1)).2 u : ℝ) - (realState l y (t + 1)).2 u| ≤ cellDrift η d l (t + 1) at s2
  have s3 := tanh_close hext s2
  unfold stepMargin
  refine ⟨fun g hg => (hG g hg).trans (by linarith), fun g hg => (sig_close hext (hG g hg)).trans (by linarith),
    fun g hg => (tanh_close hext (hG g hg)).trans (by linarith), s2.trans (by linarith), s3.trans (by linarith), s1.trans (by linarith)⟩

theorem in_range {ext : Ext} {η : ℝ} (hext : ExtClose ext η) {l : KLSTM} {L : LSTM} {b : LstmBudget} {x : List (List ℚ)}
    {y : List (List ℝ)} {d : ℝ} (hd : 0 ≤ d) (hx : ∀ t f, |(((x.getD t []).getD f 0 : ℚ) : ℝ) - (y.getD t []).getD f 0| ≤ d) {T : ℕ}
    (h : RealInRange η d l L b y T) : LstmInRange ext l L b x T where
  sumI t ht u hu := covered_of_real (h.sumI t ht u hu) ((step_close hext hd hx t hu).1 0 (by omega))
  sumF t ht u hu := covered_of_real (h.sumF t ht u hu) ((step_close hext hd hx t hu).1 1 (by omega))
  sumG t ht u hu := covered_of_real (h.sumG t ht u hu) ((step_close hext hd hx t hu).1 2 (by omega))
  sumO t ht u hu := covered_of_real (h.sumO t ht u hu) ((step_close hext hd hx t hu).1 3 (by omega))
  outI t ht u hu := covered_of_real (h.outI t ht u hu) ((step_close hext hd hx t hu).2.1 0 (by omega))
  outF t ht u hu := covered_of_real (h.outF t ht u hu) ((step_close hext hd hx t hu).2.1 1 (by omega))
  outG t ht u hu := covered_of_real (h.outG t ht u hu) ((step_close hext hd hx t hu).2.2.1 2 (by omega))
  outO t ht u hu := covered_of_real (h.outO t ht u hu) ((step_close hext hd hx t hu).2.1 3 (by omega))
  cell t ht u hu := covered_of_real (h.cell t ht u hu) (step_close hext hd hx t hu).2.2.2.1
  squashed t ht u hu := covered_of_real (h.squashed t ht u hu) (step_close hext hd hx t hu).2.2.2.2.1
  hidden t ht u hu := covered_of_real (h.hidden t ht u hu) (step_close hext hd hx t hu).2.2.2.2.2
  forget t ht u hu := by
    have h1 := h.forget t ht u hu
    have h2 := (step_close hext hd hx t hu).2.1 1 (by omega)
    have h3 := Real.sigmoid_pos (realSum l y t 1 u)
    obtain ⟨k1, k2⟩ := abs_le.mp h2
    have : |((ext.sigmoid (lstmSum ext l x t 1 u) : ℚ) : ℝ)| ≤ b.forget := by rw [abs_le]; constructor <;> linarith
    exact_mod_cast this

theorem rec_range {ext : Ext} {η : ℝ} (hext : ExtClose ext η) (rs : List RecLayer) {x : List (List ℚ)}
    {y : List (List ℝ)} (hlen : y.length = x.length) {d : ℝ} (hd : 0 ≤ d)
    (hx : ∀ t f, |(((x.getD t []).getD f 0 : ℚ) : ℝ) - (y.getD t []).getD f 0| ≤ d) {e : ℚ}
    (h : recRealRange η d e rs y) : recInRange ext e rs x := by
  induction rs generalizing x y d e with
  | nil => trivial
  | cons r rs ih =>
    obtain ⟨h1, h2, e', h3, h4⟩ := h
    rw [hlen] at h2 h3 h4
    refine ⟨h1, in_range hext hd hx h2, e', h3, ih (by simp [realHidden, hiddenSeq, hlen]) (foldr_maxR_nonneg _) ?_ h4⟩
    exact hidden_close hext hlen hd hx

end RealLstm

open RealLstm in
/-- **C110** (ranges): if the recurrent layers over the real numbers stay in their calibrated ranges by the margins, the layers with
functions off by at most `η` stay in them. -/
theorem C110_ranges (ext : Ext) (η : ℝ) (hext : ExtClose ext η) (e : ℚ) (rs : List RecLayer) (x : List (List ℚ))
    (h : recRealRange η 0 e rs (x.map (fun r => r.map (↑)))) : recInRange ext e rs x :=
  rec_range hext rs (by simp) (le_refl _) (cast_close x) h

/-- **C110**, with the ranges judged on the real model: for every batch of sequences on which the recurrent layers, over the real
numbers, stay in their calibrated ranges. -/
theorem C110_in_range (ext : Ext) (η : ℝ) (hext : ExtClose ext η) (F : Formats) (h1 : ∀ d, Ieee (F.data d))
    (h2 : ∀ d, Ieee (F.weight d)) (h3 : Ieee F.product) (K : FloatKeras) (cfg : Cfg) (X : Arr ℚ) (ls : List KLayer) (n : ℕ)
    (hm : RecurrentModel cfg n ls) (hq : NamesType cfg.quantizeDtype "int" 8) (δ : ℚ) (ha : ActsOk K.act δ ls)
    (hr : TargetsClose η ls)
    (hs : ∀ a, |K.sigmoid a - ext.sigmoid a| ≤ δ) (ht : ∀ a, |K.tanh a - ext.tanh a| ≤ δ)
    (hsl : ∀ a b, |ext.sigmoid a - ext.sigmoid b| ≤ |a - b|) (htl : ∀ a b, |ext.tanh a - ext.tanh b| ≤ |a - b|)
    (hlip : ∀ l, KLayer.dense l ∈ ls → ∀ a b, |target l a - target l b| ≤ |a - b|) (g : List OpJ)
    (h : (Arith.float F K).graph cfg X ls = some g) (hg : FileFactors g) (bs : List LstmBudget)
    (hbs : LstmPlans ext F.product.fl δ ls g bs) :
    ∃ s z rs fs, SeqNetMeans ext (exportJson g) s z rs fs ∧ recFits (s, z) n rs ∧ rs.map (·.l) = lstmLayers ls ∧ rs.map (·.b) = bs ∧
      ExportedFile F.product.fl δ (recLast rs).1 (denseLayers ls) fs ∧
      ∃ N, Fmt.f64.load (exportJson g) = some N ∧
        ∀ (B : List (List (List ℚ))) (T : ℕ), B ≠ [] → 0 < T →
          (∀ x ∈ B, x.length = T ∧ (∀ r ∈ x, r.length = n) ∧
            ∃ e, (∀ r ∈ x, ∀ v ∈ inputBound s z r, v ≤ e) ∧ recRealRange η 0 e rs (x.map (fun r => r.map (↑)))) →
          ∃ Y rec, Fmt.f64.infer ext N (.flt (.cube B)) = some (.flt (.mat Y), rec) ∧
            List.Forall₂ (fun (y : List ℚ) (x : List (List ℚ)) => WithinReal y (realSeqForward ls (x.map (fun r => r.map (↑))))
              (List.zipWith (· + ·) ((List.zipWith (· + ·)
                (outputBound (fileExact fs (recExact ext rs x)) (fileBound fs (recExact ext rs x) (recBound T rs)))
                (drift F.product.fl fs (denseLayers ls) (recExact ext rs x) ((recExact ext rs x).map (fun _ => 0)))).map (↑))
                (seqDrift η ls x.length 0))) Y B := by
  obtain ⟨s, z, rs, fs, c1, c2, c3, c4, c5, N, n1, n2⟩ :=
    C110_accuracy ext η hext F h1 h2 h3 K cfg X ls n hm hq δ ha hr hs ht hsl htl hlip g h hg bs hbs
  refine ⟨s, z, rs, fs, c1, c2, c3, c4, c5, N, n1, fun B T hB hT hx => n2 B T hB hT (fun x hxB => ?_)⟩
  obtain ⟨i1, i2, e, i3, i4⟩ := hx x hxB
  exact ⟨i1, i2, e, i3, C110_ranges ext η hext e rs x i4⟩

namespace C110RangeCase

/-- One unit, all weights 1/4, and codes with step 1 and zero point 0 everywhere. -/
def l : KLSTM := ⟨"r", 1, [[1 / 4, 1 / 4, 1 / 4, 1 / 4]], [[1 / 4, 1 / 4, 1 / 4, 1 / 4]], [0, 0, 0, 0], false⟩

def L : LSTM :=
  let D := demoLSTM 0
  let z : LSTMGate → LSTMGate := fun g => { g with raZp := 0 }
  { D with gi := z D.gi, gf := z D.gf, gc := z D.gc, go := z D.go, inputGateZp := 0, forgetGateZp := 0, cellGateZp := 0, outputGateZp := 0, cellActZp := 0, hiddenZp := 0 }

def b : LstmBudget :=
  { features := 1, units := 1, amp := 255, sIn := 1, eIn := 1, sK := fun _ => 1, sU := fun _ => 1, sA := fun _ => 1, sT := fun _ => 1
    colK := fun _ => 1, colU := fun _ => 1, sC := 1, sS := 1, sH := 1, zH := 0, lipSigmoid := 1, lipTanh := 1, forget := 2 }

theorem covered {m v : ℝ} (hm : m ≤ 20) (hv : |v| ≤ 100) : RealCovered 0 1 m v := by
  obtain ⟨h1, h2⟩ := abs_le.mp hv
  have e1 : real 0 1 (-128) = -128 := by decide +kernel
  have e2 : real 0 1 127 = 127 := by decide +kernel
  refine ⟨one_pos, ?_, ?_⟩ <;> (try rw [e1]) <;> (try rw [e2])
  · push_cast; linarith
  · push_cast; linarith

/-- The layer is in range on every sequence of one step, with functions off by at most 1/16. -/
example (ext : Ext) (hext : ExtClose ext (1 / 16)) (v : ℚ) (hv : |v| ≤ 1) : recInRange ext (1 / 2) [⟨l, 0, L, b⟩] [[v]] := by
  refine C110_ranges ext (1 / 16) hext _ _ _ ⟨by simp only [b]; norm_num, ?_, (b.error 0).1 ⊔ (b.error 1).1, ?_, trivial⟩
  · have hv' : |(v : ℝ)| ≤ 1 := by exact_mod_cast hv
    have hm : stepMargin (1 / 16) 0 l 0 ≤ 1 := by
      simp only [stepMargin, gateDrift, cellDrift, layerDrift, lstmDrift]
      norm_num
    have hsum : ∀ g < 4, |realSum l [[(v : ℝ)]] 0 g 0| ≤ 2 := by
      intro g hg
      have hw : ∀ M : List (List ℚ), M = [[1 / 4, 1 / 4, 1 / 4, 1 / 4]] → ((weight M 0 g : ℚ) : ℝ) = 1 / 4 := by
        rintro M rfl
        match g, hg with
        | 0, _ | 1, _ | 2, _ | 3, _ => unfold weight; norm_num
      have hb : ((l.bias.getD g 0 : ℚ) : ℝ) = 0 := by
        match g, hg with
        | 0, _ | 1, _ | 2, _ | 3, _ => simp [l]
      have e : realSum l [[(v : ℝ)]] 0 g 0 = v * (1 / 4) := by
        simp only [realSum, realGateSum, realState, l, List.range_one, List.map_cons, List.map_nil, List.sum_cons, List.sum_nil,
          List.length_cons, List.length_nil, zero_add, List.getD_cons_zero, mul_one, add_zero, zero_mul]
        rw [hw _ rfl]
        have := hb
        simp only [l] at this
        rw [this, add_zero]
      rw [e, abs_mul, abs_of_pos (by norm_num : (0 : ℝ) < 1 / 4)]
      linarith
    have hc : |(realState l [[(v : ℝ)]] 1).2 0| ≤ 1 := by
      simp only [realState]
      rw [mul_zero, zero_add, abs_mul]
      exact mul_le_one₀ (RealFn.abs_sigmoid_le _) (abs_nonneg _) (RealFn.abs_tanh_le _)
    have hh : |(realState l [[(v : ℝ)]] 1).1 0| ≤ 1 := by
      simp only [realState]
      rw [abs_mul]
      exact mul_le_one₀ (RealFn.abs_sigmoid_le _) (abs_nonneg _) (RealFn.abs_tanh_le _)
    have one : ∀ {t u : ℕ}, t < 1 → u < l.units → t = 0 ∧ u = 0 := fun ht hu => ⟨by omega, by simp only [l] at hu; omega⟩
    constructor <;> intro t ht u hu <;> obtain ⟨rfl, rfl⟩ := one ht hu
    · exact covered (by linarith) ((hsum 0 (by omega)).trans (by norm_num))
    · exact covered (by linarith) ((hsum 1 (by omega)).trans (by norm_num))
    · exact covered (by linarith) ((hsum 2 (by omega)).trans (by norm_num))
    · exact covered (by linarith) ((hsum 3 (by omega)).trans (by norm_num))
    · exact covered (by linarith) ((RealFn.abs_sigmoid_le _).trans (by norm_num))
    · exact covered (by linarith) ((RealFn.abs_sigmoid_le _).trans (by norm_num))
    · exact covered (by linarith) ((RealFn.abs_tanh_le _).trans (by norm_num))
    · exact covered (by linarith) ((RealFn.abs_sigmoid_le _).trans (by norm_num))
    · exact covered (by linarith) (hc.trans (by norm_num))
    · exact covered (by linarith) ((RealFn.abs_tanh_le _).trans (by norm_num))
    · exact covered (by linarith) (hh.trans (by norm_num))
    · have := (abs_le.mp (RealFn.abs_sigmoid_le (realSum l [[(v : ℝ)]] 0 1 0))).2
      have e : ((b.forget : ℚ) : ℝ) = 2 := by simp only [b]; norm_num
      change Real.sigmoid (realSum l [[(v : ℝ)]] 0 1 0) + stepMargin (1 / 16) 0 l 0 ≤ ((b.forget : ℚ) : ℝ)
      rw [e]
      linarith
  · intro t ht
    have : t ≤ 1 := ht
    match t, this with
    | 0, _ => exact le_max_left _ _
    | 1, _ => exact le_max_right _ _

end C110RangeCase

end Verif
