import Verif.Lemmas.LstmAccuracy
import Verif.Props.Accuracy

/-!
# C83: how far a quantized LSTM can drift from the Keras LSTM, over a whole sequence
-/

namespace Verif

open Spec Keras

/-- The integer sequence `xq` stands, with parameters `(zIn, sIn)`, for the float sequence `x` of `T` steps of `n` features
up to `b.eIn`, and no code is more than `b.amp` away from the zero point. -/
structure Spec.SequenceClose (b : LstmBudget) (zIn : ℤ) (T n : ℕ) (x : List (List ℚ)) (xq : List (List ℤ)) : Prop where
  steps : xq.length = T
  features : ∀ r ∈ xq, r.length = n
  close : ∀ t < T, ∀ f < n, |real zIn b.sIn ((xq.getD t []).getD f 0) - (x.getD t []).getD f 0| ≤ b.eIn
  amp : ∀ t < T, ∀ f < n, |(xq.getD t []).getD f 0 - zIn| ≤ b.amp

namespace LstmAcc

/-- The error of the hidden state the recurrent products use after `t` steps. -/
def recErr (b : LstmBudget) (t : ℕ) : ℚ := if t = 0 then 0 else (b.error t).1 + |b.sH * b.zH|

theorem recErr_nonneg {b : LstmBudget} (hb : b.Ok) (t : ℕ) : 0 ≤ recErr b t := by
  unfold recErr
  split_ifs
  · exact le_rfl
  · have := (error_nonneg hb t).1
    positivity

theorem run {ext : Ext} {l : KLSTM} (hl : LstmShape l) {zIn : ℤ} {L : LSTM} {b : LstmBudget}
    (hI : 0 < b.sIn)
    (hr : LstmCodes ext l b zIn L)
    (hb : b.Holds ext l) {L' : LSTM} (hn : LstmNear b.eps L L') (hz : b.zH = L.hiddenZp) {xf : List (List ℚ)} {T : ℕ} (hin : LstmInRange ext l L b xf T) :
    ∀ (xs : List (List ℤ)) (t : ℕ) (h c : List ℤ), t + xs.length ≤ T → h.length = l.units → c.length = l.units →
      (∀ i < xs.length, (xs.getD i []).length = l.kernel.length ∧ ∀ f < l.kernel.length,
        |(xs.getD i []).getD f 0| ≤ b.amp ∧
        |b.sIn * ((xs.getD i []).getD f 0 : ℤ) - (xf.getD (t + i) []).getD f 0| ≤ b.eIn) →
      (∀ k < l.units, Code (-128) 127 (h.getD k 0) ∧
        |b.sH * (h.getD k 0 : ℤ) - (lstmState ext l xf t).1 k| ≤ recErr b t) →
      (∀ k < l.units, Code (-128) 127 (c.getD k 0) ∧
        |real 0 b.sC (c.getD k 0) - (lstmState ext l xf t).2 k| ≤ (b.error t).2) →
      ∃ r, L'.rowRun xs h c = some r ∧ r.length = xs.length ∧ ∀ i < xs.length, (r.getD i ([], [])).1.length = l.units ∧
        ∀ u < l.units,
        Code (-128) 127 ((r.getD i ([], [])).1.getD u 0) ∧
        |real L.hiddenZp b.sH ((r.getD i ([], [])).1.getD u 0) - (lstmState ext l xf (t + i + 1)).1 u| ≤
          (b.error (t + i + 1)).1 := by
  have hok := budget_ok hl hI hr hb
  intro xs
  induction xs with
  | nil => intro t h c _ _ _ _ _ _; exact ⟨[], rfl, rfl, by simp⟩
  | cons x xs ih =>
    intro t h c ht hhl hcl hx hh hc
    simp only [List.length_cons] at ht hx
    have hx0 := hx 0 (by omega)
    simp only [List.getD_cons_zero, Nat.add_zero] at hx0
    obtain ⟨r, hrow, l1, l2, hu⟩ := step hl hI hr hb hn hin (t := t) (by omega) (recErr_nonneg hok t) hx0.1 hhl hcl hx0.2 hh hc
    have herr : b.error (t + 1) = (b.hiddenError (recErr b t) (b.cellError (recErr b t) (b.error t).2),
        b.cellError (recErr b t) (b.error t).2) := rfl
    obtain ⟨rest, hrest, hlen, hall⟩ := ih (t + 1) r.1 r.2 (by omega) l1 l2
      (fun i hi => by
        have := hx (i + 1) (by omega)
        rw [List.getD_cons_succ, show t + (i + 1) = t + 1 + i by omega] at this
        exact this)
      (fun k hk => by
        obtain ⟨q1, q2, q3, q4⟩ := hu k hk
        refine ⟨q1, ?_⟩
        rw [recErr, if_neg (by omega), herr]
        have e : b.sH * (r.1.getD k 0 : ℤ) - (lstmState ext l xf (t + 1)).1 k =
            (real L.hiddenZp b.sH (r.1.getD k 0) - (lstmState ext l xf (t + 1)).1 k) + b.sH * b.zH := by
          unfold real; rw [hz]; ring
        rw [e]
        exact le_trans (abs_add_le _ _) (add_le_add q4 le_rfl))
      (fun k hk => by
        obtain ⟨q1, q2, q3, q4⟩ := hu k hk
        rw [herr]
        exact ⟨q2, q3⟩)
    refine ⟨r :: rest, ?_, by simp [hlen], ?_⟩
    · simp only [LSTM.rowRun, hrow, hrest, Option.bind_eq_bind, Option.bind_some]
    · intro i hi
      cases i with
      | zero =>
        simp only [List.getD_cons_zero, Nat.add_zero]
        refine ⟨l1, fun u hu' => ?_⟩
        obtain ⟨q1, q2, q3, q4⟩ := hu u hu'
        rw [herr]
        exact ⟨q1, q4⟩
      | succ i =>
        rw [List.getD_cons_succ, show t + (i + 1) + 1 = t + 1 + i + 1 by omega]
        exact hall i (by simpa using hi)

/-- The hidden states of one sample. -/
theorem sample {ext : Ext} {l : KLSTM} (hl : LstmShape l) {zIn : ℤ} {L : LSTM} {b : LstmBudget}
    (hI : 0 < b.sIn)
    (hr : LstmCodes ext l b zIn L)
    (hb : b.Holds ext l) {L' : LSTM} (hn : LstmNear b.eps L L') (hz : b.zH = L.hiddenZp) {xf : List (List ℚ)} {T : ℕ} (hin : LstmInRange ext l L b xf T)
    {xq : List (List ℤ)} (hx : SequenceClose b zIn T l.kernel.length xf xq) :
    ∃ ys, L'.hid xq = some ys ∧ ys.length = T ∧ ∀ t < T, (ys.getD t []).length = l.units ∧ ∀ u < l.units,
      Code (-128) 127 ((ys.getD t []).getD u 0) ∧
      |real L.hiddenZp b.sH ((ys.getD t []).getD u 0) - (lstmState ext l xf (t + 1)).1 u| ≤ (b.error (t + 1)).1 := by
  have zero : ∀ k, (List.replicate L'.nCells (0 : ℤ)).getD k 0 = 0 := by
    intro k
    rw [List.getD_eq_getElem?_getD, List.getElem?_replicate]
    split_ifs <;> rfl
  obtain ⟨r, h1, h2, h3⟩ := run hl hI hr hb hn hz hin (xq.map (fun r => r.map (fun v => v - L'.inputZp))) 0
    (List.replicate L'.nCells 0) (List.replicate L'.nCells 0) (by simp [hx.steps]) (by simp [hn.cells, hr.cells]) (by simp [hn.cells, hr.cells])
    (by
      intro i hi
      rw [List.length_map] at hi
      have hT : i < T := by rw [← hx.steps]; exact hi
      have e : (xq.map (fun r => r.map (fun v => v - L'.inputZp))).getD i [] = (xq.getD i []).map (fun v => v - zIn) := by
        rw [List.getD_eq_getElem?_getD, List.getD_eq_getElem?_getD, List.getElem?_map, List.getElem?_eq_getElem hi]
        simp [hn.zps.1, hr.inputZp]
      have hlen : (xq.getD i []).length = l.kernel.length := by
        rw [List.getD_eq_getElem?_getD, List.getElem?_eq_getElem hi]
        exact hx.features _ (List.getElem_mem hi)
      rw [e]
      refine ⟨by rw [List.length_map]; exact hlen, fun f hf => ?_⟩
      have e2 : ((xq.getD i []).map (fun v => v - zIn)).getD f 0 = (xq.getD i []).getD f 0 - zIn := by
        generalize xq.getD i [] = row at hlen
        rw [List.getD_eq_getElem?_getD, List.getD_eq_getElem?_getD, List.getElem?_map,
          List.getElem?_eq_getElem (by rw [hlen]; exact hf)]
        rfl
      rw [e2, Nat.zero_add]
      refine ⟨hx.amp i hT f hf, ?_⟩
      have := hx.close i hT f hf
      unfold real at this
      push_cast
      exact this)
    (by
      intro k hk
      rw [zero]
      refine ⟨by unfold Code; omega, ?_⟩
      simp [recErr, lstmState])
    (by
      intro k hk
      rw [zero]
      refine ⟨by unfold Code; omega, ?_⟩
      simp [real, lstmState, LstmBudget.error])
  rw [List.length_map, hx.steps] at h2 h3
  refine ⟨r.map Prod.fst, ?_, by simp [h2], ?_⟩
  · unfold LSTM.hid; rw [h1]; rfl
  · intro t ht
    have e : (r.map Prod.fst).getD t [] = (r.getD t ([], [])).1 := by
      rw [List.getD_eq_getElem?_getD, List.getD_eq_getElem?_getD, List.getElem?_map,
        List.getElem?_eq_getElem (by rw [h2]; exact ht)]
      rfl
    rw [e]
    have := h3 t ht
    rw [Nat.zero_add] at this
    exact this

/-- The same for a layer whose float operations have the relative error `b.eps`. -/
theorem sequence {ext : Ext} {l : KLSTM} (hl : LstmShape l) {zIn : ℤ} {L : LSTM} {b : LstmBudget}
    (hI : 0 < b.sIn)
    (hr : LstmCodes ext l b zIn L)
    (hb : b.Holds ext l) {L' : LSTM} (hn : LstmNear b.eps L L') (hz : b.zH = L.hiddenZp) (T : ℕ) (hT : 0 < T) (X : List (List (List ℚ)))
    (Q : List (List (List ℤ))) (hne : X ≠ []) (hlen : Q.length = X.length)
    (hX : ∀ (i : ℕ) x q, X[i]? = some x → Q[i]? = some q →
      SequenceClose b zIn T l.kernel.length x q ∧ LstmInRange ext l L b x T) :
    ∃ out, L'.infer (.cube Q) = some out ∧
      if l.returnSequences then
        ∃ Y, out = .cube Y ∧ Y.length = X.length ∧ ∀ (i : ℕ) x y, X[i]? = some x → Y[i]? = some y →
          y.length = T ∧ ∀ t < T, (y.getD t []).length = l.units ∧ ∀ u < l.units,
            Code (-128) 127 ((y.getD t []).getD u 0) ∧
            |real L.hiddenZp b.sH ((y.getD t []).getD u 0) - (lstmState ext l x (t + 1)).1 u| ≤ (b.error (t + 1)).1
      else
        ∃ Y, out = .mat Y ∧ Y.length = X.length ∧ ∀ (i : ℕ) x y, X[i]? = some x → Y[i]? = some y →
          y.length = l.units ∧ ∀ u < l.units, Code (-128) 127 (y.getD u 0) ∧
            |real L.hiddenZp b.sH (y.getD u 0) - (lstmState ext l x T).1 u| ≤ (b.error T).1 := by
  obtain ⟨hsh, htab⟩ := near_shape hn (reads_shape hl hr)
  have hpair : ∀ q ∈ Q, ∃ (i : ℕ) (x : List (List ℚ)), X[i]? = some x ∧ Q[i]? = some q := by
    intro q hq
    obtain ⟨i, hi, rfl⟩ := List.mem_iff_getElem.mp hq
    exact ⟨i, X[i]'(by omega), List.getElem?_eq_getElem (by omega), List.getElem?_eq_getElem hi⟩
  have hgood : L'.GoodInput Q T := by
    refine ⟨?_, hT, ?_⟩
    · intro h
      rw [h] at hlen
      exact hne (List.length_eq_zero_iff.mp hlen.symm)
    · intro q hq
      obtain ⟨i, x, h1, h2⟩ := hpair q hq
      have := (hX i x q h1 h2).1
      exact ⟨this.steps, fun r hr' => by rw [hn.features, hr.features]; exact this.features r hr'⟩
  have hs : ∀ (i : ℕ) x q, X[i]? = some x → Q[i]? = some q → ∃ ys, L'.hid q = some ys ∧ ys.length = T ∧
      ∀ t < T, (ys.getD t []).length = l.units ∧ ∀ u < l.units, Code (-128) 127 ((ys.getD t []).getD u 0) ∧
      |real L.hiddenZp b.sH ((ys.getD t []).getD u 0) - (lstmState ext l x (t + 1)).1 u| ≤ (b.error (t + 1)).1 := by
    intro i x q h1 h2
    obtain ⟨c1, c2⟩ := hX i x q h1 h2
    exact sample hl hI hr hb hn hz c2 c1
  obtain ⟨ys, hys⟩ : ∃ ys, Q.mapM L'.hid = some ys := by
    refine Option.ne_none_iff_exists'.mp (fun hc => ?_)
    obtain ⟨q, hq, hn⟩ := (mapM_none_iff _ _).mp hc
    obtain ⟨i, x, h1, h2⟩ := hpair q hq
    obtain ⟨y, hy, -⟩ := hs i x q h1 h2
    rw [hy] at hn; cases hn
  obtain ⟨m1, m2⟩ := (mapM_some_iff _ _ _).mp hys
  have hY : ∀ (i : ℕ) x y, X[i]? = some x → ys[i]? = some y → y.length = T ∧
      ∀ t < T, (y.getD t []).length = l.units ∧ ∀ u < l.units, Code (-128) 127 ((y.getD t []).getD u 0) ∧
      |real L.hiddenZp b.sH ((y.getD t []).getD u 0) - (lstmState ext l x (t + 1)).1 u| ≤ (b.error (t + 1)).1 := by
    intro i x y h1 h2
    have hi : i < Q.length := by rw [m1]; exact (List.getElem?_eq_some_iff.mp h2).1
    obtain ⟨y', e1, e2, e3⟩ := hs i x Q[i] h1 (List.getElem?_eq_getElem hi)
    have := m2 i Q[i] y (List.getElem?_eq_getElem hi) h2
    rw [e1, Option.some.injEq] at this
    subst this
    exact ⟨e2, e3⟩
  refine ⟨_, by rw [LSTM.infer_eq L' hsh Q T hgood, hys]; rfl, ?_⟩
  rw [hn.sequences, hr.sequences]
  cases l.returnSequences with
  | true =>
    rw [if_pos rfl]
    exact ⟨ys, rfl, by omega, hY⟩
  | false =>
    rw [if_neg (by simp)]
    refine ⟨ys.map (fun y => y.getLastD []), rfl, by rw [List.length_map]; omega, ?_⟩
    intro i x y h1 h2
    rw [List.getElem?_map, Option.map_eq_some_iff] at h2
    obtain ⟨y', h2, rfl⟩ := h2
    obtain ⟨e1, e2⟩ := hY i x y' h1 h2
    have e : y'.getLastD [] = y'.getD (T - 1) [] := by
      rw [List.getD_eq_getElem?_getD, ← e1, ← List.getLast?_eq_getElem?, List.getLastD_eq_getLast?]
    have := e2 (T - 1) (by omega)
    rw [Nat.sub_add_cancel hT] at this
    rw [e]
    exact this

end LstmAcc

/-- C83.  A loaded LSTM layer answers every batch of integer sequences that stand for float sequences on which the float
layer stays in the calibrated ranges; the hidden states it returns (of every step, or of the last one) stand for the
hidden states of the Keras layer up to the accumulated error of that step. -/
theorem C83_sequence {ext : Ext} {l : KLSTM} (hl : LstmShape l) {st : KLSTM.Steps} {zIn : ℤ} {L : LSTM} {b : LstmBudget}
    (hI : 0 < b.sIn)
    (hr : LstmReads ext l st b.sIn zIn L b.sK b.sU b.sA b.sH b.sC (b.sT 0) (b.sT 1) (b.sT 2) (b.sT 3) b.sS)
    (hb : b.Holds ext l) (hz : b.zH = L.hiddenZp) (T : ℕ) (hT : 0 < T) (X : List (List (List ℚ)))
    (Q : List (List (List ℤ))) (hne : X ≠ []) (hlen : Q.length = X.length)
    (hX : ∀ (i : ℕ) x q, X[i]? = some x → Q[i]? = some q →
      SequenceClose b zIn T l.kernel.length x q ∧ LstmInRange ext l L b x T) :
    ∃ out, L.infer (.cube Q) = some out ∧
      if l.returnSequences then
        ∃ Y, out = .cube Y ∧ Y.length = X.length ∧ ∀ (i : ℕ) x y, X[i]? = some x → Y[i]? = some y →
          y.length = T ∧ ∀ t < T, (y.getD t []).length = l.units ∧ ∀ u < l.units,
            Code (-128) 127 ((y.getD t []).getD u 0) ∧
            |real L.hiddenZp b.sH ((y.getD t []).getD u 0) - (lstmState ext l x (t + 1)).1 u| ≤ (b.error (t + 1)).1
      else
        ∃ Y, out = .mat Y ∧ Y.length = X.length ∧ ∀ (i : ℕ) x y, X[i]? = some x → Y[i]? = some y →
          y.length = l.units ∧ ∀ u < l.units, Code (-128) 127 (y.getD u 0) ∧
            |real L.hiddenZp b.sH (y.getD u 0) - (lstmState ext l x T).1 u| ≤ (b.error T).1 :=
  LstmAcc.sequence hl hI (LstmAcc.reads_codes hl hI hr hb) hb (LstmAcc.near_refl hb.eps.1 L hr.exact) hz T hT X Q hne hlen hX

/-- C83 (no blow-up).  If some pair of errors `(H, C)` is not enlarged by one more step, the errors never exceed it, however
long the sequence. -/
theorem C83_uniform {b : LstmBudget} (hb : b.Ok) {H C : ℚ} (hH : 0 ≤ H) (hC : 0 ≤ C)
    (hc : b.cellError (H + |b.sH * b.zH|) C ≤ C)
    (hh : b.hiddenError (H + |b.sH * b.zH|) (b.cellError (H + |b.sH * b.zH|) C) ≤ H) (t : ℕ) :
    (b.error t).1 ≤ H ∧ (b.error t).2 ≤ C := by
  have sum_mono : ∀ {g : ℕ}, g < 4 → ∀ {x y : ℚ}, x ≤ y → b.sumError g x ≤ b.sumError g y := by
    intro g hg x y hxy
    have := mul_le_mul_of_nonneg_right hxy (hb.colU g hg)
    unfold LstmBudget.sumError
    linarith
  have gate_mono : ∀ {g : ℕ}, g < 4 → ∀ {lip : ℚ}, 0 ≤ lip → ∀ {x y : ℚ}, x ≤ y →
      b.gateError g lip x ≤ b.gateError g lip y := by
    intro g hg lip hlip x y hxy
    have := mul_le_mul_of_nonneg_left (sum_mono hg hxy) hlip
    unfold LstmBudget.gateError
    linarith
  have cell_mono : ∀ {x y p q : ℚ}, 0 ≤ x → x ≤ y → p ≤ q → b.cellError x p ≤ b.cellError y q := by
    intro x y p q hx hxy hpq
    have hy := le_trans hx hxy
    have g0 := gate_mono (show 0 < 4 by omega) hb.lipSigmoid hxy
    have g1 := gate_mono (show 1 < 4 by omega) hb.lipSigmoid hxy
    have g2 := gate_mono (show 2 < 4 by omega) hb.lipTanh hxy
    have n2 := LstmAcc.gateError_nonneg hb (show 2 < 4 by omega) hb.lipTanh hx
    have n0 := LstmAcc.gateError_nonneg hb (show 0 < 4 by omega) hb.lipSigmoid hy
    have p1 := mul_le_mul_of_nonneg_left hpq hb.forget
    have p2 := mul_le_mul_of_nonneg_right g1 (show 0 ≤ 128 * b.sC by have := hb.sC; positivity)
    have p3 := mul_le_mul g0 g2 n2 n0
    have p4 := mul_le_mul (show 1 + b.gateError 0 b.lipSigmoid x ≤ 1 + b.gateError 0 b.lipSigmoid y by linarith)
      (show 1 + b.gateError 2 b.lipTanh x ≤ 1 + b.gateError 2 b.lipTanh y by linarith) (by linarith) (by linarith)
    have p5 := mul_le_mul_of_nonneg_right (show 1 + b.gateError 1 b.lipSigmoid x ≤ 1 + b.gateError 1 b.lipSigmoid y by
      linarith) (show 0 ≤ 128 * b.sC by have := hb.sC; positivity)
    have p6 := mul_le_mul_of_nonneg_left (add_le_add (add_le_add p5 p4) (le_refl b.sC)) hb.eps.1
    unfold LstmBudget.cellError
    linarith
  have hidden_mono : ∀ {x y p q : ℚ}, 0 ≤ x → x ≤ y → 0 ≤ p → p ≤ q → b.hiddenError x p ≤ b.hiddenError y q := by
    intro x y p q hx hxy hp hpq
    have hy := le_trans hx hxy
    have g3 := gate_mono (show 3 < 4 by omega) hb.lipSigmoid hxy
    have n3 := LstmAcc.gateError_nonneg hb (show 3 < 4 by omega) hb.lipSigmoid hy
    have p1 := mul_le_mul_of_nonneg_left hpq hb.lipTanh
    have p0 : 0 ≤ b.squashError p := by
      unfold LstmBudget.squashError
      have := hb.lipTanh; have := hb.sS; have := hb.tab; positivity
    have ps : b.squashError p ≤ b.squashError q := by unfold LstmBudget.squashError; linarith
    have p3 := mul_le_mul g3 ps p0 n3
    have p4 := mul_le_mul (show 1 + b.gateError 3 b.lipSigmoid x ≤ 1 + b.gateError 3 b.lipSigmoid y by linarith)
      (show 1 + b.squashError p ≤ 1 + b.squashError q by linarith) (by linarith) (by linarith)
    have p5 := mul_le_mul_of_nonneg_left (add_le_add p4 (le_refl (129 * b.sH))) hb.eps.1
    unfold LstmBudget.hiddenError
    linarith
  induction t with
  | zero => exact ⟨hH, hC⟩
  | succ t ih =>
    have hle : LstmAcc.recErr b t ≤ H + |b.sH * b.zH| := by
      unfold LstmAcc.recErr
      have := abs_nonneg (b.sH * b.zH)
      split_ifs <;> linarith [ih.1]
    have h0 := LstmAcc.recErr_nonneg hb t
    have c1 := cell_mono h0 hle ih.2
    refine ⟨?_, le_trans c1 hc⟩
    exact le_trans (hidden_mono h0 hle (LstmAcc.cellError_nonneg hb h0 (LstmAcc.error_nonneg hb t).2) c1) hh

/-- The parameters at which the engine's answer for one sample is compared with the float layer's. -/
def Spec.HiddenClose (ext : Ext) (l : KLSTM) (b : LstmBudget) (T : ℕ) (X : List (List (List ℚ))) (out : Arr ℚ) : Prop :=
  if l.returnSequences then
    ∃ Y, out = .cube Y ∧ Y.length = X.length ∧ ∀ (i : ℕ) x y, X[i]? = some x → Y[i]? = some y →
      y.length = T ∧ ∀ t < T, (y.getD t []).length = l.units ∧ ∀ u < l.units,
        |(y.getD t []).getD u 0 - (lstmState ext l x (t + 1)).1 u| ≤ (b.error (t + 1)).1
  else
    ∃ Y, out = .mat Y ∧ Y.length = X.length ∧ ∀ (i : ℕ) x y, X[i]? = some x → Y[i]? = some y →
      y.length = l.units ∧ ∀ u < l.units, |y.getD u 0 - (lstmState ext l x T).1 u| ≤ (b.error T).1

/-- C83 (calibration data).  On the data the layer was calibrated with, the float layer stays in the calibrated ranges,
provided the samples have at most `units` time steps (or the range of the input gate covers it anyway: that range is
calibrated on the first `units` steps only, C65). -/
theorem C83_calibrated_in_range {ext : Ext} {l : KLSTM} (hl : LstmShape l) {st : KLSTM.Steps} {zIn : ℤ} {L : LSTM}
    {b : LstmBudget}
    (hr : LstmReads ext l st b.sIn zIn L b.sK b.sU b.sA b.sH b.sC (b.sT 0) (b.sT 1) (b.sT 2) (b.sT 3) b.sS)
    (hb : b.Holds ext l) (hφ : 1 ≤ b.forget) {X : List (List (List ℚ))} {T : ℕ} (hX : Batch X T l.kernel.length)
    (hst : l.call ext X = some st)
    (hu : T ≤ l.units ∨ ∀ x ∈ X, ∀ t < T, ∀ u < l.units,
      Covered L.inputGateZp (b.sT 0) (ext.sigmoid (lstmSum ext l x t 0 u))) (x : List (List ℚ)) (hx : x ∈ X) :
    LstmInRange ext l L b x T := by
  rw [call_eq ext hl hX, Option.some.injEq] at hst
  have hmem : ∀ t < T, (rowsY ext l X t, rowsC ext l X (t + 1), rowsH ext l X (t + 1)) ∈ st := by
    intro t ht
    rw [← hst]
    exact List.mem_map.mpr ⟨t, List.mem_range.mpr ht, rfl⟩
  obtain ⟨row, hrow⟩ : ∃ row : ℕ → List ℚ, row = fun t =>
      (List.range (4 * l.units)).map (gateSum l (x.getD t []) (lstmState ext l x t).1) := ⟨_, rfl⟩
  have hY : ∀ t, row t ∈ rowsY ext l X t := by
    intro t
    rw [hrow]
    exact List.mem_map.mpr ⟨x, hx, rfl⟩
  have hget : ∀ t, ∀ g < 4, ∀ u < l.units, (row t)[g * l.units + u]? = some (lstmSum ext l x t g u) := by
    intro t g hg u hu
    have : g * l.units + u < 4 * l.units := by nlinarith
    rw [hrow]
    simp [this, lstmSum]
  have hC : ∀ t < T, ∀ u < l.units, ∃ r ∈ rowsC ext l X (t + 1), (lstmState ext l x (t + 1)).2 u ∈ r := by
    intro t ht u hu
    exact ⟨_, List.mem_map.mpr ⟨x, hx, rfl⟩, List.mem_map.mpr ⟨u, List.mem_range.mpr hu, rfl⟩⟩
  have hH : ∀ t < T, ∀ u < l.units, ∃ r ∈ rowsH ext l X (t + 1), (lstmState ext l x (t + 1)).1 u ∈ r := by
    intro t ht u hu
    exact ⟨_, List.mem_map.mpr ⟨x, hx, rfl⟩, List.mem_map.mpr ⟨u, List.mem_range.mpr hu, rfl⟩⟩
  have hsum : ∀ t < T, rowsY ext l X t ∈ st.map (fun s => s.1) := fun t ht => List.mem_map.mpr ⟨_, hmem t ht, rfl⟩
  constructor
  · intro t ht u hu; exact hr.input.covers _ (hsum t ht) _ (hY t) u _ hu (hget t 0 (by omega) u hu)
  · intro t ht u hu; exact hr.forget.covers _ (hsum t ht) _ (hY t) u _ hu (hget t 1 (by omega) u hu)
  · intro t ht u hu; exact hr.candidate.covers _ (hsum t ht) _ (hY t) u _ hu (hget t 2 (by omega) u hu)
  · intro t ht u hu; exact hr.output.covers _ (hsum t ht) _ (hY t) u _ hu (hget t 3 (by omega) u hu)
  · intro t ht u hu'
    rcases hu with hT | hcov
    · refine hr.coversI (rowsY ext l X t, rowsC ext l X (t + 1), rowsH ext l X (t + 1)) ?_ _ (hY t) u _ hu' ?_
      · have : st.take l.units = st := by
          rw [List.take_of_length_le]
          rw [← hst, List.length_map, List.length_range]; exact hT
        rw [this]
        exact hmem t ht
      · have := hget t 0 (by omega) u hu'
        rwa [Nat.zero_mul, Nat.zero_add] at this
    · exact hcov x hx t ht u hu'
  · intro t ht u hu
    have := hget t 1 (by omega) u hu
    rw [Nat.one_mul] at this
    exact hr.coversF _ (hmem t ht) _ (hY t) u _ hu this
  · intro t ht u hu; exact hr.coversG _ (hmem t ht) _ (hY t) u _ hu (hget t 2 (by omega) u hu)
  · intro t ht u hu; exact hr.coversO _ (hmem t ht) _ (hY t) u _ hu (hget t 3 (by omega) u hu)
  · intro t ht u hu
    obtain ⟨r, h1, h2⟩ := hC t ht u hu
    have := hr.coversC _ (hmem t ht) r h1 _ h2
    rw [hr.cellZp] at this
    exact this
  · intro t ht u hu
    obtain ⟨r, h1, h2⟩ := hC t ht u hu
    exact hr.coversS _ (hmem t ht) r h1 _ h2
  · intro t ht u hu
    obtain ⟨r, h1, h2⟩ := hH t ht u hu
    exact hr.coversH _ (hmem t ht) r h1 _ h2
  · intro t ht u hu
    exact le_trans (hb.sigmoid _) hφ

namespace LstmAcc

theorem reads_congr {ext : Ext} {l : KLSTM} {st : KLSTM.Steps} {op : OpJ} {sIn : ℚ} {zIn : ℤ} {L : LSTM}
    {sK sU sA : ℕ → ℚ} {sH sC sI sF sG sO sS : ℚ} {b : LstmBudget}
    (hs : LstmScales op sIn sK sU sA sH sC sI sF sG sO sS)
    (hr : LstmReads ext l st sIn zIn L sK sU sA sH sC sI sF sG sO sS)
    (hb : LstmScales op b.sIn b.sK b.sU b.sA b.sH b.sC (b.sT 0) (b.sT 1) (b.sT 2) (b.sT 3) b.sS) :
    LstmReads ext l st b.sIn zIn L b.sK b.sU b.sA b.sH b.sC (b.sT 0) (b.sT 1) (b.sT 2) (b.sT 3) b.sS := by
  have eK : ∀ g < 4, b.sK g = sK g := fun g hg => (hb.kernel g hg).symm.trans (hs.kernel g hg)
  have eU : ∀ g < 4, b.sU g = sU g := fun g hg => (hb.recurrent g hg).symm.trans (hs.recurrent g hg)
  have eA : ∀ g < 4, b.sA g = sA g := fun g hg => (hb.sum g hg).symm.trans (hs.sum g hg)
  have eI := hb.input.symm.trans hs.input
  have eH := hb.hidden.symm.trans hs.hidden
  have eC := hb.cell.symm.trans hs.cell
  have e0 := hb.inputGate.symm.trans hs.inputGate
  have e1 := hb.forgetGate.symm.trans hs.forgetGate
  have e2 := hb.candidate.symm.trans hs.candidate
  have e3 := hb.outputGate.symm.trans hs.outputGate
  have eS := hb.squashed.symm.trans hs.squashed
  have i := hr.input
  have f := hr.forget
  have c := hr.candidate
  have o := hr.output
  rw [← eK 0 (by omega), ← eU 0 (by omega), ← eA 0 (by omega)] at i
  rw [← eK 1 (by omega), ← eU 1 (by omega), ← eA 1 (by omega)] at f
  rw [← eK 2 (by omega), ← eU 2 (by omega), ← eA 2 (by omega)] at c
  rw [← eK 3 (by omega), ← eU 3 (by omega), ← eA 3 (by omega)] at o
  rw [eI, eH, eC, e0, e1, e2, e3, eS]
  exact { hr with input := i, forget := f, candidate := c, output := o }

/-- The loaded network of a model that is one LSTM layer. -/
theorem network {ext : Ext} {cfg : Cfg} {X : Arr ℚ} {l : KLSTM} (hl : LstmShape l) {w : World} {rs : List QRes}
    (h : quantizeModel ext cfg X [.lstm l] = some (w, rs)) (hin : NamesType cfg.quantizeDtype "int" 8) {net : SeqNet}
    (hnet : asSequential w rs = some net) :
    ∃ (op : Op) (L : LSTM) (zIn : ℤ) (M : List (List (List ℚ))) (st : KLSTM.Steps), (networkOps rs)[1]? = some op ∧
      LSTM.fromModel (opJson w op) = some L ∧ X = .cube M ∧ l.call ext M = some st ∧ 0 < inScale (opJson w op) 0 ∧
      Code (-128) 127 zIn ∧ Code (-128) 127 L.hiddenZp ∧ (∀ v ∈ X.flat, Covered zIn (inScale (opJson w op) 0) v) ∧
      net.hasQuantLayers = true ∧
      net.layers = [.quantize (intDtype 7) zIn (inScale (opJson w op) 0), .lstm L,
        .dequantize L.hiddenZp (outScale (opJson w op))] ∧
      (opJson w op).opType = "LSTM" ∧ (∀ z ∈ [L.gi.raZp, L.gf.raZp, L.gc.raZp, L.go.raZp], Code (-128) 127 z) ∧
      (∃ o i : NodeJ, (networkJson w rs).graph =
          [⟨"QUANTIZE", "QUANTIZE", [], [o], none⟩, opJson w op, ⟨"DEQUANTIZE", "DEQUANTIZE", [i], [], none⟩] ∧
        o.scale = some (inScale (opJson w op) 0) ∧ o.zeroPoint = some zIn ∧
        (∃ t, o.tensor = some t ∧ t.dtype = (intDtype 7).repr) ∧
        i.scale = some (outScale (opJson w op)) ∧ i.zeroPoint = some L.hiddenZp ∧
        ∃ t, i.tensor = some t ∧ t.dtype = (intDtype 7).repr) ∧
      ∃ sK sU sA sH sC sI sF sG sO sS,
        LstmScales (opJson w op) (inScale (opJson w op) 0) sK sU sA sH sC sI sF sG sO sS ∧
        LstmReads ext l st (inScale (opJson w op) 0) zIn L sK sU sA sH sC sI sF sG sO sS := by
  unfold quantizeModel at h
  simp only [Option.bind_eq_bind, Option.bind_eq_some_iff, Option.some.injEq, Prod.mk.injEq] at h
  obtain ⟨⟨w0, i0⟩, hi, ⟨w', last, rs'⟩, hls, d, hd, rfl, rfl⟩ := h
  unfold inputQuantize at hi
  simp only [Option.bind_eq_bind, Option.bind_eq_some_iff, Option.some.injEq, Prod.mk.injEq] at hi
  obtain ⟨q, hq, p, hp, rfl, rfl⟩ := hi
  have hq' := hq.symm.trans (Accuracy.int8_of_names hin)
  rw [Option.some.injEq] at hq'
  subst hq'
  simp only [quantizeLayers, layerStep, Option.bind_eq_bind, Option.bind_eq_some_iff] at hls
  obtain ⟨⟨w1, q1⟩, ⟨⟨w2, r2⟩, hlq, he⟩, hls⟩ := hls
  simp only [Option.some.injEq, Prod.mk.injEq] at he
  obtain ⟨rfl, rfl⟩ := he
  simp only [Option.bind_some, Option.some.injEq, Prod.mk.injEq] at hls
  obtain ⟨rfl, rfl, rfl⟩ := hls
  set w0 := (World.empty (Node.base 0 0 (intDtype 7))).alloc ((Node.base p.1 p.2 (intDtype 7)).withTensor X.toFArr) with hw0
  have hn0 : w0.next = 1 := by rw [hw0, World.alloc_next]; rfl
  have hnode0 : w0.nodes 0 = (Node.base p.1 p.2 (intDtype 7)).withTensor X.toFArr := by
    rw [hw0, World.alloc_nodes]; rfl
  have hid : (⟨(World.empty (Node.base 0 0 (intDtype 7))).next, true⟩ : Ref).id < w0.next := by rw [hn0]; show 0 < 1; omega
  obtain ⟨pos, zc⟩ := Accuracy.any_cal_pos (s := p.1) (z := p.2) hp
  have hpos : 0 < (w0.nodes (⟨(World.empty (Node.base 0 0 (intDtype 7))).next, true⟩ : Ref).id).scale := by
    show 0 < (w0.nodes 0).scale
    rw [hnode0]; exact pos
  obtain ⟨input', M, sK, sU, sA, zK, zU, zA, st, sH, sC, zH, zC, sT, zT, hp', hM, hst, hf, hops, hnext, hkeep⟩ :=
    lstm_facts hlq (v := w2) (fun _ _ => rfl)
  simp only [Option.some.injEq] at hp'
  subst hp'
  obtain ⟨op, M', st', hop, hM', hst', hall⟩ := C52_layout hl hlq (v := w2) (fun _ _ => rfl) rfl hid hpos
  have hopeq : op = l.op ⟨(World.empty (Node.base 0 0 (intDtype 7))).next, true⟩ w0.next (KLSTM.refs (w0.next + 22) 10 true) := by
    rw [hop] at hops
    exact List.head_eq_of_cons_eq hops
  have hw20 : w2.nodes 0 = w0.nodes 0 := hkeep 0 (by omega)
  have hsc : inScale (opJson w2 op) 0 = p.1 := by
    have hnode : (opJson w2 op).inputs[0]? = some (nodeJson (w2.nodes 0) true) := by rw [hopeq]; rfl
    have e : (nodeJson (w2.nodes 0) true).scale = some (w2.nodes 0).scale := rfl
    unfold inScale
    rw [hnode, Option.bind_some, e, Option.getD_some, hw20, hnode0]; rfl
  -- the dequantize operator reads the layer's output
  have hdd : d.ops = [dequantOp ⟨w0.next + 12, true⟩] := by
    unfold dequantize at hd
    rw [hop, hopeq] at hd
    simp only [List.getLast?_singleton, Option.bind_eq_bind, Option.bind_some] at hd
    rw [Option.bind_eq_some_iff] at hd
    obtain ⟨o, ho, hd⟩ := hd
    have ho' : o = ⟨w0.next + 12, true⟩ := by
      have : (l.op ⟨(World.empty (Node.base 0 0 (intDtype 7))).next, true⟩ w0.next
        (KLSTM.refs (w0.next + 22) 10 true)).outputs.getLast? = some (⟨w0.next + 12, true⟩ : Ref) := rfl
      rw [this, Option.some.injEq] at ho
      exact ho.symm
    rw [Option.some.injEq] at hd
    rw [← hd, ho']
    rfl
  have hgraph : (networkJson w2 ([⟨X, some ⟨(World.empty (Node.base 0 0 (intDtype 7))).next, true⟩,
      [⟨"QUANTIZE", "QUANTIZE", [], [⟨(World.empty (Node.base 0 0 (intDtype 7))).next, true⟩], none⟩]⟩] ++ [r2] ++ [d])).graph =
      [opJson w2 (quantOp ⟨0, true⟩), opJson w2 op, opJson w2 (dequantOp ⟨w0.next + 12, true⟩)] := by
    show (networkOps _).map (opJson w2) = _
    simp only [networkOps, List.cons_append, List.nil_append, List.flatMap_cons, List.flatMap_nil, List.append_nil, hop,
      hdd]
    rfl
  have hR0 : Readable (w2.nodes 0) := by rw [hw20, hnode0]; exact readable_tensor hq _ _ _
  have hRH : Readable (w2.nodes (w0.next + 12)) := by
    rw [hf.nodeH]; exact readable_tensor (s := "int8") (by decide +kernel) _ _ _
  unfold asSequential at hnet
  have heng : SeqNet.engine (networkJson w2 ([⟨X, some ⟨(World.empty (Node.base 0 0 (intDtype 7))).next, true⟩,
      [⟨"QUANTIZE", "QUANTIZE", [], [⟨(World.empty (Node.base 0 0 (intDtype 7))).next, true⟩], none⟩]⟩] ++ [r2] ++ [d])) =
      some buildLayer := by
    unfold SeqNet.engine
    rw [if_pos (by show "TFLITE".toList = upper "tflite"; decide)]
  simp only [SeqNet.load, Option.bind_eq_bind, Option.bind_eq_some_iff, Option.some.injEq] at hnet
  obtain ⟨inp, -, inp', -, out', -, out'', -, first, hfirst, build', hb', layers, hlay, hneteq⟩ := hnet
  rw [heng, Option.some.injEq] at hb'
  subst hb'
  rw [hgraph] at hlay hfirst
  have hfirst' : first = opJson w2 (quantOp ⟨0, true⟩) := by simpa using hfirst.symm
  rw [List.mapM_cons, List.mapM_cons, List.mapM_cons, List.mapM_nil, build_quant w2 ⟨0, true⟩ hR0,
    build_dequant w2 ⟨w0.next + 12, true⟩ hRH] at hlay
  simp only [Option.bind_eq_bind, Option.bind_some, Option.pure_def, Option.bind_eq_some_iff, Option.some.injEq] at hlay
  obtain ⟨_, ⟨lay, hlay, rfl⟩, rfl⟩ := hlay
  have hkind : buildLayer (opJson w2 op) = (LSTM.fromModel (opJson w2 op)).map .lstm := by
    unfold buildLayer
    have : layerKind (opJson w2 op).opType = some .lstm := by
      rw [hopeq]
      exact (by decide +kernel : layerKind "LSTM" = some .lstm)
    rw [this]
  rw [hkind, Option.map_eq_some_iff] at hlay
  obtain ⟨L, hL, rfl⟩ := hlay
  obtain ⟨sK', sU', sA', sH', sC', sI', sF', sG', sO', sS', hsc', hr⟩ := hall L hL
  have hzH : L.hiddenZp = zH ∧ ∀ z ∈ [L.gi.raZp, L.gf.raZp, L.gc.raZp, L.go.raZp], Code (-128) 127 z := by
    rw [hopeq, lstm_load hl (by rw [show (w2.nodes (⟨(World.empty (Node.base 0 0 (intDtype 7))).next, true⟩ : Ref).id) =
      w0.nodes (⟨(World.empty (Node.base 0 0 (intDtype 7))).next, true⟩ : Ref).id from hw20]; exact hf)] at hL
    simp only [Option.bind_eq_some_iff, Option.some.injEq] at hL
    obtain ⟨-, -, -, -, -, -, rfl⟩ := hL
    refine ⟨rfl, ?_⟩
    intro z hz
    simp only [loadedLSTM, loadedGate, List.mem_cons, List.not_mem_nil, or_false] at hz
    rcases hz with rfl | rfl | rfl | rfl
    exacts [(cal_pos (hf.calA 0 (by omega))).2, (cal_pos (hf.calA 1 (by omega))).2, (cal_pos (hf.calA 2 (by omega))).2,
      (cal_pos (hf.calA 3 (by omega))).2]
  obtain ⟨hzH, hgates⟩ := hzH
  have hsH : outScale (opJson w2 op) = sH := by
    rw [hopeq]
    have : outScale (opJson w2 (l.op ⟨(World.empty (Node.base 0 0 (intDtype 7))).next, true⟩ w0.next
      (KLSTM.refs (w0.next + 22) 10 true))) = (w2.nodes (w0.next + 12)).scale := rfl
    rw [this, hf.nodeH]; rfl
  have hMM : M' = M ∧ st' = st := by
    have e1 : X = .cube M := hM
    have e2 : X = .cube M' := hM'
    have : M' = M := Arr.cube.inj (e2.symm.trans e1)
    subst this
    rw [hst, Option.some.injEq] at hst'
    exact ⟨rfl, hst'.symm⟩
  obtain ⟨rfl, rfl⟩ := hMM
  have hzp : (w0.nodes (⟨(World.empty (Node.base 0 0 (intDtype 7))).next, true⟩ : Ref).id).zp = p.2 := by
    show (w0.nodes 0).zp = _
    rw [hnode0]; rfl
  have hsp : (w0.nodes (⟨(World.empty (Node.base 0 0 (intDtype 7))).next, true⟩ : Ref).id).scale = p.1 := by
    show (w0.nodes 0).scale = _
    rw [hnode0]; rfl
  rw [hzp, hsp] at hr
  rw [hsp] at hsc'
  refine ⟨op, L, p.2, M', st', ?_, hL, hM, hst, by rw [hsc]; exact pos, zc, ?_, ?_, ?_, ?_, by rw [hopeq]; rfl, hgates, ?_, ?_⟩
  · simp [networkOps, hop]
  · rw [hzH]; exact (cal_pos hf.calH).2
  · intro v hv
    rw [hsc]
    exact ⟨_, cal_half (s := p.1) (z := p.2) hp hv⟩
  · rw [← hneteq, hfirst']
    simp only [opJson, quantOp]
    decide
  · rw [← hneteq, hsc, hsH, hzH]
    simp only [hw20, hnode0, hf.nodeH]
    rfl
  · refine ⟨nodeJson (w2.nodes 0) true, nodeJson (w2.nodes (w0.next + 12)) true, hgraph, ?_⟩
    rw [hsc, hsH, hzH, hw20, hnode0, hf.nodeH]
    exact ⟨rfl, rfl, ⟨_, rfl, rfl⟩, rfl, rfl, ⟨_, rfl, rfl⟩⟩
  · rw [hsc]
    exact ⟨sK', sU', sA', sH', sC', sI', sF', sG', sO', sS', hsc', hr⟩

/-- Nearest codes of covered numbers. -/
theorem covered_quantize {z : ℤ} {s v : ℚ} (hs : 0 < s) (h : Covered z s v) :
    Code (-128) 127 (Quantization.quantize (intDtype 7) v z s) ∧
      |real z s (Quantization.quantize (intDtype 7) v z s) - v| ≤ s / 2 := by
  obtain ⟨q, hq, he⟩ := h
  have := C04_quantize_nearest (intDtype 7) int8_fits z s hs v
  exact ⟨this.1, le_trans (this.2 q hq) he⟩

theorem getD_map3 (X : List (List (List ℚ))) (f : ℚ → ℤ) (i t j : ℕ) (x : List (List ℚ)) (hx : X[i]? = some x)
    (ht : t < x.length) (hj : j < (x.getD t []).length) :
    (((x.map (List.map f))).getD t []).getD j 0 = f ((x.getD t []).getD j 0) := by
  have e : (x.map (List.map f)).getD t [] = (x.getD t []).map f := by
    rw [List.getD_eq_getElem?_getD, List.getD_eq_getElem?_getD, List.getElem?_map, List.getElem?_eq_getElem ht]; rfl
  rw [e]
  generalize x.getD t [] = r at hj
  rw [List.getD_eq_getElem?_getD, List.getD_eq_getElem?_getD, List.getElem?_map, List.getElem?_eq_getElem hj]; rfl

/-- What the three layers of the network compute. -/
theorem infer_three {ext : Ext} {net : SeqNet} {L : LSTM} {zIn : ℤ} {sIn sH : ℚ} (hq : net.hasQuantLayers = true)
    (hl : net.layers = [.quantize (intDtype 7) zIn sIn, .lstm L, .dequantize L.hiddenZp sH]) {X : Arr ℚ} {out : Arr ℤ}
    (h : L.infer (X.map (fun v => Quantization.quantize (intDtype 7) v zIn sIn)) = some out) :
    ∃ rec, net.infer ext (.flt X) =
      some (.flt (out.map (fun v => Quantization.dequantize v L.hiddenZp sH)), rec) := by
  have : (net.infer ext (.flt X)).map Prod.fst =
      some (.flt (out.map (fun v => Quantization.dequantize v L.hiddenZp sH))) := by
    unfold SeqNet.infer
    rw [C24_composition]
    unfold SeqNet.prepare
    rw [hq, if_pos rfl, hl]
    have hp : ∀ l ls t, pipe ext (l :: ls) t = (Layer.infer ext l t).bind (pipe ext ls) := by
      intro l ls t; simp only [pipe, List.foldlM_cons]; rfl
    simp only [hp, Layer.infer, Tensor.toFlt, Option.bind_some, h, Option.map_some, Tensor.toInt]
    rfl
  rw [Option.map_eq_some_iff] at this
  obtain ⟨⟨y, rec⟩, hy, hy'⟩ := this
  simp only at hy'
  subst hy'
  exact ⟨rec, hy⟩

end LstmAcc

/-- C83 (network).  For every model that consists of one LSTM layer, whose quantization succeeds and whose export loads,
and every batch of float sequences on which inputs and float layer stay in the calibrated ranges: the network answers
real numbers, and they differ from the hidden states of the Keras layer by at most the accumulated error of their step. -/
theorem C83_network {ext : Ext} {cfg : Cfg} {X0 : Arr ℚ} {l : KLSTM} (hl : LstmShape l) {w : World} {rs : List QRes}
    (h : quantizeModel ext cfg X0 [.lstm l] = some (w, rs)) (hin : NamesType cfg.quantizeDtype "int" 8) {net : SeqNet}
    (hnet : asSequential w rs = some net) :
    ∃ (op : Op) (L : LSTM), (networkOps rs)[1]? = some op ∧ LSTM.fromModel (opJson w op) = some L ∧
      ∀ b : LstmBudget,
        LstmScales (opJson w op) b.sIn b.sK b.sU b.sA b.sH b.sC (b.sT 0) (b.sT 1) (b.sT 2) (b.sT 3) b.sS →
        b.zH = L.hiddenZp → b.amp = 255 → b.eIn = b.sIn / 2 → b.Holds ext l →
        ∀ (X : List (List (List ℚ))) (T : ℕ), Batch X T l.kernel.length →
          (∀ x ∈ X, ∀ r ∈ x, ∀ v ∈ r, Covered L.inputZp b.sIn v) → (∀ x ∈ X, LstmInRange ext l L b x T) →
          ∃ out rec, net.infer ext (.flt (.cube X)) = some (.flt out, rec) ∧ HiddenClose ext l b T X out := by
  obtain ⟨op, L, zIn, M, st, hop, hL, hM, hst, hpos, hzI, hzH, hcov, hq, hlayers, -, -, -, sK, sU, sA, sH, sC, sI, sF, sG, sO, sS,
    hsc, hr⟩ := LstmAcc.network hl h hin hnet
  refine ⟨op, L, hop, hL, ?_⟩
  intro b hbs hz hamp heIn hb X T hX hXc hXr
  have hr' := LstmAcc.reads_congr hsc hr hbs
  have hI : 0 < b.sIn := by rw [← hbs.input]; exact hpos
  have hzz : L.inputZp = zIn := hr.inputZp
  rw [hzz] at hXc
  rw [hbs.input, hbs.hidden] at hlayers
  obtain ⟨hne, hT, hrect⟩ := hX
  obtain ⟨f, hf⟩ : ∃ f : ℚ → ℤ, f = fun v => Quantization.quantize (intDtype 7) v zIn b.sIn := ⟨_, rfl⟩
  have hcode : ∀ v, Covered zIn b.sIn v → Code (-128) 127 (f v) ∧ |real zIn b.sIn (f v) - v| ≤ b.sIn / 2 := by
    intro v hv; rw [hf]; exact LstmAcc.covered_quantize hI hv
  obtain ⟨out, hout, hrest⟩ := C83_sequence hl hI hr' hb hz T hT X (X.map (List.map (List.map f))) hne (by simp) (by
    intro i x q hx hq
    have hxm := List.mem_of_getElem? hx
    rw [List.getElem?_map, hx] at hq
    simp only [Option.map_some, Option.some.injEq] at hq
    subst hq
    obtain ⟨e1, e2⟩ := hrect x hxm
    have hrow : ∀ t < T, (x.getD t []).length = l.kernel.length ∧ x.getD t [] ∈ x := by
      intro t ht
      rw [List.getD_eq_getElem?_getD, List.getElem?_eq_getElem (by rw [e1]; exact ht)]
      exact ⟨e2 _ (List.getElem_mem _), List.getElem_mem _⟩
    have hval : ∀ t < T, ∀ j < l.kernel.length, Covered zIn b.sIn ((x.getD t []).getD j 0) := by
      intro t ht j hj
      obtain ⟨r1, r2⟩ := hrow t ht
      refine hXc x hxm _ r2 _ ?_
      generalize x.getD t [] = r at r1
      rw [List.getD_eq_getElem?_getD, List.getElem?_eq_getElem (by rw [r1]; exact hj)]
      exact List.getElem_mem _
    refine ⟨⟨by simp [e1], ?_, ?_, ?_⟩, hXr x hxm⟩
    · intro r hr
      obtain ⟨r', h1, rfl⟩ := List.mem_map.mp hr
      rw [List.length_map]; exact e2 r' h1
    · intro t ht j hj
      rw [LstmAcc.getD_map3 X f i t j x hx (by rw [e1]; exact ht) (by rw [(hrow t ht).1]; exact hj), heIn]
      exact (hcode _ (hval t ht j hj)).2
    · intro t ht j hj
      rw [LstmAcc.getD_map3 X f i t j x hx (by rw [e1]; exact ht) (by rw [(hrow t ht).1]; exact hj), hamp, abs_le]
      have := (hcode _ (hval t ht j hj)).1
      unfold Code at this hzI
      omega)
  have hXm : (Arr.cube X).map (fun v => Quantization.quantize (intDtype 7) v zIn b.sIn) =
      .cube (X.map (List.map (List.map f))) := by rw [hf]; rfl
  obtain ⟨rec, hinf⟩ := LstmAcc.infer_three (ext := ext) hq hlayers (X := .cube X) (out := out) (by rw [hXm]; exact hout)
  refine ⟨_, rec, hinf, ?_⟩
  have hdq : ∀ q, Code (-128) 127 q → Quantization.dequantize q L.hiddenZp b.sH = real L.hiddenZp b.sH q :=
    fun q hq => Accuracy.int8_dequantize' hq hzH _
  obtain ⟨d, hd⟩ : ∃ d : ℤ → ℚ, d = fun v => Quantization.dequantize v L.hiddenZp b.sH := ⟨_, rfl⟩
  have hdget : ∀ (r : List ℤ) (j : ℕ), j < r.length → (r.map d).getD j 0 = d (r.getD j 0) := by
    intro r j hj
    rw [List.getD_eq_getElem?_getD, List.getD_eq_getElem?_getD, List.getElem?_map, List.getElem?_eq_getElem hj]; rfl
  rw [← hd]
  unfold HiddenClose
  cases hseq : l.returnSequences with
  | true =>
    rw [hseq, if_pos rfl] at hrest
    rw [if_pos rfl]
    obtain ⟨Y, rfl, hY, hall⟩ := hrest
    refine ⟨Y.map (List.map (List.map d)), rfl, by simpa using hY, ?_⟩
    intro i x y hx hy
    rw [List.getElem?_map, Option.map_eq_some_iff] at hy
    obtain ⟨y', hy', rfl⟩ := hy
    obtain ⟨a1, a2⟩ := hall i x y' hx hy'
    refine ⟨by simpa using a1, fun t ht => ?_⟩
    obtain ⟨b1, b2⟩ := a2 t ht
    have e : (y'.map (List.map d)).getD t [] = (y'.getD t []).map d := by
      rw [List.getD_eq_getElem?_getD, List.getD_eq_getElem?_getD, List.getElem?_map,
        List.getElem?_eq_getElem (by rw [a1]; exact ht)]; rfl
    rw [e]
    refine ⟨by rw [List.length_map]; exact b1, fun u hu => ?_⟩
    obtain ⟨c1, c2⟩ := b2 u hu
    rw [hdget _ _ (by rw [b1]; exact hu), hd]
    simp only
    rw [hdq _ c1]
    exact c2
  | false =>
    rw [hseq, if_neg (by simp)] at hrest
    rw [if_neg (by simp)]
    obtain ⟨Y, rfl, hY, hall⟩ := hrest
    refine ⟨Y.map (List.map d), rfl, by simpa using hY, ?_⟩
    intro i x y hx hy
    rw [List.getElem?_map, Option.map_eq_some_iff] at hy
    obtain ⟨y', hy', rfl⟩ := hy
    obtain ⟨a1, a2⟩ := hall i x y' hx hy'
    refine ⟨by simpa using a1, fun u hu => ?_⟩
    obtain ⟨c1, c2⟩ := a2 u hu
    rw [hdget _ _ (by rw [a1]; exact hu), hd]
    simp only
    rw [hdq _ c1]
    exact c2

/-- C83 (calibration data).  On the sequences the model was calibrated with, no assumption about the ranges is needed, if
they have at most `units` steps. -/
theorem C83_calibration {ext : Ext} {cfg : Cfg} {X : List (List (List ℚ))} {l : KLSTM} (hl : LstmShape l) {w : World}
    {rs : List QRes} (h : quantizeModel ext cfg (.cube X) [.lstm l] = some (w, rs))
    (hin : NamesType cfg.quantizeDtype "int" 8) {net : SeqNet} (hnet : asSequential w rs = some net) {T : ℕ}
    (hX : Batch X T l.kernel.length) (hT : T ≤ l.units) :
    ∃ (op : Op) (L : LSTM), (networkOps rs)[1]? = some op ∧ LSTM.fromModel (opJson w op) = some L ∧
      ∀ b : LstmBudget,
        LstmScales (opJson w op) b.sIn b.sK b.sU b.sA b.sH b.sC (b.sT 0) (b.sT 1) (b.sT 2) (b.sT 3) b.sS →
        b.zH = L.hiddenZp → b.amp = 255 → b.eIn = b.sIn / 2 → 1 ≤ b.forget → b.Holds ext l →
          ∃ out rec, net.infer ext (.flt (.cube X)) = some (.flt out, rec) ∧ HiddenClose ext l b T X out := by
  obtain ⟨op', L', zIn, M, st, hop', hL', hM, hst, hpos, hzI, hzH, hcov, hq, hlayers, -, -, -, sK, sU, sA, sH, sC, sI, sF, sG, sO, sS,
    hsc, hr⟩ := LstmAcc.network hl h hin hnet
  obtain ⟨op, L, hop, hL, hall⟩ := C83_network hl h hin hnet
  rw [hop, Option.some.injEq] at hop'
  subst hop'
  rw [hL, Option.some.injEq] at hL'
  subst hL'
  have hXM : M = X := (Arr.cube.inj hM).symm
  subst hXM
  refine ⟨op, L, hop, hL, ?_⟩
  intro b hbs hz hamp heIn hφ hb
  have hr' := LstmAcc.reads_congr hsc hr hbs
  refine hall b hbs hz hamp heIn hb M T hX ?_ (fun x hx => C83_calibrated_in_range hl hr' hb hφ hX hst (Or.inl hT) x hx)
  intro x hx r hr'' v hv
  rw [hr.inputZp, ← hbs.input]
  exact hcov v (List.mem_flatten.mpr ⟨r, List.mem_flatten.mpr ⟨x, hx, hr''⟩, hv⟩)

namespace C83Case

open C52Case (ext lstm shape)

/-- Three sequences of one step. -/
def X : List (List (List ℚ)) := [[[1]], [[2]], [[-1 / 2]]]

/-- The scales the export holds, and bounds for the layer of `C52Case`. -/
def budget : LstmBudget :=
  ⟨1, 1, 255, 1 / 102, 1 / 204, fun _ => 1 / 255, fun g => if g = 3 then 1 / 170 else 1 / 255,
    fun g => if g < 2 then 1 / 204 else if g = 2 then 1 / 408 else 11 / 3060,
    fun g => if g = 0 then 1 / 340 else if g = 1 then 19 / 8160 else if g = 2 then 1 / 408 else 7 / 2448,
    fun _ => 1 / 2, fun _ => 1, 3 / 1016, 11 / 6528, 371 / 313344, -104, 1 / 4, 1, 1, 0, 0, fun _ => 0, fun _ => 0, fun _ => 0⟩

theorem clip_lip (lo hi x y : ℚ) : |clip lo hi x - clip lo hi y| ≤ |x - y| := by
  unfold clip
  refine le_trans (abs_min_sub_min_le_max _ _ _ _) ?_
  rw [sub_self, abs_zero]
  refine max_le (abs_nonneg _) (le_trans (abs_max_sub_max_le_max _ _ _ _) ?_)
  rw [sub_self, abs_zero]
  exact max_le (abs_nonneg _) le_rfl

theorem holds : budget.Holds ext lstm := by
  have hs : ∀ y, |ext.sigmoid y| ≤ 1 := by
    intro y
    have h1 : (0 : ℚ) ≤ clip 0 1 (y / 4 + 1 / 2) := clip_ge (by norm_num)
    have h2 : clip 0 1 (y / 4 + 1 / 2 : ℚ) ≤ 1 := clip_le
    show |clip 0 1 (y / 4 + 1 / 2)| ≤ 1
    rw [abs_le]; constructor <;> linarith
  have ht : ∀ y, |ext.tanh y| ≤ 1 := by
    intro y
    have h1 : (-1 : ℚ) ≤ clip (-1) 1 y := clip_ge (by norm_num)
    have h2 : clip (-1) 1 y ≤ (1 : ℚ) := clip_le
    show |clip (-1) 1 y| ≤ 1
    rw [abs_le]; exact ⟨h1, h2⟩
  refine ⟨rfl, rfl, by decide, by decide +kernel, by decide +kernel, by decide +kernel, by decide +kernel, by decide +kernel,
    by decide +kernel, by decide +kernel, hs, ht, ?_, ?_,
    ?_, ?_, ?_, by decide +kernel, ?_⟩
  · intro x y
    show |clip 0 1 (x / 4 + 1 / 2) - clip 0 1 (y / 4 + 1 / 2)| ≤ 1 / 4 * |x - y|
    refine le_trans (clip_lip _ _ _ _) ?_
    rw [show x / 4 + 1 / 2 - (y / 4 + 1 / 2) = 1 / 4 * (x - y) by ring, abs_mul]
    norm_num
  · intro x y
    show |clip (-1) 1 x - clip (-1) 1 y| ≤ 1 * |x - y|
    rw [one_mul]
    exact clip_lip _ _ _ _
  · decide +kernel
  · decide +kernel
  · decide +kernel
  · decide +kernel

/-- The hypotheses of `C83_calibration` hold together for this model, data and budget. -/
theorem check : (match quantizeModel ext {} (.cube X) [.lstm lstm] with
    | none => false
    | some (w, rs) =>
      (asSequential w rs).isSome &&
      match (networkOps rs)[1]? with
      | none => false
      | some op =>
        (match LSTM.fromModel (opJson w op) with | none => false | some L => decide (budget.zH = L.hiddenZp)) &&
        (decide (inScale (opJson w op) 0 = budget.sIn) &&
          (List.range 4).all (fun g => decide (inScale (opJson w op) (1 + g) = budget.sK g)) &&
          (List.range 4).all (fun g => decide (inScale (opJson w op) (5 + g) = budget.sU g)) &&
          (List.range 4).all (fun g => decide (inScale (opJson w op) (17 + g) = budget.sA g)) &&
          decide (inScale (opJson w op) 21 = budget.sC) && decide (inScale (opJson w op) 23 = budget.sT 0) &&
          decide (inScale (opJson w op) 25 = budget.sT 1) && decide (inScale (opJson w op) 27 = budget.sT 2) &&
          decide (inScale (opJson w op) 29 = budget.sT 3) && decide (inScale (opJson w op) 31 = budget.sS) &&
          decide (outScale (opJson w op) = budget.sH))) = true := by decide +kernel

/-- So the network of this layer answers its calibration data up to 0.04. -/
theorem answer : ∃ w rs net, quantizeModel ext {} (.cube X) [.lstm lstm] = some (w, rs) ∧ asSequential w rs = some net ∧
    ∃ Y rec, net.infer ext (.flt (.cube X)) = some (.flt (.mat Y), rec) ∧ Y.length = 3 ∧
      ∀ (i : ℕ) x y, X[i]? = some x → Y[i]? = some y →
        |y.getD 0 0 - (lstmState ext lstm x 1).1 0| ≤ 1 / 25 := by
  have hc := check
  cases hq : quantizeModel ext {} (.cube X) [.lstm lstm] with
  | none => rw [hq] at hc; cases hc
  | some p =>
    obtain ⟨w, rs⟩ := p
    rw [hq] at hc
    simp only [Bool.and_eq_true] at hc
    obtain ⟨hn, hc⟩ := hc
    obtain ⟨net, hnet⟩ := Option.isSome_iff_exists.mp hn
    obtain ⟨op, L, hop, hL, hall⟩ := C83_calibration shape hq (T := 1) (by unfold NamesType; decide +kernel) hnet
      (by refine ⟨by decide, by decide, ?_⟩; decide +kernel) (by decide)
    rw [hop] at hc
    simp only [hL, Bool.and_eq_true, decide_eq_true_eq, List.all_eq_true, List.mem_range] at hc
    obtain ⟨hz, ⟨⟨⟨⟨⟨⟨⟨⟨⟨⟨c0, c1⟩, c2⟩, c3⟩, c4⟩, c5⟩, c6⟩, c7⟩, c8⟩, c9⟩, c10⟩⟩ := hc
    obtain ⟨out, rec, h1, h2⟩ := hall budget ⟨c0, c1, c2, c3, c4, c5, c6, c7, c8, c9, c10⟩ hz rfl (by decide +kernel)
      (by decide +kernel) holds
    unfold HiddenClose at h2
    rw [if_neg (by decide)] at h2
    obtain ⟨Y, rfl, h3, h4⟩ := h2
    refine ⟨w, rs, net, rfl, hnet, Y, rec, h1, h3, ?_⟩
    intro i x y hx hy
    have := (h4 i x y hx hy).2 0 (by decide)
    exact le_trans this (by decide +kernel)

/-- A budget with a forget gate of at most 1/2 and small recurrent weights, whose error stays below 1/10 for ever. -/
def steady : LstmBudget :=
  ⟨4, 4, 255, 1 / 2550, 1 / 5100, fun _ => 1 / 2550, fun _ => 1 / 2550, fun _ => 1 / 2550, fun _ => 1 / 2550, fun _ => 1,
    fun _ => 1 / 10, 1 / 1280, 1 / 2550, 1 / 2550, -10, 1 / 4, 1, 1 / 2, 0, 0, fun _ => 0, fun _ => 0, fun _ => 0⟩

example : steady.Ok := by
  constructor <;> (try intro g hg) <;> simp [steady]

example (t : ℕ) : (steady.error t).1 ≤ 1 / 10 ∧ (steady.error t).2 ≤ 1 / 10 := by
  refine C83_uniform (by constructor <;> (try intro g hg) <;> simp [steady]) (by norm_num) (by norm_num) ?_ ?_ t
  · decide +kernel
  · decide +kernel

end C83Case

end Verif
