import Verif.Lemmas.LSTM
import Verif.Props.LutLayer
import Verif.Spec.Quant

/-!
# Properties C26 (ranges), C27 (batches, last output), C28 (causality), C54/C55 (accuracy) of the LSTM layer
-/

namespace Verif
open Spec

namespace LSTM

/-- The hidden states of one sample, from the initial state. -/
def hid (l : LSTM) (s : List (List ℤ)) : Option (List (List ℤ)) :=
  (l.rowRun (s.map (fun r => r.map (fun v => v - l.inputZp))) (List.replicate l.nCells 0)
    (List.replicate l.nCells 0)).map (fun r => r.map Prod.fst)

/-- All states of one sample, from the initial state. -/
def hidc (l : LSTM) (s : List (List ℤ)) : Option (List (List ℤ × List ℤ)) :=
  l.rowRun (s.map (fun r => r.map (fun v => v - l.inputZp))) (List.replicate l.nCells 0)
    (List.replicate l.nCells 0)

/-- An acceptable input: samples with `T ≥ 1` time steps, each with the right number of features. -/
def GoodInput (l : LSTM) (X : List (List (List ℤ))) (T : ℕ) : Prop :=
  X ≠ [] ∧ 0 < T ∧ ∀ s ∈ X, s.length = T ∧ ∀ r ∈ s, r.length = l.nFeatures

theorem states_eq (l : LSTM) (hl : l.Shaped) (X : List (List (List ℤ))) (T : ℕ) (hX : l.GoodInput X T) :
    l.states X = (X.mapM l.hidc).map (timeMajor T) := by
  obtain ⟨h0, hT, hs⟩ := hX
  obtain ⟨s, X', rfl⟩ := List.exists_cons_of_ne_nil h0
  have hsT : s.length = T := (hs s (by simp)).1
  unfold states
  simp only
  rw [if_pos]
  swap
  · refine ⟨?_, ?_⟩
    · intro x hx; rw [hsT]; exact hs x hx
    · rintro rfl; simp at hsT; omega
  rw [hsT]
  set X := s :: X' with hXdef
  let Z : List ZS := X.map (fun s => (s.map (fun r => r.map (fun v => v - l.inputZp)),
    List.replicate l.nCells 0, List.replicate l.nCells 0))
  have hb : bcastRows l.zeroState Z.length = some (List.replicate Z.length (List.replicate l.nCells 0)) := by
    unfold bcastRows zeroState
    by_cases h1 : 1 = Z.length
    · simp [← h1]
    · simp [h1]
  have := run_rows l hl T Z (by simp [Z, X])
    (by intro z hz
        obtain ⟨s', hs', rfl⟩ := List.mem_map.mp hz
        simpa using (hs s' hs').1)
    (by intro z hz
        obtain ⟨s', hs', rfl⟩ := List.mem_map.mp hz
        simp) l.zeroState l.zeroState (by rw [hb]; simp [Z, Function.comp_def])
        (by rw [hb]; simp [Z, Function.comp_def])
  have e1 : Z.map (fun z => z.1) = X.map (fun x => x.map (fun r => r.map (fun v => v - l.inputZp))) := by
    simp [Z]
  rw [e1] at this
  rw [this, List.mapM_map]
  rfl

theorem hidc_length (l : LSTM) (s r) (h : l.hidc s = some r) : r.length = s.length := by
  have := rowRun_length l _ _ _ _ h
  simpa using this

/-- What the layer computes: hidden states of each sample. -/
theorem infer_eq (l : LSTM) (hl : l.Shaped) (X : List (List (List ℤ))) (T : ℕ) (hX : l.GoodInput X T) :
    l.infer (.cube X) = (X.mapM l.hid).map (fun ys =>
      if l.returnSequences then .cube ys else .mat (ys.map (fun y => y.getLastD []))) := by
  unfold infer
  simp only [states_eq l hl X T hX]
  have hhid : l.hid = fun s => (l.hidc s).map (fun r => r.map Prod.fst) := rfl
  rcases mapM_cases l.hidc X with ⟨g, eg, hg⟩ | ⟨⟨z, hz, e⟩, hg⟩
  swap
  · rw [hg, (mapM_none_iff l.hid X).mpr ⟨z, hz, by rw [hhid]; simp [e]⟩]; rfl
  have h2 : X.mapM l.hid = some (X.map (fun s => (g s).map Prod.fst)) := by
    apply mapM_eq_map
    intro s hs
    rw [hhid]; simp [eg s hs]
  have glen : ∀ s ∈ X, (g s).length = T := by
    intro s hs
    rw [hidc_length l s _ (eg s hs), (hX.2.2 s hs).1]
  rw [hg, h2]
  simp only [Option.map_some]
  have hhs : (timeMajor T (X.map g)).map Prod.fst =
      (List.range T).map (fun t => X.map (fun s => ((g s).getD t ([], [])).1)) := by
    simp [timeMajor, Function.comp_def]
  simp only [hhs]
  by_cases hr : l.returnSequences
  · simp only [if_pos hr]
    congr 2
    unfold swap
    apply List.ext_getElem
    · simp
    · intro b h1 h2
      have hb : b < X.length := by simpa using h1
      simp only [List.getElem_map, List.getElem_range, List.map_map]
      apply List.ext_getElem
      · simp [glen _ (List.getElem_mem hb)]
      · intro t h3 h4
        have ht : t < (g X[b]).length := by simpa using h4
        simp [List.getElem?_eq_getElem hb, List.getElem?_eq_getElem ht]
  · simp only [hr]
    obtain ⟨T', rfl⟩ : ∃ T', T = T' + 1 := ⟨T - 1, by have := hX.2.1; omega⟩
    rw [List.range_succ, List.map_append, List.map_singleton, List.getLast?_concat]
    simp only [Option.some.injEq, Bool.false_eq_true, if_false, Arr.mat.injEq, List.map_map]
    apply List.map_congr_left
    intro s hs
    have := glen s hs
    simp only [Function.comp]
    rw [List.getLastD_eq_getLast?, List.getLast?_eq_getElem?]
    simp only [List.length_map, this, Nat.add_sub_cancel, List.getElem?_map, List.getD_eq_getElem?_getD]
    rw [List.getElem?_eq_getElem (by omega)]
    rfl

end LSTM

/-! ## C27 -/

/-- The samples of an output batch: rows of a matrix, or matrices (sequences) of a cube. -/
def Spec.samples : Arr ℤ → List (Arr ℤ)
  | .vec _ => []
  | .mat X => X.map .vec
  | .cube X => X.map .mat

theorem LSTM.infer_bad (l : LSTM) (X : List (List (List ℤ))) (T : ℕ) (hT : ∀ s ∈ X, s.length = T)
    (hX : ¬ l.GoodInput X T) : l.infer (.cube X) = none := by
  unfold LSTM.infer LSTM.states
  cases X with
  | nil => rfl
  | cons s X' =>
    simp only
    rw [if_neg]
    rintro ⟨h1, h2⟩
    apply hX
    have hsT := hT s (by simp)
    refine ⟨by simp, ?_, ?_⟩
    · rw [← hsT]; exact List.length_pos_iff.mpr h2
    · intro x hx; rw [← hsT]; exact h1 x hx

/-- C27.  A batch of samples (a 3-D array) is answered — or rejected — exactly as its samples presented one at a
time, in order. -/
theorem C27_batch (l : LSTM) (hl : l.Shaped) (X : List (List (List ℤ))) (T : ℕ) (hX : X ≠ [])
    (hT : ∀ s ∈ X, s.length = T) :
    (l.infer (.cube X)).map samples =
      (X.mapM (fun s => l.infer (.cube [s]))).map (fun rs => rs.flatMap samples) := by
  by_cases hg : l.GoodInput X T
  · rw [LSTM.infer_eq l hl X T hg]
    have hone : ∀ s ∈ X, l.infer (.cube [s]) = (l.hid s).map (fun y =>
        if l.returnSequences then .cube [y] else .mat [y.getLastD []]) := by
      intro s hs
      rw [LSTM.infer_eq l hl [s] T ⟨by simp, hg.2.1, by
        intro s' hs'; rw [List.mem_singleton.mp hs']; exact hg.2.2 s hs⟩]
      cases h : l.hid s <;> simp [h]
    rw [LSTM.mapM_congr' _ _ X hone]
    rcases LSTM.mapM_cases l.hid X with ⟨g, eg, hgm⟩ | ⟨⟨z, hz, e⟩, hgm⟩
    · rw [hgm, mapM_eq_map _ (fun s => if l.returnSequences then .cube [g s] else .mat [(g s).getLastD []])]
      · simp only [Option.map_some, Option.some.injEq, List.flatMap_map]
        have fl : ∀ (f : List (List ℤ) → Arr ℤ) (X : List (List (List ℤ))),
            X.map f = X.flatMap (fun s => [f s]) := by
          intro f X
          induction X with
          | nil => rfl
          | cons a X ih => simpa using ih
        cases l.returnSequences
        · simpa [samples, Function.comp_def] using fl (fun s => .vec ((g s).getLastD [])) X
        · simpa [samples, Function.comp_def] using fl (fun s => .mat (g s)) X
      · intro s hs
        rw [eg s hs]; rfl
    · rw [hgm, (mapM_none_iff _ _).mpr ⟨z, hz, by rw [e]; rfl⟩]; rfl
  · rw [LSTM.infer_bad l X T hT hg]
    have : ∃ s ∈ X, ¬ l.GoodInput [s] T := by
      by_contra hc
      push Not at hc
      apply hg
      obtain ⟨s, X', rfl⟩ := List.exists_cons_of_ne_nil hX
      refine ⟨hX, (hc s (by simp)).2.1, ?_⟩
      intro s' hs'
      exact (hc s' hs').2.2 s' (by simp)
    obtain ⟨s, hs, hb⟩ := this
    rw [(mapM_none_iff _ _).mpr ⟨s, hs, ?_⟩]
    · rfl
    · exact LSTM.infer_bad l [s] T (by simpa using hT s hs) hb

/-- C27.  Without `return_sequences` the output is the last time step of what `return_sequences` returns. -/
theorem C27_last (l : LSTM) (hl : l.Shaped) (X : List (List (List ℤ))) (T : ℕ) (hT : ∀ s ∈ X, s.length = T)
    (hr : l.returnSequences = false) :
    l.infer (.cube X) = (({ l with returnSequences := true } : LSTM).infer (.cube X)).bind (fun o =>
      match o with
      | .cube Y => some (.mat (Y.map (fun y => y.getLastD [])))
      | _ => none) := by
  by_cases hg : l.GoodInput X T
  · have hl' : ({ l with returnSequences := true } : LSTM).Shaped := ⟨hl.1, hl.2, hl.3, hl.4, hl.5⟩
    have hstep : ∀ x h c, ({ l with returnSequences := true } : LSTM).rowStep x h c = l.rowStep x h c :=
      fun _ _ _ => rfl
    have hrun : ∀ xs h c, ({ l with returnSequences := true } : LSTM).rowRun xs h c = l.rowRun xs h c := by
      intro xs
      induction xs with
      | nil => intros; rfl
      | cons x xs ih => intro h c; simp only [LSTM.rowRun, hstep, ih]
    have hhid : ({ l with returnSequences := true } : LSTM).hid = l.hid := by
      funext s
      simp only [LSTM.hid, hrun]
    rw [LSTM.infer_eq l hl X T hg, LSTM.infer_eq _ hl' X T hg, hhid]
    cases X.mapM l.hid <;> simp [hr]
  · rw [LSTM.infer_bad l X T hT hg,
      LSTM.infer_bad ({ l with returnSequences := true } : LSTM) X T hT (fun h => hg h)]
    rfl

/-! ## C28 -/

theorem LSTM.rowRun_take (l : LSTM) (xs : List (List ℤ)) (h c : List ℤ) (r) (k : ℕ)
    (hr : l.rowRun xs h c = some r) : l.rowRun (xs.take k) h c = some (r.take k) := by
  induction xs generalizing h c r k with
  | nil => simp [LSTM.rowRun] at hr; simp [LSTM.rowRun, hr]
  | cons x xs ih =>
    simp only [LSTM.rowRun, Option.bind_eq_bind, Option.bind_eq_some_iff, Option.some.injEq] at hr
    obtain ⟨s, h1, rest, h2, rfl⟩ := hr
    cases k with
    | zero => simp [LSTM.rowRun]
    | succ k =>
      simp only [List.take_succ_cons, LSTM.rowRun, h1, Option.bind_eq_bind, Option.bind_some, ih _ _ _ k h2]

/-- C28.  Cutting the input sequences after `k ≥ 1` steps cuts the output sequences after `k` steps: the first
outputs do not depend on later inputs. -/
theorem C28_prefix (l : LSTM) (hl : l.Shaped) (hr : l.returnSequences = true) (X Y : List (List (List ℤ)))
    (h : l.infer (.cube X) = some (.cube Y)) (T : ℕ) (hT : ∀ s ∈ X, s.length = T) (k : ℕ) (hk : 0 < k) :
    l.infer (.cube (X.map (fun s => s.take k))) = some (.cube (Y.map (fun y => y.take k))) := by
  have hg : l.GoodInput X T := by
    by_contra hc
    rw [LSTM.infer_bad l X T hT hc] at h; simp at h
  have hg' : l.GoodInput (X.map (fun s => s.take k)) (min k T) := by
    refine ⟨by simpa using hg.1, by have := hg.2.1; omega, ?_⟩
    intro s hs
    obtain ⟨s', hs', rfl⟩ := List.mem_map.mp hs
    refine ⟨by simp [hT s' hs'], ?_⟩
    intro r hr'
    exact (hg.2.2 s' hs').2 r (List.mem_of_mem_take hr')
  rw [LSTM.infer_eq l hl X T hg] at h
  rw [LSTM.infer_eq l hl _ _ hg']
  simp only [hr, if_true, Option.map_eq_some_iff, Arr.cube.injEq] at h ⊢
  obtain ⟨ys, hys, rfl⟩ := h
  refine ⟨_, ?_, rfl⟩
  rcases LSTM.mapM_cases l.hid X with ⟨g, eg, hgm⟩ | ⟨⟨z, hz, e⟩, hgm⟩
  swap
  · rw [hgm] at hys; simp at hys
  rw [hgm] at hys
  injection hys with hys
  subst hys
  rw [List.mapM_map, List.map_map]
  apply mapM_eq_map
  intro s hs
  have := eg s hs
  simp only [LSTM.hid, Option.map_eq_some_iff] at this
  obtain ⟨r, h1, h2⟩ := this
  simp only [Function.comp, LSTM.hid]
  rw [List.map_take, LSTM.rowRun_take l _ _ _ r k h1]
  simp [← h2, List.map_take]

/-- C28, restated: two input batches that agree in the first `k` steps give outputs that agree in the first `k`
steps, whenever both inferences succeed. -/
theorem C28_causal (l : LSTM) (hl : l.Shaped) (hr : l.returnSequences = true) (X X' Y Y' : List (List (List ℤ)))
    (h : l.infer (.cube X) = some (.cube Y)) (h' : l.infer (.cube X') = some (.cube Y'))
    (T T' : ℕ) (hT : ∀ s ∈ X, s.length = T) (hT' : ∀ s ∈ X', s.length = T') (k : ℕ) (hk : 0 < k)
    (hagree : X.map (fun s => s.take k) = X'.map (fun s => s.take k)) :
    Y.map (fun y => y.take k) = Y'.map (fun y => y.take k) := by
  have h1 := C28_prefix l hl hr X Y h T hT k hk
  have h2 := C28_prefix l hl hr X' Y' h' T' hT' k hk
  rw [hagree, h2] at h1
  simpa using h1.symm

/-! ## C26 -/

/-- A table answers every code of a dtype. -/
def Spec.Answers (t : LutLayer) (d : GDtype) : Prop := ∀ q, Code d.min d.max q → ∃ v, t.look q = some v

/-- The five tables of an LSTM answer every code that can be presented to them. -/
structure Spec.TablesComplete (l : LSTM) : Prop where
  i : Answers l.inputLut l.raDtype
  f : Answers l.forgetLut l.raDtype
  c : Answers l.cellLut l.raDtype
  o : Answers l.outputLut l.raDtype
  s : Answers l.stateLut l.cellDtype

theorem trunc_clip_range (lo hi : ℤ) (h : lo ≤ hi) (x : ℚ) : Code lo hi (trunc (clip (lo : ℚ) (hi : ℚ) x)) := by
  have h' : (lo : ℚ) ≤ hi := by exact_mod_cast h
  constructor
  · rw [← trunc_int lo]; exact trunc_mono (by rw [trunc_int]; exact clip_ge h')
  · conv_rhs => rw [← trunc_int hi]
    exact trunc_mono clip_le

theorem mem_zipWith {α β γ : Type} {f : α → β → γ} {xs : List α} {ys : List β} {z : γ}
    (h : z ∈ List.zipWith f xs ys) : ∃ x ∈ xs, ∃ y ∈ ys, f x y = z := by
  obtain ⟨i, hi, rfl⟩ := List.getElem_of_mem h
  rw [List.getElem_zipWith]
  exact ⟨_, List.getElem_mem _, _, List.getElem_mem _, rfl⟩

theorem LSTM.gateRow_range (l : LSTM) (hra : l.raDtype.min ≤ l.raDtype.max) (g : LSTMGate) (x h : List ℤ) :
    ∀ q ∈ l.gateRow g x h, Code l.raDtype.min l.raDtype.max q := by
  intro q hq
  obtain ⟨a, _, b, _, rfl⟩ := mem_zipWith hq
  exact trunc_clip_range _ _ hra _

theorem LSTM.rowStep_range (l : LSTM) (hcd : l.cellDtype.min ≤ l.cellDtype.max)
    (hhd : l.hiddenDtype.min ≤ l.hiddenDtype.max) (x h c : List ℤ) (r) (hr : l.rowStep x h c = some r) :
    (∀ v ∈ r.1, Code l.hiddenDtype.min l.hiddenDtype.max v) ∧
      (∀ v ∈ r.2, Code l.cellDtype.min l.cellDtype.max v) := by
  simp only [LSTM.rowStep, Option.bind_eq_bind, Option.bind_eq_some_iff, Option.some.injEq] at hr
  obtain ⟨aI, hI, aF, hF, aC, hC, aO, hO, aS, hS, rfl⟩ := hr
  constructor
  · intro v hv
    obtain ⟨a, _, b, _, rfl⟩ := mem_zipWith hv
    exact ⟨clip_ge hhd, clip_le⟩
  · intro v hv
    obtain ⟨a, _, b, _, rfl⟩ := mem_zipWith hv
    exact ⟨clip_ge hcd, clip_le⟩

theorem mapM_of_answers {t : LutLayer} {d : GDtype} (h : Answers t d) (xs : List ℤ)
    (hx : ∀ q ∈ xs, Code d.min d.max q) : ∃ ys, xs.mapM t.look = some ys := by
  have : xs.mapM t.look ≠ none := by
    intro hc
    obtain ⟨q, hq, hn⟩ := (mapM_none_iff _ _).mp hc
    obtain ⟨v, hv⟩ := h q (hx q hq)
    rw [hv] at hn; simp at hn
  exact Option.ne_none_iff_exists'.mp this

theorem LSTM.rowStep_total (l : LSTM) (hra : l.raDtype.min ≤ l.raDtype.max)
    (hcd : l.cellDtype.min ≤ l.cellDtype.max) (ht : TablesComplete l) (x h c : List ℤ) :
    ∃ r, l.rowStep x h c = some r := by
  obtain ⟨aI, hI⟩ := mapM_of_answers ht.i _ (l.gateRow_range hra l.gi x h)
  obtain ⟨aF, hF⟩ := mapM_of_answers ht.f _ (l.gateRow_range hra l.gf x h)
  obtain ⟨aC, hC⟩ := mapM_of_answers ht.c _ (l.gateRow_range hra l.gc x h)
  obtain ⟨aO, hO⟩ := mapM_of_answers ht.o _ (l.gateRow_range hra l.go x h)
  obtain ⟨aS, hS⟩ := mapM_of_answers ht.s (l.cellRow aF c aI aC) (by
    intro v hv
    obtain ⟨a, _, b, _, rfl⟩ := mem_zipWith hv
    exact ⟨clip_ge hcd, clip_le⟩)
  exact ⟨(List.zipWith l.hiddenVal aO aS, l.cellRow aF c aI aC), by simp only [LSTM.rowStep, hI, hF, hC, hO, hS, Option.bind_eq_bind, Option.bind_some]⟩

theorem LSTM.rowRun_total (l : LSTM) (hra : l.raDtype.min ≤ l.raDtype.max)
    (hcd : l.cellDtype.min ≤ l.cellDtype.max) (ht : TablesComplete l) (xs : List (List ℤ)) (h c : List ℤ) :
    ∃ r, l.rowRun xs h c = some r := by
  induction xs generalizing h c with
  | nil => exact ⟨[], rfl⟩
  | cons x xs ih =>
    obtain ⟨r, hr⟩ := l.rowStep_total hra hcd ht x h c
    obtain ⟨rs, hrs⟩ := ih r.1 r.2
    exact ⟨r :: rs, by simp only [LSTM.rowRun, hr, hrs, Option.bind_eq_bind, Option.bind_some]⟩

theorem LSTM.rowRun_range (l : LSTM) (hl : l.Shaped) (hcd : l.cellDtype.min ≤ l.cellDtype.max)
    (hhd : l.hiddenDtype.min ≤ l.hiddenDtype.max) (xs : List (List ℤ)) (h c : List ℤ)
    (hc : c.length = l.nCells) (r) (hr : l.rowRun xs h c = some r) :
    ∀ p ∈ r, (p.1.length = l.nCells ∧ ∀ v ∈ p.1, Code l.hiddenDtype.min l.hiddenDtype.max v) ∧
      (p.2.length = l.nCells ∧ ∀ v ∈ p.2, Code l.cellDtype.min l.cellDtype.max v) := by
  induction xs generalizing h c r with
  | nil => simp [LSTM.rowRun] at hr; simp [hr]
  | cons x xs ih =>
    simp only [LSTM.rowRun, Option.bind_eq_bind, Option.bind_eq_some_iff, Option.some.injEq] at hr
    obtain ⟨s, h1, rest, h2, rfl⟩ := hr
    have a1 := l.rowStep_range hcd hhd x h c s h1
    have a2 := LSTM.rowStep_length l hl x h c hc s h1
    intro p hp
    rcases List.mem_cons.mp hp with rfl | hp
    · exact ⟨⟨a2.1, a1.1⟩, ⟨a2.2, a1.2⟩⟩
    · exact ih _ _ a2.2 _ h2 p hp

/-- C26 (ranges).  After every time step, for every batch, all hidden and cell values of every sample are codes of
their dtypes; there is one row of `nCells` values per sample and one state pair per time step.  (Nothing is assumed
about weights, biases, zero points, scales or tables.) -/
theorem C26_states_in_range (l : LSTM) (hl : l.Shaped) (hcd : l.cellDtype.min ≤ l.cellDtype.max)
    (hhd : l.hiddenDtype.min ≤ l.hiddenDtype.max) (X : List (List (List ℤ))) (T : ℕ) (hX : l.GoodInput X T)
    (st) (hst : l.states X = some st) :
    st.length = T ∧ ∀ p ∈ st,
      (p.1.length = X.length ∧ ∀ row ∈ p.1, row.length = l.nCells ∧
        ∀ v ∈ row, Code l.hiddenDtype.min l.hiddenDtype.max v) ∧
      (p.2.length = X.length ∧ ∀ row ∈ p.2, row.length = l.nCells ∧
        ∀ v ∈ row, Code l.cellDtype.min l.cellDtype.max v) := by
  rw [LSTM.states_eq l hl X T hX] at hst
  rcases LSTM.mapM_cases l.hidc X with ⟨g, eg, hg⟩ | ⟨-, hg⟩
  swap
  · rw [hg] at hst; simp at hst
  rw [hg] at hst
  simp only [Option.map_some, Option.some.injEq] at hst
  subst hst
  refine ⟨by simp [LSTM.timeMajor], ?_⟩
  intro p hp
  simp only [LSTM.timeMajor, List.mem_map, List.mem_range] at hp
  obtain ⟨t, ht, rfl⟩ := hp
  have key : ∀ s ∈ X, (g s).getD t ([], []) ∈ g s := by
    intro s hs
    have : t < (g s).length := by rw [LSTM.hidc_length l s _ (eg s hs), (hX.2.2 s hs).1]; exact ht
    rw [List.getD_eq_getElem?_getD, List.getElem?_eq_getElem this]
    exact List.getElem_mem this
  refine ⟨⟨by simp, ?_⟩, ⟨by simp, ?_⟩⟩
  all_goals
    intro row hrow
    simp only [List.map_map, List.mem_map, Function.comp] at hrow
    obtain ⟨s, hs, rfl⟩ := hrow
    have := l.rowRun_range hl hcd hhd _ _ _ (by simp) _ (eg s hs) _ (key s hs)
  · exact this.1
  · exact this.2

/-- C26 (no index error).  If each gate's table answers every code of the dtype of the recurrent sum, and the state
table every code of the cell dtype, inference succeeds on every well-shaped input — no look-up ever leaves its
table — and every value returned is a code of the hidden dtype. -/
theorem C26_never_raises (l : LSTM) (hl : l.Shaped) (hra : l.raDtype.min ≤ l.raDtype.max)
    (hcd : l.cellDtype.min ≤ l.cellDtype.max) (hhd : l.hiddenDtype.min ≤ l.hiddenDtype.max)
    (ht : TablesComplete l) (X : List (List (List ℤ))) (T : ℕ) (hX : l.GoodInput X T) :
    ∃ out, l.infer (.cube X) = some out ∧ ∀ v ∈ out.flat, Code l.hiddenDtype.min l.hiddenDtype.max v := by
  rw [LSTM.infer_eq l hl X T hX]
  rcases LSTM.mapM_cases l.hid X with ⟨g, eg, hg⟩ | ⟨⟨z, hz, e⟩, -⟩
  swap
  · obtain ⟨r, hr⟩ := l.rowRun_total hra hcd ht (z.map (fun r => r.map (fun v => v - l.inputZp)))
      (List.replicate l.nCells 0) (List.replicate l.nCells 0)
    simp [LSTM.hid, hr] at e
  rw [hg]
  refine ⟨_, rfl, ?_⟩
  have key : ∀ s ∈ X, ∀ y ∈ g s, ∀ v ∈ y, Code l.hiddenDtype.min l.hiddenDtype.max v := by
    intro s hs y hy v hv
    have := eg s hs
    simp only [LSTM.hid, Option.map_eq_some_iff] at this
    obtain ⟨r, h1, h2⟩ := this
    rw [← h2] at hy
    obtain ⟨p, hp, rfl⟩ := List.mem_map.mp hy
    exact (l.rowRun_range hl hcd hhd _ _ _ (by simp) _ h1 p hp).1.2 v hv
  intro v hv
  cases hr : l.returnSequences
  · simp only [hr, Bool.false_eq_true, if_false, Arr.flat, List.mem_flatten, List.mem_map, List.map_map,
      Function.comp] at hv
    obtain ⟨y, ⟨s, hs, rfl⟩, hv⟩ := hv
    rw [List.getLastD_eq_getLast?] at hv
    cases hlast : (g s).getLast? with
    | none => rw [hlast] at hv; simp at hv
    | some y => rw [hlast] at hv; exact key s hs y (List.mem_of_getLast? hlast) v hv
  · simp only [hr, if_true, Arr.flat, List.mem_flatten, List.mem_map] at hv
    obtain ⟨y, ⟨_, ⟨s, hs, rfl⟩, hy⟩, hv⟩ := hv
    exact key s hs y hy v hv

/-- C26: the tables written by the quantizer (C07) answer every code, so the hypothesis of `C26_never_raises` holds
for exported models, with plain and with reduced tables. -/
theorem C26_exported_tables_answer (d : GDtype) (hd : Fits32 d.min d.max) (f : ℚ → ℚ) (is : ℚ) (izp : ℤ)
    (hz : ∀ q, Code d.min d.max q → IsInt32 (q - izp)) (os : ℚ) (ozp : ℤ) (reduced : Option (ℤ × ℤ)) (t : LutLayer)
    (ht : LutLayer.ofNode (lutNode d (Quantization.createLUT d f is izp os ozp) reduced) = some t) :
    Answers t d := by
  intro q hq
  obtain ⟨l, h1, h2, -⟩ := C07_layer_reads_entry d hd f is izp os ozp q hq (hz q hq) reduced
  rw [h1] at ht
  injection ht with ht
  subst ht
  exact ⟨_, h2⟩

/-! ## C55: accuracy of one LSTM step -/

theorem clip_trunc_error {lo hi : ℤ} {x : ℚ} (h1 : (lo : ℚ) ≤ x) (h2 : x ≤ hi) :
    |((clip lo hi (trunc x) : ℤ) : ℚ) - x| < 1 := by
  rw [clip_of_mem]
  · exact abs_trunc_sub_lt x
  · rw [← trunc_int lo]; exact trunc_mono h1
  · conv_rhs => rw [← trunc_int hi]
    exact trunc_mono h2

theorem LSTM.fl_exact (l : LSTM) (h : l.rnd = none) (x : ℚ) : l.fl x = x := by simp [LSTM.fl, h, Fmt.opt]

/-- C55 (cell).  If the real value `f·c + i·g` of the cell update is representable, the new cell code denotes it up
to less than one quantization step. -/
theorem C55_cell_accuracy (l : LSTM) (hrnd : l.rnd = none) (sF sC sI sG : ℚ) (hC : 0 < sC) (hm3 : l.m3 = sF)
    (hm4 : l.m4 = sI * sG / sC) (f c i g : ℤ)
    (hlo : real l.cellZp sC l.cellDtype.min ≤
      real l.forgetGateZp sF f * real l.cellZp sC c + real l.inputGateZp sI i * real l.cellGateZp sG g)
    (hhi : real l.forgetGateZp sF f * real l.cellZp sC c + real l.inputGateZp sI i * real l.cellGateZp sG g
      ≤ real l.cellZp sC l.cellDtype.max) :
    |real l.cellZp sC (l.cellVal f c i g) -
      (real l.forgetGateZp sF f * real l.cellZp sC c + real l.inputGateZp sI i * real l.cellGateZp sG g)| < sC := by
  set x : ℚ := l.cellZp + l.m3 * (f - l.forgetGateZp) * (c - l.cellZp)
    + l.m4 * ((i - l.inputGateZp) * (g - l.cellGateZp)) with hx
  have ht : real l.forgetGateZp sF f * real l.cellZp sC c + real l.inputGateZp sI i * real l.cellGateZp sG g
      = sC * (x - l.cellZp) := by
    rw [hx, hm3, hm4]; unfold real; field_simp; ring
  rw [ht] at hlo hhi
  rw [ht]
  unfold real at hlo hhi
  unfold real
  have h1 : (l.cellDtype.min : ℚ) ≤ x := by
    have := le_of_mul_le_mul_left hlo hC; linarith
  have h2 : x ≤ (l.cellDtype.max : ℚ) := by
    have := le_of_mul_le_mul_left hhi hC; linarith
  have h3 := clip_trunc_error h1 h2
  have h4 : l.cellVal f c i g = clip l.cellDtype.min l.cellDtype.max (trunc x) := by
    unfold LSTM.cellVal
    simp only [l.fl_exact hrnd]
    rw [hx]
  rw [h4]
  have : sC * ((clip l.cellDtype.min l.cellDtype.max (trunc x) : ℤ) - (l.cellZp : ℚ)) - sC * (x - l.cellZp)
      = sC * ((clip l.cellDtype.min l.cellDtype.max (trunc x) : ℤ) - x) := by ring
  rw [this, abs_mul, abs_of_pos hC]
  calc sC * _ < sC * 1 := by exact mul_lt_mul_of_pos_left h3 hC
    _ = sC := mul_one _

/-- C55 (hidden).  If the real value `o·a` is representable, the new hidden code denotes it up to less than one
quantization step. -/
theorem C55_hidden_accuracy (l : LSTM) (hrnd : l.rnd = none) (sO sA sH : ℚ) (hH : 0 < sH) (hm5 : l.m5 = sO * sA / sH) (o a : ℤ)
    (hlo : real l.hiddenZp sH l.hiddenDtype.min ≤ real l.outputGateZp sO o * real l.cellActZp sA a)
    (hhi : real l.outputGateZp sO o * real l.cellActZp sA a ≤ real l.hiddenZp sH l.hiddenDtype.max) :
    |real l.hiddenZp sH (l.hiddenVal o a) - real l.outputGateZp sO o * real l.cellActZp sA a| < sH := by
  set x : ℚ := l.hiddenZp + l.m5 * ((o - l.outputGateZp) * (a - l.cellActZp)) with hx
  have ht : real l.outputGateZp sO o * real l.cellActZp sA a = sH * (x - l.hiddenZp) := by
    rw [hx, hm5]; unfold real; field_simp; ring
  rw [ht] at hlo hhi
  rw [ht]
  unfold real at hlo hhi
  unfold real
  have h1 : (l.hiddenDtype.min : ℚ) ≤ x := by
    have := le_of_mul_le_mul_left hlo hH; linarith
  have h2 : x ≤ (l.hiddenDtype.max : ℚ) := by
    have := le_of_mul_le_mul_left hhi hH; linarith
  have h3 := clip_trunc_error h1 h2
  have h4 : l.hiddenVal o a = clip l.hiddenDtype.min l.hiddenDtype.max (trunc x) := by
    unfold LSTM.hiddenVal
    simp only [l.fl_exact hrnd]
    rw [hx]
  rw [h4]
  have : sH * ((clip l.hiddenDtype.min l.hiddenDtype.max (trunc x) : ℤ) - (l.hiddenZp : ℚ)) - sH * (x - l.hiddenZp)
      = sH * ((clip l.hiddenDtype.min l.hiddenDtype.max (trunc x) : ℤ) - x) := by ring
  rw [this, abs_mul, abs_of_pos hH]
  calc sH * _ < sH * 1 := by exact mul_lt_mul_of_pos_left h3 hH
    _ = sH := mul_one _

/-- The pre-activation of one gate of one cell from the two integer sums `a = h·U` and `k = x·K` and the bias. -/
theorem LSTM.gateRow_get (l : LSTM) (g : LSTMGate) (x h : List ℤ) (j : ℕ) (hj : j < l.nCells) (b : ℤ)
    (hb : g.bias[j]? = some b) :
    (l.gateRow g x h)[j]? = some (l.sumVal g (wrapS 64 (dot64 h (g.recurrent.map (fun r => r.getD j 0)) +
        l.firstVal g (wrapS 64 (dot64 x (g.kernel.map (fun r => r.getD j 0)) + b))))) := by
  unfold LSTM.gateRow LSTM.vecMat
  simp [List.getElem?_zipWith, hj, hb]

/-- C55 (gates).  Without int64 overflow, and if the sum is representable with a margin of one accumulator step
`sH·sR`, the code presented to a gate's table denotes `x·K + b + sH·sR·(h·U)` up to less than one step of its own
plus one accumulator step. -/
theorem C55_gate_accuracy (l : LSTM) (hrnd : l.rnd = none) (g : LSTMGate) (sX sK sH sR sA : ℚ) (hH : 0 < sH) (hR : 0 < sR) (hA : 0 < sA)
    (hm1 : g.m1 = sK * sX / (sH * sR)) (hm2 : g.m2 = sR * sH / sA) (a k : ℤ)
    (hk : wrapS 64 k = k) (hk' : wrapS 64 (a + l.firstVal g k) = a + l.firstVal g k)
    (hlo : real g.raZp sA l.raDtype.min + sH * sR ≤ sX * sK * k + sH * sR * a)
    (hhi : sX * sK * k + sH * sR * a ≤ real g.raZp sA l.raDtype.max - sH * sR) :
    |real g.raZp sA (l.sumVal g (wrapS 64 (a + l.firstVal g (wrapS 64 k)))) - (sX * sK * k + sH * sR * a)|
      < sA + sH * sR := by
  rw [hk, hk']
  simp only [LSTM.sumVal, LSTM.firstVal, l.fl_exact hrnd]
  have hHR : 0 < sH * sR := mul_pos hH hR
  set y : ℚ := g.m1 * k with hy
  have hy' : sX * sK * k = sH * sR * y := by rw [hy, hm1]; field_simp
  have ht := abs_lt.mp (abs_trunc_sub_lt y)
  set z : ℚ := ((a + trunc y : ℤ) : ℚ) * g.m2 + g.raZp with hz
  have hzr : sA * (z - g.raZp) = sH * sR * (a + trunc y) := by
    rw [hz, hm2]; push_cast; field_simp; ring
  have e1 : sH * sR * (a + (trunc y : ℚ)) - (sH * sR * y + sH * sR * a) = sH * sR * ((trunc y : ℚ) - y) := by ring
  have b1 : sH * sR * ((trunc y : ℚ) - y) < sH * sR := by nlinarith [ht.2]
  have b2 : -(sH * sR) < sH * sR * ((trunc y : ℚ) - y) := by nlinarith [ht.1]
  rw [hy'] at hlo hhi ⊢
  unfold real at *
  have h1 : (l.raDtype.min : ℚ) ≤ z := by
    have : sA * (l.raDtype.min - (g.raZp : ℚ)) ≤ sA * (z - g.raZp) := by rw [hzr]; linarith
    have := le_of_mul_le_mul_left this hA; linarith
  have h2 : z ≤ (l.raDtype.max : ℚ) := by
    have : sA * (z - g.raZp) ≤ sA * (l.raDtype.max - (g.raZp : ℚ)) := by rw [hzr]; linarith
    have := le_of_mul_le_mul_left this hA; linarith
  rw [clip_of_mem h1 h2]
  have h3 := abs_lt.mp (abs_trunc_sub_lt z)
  have e2 : sA * ((trunc z : ℚ) - g.raZp) = sH * sR * (a + (trunc y : ℚ)) + sA * ((trunc z : ℚ) - z) := by
    rw [← hzr]; ring
  have c1 : sA * ((trunc z : ℚ) - z) < sA := by nlinarith [h3.2]
  have c2 : -sA < sA * ((trunc z : ℚ) - z) := by nlinarith [h3.1]
  rw [e2, abs_lt]
  constructor <;> linarith

/-! ## C54: zero points of the recurrent state -/

theorem dotZ_sub_const (zp : ℤ) (h u : List ℤ) (hl : h.length = u.length) :
    dotZ h u = dotZ (h.map (fun v => v - zp)) u + zp * u.sum := by
  induction h generalizing u with
  | nil => cases u <;> simp_all [dotZ]
  | cons a h ih =>
    cases u with
    | nil => simp at hl
    | cons b u =>
      have := ih u (by simpa using hl)
      simp only [List.map_cons, dotZ_cons, List.sum_cons, this]
      ring

/-- C54.  The recurrent sum of a gate uses the stored hidden codes as they are.  For a hidden state with zero point
`zp` the (overflow-free) sum therefore contains, besides the true contribution `Σ (h_k - zp)·U_kj`, the constant
`zp·Σ U_kj`. -/
theorem C54_recurrent_offset (zp a b : ℤ) (ha : 0 ≤ a) (hb : 0 ≤ b) (h : List ℤ) (U : List (List ℤ)) (n j : ℕ)
    (hj : j < n) (hlen : h.length = U.length) (hha : ∀ v ∈ h, |v| ≤ a)
    (hUb : ∀ r ∈ U, |r.getD j 0| ≤ b) (hover : h.length * (a * b) < 2 ^ 63) :
    (LSTM.vecMat h U n)[j]? = some (dotZ (h.map (fun v => v - zp)) (U.map (fun r => r.getD j 0)) +
      zp * (U.map (fun r => r.getD j 0)).sum) := by
  unfold LSTM.vecMat
  rw [List.getElem?_map, List.getElem?_range hj, Option.map_some]
  congr 1
  rw [dot64_exact a b ha hb _ _ hha (by
    intro y hy
    obtain ⟨r, hr, rfl⟩ := List.mem_map.mp hy
    exact hUb r hr) hover]
  exact dotZ_sub_const zp _ _ (by simpa using hlen)

/-- C54, consequence: the sum is the true contribution for every hidden state iff the zero point is 0 or the
recurrent weights of that cell add up to 0. -/
theorem C54_offset_harmless_iff (zp : ℤ) (u : List ℤ) :
    (∀ h : List ℤ, h.length = u.length → dotZ h u = dotZ (h.map (fun v => v - zp)) u) ↔ zp = 0 ∨ u.sum = 0 := by
  constructor
  · intro h
    have h1 := h (List.replicate u.length 0) (by simp)
    have h2 := dotZ_sub_const zp (List.replicate u.length 0) u (by simp)
    rw [h1] at h2
    have : zp * u.sum = 0 := by omega
    exact mul_eq_zero.mp this
  · intro h hh hl
    rw [dotZ_sub_const zp hh u hl]
    rcases h with h | h <;> simp [h]

/-- C54, initial state: the layer starts from the code 0, which denotes the real 0 iff the zero point is 0. -/
theorem C54_initial_state (l : LSTM) (s : ℚ) (hs : s ≠ 0) :
    (∀ row ∈ l.zeroState, ∀ v ∈ row, v = 0) ∧ (real l.cellZp s 0 = 0 ↔ l.cellZp = 0) ∧
      (real l.hiddenZp s 0 = 0 ↔ l.hiddenZp = 0) := by
  refine ⟨?_, ?_, ?_⟩
  · intro row hrow v hv
    rw [LSTM.zeroState, List.mem_singleton] at hrow
    rw [hrow] at hv
    exact List.eq_of_mem_replicate hv
  all_goals simp [real, hs]

/-! ## A concrete layer that meets the hypotheses -/

/-- One feature, two cells, 4-bit tables. -/
def Spec.demoLSTM (zpC : ℤ) : LSTM :=
  let g : LSTMGate := ⟨[[2, -1]], [[1, 0], [0, 1]], [1, 0], 1 / 2, 1 / 2, 1⟩
  let t : LutLayer := ⟨.plain [-8, -7, -6, -5, -4, -3, -2, -1, 0, 1, 2, 3, 4, 5, 6, 7], 8⟩
  { nFeatures := 1, nCells := 2, gi := g, gf := g, gc := g, go := g, m3 := 1 / 8, m4 := 1 / 4, m5 := 1 / 4,
    inputLut := t, forgetLut := t, cellLut := t, outputLut := t, stateLut := t, inputZp := 1, hiddenZp := 0,
    inputGateZp := 0, forgetGateZp := 0, cellGateZp := 0, outputGateZp := 0, cellZp := zpC, cellActZp := 0,
    raDtype := intDtype 3, cellDtype := intDtype 3, hiddenDtype := intDtype 3, returnSequences := true }

example : (demoLSTM 0).Shaped ∧ TablesComplete (demoLSTM 0) ∧
    (demoLSTM 0).GoodInput [[[5], [7]], [[-4], [2]]] 2 := by
  have hans : Answers (demoLSTM 0).inputLut (intDtype 3) := by
    intro q hq
    obtain ⟨h1, h2⟩ := hq
    have h1' : -8 ≤ q := h1
    have h2' : q ≤ 7 := h2
    have : ∀ n < 16, ((demoLSTM 0).inputLut.look (Int.ofNat n - 8)).isSome := by decide +kernel
    have h3 := this (q + 8).toNat (by omega)
    rw [show Int.ofNat (q + 8).toNat - 8 = q by simp; omega] at h3
    exact Option.isSome_iff_exists.mp h3
  refine ⟨⟨by decide, rfl, rfl, rfl, rfl⟩, ⟨hans, hans, hans, hans, hans⟩, ?_⟩
  unfold LSTM.GoodInput
  decide +kernel

example : (demoLSTM 0).infer (.cube [[[5], [7]], [[-4], [2]]]) =
    some (.cube [[[1, 0], [5, 0]], [[0, 0], [0, 0]]]) := by decide +kernel

end Verif
