import Verif.Props.Sequential
import Verif.Props.LSTM
import Verif.Props.FloatEngine

/-!
# C102: batches in the floating point engine

C20 and C27 for whole networks in the engine with rounded arithmetic, recurrent layers and ONNX operators included: a batch
is answered as its samples are, one at a time.
-/

namespace Verif
open Spec

/-- The samples of a batch, each as a batch of one. -/
def Spec.singles : Tensor → List Tensor
  | .int (.mat X) => X.map (fun r => .int (.mat [r]))
  | .flt (.mat X) => X.map (fun r => .flt (.mat [r]))
  | .int (.cube X) => X.map (fun m => .int (.cube [m]))
  | .flt (.cube X) => X.map (fun m => .flt (.cube [m]))
  | _ => []

/-- A batch of sequences: a 3-D array, all sequences equally long, all vectors of the same length. -/
def Spec.IsSequences (t : Tensor) : Prop :=
  (∃ X T w, t = .int (.cube X) ∧ ∀ m ∈ X, m.length = T ∧ ∀ r ∈ m, r.length = w) ∨
  (∃ X T w, t = .flt (.cube X) ∧ ∀ m ∈ X, m.length = T ∧ ∀ r ∈ m, r.length = w)

/-- All layers but the ONNX softmax (for which the claim is false, C53); matrices and biases fit together. -/
def Spec.Separable : Layer → Prop
  | .fc l => l.WF ∧ l.bias.length = l.weights.length
  | .lstm l => l.Shaped
  | .osoftmax => False
  | _ => True

namespace FloatRows

/-- How a function splits one kind of batches: `P` makes a batch of a list of samples, `s` a single sample. -/
def Splits {β : Type} (split : Tensor → List Tensor) (P : List β → Tensor) (s : β → Tensor) : Prop :=
  ∀ X, split (P X) = X.map s

/-- A function answers a batch as it answers the samples, and with a batch. -/
def Ok (split : Tensor → List Tensor) (good : Tensor → Prop) (f : Tensor → Option Tensor) (B : Tensor) : Prop :=
  (f B).map split = (split B).mapM f ∧ ∀ B', f B = some B' → good B'

theorem ok_gen {β γ : Type} {split : Tensor → List Tensor} {good : Tensor → Prop} (f : Tensor → Option Tensor)
    {P : List β → Tensor} {s : β → Tensor} {Q : List γ → Tensor} {t : γ → Tensor}
    (hP : Splits split P s) (hQ : Splits split Q t) (X : List β) (g : β → γ) (p : β → Prop) [DecidablePred p]
    (hg : (∀ x ∈ X, p x) → good (Q (X.map g)))
    (hm : f (P X) = if ∀ x ∈ X, p x then some (Q (X.map g)) else none)
    (hv : ∀ r ∈ X, f (s r) = if p r then some (t (g r)) else none) : Ok split good f (P X) := by
  unfold Ok
  rw [hm, hP]
  by_cases hp : ∀ x ∈ X, p x
  · simp only [if_pos hp]
    refine ⟨?_, fun B' h => ?_⟩
    · simp only [Option.map_some, hQ _, List.mapM_map]
      symm
      rw [List.map_map]
      exact mapM_eq_map _ _ _ (fun r hr => by simp only [Function.comp]; rw [hv r hr, if_pos (hp r hr)])
    · injection h with h
      subst h
      exact hg hp
  · simp only [if_neg hp]
    refine ⟨?_, by simp⟩
    push Not at hp
    obtain ⟨r, hr, hnr⟩ := hp
    symm
    simp only [Option.map_none, mapM_none_iff]
    exact ⟨_, List.mem_map_of_mem hr, by rw [hv r hr, if_neg hnr]⟩

theorem ok_bind {split : Tensor → List Tensor} {good good' : Tensor → Prop} {f g : Tensor → Option Tensor} {B : Tensor}
    (hf : Ok split good f B) (hg : ∀ B', f B = some B' → (split B ≠ [] → split B' ≠ []) → Ok split good' g B') :
    Ok split good' (fun t => (f t).bind g) B := by
  obtain ⟨h1, h2⟩ := hf
  unfold Ok
  rw [mapM_bind, ← h1]
  cases hi : f B with
  | none => simp [hi]
  | some B' =>
    have := hg B' hi (fun hne hc => by
      rw [hi, Option.map_some, hc] at h1
      exact hne (by simpa using ((mapM_some_iff _ _ _).mp h1.symm).1))
    simpa [hi, Ok] using this

theorem ok_some {split : Tensor → List Tensor} {good : Tensor → Prop} {B : Tensor} (h : good B) :
    Ok split good some B := by
  refine ⟨?_, fun B' e => by injection e with e; rwa [← e]⟩
  have := mapM_eq_map (fun t : Tensor => (some t : Option Tensor)) id (split B) (by simp)
  rw [List.map_id] at this
  exact this.symm

/-- The layer loop of the engine, as far as its result is concerned. -/
def pipe (F : Fmt) (ext : Ext) : List Layer → Tensor → Option Tensor
  | [], t => some t
  | l :: ls, t => (F.inferLayer ext l t).bind (pipe F ext ls)

theorem runLayers_fst (F : Fmt) (ext : Ext) (ls : List Layer) (t : Tensor) :
    (F.runLayers ext ls t).map Prod.fst = pipe F ext ls t := by
  induction ls generalizing t with
  | nil => rfl
  | cons l ls ih =>
    simp only [Fmt.runLayers, pipe, Option.bind_eq_bind]
    cases F.inferLayer ext l t with
    | none => rfl
    | some y =>
      simp only [Option.bind_some]
      rw [← ih]
      cases F.runLayers ext ls y <;> rfl

theorem pipe_ok {split : Tensor → List Tensor} {good : Tensor → Prop} (F : Fmt) (ext : Ext) (N : Layer → Prop)
    (ls : List Layer) (hls : ∀ l ∈ ls, ∀ B, good B → (split B ≠ [] ∨ ¬ N l) → Ok split good (F.inferLayer ext l) B)
    (B : Tensor) (hB : good B) (hne : split B ≠ [] ∨ ∀ l ∈ ls, ¬ N l) : Ok split good (pipe F ext ls) B := by
  induction ls generalizing B with
  | nil => exact ok_some hB
  | cons l ls ih =>
    have h1 := hls l (by simp) B hB (hne.imp id (fun h => h l (by simp)))
    exact ok_bind h1 (fun B' hi hs => ih (fun l' h => hls l' (by simp [h])) B' (h1.2 B' hi)
      (hne.imp hs (fun h l' hl' => h l' (by simp [hl']))))

/-! ## Splitting 2-D batches into vectors, any batches into batches of one -/

/-- A batch of vectors or of sequences. -/
def Any (t : Tensor) : Prop := IsBatch t ∨ IsSequences t

/-- What the two constructors of tensors have in common. -/
structure Con {α : Type} (c : Arr α → Tensor) : Prop where
  rows : Splits rows (fun X => c (.mat X)) (fun r => c (.vec r))
  one : Splits singles (fun X => c (.mat X)) (fun r => c (.mat [r]))
  seq : Splits singles (fun X => c (.cube X)) (fun r => c (.cube [r]))
  batch : ∀ (X : List (List α)) (w : ℕ), (∀ r ∈ X, r.length = w) → IsBatch (c (.mat X))
  seqs : ∀ (X : List (List (List α))) (T w : ℕ), (∀ m ∈ X, m.length = T ∧ ∀ r ∈ m, r.length = w) →
    IsSequences (c (.cube X))

theorem con_int : Con Tensor.int := ⟨fun _ => rfl, fun _ => rfl, fun _ => rfl, fun X w h => Or.inl ⟨X, w, rfl, h⟩,
  fun X T w h => Or.inl ⟨X, T, w, rfl, h⟩⟩

theorem con_flt : Con Tensor.flt := ⟨fun _ => rfl, fun _ => rfl, fun _ => rfl, fun X w h => Or.inr ⟨X, w, rfl, h⟩,
  fun X T w h => Or.inr ⟨X, T, w, rfl, h⟩⟩

/-- A function on 2-D batches, in both ways of splitting them. -/
def Ok2 (f : Tensor → Option Tensor) (B : Tensor) : Prop := Ok rows IsBatch f B ∧ Ok singles Any f B

/-- A function that treats the rows of a matrix separately. -/
theorem ok_rows {α β : Type} (f : Tensor → Option Tensor) {ci : Arr α → Tensor} {co : Arr β → Tensor} (hci : Con ci)
    (hco : Con co) (X : List (List α)) (g : List α → List β) (p : List α → Prop) [DecidablePred p] (w w' : ℕ)
    (hX : ∀ r ∈ X, r.length = w) (hg : ∀ r, p r → r.length = w → (g r).length = w')
    (hm : ∀ Y, (∀ r ∈ Y, r.length = w) → Y ≠ [] ∨ Y = X →
      f (ci (.mat Y)) = if ∀ x ∈ Y, p x then some (co (.mat (Y.map g))) else none)
    (hv : ∀ r ∈ X, f (ci (.vec r)) = if p r then some (co (.vec (g r))) else none) : Ok2 f (ci (.mat X)) := by
  have hgood : (∀ x ∈ X, p x) → IsBatch (co (.mat (X.map g))) := fun hp => hco.batch _ w' (fun r hr => by
    obtain ⟨r', hr', rfl⟩ := List.mem_map.mp hr
    exact hg _ (hp _ hr') (hX _ hr'))
  refine ⟨ok_gen f hci.rows hco.rows X g p hgood (hm X hX (Or.inr rfl)) hv,
    ok_gen f hci.one hco.one X g p (fun hp => Or.inl (hgood hp)) (hm X hX (Or.inr rfl)) (fun r hr => ?_)⟩
  rw [hm [r] (by simpa using hX r hr) (Or.inl (by simp))]
  simp

/-- A function that treats the sequences of a 3-D batch separately. -/
theorem ok_seqs {α β : Type} (f : Tensor → Option Tensor) {ci : Arr α → Tensor} {co : Arr β → Tensor} (hci : Con ci)
    (hco : Con co) (X : List (List (List α))) (g : List (List α) → List (List β)) (p : List (List α) → Prop)
    [DecidablePred p] (T w T' w' : ℕ) (hX : ∀ m ∈ X, m.length = T ∧ ∀ r ∈ m, r.length = w) (hne : X ≠ [])
    (hg : ∀ m, p m → (m.length = T ∧ ∀ r ∈ m, r.length = w) → (g m).length = T' ∧ ∀ r ∈ g m, r.length = w')
    (hm : ∀ Y, (∀ m ∈ Y, m.length = T ∧ ∀ r ∈ m, r.length = w) → Y ≠ [] →
      f (ci (.cube Y)) = if ∀ x ∈ Y, p x then some (co (.cube (Y.map g))) else none) :
    Ok singles Any f (ci (.cube X)) := by
  refine ok_gen f hci.seq hco.seq X g p (fun hp => Or.inr (hco.seqs _ T' w' (fun r hr => ?_))) (hm X hX hne)
    (fun r hr => ?_)
  · obtain ⟨r', hr', rfl⟩ := List.mem_map.mp hr
    exact hg _ (hp _ hr') (hX _ hr')
  · rw [hm [r] (by simpa using hX r hr) (by simp)]
    simp

/-- A function that rejects the whole kind of batches. -/
theorem ok_none {β : Type} {split : Tensor → List Tensor} {good : Tensor → Prop} (f : Tensor → Option Tensor)
    {P : List β → Tensor} {s : β → Tensor} (hP : Splits split P s) (X : List β) (hne : X ≠ []) (hm : f (P X) = none)
    (hv : ∀ r, f (s r) = none) : Ok split good f (P X) := by
  obtain ⟨r, rs, rfl⟩ := List.exists_cons_of_ne_nil hne
  refine ⟨?_, fun B' h => by rw [hm] at h; cases h⟩
  rw [hm, hP]
  symm
  simp only [Option.map_none, mapM_none_iff]
  exact ⟨_, List.mem_map_of_mem (List.mem_cons_self ..), hv r⟩

theorem ok_map {α β : Type} (f : Tensor → Option Tensor) {ci : Arr α → Tensor} {co : Arr β → Tensor} (hci : Con ci)
    (hco : Con co) (g : α → β) (h : ∀ a, f (ci a) = some (co (a.map g))) :
    (∀ X w, (∀ r ∈ X, r.length = w) → Ok2 f (ci (.mat X))) ∧
    (∀ X T w, (∀ m ∈ X, m.length = T ∧ ∀ r ∈ m, r.length = w) → X ≠ [] → Ok singles Any f (ci (.cube X))) := by
  constructor
  · intro X w hX
    refine ok_rows f hci hco X (fun r => r.map g) (fun _ => True) w w hX ?_ ?_ ?_
    · intro r _ hr; simp [hr]
    · intro Y _ _; simp [h, Arr.map]
    · intro r _; simp [h, Arr.map]
  · intro X T w hX hne
    refine ok_seqs f hci hco X (fun m => m.map (fun r => r.map g)) (fun _ => True) T w T w hX hne ?_ ?_
    · intro m _ hm
      refine ⟨by simp [hm.1], fun r hr => ?_⟩
      obtain ⟨r', hr', rfl⟩ := List.mem_map.mp hr
      simp [hm.2 r' hr']
    · intro Y _ _; simp [h, Arr.map]

/-- Row-wise functions of matrices and, applied along the last axis, of 3-D arrays. -/
theorem ok_axis {α : Type} (f : Tensor → Option Tensor) {ci : Arr α → Tensor} (hci : Con ci) (g : List α → List ℤ)
    (n w' : ℕ) (hg : ∀ r : List α, r.length = n → (g r).length = w')
    (hv : ∀ r, f (ci (.vec r)) = if r.length = n then some (.int (.vec (g r))) else none)
    (hm : ∀ Y, f (ci (.mat Y)) = if ∀ x ∈ Y, x.length = n then some (.int (.mat (Y.map g))) else none)
    (hc : ∀ Y, f (ci (.cube Y)) = if ∀ m ∈ Y, ∀ x ∈ m, x.length = n then
      some (.int (.cube (Y.map (fun m => m.map g)))) else none) :
    (∀ X w, (∀ r ∈ X, r.length = w) → Ok2 f (ci (.mat X))) ∧
    (∀ X T w, (∀ m ∈ X, m.length = T ∧ ∀ r ∈ m, r.length = w) → X ≠ [] → Ok singles Any f (ci (.cube X))) := by
  constructor
  · intro X w hX
    exact ok_rows f hci con_int X g (fun r => r.length = n) w w' hX (fun r hr _ => hg r hr) (fun Y _ _ => hm Y)
      (fun r _ => hv r)
  · intro X T w hX hne
    refine ok_seqs f hci con_int X (fun m => m.map g) (fun m => ∀ x ∈ m, x.length = n) T w T w' hX hne ?_
      (fun Y _ _ => hc Y)
    intro m hp hm
    refine ⟨by simp [hm.1], fun r hr => ?_⟩
    obtain ⟨r', hr', rfl⟩ := List.mem_map.mp hr
    exact hg r' (hp r' hr')

/-! ## The layers -/

/-- What has to be shown of a layer, for one type of elements. -/
def Both {α : Type} (f : Tensor → Option Tensor) (ci : Arr α → Tensor) : Prop :=
  (∀ X w, (∀ r ∈ X, r.length = w) → X ≠ [] → Ok2 f (ci (.mat X))) ∧
  (∀ X T w, (∀ m ∈ X, m.length = T ∧ ∀ r ∈ m, r.length = w) → X ≠ [] → Ok singles Any f (ci (.cube X)))

theorem fc_rows (F : Fmt) (ext : Ext) (l : FC) (hl : l.WF) (hb : l.bias.length = l.weights.length) {α : Type}
    {ci : Arr α → Tensor} (hci : Con ci) (c : α → ℤ) (hc : ∀ a, (ci a).toInt = a.map c) (X : List (List α)) (w : ℕ)
    (hX : ∀ r ∈ X, r.length = w) : Ok2 (F.inferLayer ext (.fc l)) (ci (.mat X)) := by
  refine ok_rows _ hci con_int X
    (fun x => (FC.addBias l.bias (matVec l.weights (l.center (x.map c)))).map l.finish)
    (fun x => x.length = l.nIn) w l.weights.length hX ?_ ?_ ?_
  · intro r _ _
    simp [FC.addBias, matVec, hb]
  · intro Y _ _
    simp only [Fmt.inferLayer, Layer.infer, hc, Arr.map, FC.infer_mat l hl, hb, and_true]
    simp only [List.mem_map, forall_exists_index, and_imp, forall_apply_eq_imp_iff₂, List.length_map, List.map_map]
    split_ifs <;> rfl
  · intro r _
    simp only [Fmt.inferLayer, Layer.infer, hc, Arr.map, FC.infer_vec, hb, and_true, List.length_map]
    split_ifs <;> rfl

theorem fc_cube (F : Fmt) (ext : Ext) (l : FC) {α : Type} {ci : Arr α → Tensor} (c : α → ℤ)
    (hc : ∀ a, (ci a).toInt = a.map c) (X : List (List (List α))) :
    F.inferLayer ext (.fc l) (ci (.cube X)) = none := by
  simp only [Fmt.inferLayer, Layer.infer, hc, Arr.map, FC.infer, FC.accumulator, Option.map_none]

theorem qadd_both (F : Fmt) (ext : Ext) (l : QAdd) {α : Type} {ci : Arr α → Tensor} (hci : Con ci) (c : α → ℤ)
    (hc : ∀ a, (ci a).toInt = a.map c) :
    (∀ X w, (∀ r ∈ X, r.length = w) → Ok2 (F.inferLayer ext (.qadd l)) (ci (.mat X))) ∧
    (∀ X T w, (∀ m ∈ X, m.length = T ∧ ∀ r ∈ m, r.length = w) → X ≠ [] →
      Ok singles Any (F.inferLayer ext (.qadd l)) (ci (.cube X))) := by
  refine ok_axis _ hci (fun x => List.zipWith (F.qaddElem l) (x.map c) l.b) l.b.length l.b.length ?_ ?_ ?_ ?_
  · intro r hr; simp [hr]
  · intro r
    simp only [Fmt.inferLayer, hc, Arr.map, Fmt.qaddInfer, List.length_map]
    split_ifs <;> rfl
  · intro Y
    simp only [Fmt.inferLayer, hc, Arr.map, Fmt.qaddInfer]
    simp only [List.mem_map, forall_exists_index, and_imp, forall_apply_eq_imp_iff₂, List.length_map, List.map_map]
    split_ifs <;> rfl
  · intro Y
    simp only [Fmt.inferLayer, hc, Arr.map, Fmt.qaddInfer]
    simp only [List.mem_map, forall_exists_index, and_imp, forall_apply_eq_imp_iff₂, List.length_map, List.map_map]
    split_ifs <;> first | rfl | simp [Function.comp_def]

theorem qmatmul_both (F : Fmt) (ext : Ext) (l : QMatMul) {α : Type} {ci : Arr α → Tensor} (hci : Con ci) (c : α → ℤ)
    (hc : ∀ a, (ci a).toInt = a.map c) :
    (∀ X w, (∀ r ∈ X, r.length = w) → Ok2 (F.inferLayer ext (.qmatmul l)) (ci (.mat X))) ∧
    (∀ X T w, (∀ m ∈ X, m.length = T ∧ ∀ r ∈ m, r.length = w) → X ≠ [] →
      Ok singles Any (F.inferLayer ext (.qmatmul l)) (ci (.cube X))) := by
  refine ok_axis _ hci (fun x => F.qmatmulRow l (x.map c)) l.nIn l.nOut ?_ ?_ ?_ ?_
  · intro r hr; simp [Fmt.qmatmulRow]
  · intro r
    simp only [Fmt.inferLayer, hc, Arr.map, Fmt.qmatmulInfer, List.length_map]
    split_ifs <;> rfl
  · intro Y
    simp only [Fmt.inferLayer, hc, Arr.map, Fmt.qmatmulInfer]
    simp only [List.mem_map, forall_exists_index, and_imp, forall_apply_eq_imp_iff₂, List.length_map, List.map_map]
    split_ifs <;> rfl
  · intro Y
    simp only [Fmt.inferLayer, hc, Arr.map, Fmt.qmatmulInfer]
    simp only [List.mem_map, forall_exists_index, and_imp, forall_apply_eq_imp_iff₂, List.length_map, List.map_map]
    split_ifs <;> first | rfl | simp [Function.comp_def]

/-! ### Look-up tables -/

theorem lut_cube (l : LutLayer) (X : List (List (List ℤ))) :
    l.infer (.cube X) = if X.flatten.flatten = [] then none
      else (X.mapM (fun (m : List (List ℤ)) => m.mapM (fun (r : List ℤ) => r.mapM l.look))).map .cube := by
  unfold LutLayer.infer
  by_cases h : X.flatten.flatten = []
  · rw [if_pos h, if_pos (show (Arr.cube X).flat = [] from h)]
  · rw [if_neg h, if_neg (show ¬ (Arr.cube X).flat = [] from h)]; rfl

theorem mapM_ite {α β : Type} (f : α → Option β) (d : β) (X : List α) :
    X.mapM f = if ∀ x ∈ X, f x ≠ none then some (X.map (fun x => (f x).getD d)) else none := by
  split_ifs with h
  · exact mapM_eq_map _ _ _ (fun x hx => by
      obtain ⟨m, hm⟩ := Option.ne_none_iff_exists'.mp (h x hx)
      rw [hm]; rfl)
  · push Not at h
    exact (mapM_none_iff _ _).mpr h

theorem lut_both (F : Fmt) (ext : Ext) (l : LutLayer) : Both (F.inferLayer ext (.lut l)) Tensor.int := by
  constructor
  · intro X w hX hne
    refine ok_rows _ con_int con_int X (fun x => (x.mapM l.look).getD []) (fun x => x ≠ [] ∧ x.mapM l.look ≠ none)
      w w hX ?_ ?_ ?_
    · intro r ⟨_, h⟩ hw
      obtain ⟨m, hm⟩ := Option.ne_none_iff_exists'.mp h
      rw [hm, Option.getD_some, ← hw, ((mapM_some_iff _ _ _).mp hm).1]
    · intro Y hY hY0
      have hY0 : Y ≠ [] := by rcases hY0 with h | rfl <;> assumption
      show (l.infer (.mat Y)).map Tensor.int = _
      rw [LutLayer.infer_mat, mapM_ite _ ([] : List ℤ)]
      obtain ⟨r, rs, rfl⟩ := List.exists_cons_of_ne_nil hY0
      by_cases hw : w = 0
      · subst hw
        have e : ∀ x ∈ r :: rs, x = [] := fun x hx => List.length_eq_zero_iff.mp (hY x hx)
        rw [if_pos (List.flatten_eq_nil_iff.mpr e), if_neg (fun h => (h r (by simp)).1 (e r (by simp)))]
        rfl
      · have e : ∀ x ∈ r :: rs, x ≠ [] := fun x hx h => hw (by rw [← hY x hx, h]; rfl)
        rw [if_neg (fun h => e r (by simp) (List.flatten_eq_nil_iff.mp h r (by simp)))]
        by_cases h : ∀ x ∈ r :: rs, x.mapM l.look ≠ none
        · rw [if_pos h, if_pos (fun x hx => ⟨e x hx, h x hx⟩)]; rfl
        · rw [if_neg h, if_neg (fun h' => h (fun x hx => (h' x hx).2))]; rfl
    · intro r hr
      show (l.infer (.vec r)).map Tensor.int = _
      rw [LutLayer.infer_vec]
      by_cases h0 : r = []
      · simp [h0]
      · cases h : r.mapM l.look <;> simp [h0]
  · intro X T w hX hne
    refine ok_seqs _ con_int con_int X
      (fun m => (m.mapM (fun (r : List ℤ) => r.mapM l.look)).getD [])
      (fun m => m.flatten ≠ [] ∧ m.mapM (fun (r : List ℤ) => r.mapM l.look) ≠ none) T w T w hX hne ?_ ?_
    · intro m ⟨_, h⟩ ⟨hT, hw⟩
      obtain ⟨m', hm⟩ := Option.ne_none_iff_exists'.mp h
      rw [hm, Option.getD_some]
      obtain ⟨h1, h2⟩ := (mapM_some_iff _ _ _).mp hm
      refine ⟨by rw [← hT, h1], fun r hr => ?_⟩
      obtain ⟨i, hi, rfl⟩ := List.getElem_of_mem hr
      have h3 := h2 i (m[i]'(by omega)) m'[i] (List.getElem?_eq_getElem (by omega)) (List.getElem?_eq_getElem hi)
      rw [← ((mapM_some_iff _ _ _).mp h3).1]
      exact hw _ (List.getElem_mem _)
    · intro Y hY hY0
      show (l.infer (.cube Y)).map Tensor.int = _
      rw [lut_cube, mapM_ite _ ([] : List (List ℤ))]
      obtain ⟨r, rs, rfl⟩ := List.exists_cons_of_ne_nil hY0
      by_cases hw : w = 0 ∨ T = 0
      · have e : ∀ x ∈ r :: rs, x.flatten = [] := fun x hx => by
          rcases hw with rfl | rfl
          · exact List.flatten_eq_nil_iff.mpr (fun y hy => List.length_eq_zero_iff.mp ((hY x hx).2 y hy))
          · rw [List.length_eq_zero_iff.mp (hY x hx).1]; rfl
        rw [if_pos, if_neg (fun h => (h r (by simp)).1 (e r (by simp)))]
        · rfl
        · rw [List.flatten_flatten, List.flatten_eq_nil_iff]
          intro y hy
          obtain ⟨x, hx, rfl⟩ := List.mem_map.mp hy
          exact e x hx
      · push Not at hw
        have e : ∀ x ∈ r :: rs, x.flatten ≠ [] := fun x hx h => by
          obtain ⟨y, ys, rfl⟩ := List.exists_cons_of_ne_nil (l := x)
            (fun hc => hw.2 (by rw [← (hY x hx).1, hc]; rfl))
          have := List.flatten_eq_nil_iff.mp h y (by simp)
          exact hw.1 (by rw [← (hY _ hx).2 y (by simp), this]; rfl)
        rw [if_neg (fun h => e r (by simp) (by
          rw [List.flatten_flatten, List.flatten_eq_nil_iff] at h
          exact h _ (List.mem_map_of_mem (by simp))))]
        by_cases h : ∀ x ∈ r :: rs, x.mapM (fun (r : List ℤ) => r.mapM l.look) ≠ none
        · rw [if_pos h, if_pos (fun x hx => ⟨e x hx, h x hx⟩)]; rfl
        · rw [if_neg h, if_neg (fun h' => h (fun x hx => (h' x hx).2))]; rfl

/-! ### Recurrent layers -/

theorem run_width (l : LSTM) (hl : l.Shaped) (xs : List (List ℤ)) (h c : List ℤ) (hc : c.length = l.nCells) (r)
    (hr : l.rowRun xs h c = some r) : ∀ p ∈ r, p.1.length = l.nCells := by
  induction xs generalizing h c r with
  | nil => simp only [LSTM.rowRun, Option.some.injEq] at hr; subst hr; simp
  | cons x xs ih =>
    simp only [LSTM.rowRun, Option.bind_eq_bind, Option.bind_eq_some_iff, Option.some.injEq] at hr
    obtain ⟨q, hs, rest, hrest, rfl⟩ := hr
    have hw := LSTM.rowStep_length l hl x h c hc _ hs
    intro p hp
    rcases List.mem_cons.mp hp with rfl | hp
    · exact hw.1
    · exact ih _ _ hw.2 rest hrest p hp

theorem hid_width (l : LSTM) (hl : l.Shaped) (s y : List (List ℤ)) (h : l.hid s = some y) :
    y.length = s.length ∧ ∀ r ∈ y, r.length = l.nCells := by
  unfold LSTM.hid at h
  obtain ⟨q, hq, rfl⟩ := Option.map_eq_some_iff.mp h
  refine ⟨by simpa using LSTM.rowRun_length l _ _ _ _ hq, fun r hr => ?_⟩
  obtain ⟨p, hp, rfl⟩ := List.mem_map.mp hr
  exact run_width l hl _ _ _ (by simp) q hq p hp

theorem lstm_eq (l : LSTM) (hl : l.Shaped) (T : ℕ) (Y : List (List (List ℤ))) (hY : ∀ m ∈ Y, m.length = T)
    (hY0 : Y ≠ []) :
    l.infer (.cube Y) = if ∀ s ∈ Y, (s ≠ [] ∧ ∀ r ∈ s, r.length = l.nFeatures) ∧ l.hid s ≠ none then
      some (if l.returnSequences then .cube (Y.map (fun s => (l.hid s).getD []))
        else .mat (Y.map (fun s => ((l.hid s).getD []).getLastD []))) else none := by
  by_cases hg : l.GoodInput Y T
  · rw [LSTM.infer_eq l hl Y T hg, mapM_ite _ ([] : List (List ℤ))]
    by_cases h : ∀ s ∈ Y, l.hid s ≠ none
    · have h0 : ∀ s ∈ Y, s ≠ [] := fun s hs hc => by
        have := hg.2.1
        rw [← hY s hs, hc] at this
        simp at this
      rw [if_pos h, if_pos (fun s hs => ⟨⟨h0 s hs, (hg.2.2 s hs).2⟩, h s hs⟩)]
      simp only [Option.map_some, List.map_map, Function.comp_def]
    · rw [if_neg h, if_neg (fun h' => h (fun s hs => (h' s hs).2))]; rfl
  · rw [LSTM.infer_bad l Y T hY hg, if_neg]
    intro h
    apply hg
    obtain ⟨s, rs, rfl⟩ := List.exists_cons_of_ne_nil hY0
    refine ⟨hY0, ?_, fun x hx => ⟨hY x hx, (h x hx).1.2⟩⟩
    rw [← hY s (by simp)]
    exact List.length_pos_iff.mpr (h s (by simp)).1.1

theorem lstm_seqs (F : Fmt) (ext : Ext) (l : LSTM) (hl : l.Shaped) (X : List (List (List ℤ))) (T : ℕ)
    (hX : ∀ m ∈ X, m.length = T) (hne : X ≠ []) : Ok singles Any (F.inferLayer ext (.lstm l)) (.int (.cube X)) := by
  have hw : ∀ s, l.hid s ≠ none → s ∈ X → ((l.hid s).getD []).length = T ∧
      ∀ r ∈ (l.hid s).getD [], r.length = l.nCells := fun s h hs => by
    obtain ⟨y, hy⟩ := Option.ne_none_iff_exists'.mp h
    have := hid_width l hl s y hy
    rw [hX s hs] at this
    rw [hy]; exact this
  have hf : ∀ Y : List (List (List ℤ)), F.inferLayer ext (.lstm l) (.int (.cube Y)) = (l.infer (.cube Y)).map .int :=
    fun _ => rfl
  by_cases hr : l.returnSequences
  · refine ok_gen _ con_int.seq con_int.seq X (fun s => (l.hid s).getD [])
      (fun s => (s ≠ [] ∧ ∀ r ∈ s, r.length = l.nFeatures) ∧ l.hid s ≠ none)
      (fun hp => Or.inr (con_int.seqs _ T l.nCells (fun m hm => ?_))) ?_ (fun s hs => ?_)
    · obtain ⟨s, hs, rfl⟩ := List.mem_map.mp hm
      exact hw s (hp s hs).2 hs
    · rw [hf, lstm_eq l hl T X hX hne]
      simp only [hr, if_true]
      split_ifs <;> rfl
    · rw [hf, lstm_eq l hl T [s] (by simpa using hX s hs) (by simp)]
      simp only [hr, if_true, List.mem_singleton, forall_eq]
      split_ifs <;> rfl
  · refine ok_gen _ con_int.seq con_int.one X (fun s => ((l.hid s).getD []).getLastD [])
      (fun s => (s ≠ [] ∧ ∀ r ∈ s, r.length = l.nFeatures) ∧ l.hid s ≠ none)
      (fun hp => Or.inl (con_int.batch _ l.nCells (fun m hm => ?_))) ?_ (fun s hs => ?_)
    · obtain ⟨s, hs, rfl⟩ := List.mem_map.mp hm
      have h1 := hw s (hp s hs).2 hs
      have h2 : (l.hid s).getD [] ≠ [] := fun hc => by
        rw [hc] at h1
        exact (hp s hs).1.1 (List.length_eq_zero_iff.mp (by rw [hX s hs, ← h1.1]; rfl))
      rw [List.getLastD_eq_getLast?, List.getLast?_eq_some_getLast h2]
      exact h1.2 _ (List.getLast_mem h2)
    · rw [hf, lstm_eq l hl T X hX hne]
      simp only [hr]
      split_ifs <;> first | rfl | contradiction
    · rw [hf, lstm_eq l hl T [s] (by simpa using hX s hs) (by simp)]
      simp only [hr, List.mem_singleton, forall_eq]
      split_ifs <;> first | rfl | contradiction

/-! ### All layers -/

theorem map_map' {α β γ : Type} (f : α → β) (g : β → γ) (a : Arr α) : (a.map f).map g = a.map (g ∘ f) := by
  cases a <;> simp [Arr.map]

/-- Element-wise layers, on integers and floats. -/
def elems : Layer → Bool
  | .quantize .. | .dequantize .. | .tanh .. | .sigmoid .. | .relu _ | .qsigmoid .. | .otanh | .softmax => true
  | _ => false

theorem elems_map (F : Fmt) (ext : Ext) (l : Layer) (hl : elems l) {α : Type} {ci : Arr α → Tensor}
    (c : α → ℤ) (hc : ∀ a, (ci a).toInt = a.map c) (d : α → ℚ) (hd : ∀ a, (ci a).toFlt = a.map d) :
    (∃ g : α → ℤ, ∀ a, F.inferLayer ext l (ci a) = some (.int (a.map g))) ∨
    (∃ g : α → ℚ, ∀ a, F.inferLayer ext l (ci a) = some (.flt (a.map g))) ∨
    (∀ a, F.inferLayer ext l (ci a) = some (ci (a.map id))) := by
  cases l with
  | quantize dt zp s => exact Or.inl ⟨_, fun a => by simp only [Fmt.inferLayer, hd, map_map']; rfl⟩
  | dequantize zp s => exact Or.inr (Or.inl ⟨_, fun a => by simp only [Fmt.inferLayer, hc, map_map']; rfl⟩)
  | tanh zp s => exact Or.inl ⟨_, fun a => by simp only [Fmt.inferLayer, hc, map_map']; rfl⟩
  | sigmoid zp s => exact Or.inl ⟨_, fun a => by simp only [Fmt.inferLayer, hc, map_map']; rfl⟩
  | relu l => exact Or.inl ⟨_, fun a => by simp only [Fmt.inferLayer, hc, map_map']; rfl⟩
  | qsigmoid a b c d => exact Or.inl ⟨_, fun a => by simp only [Fmt.inferLayer, hc, map_map']; rfl⟩
  | otanh => exact Or.inr (Or.inl ⟨_, fun a => by simp only [Fmt.inferLayer, Layer.infer, hd, map_map']; rfl⟩)
  | softmax => exact Or.inr (Or.inr (fun a => by cases a <;> simp [Fmt.inferLayer, Layer.infer, Arr.map]))
  | fc l => cases hl
  | lut l => cases hl
  | lstm l => cases hl
  | osoftmax => cases hl
  | qadd l => cases hl
  | qmatmul l => cases hl

theorem elems_both (F : Fmt) (ext : Ext) (l : Layer) (hl : elems l) {α : Type} {ci : Arr α → Tensor}
    (hci : Con ci) (c : α → ℤ) (hc : ∀ a, (ci a).toInt = a.map c) (d : α → ℚ) (hd : ∀ a, (ci a).toFlt = a.map d) :
    (∀ X w, (∀ r ∈ X, r.length = w) → Ok2 (F.inferLayer ext l) (ci (.mat X))) ∧
    (∀ X T w, (∀ m ∈ X, m.length = T ∧ ∀ r ∈ m, r.length = w) → X ≠ [] →
      Ok singles Any (F.inferLayer ext l) (ci (.cube X))) := by
  rcases elems_map F ext l hl c hc d hd with ⟨g, h⟩ | ⟨g, h⟩ | h
  · exact ok_map _ hci con_int g h
  · exact ok_map _ hci con_flt g h
  · exact ok_map _ hci hci id h

theorem int_toInt (a : Arr ℤ) : (Tensor.int a).toInt = a.map id := by cases a <;> simp [Tensor.toInt, Arr.map]
theorem int_toFlt (a : Arr ℤ) : (Tensor.int a).toFlt = a.map (fun (v : ℤ) => (v : ℚ)) := rfl
theorem flt_toInt (a : Arr ℚ) : (Tensor.flt a).toInt = a.map trunc := rfl
theorem flt_toFlt (a : Arr ℚ) : (Tensor.flt a).toFlt = a.map id := by cases a <;> simp [Tensor.toFlt, Arr.map]

/-- Layers other than tables and recurrent ones, on batches of vectors. -/
theorem layer_rows (F : Fmt) (ext : Ext) (l : Layer) (hl : RowWise l) (hnl : ¬ IsLut l) {α : Type}
    {ci : Arr α → Tensor} (hci : Con ci) (c : α → ℤ) (hc : ∀ a, (ci a).toInt = a.map c) (d : α → ℚ)
    (hd : ∀ a, (ci a).toFlt = a.map d) (X : List (List α)) (w : ℕ) (hX : ∀ r ∈ X, r.length = w) :
    Ok2 (F.inferLayer ext l) (ci (.mat X)) := by
  by_cases he : elems l
  · exact (elems_both F ext l he hci c hc d hd).1 X w hX
  · cases l with
    | fc l => exact fc_rows F ext l hl.1 hl.2 hci c hc X w hX
    | qadd l => exact (qadd_both F ext l hci c hc).1 X w hX
    | qmatmul l => exact (qmatmul_both F ext l hci c hc).1 X w hX
    | lut l => exact absurd trivial hnl
    | lstm l => exact hl.elim
    | osoftmax => exact hl.elim
    | _ => exact absurd rfl he

theorem rows_ok (F : Fmt) (ext : Ext) (l : Layer) (hl : RowWise l) (B : Tensor) (hB : IsBatch B)
    (hne : rows B ≠ [] ∨ ¬ IsLut l) : Ok rows IsBatch (F.inferLayer ext l) B := by
  by_cases hnl : IsLut l
  · replace hne : rows B ≠ [] := hne.resolve_right (fun h => h hnl)
    cases l with
    | lut t =>
      rcases hB with ⟨X, w, rfl, hX⟩ | ⟨X, w, rfl, hX⟩
      · exact ((lut_both F ext t).1 X w hX (by rintro rfl; exact hne rfl)).1
      · exact ok_none _ con_flt.rows X (by rintro rfl; exact hne rfl) rfl (fun _ => rfl)
    | _ => exact hnl.elim
  · rcases hB with ⟨X, w, rfl, hX⟩ | ⟨X, w, rfl, hX⟩
    · exact (layer_rows F ext l hl hnl con_int id int_toInt _ int_toFlt X w hX).1
    · exact (layer_rows F ext l hl hnl con_flt trunc flt_toInt _ flt_toFlt X w hX).1

theorem singles_ok (F : Fmt) (ext : Ext) (l : Layer) (hl : Separable l) (B : Tensor) (hB : Any B)
    (hne : singles B ≠ []) : Ok singles Any (F.inferLayer ext l) B := by
  have hrow : (∀ t, l ≠ .lstm t) → RowWise l := by
    intro h
    cases l with
    | fc l => exact hl
    | lstm l => exact absurd rfl (h l)
    | osoftmax => exact hl.elim
    | _ => exact trivial
  have key : ∀ {α : Type} {ci : Arr α → Tensor} (_ : Con ci) (c : α → ℤ) (_ : ∀ a, (ci a).toInt = a.map c)
      (d : α → ℚ) (_ : ∀ a, (ci a).toFlt = a.map d), ¬ IsLut l → (∀ t, l ≠ .lstm t) → Both (F.inferLayer ext l) ci := by
    intro α ci hci c hc d hd hnl hns
    refine ⟨fun X w hX _ => layer_rows F ext l (hrow hns) hnl hci c hc d hd X w hX, fun X T w hX hX0 => ?_⟩
    by_cases he : elems l
    · exact (elems_both F ext l he hci c hc d hd).2 X T w hX hX0
    · cases l with
      | fc l => exact ok_none _ hci.seq X hX0 (fc_cube F ext l c hc X) (fun r => fc_cube F ext l c hc [r])
      | qadd l => exact (qadd_both F ext l hci c hc).2 X T w hX hX0
      | qmatmul l => exact (qmatmul_both F ext l hci c hc).2 X T w hX hX0
      | lut l => exact absurd trivial hnl
      | lstm l => exact absurd rfl (hns l)
      | osoftmax => exact hl.elim
      | _ => exact absurd rfl he
  by_cases hs : ∃ t, l = .lstm t
  · obtain ⟨t, rfl⟩ := hs
    rcases hB with (⟨X, w, rfl, hX⟩ | ⟨X, w, rfl, hX⟩) | (⟨X, T, w, rfl, hX⟩ | ⟨X, T, w, rfl, hX⟩)
    · exact ok_none _ con_int.one X (by rintro rfl; exact hne rfl) rfl (fun _ => rfl)
    · exact ok_none _ con_flt.one X (by rintro rfl; exact hne rfl) rfl (fun _ => rfl)
    · exact lstm_seqs F ext t hl X T (fun m hm => (hX m hm).1) (by rintro rfl; exact hne rfl)
    · exact ok_none _ con_flt.seq X (by rintro rfl; exact hne rfl) rfl (fun _ => rfl)
  · have hns : ∀ t, l ≠ .lstm t := fun t h => hs ⟨t, h⟩
    by_cases hnl : IsLut l
    · cases l with
      | lut t =>
        rcases hB with (⟨X, w, rfl, hX⟩ | ⟨X, w, rfl, hX⟩) | (⟨X, T, w, rfl, hX⟩ | ⟨X, T, w, rfl, hX⟩)
        · exact ((lut_both F ext t).1 X w hX (by rintro rfl; exact hne rfl)).2
        · exact ok_none _ con_flt.one X (by rintro rfl; exact hne rfl) rfl (fun _ => rfl)
        · exact (lut_both F ext t).2 X T w hX (by rintro rfl; exact hne rfl)
        · exact ok_none _ con_flt.seq X (by rintro rfl; exact hne rfl) rfl (fun _ => rfl)
      | _ => exact hnl.elim
    · rcases hB with (⟨X, w, rfl, hX⟩ | ⟨X, w, rfl, hX⟩) | (⟨X, T, w, rfl, hX⟩ | ⟨X, T, w, rfl, hX⟩)
      · exact ((key con_int id int_toInt _ int_toFlt hnl hns).1 X w hX (by rintro rfl; exact hne rfl)).2
      · exact ((key con_flt trunc flt_toInt _ flt_toFlt hnl hns).1 X w hX (by rintro rfl; exact hne rfl)).2
      · exact (key con_int id int_toInt _ int_toFlt hnl hns).2 X T w hX (by rintro rfl; exact hne rfl)
      · exact (key con_flt trunc flt_toInt _ flt_toFlt hnl hns).2 X T w hX (by rintro rfl; exact hne rfl)

/-- What the engine does before the first layer is element-wise. -/
theorem prepare_ok {split : Tensor → List Tensor} {good : Tensor → Prop} (F : Fmt) (n : SeqNet) (B : Tensor)
    (hB : good B)
    (h : ∀ dt zp s, Ok split good (F.inferLayer ⟨id, id, id⟩ (.quantize dt zp s)) B) :
    Ok split good (fun t => some (F.prepare n t)) B := by
  by_cases hq : n.hasQuantLayers
  · have : (fun t => some (F.prepare n t)) = some := by
      funext t; simp [Fmt.prepare, hq]
    rw [this]
    exact ok_some hB
  · have : (fun t => some (F.prepare n t)) =
        F.inferLayer ⟨id, id, id⟩ (.quantize (intDtype 7) n.inputZp n.inputScale) := by
      funext t; simp [Fmt.prepare, hq, Fmt.inferLayer]
    rw [this]
    exact h _ _ _

theorem infer_fst (F : Fmt) (ext : Ext) (n : SeqNet) :
    (fun t => (F.infer ext n t).map Prod.fst) = fun t => (some (F.prepare n t)).bind (pipe F ext n.layers) := by
  funext t
  rw [Fmt.infer, runLayers_fst]; rfl

end FloatRows

open FloatRows

/-- C102, batches of vectors, in any floating point format: the answer to a batch consists, row by row and in order, of the
answers to its samples (presented as 1-D arrays), and the batch is rejected iff one of them is.  Holds for every network
of row-wise layers (all but LSTM and the ONNX softmax), and for the empty batch unless there is a look-up table. -/
theorem C102_rows (F : Fmt) (ext : Ext) (n : SeqNet) (hn : ∀ l ∈ n.layers, RowWise l) (B : Tensor) (hB : IsBatch B)
    (hne : rows B ≠ [] ∨ ∀ l ∈ n.layers, ¬ IsLut l) :
    (F.infer ext n B).map (fun r => rows r.1) = (rows B).mapM (fun x => (F.infer ext n x).map Prod.fst) := by
  have h := ok_bind (prepare_ok F n B hB (fun dt zp s => rows_ok F ⟨id, id, id⟩ (.quantize dt zp s) trivial B hB
    (Or.inr (fun h => h)))) (g := pipe F ext n.layers) (good' := IsBatch) (fun B' hi hs => by
      injection hi with hi
      have hB' : IsBatch B' := hi ▸ (prepare_ok F n B hB (fun dt zp s => rows_ok F ⟨id, id, id⟩ (.quantize dt zp s)
        trivial B hB (Or.inr (fun h => h)))).2 _ rfl
      exact pipe_ok F ext IsLut n.layers (fun l hl B hB h => rows_ok F ext l (hn l hl) B hB h) B' hB' (hne.imp hs id))
  have h1 := h.1
  rw [← infer_fst] at h1
  rw [← h1, Option.map_map]; rfl

/-- C102, any batches (of vectors, or of sequences for recurrent networks), in any floating point format: the answer to a
non-empty batch consists, in order, of the answers to its samples, each presented as a batch of one; the batch is rejected
iff one of them is.  Holds for every network without ONNX softmax. -/
theorem C102_singles (F : Fmt) (ext : Ext) (n : SeqNet) (hn : ∀ l ∈ n.layers, Separable l) (B : Tensor)
    (hB : IsBatch B ∨ IsSequences B) (hne : singles B ≠ []) :
    (F.infer ext n B).map (fun r => singles r.1) = (singles B).mapM (fun x => (F.infer ext n x).map Prod.fst) := by
  have hp := prepare_ok F n B hB (fun dt zp s => singles_ok F ⟨id, id, id⟩ (.quantize dt zp s) trivial B hB hne)
  have h := ok_bind hp (g := pipe F ext n.layers) (good' := Any) (fun B' hi hs => pipe_ok F ext (fun _ => True) n.layers
      (fun l hl B hB h => singles_ok F ext l (hn l hl) B hB (h.resolve_right (fun h => h trivial))) B'
      (hp.2 _ hi) (Or.inl (hs hne)))
  have h1 := h.1
  rw [← infer_fst] at h1
  rw [← h1, Option.map_map]; rfl

/-! ## Concrete cases -/

namespace C102Case

/-- Quantize, fully connected, table, dequantize. -/
def dense : SeqNet :=
  ⟨true, 0, 1, [.quantize (intDtype 7) 3 (1 / 10), .fc ⟨3, 2, [[1, 2], [3, 4]], [0, 1], ⟨2 ^ 30, 30, 2 ^ 29⟩, 0, intDtype 7⟩,
    .lut ⟨.plain ((List.range 256).map (fun n => Int.ofNat n / 2)), 128⟩, .dequantize 0 (1 / 10)]⟩

example : (∀ l ∈ dense.layers, RowWise l) ∧
    IsBatch (.flt (.mat [[1, 2], [-3 / 10, 1 / 3]])) ∧ rows (.flt (.mat [[1, 2], [-3 / 10, 1 / 3]])) ≠ [] := by
  refine ⟨?_, Or.inr ⟨_, 2, rfl, by simp⟩, by simp [rows]⟩
  intro l hl
  simp only [dense, List.mem_cons, List.not_mem_nil, or_false] at hl
  rcases hl with rfl | rfl | rfl | rfl
  · trivial
  · exact ⟨by simp [FC.WF], rfl⟩
  · trivial
  · trivial

/-- An ONNX-style network: product and addition. -/
def onnx : SeqNet :=
  ⟨true, 0, 1, [.quantize (uintDtype 8) 100 (1 / 10), .qmatmul ⟨1 / 10, 2, 2, [[1, 2], [3, 4]], 100, 0, 90⟩,
    .qadd ⟨1 / 10, 90, [7, 8], 1 / 20, 5, 1 / 10, 80⟩, .dequantize 80 (1 / 10)]⟩

/-- A recurrent network on floats: the engine quantizes the input itself. -/
def recurrent : SeqNet := ⟨false, 1, 1 / 4, [.lstm (demoLSTM 0), .dequantize 0 (1 / 8)]⟩

example : (∀ l ∈ onnx.layers, Separable l) ∧ (∀ l ∈ recurrent.layers, Separable l) ∧
    IsSequences (.flt (.cube [[[1], [3 / 2]], [[-1], [1 / 3]]])) ∧
    singles (.flt (.cube [[[1], [3 / 2]], [[-1], [1 / 3]]])) =
      [.flt (.cube [[[1], [3 / 2]]]), .flt (.cube [[[-1], [1 / 3]]])] := by
  refine ⟨?_, ?_, Or.inr ⟨_, 2, 1, rfl, by simp⟩, rfl⟩
  · intro l hl
    simp only [onnx, List.mem_cons, List.not_mem_nil, or_false] at hl
    rcases hl with rfl | rfl | rfl | rfl <;> trivial
  · intro l hl
    simp only [recurrent, List.mem_cons, List.not_mem_nil, or_false] at hl
    rcases hl with rfl | rfl
    · exact ⟨by decide, rfl, rfl, rfl, rfl⟩
    · trivial

end C102Case

end Verif
