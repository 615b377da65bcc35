import Verif.Model.Sequential
import Verif.Lemmas.FullyConnected
import Verif.Props.Onnx

/-!
# Properties C24 (sequential networks are compositions) and C20 (whole networks are row-wise)
-/

namespace Verif

/-! ## C24 -/

/-- Specification: feed `x` through the layers from left to right; an exception of one layer is an exception of
the whole. -/
def Spec.pipe (ext : Ext) (ls : List Layer) (x : Tensor) : Option Tensor :=
  ls.foldlM (fun t l => l.infer ext t) x

/-- C24.  The result of running the layers is the left-to-right composition of the layer functions. -/
theorem C24_composition (ext : Ext) (ls : List Layer) (x : Tensor) :
    (SeqNet.runLayers ext ls x).map Prod.fst = Spec.pipe ext ls x := by
  induction ls generalizing x with
  | nil => rfl
  | cons l ls ih =>
    simp only [SeqNet.runLayers, Spec.pipe, List.foldlM_cons]
    cases h : l.infer ext x with
    | none => rfl
    | some y =>
      have := ih y
      simp only [Spec.pipe] at this
      simp only [Option.bind_eq_bind, Option.bind_some]
      rw [← this]
      cases SeqNet.runLayers ext ls y <;> rfl

/-- C24.  The recorded intermediate results are exactly the outputs of every non-empty prefix of the network. -/
theorem C24_intermediate (ext : Ext) (ls : List Layer) (x y : Tensor) (rs : List Tensor)
    (h : SeqNet.runLayers ext ls x = some (y, rs)) :
    rs.length = ls.length ∧
      ∀ i < ls.length, rs[i]? = Spec.pipe ext (ls.take (i + 1)) x := by
  induction ls generalizing x rs with
  | nil =>
    simp only [SeqNet.runLayers, Option.some.injEq, Prod.mk.injEq] at h
    simp [← h.2]
  | cons l ls ih =>
    simp only [SeqNet.runLayers, Option.bind_eq_bind, Option.bind_eq_some_iff, Option.some.injEq,
      Prod.mk.injEq] at h
    obtain ⟨z, hz, ⟨out, rest⟩, hr, ho, hrs⟩ := h
    simp only at ho hrs
    subst ho hrs
    obtain ⟨h1, h2⟩ := ih z rest hr
    refine ⟨by simp [h1], ?_⟩
    intro i hi
    simp only [List.take_succ_cons, Spec.pipe, List.foldlM_cons, hz, Option.bind_eq_bind, Option.bind_some]
    cases i with
    | zero => simp [List.foldlM_nil]
    | succ i =>
      rw [List.getElem?_cons_succ, h2 i (by simpa using hi)]
      rfl

/-- C24.  The network's answer is the last intermediate result. -/
theorem C24_last_intermediate (ext : Ext) (ls : List Layer) (hls : ls ≠ []) (x y : Tensor) (rs : List Tensor)
    (h : SeqNet.runLayers ext ls x = some (y, rs)) : rs.getLast? = some y := by
  obtain ⟨h1, h2⟩ := C24_intermediate ext ls x y rs h
  have hpos : 0 < ls.length := List.length_pos_iff.mpr hls
  have h3 := h2 (ls.length - 1) (by omega)
  rw [show ls.length - 1 + 1 = ls.length by omega, List.take_length] at h3
  rw [List.getLast?_eq_getElem?, h1, h3, ← C24_composition, h]
  rfl

/-- C24.  A network whose operators are the concatenation of two lists computes the composition of the two
networks. -/
theorem C24_concat (ext : Ext) (ls ms : List Layer) (x : Tensor) :
    (SeqNet.runLayers ext (ls ++ ms) x).map Prod.fst =
      ((SeqNet.runLayers ext ls x).map Prod.fst).bind (fun y => (SeqNet.runLayers ext ms y).map Prod.fst) := by
  simp only [C24_composition, Spec.pipe, List.foldlM_append]
  rfl

theorem mapM_some_iff {α β : Type} (f : α → Option β) (l : List α) (m : List β) :
    l.mapM f = some m ↔ l.length = m.length ∧ ∀ (i : ℕ) a b, l[i]? = some a → m[i]? = some b → f a = some b := by
  induction l generalizing m with
  | nil => cases m <;> simp
  | cons a l ih =>
    rw [List.mapM_cons]
    simp only [Option.bind_eq_bind, Option.bind_eq_some_iff, Option.pure_def, Option.some.injEq]
    constructor
    · rintro ⟨b, hb, m', hm', rfl⟩
      obtain ⟨h1, h2⟩ := (ih m').mp hm'
      refine ⟨by simp [h1], ?_⟩
      intro i a' b' ha hb'
      cases i with
      | zero => simp at ha hb'; subst ha hb'; exact hb
      | succ i => exact h2 i a' b' (by simpa using ha) (by simpa using hb')
    · rintro ⟨h1, h2⟩
      cases m with
      | nil => simp at h1
      | cons b m =>
        refine ⟨b, h2 0 a b (by simp) (by simp), m, (ih m).mpr ⟨by simpa using h1, ?_⟩, rfl⟩
        intro i a' b' ha hb'
        exact h2 (i + 1) a' b' (by simpa using ha) (by simpa using hb')

theorem mapM_none_iff {α β : Type} (f : α → Option β) (l : List α) :
    l.mapM f = none ↔ ∃ a ∈ l, f a = none := by
  induction l with
  | nil => simp
  | cons a l ih =>
    rw [List.mapM_cons]
    cases ha : f a with
    | none => simp [ha]
    | some b =>
      cases hl : l.mapM f with
      | none => simpa [ha, hl] using ih.mp hl
      | some m =>
        rw [hl] at ih
        simpa [ha, hl] using ih

/-- C24, loading: a loaded network has exactly the operators of the document, in document order, each built by the
builder the engine name selects. -/
theorem C24_load_preserves (net : NetJ) (n : SeqNet) (h : SeqNet.load net = some n) :
    ∃ build, SeqNet.engine net = some build ∧ n.layers.length = net.graph.length ∧
      ∀ (i : ℕ) op l, net.graph[i]? = some op → n.layers[i]? = some l → build op = some l := by
  simp only [SeqNet.load, Option.bind_eq_bind, Option.bind_eq_some_iff, Option.some.injEq] at h
  obtain ⟨inp, -, inp', -, out, -, out', -, first, -, build, hb, layers, hl, rfl⟩ := h
  obtain ⟨h1, h2⟩ := (mapM_some_iff _ _ _).mp hl
  exact ⟨build, hb, h1.symm, h2⟩

/-- C24, loading: one operator that cannot be built (for instance an unknown operator type) makes the whole load
fail, whatever its position and whatever else the document contains; an unknown engine does, too. -/
theorem C24_load_fails (net : NetJ) :
    (SeqNet.engine net = none → SeqNet.load net = none) ∧
    (∀ build, SeqNet.engine net = some build → (∃ op ∈ net.graph, build op = none) → SeqNet.load net = none) := by
  constructor
  · intro h
    by_contra hc
    obtain ⟨n, hn⟩ := Option.ne_none_iff_exists'.mp hc
    obtain ⟨b, hb, -⟩ := C24_load_preserves net n hn
    rw [h] at hb; simp at hb
  · intro build hb hop
    by_contra hc
    obtain ⟨n, hn⟩ := Option.ne_none_iff_exists'.mp hc
    simp only [SeqNet.load, Option.bind_eq_bind, Option.bind_eq_some_iff, Option.some.injEq] at hn
    obtain ⟨inp, -, inp', -, out, -, out', -, first, -, build', hb', layers, hl, rfl⟩ := hn
    rw [hb] at hb'
    injection hb' with hb'
    subst hb'
    rw [(mapM_none_iff _ _).mpr hop] at hl
    simp at hl

/-- C24, loading: conversely, with a first input, a first output and at least one operator, loading succeeds as
soon as the engine is known and every operator can be built. -/
theorem C24_load_succeeds (net : NetJ) (build) (hb : SeqNet.engine net = some build) (hg : net.graph ≠ [])
    (hops : ∀ op ∈ net.graph, build op ≠ none) (i o : NodeJ)
    (hi : net.input[0]? = some (some i)) (ho : net.output[0]? = some (some o)) :
    SeqNet.load net ≠ none := by
  obtain ⟨g, gs, hgs⟩ := List.exists_cons_of_ne_nil hg
  have hm : net.graph.mapM build ≠ none := by
    intro hc
    obtain ⟨a, ha, hn⟩ := (mapM_none_iff _ _).mp hc
    exact hops a ha hn
  obtain ⟨ls, hls⟩ := Option.ne_none_iff_exists'.mp hm
  simp only [SeqNet.load, Option.bind_eq_bind, hi, ho, Option.bind_some, hb, hls]
  rw [hgs]
  simp

/-- Non-vacuity: a two-operator document loads and runs. -/
example : ∃ n, SeqNet.load
    ⟨"TFLITE", 2,
      [⟨"QUANTIZE", "quant", [], [⟨some (1/2), some 3, some ⟨none, [], "int8"⟩, none⟩], none⟩,
       ⟨"DEQUANTIZE", "dequant", [⟨some (1/2), some 3, some ⟨none, [], "int8"⟩, none⟩], [], none⟩],
      [some ⟨none, none, none, none⟩], [some ⟨none, none, none, none⟩]⟩ = some n ∧
    (SeqNet.infer ⟨id, id, id⟩ n (.flt (.vec [1/3, 5, 1000]))).map Prod.fst
      = some (.flt (.vec [1/2, 5, 62])) := by
  refine ⟨⟨true, 0, 1, [.quantize (intDtype 7) 3 (1/2), .dequantize 3 (1/2)]⟩, ?_, ?_⟩ <;> decide +kernel

/-! ## C20 for whole networks -/

/-- The samples of a batch. -/
def Spec.rows : Tensor → List Tensor
  | .int (.mat X) => X.map (fun r => .int (.vec r))
  | .flt (.mat X) => X.map (fun r => .flt (.vec r))
  | _ => []

/-- A batch: a 2-D array, all rows of the same length. -/
def Spec.IsBatch (t : Tensor) : Prop :=
  (∃ X w, t = .int (.mat X) ∧ ∀ r ∈ X, r.length = w) ∨ (∃ X w, t = .flt (.mat X) ∧ ∀ r ∈ X, r.length = w)

/-- Layers the claim is about: all but the recurrent layer (whose samples are 2-D, see C27) and the ONNX softmax
(for which it is false, C53); the weights of a fully connected layer form a matrix with
one bias per output. -/
def Spec.RowWise : Layer → Prop
  | .fc l => l.WF ∧ l.bias.length = l.weights.length
  | .lstm _ => False
  | .osoftmax => False
  | _ => True

/-- Look-up table layers raise on empty arrays. -/
def Spec.IsLut : Layer → Prop
  | .lut _ => True
  | _ => False

open Spec

theorem mapM_eq_map {α β : Type} (f : α → Option β) (g : α → β) (l : List α) (h : ∀ a ∈ l, f a = some (g a)) :
    l.mapM f = some (l.map g) := by
  rw [mapM_some_iff]
  refine ⟨by simp, ?_⟩
  intro i a b ha hb
  rw [List.getElem?_map, ha] at hb
  simp only [Option.map_some, Option.some.injEq] at hb
  rw [← hb]
  exact h a (List.mem_of_getElem? ha)

theorem mapM_bind {α β γ : Type} (f : α → Option β) (g : β → Option γ) (l : List α) :
    l.mapM (fun a => (f a).bind g) = (l.mapM f).bind (fun m => m.mapM g) := by
  induction l with
  | nil => rfl
  | cons a l ih =>
    rw [List.mapM_cons, List.mapM_cons, ih]
    simp only [Option.bind_eq_bind, Option.pure_def]
    cases ha : f a with
    | none => rfl
    | some b =>
      simp only [Option.bind_some]
      cases hl : l.mapM f with
      | none => cases g b <;> rfl
      | some m =>
        simp only [Option.bind_some]
        rw [List.mapM_cons]
        rfl

/-- Row-wise behaviour of one layer on a batch. -/
def RowOK (ext : Ext) (l : Layer) (B : Tensor) : Prop :=
  (l.infer ext B).map rows = (rows B).mapM (l.infer ext) ∧
    ∀ B', l.infer ext B = some B' → IsBatch B'

/-- What a tensor constructor has to satisfy. -/
structure IsCon {α : Type} (c : Arr α → Tensor) : Prop where
  rows : ∀ X, Spec.rows (c (.mat X)) = X.map (fun r => c (.vec r))
  batch : ∀ (X : List (List α)) (w : ℕ), (∀ r ∈ X, r.length = w) → IsBatch (c (.mat X))

theorem isCon_int : IsCon Tensor.int := ⟨fun _ => rfl, fun X w h => Or.inl ⟨X, w, rfl, h⟩⟩
theorem isCon_flt : IsCon Tensor.flt := ⟨fun _ => rfl, fun X w h => Or.inr ⟨X, w, rfl, h⟩⟩

theorem rowOK_gen {α β : Type} (ext : Ext) (l : Layer) (ci : Arr α → Tensor) (co : Arr β → Tensor)
    (hci : IsCon ci) (hco : IsCon co) (X : List (List α)) (g : List α → List β) (p : List α → Prop)
    [DecidablePred p] (w w' : ℕ) (hX : ∀ r ∈ X, r.length = w) (hg : ∀ r, p r → r.length = w → (g r).length = w')
    (hm : l.infer ext (ci (.mat X)) = if ∀ x ∈ X, p x then some (co (.mat (X.map g))) else none)
    (hv : ∀ r ∈ X, l.infer ext (ci (.vec r)) = if p r then some (co (.vec (g r))) else none) :
    RowOK ext l (ci (.mat X)) := by
  unfold RowOK
  rw [hm, hci.rows]
  by_cases hp : ∀ x ∈ X, p x
  · simp only [if_pos hp]
    constructor
    · simp only [Option.map_some, hco.rows, List.mapM_map]
      symm
      rw [List.map_map]
      apply mapM_eq_map
      intro r hr
      simp only [Function.comp]
      rw [hv r hr, if_pos (hp r hr)]
    · rintro B' h
      injection h with h
      subst h
      refine hco.batch _ w' ?_
      intro r hr
      obtain ⟨r', hr', rfl⟩ := List.mem_map.mp hr
      exact hg _ (hp _ hr') (hX _ hr')
  · simp only [if_neg hp]
    refine ⟨?_, by simp⟩
    push Not at hp
    obtain ⟨r, hr, hnr⟩ := hp
    symm
    simp only [Option.map_none, mapM_none_iff]
    exact ⟨_, List.mem_map_of_mem hr, by rw [hv r hr, if_neg hnr]⟩

theorem rowOK_map {α β : Type} (ext : Ext) (l : Layer) (ci : Arr α → Tensor) (co : Arr β → Tensor)
    (hci : IsCon ci) (hco : IsCon co) (X : List (List α)) (w : ℕ) (hX : ∀ r ∈ X, r.length = w) (g : α → β)
    (h : ∀ a, l.infer ext (ci a) = some (co (a.map g))) : RowOK ext l (ci (.mat X)) := by
  apply rowOK_gen ext l ci co hci hco X (fun r => r.map g) (fun _ => True) w w hX
  · intro r _ hr; simp [hr]
  · simp [h, Arr.map]
  · intro r _; simp [h, Arr.map]

theorem rowOK_fc (ext : Ext) (l : FC) (hl : l.WF) (hb : l.bias.length = l.weights.length)
    {α : Type} (ci : Arr α → Tensor) (hci : IsCon ci) (f : α → ℤ) (hf : ∀ a, (ci a).toInt = a.map f)
    (X : List (List α)) (w : ℕ) (hX : ∀ r ∈ X, r.length = w) :
    RowOK ext (.fc l) (ci (.mat X)) := by
  refine rowOK_gen ext (.fc l) ci .int hci isCon_int X
    (fun x => (FC.addBias l.bias (matVec l.weights (l.center (x.map f)))).map l.finish)
    (fun x => x.length = l.nIn) w l.weights.length hX ?_ ?_ ?_
  · intro r _ _
    simp [FC.addBias, matVec, hb]
  · simp only [Layer.infer, hf, Arr.map, FC.infer_mat l hl, hb, and_true]
    simp only [List.mem_map, forall_exists_index, and_imp, forall_apply_eq_imp_iff₂, List.length_map, List.map_map]
    split_ifs <;> rfl
  · intro r _
    simp only [Layer.infer, hf, Arr.map, FC.infer_vec, hb, and_true, List.length_map]
    split_ifs <;> rfl

theorem rowOK_qadd (ext : Ext) (l : QAdd)
    {α : Type} (ci : Arr α → Tensor) (hci : IsCon ci) (f : α → ℤ) (hf : ∀ a, (ci a).toInt = a.map f)
    (X : List (List α)) (w : ℕ) (hX : ∀ r ∈ X, r.length = w) :
    RowOK ext (.qadd l) (ci (.mat X)) := by
  refine rowOK_gen ext (.qadd l) ci .int hci isCon_int X (fun x => l.row (x.map f))
    (fun x => x.length = l.b.length) w l.b.length hX ?_ ?_ ?_
  · intro r h _
    simp [QAdd.row, h]
  · simp only [Layer.infer, hf, Arr.map, QAdd.infer]
    simp only [List.mem_map, forall_exists_index, and_imp, forall_apply_eq_imp_iff₂, List.length_map, List.map_map]
    split_ifs <;> rfl
  · intro r _
    simp only [Layer.infer, hf, Arr.map, QAdd.infer, List.length_map]
    split_ifs <;> rfl

theorem rowOK_qmatmul (ext : Ext) (l : QMatMul)
    {α : Type} (ci : Arr α → Tensor) (hci : IsCon ci) (f : α → ℤ) (hf : ∀ a, (ci a).toInt = a.map f)
    (X : List (List α)) (w : ℕ) (hX : ∀ r ∈ X, r.length = w) :
    RowOK ext (.qmatmul l) (ci (.mat X)) := by
  refine rowOK_gen ext (.qmatmul l) ci .int hci isCon_int X (fun x => l.row (x.map f))
    (fun x => x.length = l.nIn) w l.nOut hX ?_ ?_ ?_
  · intro r h _
    simp [QMatMul.row]
  · simp only [Layer.infer, hf, Arr.map, QMatMul.infer]
    simp only [List.mem_map, forall_exists_index, and_imp, forall_apply_eq_imp_iff₂, List.length_map, List.map_map]
    split_ifs <;> rfl
  · intro r _
    simp only [Layer.infer, hf, Arr.map, QMatMul.infer, List.length_map]
    split_ifs <;> rfl

theorem LutLayer.infer_vec (l : LutLayer) (x : List ℤ) :
    l.infer (.vec x) = if x = [] then none else (x.mapM l.look).map .vec := by
  unfold LutLayer.infer
  by_cases h : x = []
  · rw [if_pos h, if_pos (show (Arr.vec x).flat = [] from h)]
  · rw [if_neg h, if_neg (show ¬ (Arr.vec x).flat = [] from h)]; rfl

theorem LutLayer.infer_mat (l : LutLayer) (X : List (List ℤ)) :
    l.infer (.mat X) = if X.flatten = [] then none
      else (X.mapM (fun (r : List ℤ) => r.mapM l.look)).map .mat := by
  unfold LutLayer.infer
  by_cases h : X.flatten = []
  · rw [if_pos h, if_pos (show (Arr.mat X).flat = [] from h)]
  · rw [if_neg h, if_neg (show ¬ (Arr.mat X).flat = [] from h)]; rfl

theorem rowOK_lut (ext : Ext) (l : LutLayer) (X : List (List ℤ)) (hne : X ≠ []) (w : ℕ)
    (hX : ∀ r ∈ X, r.length = w) : RowOK ext (.lut l) (.int (.mat X)) := by
  refine rowOK_gen ext (.lut l) .int .int isCon_int isCon_int X (fun x => (x.mapM l.look).getD [])
    (fun x => x ≠ [] ∧ x.mapM l.look ≠ none) w w hX ?_ ?_ ?_
  · intro r ⟨_, h⟩ hw
    obtain ⟨m, hm⟩ := Option.ne_none_iff_exists'.mp h
    rw [hm, Option.getD_some, ← hw, ((mapM_some_iff _ _ _).mp hm).1]
  · simp only [Layer.infer, LutLayer.infer_mat]
    by_cases h0 : X.flatten = []
    · obtain ⟨r, rs, rfl⟩ := List.exists_cons_of_ne_nil hne
      have : r = [] := by simp at h0; exact h0.1
      simp only [if_pos h0, Option.map_none]
      rw [if_neg]
      intro hc
      exact (hc r (by simp)).1 this
    · rw [if_neg h0]
      split_ifs with hc
      · rw [mapM_eq_map _ (fun x => (x.mapM l.look).getD [])]
        · rfl
        · intro r hr
          obtain ⟨m, hm⟩ := Option.ne_none_iff_exists'.mp (hc r hr).2
          rw [hm]; rfl
      · have : X.mapM (fun (r : List ℤ) => r.mapM l.look) = none := by
          rw [mapM_none_iff]
          push Not at hc
          obtain ⟨r, hr, hcr⟩ := hc
          refine ⟨r, hr, hcr ?_⟩
          rintro rfl
          apply h0
          rw [List.flatten_eq_nil_iff]
          intro s hs
          have h1 := hX _ hr
          have h2 := hX s hs
          simp only [List.length_nil] at h1
          exact List.length_eq_zero_iff.mp (by omega)
        rw [this]; rfl
  · intro r _
    simp only [Layer.infer, LutLayer.infer_vec]
    by_cases h0 : r = []
    · simp [h0]
    · cases h : r.mapM l.look <;> simp [h0]

theorem rowOK (ext : Ext) (l : Layer) (hl : RowWise l) (B : Tensor) (hB : IsBatch B)
    (hne : rows B ≠ [] ∨ ¬ IsLut l) : RowOK ext l B := by
  have key : ∀ {α : Type} (ci : Arr α → Tensor) (_ : IsCon ci) (f : α → ℤ) (_ : ∀ a, (ci a).toInt = a.map f)
      (f' : α → ℚ) (_ : ∀ a, (ci a).toFlt = a.map f') (X : List (List α)) (w : ℕ) (_ : ∀ r ∈ X, r.length = w),
      (∀ t, l ≠ .lut t) → RowOK ext l (ci (.mat X)) := by
    intro α ci hci f hf f' hf' X w hX hnl
    have mm : ∀ {γ δ : Type} (h : α → γ) (k : γ → δ) (a : Arr α), (a.map h).map k = a.map (k ∘ h) := by
      intro γ δ h k a; cases a <;> simp [Arr.map]
    cases l with
    | fc l => exact rowOK_fc ext l hl.1 hl.2 ci hci f hf X w hX
    | lut l => exact absurd rfl (hnl l)
    | lstm l => exact absurd hl (by simp [RowWise])
    | osoftmax => exact absurd hl (by simp [RowWise])
    | qadd l => exact rowOK_qadd ext l ci hci f hf X w hX
    | qmatmul l => exact rowOK_qmatmul ext l ci hci f hf X w hX
    | quantize d zp s =>
      exact rowOK_map ext _ ci .int hci isCon_int X w hX _ (fun a => by simp only [Layer.infer, hf', mm]; rfl)
    | dequantize zp s =>
      exact rowOK_map ext _ ci .flt hci isCon_flt X w hX _ (fun a => by simp only [Layer.infer, hf, mm]; rfl)
    | tanh zp s =>
      exact rowOK_map ext _ ci .int hci isCon_int X w hX _ (fun a => by simp only [Layer.infer, hf, mm]; rfl)
    | sigmoid zp s =>
      exact rowOK_map ext _ ci .int hci isCon_int X w hX _ (fun a => by simp only [Layer.infer, hf, mm]; rfl)
    | softmax =>
      exact rowOK_map ext _ ci ci hci hci X w hX id
        (fun a => by simp only [Layer.infer]; cases a <;> simp [Arr.map])
    | relu l =>
      exact rowOK_map ext _ ci .int hci isCon_int X w hX _ (fun a => by simp only [Layer.infer, hf, mm]; rfl)
    | qsigmoid a b c d =>
      exact rowOK_map ext _ ci .int hci isCon_int X w hX _ (fun a => by simp only [Layer.infer, hf, mm]; rfl)
    | otanh =>
      exact rowOK_map ext _ ci .flt hci isCon_flt X w hX _ (fun a => by simp only [Layer.infer, hf', mm]; rfl)
  rcases hB with ⟨X, w, rfl, hX⟩ | ⟨X, w, rfl, hX⟩
  · by_cases hlut : ∃ t, l = .lut t
    · obtain ⟨t, rfl⟩ := hlut
      refine rowOK_lut ext t X ?_ w hX
      rintro rfl
      simp [rows, IsLut] at hne
    · exact key .int isCon_int id (fun a => by cases a <;> simp [Tensor.toInt, Arr.map])
        (fun (v : ℤ) => (v : ℚ)) (fun a => rfl) X w hX (fun t ht => hlut ⟨t, ht⟩)
  · by_cases hlut : ∃ t, l = .lut t
    · obtain ⟨t, rfl⟩ := hlut
      have hne' : X ≠ [] := by
        rintro rfl
        simp [rows, IsLut] at hne
      unfold RowOK
      obtain ⟨r, rs, rfl⟩ := List.exists_cons_of_ne_nil hne'
      simp [Layer.infer, rows]
    · exact key .flt isCon_flt trunc (fun a => rfl) id (fun a => by cases a <;> simp [Tensor.toFlt, Arr.map])
        X w hX (fun t ht => hlut ⟨t, ht⟩)

theorem pipe_rowwise (ext : Ext) (ls : List Layer) (hls : ∀ l ∈ ls, RowWise l) (B : Tensor) (hB : IsBatch B)
    (hne : rows B ≠ [] ∨ ∀ l ∈ ls, ¬ IsLut l) :
    (pipe ext ls B).map rows = (rows B).mapM (pipe ext ls) := by
  induction ls generalizing B with
  | nil =>
    simp only [pipe, List.foldlM_nil]
    show some (rows B) = _
    symm
    have := mapM_eq_map (fun t : Tensor => (some t : Option Tensor)) id (rows B) (by simp)
    rw [List.map_id] at this
    exact this
  | cons l ls ih =>
    obtain ⟨h1, h2⟩ := rowOK ext l (hls l (by simp)) B hB
      (hne.imp id (fun h => h l (by simp)))
    have hp : ∀ t, pipe ext (l :: ls) t = (l.infer ext t).bind (pipe ext ls) := by
      intro t; simp only [pipe, List.foldlM_cons]; rfl
    rw [show pipe ext (l :: ls) = fun t => (l.infer ext t).bind (pipe ext ls) from funext hp, mapM_bind, ← h1]
    beta_reduce
    cases hi : l.infer ext B with
    | none => rfl
    | some B' =>
      simp only [Option.bind_some, Option.map_some]
      refine ih (fun l' h => hls l' (by simp [h])) B' (h2 B' hi) ?_
      rcases hne with hne | hne
      · left
        intro hc
        rw [hi, Option.map_some, hc] at h1
        have := ((mapM_some_iff _ _ _).mp h1.symm).1
        simp only [List.length_nil, List.length_eq_zero_iff] at this
        exact hne this
      · exact Or.inr (fun l' h => hne l' (by simp [h]))

/-- C20, whole networks.  Inferring a batch answers (or raises) exactly as inferring its samples one by one, in
order; the rows of the answer are the single answers.  Holds for every network of row-wise layers and every batch,
the empty batch included unless a look-up table layer is present. -/
theorem C20_network (ext : Ext) (n : SeqNet) (hn : ∀ l ∈ n.layers, RowWise l) (B : Tensor) (hB : IsBatch B)
    (hne : rows B ≠ [] ∨ ∀ l ∈ n.layers, ¬ IsLut l) :
    (SeqNet.infer ext n B).map (fun r => rows r.1) =
      (rows B).mapM (fun x => (SeqNet.infer ext n x).map Prod.fst) := by
  have hh : ∀ t, (SeqNet.infer ext n t).map Prod.fst = pipe ext n.layers (n.prepare t) := fun t => by
    simp only [SeqNet.infer, C24_composition]
  have h1 : (SeqNet.infer ext n B).map (fun r => rows r.1) = (pipe ext n.layers (n.prepare B)).map rows := by
    rw [← hh, Option.map_map]; rfl
  rw [h1]
  simp only [hh]
  have hprep : rows (n.prepare B) = (rows B).map n.prepare ∧ IsBatch (n.prepare B) := by
    unfold SeqNet.prepare
    by_cases hq : n.hasQuantLayers
    · simp only [hq, if_true]
      exact ⟨by simp, hB⟩
    · simp only [hq]
      rcases hB with ⟨X, w, rfl, hX⟩ | ⟨X, w, rfl, hX⟩
      · constructor
        · simp [rows, Tensor.toFlt, Arr.map]
        · refine Or.inl ⟨_, w, rfl, ?_⟩
          intro r hr
          simp only [List.mem_map] at hr
          obtain ⟨a, ⟨b, hb, rfl⟩, rfl⟩ := hr
          simpa using hX b hb
      · constructor
        · simp [rows, Tensor.toFlt, Arr.map]
        · refine Or.inl ⟨_, w, rfl, ?_⟩
          intro r hr
          simp only [List.mem_map] at hr
          obtain ⟨a, hb, rfl⟩ := hr
          simpa using hX a hb
  rw [pipe_rowwise ext n.layers hn _ hprep.2, hprep.1, List.mapM_map]
  · rfl
  · rw [hprep.1]
    simpa using hne

/-- C20: the excluded case.  A look-up table layer raises on an empty batch (`np.vectorize` without `otypes`). -/
theorem C20_lut_empty_batch_raises (ext : Ext) (l : LutLayer) :
    (Layer.lut l).infer ext (.int (.mat [])) = none := by
  simp [Layer.infer, LutLayer.infer, Arr.flat]

/-- Non-vacuity: a fully connected layer and a table on a batch of two samples. -/
example : SeqNet.infer ⟨id, id, id⟩
    ⟨true, 0, 1, [.fc ⟨0, 2, [[1, 2], [3, 4]], [0, 1], ⟨2 ^ 30, 30, 2 ^ 29⟩, 0, intDtype 7⟩,
      .lut ⟨.plain ((List.range 256).map Int.ofNat), 128⟩]⟩ (.int (.mat [[1, 1], [2, -1]])) =
    some (.int (.mat [[131, 136], [128, 131]]),
      [.int (.mat [[3, 8], [0, 3]]), .int (.mat [[131, 136], [128, 131]])]) := by decide +kernel

end Verif
