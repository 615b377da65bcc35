import Verif.Model.Keras2Json
import Verif.Props.Sequential

/-!
# C47: converting a float Keras model
-/

namespace Verif
open Spec Keras2Json

/-! ## Specification -/

/-- The upper-case class name of a layer contains a text. -/
def Spec.Named (l : Keras2Json.Layer) (pat : String) : Prop := pat.toList <:+: upper l.className

/-- The kinds of layers the converter distinguishes. -/
inductive Spec.LKind where
  | dense | lstm | conv | flatten | maxpool | skip
deriving DecidableEq, Repr

/-- Which layers are of which kind: the first matching text decides. -/
def Spec.IsKind (l : Keras2Json.Layer) : LKind → Prop
  | .dense => Named l "DENSE"
  | .lstm => ¬ Named l "DENSE" ∧ Named l "LSTM"
  | .conv => ¬ Named l "DENSE" ∧ ¬ Named l "LSTM" ∧ Named l "CONV2D"
  | .flatten => ¬ Named l "DENSE" ∧ ¬ Named l "LSTM" ∧ ¬ Named l "CONV2D" ∧ Named l "FLATTEN"
  | .maxpool => ¬ Named l "DENSE" ∧ ¬ Named l "LSTM" ∧ ¬ Named l "CONV2D" ∧ ¬ Named l "FLATTEN" ∧
      Named l "MAXPOOLING2D"
  | .skip => upper l.className = "INPUT".toList ∨ upper l.className = "OUTPUT".toList ∨
      upper l.className = "INPUTLAYER".toList ∨ upper l.className = "DROPOUT".toList

/-- The array `b` is the transposed matrix `a`. -/
def Spec.TransposeOf (a b : FArr) (r c : ℕ) : Prop :=
  b.shape = [c, r] ∧ b.data.length = c * r ∧
    ∀ (i j : ℕ), i < r → j < c → b.data[j * r + i]? = a.data[i * c + j]?

/-- Whatever matrix `a` is, `b` is its transposed one with the same dtype. -/
def Spec.Transposed (a b : FTensor) : Prop :=
  b.dtype = a.dtype ∧ ∀ r c, a.arr.shape = [r, c] → TransposeOf a.arr b.arr r c

/-- The exported operators of one layer. -/
inductive Spec.Exported : Keras2Json.Layer → List FOp → Prop
  /-- A dense layer: transposed kernel, bias, then the activation under its own name. -/
  | dense {l W k fn ty b} (hk : IsKind l .dense) (hW : l.weights[0]? = some W) (hT : Transposed W k)
      (hb : ∀ B, l.weights[1]? = some B → b = B) (ha : l.activation = some (some fn, ty)) :
      Exported l [⟨"FULLY_CONNECTED_F", l.name, [⟨l.name ++ "/Kernel", k⟩, ⟨l.name ++ "/Bias", b⟩], []⟩,
        ⟨fn, fn ++ " activation function", [], []⟩]
  /-- An LSTM layer: twelve placeholder nodes, then the transposed matrices of all gates together and the bias. -/
  | lstm {l W U B k u units rs s0 s1 s2 ph} (hk : IsKind l .lstm) (hW : l.weights[0]? = some W)
      (hU : l.weights[1]? = some U) (hB : l.weights[2]? = some B) (hTW : Transposed W k) (hTU : Transposed U u)
      (hu : l.units = some units) (hr : l.returnSequences = some rs) (hs : l.batchInputShape = some [s0, s1, s2])
      (hph : ph.map (fun n => n.name) = ["kernel/input", "kernel/forget_gate", "kernel/cell", "kernel/output",
        "recurrent_kernel/input", "recurrent_kernel/forget_gate", "recurrent_kernel/cell", "recurrent_kernel/output",
        "bias/input", "bias/forget_gate", "bias/cell", "bias/output"] ∧ ∀ n ∈ ph, n.tensor = ⟨"int64", [1], [0]⟩) :
      Exported l [⟨"LSTM_F", "LSTM Layer", ph ++ [⟨"kernel/complete", k⟩, ⟨"recurrent_kernel/complete", u⟩,
        ⟨"bias/complete", B⟩], [("units", .ints [units]), ("return_sequences", .bools [rs]), ("steps", .steps s1)]⟩]
  /-- A convolution: kernel and bias as they are, strides and padding code, then the activation. -/
  | conv {l W B strides padding p fn} (hk : IsKind l .conv) (hW : l.weights[0]? = some W) (hB : l.weights[1]? = some B)
      (hs : l.strides = some strides) (hp : l.padding = some padding)
      (hpc : p = 0 ∧ "valid".toList <:+: padding.toList.map Char.toLower ∨
        p = 1 ∧ ¬ "valid".toList <:+: padding.toList.map Char.toLower)
      (ha : ∃ a, l.activation = some a ∧ fn = String.ofList (upper (a.1.getD a.2))) :
      Exported l [⟨"CONV_2D_F", "2D Convolution Layer", [⟨"kernel", W⟩, ⟨"bias", B⟩],
        [("strides", .ints strides), ("padding", .ints [p])]⟩, ⟨fn ++ "_F", fn ++ " Float Activation", [], []⟩]
  | flatten {l} (hk : IsKind l .flatten) : Exported l [⟨"FLATTEN", "Flatten Layer", [], []⟩]
  | maxpool {l strides padding p pool} (hk : IsKind l .maxpool) (hs : l.strides = some strides)
      (hp : l.padding = some padding)
      (hpc : p = 0 ∧ "valid".toList <:+: padding.toList.map Char.toLower ∨
        p = 1 ∧ ¬ "valid".toList <:+: padding.toList.map Char.toLower) (hpo : l.poolSize = some pool) :
      Exported l [⟨"MAXPOOLING_2D_F", "2D Max Pooling Layer", [],
        [("strides", .ints strides), ("pool_size", .ints pool), ("padding", .ints [p])]⟩]
  | skip {l} (hk : IsKind l .skip) : Exported l []

/-- What a layer must offer to be converted. -/
def Spec.Convertible (l : Keras2Json.Layer) : Prop :=
  (IsKind l .dense ∧ (∃ W, l.weights[0]? = some W ∧ (l.weights.length = 1 → W.arr.shape ≠ [])) ∧
    ∃ fn ty, l.activation = some (some fn, ty)) ∨
  (IsKind l .lstm ∧ 3 ≤ l.weights.length ∧ l.units.isSome ∧ l.returnSequences.isSome ∧
    ∃ s, l.batchInputShape = some s ∧ s.length = 3) ∨
  (IsKind l .conv ∧ 2 ≤ l.weights.length ∧ l.strides.isSome ∧ l.padding.isSome ∧ l.activation.isSome) ∨
  IsKind l .flatten ∨ (IsKind l .maxpool ∧ l.strides.isSome ∧ l.padding.isSome ∧ l.poolSize.isSome) ∨ IsKind l .skip

/-! ## Proofs -/

namespace Keras2Json

theorem every_length (d j : ℕ) (data : List ℚ) : (every d j data).length = data.length / d := by simp [every]

theorem flatten_get {r : ℕ} : ∀ (L : List (List ℚ)) (_ : ∀ x ∈ L, x.length = r) (j i : ℕ), i < r →
    L.flatten[j * r + i]? = (L[j]?).bind (fun x => x[i]?) := by
  intro L
  induction L with
  | nil => intro _ j i _; simp
  | cons x L ih =>
    intro h j i hi
    have hx : x.length = r := h x (by simp)
    cases j with
    | zero => simp [List.getElem?_append_left (by omega : i < x.length)]
    | succ j =>
      rw [List.flatten_cons, List.getElem?_append_right (by rw [hx]; nlinarith),
        show (j + 1) * r + i - x.length = j * r + i by rw [hx, Nat.succ_mul]; omega, ih (fun y hy => h y (by simp [hy])) j i hi]
      simp

theorem transposeData_one (n : ℕ) (data : List ℚ) (h : data.length = n) : transposeData [n] data = data := by
  subst h
  rcases Nat.eq_zero_or_pos data.length with h0 | h0
  · simp [transposeData, h0, List.length_eq_zero_iff.mp h0]
  · have : ∀ j, transposeData [] (every data.length j data) = [data.getD j 0] := by
      intro j
      simp [transposeData, every, Nat.div_self h0]
    simp only [transposeData, this] at this ⊢
    simp only [this]
    apply List.ext_getElem?
    intro i
    have := flatten_get (r := 1) ((List.range data.length).map (fun j => [data.getD j 0])) (by simp) i 0 (by omega)
    rw [Nat.mul_one, Nat.add_zero] at this
    rw [List.flatMap_def, this]
    by_cases hi : i < data.length
    · simp [hi]
    · simp [hi]

theorem transpose_spec (t : FTensor) (h : t.arr.WF) : Transposed t (transpose t) := by
  refine ⟨rfl, ?_⟩
  intro r c hs
  have hlen : t.arr.data.length = r * c := by rw [h, hs]; simp
  have e : (transpose t).arr.data = ((List.range c).map (fun j => every c j t.arr.data)).flatten := by
    simp only [transpose, hs, List.reverse_cons, List.reverse_nil, List.nil_append, List.singleton_append]
    rw [transposeData, List.flatMap_def]
    congr 1
    apply List.map_congr_left
    intro j hj
    have hc : 0 < c := by have := List.mem_range.mp hj; omega
    exact transposeData_one r _ (by rw [every_length, hlen, Nat.mul_div_cancel _ hc])
  have hall : ∀ x ∈ (List.range c).map (fun j => every c j t.arr.data), x.length = r := by
    intro x hx
    obtain ⟨j, hj, rfl⟩ := List.mem_map.mp hx
    have hc : 0 < c := by have := List.mem_range.mp hj; omega
    rw [every_length, hlen, Nat.mul_div_cancel _ hc]
  refine ⟨by simp [transpose, hs], ?_, ?_⟩
  · rw [e, List.length_flatten]
    rw [List.eq_replicate_of_mem (l := (List.map List.length _)) (a := r) (by
      intro b hb; obtain ⟨x, hx, rfl⟩ := List.mem_map.mp hb; exact hall x hx)]
    simp
  · intro i j hi hj
    rw [e, flatten_get _ hall j i hi]
    have hc : 0 < c := by omega
    have hb : i * c + j < t.arr.data.length := by rw [hlen]; nlinarith
    simp only [List.getElem?_map, List.getElem?_range hj, Option.map_some, Option.bind_some, every]
    rw [List.getElem?_range (by rw [hlen, Nat.mul_div_cancel _ hc]; exact hi), Option.map_some,
      List.getElem?_eq_getElem hb, List.getD_eq_getElem?_getD, List.getElem?_eq_getElem hb]
    rfl

theorem contains_iff' (p : String) (t : List Char) : contains p t = true ↔ p.toList <:+: t := by
  unfold contains; exact ⟨@of_decide_eq_true _ (_), @decide_eq_true _ (_)⟩

theorem padding_spec (p : String) : paddingCode p = 0 ∧ "valid".toList <:+: p.toList.map Char.toLower ∨
    paddingCode p = 1 ∧ ¬ "valid".toList <:+: p.toList.map Char.toLower := by
  have h := contains_iff' "valid" (p.toList.map Char.toLower)
  unfold paddingCode
  cases hc : contains "valid" (p.toList.map Char.toLower) with
  | true => exact .inl ⟨rfl, h.mp hc⟩
  | false => exact .inr ⟨rfl, fun hh => by rw [h.mpr hh] at hc; cases hc⟩

theorem dense_isSome (l : Layer) : (dense l).isSome ↔
    (∃ W, l.weights[0]? = some W ∧ (l.weights.length = 1 → W.arr.shape ≠ [])) ∧
      ∃ fn ty, l.activation = some (some fn, ty) := by
  unfold dense
  cases ha : l.activation with
  | none => simp
  | some a =>
    obtain ⟨a1, ty⟩ := a
    cases hw : l.weights with
    | nil => simp
    | cons W ws =>
      cases ws with
      | nil =>
        cases hs : W.arr.shape <;> cases a1 <;> simp [hs]
      | cons B ws => cases a1 <;> simp

theorem lstm_isSome (l : Layer) : (lstm l).isSome ↔ 3 ≤ l.weights.length ∧ l.units.isSome ∧ l.returnSequences.isSome ∧
    ∃ s, l.batchInputShape = some s ∧ s.length = 3 := by
  unfold lstm
  cases l.units with
  | none => simp
  | some u =>
  cases hw : l.weights with
  | nil => simp
  | cons W ws =>
  cases ws with
  | nil => simp
  | cons U ws =>
  cases ws with
  | nil => simp
  | cons B ws =>
  cases l.batchInputShape with
  | none => simp
  | some s =>
  cases l.returnSequences with
  | none => simp
  | some rs =>
  by_cases hs : s.length = 3
  · have h1 : ∃ x, s[1]? = some x := ⟨_, List.getElem?_eq_getElem (by omega)⟩
    obtain ⟨x, hx⟩ := h1
    simp [hs, hx]
  · simp [hs]

theorem conv_isSome (l : Layer) : (conv2d l).isSome ↔
    2 ≤ l.weights.length ∧ l.strides.isSome ∧ l.padding.isSome ∧ l.activation.isSome := by
  unfold conv2d
  cases hw : l.weights with
  | nil => simp
  | cons W ws =>
  cases ws with
  | nil => simp
  | cons U ws => cases l.strides <;> cases l.padding <;> cases l.activation <;> simp

theorem maxpool_isSome (l : Layer) : (maxPool2d l).isSome ↔ l.strides.isSome ∧ l.padding.isSome ∧ l.poolSize.isSome := by
  unfold maxPool2d
  cases l.strides <;> cases l.padding <;> cases l.poolSize <;> simp

/-- The branches of the converter are those of the specification. -/
theorem fromLayer_kind (l : Layer) :
    (IsKind l .dense ∧ fromLayer l = dense l) ∨ (IsKind l .lstm ∧ fromLayer l = lstm l) ∨
    (IsKind l .conv ∧ fromLayer l = conv2d l) ∨ (IsKind l .flatten ∧ fromLayer l = flatten l) ∨
    (IsKind l .maxpool ∧ fromLayer l = maxPool2d l) ∨ (IsKind l .skip ∧ fromLayer l = some []) ∨
    ((∀ k, ¬ IsKind l k) ∧ fromLayer l = none) := by
  have c : ∀ p, contains p (upper l.className) = true ↔ Named l p := fun p => contains_iff' p _
  unfold fromLayer
  by_cases h1 : Named l "DENSE"
  · exact .inl ⟨h1, by rw [if_pos ((c _).mpr h1)]⟩
  by_cases h2 : Named l "LSTM"
  · exact .inr (.inl ⟨⟨h1, h2⟩, by rw [if_neg (fun h => h1 ((c _).mp h)), if_pos ((c _).mpr h2)]⟩)
  by_cases h3 : Named l "CONV2D"
  · exact .inr (.inr (.inl ⟨⟨h1, h2, h3⟩, by
      rw [if_neg (fun h => h1 ((c _).mp h)), if_neg (fun h => h2 ((c _).mp h)), if_pos ((c _).mpr h3)]⟩))
  by_cases h4 : Named l "FLATTEN"
  · exact .inr (.inr (.inr (.inl ⟨⟨h1, h2, h3, h4⟩, by
      rw [if_neg (fun h => h1 ((c _).mp h)), if_neg (fun h => h2 ((c _).mp h)), if_neg (fun h => h3 ((c _).mp h)),
        if_pos ((c _).mpr h4)]⟩)))
  by_cases h5 : Named l "MAXPOOLING2D"
  · exact .inr (.inr (.inr (.inr (.inl ⟨⟨h1, h2, h3, h4, h5⟩, by
      rw [if_neg (fun h => h1 ((c _).mp h)), if_neg (fun h => h2 ((c _).mp h)), if_neg (fun h => h3 ((c _).mp h)),
        if_neg (fun h => h4 ((c _).mp h)), if_pos ((c _).mpr h5)]⟩))))
  have mem : upper l.className ∈ ["INPUT".toList, "OUTPUT".toList, "INPUTLAYER".toList, "DROPOUT".toList] ↔
      IsKind l .skip := by
    rw [List.mem_cons, List.mem_cons, List.mem_cons, List.mem_singleton]
    exact Iff.rfl
  by_cases h6 : IsKind l .skip
  · exact .inr (.inr (.inr (.inr (.inr (.inl ⟨h6, by
      rw [if_neg (fun h => h1 ((c _).mp h)), if_neg (fun h => h2 ((c _).mp h)), if_neg (fun h => h3 ((c _).mp h)),
        if_neg (fun h => h4 ((c _).mp h)), if_neg (fun h => h5 ((c _).mp h)), if_pos (mem.mpr h6)]⟩)))))
  · refine .inr (.inr (.inr (.inr (.inr (.inr ⟨?_, by
      rw [if_neg (fun h => h1 ((c _).mp h)), if_neg (fun h => h2 ((c _).mp h)), if_neg (fun h => h3 ((c _).mp h)),
        if_neg (fun h => h4 ((c _).mp h)), if_neg (fun h => h5 ((c _).mp h)), if_neg (fun h => h6 (mem.mp h))]⟩)))))
    intro k hk
    cases k with
    | dense => exact h1 hk
    | lstm => exact h2 hk.2
    | conv => exact h3 hk.2.2
    | flatten => exact h4 hk.2.2.2
    | maxpool => exact h5 hk.2.2.2.2
    | skip => exact h6 hk

theorem skip_not (l : Layer) (h : IsKind l .skip) (p : String) (hp : p ∈ ["DENSE", "LSTM", "CONV2D", "FLATTEN", "MAXPOOLING2D"]) :
    ¬ Named l p := by
  unfold Named
  simp only [List.mem_cons, List.not_mem_nil, or_false] at hp
  rcases h with h | h | h | h <;> rw [h] <;> rcases hp with rfl | rfl | rfl | rfl | rfl <;> decide

/-- A layer is of one kind at most. -/
theorem kind_unique (l : Layer) (a b : LKind) (ha : IsKind l a) (hb : IsKind l b) : a = b := by
  have key : ∀ k, IsKind l k → open Classical in
      (if Named l "DENSE" then LKind.dense else if Named l "LSTM" then .lstm else if Named l "CONV2D" then .conv
        else if Named l "FLATTEN" then .flatten else if Named l "MAXPOOLING2D" then .maxpool else .skip) = k := by
    intro k hk
    cases k with
    | dense => exact if_pos hk
    | lstm => rw [if_neg hk.1, if_pos hk.2]
    | conv => rw [if_neg hk.1, if_neg hk.2.1, if_pos hk.2.2]
    | flatten => rw [if_neg hk.1, if_neg hk.2.1, if_neg hk.2.2.1, if_pos hk.2.2.2]
    | maxpool => rw [if_neg hk.1, if_neg hk.2.1, if_neg hk.2.2.1, if_neg hk.2.2.2.1, if_pos hk.2.2.2.2]
    | skip =>
      have s := skip_not l hk
      rw [if_neg (s "DENSE" (by simp)), if_neg (s "LSTM" (by simp)), if_neg (s "CONV2D" (by simp)),
        if_neg (s "FLATTEN" (by simp)), if_neg (s "MAXPOOLING2D" (by simp))]
  rw [← key a ha, ← key b hb]

theorem fromLayer_exported (l : Layer) (hw : ∀ t ∈ l.weights, t.arr.WF) (ops : List FOp) (h : fromLayer l = some ops) :
    Exported l ops := by
  have mem : ∀ {i : ℕ} {t : FTensor}, l.weights[i]? = some t → t.arr.WF := fun h => hw _ (List.mem_of_getElem? h)
  rcases fromLayer_kind l with ⟨k, e⟩ | ⟨k, e⟩ | ⟨k, e⟩ | ⟨k, e⟩ | ⟨k, e⟩ | ⟨k, e⟩ | ⟨k, e⟩ <;> rw [e] at h
  · unfold dense at h
    cases hb : l.weights[1]? with
    | none =>
      rw [hb] at h
      simp only [Option.bind_eq_bind, Option.bind_eq_some_iff, Option.some.injEq] at h
      obtain ⟨⟨a1, ty⟩, ha, W, hW, b, -, fn, hfn, rfl⟩ := h
      simp only at hfn
      subst hfn
      refine .dense k hW (transpose_spec W (mem hW)) ?_ ha
      intro B hB
      rw [hb] at hB; cases hB
    | some B =>
      rw [hb] at h
      simp only [Option.bind_eq_bind, Option.bind_eq_some_iff, Option.some.injEq] at h
      obtain ⟨⟨a1, ty⟩, ha, W, hW, b, rfl, fn, hfn, rfl⟩ := h
      simp only at hfn
      subst hfn
      refine .dense k hW (transpose_spec W (mem hW)) ?_ ha
      intro B' hB
      rw [hb, Option.some.injEq] at hB; exact hB
  · unfold lstm at h
    simp only [Option.bind_eq_bind, Option.bind_eq_some_iff] at h
    obtain ⟨u, hu, W, hW, U, hU, B, hB, s, hs, h⟩ := h
    by_cases h3 : s.length = 3
    swap
    · rw [if_pos h3] at h; cases h
    rw [if_neg (by simpa using h3)] at h
    simp only [Option.bind_eq_some_iff, Option.some.injEq] at h
    obtain ⟨s1, hs1, rs, hrs, rfl⟩ := h
    obtain ⟨s0, s1', s2, rfl⟩ := List.length_eq_three.mp h3
    simp only [List.getElem?_cons_succ, List.getElem?_cons_zero, Option.some.injEq] at hs1
    subst hs1
    exact .lstm k hW hU hB (transpose_spec W (mem hW)) (transpose_spec U (mem hU)) hu hrs hs ⟨by decide, by decide +kernel⟩
  · unfold conv2d at h
    simp only [Option.bind_eq_bind, Option.bind_eq_some_iff, Option.some.injEq] at h
    obtain ⟨W, hW, B, hB, st, hst, p, hp, a, ha, rfl⟩ := h
    exact .conv k hW hB hst hp (padding_spec p) ⟨a, ha, rfl⟩
  · unfold flatten at h
    rw [Option.some.injEq] at h
    subst h
    exact .flatten k
  · unfold maxPool2d at h
    simp only [Option.bind_eq_bind, Option.bind_eq_some_iff, Option.some.injEq] at h
    obtain ⟨st, hst, p, hp, po, hpo, rfl⟩ := h
    exact .maxpool k hst hp (padding_spec p) hpo
  · rw [Option.some.injEq] at h
    subst h
    exact .skip k
  · cases h

theorem fromLayer_isSome (l : Layer) : (fromLayer l).isSome ↔ Convertible l := by
  have u := kind_unique l
  unfold Convertible
  rcases fromLayer_kind l with ⟨k, e⟩ | ⟨k, e⟩ | ⟨k, e⟩ | ⟨k, e⟩ | ⟨k, e⟩ | ⟨k, e⟩ | ⟨k, e⟩ <;> rw [e]
  · rw [dense_isSome]
    constructor
    · intro h; exact .inl ⟨k, h⟩
    · rintro (⟨_, h⟩ | ⟨h, _⟩ | ⟨h, _⟩ | h | ⟨h, _⟩ | h)
      · exact h
      all_goals exact absurd (u _ _ k h) (by decide)
  · rw [lstm_isSome]
    constructor
    · intro h; exact .inr (.inl ⟨k, h⟩)
    · rintro (⟨h, _⟩ | ⟨_, h⟩ | ⟨h, _⟩ | h | ⟨h, _⟩ | h)
      rotate_left
      · exact h
      all_goals exact absurd (u _ _ k h) (by decide)
  · rw [conv_isSome]
    constructor
    · intro h; exact .inr (.inr (.inl ⟨k, h⟩))
    · rintro (⟨h, _⟩ | ⟨h, _⟩ | ⟨_, h⟩ | h | ⟨h, _⟩ | h)
      rotate_left 2
      · exact h
      all_goals exact absurd (u _ _ k h) (by decide)
  · exact ⟨fun _ => .inr (.inr (.inr (.inl k))), fun _ => rfl⟩
  · rw [maxpool_isSome]
    constructor
    · intro h; exact .inr (.inr (.inr (.inr (.inl ⟨k, h⟩))))
    · rintro (⟨h, _⟩ | ⟨h, _⟩ | ⟨h, _⟩ | h | ⟨_, h⟩ | h)
      rotate_left 4
      · exact h
      all_goals exact absurd (u _ _ k h) (by decide)
  · exact ⟨fun _ => .inr (.inr (.inr (.inr (.inr k)))), fun _ => rfl⟩
  · constructor
    · intro h; cases h
    · rintro (⟨h, _⟩ | ⟨h, _⟩ | ⟨h, _⟩ | h | ⟨h, _⟩ | h)
      all_goals exact absurd h (k _)

theorem operatorsOf_spec (ls : List Layer) (hw : ∀ l ∈ ls, ∀ t ∈ l.weights, t.arr.WF) : ∀ {ops : List FOp},
    operatorsOf ls = some ops → ∃ parts, ops = parts.flatten ∧ List.Forall₂ Exported ls parts := by
  induction ls with
  | nil => intro ops h; simp only [operatorsOf, Option.some.injEq] at h; exact ⟨[], by simp [← h], .nil⟩
  | cons l ls ih =>
    intro ops h
    simp only [operatorsOf, Option.bind_eq_bind, Option.bind_eq_some_iff, Option.some.injEq] at h
    obtain ⟨o, ho, rest, hr, rfl⟩ := h
    obtain ⟨parts, rfl, hp⟩ := ih (fun x hx => hw x (by simp [hx])) hr
    exact ⟨o :: parts, by simp, .cons (fromLayer_exported l (hw l (by simp)) o ho) hp⟩

theorem operatorsOf_isSome (ls : List Layer) : (operatorsOf ls).isSome ↔ ∀ l ∈ ls, (fromLayer l).isSome := by
  induction ls with
  | nil => simp [operatorsOf]
  | cons l ls ih =>
    rw [List.forall_mem_cons, ← ih, operatorsOf]
    cases fromLayer l <;> cases operatorsOf ls <;> simp

end Keras2Json

/-! ## The property -/

/-- **C47.**  The converter visits the layers in order and writes for each layer exactly the operators of its kind,
with the layer's own weights (kernels transposed) and attributes; layers of the skip list leave no operator; the
operator count is the number of operators written. -/
theorem C47_faithful (ls : List Keras2Json.Layer) (hw : ∀ l ∈ ls, ∀ t ∈ l.weights, t.arr.WF) (net : FNet)
    (h : keras2json ls = some net) :
    net.operators = net.graph.length ∧ net.engine = "keras" ∧
      ∃ parts, net.graph = parts.flatten ∧ List.Forall₂ Exported ls parts := by
  unfold keras2json at h
  simp only [Option.bind_eq_bind, Option.bind_eq_some_iff, Option.some.injEq] at h
  obtain ⟨ops, ho, rfl⟩ := h
  exact ⟨rfl, rfl, operatorsOf_spec ls hw ho⟩

/-- **C47 (failure).**  Conversion succeeds exactly if every layer can be converted; in particular a layer of no known
kind makes it fail. -/
theorem C47_succeeds_iff (ls : List Keras2Json.Layer) :
    ((keras2json ls).isSome ↔ ∀ l ∈ ls, Convertible l) ∧ ((∃ l ∈ ls, ∀ k, ¬ IsKind l k) → keras2json ls = none) := by
  have h : (keras2json ls).isSome ↔ ∀ l ∈ ls, Convertible l := by
    have : (keras2json ls).isSome ↔ (operatorsOf ls).isSome := by
      unfold keras2json; cases operatorsOf ls <;> simp
    rw [this, operatorsOf_isSome]
    exact forall₂_congr (fun l _ => fromLayer_isSome l)
  refine ⟨h, ?_⟩
  rintro ⟨l, hl, hk⟩
  rw [← Option.not_isSome_iff_eq_none, h]
  intro hc
  rcases hc l hl with ⟨h, _⟩ | ⟨h, _⟩ | ⟨h, _⟩ | h | ⟨h, _⟩ | h
  all_goals exact hk _ h

/-- **C47 (defect).**  A dense layer without a bias is exported with one zero per *input*, not per unit, so whenever
the numbers differ the exported bias does not fit the exported kernel. -/
theorem C47_dense_without_bias (l : Keras2Json.Layer) (hk : IsKind l .dense) (W : FTensor) (n u : ℕ)
    (hW : l.weights = [W]) (hs : W.arr.shape = [n, u]) (fn ty : String) (ha : l.activation = some (some fn, ty)) :
    ∃ net k b act, keras2json [l] = some net ∧ net.graph = [⟨"FULLY_CONNECTED_F", l.name, [k, b], []⟩, act] ∧
      k.tensor.arr.shape = [u, n] ∧ b.tensor.arr.shape = [n] ∧ b.tensor.arr.data = List.replicate n 0 := by
  have hd : fromLayer l = dense l := by
    have u := kind_unique l
    rcases fromLayer_kind l with ⟨k, e⟩ | ⟨k, e⟩ | ⟨k, e⟩ | ⟨k, e⟩ | ⟨k, e⟩ | ⟨k, e⟩ | ⟨k, e⟩
    · exact e
    all_goals first | exact absurd (u _ _ hk k) (by decide) | exact absurd hk (k _)
  refine ⟨⟨"keras", 2, [⟨"FULLY_CONNECTED_F", l.name, [⟨l.name ++ "/Kernel", Keras2Json.transpose W⟩,
      ⟨l.name ++ "/Bias", ⟨"float64", [n], List.replicate n 0⟩⟩], []⟩, ⟨fn, fn ++ " activation function", [], []⟩], [], []⟩,
    _, _, _, ?_, rfl, by simp [Keras2Json.transpose, hs], rfl, rfl⟩
  simp only [keras2json, operatorsOf, hd, dense, ha, hW, hs, List.getElem?_cons_zero, Option.bind_eq_bind, Option.bind_some,
    List.getElem?_cons_succ, List.getElem?_nil, Option.map_some, List.append_nil]
  rfl

/-- **C47 (defect).**  Every class whose name contains `Conv2D` (`DepthwiseConv2D`, `SeparableConv2D`,
`Conv2DTranspose`, …) is exported as an ordinary convolution of its first two weight arrays; anything beyond them is
lost. -/
theorem C47_conv_variants (l l' : Keras2Json.Layer) (hk : IsKind l .conv) (hk' : IsKind l' .conv)
    (hw : l.weights.take 2 = l'.weights.take 2) (hs : l.strides = l'.strides) (hp : l.padding = l'.padding)
    (ha : l.activation = l'.activation) : keras2json [l] = keras2json [l'] := by
  have hd : ∀ l : Keras2Json.Layer, IsKind l .conv → fromLayer l = conv2d l := by
    intro l hk
    have u := kind_unique l
    rcases fromLayer_kind l with ⟨k, e⟩ | ⟨k, e⟩ | ⟨k, e⟩ | ⟨k, e⟩ | ⟨k, e⟩ | ⟨k, e⟩ | ⟨k, e⟩
    rotate_left 2
    · exact e
    all_goals first | exact absurd (u _ _ hk k) (by decide) | exact absurd hk (k _)
  have g : ∀ i < 2, l.weights[i]? = l'.weights[i]? := by
    intro i hi
    rw [← List.getElem?_take_of_lt hi, hw, List.getElem?_take_of_lt hi]
  simp only [keras2json, operatorsOf, hd l hk, hd l' hk', conv2d, g 0 (by omega), g 1 (by omega), hs, hp, ha]

/-- **C47.**  The converted network is not one the sequential interpreter accepts: a network with its engine, or with
its empty input list, does not load. -/
theorem C47_not_executable (ls : List Keras2Json.Layer) (net : FNet) (h : keras2json ls = some net) (n : NetJ)
    (hn : n.engine = net.engine ∨ n.input = [] ∧ net.input = []) : SeqNet.load n = none := by
  unfold keras2json at h
  simp only [Option.bind_eq_bind, Option.bind_eq_some_iff, Option.some.injEq] at h
  obtain ⟨ops, ho, rfl⟩ := h
  rcases hn with hn | ⟨hn, -⟩
  · apply (C24_load_fails n).1
    simp only at hn
    unfold SeqNet.engine
    rw [hn]
    decide +kernel
  · unfold SeqNet.load
    rw [hn]; rfl

namespace C47Case

def ft (shape : List ℕ) (data : List ℚ) : FTensor := ⟨"float32", shape, data⟩

/-- Dense 2→3 without bias, dropout, Dense 3→1. -/
def layers : List Keras2Json.Layer :=
  [⟨"InputLayer", "in", [], none, none, none, none, none, none, none⟩,
   ⟨"Dense", "a", [ft [2, 3] [1, 2, 3, 4, 5, 6]], some (some "relu", "function"), some 3, none, none, none, none, none⟩,
   ⟨"Dropout", "d", [], none, none, none, none, none, none, none⟩,
   ⟨"Dense", "b", [ft [3, 1] [1, 2, 3], ft [1] [7]], some (some "linear", "function"), some 1, none, none, none, none, none⟩]

example : ∀ l ∈ layers, ∀ t ∈ l.weights, t.arr.WF := by
  simp [layers, ft, FArr.WF]

example : ((keras2json layers).map (fun n => (n.operators, n.graph.map FOp.opType))) =
    some (4, ["FULLY_CONNECTED_F", "relu", "FULLY_CONNECTED_F", "linear"]) := by decide +kernel

example : ((keras2json layers).bind (fun n => (n.graph[0]?).bind (fun o => (o.inputs[0]?).map (fun k => k.tensor.arr.data)))) =
    some [1, 4, 2, 5, 3, 6] := by decide +kernel

/-- An LSTM, a convolution, pooling and flattening convert; an unknown layer does not. -/
example : ((keras2json
    [⟨"LSTM", "l", [ft [1, 4] [1, 2, 3, 4], ft [1, 4] [1, 2, 3, 4], ft [4] [0, 0, 0, 0]], none, some 1, some true,
      some [none, some 5, some 1], none, none, none⟩,
     ⟨"Conv2D", "c", [ft [1, 1, 1, 1] [2], ft [1] [0]], some (some "relu", "function"), none, none, none, some [1, 1],
      some "Valid", none⟩,
     ⟨"MaxPooling2D", "m", [], none, none, none, none, some [2, 2], some "same", some [2, 2]⟩,
     ⟨"Flatten", "f", [], none, none, none, none, none, none, none⟩]).map (fun n => n.graph.map FOp.opType)) =
    some ["LSTM_F", "CONV_2D_F", "RELU_F", "MAXPOOLING_2D_F", "FLATTEN"] := by decide +kernel

example : keras2json [⟨"BatchNormalization", "n", [], none, none, none, none, none, none, none⟩] = none := by decide +kernel

end C47Case

end Verif
