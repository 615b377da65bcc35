import Verif.Model.Losses
import Verif.Props.Classes
import Verif.Props.FloatEnds
import Verif.Props.Build

/-!
# Property C104: the losses of the quantization scripts
-/

namespace Verif
open Spec Keras Losses

namespace Spec

/-- `c` is the first position of the largest score. -/
def FirstMax (y : List ℚ) (c : ℕ) : Prop :=
  ∃ a, y[c]? = some a ∧ ∀ (j : ℕ) (b : ℚ), y[j]? = some b → b ≤ a ∧ (j < c → b < a)

/-- `h` hits on the samples `B` with these labels, where `D x c` says that on `x` class `c` wins clearly: at least as many as
there are samples on which the label wins clearly, and not more than there are samples on which no other class does. -/
def HitCount {α : Type} (D : α → ℕ → Prop) (B : List α) (labels : List ℤ) (h : ℕ) : Prop :=
  (∀ S : Finset ℕ, (∀ i ∈ S, ∃ (x : α) (c : ℕ), B[i]? = some x ∧ labels[i]? = some (c : ℤ) ∧ D x c) → S.card ≤ h) ∧
  ∀ S : Finset ℕ, (∀ i ∈ S, ∃ (x : α) (l : ℤ) (c : ℕ), B[i]? = some x ∧ labels[i]? = some l ∧ D x c ∧ (c : ℤ) ≠ l) →
    h + S.card ≤ min B.length labels.length

/-- Largest change of a mean squared error if the prediction `t` of the target `y` changes by at most `e`, entry by entry. -/
def mseBound (t y e : List ℚ) : ℚ := (List.zipWith (fun (p : ℚ × ℚ) e => e * (2 * |p.1 - p.2| + e)) (t.zip y) e).sum / t.length

/-- The losses of the engine's output `out` on the samples `B`, where the model's scores are `T` and their error bounds `E`. -/
def LossesTrack {α : Type} (B : List α) (T E : α → List ℚ) (out : Tensor) : Prop :=
  (∀ labels : List ℤ, (∀ x ∈ B, T x ≠ []) → ∃ h : ℕ, hitLoss out labels = some (-(h : ℤ)) ∧
    HitCount (fun x c => Decisive (T x) (E x) c) B labels h) ∧
  ∀ y : List (List ℚ), y.map List.length = B.map (fun x => (T x).length) → y.flatten ≠ [] →
    ∃ v v', mseLoss out y = some v ∧ mseLoss (.flt (.mat (B.map T))) y = some v' ∧
      |v - v'| ≤ mseBound (B.flatMap T) y.flatten (B.flatMap E)

end Spec

namespace Losses

theorem argmaxFrom_spec (xs : List ℚ) (pre : List ℚ) (best : ℕ) (m : ℚ) (h : FirstMax pre best) (hm : pre[best]? = some m) :
    FirstMax (pre ++ xs) (argmaxFrom xs pre.length best m) := by
  induction xs generalizing pre best m with
  | nil => rw [List.append_nil]; exact h
  | cons x xs ih =>
    have e : pre ++ x :: xs = (pre ++ [x]) ++ xs := by simp
    have hlen : pre.length + 1 = (pre ++ [x]).length := by simp
    have hb : best < pre.length := (List.getElem?_eq_some_iff.mp hm).1
    obtain ⟨a, ha, hall⟩ := h
    rw [hm, Option.some.injEq] at ha
    subst ha
    simp only [argmaxFrom]
    rw [e, hlen]
    have hat : ∀ (j : ℕ) (b : ℚ), (pre ++ [x])[j]? = some b → (j < pre.length ∧ pre[j]? = some b) ∨ (j = pre.length ∧ b = x) := by
      intro j b hj
      by_cases h1 : j < pre.length
      · rw [List.getElem?_append_left h1] at hj; exact .inl ⟨h1, hj⟩
      · have h2 : j < (pre ++ [x]).length := (List.getElem?_eq_some_iff.mp hj).1
        rw [← hlen] at h2
        have h3 : j = pre.length := by omega
        subst h3
        rw [List.getElem?_append_right le_rfl] at hj
        simp at hj
        exact .inr ⟨rfl, hj.symm⟩
    by_cases hlt : m < x
    · rw [if_pos hlt]
      have hx : (pre ++ [x])[pre.length]? = some x := by rw [List.getElem?_append_right le_rfl]; simp
      refine ih _ _ _ ⟨x, hx, fun j b hj => ?_⟩ hx
      rcases hat j b hj with ⟨h1, h2⟩ | ⟨h1, h2⟩
      · have := (hall j b h2).1
        exact ⟨by linarith, fun _ => by linarith⟩
      · exact ⟨h2.le, fun h => absurd h (by omega)⟩
    · rw [if_neg hlt]
      have hx : (pre ++ [x])[best]? = some m := by rw [List.getElem?_append_left hb]; exact hm
      refine ih _ _ _ ⟨m, hx, fun j b hj => ?_⟩ hx
      rcases hat j b hj with ⟨h1, h2⟩ | ⟨h1, h2⟩
      · exact hall j b h2
      · exact ⟨by rw [h2]; exact not_lt.mp hlt, fun h => absurd h (by omega)⟩

theorem argmax_spec {y : List ℚ} {c : ℕ} (h : argmax y = some c) : FirstMax y c := by
  cases y with
  | nil => cases h
  | cons x xs =>
    simp only [argmax, Option.some.injEq] at h
    subst h
    refine argmaxFrom_spec xs [x] 0 x ⟨x, rfl, fun j b hj => ?_⟩ rfl
    match j with
    | 0 => simp at hj; exact ⟨hj.ge, fun h => absurd h (lt_irrefl _)⟩
    | j + 1 => simp at hj

theorem firstMax_unique {y : List ℚ} {c d : ℕ} (hc : FirstMax y c) (hd : FirstMax y d) : c = d := by
  obtain ⟨a, ha, h1⟩ := hc
  obtain ⟨b, hb, h2⟩ := hd
  rcases lt_trichotomy c d with h | h | h
  · have := (h2 c a ha).2 h
    have := (h1 d b hb).1
    linarith
  · exact h
  · have := (h1 d b hb).2 h
    have := (h2 c a ha).1
    linarith

theorem argmax_some {y : List ℚ} (h : y ≠ []) : ∃ c, argmax y = some c := by
  cases y with
  | nil => exact absurd rfl h
  | cons x xs => exact ⟨_, rfl⟩

theorem argmax_predicts {y : List ℚ} {c : ℕ} (h : Predicts y c) : argmax y = some c := by
  obtain ⟨a, ha, hall⟩ := h
  obtain ⟨d, hd⟩ := argmax_some (y := y) (by rintro rfl; simp at ha)
  rw [hd, Option.some.injEq]
  refine firstMax_unique (argmax_spec hd) ⟨a, ha, fun j b hb => ?_⟩
  by_cases hj : j = c
  · subst hj
    rw [ha, Option.some.injEq] at hb
    exact ⟨hb.ge, fun h => absurd h (lt_irrefl _)⟩
  · exact ⟨(hall j b hj hb).le, fun _ => hall j b hj hb⟩

/-- Positions whose elements satisfy `p` are counted. -/
theorem card_le_countP {β : Type} (p : β → Bool) (l : List β) (S : Finset ℕ) (h : ∀ i ∈ S, ∃ b, l[i]? = some b ∧ p b = true) :
    S.card ≤ l.countP p := by
  induction l generalizing S with
  | nil =>
    have : S = ∅ := by
      refine Finset.eq_empty_of_forall_notMem (fun i hi => ?_)
      obtain ⟨b, hb, -⟩ := h i hi
      simp at hb
    simp [this]
  | cons a l ih =>
    have h1 := ih ((S.erase 0).image Nat.pred) (by
      intro i hi
      obtain ⟨j, hj, rfl⟩ := Finset.mem_image.mp hi
      obtain ⟨hj0, hj⟩ := Finset.mem_erase.mp hj
      obtain ⟨b, hb, hp⟩ := h j hj
      obtain ⟨k, rfl⟩ : ∃ k, j = k + 1 := ⟨j - 1, by omega⟩
      exact ⟨b, by simpa using hb, hp⟩)
    rw [Finset.card_image_of_injOn (by
      intro i hi j hj hij
      have hi' := (Finset.mem_erase.mp hi).1
      have hj' := (Finset.mem_erase.mp hj).1
      simp only [Nat.pred_eq_sub_one] at hij
      omega)] at h1
    rw [List.countP_cons]
    by_cases h0 : 0 ∈ S
    · obtain ⟨b, hb, hp⟩ := h 0 h0
      simp only [List.getElem?_cons_zero, Option.some.injEq] at hb
      subst hb
      rw [if_pos hp]
      have := Finset.card_erase_add_one h0
      omega
    · rw [Finset.erase_eq_of_notMem h0] at h1
      omega

theorem hits_countP (ps : List ℕ) (ls : List ℤ) : hits ps ls = (ps.zip ls).countP (fun q => decide ((q.1 : ℤ) = q.2)) := by
  induction ps generalizing ls with
  | nil => simp [hits]
  | cons p ps ih =>
    cases ls with
    | nil => simp [hits]
    | cons l ls =>
      rw [hits, List.zip_cons_cons, List.countP_cons, ih, add_comm]
      simp

theorem hitCount {α : Type} {D : α → ℕ → Prop} {ps : List ℕ} {B : List α} (labels : List ℤ)
    (h : List.Forall₂ (fun p x => ∀ c, D x c → p = c) ps B) : HitCount D B labels (hits ps labels) := by
  have hlen := h.length_eq
  have hget : ∀ (i : ℕ) (x : α) (l : ℤ), B[i]? = some x → labels[i]? = some l →
      ∃ p, (ps.zip labels)[i]? = some (p, l) ∧ ∀ c, D x c → p = c := by
    intro i x l hx hl
    obtain ⟨i1, rfl⟩ := List.getElem?_eq_some_iff.mp hx
    have i2 : i < ps.length := by omega
    refine ⟨ps[i], ?_, (List.forall₂_iff_get.mp h).2 i i2 i1⟩
    rw [List.getElem?_zip_eq_some]
    exact ⟨List.getElem?_eq_getElem i2, hl⟩
  rw [hits_countP]
  refine ⟨fun S hS => card_le_countP _ _ S (fun i hi => ?_), fun S hS => ?_⟩
  · obtain ⟨x, c, hx, hl, hd⟩ := hS i hi
    obtain ⟨p, hp, hD⟩ := hget i x c hx hl
    exact ⟨_, hp, by simp [hD c hd]⟩
  · have h1 := card_le_countP (fun q : ℕ × ℤ => decide (¬ decide ((q.1 : ℤ) = q.2) = true)) (ps.zip labels) S (by
      intro i hi
      obtain ⟨x, l, c, hx, hl, hd, hne⟩ := hS i hi
      obtain ⟨p, hp, hD⟩ := hget i x l hx hl
      refine ⟨_, hp, ?_⟩
      simp only [hD c hd, decide_eq_true_eq]
      exact hne)
    have h2 := List.length_eq_countP_add_countP (l := ps.zip labels) (fun q => decide ((q.1 : ℤ) = q.2))
    rw [List.length_zip, hlen] at h2
    omega

theorem mapM_argmax {Y : List (List ℚ)} (h : ∀ y ∈ Y, y ≠ []) :
    ∃ ps, Y.mapM argmax = some ps ∧ List.Forall₂ (fun p y => argmax y = some p) ps Y := by
  induction Y with
  | nil => exact ⟨[], rfl, .nil⟩
  | cons y Y ih =>
    obtain ⟨ps, h1, h2⟩ := ih (fun y hy => h y (by simp [hy]))
    obtain ⟨c, hc⟩ := argmax_some (h y (by simp))
    exact ⟨c :: ps, by simp [hc, h1], .cons hc h2⟩

theorem within_append {y t E y' t' E' : List ℚ} (h : Within y t E) (h' : Within y' t' E') :
    Within (y ++ y') (t ++ t') (E ++ E') := by
  refine ⟨by rw [List.length_append, List.length_append, h.1, h'.1], ?_⟩
  rw [List.zip_append h.1.symm]
  exact List.rel_append h.2 h'.2

theorem within_length {y t E : List ℚ} (h : Within y t E) : y.length = t.length := by
  rw [h.2.length_eq, List.length_zip, h.1, min_self]

theorem within_flat {α : Type} {Y : List (List ℚ)} {B : List α} {T E : α → List ℚ}
    (h : List.Forall₂ (fun y x => Within y (T x) (E x)) Y B) : Within Y.flatten (B.flatMap T) (B.flatMap E) := by
  induction h with
  | nil => exact ⟨rfl, .nil⟩
  | cons h _ ih =>
    rw [List.flatten_cons, List.flatMap_cons, List.flatMap_cons]
    exact within_append h ih

theorem square_change {p t y e : ℚ} (h : |p - t| ≤ e) : |(p - y) ^ 2 - (t - y) ^ 2| ≤ e * (2 * |t - y| + e) := by
  have h0 := (abs_nonneg (p - t)).trans h
  rw [show (p - y) ^ 2 - (t - y) ^ 2 = (p - t) * (2 * (t - y) + (p - t)) by ring, abs_mul]
  refine mul_le_mul h ?_ (abs_nonneg _) h0
  refine (abs_add_le _ _).trans ?_
  rw [abs_mul, abs_two]
  linarith

theorem squares_change {p t e : List ℚ} (h : Within p t e) (y : List ℚ) (hy : y.length = t.length) :
    |(List.zipWith (fun p y => (p - y) ^ 2) p y).sum - (List.zipWith (fun t y => (t - y) ^ 2) t y).sum| ≤
      (List.zipWith (fun (q : ℚ × ℚ) e => e * (2 * |q.1 - q.2| + e)) (t.zip y) e).sum := by
  induction t generalizing p e y with
  | nil =>
    have := within_length h
    simp only [List.length_nil, List.length_eq_zero_iff] at this
    subst this
    simp
  | cons t ts ih =>
    obtain ⟨hl, h⟩ := h
    cases e with
    | nil => simp at hl
    | cons e es =>
      cases y with
      | nil => simp at hy
      | cons y ys =>
        cases h with
        | @cons p _ ps _ h1 h2 =>
          have := ih ⟨by simpa using hl, h2⟩ ys (by simpa using hy)
          have h3 := square_change (y := y) h1
          simp only [List.zipWith_cons_cons, List.zip_cons_cons, List.sum_cons]
          rw [show ∀ a b c d : ℚ, a + b - (c + d) = (a - c) + (b - d) from fun a b c d => by ring]
          exact (abs_add_le _ _).trans (add_le_add h3 this)

theorem flatten_length_eq {α β : Type} : ∀ {a : List (List α)} {b : List (List β)}, a.map List.length = b.map List.length →
    a.flatten.length = b.flatten.length := by
  intro a b h
  rw [List.length_flatten, List.length_flatten, h]

theorem track {α : Type} {B : List α} {T E : α → List ℚ} {Y : List (List ℚ)}
    (h : List.Forall₂ (fun y x => Within y (T x) (E x)) Y B) : LossesTrack B T E (.flt (.mat Y)) := by
  refine ⟨fun labels hne => ?_, fun y hy hy0 => ?_⟩
  · obtain ⟨ps, h1, h2⟩ := mapM_argmax (Y := Y) (by
      intro y hy
      obtain ⟨x, hx, hw⟩ : ∃ x ∈ B, Within y (T x) (E x) := by
        clear hne
        induction h with
        | nil => simp at hy
        | cons a b ih =>
          rcases List.mem_cons.mp hy with rfl | hy
          · exact ⟨_, by simp, a⟩
          · obtain ⟨x, hx, hw⟩ := ih hy
            exact ⟨x, by simp [hx], hw⟩
      intro hy0
      have := within_length hw
      rw [hy0] at this
      exact hne x hx (List.length_eq_zero_iff.mp this.symm))
    refine ⟨hits ps labels, by simp [hitLoss, h1], hitCount labels ?_⟩
    clear h1 hne
    induction h generalizing ps with
    | nil => cases h2; exact .nil
    | cons a b ih =>
      cases h2 with
      | cons h3 h4 =>
        refine .cons (fun c hc => ?_) (ih _ h4)
        have := argmax_predicts (Classes.predicts a hc)
        rw [h3, Option.some.injEq] at this
        exact this
  · have hshape : Y.map List.length = y.map List.length := by
      rw [hy]
      clear hy hy0
      induction h with
      | nil => rfl
      | cons a b ih => rw [List.map_cons, List.map_cons, ih, within_length a]
    have hshape' : (B.map T).map List.length = y.map List.length := by rw [hy, List.map_map]; rfl
    have hw := within_flat h
    have hlen : y.flatten.length = Y.flatten.length := flatten_length_eq hshape.symm
    have hlen' : y.flatten.length = (B.flatMap T).length := by rw [← within_length hw, hlen]
    have hY : Y.flatten ≠ [] := by
      intro h0; rw [h0] at hlen; exact hy0 (List.length_eq_zero_iff.mp hlen)
    have hT : (B.map T).flatten ≠ [] := by
      intro h0; rw [← List.flatMap_def] at h0; rw [h0] at hlen'; exact hy0 (List.length_eq_zero_iff.mp hlen')
    refine ⟨_, _, if_pos ⟨hshape, hY⟩, if_pos ⟨hshape', hT⟩, ?_⟩
    rw [← List.flatMap_def, ← hlen, ← hlen', ← sub_div, abs_div, Nat.abs_cast]
    unfold mseBound
    rw [← hlen']
    exact div_le_div_of_nonneg_right (squares_change hw _ hlen') (Nat.cast_nonneg _)

theorem within_const {y t : List ℚ} {e : ℚ} (h : List.Forall₂ (fun a b => |a - b| ≤ e) y t) :
    Within y t (t.map (fun _ => e)) := by
  refine ⟨by simp, ?_⟩
  induction h with
  | nil => exact .nil
  | cons h _ ih => exact .cons h ih

theorem codes_predict {q : List ℤ} {s : ℚ} {z : ℤ} (hs : 0 < s) {c : ℕ} (h : Predicts (q.map (real z s)) c) :
    Predicts (q.map (fun (v : ℤ) => (v : ℚ))) c := by
  obtain ⟨a, ha, hall⟩ := h
  rw [List.getElem?_map, Option.map_eq_some_iff] at ha
  obtain ⟨v, hv, rfl⟩ := ha
  refine ⟨(v : ℚ), by rw [List.getElem?_map, hv]; rfl, fun j b hj hb => ?_⟩
  rw [List.getElem?_map, Option.map_eq_some_iff] at hb
  obtain ⟨u, hu, rfl⟩ := hb
  have := hall j (real z s u) hj (by rw [List.getElem?_map, hu]; rfl)
  unfold real at this
  have := lt_of_mul_lt_mul_left this hs.le
  linarith

/-- Codes whose meanings are near the scores are counted like the scores. -/
theorem track_codes {α : Type} {B : List α} {T E : α → List ℚ} {Q : List (List ℤ)} {s : ℚ} {z : ℤ} (hs : 0 < s)
    (h : List.Forall₂ (fun q x => Within (q.map (real z s)) (T x) (E x)) Q B) (labels : List ℤ) (hne : ∀ x ∈ B, T x ≠ []) :
    ∃ k : ℕ, hitLoss (.int (.mat Q)) labels = some (-(k : ℤ)) ∧ HitCount (fun x c => Decisive (T x) (E x) c) B labels k := by
  obtain ⟨ps, h1, h2⟩ : ∃ ps, Q.mapM (fun y => argmax (y.map (fun (q : ℤ) => (q : ℚ)))) = some ps ∧
      List.Forall₂ (fun p x => ∀ c, Decisive (T x) (E x) c → p = c) ps B := by
    induction h with
    | nil => exact ⟨[], rfl, .nil⟩
    | @cons q x Q B a b ih =>
      obtain ⟨ps, h1, h2⟩ := ih (fun x hx => hne x (by simp [hx]))
      have hlen := within_length a
      obtain ⟨c, hc⟩ := argmax_some (y := q.map (fun (q : ℤ) => (q : ℚ))) (by
        intro h0
        rw [List.map_eq_nil_iff] at h0
        rw [h0] at hlen
        exact hne x (by simp) (List.length_eq_zero_iff.mp hlen.symm))
      refine ⟨c :: ps, by rw [List.mapM_cons, hc, h1]; rfl, .cons (fun d hd => ?_) h2⟩
      have := argmax_predicts (codes_predict hs (Classes.predicts a hd))
      rw [hc, Option.some.injEq] at this
      exact this
  exact ⟨hits ps labels, by simp [hitLoss, h1], hitCount labels h2⟩

/-- The hit loss as a loss function for `build`, in exact arithmetic; 0 where it raises. -/
def hitLossFn (ext : Ext) (X : Tensor) (labels : List ℤ) (s : Option SeqNet) : ℚ :=
  (((s.bind (fun n => n.infer ext X)).bind (fun r => hitLoss r.1 labels)).getD 0 : ℤ)

theorem hitLoss_nonpos {t : Tensor} {labels : List ℤ} {v : ℤ} (h : hitLoss t labels = some v) : v ≤ 0 := by
  unfold hitLoss at h
  split at h
  · rw [Option.map_eq_some_iff] at h
    obtain ⟨ps, -, rfl⟩ := h
    omega
  · rw [Option.map_eq_some_iff] at h
    obtain ⟨ps, -, rfl⟩ := h
    omega
  · cases h

theorem hitLossFn_nonpos (ext : Ext) (X : Tensor) (labels : List ℤ) (s : Option SeqNet) : hitLossFn ext X labels s ≤ 0 := by
  unfold hitLossFn
  cases h : (s.bind (fun n => n.infer ext X)).bind (fun r => hitLoss r.1 labels) with
  | none => simp
  | some v =>
    rw [Option.bind_eq_some_iff] at h
    obtain ⟨r, -, hr⟩ := h
    simp only [Option.getD_some]
    exact_mod_cast hitLoss_nonpos hr

end Losses

/-- **C104 (argmax).**  The class the scripts count is the first position of the largest score. -/
theorem C104_argmax (y : List ℚ) : (y = [] → argmax y = none) ∧ ∀ c, argmax y = some c ↔ FirstMax y c := by
  refine ⟨fun h => by rw [h]; rfl, fun c => ⟨argmax_spec, fun h => ?_⟩⟩
  obtain ⟨d, hd⟩ := argmax_some (y := y) (by rintro rfl; obtain ⟨a, ha, -⟩ := h; simp at ha)
  rw [hd, firstMax_unique (argmax_spec hd) h]

/-- **C104 (Keras).**  The losses of a dense model, quantized and exported in floating point and run by the engine in float64. -/
theorem C104_dense (ext : Ext) (F : Formats) (h1 : ∀ d, Ieee (F.data d)) (h2 : ∀ d, Ieee (F.weight d)) (h3 : Ieee F.product)
    (K : FloatKeras) (cfg : Cfg) (X : Arr ℚ) (ls : List KLayer) (n : ℕ)
    (h8 : Int8Layers cfg n ls) (hq : NamesType cfg.quantizeDtype "int" 8) (δ : ℚ) (ha : ActsOk K.act δ ls)
    (hlip : ∀ l, KLayer.dense l ∈ ls → ∀ a b, |target l a - target l b| ≤ |a - b|) (g : List OpJ)
    (h : (Arith.float F K).graph cfg X ls = some g) (hg : FileFactors g) :
    ∃ s z fs, NetMeans (exportJson g) s z fs ∧ ExportedFile F.product.fl δ (s, z) (denseLayers ls) fs ∧
      ∃ N, Fmt.f64.load (exportJson g) = some N ∧
        ∀ B : List (List ℚ), B ≠ [] → (∀ x ∈ B, x.length = n) →
          ∃ out rec, Fmt.f64.infer ext N (.flt (.mat B)) = some (out, rec) ∧
            LossesTrack B (forward ls) (fun x => List.zipWith (· + ·)
              (outputBound (fileExact fs x) (fileBound fs x (inputBound s z x)))
              (drift F.product.fl fs (denseLayers ls) x (x.map (fun _ => 0)))) out := by
  obtain ⟨s, z, fs, hm, he, N, n1, -, n3⟩ := C95_accuracy ext F h1 h2 h3 K cfg X ls n h8 hq δ ha hlip g h hg
  refine ⟨s, z, fs, hm, he, N, n1, fun B hB hn => ?_⟩
  obtain ⟨Y, rec, e1, e2⟩ := n3 B hB hn
  exact ⟨_, rec, e1, track e2⟩

/-- **C104 (recurrent Keras models).** -/
theorem C104_recurrent (ext : Ext) (F : Formats) (h1 : ∀ d, Ieee (F.data d)) (h2 : ∀ d, Ieee (F.weight d)) (h3 : Ieee F.product)
    (K : FloatKeras) (cfg : Cfg) (X : Arr ℚ) (ls : List KLayer) (n : ℕ)
    (hm : RecurrentModel cfg n ls) (hq : NamesType cfg.quantizeDtype "int" 8) (δ : ℚ) (ha : ActsOk K.act δ ls)
    (hs : ∀ a, |K.sigmoid a - ext.sigmoid a| ≤ δ) (ht : ∀ a, |K.tanh a - ext.tanh a| ≤ δ)
    (hsl : ∀ a b, |ext.sigmoid a - ext.sigmoid b| ≤ |a - b|) (htl : ∀ a b, |ext.tanh a - ext.tanh b| ≤ |a - b|)
    (hlip : ∀ l, KLayer.dense l ∈ ls → ∀ a b, |target l a - target l b| ≤ |a - b|) (g : List OpJ)
    (h : (Arith.float F K).graph cfg X ls = some g) (hg : FileFactors g) (bs : List LstmBudget)
    (hbs : LstmPlans ext F.product.fl δ ls g bs) :
    ∃ s z rs fs, SeqNetMeans ext (exportJson g) s z rs fs ∧ rs.map (·.l) = lstmLayers ls ∧ rs.map (·.b) = bs ∧
      ExportedFile F.product.fl δ (recLast rs).1 (denseLayers ls) fs ∧
      ∃ N, Fmt.f64.load (exportJson g) = some N ∧
        ∀ (B : List (List (List ℚ))) (T : ℕ), B ≠ [] → 0 < T →
          (∀ x ∈ B, x.length = T ∧ (∀ r ∈ x, r.length = n) ∧
            ∃ e, (∀ r ∈ x, ∀ v ∈ inputBound s z r, v ≤ e) ∧ recInRange ext e rs x) →
          ∃ out rec, Fmt.f64.infer ext N (.flt (.cube B)) = some (out, rec) ∧
            LossesTrack B (seqForward ext ls) (fun x => List.zipWith (· + ·)
              (outputBound (fileExact fs (recExact ext rs x)) (fileBound fs (recExact ext rs x) (recBound T rs)))
              (drift F.product.fl fs (denseLayers ls) (recExact ext rs x) ((recExact ext rs x).map (fun _ => 0)))) out := by
  obtain ⟨s, z, rs, fs, a1, -, a3, a4, a5, N, n1, n2⟩ :=
    C97_accuracy ext F h1 h2 h3 K cfg X ls n hm hq δ ha hs ht hsl htl hlip g h hg bs hbs
  refine ⟨s, z, rs, fs, a1, a3, a4, a5, N, n1, fun B T hB hT hx => ?_⟩
  obtain ⟨Y, rec, e1, e2⟩ := n2 B T hB hT hx
  exact ⟨_, rec, e1, track e2⟩

/-- **C104 (TFLite).** -/
theorem C104_tflite (ext cext ideal : Ext) (ls lt δ : ℚ) (hls : 0 ≤ ls) (hlt : 0 ≤ lt)
    (hsig : ∀ a b, |ideal.sigmoid a - ideal.sigmoid b| ≤ ls * |a - b|)
    (htanh : ∀ a b, |ideal.tanh a - ideal.tanh b| ≤ lt * |a - b|) (hce : Approximates δ cext ideal)
    (en : Tflite2Json.Enums) (ip : Tflite2Json.Interp) (m : Tflite2Json.TModel) (hi : Interprets ip m) (s : ℚ) (z : ℤ)
    (fs : List FileOp) (hm : TfliteNet en ip m ideal ls lt δ s z fs) (n : ℕ) (hfit : fileFits (s, z) fs n) (net : NetJ)
    (h : Tflite2Json.convert cext en ip m Fmt.f64.int8Table = some net) :
    ∃ N, Fmt.f64.load net = some N ∧ ∀ B : List (List ℚ), B ≠ [] → (∀ x ∈ B, x.length = n) →
      ∃ out rec, Fmt.f64.infer ext N (.flt (.mat B)) = some (out, rec) ∧
        LossesTrack B (fileExact fs) (fun x => outputBound (fileExact fs x) (fileBound fs x (inputBound s z x))) out := by
  obtain ⟨N, n1, -, n3⟩ :=
    C100_accuracy ext cext ideal ls lt δ hls hlt hsig htanh hce en ip m hi s z fs hm n hfit net h
  refine ⟨N, n1, fun B hB hn => ?_⟩
  obtain ⟨Y, rec, e1, e2⟩ := n3 B hB hn
  exact ⟨_, rec, e1, track e2⟩

/-- **C104 (ONNX).** -/
theorem C104_onnx (ext cext ideal : Ext) (ls lt δ : ℚ) (hls : 0 ≤ ls) (hlt : 0 ≤ lt)
    (hs : ∀ a b, |ideal.sigmoid a - ideal.sigmoid b| ≤ ls * |a - b|)
    (ht : ∀ a b, |ideal.tanh a - ideal.tanh b| ≤ lt * |a - b|) (he : Approximates δ ext ideal)
    (hce : Approximates δ cext ideal)
    (m : Onnx2Json.OModel) (S : ℚ) (Z : ℤ) (ops : List OnnxOp)
    (hm : List.Forall₂ (NodeMeans m) m.nodes (.quantize S Z :: ops))
    (hin : m.inputs ≠ []) (n : ℕ) (hn : 0 < n) (hf : onnxFits (.quantize S Z :: ops) none n)
    (hN : NormalScales (.quantize S Z :: ops)) (hr : onnxAfter ops (some (S, Z)) = none) :
    ∃ net s, Onnx2Json.model2json cext m Fmt.f64.uint8Table = some net ∧ Fmt.f64.load net = some s ∧
      ∀ X : List (List ℚ), X ≠ [] → (∀ x ∈ X, x.length = n) →
        ∃ out mids, Fmt.f64.infer ext s (.flt (.mat X)) = some (out, mids) ∧
          LossesTrack X (onnxExact ideal (.quantize S Z :: ops)) (fun x => (onnxExact ideal (.quantize S Z :: ops) x).map
            (fun _ => onnxBound64 ideal ls lt δ (.quantize S Z :: ops) x 0)) out := by
  obtain ⟨net, s, h1, h2, h3⟩ := C98_accuracy ext cext ideal ls lt δ hls hlt hs ht he hce m S Z ops hm hin n hn hf hN
  refine ⟨net, s, h1, h2, fun X hX hx => ?_⟩
  obtain ⟨out, mids, e1, e2⟩ := h3 X hX hx
  rw [hr] at e2
  obtain ⟨Y, rfl, hY⟩ := e2
  exact ⟨_, mids, e1, track (hY.imp (fun y x hw => within_const hw))⟩

/-- **C104 (codes).**  The hits of a network file of the int8 engine that ends without a dequantize operator: the scripts then
compare codes, and count as if they compared numbers. -/
theorem C104_codes (ext : Ext) (net : NetJ) (s : ℚ) (z : ℤ) (ops : List OpJ) (fs : List FileOp)
    (heng : upper net.engine = "TFLITE".toList) (hout : ∃ o, net.output[0]? = some (some o)) (hopen : Opens net s z ops)
    (hops : List.Forall₂ FileMeans ops fs) (hs : 0 < s) (hz : Code (-128) 127 z) (n : ℕ) (hfit : fileFits (s, z) fs n)
    (hlast : 0 < (fileLast (s, z) fs).1) :
    ∃ N, Fmt.f64.load net = some N ∧ ∀ B : List (List ℚ), B ≠ [] → (∀ x ∈ B, x.length = n ∧ fileExact fs x ≠ []) →
      ∃ out rec, Fmt.f64.infer ext N (.flt (.mat B)) = some (out, rec) ∧ ∀ labels : List ℤ,
        ∃ k : ℕ, hitLoss out labels = some (-(k : ℤ)) ∧
          HitCount (fun x c => Decisive (fileExact fs x) (fileBound fs x (inputBound s z x)) c) B labels k := by
  obtain ⟨N, n1, -, n2⟩ := C103_codes ext net s z ops fs heng hout hopen hops hs hz n hfit
  refine ⟨N, n1, fun B hB hx => ?_⟩
  obtain ⟨Y, rec, e1, e2⟩ := n2 B hB (fun x h => (hx x h).1)
  refine ⟨_, rec, e1, fun labels => track_codes (T := fileExact fs) (E := fun x => fileBound fs x (inputBound s z x))
    (z := (fileLast (s, z) fs).2) hlast (e2.imp (fun q x h => ⟨h.1, ?_⟩)) labels (fun x h => (hx x h).2)⟩
  rw [List.forall₂_map_left_iff]
  exact h.2.imp (fun _ _ h => h.2)

/-- **C104 (ONNX codes).**  The hits of a converted ONNX model whose result stays quantized. -/
theorem C104_onnx_codes (ext cext ideal : Ext) (ls lt δ : ℚ) (hls : 0 ≤ ls) (hlt : 0 ≤ lt)
    (hs : ∀ a b, |ideal.sigmoid a - ideal.sigmoid b| ≤ ls * |a - b|)
    (ht : ∀ a b, |ideal.tanh a - ideal.tanh b| ≤ lt * |a - b|) (he : Approximates δ ext ideal)
    (hce : Approximates δ cext ideal)
    (m : Onnx2Json.OModel) (S : ℚ) (Z : ℤ) (ops : List OnnxOp)
    (hm : List.Forall₂ (NodeMeans m) m.nodes (.quantize S Z :: ops))
    (hin : m.inputs ≠ []) (n : ℕ) (hn : 0 < n) (hf : onnxFits (.quantize S Z :: ops) none n)
    (hN : NormalScales (.quantize S Z :: ops)) (so : ℚ) (zo : ℤ) (hr : onnxAfter ops (some (S, Z)) = some (so, zo)) :
    ∃ net s, Onnx2Json.model2json cext m Fmt.f64.uint8Table = some net ∧ Fmt.f64.load net = some s ∧
      ∀ X : List (List ℚ), X ≠ [] → (∀ x ∈ X, x.length = n ∧ onnxExact ideal (.quantize S Z :: ops) x ≠ []) →
        ∃ out mids, Fmt.f64.infer ext s (.flt (.mat X)) = some (out, mids) ∧ ∀ labels : List ℤ,
          ∃ k : ℕ, hitLoss out labels = some (-(k : ℤ)) ∧
            HitCount (fun x c => DecisiveBy (onnxExact ideal (.quantize S Z :: ops) x)
              (onnxBound64 ideal ls lt δ (.quantize S Z :: ops) x 0) c) X labels k := by
  have hpos : 0 < so := by
    have key : ∀ (os : List OnnxOp) (p : Option (ℚ × ℤ)), (∀ S Z, p = some (S, Z) → (2 : ℚ) ^ (-126 : ℤ) ≤ S) →
        NormalScales os → onnxAfter os p = some (so, zo) → (2 : ℚ) ^ (-126 : ℤ) ≤ so := by
      intro os
      induction os with
      | nil => intro p hp _ h; exact hp so zo h
      | cons o os ih =>
        intro p hp hN h
        exact ih o.after (hN o (by simp)) (fun o' ho' => hN o' (by simp [ho'])) h
    have := key ops (some (S, Z)) (fun S' Z' h => hN (.quantize S Z) (by simp) S' Z' h)
      (fun o ho => hN o (by simp [ho])) hr
    exact lt_of_lt_of_le (by positivity) this
  obtain ⟨net, s, h1, h2, h3⟩ := C98_accuracy ext cext ideal ls lt δ hls hlt hs ht he hce m S Z ops hm hin n hn hf hN
  refine ⟨net, s, h1, h2, fun X hX hx => ?_⟩
  obtain ⟨out, mids, e1, e2⟩ := h3 X hX (fun x h => (hx x h).1)
  rw [hr] at e2
  obtain ⟨Q, rfl, hQ⟩ := e2
  refine ⟨_, mids, e1, fun labels => ?_⟩
  obtain ⟨k, k1, k2, k3⟩ := track_codes (T := onnxExact ideal (.quantize S Z :: ops))
    (E := fun x => (onnxExact ideal (.quantize S Z :: ops) x).map
      (fun _ => onnxBound64 ideal ls lt δ (.quantize S Z :: ops) x 0)) (z := zo) hpos
    (hQ.imp (fun q x h => within_const (by rw [List.forall₂_map_left_iff]; exact h.imp (fun _ _ h => h.2)))) labels
    (fun x h => (hx x h).2)
  have conv : ∀ (t : List ℚ) (e : ℚ) (c : ℕ), DecisiveBy t e c → Decisive t (t.map (fun _ => e)) c := by
    rintro t e c ⟨a, ha, hall⟩
    refine ⟨a, e, ha, by rw [List.getElem?_map, ha]; rfl, fun j b e' hj hb he => ?_⟩
    rw [List.getElem?_map, hb, Option.map_some, Option.some.injEq] at he
    subst he
    have := hall j b hj hb
    linarith
  refine ⟨k, k1, fun T hT => k2 T (fun i hi => ?_), fun T hT => k3 T (fun i hi => ?_)⟩
  · obtain ⟨x, c, a1, a2, a3⟩ := hT i hi
    exact ⟨x, c, a1, a2, conv _ _ _ a3⟩
  · obtain ⟨x, l, c, a1, a2, a3, a4⟩ := hT i hi
    exact ⟨x, l, c, a1, a2, conv _ _ _ a3, a4⟩

/-- **C104 (build).**  `build` with the hit loss returns a network with at least as many hits as the plainly quantized one,
whatever equalizers are configured (except the QUBO optimizer) and whatever the random numbers; no condition on the loss is left.
If the plainly quantized network hits anything, the returned one can be loaded and run. -/
theorem C104_build (ext : Ext) (X : Tensor) (labels : List ℤ)
    (qubo : World → List QRes → Option World) (draws : List (List ParamEq.Draw)) (cs : List Build.Choices)
    (cfg : Config.QuantizerCfg) (hq : cfg.adaRoundNet ≠ some .qubo) (x : Arr ℚ) (ls : List KLayer)
    (hsh : ∀ l, KLayer.dense l ∈ ls → ∃ n, ShapeOk l n) (w w' : World) (rs rs' : List QRes)
    (h : quantizeModel ext cfg.forKeras x ls = some (w, rs))
    (hb : Build.build ext (hitLossFn ext X labels) qubo draws cs cfg x ls = some (w', rs'))
    (N : SeqNet) (hN : asSequential w rs = some N) (r : Tensor × List Tensor) (hr : N.infer ext X = some r)
    (k : ℕ) (hk : hitLoss r.1 labels = some (-(k : ℤ))) (hk0 : 0 < k) :
    ∃ N' r' k', asSequential w' rs' = some N' ∧ N'.infer ext X = some r' ∧ hitLoss r'.1 labels = some (-((k' : ℕ) : ℤ)) ∧ k ≤ k' := by
  have hle := C70_never_worse ext (hitLossFn ext X labels) (.inr (hitLossFn_nonpos ext X labels)) qubo draws cs cfg hq x ls hsh
    w w' rs rs' h hb
  have e : hitLossFn ext X labels (asSequential w rs) = -(k : ℚ) := by
    simp [hitLossFn, hN, hr, hk]
  rw [e] at hle
  unfold hitLossFn at hle
  cases hv : ((asSequential w' rs').bind (fun n => n.infer ext X)).bind (fun r => hitLoss r.1 labels) with
  | none =>
    rw [hv, Option.getD_none, Int.cast_zero] at hle
    have : (0 : ℚ) < k := by exact_mod_cast hk0
    linarith
  | some v =>
    rw [hv, Option.getD_some] at hle
    simp only [Option.bind_eq_some_iff] at hv
    obtain ⟨r', ⟨N', hN', hr'⟩, hv⟩ := hv
    have h0 := hitLoss_nonpos hv
    obtain ⟨k', rfl⟩ : ∃ k' : ℕ, v = -(k' : ℤ) := ⟨v.natAbs, by omega⟩
    refine ⟨N', r', k', hN', hr', hv, ?_⟩
    have : -((k' : ℤ) : ℚ) ≤ -(k : ℚ) := by push_cast at hle ⊢; exact hle
    have : (k : ℚ) ≤ (k' : ℚ) := by push_cast at this; linarith
    exact_mod_cast this

/-! ## Concrete cases

The hypotheses of `C104_dense` and `C104_recurrent` are those of `C95_accuracy` and `C97_accuracy` (see `C95Case`, `C97Case`), those
of `C104_tflite` are met in `C100Case`. -/

namespace C104Case

/-- Ties go to the first class. -/
example : argmax [1, 3, 3] = some 1 ∧ hitLoss (.flt (.mat [[1, 3, 3], [5, 2, 4], [0, 0, 0]])) [1, 2, 0] = some (-2) := by
  decide +kernel

theorem two {t : List ℚ} {a b e : ℚ} (ht : t = [a, b]) : (a + 2 * e < b → Decisive t (t.map (fun _ => e)) 1) ∧
    (b + 2 * e < a → Decisive t (t.map (fun _ => e)) 0) := by
  subst ht
  refine ⟨fun h => ⟨b, e, rfl, rfl, fun j c e' hj hc he => ?_⟩, fun h => ⟨a, e, rfl, rfl, fun j c e' hj hc he => ?_⟩⟩
  · match j, hj with
    | 0, _ =>
      simp only [List.map_cons, List.getElem?_cons_zero, Option.some.injEq] at hc he
      subst hc he
      linarith
    | j + 2, _ => simp at hc
  · match j, hj with
    | 1, _ =>
      simp only [List.map_cons, List.getElem?_cons_succ, List.getElem?_cons_zero, Option.some.injEq] at hc he
      subst hc he
      linarith
    | j + 2, _ => simp at hc

open C98Case in
/-- The ONNX model of C98 on two samples: exactly one of these labels is hit, and the mean squared error is within 3/100 of the
model's, 293/4096. -/
example : ∃ net s out mids v, Onnx2Json.model2json lib C48Case.model Fmt.f64.uint8Table = some net ∧ Fmt.f64.load net = some s ∧
    Fmt.f64.infer lib s (.flt (.mat [[2, 2], [-2, 1]])) = some (out, mids) ∧ hitLoss out [1, 1] = some (-1) ∧
    mseLoss out [[1 / 2, 3 / 2], [1, 1]] = some v ∧ |v - 293 / 4096| ≤ 3 / 100 := by
  have hl : ∀ a b : ℚ, |a / 2 - b / 2| ≤ 1 / 2 * |a - b| := by
    intro a b
    rw [show a / 2 - b / 2 = 1 / 2 * (a - b) by ring, abs_mul]
    norm_num
  obtain ⟨net, s, h1, h2, h3⟩ := C104_onnx lib lib C48Case.ext (1 / 2) (1 / 2) (1 / 2 ^ 50) (by norm_num) (by norm_num)
    (fun a b => by have := hl a b; show |a / 2 + 1 - (b / 2 + 1)| ≤ _; rwa [add_sub_add_right_eq_sub]) hl approx approx
    C48Case.model (1 / 16) 128 C85Case.ops C85Case.means (by decide) 2 (by decide) C85Case.fits normal rfl
  obtain ⟨out, mids, h4, h5, h6⟩ := h3 [[2, 2], [-2, 1]] (by simp) (by simp)
  obtain ⟨h, e1, e2, e3⟩ := h5 [1, 1] (by decide +kernel)
  obtain ⟨v, v', e4, e5, e6⟩ := h6 [[1 / 2, 3 / 2], [1, 1]] (by decide +kernel) (by simp)
  have a1 := e2 {0} (by
    intro i hi
    rw [Finset.mem_singleton] at hi
    subst hi
    exact ⟨[2, 2], 1, rfl, rfl, (two (a := 1 / 2) (b := 25 / 16) (by decide +kernel)).1 (by decide +kernel)⟩)
  have a2 := e3 {1} (by
    intro i hi
    rw [Finset.mem_singleton] at hi
    subst hi
    exact ⟨[-2, 1], 1, 0, rfl, rfl, (two (a := 3 / 4) (b := 17 / 32) (by decide +kernel)).2 (by decide +kernel), by decide⟩)
  have hh : h = 1 := by
    simp only [Finset.card_singleton, List.length_cons, List.length_nil] at a1 a2
    omega
  subst hh
  refine ⟨net, s, out, mids, v, h1, h2, h4, e1, e4, ?_⟩
  have e7 : v' = 293 / 4096 := by
    rw [← Option.some.injEq, ← e5]
    decide +kernel
  rw [← e7]
  exact e6.trans (by decide +kernel)

open C92Case C103Case in
/-- The int8 file of C103 returns codes: its losses are defined, with the guarantees of `C104_codes`. -/
example : ∃ N out rec k, Fmt.f64.load file = some N ∧
    Fmt.f64.infer ⟨id, id, id⟩ N (.flt (.mat [[3 / 4, 1], [0, 1]])) = some (out, rec) ∧ hitLoss out [0, 1] = some (-((k : ℕ) : ℤ)) ∧
    HitCount (fun x c => Decisive (fileExact ops x) (fileBound ops x (inputBound (1 / 64) 5 x)) c) [[3 / 4, 1], [0, 1]] [0, 1] k := by
  obtain ⟨N, h1, h2⟩ := C104_codes ⟨id, id, id⟩ file (1 / 64) 5 _ ops (by decide +kernel) ⟨_, rfl⟩ opens operators
    (by norm_num) (by unfold Code; norm_num) 2 fits (by decide +kernel)
  obtain ⟨out, rec, h3, h4⟩ := h2 [[3 / 4, 1], [0, 1]] (by simp) (by decide +kernel)
  obtain ⟨k, h5, h6⟩ := h4 [0, 1]
  exact ⟨N, out, rec, k, h1, h3, h5, h6⟩

section
open C98Case

/-- The ONNX model of C48 without its last node: it returns codes. -/
def model : Onnx2Json.OModel := { C48Case.model with nodes := C48Case.model.nodes.dropLast }

def ops : List OnnxOp := C85Case.ops.dropLast

theorem means : List.Forall₂ (NodeMeans model) model.nodes (.quantize (1 / 16) 128 :: ops) := by
  have scale : RealConst model "s" (1 / 16) := C85Case.scale
  have zero : IntConst model "z" 128 := C85Case.zero
  refine .cons (.quantize _ _ _ _ _ _ scale zero (by simp)) <| .cons
    (.matmul _ _ _ _ _ _ _ _ _ _ _ _ _ _ _ _ _ _ ⟨"w", [], [], [128, 144, 112, 130], [2, 2]⟩ scale zero
      ⟨[⟨"s", [1 / 16], [], [], []⟩, ⟨"z", [], [128], [], []⟩], [], rfl, rfl, by simp⟩ rfl ⟨rfl, by decide, rfl⟩ scale zero
      scale zero (by simp)) <| .cons (.dequantize _ _ _ _ _ _ scale zero (by simp)) <| .cons
    (.tanh "c" "d" [] [] 2 2 (.inl ⟨[("b", 2)], [("d", 2)], by simp, rfl, by decide⟩)
      (.inl ⟨[("b", 2), ("c", 2)], [], by simp, rfl, by simp⟩)) <| .cons (.quantize _ _ _ _ _ _ scale zero (by simp)) <|
    .cons (.sigmoid _ _ _ _ _ _ _ _ _ _ scale zero scale zero (by simp)) .nil

/-- It classifies both samples as it should: one of the labels is hit, comparing codes. -/
example : ∃ net s out mids, Onnx2Json.model2json lib model Fmt.f64.uint8Table = some net ∧ Fmt.f64.load net = some s ∧
    Fmt.f64.infer lib s (.flt (.mat [[2, 2], [-2, 1]])) = some (out, mids) ∧ hitLoss out [1, 1] = some (-1) := by
  have hl : ∀ a b : ℚ, |a / 2 - b / 2| ≤ 1 / 2 * |a - b| := by
    intro a b
    rw [show a / 2 - b / 2 = 1 / 2 * (a - b) by ring, abs_mul]
    norm_num
  obtain ⟨net, s, h1, h2, h3⟩ := C104_onnx_codes lib lib C48Case.ext (1 / 2) (1 / 2) (1 / 2 ^ 50) (by norm_num) (by norm_num)
    (fun a b => by have := hl a b; show |a / 2 + 1 - (b / 2 + 1)| ≤ _; rwa [add_sub_add_right_eq_sub]) hl approx approx
    model (1 / 16) 128 ops means (by decide) 2 (by decide)
    (by simp [onnxFits, ops, C85Case.ops, OnnxOp.Fits, OnnxOp.after, OnnxOp.size, Code])
    (fun o ho => normal o (by
      rcases List.mem_cons.mp ho with h | h
      · simp [h]
      · exact List.mem_cons_of_mem _ (List.mem_of_mem_dropLast h))) (1 / 16) 128 rfl
  obtain ⟨out, mids, h4, h5⟩ := h3 [[2, 2], [-2, 1]] (by simp) (by decide +kernel)
  obtain ⟨k, e1, e2, e3⟩ := h5 [1, 1]
  have two : ∀ {t : List ℚ} {a b e : ℚ}, t = [a, b] → (a + 2 * e < b → DecisiveBy t e 1) ∧ (b + 2 * e < a → DecisiveBy t e 0) := by
    rintro _ a b e rfl
    refine ⟨fun h => ⟨b, rfl, fun j c hj hc => ?_⟩, fun h => ⟨a, rfl, fun j c hj hc => ?_⟩⟩
    · match j, hj with
      | 0, _ => simp only [List.getElem?_cons_zero, Option.some.injEq] at hc; subst hc; exact h
      | j + 2, _ => simp at hc
    · match j, hj with
      | 1, _ =>
        simp only [List.getElem?_cons_succ, List.getElem?_cons_zero, Option.some.injEq] at hc
        subst hc; exact h
      | j + 2, _ => simp at hc
  have a1 := e2 {0} (by
    intro i hi
    rw [Finset.mem_singleton] at hi
    subst hi
    exact ⟨[2, 2], 1, rfl, rfl, (two (a := 1 / 2) (b := 25 / 16) (by decide +kernel)).1 (by decide +kernel)⟩)
  have a2 := e3 {1} (by
    intro i hi
    rw [Finset.mem_singleton] at hi
    subst hi
    exact ⟨[-2, 1], 1, 0, rfl, rfl, (two (a := 3 / 4) (b := 17 / 32) (by decide +kernel)).2 (by decide +kernel), by decide⟩)
  have hk : k = 1 := by
    simp only [Finset.card_singleton, List.length_cons, List.length_nil] at a1 a2
    omega
  subst hk
  exact ⟨net, s, out, mids, h1, h2, h4, e1⟩

end

def cfg : Config.QuantizerCfg := { adaRoundNet := some (.base 0) }

/-- Two classes. -/
def layers : List KLayer :=
  [.dense { name := "a", units := 2, kernel := [[2, 127 / 128]], bias := some [0, 1], actName := "linear", act := id }]

def X : Arr ℚ := .mat [[1], [1 / 2]]

def ext : Ext := ⟨id, id, id⟩

def choices : List Build.Choices := [⟨5, [], [[1, 1], [0, 0], [0, 0]]⟩]

theorem shapes : ∀ l, KLayer.dense l ∈ layers → ∃ n, ShapeOk l n := by
  intro l hl
  simp only [layers, List.mem_singleton, KLayer.dense.injEq] at hl
  subst hl
  exact ⟨1, rfl, by norm_num, by norm_num, by simp⟩

/-- The plainly quantized network classifies one of the two samples correctly, the network built with the hit loss and AdaRound
both. -/
example : (quantizeModel ext cfg.forKeras X layers).bind (fun p => (asSequential p.1 p.2).bind (fun N =>
      (N.infer ext (.flt X)).bind (fun r => hitLoss r.1 [0, 1]))) = some (-1) ∧
    (Build.build ext (hitLossFn ext (.flt X) [0, 1]) (fun w _ => some w) [] choices cfg X layers).bind (fun p =>
      (asSequential p.1 p.2).bind (fun N => (N.infer ext (.flt X)).bind (fun r => hitLoss r.1 [0, 1]))) = some (-2) := by
  constructor <;> decide +kernel

end C104Case

end Verif
