import Verif.Model.ReducedLUT
import Verif.Lemmas.Num
import Mathlib.Data.List.Basic

namespace Verif.ReducedLUT

/-- The table denoted by a run-length counter. -/
def expand (c : List (ℤ × ℕ)) : List ℤ := c.flatMap (fun p => List.replicate p.2 p.1)

@[simp] theorem expand_nil : expand [] = [] := rfl
@[simp] theorem expand_cons (p : ℤ × ℕ) (c) : expand (p :: c) = List.replicate p.2 p.1 ++ expand c := by
  simp [expand]
@[simp] theorem expand_append (a b) : expand (a ++ b) = expand a ++ expand b := by simp [expand]

theorem expand_length (c : List (ℤ × ℕ)) : (expand c).length = (c.map Prod.snd).sum := by
  induction c with
  | nil => rfl
  | cons p c ih => simp [ih]

/-- The counter is the run-length encoding of a prefix of the table; if it stops early, it holds exactly
`depth` runs and the next element starts a new run. -/
theorem countRuns_spec (depth : ℤ) (done : List (ℤ × ℕ)) (cur : ℤ) (cnt : ℕ) (es : List ℤ) :
    ∃ rest, expand done ++ List.replicate cnt cur ++ es = expand (countRuns depth done cur cnt es) ++ rest ∧
      (rest = [] ∨ (((countRuns depth done cur cnt es).length : ℤ) = depth ∧
        ∃ e es', rest = e :: es' ∧ ∃ v c, (countRuns depth done cur cnt es).getLast? = some (v, c) ∧ v ≠ e)) := by
  induction es generalizing done cur cnt with
  | nil => exact ⟨[], by simp [countRuns], Or.inl rfl⟩
  | cons e es ih =>
    unfold countRuns
    split_ifs with h1 h2
    · refine ⟨e :: es, by simp, Or.inr ⟨by simpa using h2, e, es, rfl, cur, cnt, by simp, fun h => h1 h.symm⟩⟩
    · obtain ⟨rest, h, hr⟩ := ih (done ++ [(cur, cnt)]) e 1
      refine ⟨rest, ?_, hr⟩
      rw [← h]; simp
    · have h1 : e = cur := not_not.mp h1
      subst h1
      obtain ⟨rest, h, hr⟩ := ih done e (cnt + 1)
      refine ⟨rest, ?_, hr⟩
      rw [← h]; simp [List.replicate_succ']

theorem countRuns_ne_nil (depth : ℤ) (done : List (ℤ × ℕ)) (cur : ℤ) (cnt : ℕ) (es : List ℤ) :
    countRuns depth done cur cnt es ≠ [] := by
  induction es generalizing done cur cnt with
  | nil => simp [countRuns]
  | cons e es ih => unfold countRuns; split_ifs <;> simp [ih]

theorem countRuns_length_le (depth : ℤ) (done : List (ℤ × ℕ)) (cur : ℤ) (cnt : ℕ) (es : List ℤ)
    (h : (done.length : ℤ) + 1 ≤ depth) : ((countRuns depth done cur cnt es).length : ℤ) ≤ depth := by
  induction es generalizing done cur cnt with
  | nil => simp [countRuns]; omega
  | cons e es ih =>
    unfold countRuns
    split_ifs with h1 h2
    · simp; omega
    · apply ih; push_cast at h2 ⊢; simp; omega
    · exact ih _ _ _ h

/-- Neighbouring runs have different values. -/
theorem countRuns_chain (depth : ℤ) (done : List (ℤ × ℕ)) (cur : ℤ) (cnt : ℕ) (es : List ℤ)
    (h : (done.map Prod.fst ++ [cur]).IsChain (· ≠ ·)) :
    ((countRuns depth done cur cnt es).map Prod.fst).IsChain (· ≠ ·) := by
  induction es generalizing done cur cnt with
  | nil => simpa [countRuns] using h
  | cons e es ih =>
    unfold countRuns
    split_ifs with h1 h2
    · simpa using h
    · apply ih
      simp only [List.map_append, List.map_cons, List.map_nil]
      rw [List.isChain_append]
      refine ⟨h, by simp, ?_⟩
      intro x hx y hy
      simp at hx hy
      subst hx; subst hy; exact fun h => h1 h.symm
    · exact ih _ _ _ h

/-- Every run is non-empty. -/
theorem countRuns_pos (depth : ℤ) (done : List (ℤ × ℕ)) (cur : ℤ) (cnt : ℕ) (es : List ℤ)
    (h : ∀ p ∈ done, 0 < p.2) (hc : 0 < cnt) :
    ∀ p ∈ countRuns depth done cur cnt es, 0 < p.2 := by
  induction es generalizing done cur cnt with
  | nil =>
    intro p hp
    simp only [countRuns, List.mem_append, List.mem_singleton] at hp
    rcases hp with hp | rfl
    · exact h p hp
    · exact hc
  | cons e es ih =>
    unfold countRuns
    split_ifs with h1 h2
    · intro p hp
      simp only [List.mem_append, List.mem_singleton] at hp
      rcases hp with hp | rfl
      · exact h p hp
      · exact hc
    · apply ih _ _ _ _ (by omega)
      intro p hp
      simp only [List.mem_append, List.mem_singleton] at hp
      rcases hp with hp | rfl
      · exact h p hp
      · exact hc
    · exact ih _ _ _ h (by omega)

/-- Reading an interval list from the left is reading the expanded table. -/
theorem intervals_find (base : ℕ) (c : List (ℤ × ℕ)) (i : ℕ) (h1 : base ≤ i)
    (h2 : i < base + (expand c).length) :
    ((intervals base c).find? (fun t => decide ((i : ℤ) < t.1))).map Prod.snd = (expand c)[i - base]? := by
  induction c generalizing base with
  | nil => simp at h2; omega
  | cons p c ih =>
    obtain ⟨v, n⟩ := p
    simp only [intervals, List.find?_cons, expand_cons]
    by_cases hlt : (i : ℤ) < ((base + n : ℕ) : ℤ)
    · simp only [hlt, decide_true, Option.map_some]
      rw [List.getElem?_append_left (by simp; omega), List.getElem?_replicate_of_lt (by omega)]
    · simp only [hlt, decide_false]
      rw [ih (base + n) (by omega) (by simp at h2; omega)]
      rw [List.getElem?_append_right (by simp; omega)]
      congr 1
      simp; omega

theorem intervals_find_neg (base : ℕ) (c : List (ℤ × ℕ)) (i : ℤ) (h1 : i < base)
    (v : ℤ) (n : ℕ) (c' : List (ℤ × ℕ)) (hc : c = (v, n) :: c') :
    ((intervals base c).find? (fun t => decide (i < t.1))).map Prod.snd = some v := by
  subst hc
  simp only [intervals, List.find?_cons]
  have : i < ((base + n : ℕ) : ℤ) := by push_cast; omega
  simp only [this, decide_true, Option.map_some]

theorem intervals_length (base : ℕ) (c) : (intervals base c).length = c.length := by
  induction c generalizing base with
  | nil => rfl
  | cons p c ih => obtain ⟨v, n⟩ := p; simp [intervals, ih]

theorem intervals_snd (base : ℕ) (c) : (intervals base c).map Prod.snd = c.map Prod.fst := by
  induction c generalizing base with
  | nil => rfl
  | cons p c ih => obtain ⟨v, n⟩ := p; simp [intervals, ih]

/-- Everything we need about a head reduction. -/
structure HeadSpec (depth : ℤ) (lut : List ℤ) (shift : ℕ) (tuples : List (ℤ × ℤ)) : Prop where
  le : shift ≤ lut.length
  look : ∀ i : ℕ, i < shift → (tuples.find? (fun t => decide ((i : ℤ) < t.1))).map Prod.snd = lut[i]?
  lookNeg : ∀ i : ℤ, i < 0 → (tuples.find? (fun t => decide (i < t.1))).map Prod.snd = lut[0]?
  pos : lut ≠ [] → 0 < shift
  len : 1 ≤ depth → (tuples.length : ℤ) ≤ depth
  chain : (tuples.map Prod.snd).IsChain (· ≠ ·)
  maximal : shift = lut.length ∨
    ((tuples.length : ℤ) = depth ∧ ∃ t, tuples.getLast? = some t ∧ lut[shift]? ≠ some t.2)

theorem head_spec (depth : ℤ) (lut : List ℤ) :
    HeadSpec depth lut (reduceFromLeft depth lut false).1 (reduceFromLeft depth lut false).2 := by
  cases lut with
  | nil => constructor <;> simp [reduceFromLeft]; omega
  | cons x xs =>
    set C := countRuns depth [] x 0 (x :: xs) with hC
    have hC' : C = countRuns depth [] x 1 xs := by rw [hC]; simp [countRuns]
    have e1 : (reduceFromLeft depth (x :: xs) false).1 = (expand C).length := by
      simp [reduceFromLeft, expand_length, hC]
    have e2 : (reduceFromLeft depth (x :: xs) false).2 = intervals 0 C := by
      simp [reduceFromLeft, hC]
    rw [e1, e2]
    obtain ⟨rest, hrest, hmax⟩ := countRuns_spec depth [] x 0 (x :: xs)
    rw [← hC] at hrest hmax
    simp only [expand_nil, List.replicate_zero, List.append_nil, List.nil_append] at hrest
    have hpos : 0 < (expand C).length := by
      rw [expand_length]
      have hp := countRuns_pos depth [] x 1 xs (by simp) (by omega)
      rw [← hC'] at hp
      have hne : C ≠ [] := countRuns_ne_nil _ _ _ _ _
      obtain ⟨p, c', hc'⟩ := List.exists_cons_of_ne_nil hne
      have := hp p (by rw [hc']; simp)
      rw [hc']; simp; omega
    constructor
    · have := congrArg List.length hrest
      simp only [List.length_append] at this ⊢; omega
    · intro i hi
      rw [intervals_find 0 C i (by omega) (by omega), hrest, List.getElem?_append_left (by omega)]
      simp
    · intro i hi
      have hne : C ≠ [] := countRuns_ne_nil _ _ _ _ _
      obtain ⟨⟨v, n⟩, c', hc'⟩ := List.exists_cons_of_ne_nil hne
      rw [intervals_find_neg 0 C i (by omega) v n c' hc', hrest, List.getElem?_append_left (by omega), hc']
      have hp := countRuns_pos depth [] x 1 xs (by simp) (by omega)
      rw [← hC', hc'] at hp
      have hn : 0 < n := hp (v, n) (by simp)
      rw [expand_cons, List.getElem?_append_left (by simpa using hn), List.getElem?_replicate_of_lt hn]
    · intro _; exact hpos
    · intro hd
      rw [intervals_length]
      exact countRuns_length_le _ _ _ _ _ (by simpa using hd)
    · rw [intervals_snd]
      exact countRuns_chain _ _ _ _ _ (by simp)
    · rcases hmax with h | ⟨h, e, es', hr, v, c, hl, hne⟩
      · left; rw [hrest, h]; simp
      · right
        refine ⟨by rw [intervals_length]; exact h, ?_⟩
        have h1 : ((intervals 0 C).map Prod.snd).getLast? = some v := by
          rw [intervals_snd, List.getLast?_map, hl]; rfl
        rw [List.getLast?_map] at h1
        obtain ⟨t, ht, hv⟩ := Option.map_eq_some_iff.mp h1
        refine ⟨t, ht, ?_⟩
        rw [hrest, hr]
        simp only [List.length_append, List.getElem?_append_right (le_refl _), Nat.sub_self]
        simp [hv]; exact fun h => hne h.symm

/-- The tail reduction of `lut` is the head reduction of the reversed table, with mirrored offsets. -/
theorem tail_eq (depth : ℤ) (lut : List ℤ) :
    (reduceFromLeft depth lut true).1 = (reduceFromLeft depth lut.reverse false).1 ∧
    (reduceFromLeft depth lut true).2 =
      (reduceFromLeft depth lut.reverse false).2.map (fun t => ((lut.length : ℤ) - t.1, t.2)) := by
  unfold reduceFromLeft
  simp only [if_true, Bool.false_eq_true, if_false]
  cases lut.reverse <;> simp

/-- Reading the tail intervals at index `i` is reading the mirrored head intervals at `len - 1 - i`. -/
theorem find_mirror (m : ℤ) (T : List (ℤ × ℤ)) (i : ℤ) :
    ((T.map (fun t => (m - t.1, t.2))).find? (fun t => decide (t.1 ≤ i))).map Prod.snd =
      (T.find? (fun t => decide (m - 1 - i < t.1))).map Prod.snd := by
  induction T with
  | nil => rfl
  | cons t T ih =>
    simp only [List.map_cons, List.find?_cons]
    by_cases h : m - t.1 ≤ i
    · have h' : m - 1 - i < t.1 := by omega
      simp [h, h']
    · have h' : ¬ (m - 1 - i < t.1) := by omega
      simp only [h, h', decide_false]; exact ih

theorem tail_lookup (depth : ℤ) (lut : List ℤ) (i : ℕ) (h1 : i < lut.length)
    (h2 : lut.length - (reduceFromLeft depth lut true).1 ≤ i) :
    ((reduceFromLeft depth lut true).2.find? (fun t => decide (t.1 ≤ (i : ℤ)))).map Prod.snd = lut[i]? := by
  obtain ⟨e1, e2⟩ := tail_eq depth lut
  have hs := head_spec depth lut.reverse
  rw [e2, find_mirror]
  rw [e1] at h2
  have hle := hs.le
  rw [List.length_reverse] at hle
  have : ((lut.length : ℤ) - 1 - i) = ((lut.length - 1 - i : ℕ) : ℤ) := by omega
  rw [this, hs.look _ (by omega), List.getElem?_reverse (by omega)]
  congr 1; omega

theorem sliceTail_get (l : List ℤ) (a r i : ℕ) (h : i < (sliceTail l a r).length) :
    (sliceTail l a r)[i]? = l[a + i]? := by
  unfold sliceTail at *
  rw [List.getElem?_drop, List.getElem?_take]
  simp at h
  rw [if_pos (by omega)]

theorem sliceTail_length (l : List ℤ) (a r : ℕ) : (sliceTail l a r).length = l.length - r - a := by
  unfold sliceTail; simp

theorem pyIndex_nat {α : Type} (l : List α) (i : ℕ) : pyIndex l (i : ℤ) = l[i]? := by
  unfold pyIndex; simp

end Verif.ReducedLUT
