import Verif.Lemmas.ReducedLUT

/-!
# Properties C11–C14: `ReducedLUT`

The specification is the table itself: `r[i]` must be `lut[i]`.
-/

namespace Verif
open ReducedLUT

/-! ## C11 -/

/-- C11.  A (symmetric) reduced LUT answers every valid index like the original table, for every table,
every depth (any integer: larger than the number of runs, zero, negative) and every `min_reduce`. -/
theorem C11_reduced_lut_correct (lut : List ℤ) (depth minReduce : ℤ) (i : ℕ) (hi : i < lut.length) :
    (ReducedLUT.mk' lut depth minReduce).get i = some lut[i] := by
  rw [← List.getElem?_eq_getElem hi]
  have hs := head_spec depth lut
  unfold ReducedLUT.get ReducedLUT.mk'
  simp only [Bool.false_eq_true, if_false]
  by_cases h1 : i < (reduceFromLeft depth lut false).1
  · rw [if_pos (by exact_mod_cast h1), hs.look i h1, List.getElem?_eq_getElem hi]
  · rw [if_neg (by push_cast; omega)]
    simp only
    have hidx : (i : ℤ) - ((reduceFromLeft depth lut false).1 : ℤ) =
        ((i - (reduceFromLeft depth lut false).1 : ℕ) : ℤ) := by omega
    rw [hidx]
    split_ifs with h2
    · rw [pyIndex_nat, sliceTail_get _ _ _ _ (by exact_mod_cast h2)]
      congr 1; omega
    · apply tail_lookup depth lut i hi
      rw [sliceTail_length] at h2
      have : ¬ (i - (reduceFromLeft depth lut false).1 <
          lut.length - (reduceFromLeft depth lut true).1 - (reduceFromLeft depth lut false).1) := by
        exact_mod_cast h2
      omega

/-- C11.  Iterating over a freshly built reduced LUT yields the original table. -/
theorem C11_iter (lut : List ℤ) (depth minReduce : ℤ) :
    (ReducedLUT.mk' lut depth minReduce).iter = lut.map some := by
  unfold ReducedLUT.iter
  have hl : (ReducedLUT.mk' lut depth minReduce).lut = lut := rfl
  rw [hl]
  apply List.ext_getElem?
  intro i
  rw [List.getElem?_map, List.getElem?_map]
  by_cases hi : i < lut.length
  · rw [List.getElem?_range hi, List.getElem?_eq_getElem hi]
    simp [C11_reduced_lut_correct lut depth minReduce i hi]
  · rw [List.getElem?_eq_none (by simpa using hi), List.getElem?_eq_none (by omega)]; rfl

/-- The interesting cases are real: three runs pruned on each side with a kept middle; overlapping sides. -/
example : (ReducedLUT.mk' [0, 0, 1, 2, 3, 4, 5, 5, 5] 2 0).reduced = [2, 3] ∧
    (ReducedLUT.mk' [0, 0, 1, 2, 3, 4, 5, 5, 5] 2 0).leftTuples = [(2, 0), (3, 1)] ∧
    (ReducedLUT.mk' [0, 0, 1, 2, 3, 4, 5, 5, 5] 2 0).rightTuples = [(6, 5), (5, 4)] ∧
    (ReducedLUT.mk' [0, 1, 1, 2] 2 0).leftShift + (ReducedLUT.mk' [0, 1, 1, 2] 2 0).rightShift > 4 := by
  decide +kernel

/-- Outside the valid indices the code does *not* behave like the table (finding): a too large index returns
the last value instead of raising, for every non-empty table. -/
theorem C11_index_past_end_returns_last (lut : List ℤ) (hne : lut ≠ []) (depth minReduce : ℤ) (i : ℕ)
    (hi : lut.length ≤ i) :
    (ReducedLUT.mk' lut depth minReduce).get i = some (lut.getLast hne) := by
  have hs := head_spec depth lut
  have hs' := head_spec depth lut.reverse
  obtain ⟨e1, e2⟩ := tail_eq depth lut
  unfold ReducedLUT.get ReducedLUT.mk'
  have hle := hs.le
  simp only [Bool.false_eq_true, if_false]
  rw [if_neg (by push_cast; omega)]
  simp only
  rw [if_neg (by rw [sliceTail_length]; push_cast; omega), e2, find_mirror]
  rw [hs'.lookNeg _ (by omega)]
  rw [List.getElem?_reverse (by simpa using List.length_pos_iff.mpr hne)]
  simp [List.getLast_eq_getElem]

/-- Finding: a negative index always returns the first value (a Python list would count from the end). -/
theorem C11_negative_index_returns_first (lut : List ℤ) (hne : lut ≠ []) (depth minReduce : ℤ) (i : ℤ)
    (hi : i < 0) :
    (ReducedLUT.mk' lut depth minReduce).get i = some (lut.head hne) := by
  have hs := head_spec depth lut
  have hp := hs.pos hne
  unfold ReducedLUT.get ReducedLUT.mk'
  simp only [Bool.false_eq_true, if_false]
  rw [if_pos (by omega), hs.lookNeg i hi, List.getElem?_eq_getElem (List.length_pos_iff.mpr hne)]
  simp [List.head_eq_getElem]

example : (ReducedLUT.mk' [7, 8, 9] 1 0).get 5 = some 9 ∧ (ReducedLUT.mk' [7, 8, 9] 1 0).get (-1) = some 7 := by
  decide +kernel

/-! ## C12 -/

/-- C12.  Deserialising a serialised reduced LUT gives an object that answers every integer index (valid or
not) identically. -/
theorem C12_roundtrip_lookup (r : ReducedLUT) (i : ℤ) :
    (ReducedLUT.deserialize r.serialize).get i = r.get i := rfl

/-- C12.  Serialising the deserialised object gives the same document, for documents produced by the code. -/
theorem C12_roundtrip_json (r : ReducedLUT) :
    (ReducedLUT.deserialize r.serialize).serialize = r.serialize := rfl

/-- C12 + C11.  What the inference engine does: it only sees the JSON, and still answers like the table. -/
theorem C12_deserialized_correct (lut : List ℤ) (depth minReduce : ℤ) (i : ℕ) (hi : i < lut.length) :
    (ReducedLUT.deserialize (ReducedLUT.mk' lut depth minReduce).serialize).get i = some lut[i] := by
  rw [C12_roundtrip_lookup]; exact C11_reduced_lut_correct lut depth minReduce i hi

/-- Finding: the deserialised object forgets its length, so *iterating* over it yields nothing, whatever the
table was (the existing round-trip test iterates and is therefore vacuous). -/
theorem C12_deserialized_iter_empty (j : ReducedLUT.Json) : (ReducedLUT.deserialize j).iter = [] := rfl

example : (ReducedLUT.mk' [3, 3, 4, 5, 6, 6] 1 0).serialize.headTuples = [(2, 3)] ∧
    (ReducedLUT.deserialize (ReducedLUT.mk' [3, 3, 4, 5, 6, 6] 1 0).serialize).get 3 = some 5 := by
  decide +kernel

/-! ## C13 -/

/-- C13, exact behaviour of `asymmetric=True`: below the pruned tail the answer is right; inside the pruned
tail the code answers with the entry `left_shift` positions further right (clamped to the last one). -/
theorem C13_asymmetric_exact (lut : List ℤ) (depth minReduce : ℤ) (i : ℕ) (hi : i < lut.length) :
    (ReducedLUT.mk' lut depth minReduce true).get i =
      if i < lut.length - (ReducedLUT.mk' lut depth minReduce true).rightShift then some lut[i]
      else lut[min (i + (ReducedLUT.mk' lut depth minReduce true).leftShift) (lut.length - 1)]? := by
  rw [← List.getElem?_eq_getElem hi]
  have hs := head_spec depth lut
  set L := (reduceFromLeft depth lut false).1 with hL
  have hlen : (lut.drop L).length = lut.length - L := by simp
  obtain ⟨e1, e2⟩ := tail_eq depth (lut.drop L)
  have hs' := head_spec depth (lut.drop L).reverse
  set R := (reduceFromLeft depth (lut.drop L) true).1 with hR
  have hl : (ReducedLUT.mk' lut depth minReduce true).leftShift = L := rfl
  have hr : (ReducedLUT.mk' lut depth minReduce true).rightShift = R := rfl
  have hRle : R ≤ lut.length - L := by
    have := hs'.le; rw [← e1, List.length_reverse, hlen] at this; exact this
  rw [hl, hr]
  have hle := hs.le
  unfold ReducedLUT.get ReducedLUT.mk'
  simp only [if_true]
  rw [← hL, ← hR]
  by_cases h1 : i < L
  · rw [if_pos (by exact_mod_cast h1), hs.look i h1]
    rw [List.getElem?_eq_getElem hi]
    simp only
    rw [if_pos (show i < lut.length - R by omega)]
  · rw [if_neg (by push_cast; omega)]
    simp only
    have hidx : (i : ℤ) - (L : ℤ) = ((i - L : ℕ) : ℤ) := by omega
    rw [hidx]
    have hsl := sliceTail_length lut L R
    split_ifs with h2 h3 h3
    · rw [pyIndex_nat, sliceTail_get _ _ _ _ (by exact_mod_cast h2)]
      congr 1; omega
    · exfalso; rw [hsl] at h2; push_cast at h2; omega
    · exfalso; rw [hsl] at h2; push_cast at h2; omega
    · rw [e2, find_mirror, hlen]
      by_cases h4 : i + L < lut.length
      · have : (((lut.length - L : ℕ) : ℤ) - 1 - i) = ((lut.length - L - 1 - i : ℕ) : ℤ) := by omega
        rw [this, hs'.look _ (by rw [← e1]; omega), List.getElem?_reverse (by rw [hlen]; omega),
          List.getElem?_drop, hlen]
        congr 1; omega
      · rw [hs'.lookNeg _ (by omega), List.getElem?_reverse (by rw [hlen]; omega), List.getElem?_drop, hlen]
        congr 1; omega

/-- C13: asymmetric reduction is right at every index for depth 1, i.e. when each pruned side is one constant run. -/
theorem C13_asymmetric_depth_one (lut : List ℤ) (minReduce : ℤ) (i : ℕ) (hi : i < lut.length) :
    (ReducedLUT.mk' lut 1 minReduce true).get i = some lut[i] := by
  rw [C13_asymmetric_exact lut 1 minReduce i hi]
  set L := (ReducedLUT.mk' lut 1 minReduce true).leftShift with hLd
  set R := (ReducedLUT.mk' lut 1 minReduce true).rightShift with hRd
  split_ifs with h
  · rfl
  · -- the tail is one constant run
    obtain ⟨e1, -⟩ := tail_eq 1 (lut.drop L)
    have hs' := head_spec 1 (lut.drop L).reverse
    have hR : R = (reduceFromLeft 1 (lut.drop L).reverse false).1 := by rw [← e1]; rfl
    have hlen : (lut.drop L).length = lut.length - L := by simp
    have hRle : R ≤ lut.length - L := by
      have := hs'.le; rw [← hR, List.length_reverse, hlen] at this; exact this
    have hconst : ∀ a b : ℕ, a < R → b < R → (lut.drop L).reverse[a]? = (lut.drop L).reverse[b]? := by
      intro a b ha hb
      rw [hR] at ha hb
      have hl := hs'.len (le_refl _)
      rw [← hs'.look a ha, ← hs'.look b hb]
      have hga := hs'.look a ha
      have hgb := hs'.look b hb
      have hra : (lut.drop L).reverse[a]? ≠ none := by
        have := hs'.le
        simp only [ne_eq, List.getElem?_eq_none_iff, not_le]; omega
      have hrb : (lut.drop L).reverse[b]? ≠ none := by
        have := hs'.le
        simp only [ne_eq, List.getElem?_eq_none_iff, not_le]; omega
      rw [← hga] at hra
      rw [← hgb] at hrb
      clear hga hgb
      generalize (reduceFromLeft 1 (lut.drop L).reverse false).2 = T at *
      match T, hl with
      | [], _ => rfl
      | [t], _ =>
        simp only [List.find?_cons, List.find?_nil] at *
        by_cases h1 : (a : ℤ) < t.1 <;> by_cases h2 : (b : ℤ) < t.1 <;> simp_all
      | _ :: _ :: _, hl => simp at hl; omega
    have key := hconst (lut.length - 1 - i) (lut.length - 1 - (min (i + L) (lut.length - 1)))
      (by omega) (by omega)
    rw [List.getElem?_reverse (by rw [hlen]; omega), List.getElem?_reverse (by rw [hlen]; omega),
      List.getElem?_drop, List.getElem?_drop, hlen] at key
    rw [← List.getElem?_eq_getElem hi]
    rw [show L + (lut.length - L - 1 - (lut.length - 1 - i)) = i by omega,
      show L + (lut.length - L - 1 - (lut.length - 1 - min (i + L) (lut.length - 1))) =
        min (i + L) (lut.length - 1) by omega] at key
    exact key.symm

/-- A table without equal neighbours is pruned by exactly `depth` entries (or completely). -/
theorem countRuns_chain (d : ℕ) : ∀ (es : List ℤ) (done : List (ℤ × ℕ)) (cur : ℤ), (cur :: es).IsChain (· ≠ ·) →
    done.length + 1 ≤ d → (∀ p ∈ done, p.2 = 1) →
    ((countRuns (d : ℤ) done cur 1 es).map Prod.snd).sum = min d (done.length + 1 + es.length) := by
  have hsum : ∀ l : List (ℤ × ℕ), (∀ p ∈ l, p.2 = 1) → (l.map Prod.snd).sum = l.length := by
    intro l hl
    induction l with
    | nil => rfl
    | cons p ps ih =>
      rw [List.map_cons, List.sum_cons, hl p (by simp), ih (fun q hq => hl q (by simp [hq])), List.length_cons]; omega
  intro es
  induction es with
  | nil =>
    intro done cur _ hd hdone
    simp only [countRuns, List.map_append, List.sum_append, hsum done hdone, List.map_cons, List.map_nil, List.sum_cons,
      List.sum_nil, List.length_nil]
    omega
  | cons e es ih =>
    intro done cur hc hd hdone
    have hne : e ≠ cur := fun h => (List.isChain_cons_cons.1 hc).1 h.symm
    have hc' := (List.isChain_cons_cons.1 hc).2
    rw [countRuns, if_pos hne]
    by_cases h : ((done.length + 1 : ℕ) : ℤ) = (d : ℤ)
    · rw [if_pos h]
      simp only [List.map_append, List.sum_append, hsum done hdone, List.map_cons, List.map_nil, List.sum_cons,
        List.sum_nil, List.length_cons]
      omega
    · rw [if_neg h, ih (done ++ [(cur, 1)]) e hc' (by simp; omega) (by
        intro p hp
        rcases List.mem_append.1 hp with hp | hp
        · exact hdone p hp
        · rw [List.mem_singleton.1 hp])]
      simp only [List.length_append, List.length_cons, List.length_nil]
      omega

theorem reduceFromLeft_chain (d : ℕ) (hd : 1 ≤ d) (l : List ℤ) (hc : l.IsChain (· ≠ ·)) :
    (reduceFromLeft (d : ℤ) l false).1 = min d l.length := by
  cases l with
  | nil => simp [reduceFromLeft]
  | cons x xs =>
    have h := countRuns_chain d xs [] x hc (by simpa using hd) (by simp)
    have e : countRuns (d : ℤ) [] x 0 (x :: xs) = countRuns (d : ℤ) [] x 1 xs := by simp [countRuns]
    simp only [reduceFromLeft, Bool.false_eq_true, if_false]
    rw [e, h, List.length_cons, List.length_nil]
    omega

/-- C13: asymmetric reduction answers every index of every table correctly exactly for the depths `≤ 1`; for every depth
from 2 on there is a table with a wrong answer. -/
theorem C13_asymmetric_right_iff (depth minReduce : ℤ) :
    (∀ (lut : List ℤ) (i : ℕ) (h : i < lut.length),
      (ReducedLUT.mk' lut depth minReduce true).get i = some lut[i]) ↔ depth ≤ 1 := by
  constructor
  · intro h
    by_contra hd
    obtain ⟨d, rfl⟩ : ∃ d : ℕ, depth = (d : ℤ) := ⟨depth.toNat, by omega⟩
    have hd2 : 2 ≤ d := by omega
    obtain ⟨lut, hlut⟩ : ∃ lut : List ℤ, lut = (List.range (2 * d)).map (fun (i : ℕ) => (i : ℤ)) := ⟨_, rfl⟩
    have hlen : lut.length = 2 * d := by rw [hlut]; simp
    have hget : ∀ (i : ℕ) (hi : i < lut.length), lut[i] = (i : ℤ) := by intro i hi; subst hlut; simp
    have hnd : lut.Nodup := by
      rw [hlut]
      exact List.nodup_range.map (fun a b (hab : (a : ℤ) = b) => by exact_mod_cast hab)
    have hchain : ∀ l : List ℤ, l.Nodup → l.IsChain (· ≠ ·) := fun l hl => List.Pairwise.isChain hl
    have hL : (ReducedLUT.mk' lut d minReduce true).leftShift = d := by
      show (reduceFromLeft (d : ℤ) lut false).1 = d
      rw [reduceFromLeft_chain d (by omega) lut (hchain _ hnd), hlen]; omega
    have hR : (ReducedLUT.mk' lut d minReduce true).rightShift = d := by
      show (reduceFromLeft (d : ℤ) (lut.drop (reduceFromLeft (d : ℤ) lut false).1) true).1 = d
      rw [show (reduceFromLeft (d : ℤ) lut false).1 = d from hL, (tail_eq (d : ℤ) (lut.drop d)).1,
        reduceFromLeft_chain d (by omega) _ (hchain _ (List.nodup_reverse.2 (hnd.sublist (List.drop_sublist _ _)))),
        List.length_reverse, List.length_drop, hlen]
      omega
    have hx := h lut d (by omega)
    rw [C13_asymmetric_exact lut d minReduce d (by omega), hL, hR, if_neg (by omega),
      List.getElem?_eq_getElem (by omega)] at hx
    have hx := Option.some.inj hx
    rw [hget, hget] at hx
    have : min (d + d) (lut.length - 1) = d := by exact_mod_cast hx
    omega
  · intro hd lut i hi
    by_cases h1 : depth = 1
    · subst h1; exact C13_asymmetric_depth_one lut minReduce i hi
    · have hs := head_spec depth lut
      have hL : (reduceFromLeft depth lut false).1 = lut.length := by
        rcases hs.maximal with h | ⟨h, t, ht, -⟩
        · exact h
        · have : (reduceFromLeft depth lut false).2 = [] := List.length_eq_zero_iff.1 (by omega)
          rw [this] at ht; simp at ht
      have hR : (ReducedLUT.mk' lut depth minReduce true).rightShift = 0 := by
        show (reduceFromLeft depth (lut.drop (reduceFromLeft depth lut false).1) true).1 = 0
        rw [hL, List.drop_length]; simp [reduceFromLeft]
      rw [C13_asymmetric_exact lut depth minReduce i hi, hR, if_pos (by omega)]

example : (ReducedLUT.mk' [0, 1, 2, 3, 4] 2 0 true).get 3 ≠ some 3 := by decide +kernel

/-! ## C14 -/

/-- C14.  For `depth ≥ 1` each side keeps at most `depth` intervals and neighbouring intervals carry different
values. -/
theorem C14_interval_lists (lut : List ℤ) (depth minReduce : ℤ) (asym : Bool) (hd : 1 ≤ depth) :
    let r := ReducedLUT.mk' lut depth minReduce asym
    (r.leftTuples.length : ℤ) ≤ depth ∧ (r.rightTuples.length : ℤ) ≤ depth ∧
    (r.leftTuples.map Prod.snd).IsChain (· ≠ ·) ∧ (r.rightTuples.map Prod.snd).IsChain (· ≠ ·) := by
  simp only
  set suf := (if asym then lut.drop (reduceFromLeft depth lut false).1 else lut) with hsuf
  have hs := head_spec depth lut
  have hs' := head_spec depth suf.reverse
  obtain ⟨e1, e2⟩ := tail_eq depth suf
  have hr : (ReducedLUT.mk' lut depth minReduce asym).rightTuples = (reduceFromLeft depth suf true).2 := rfl
  refine ⟨hs.len hd, ?_, hs.chain, ?_⟩
  · rw [hr, e2, List.length_map]; exact hs'.len hd
  · rw [hr, e2, List.map_map]
    have : (Prod.snd ∘ fun t : ℤ × ℤ => ((suf.length : ℤ) - t.1, t.2)) = Prod.snd := by
      funext t; rfl
    rw [this]; exact hs'.chain

/-- C14.  The three parts account for the table: the middle is the table without the pruned head and tail
(empty when they overlap), so a reduced LUT never stores more entries than the original. -/
theorem C14_partition (lut : List ℤ) (depth minReduce : ℤ) (asym : Bool) :
    let r := ReducedLUT.mk' lut depth minReduce asym
    r.leftShift ≤ lut.length ∧ r.rightShift ≤ lut.length ∧
    r.reduced.length = lut.length - r.rightShift - r.leftShift ∧
    (r.leftShift + r.rightShift ≤ lut.length →
      lut = lut.take r.leftShift ++ r.reduced ++ lut.drop (lut.length - r.rightShift)) := by
  simp only
  set suf := (if asym then lut.drop (reduceFromLeft depth lut false).1 else lut) with hsuf
  have hsl : suf.length ≤ lut.length := by rw [hsuf]; split_ifs <;> simp
  have hs := head_spec depth lut
  have hs' := head_spec depth suf.reverse
  obtain ⟨e1, e2⟩ := tail_eq depth suf
  have hr : (ReducedLUT.mk' lut depth minReduce asym).rightShift = (reduceFromLeft depth suf true).1 := rfl
  have hred : (ReducedLUT.mk' lut depth minReduce asym).reduced = sliceTail lut
    (ReducedLUT.mk' lut depth minReduce asym).leftShift
    (ReducedLUT.mk' lut depth minReduce asym).rightShift := rfl
  refine ⟨hs.le, ?_, ?_, ?_⟩
  · rw [hr, e1]; have := hs'.le; rw [List.length_reverse] at this; omega
  · rw [hred, sliceTail_length]
  · intro h
    rw [hred]
    unfold sliceTail
    generalize (ReducedLUT.mk' lut depth minReduce asym).leftShift = a at *
    generalize (ReducedLUT.mk' lut depth minReduce asym).rightShift = b at *
    rw [show lut.take a = (lut.take (lut.length - b)).take a by rw [List.take_take]; congr 1; omega]
    rw [List.take_append_drop, List.take_append_drop]

/-- C14.  The pruning is maximal: the head stops only at the end of the table or after exactly `depth` runs,
just before the value changes. -/
theorem C14_head_maximal (lut : List ℤ) (depth minReduce : ℤ) (asym : Bool) :
    let r := ReducedLUT.mk' lut depth minReduce asym
    r.leftShift = lut.length ∨ ((r.leftTuples.length : ℤ) = depth ∧
      ∃ t, r.leftTuples.getLast? = some t ∧ lut[r.leftShift]? ≠ some t.2) :=
  (head_spec depth lut).maximal

example : (ReducedLUT.mk' [0, 0, 0, 1, 2, 3, 3] 1 0).reduced = [1, 2] ∧
    (ReducedLUT.mk' [0, 0, 0, 1, 2, 3, 3] 1 0).leftShift = 3 := by decide +kernel

end Verif
