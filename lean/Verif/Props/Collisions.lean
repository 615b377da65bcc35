import Verif.Model.Collisions
import Verif.Lemmas.Num
import Mathlib.Algebra.BigOperators.Group.List.Lemmas
import Mathlib.Data.List.NodupEquivFin
import Mathlib.Data.List.Duplicate
import Mathlib.Data.Fintype.Card
import Mathlib.Data.Fintype.Basic
import Mathlib.Data.List.FinRange
import Mathlib.Data.Finset.Dedup
import Mathlib.Data.Finset.Card
import Mathlib.Tactic.Linarith
import Mathlib.Tactic.FieldSimp
import Mathlib.Tactic.Positivity

/-!
# Property C44: collision count
-/

namespace Verif
open Collisions

/-- The number of positions whose element occurs at another position as well. -/
def Spec.sharers (q : List ℤ) : ℕ :=
  (Finset.univ.filter (fun i : Fin q.length => ∃ j, j ≠ i ∧ q[j] = q[i])).card

/-- The number of values that occur at two or more positions. -/
def Spec.repeatedValues (q : List ℤ) : ℕ := (q.toFinset.filter (fun v => 1 < q.count v)).card

open Spec

namespace Collisions

theorem sharers_eq (q : List ℤ) : sharers q = q.countP (fun x => decide (1 < q.count x)) := by
  have h1 : q.countP (fun x => decide (1 < q.count x)) =
      (List.finRange q.length).countP (fun i => decide (1 < q.count q[i])) := by
    conv_lhs => rw [← List.map_get_finRange q]
    rw [List.countP_map]
    congr 1
    funext i
    simp [List.map_get_finRange]
  rw [h1, List.countP_eq_length_filter]
  unfold sharers
  rw [← List.toFinset_card_of_nodup ((List.nodup_finRange _).filter _)]
  congr 1
  ext i
  simp only [Finset.mem_filter, Finset.mem_univ, true_and, List.toFinset_filter, List.toFinset_finRange,
    decide_eq_true_eq]
  have : (1 < q.count q[i]) ↔ List.Duplicate q[i] q := by rw [List.duplicate_iff_two_le_count]; rfl
  rw [this, List.duplicate_iff_exists_distinct_get]
  constructor
  · rintro ⟨j, hj, he⟩
    rcases lt_or_gt_of_ne hj with h | h
    · exact ⟨j, i, h, he.symm, rfl⟩
    · exact ⟨i, j, h, rfl, he.symm⟩
  · rintro ⟨n, m, hnm, h1, h2⟩
    by_cases hn : n = i
    · refine ⟨m, ?_, h2.symm⟩
      rintro rfl
      rw [hn] at hnm
      exact absurd hnm (lt_irrefl _)
    · exact ⟨n, hn, h1.symm⟩

theorem count_pos {α : Type} [DecidableEq α] {l : List α} {x : α} (h : x ∈ l.dedup) : 0 < l.count x :=
  List.count_pos_iff.mpr (List.mem_dedup.mp h)

theorem sum_minus_one {α : Type} [DecidableEq α] (l : List α) :
    ((counts l).map (fun c => c - 1)).sum = (l.length : ℤ) - l.toFinset.card := by
  have h := List.sum_map_count_dedup_eq_length l
  unfold counts
  have h2 : l.toFinset.card = l.dedup.length := List.card_toFinset l
  rw [h2, ← h, List.map_map]
  generalize l.dedup = d
  induction d with
  | nil => simp
  | cons a d ih =>
    simp only [List.map_cons, List.sum_cons, Function.comp, List.length_cons] at ih ⊢
    push_cast at ih ⊢
    rw [ih]
    ring

theorem sum_shared (q : List ℤ) :
    ((counts q).map (fun c => c * (if c ≠ 1 then 1 else 0))).sum = (q.countP (fun x => decide (1 < q.count x)) : ℤ) := by
  rw [← List.sum_map_count_dedup_filter_eq_countP]
  unfold counts
  rw [List.map_map]
  have hp : ∀ x ∈ q.dedup, 0 < q.count x := fun x hx => count_pos hx
  revert hp
  generalize q.dedup = d
  intro hp
  induction d with
  | nil => simp
  | cons a d ih =>
    have ih' := ih (fun x hx => hp x (by simp [hx]))
    have ha := hp a (by simp)
    simp only [List.map_cons, List.sum_cons, Function.comp, List.filter_cons] at ih' ⊢
    rw [ih']
    by_cases h : 1 < q.count a
    · have : ((q.count a : ℤ)) ≠ 1 := by omega
      simp [h, this]
    · have : ((q.count a : ℤ)) = 1 := by omega
      simp [h, this]

/-- sharers = length - distinct + repeated values. -/
theorem sharers_formula (q : List ℤ) :
    (sharers q : ℤ) = q.length - q.toFinset.card + repeatedValues q := by
  rw [sharers_eq, ← sum_shared]
  have h := sum_minus_one q
  have hr : (repeatedValues q : ℤ) = ((q.dedup.map (fun x => if 1 < q.count x then (1 : ℤ) else 0))).sum := by
    unfold repeatedValues
    have : (q.toFinset.filter (fun v => 1 < q.count v)).card = (q.dedup.filter (fun v => decide (1 < q.count v))).length := by
      rw [← List.toFinset_card_of_nodup ((List.nodup_dedup q).filter _), List.toFinset_filter]
      congr 1
      ext x
      simp
    rw [this]
    generalize q.dedup = d
    induction d with
    | nil => simp
    | cons a d ih =>
      simp only [List.filter_cons, List.map_cons, List.sum_cons]
      split_ifs <;> simp_all <;> omega
  rw [hr, ← h]
  unfold counts
  rw [List.map_map, List.map_map]
  have hp : ∀ x ∈ q.dedup, 0 < q.count x := fun x hx => count_pos hx
  revert hp
  generalize q.dedup = d
  intro hp
  induction d with
  | nil => simp
  | cons a d ih =>
    have ih' := ih (fun x hx => hp x (by simp [hx]))
    have ha := hp a (by simp)
    simp only [List.map_cons, List.sum_cons, Function.comp] at ih' ⊢
    rw [ih']
    by_cases h : 1 < q.count a
    · have : ((q.count a : ℤ)) ≠ 1 := by omega
      simp only [h, this, if_true, ne_eq, not_false_eq_true]
      ring
    · have : ((q.count a : ℤ)) = 1 := by omega
      simp only [h, this, if_false, ne_eq, not_true_eq_false]
      ring

theorem repeated_zero_iff (q : List ℤ) : repeatedValues q = 0 ↔ q.Nodup := by
  unfold repeatedValues
  rw [Finset.card_eq_zero, Finset.filter_eq_empty_iff, List.nodup_iff_count_le_one]
  constructor
  · intro h a
    by_cases ha : a ∈ q
    · exact not_lt.mp (h (List.mem_toFinset.mpr ha))
    · rw [List.count_eq_zero_of_not_mem ha]; exact Nat.zero_le _
  · intro h a _; exact not_lt.mpr (h a)

end Collisions

/-- C44, exact value (no decimal tolerance, equal sizes): the number of distinct float values lost by quantization, plus
the number of quantized values that occur more than once. -/
theorem C44_value (fp : List ℚ) (q : List ℤ) (hl : fp.length = q.length) (eps : ℤ) (he : eps ≤ 0) :
    calcCollisions fp q eps = ((fp.toFinset.card : ℤ) - q.toFinset.card) + repeatedValues q := by
  unfold calcCollisions
  simp only [if_neg (not_lt.mpr he)]
  rw [Collisions.sum_shared, ← Collisions.sharers_eq, Collisions.sharers_formula, Collisions.sum_minus_one, hl]
  ring

/-- C44.  For a float tensor with pairwise different values it is the number of elements that share their quantized
value with another element. -/
theorem C44_distinct (fp : List ℚ) (hfp : fp.Nodup) (q : List ℤ) (eps : ℤ) (he : eps ≤ 0) :
    calcCollisions fp q eps = sharers q := by
  unfold calcCollisions
  simp only [if_neg (not_lt.mpr he)]
  rw [Collisions.sum_shared, ← Collisions.sharers_eq, Collisions.sum_minus_one, List.toFinset_card_of_nodup hfp]
  ring

/-- C44.  When the integers are computed element by element from the floats (no tolerance), the count is never
negative, and it is 0 exactly when no two *elements* get the same integer – so a tensor with a repeated weight always
has collisions, however fine the quantization. -/
theorem C44_zero_iff (fp : List ℚ) (f : ℚ → ℤ) (eps : ℤ) (he : eps ≤ 0) :
    0 ≤ calcCollisions fp (fp.map f) eps ∧ (calcCollisions fp (fp.map f) eps = 0 ↔ (fp.map f).Nodup) := by
  have h := C44_value fp (fp.map f) (by simp) eps he
  have hle : (fp.map f).toFinset.card ≤ fp.toFinset.card := by
    have : (fp.map f).toFinset = fp.toFinset.image f := by ext x; simp
    rw [this]; exact Finset.card_image_le
  refine ⟨by rw [h]; omega, ?_⟩
  rw [← Collisions.repeated_zero_iff]
  constructor
  · intro h0; omega
  · intro h0
    have hn := (Collisions.repeated_zero_iff _).mp h0
    have h1 : (fp.map f).toFinset.card = fp.length := by rw [List.toFinset_card_of_nodup hn, List.length_map]
    have h2 : fp.toFinset.card ≤ fp.length := List.toFinset_card_le fp
    omega

/-- C44.  It does not depend on the order of the elements of either tensor. -/
theorem C44_order (fp fp' : List ℚ) (q q' : List ℤ) (h1 : fp.Perm fp') (h2 : q.Perm q') (eps : ℤ) :
    calcCollisions fp q eps = calcCollisions fp' q' eps := by
  have hm : ∀ d, (fp.map (around d)).Perm (fp'.map (around d)) := fun d => h1.map _
  have key : ∀ {α : Type} [DecidableEq α] (l l' : List α), l.Perm l' →
      ((counts l).map (fun c => c - 1)).sum = ((counts l').map (fun c => c - 1)).sum := by
    intro α _ l l' h
    rw [Collisions.sum_minus_one, Collisions.sum_minus_one, h.length_eq, List.toFinset_eq_of_perm _ _ h]
  have key2 : ((counts q).map (fun c => c * (if c ≠ 1 then 1 else 0))).sum =
      ((counts q').map (fun c => c * (if c ≠ 1 then 1 else 0))).sum := by
    rw [Collisions.sum_shared, Collisions.sum_shared]
    have : (fun x => decide (1 < q.count x)) = (fun x => decide (1 < q'.count x)) := by
      funext x; rw [h2.count_eq]
    rw [this, h2.countP_eq]
  unfold calcCollisions
  simp only
  rw [key2]
  split_ifs
  · rw [key _ _ (hm _)]
  · rw [key _ _ h1]

/-- C44, false reading.  It is not the number of equal integers whose floats differ: any weight repeated any number of
times loses nothing and still counts 1. -/
theorem C44_repeated_weight (k : ℕ) (hk : 2 ≤ k) (v : ℚ) (c eps : ℤ) (he : eps ≤ 0) :
    calcCollisions (List.replicate k v) (List.replicate k c) eps = 1 := by
  have hf : ∀ {α : Type} [DecidableEq α] (x : α), (List.replicate k x).toFinset = {x} := by
    intro α _ x; ext y; simp; omega
  rw [C44_value _ _ (by simp) _ he, hf, hf]
  have : repeatedValues (List.replicate k c) = 1 := by
    unfold repeatedValues
    rw [hf, Finset.filter_true_of_mem]
    · rfl
    · intro x hx
      rw [Finset.mem_singleton] at hx
      rw [hx, List.count_replicate_self]; omega
  rw [this]; simp

/-- `r` is `x` rounded to `d` decimals: a multiple `n / 10^d` at distance at most half a unit, `n` even on a tie. -/
def Spec.IsRounded (d : ℕ) (x r : ℚ) : Prop :=
  ∃ n : ℤ, r = n / 10 ^ d ∧ |x - r| ≤ 1 / (2 * 10 ^ d) ∧ (|x - r| = 1 / (2 * 10 ^ d) → n % 2 = 0)

namespace Collisions

theorem roundHalfEven_unique {y : ℚ} {n : ℤ} (h : |y - n| ≤ 1 / 2) (ht : |y - n| = 1 / 2 → n % 2 = 0) :
    roundHalfEven y = n := by
  have h1 := Int.floor_le y
  have h2 := Int.lt_floor_add_one y
  rw [abs_le] at h
  have hn : n = ⌊y⌋ ∨ n = ⌊y⌋ + 1 := by
    have a : ((⌊y⌋ : ℤ) : ℚ) - 1 < n := by linarith [h.1, h.2]
    have b : (n : ℚ) < ⌊y⌋ + 2 := by linarith [h.1, h.2]
    have a' : ⌊y⌋ - 1 < n := by exact_mod_cast a
    have b' : n < ⌊y⌋ + 2 := by exact_mod_cast b
    omega
  unfold roundHalfEven
  simp only
  rcases hn with hn | hn
  · have hle : y - ⌊y⌋ ≤ 1 / 2 := by rw [hn] at h; exact h.2
    split_ifs with c1 c2 c3
    · exact hn.symm
    · exact absurd c2 (not_lt.mpr hle)
    · exact hn.symm
    · exfalso
      have : |y - n| = 1 / 2 := by
        rw [hn, abs_of_nonneg (by linarith)]; linarith
      rw [hn] at ht this
      exact c3 (ht this)
  · have hge : 1 / 2 ≤ y - ⌊y⌋ := by
      have := h.1
      rw [hn] at this; push_cast at this; linarith
    split_ifs with c1 c2 c3
    · exact absurd c1 (not_lt.mpr hge)
    · exact hn.symm
    · exfalso
      have e : y - ⌊y⌋ = 1 / 2 := le_antisymm (not_lt.mp c2) hge
      have : |y - n| = 1 / 2 := by
        rw [hn]; push_cast
        rw [show y - (⌊y⌋ + 1 : ℚ) = -(1 / 2) by linarith]; norm_num
      have := ht this
      omega
    · exact hn.symm

theorem around_unique {d : ℕ} {x r : ℚ} (h : IsRounded d x r) : around d x = r := by
  obtain ⟨n, rfl, h1, h2⟩ := h
  have hp : (0 : ℚ) < 10 ^ d := by positivity
  have e : |x * 10 ^ d - n| = |x - n / 10 ^ d| * 10 ^ d := by
    rw [← abs_of_pos hp, ← abs_mul, abs_of_pos hp]
    congr 1
    field_simp
  have e2 : (1 : ℚ) / (2 * 10 ^ d) * 10 ^ d = 1 / 2 := by field_simp
  unfold around
  rw [roundHalfEven_unique (n := n)]
  · rw [e, ← e2]; exact mul_le_mul_of_nonneg_right h1 hp.le
  · intro ht
    apply h2
    rw [e, ← e2] at ht
    exact mul_right_cancel₀ hp.ne' ht

end Collisions

/-- C44, with a decimal tolerance: the floats are first rounded to that many decimals (to nearest, ties to even); the
value is the number of distinct rounded values lost, plus the number of quantized values that occur more than once. -/
theorem C44_tolerance_value (fp : List ℚ) (q : List ℤ) (hl : fp.length = q.length) (eps : ℕ) (he : 0 < eps)
    (g : ℚ → ℚ) (hg : ∀ x ∈ fp, IsRounded eps x (g x)) :
    calcCollisions fp q eps = (((fp.map g).toFinset.card : ℤ) - q.toFinset.card) + repeatedValues q := by
  unfold calcCollisions
  simp only [if_pos (show (0 : ℤ) < (eps : ℤ) by exact_mod_cast he), Int.toNat_natCast]
  rw [Collisions.sum_shared, ← Collisions.sharers_eq, Collisions.sharers_formula, Collisions.sum_minus_one,
    List.length_map, hl, List.map_congr_left (fun x hx => Collisions.around_unique (hg x hx))]
  ring

/-- Every float has such a rounding (so the hypothesis can always be met). -/
theorem C44_rounding_exists (d : ℕ) (x : ℚ) : IsRounded d x (around d x) := by
  have hp : (0 : ℚ) < 10 ^ d := by positivity
  have e : |x - (roundHalfEven (x * 10 ^ d) : ℚ) / 10 ^ d| * 10 ^ d = |x * 10 ^ d - roundHalfEven (x * 10 ^ d)| := by
    rw [← abs_of_pos hp, ← abs_mul, abs_of_pos hp]
    congr 1
    field_simp
  have e2 : (1 : ℚ) / (2 * 10 ^ d) * 10 ^ d = 1 / 2 := by field_simp
  refine ⟨roundHalfEven (x * 10 ^ d), rfl, ?_, ?_⟩
  · refine le_of_mul_le_mul_right ?_ hp
    show |x - (roundHalfEven (x * 10 ^ d) : ℚ) / 10 ^ d| * 10 ^ d ≤ _
    rw [e, e2, abs_sub_comm]
    exact abs_roundHalfEven_sub_le _
  · intro ht
    change |x - (roundHalfEven (x * 10 ^ d) : ℚ) / 10 ^ d| = _ at ht
    have ht' := congrArg (· * (10 : ℚ) ^ d) ht
    change _ * (10 : ℚ) ^ d = _ * (10 : ℚ) ^ d at ht'
    rw [e, e2] at ht'
    obtain ⟨y, hy⟩ : ∃ y, y = x * 10 ^ d := ⟨_, rfl⟩
    rw [← hy] at ht' ⊢
    have h1 := Int.floor_le y
    have h2 := Int.lt_floor_add_one y
    unfold roundHalfEven at ht' ⊢
    simp only at ht' ⊢
    split_ifs at ht' ⊢ with c1 c2 c3
    · exfalso
      rw [abs_of_nonneg (by linarith)] at ht'; linarith
    · exfalso
      push_cast at ht'
      rw [abs_of_nonpos (by linarith)] at ht'; linarith
    · exact c3
    · omega

/-- C44, false reading.  With a decimal tolerance it is negative for floats the tolerance identifies but quantization
keeps apart: `n` of them give `1 - n`. -/
theorem C44_tolerance_negative (fp : List ℚ) (hne : fp ≠ []) (q : List ℤ) (hq : q.Nodup) (eps : ℤ) (he : 0 < eps)
    (r : ℚ) (hr : ∀ x ∈ fp, around eps.toNat x = r) : calcCollisions fp q eps = 1 - fp.length := by
  unfold calcCollisions
  simp only [if_pos he]
  have h0 : ((counts q).map (fun c => c * (if c ≠ 1 then 1 else 0))).sum = 0 := by
    rw [Collisions.sum_shared]
    have : q.countP (fun x => decide (1 < q.count x)) = 0 := by
      rw [List.countP_eq_zero]
      intro x _
      have := List.nodup_iff_count_le_one.mp hq x
      simp only [decide_eq_true_eq]; omega
    rw [this]; rfl
  have hm : fp.map (around eps.toNat) = List.replicate fp.length r := by
    rw [List.eq_replicate_iff]
    exact ⟨by simp, fun b hb => by obtain ⟨x, hx, rfl⟩ := List.mem_map.mp hb; exact hr x hx⟩
  have hpos := List.length_pos_iff.mpr hne
  rw [h0, hm, Collisions.sum_minus_one, List.length_replicate]
  have : (List.replicate fp.length r).toFinset = {r} := by
    ext y; simp [List.mem_replicate]; intro _; exact hne
  rw [this]; simp

example : calcCollisions [1, 1] [3, 3] 0 = 1 ∧ calcCollisions [1 / 10, 7 / 50] [1, 2] 1 = -1 ∧
    calcCollisions [1, 2, 3, 4] [7, 7, 7, 8] 0 = 3 ∧ ([1, 2, 3, 4] : List ℚ).Nodup := by decide +kernel

end Verif
