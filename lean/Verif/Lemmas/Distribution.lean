import Verif.Model.Distribution
import Verif.Lemmas.Quant
import Mathlib.Data.List.Sort
import Mathlib.Tactic.FieldSimp
import Mathlib.Tactic.Ring
import Mathlib.Tactic.Linarith

namespace Verif
namespace Dist

theorem sorted_perm (a : List ℚ) : (a.mergeSort (fun x y => decide (x ≤ y))).Perm a := List.mergeSort_perm _ _

theorem sorted_pairwise (a : List ℚ) : (a.mergeSort (fun x y => decide (x ≤ y))).Pairwise (· ≤ ·) := by
  have := List.pairwise_mergeSort (le := fun x y : ℚ => decide (x ≤ y))
    (by intro a b c h1 h2; simp only [decide_eq_true_eq] at *; exact le_trans h1 h2)
    (by intro a b; simp only [Bool.or_eq_true, decide_eq_true_eq]; exact le_total a b) a
  exact this.imp (by intro a b h; simpa using h)

theorem outer_spec (a : List ℚ) (ha : a ≠ []) :
    (outer a).1 < (outer a).2 ∧ ∀ x ∈ a, (outer a).1 ≤ x ∧ x ≤ (outer a).2 := by
  obtain ⟨b, t, rfl⟩ := List.exists_cons_of_ne_nil ha
  obtain ⟨lo, hlo⟩ : ∃ lo, (b :: t).min? = some lo := by simp [List.min?_cons]
  obtain ⟨hi, hhi⟩ : ∃ hi, (b :: t).max? = some hi := by simp [List.max?_cons]
  have h1 := (List.min?_eq_some_iff.mp hlo)
  have h2 := (List.max?_eq_some_iff.mp hhi)
  unfold outer
  rw [hlo, hhi]
  simp only
  have hle : lo ≤ hi := h1.2 hi h2.1
  split_ifs with h
  · refine ⟨by simp only; linarith, fun x hx => ?_⟩
    have := h1.2 x hx
    have := h2.2 x hx
    constructor <;> simp only <;> linarith
  · exact ⟨lt_of_le_of_ne hle h, fun x hx => ⟨h1.2 x hx, h2.2 x hx⟩⟩

theorem linEdges_length (lo hi : ℚ) (n : ℕ) : (linEdges lo hi n).length = n + 1 := by simp [linEdges]

theorem linEdges_get (lo hi : ℚ) (n i : ℕ) (h : i ≤ n) :
    (linEdges lo hi n)[i]? = some (lo + (hi - lo) * (i : ℚ) / (n : ℚ)) := by
  unfold linEdges
  rw [List.getElem?_map, List.getElem?_range (by omega)]
  rfl

theorem pyIndex_nat {α : Type} (l : List α) (i : ℕ) : ReducedLUT.pyIndex l (i : ℤ) = l[i]? := by
  simp [ReducedLUT.pyIndex]

theorem counts_get (a edges : List ℚ) (i : ℕ) (h : i + 1 < edges.length) :
    (counts a edges)[i]? = some (a.countP (fun x => decide (edges.getD i 0 ≤ x ∧
      (x < edges.getD (i + 1) 0 ∨ (i + 2 = edges.length ∧ x ≤ edges.getD (i + 1) 0))))) := by
  unfold counts
  rw [List.getElem?_map, List.getElem?_range (by omega)]
  rfl

/-- Minimum and maximum reported by a fresh distribution enclose the data. -/
theorem getMin_build (a : List ℚ) (ha : a ≠ []) (n : ℕ) (hn : 1 ≤ n) (p : Bool) :
    ∃ m, (build a n p).getMin = some m ∧ (∀ x ∈ a, m ≤ x) ∧ (outer a).1 ≤ m ∧
      ((build a n p).hist[0]? = some 0 → m = (outer a).1) := by
  obtain ⟨ho, hall⟩ := outer_spec a ha
  set lo := (outer a).1 with hlo
  set hi := (outer a).2 with hhi
  set s := a.mergeSort (fun x y => decide (x ≤ y)) with hs
  have hperm : s.Perm a := sorted_perm a
  have hE : (build a n p).edges = linEdges lo hi n := rfl
  have h0 : (linEdges lo hi n)[0]? = some lo := by rw [linEdges_get _ _ _ _ (by omega)]; simp
  have h1 := linEdges_get lo hi n 1 hn
  have hH : ∃ c, (build a n p).hist[0]? = some c ∧ c ≤ a.length := by
    refine ⟨_, counts_get a _ 0 (by rw [show (linEdges (outer a).1 (outer a).2 n).length = n + 1 from linEdges_length _ _ _]; omega), List.countP_le_length⟩
  obtain ⟨c, hc, hcl⟩ := hH
  unfold getMin getBin
  simp only [hE]
  have e0 : ReducedLUT.pyIndex (linEdges lo hi n) 0 = some lo := by
    have := pyIndex_nat (linEdges lo hi n) 0; rw [h0] at this; exact this
  have e1 : ReducedLUT.pyIndex (linEdges lo hi n) (0 + 1) = some (lo + (hi - lo) * ((1 : ℕ) : ℚ) / n) := by
    have := pyIndex_nat (linEdges lo hi n) 1; rw [h1] at this; exact this
  have e2 : ReducedLUT.pyIndex (build a n p).hist 0 = some c := by
    have := pyIndex_nat (build a n p).hist 0; rw [hc] at this; exact this
  simp only [lt_self_iff_false, if_false, e0, e1, e2, Option.bind_eq_bind, Option.bind_some]
  by_cases hc2 : c < 2
  · refine ⟨lo, by simp [hc2], fun x hx => (hall x hx).1, le_refl _, fun _ => rfl⟩
  · simp only [hc2, if_false]
    have hsl : (build a n p).slice (some lo) none = s := by
      unfold slice
      have : searchLeft (build a n p).sorted lo = 0 := by
        unfold searchLeft
        rw [List.countP_eq_zero]
        intro x hx
        have := (hall x (hperm.mem_iff.mp hx)).1
        simp only [decide_eq_true_eq, not_lt]; exact this
      simp only [this, List.drop_zero]
      exact List.take_length
    rw [hsl]
    have hlen : s.length = a.length := hperm.length_eq
    have hlt : (s.take c).length = c := by rw [List.length_take]; omega
    rw [if_pos hlt]
    obtain ⟨x, t, hst⟩ : ∃ x t, s = x :: t := by
      apply List.exists_cons_of_ne_nil; intro h; rw [h] at hlen
      exact ha (List.length_eq_zero_iff.mp hlen.symm)
    obtain ⟨k, rfl⟩ : ∃ k, c = k + 1 := ⟨c - 1, by omega⟩
    have hhead : (s.take (k + 1)).head? = some x := by rw [hst]; rfl
    obtain ⟨y, hy⟩ : ∃ y, (s.take (k + 1)).getLast? = some y := by
      rw [hst, List.take_succ_cons]; exact ⟨_, List.getLast?_cons⟩
    rw [hhead, hy]
    have hpw : s.Pairwise (· ≤ ·) := sorted_pairwise a
    rw [hst, List.pairwise_cons] at hpw
    have hxm : x ∈ a := hperm.mem_iff.mp (by rw [hst]; simp)
    refine ⟨x, rfl, ?_, (hall x hxm).1, ?_⟩
    · intro z hz
      have hz' : z ∈ s := hperm.mem_iff.mpr hz
      rw [hst, List.mem_cons] at hz'
      rcases hz' with rfl | hz'
      · exact le_refl _
      · exact hpw.1 z hz'
    · intro h; rw [hc] at h; simp at h

theorem getMax_build (a : List ℚ) (ha : a ≠ []) (n : ℕ) (hn : 1 ≤ n) (p : Bool) :
    ∃ m, (build a n p).getMax = some m ∧ (∀ x ∈ a, x ≤ m) ∧ m ≤ (outer a).2 ∧
      ((build a n p).hist[n - 1]? = some 0 → m = (outer a).2) := by
  obtain ⟨ho, hall⟩ := outer_spec a ha
  set lo := (outer a).1 with hlo
  set hi := (outer a).2 with hhi
  set s := a.mergeSort (fun x y => decide (x ≤ y)) with hs
  have hperm : s.Perm a := sorted_perm a
  have hE : (build a n p).edges = linEdges lo hi n := rfl
  obtain ⟨k, rfl⟩ : ∃ k, n = k + 1 := ⟨n - 1, by omega⟩
  have hk := linEdges_get lo hi (k + 1) k (by omega)
  have hk1 : (linEdges lo hi (k + 1))[k + 1]? = some hi := by
    rw [linEdges_get _ _ _ _ (le_refl _)]
    congr 1
    have : ((k + 1 : ℕ) : ℚ) ≠ 0 := by positivity
    field_simp
    ring
  set ek : ℚ := lo + (hi - lo) * (k : ℚ) / ((k + 1 : ℕ) : ℚ) with hek
  have hH : (build a (k + 1) p).hist[k]? = some (a.countP (fun x => decide (ek ≤ x))) := by
    show (counts a (linEdges lo hi (k + 1)))[k]? = _
    rw [counts_get a _ k (by rw [linEdges_length]; omega)]
    congr 1
    apply List.countP_congr
    intro x hx
    simp only [List.getD_eq_getElem?_getD, hk, hk1, Option.getD_some, linEdges_length, true_and,
      decide_eq_true_eq]
    constructor
    · rintro ⟨h, -⟩; exact h
    · intro h; exact ⟨h, Or.inr (hall x hx).2⟩
  unfold getMax getBin
  simp only [hE, linEdges_length]
  have eidx : (if (-1 : ℤ) < 0 then (((k + 1 + 1 : ℕ) : ℤ) - 1) + -1 else -1) = (k : ℤ) := by
    rw [if_pos (by omega)]; push_cast; ring
  rw [eidx]
  have e0 : ReducedLUT.pyIndex (linEdges lo hi (k + 1)) (k : ℤ) = some ek := by rw [pyIndex_nat, hk]
  have e1 : ReducedLUT.pyIndex (linEdges lo hi (k + 1)) ((k : ℤ) + 1) = some hi := by
    rw [show ((k : ℤ) + 1) = ((k + 1 : ℕ) : ℤ) by push_cast; ring, pyIndex_nat, hk1]
  have e2 : ReducedLUT.pyIndex (build a (k + 1) p).hist (k : ℤ) = some (a.countP (fun x => decide (ek ≤ x))) := by
    rw [pyIndex_nat, hH]
  simp only [e0, e1, e2, Option.bind_eq_bind, Option.bind_some]
  set c := a.countP (fun x => decide (ek ≤ x)) with hc
  by_cases hc2 : c < 2
  · refine ⟨hi, by simp [hc2], fun x hx => (hall x hx).2, le_refl _, fun _ => rfl⟩
  · simp only [hc2, if_false]
    set j := searchLeft s ek with hj
    have hsl : (build a (k + 1) p).slice (some ek) none = s.drop j := by
      unfold slice
      simp only
      rw [show (build a (k + 1) p).sorted = s from rfl, List.take_length]
    rw [hsl]
    have hlen : (s.drop j).length = c := by
      rw [List.length_drop, hj]
      unfold searchLeft
      have h1 : s.countP (fun x => decide (ek ≤ x)) = c := hperm.countP_eq _
      have h2 := List.length_eq_countP_add_countP (fun x => decide (x < ek)) (l := s)
      have h3 : s.countP (fun x => !decide (x < ek)) = c := by
        rw [← h1]; apply List.countP_congr; intro x _; simp
      have h4 : s.countP (fun a => decide ¬decide (a < ek) = true) = c := by
        rw [← h3]; apply List.countP_congr; intro x _; simp
      omega
    have htake : (s.drop j).take c = s.drop j := by rw [← hlen, List.take_length]
    rw [htake, if_pos hlen]
    have hne : s.drop j ≠ [] := by intro h; rw [h] at hlen; simp at hlen; omega
    obtain ⟨x, t, hxt⟩ := List.exists_cons_of_ne_nil hne
    have hhead : (s.drop j).head? = some x := by rw [hxt]; rfl
    have hlast : (s.drop j).getLast? = s.getLast? := by
      have : j < s.length := by
        by_contra hcon; exact hne (List.drop_eq_nil_of_le (by omega))
      rw [List.getLast?_drop, if_neg (by omega)]
    have hsne : s ≠ [] := by rintro h; rw [h] at hne; simp at hne
    rw [hhead, hlast, List.getLast?_eq_some_getLast hsne]
    refine ⟨s.getLast hsne, rfl, ?_, ?_, ?_⟩
    · intro z hz
      have hz' : z ∈ s := hperm.mem_iff.mpr hz
      have hpw : s.Pairwise (· ≤ ·) := sorted_pairwise a
      rw [← List.dropLast_append_getLast hsne, List.mem_append] at hz'
      rcases hz' with hz' | hz'
      · rw [← List.dropLast_append_getLast hsne, List.pairwise_append] at hpw
        exact hpw.2.2 z hz' _ (by simp)
      · rw [List.mem_singleton] at hz'; rw [hz']
    · exact (hall _ (hperm.mem_iff.mp (List.getLast_mem hsne))).2
    · intro h
      rw [Nat.add_sub_cancel, hH] at h
      injection h with h
      omega

theorem outer_const (a : List ℚ) (ha : a ≠ []) (c : ℚ) (h : ∀ x ∈ a, x = c) :
    outer a = (c - 1 / 2, c + 1 / 2) := by
  obtain ⟨b, t, rfl⟩ := List.exists_cons_of_ne_nil ha
  obtain ⟨lo, hlo⟩ : ∃ lo, (b :: t).min? = some lo := by simp [List.min?_cons]
  obtain ⟨hi, hhi⟩ : ∃ hi, (b :: t).max? = some hi := by simp [List.max?_cons]
  have h1 := h lo (List.min?_eq_some_iff.mp hlo).1
  have h2 := h hi (List.max?_eq_some_iff.mp hhi).1
  unfold outer
  rw [hlo, hhi, h1, h2]
  simp

theorem hist_const (a : List ℚ) (ha : a ≠ []) (n : ℕ) (hn : 3 ≤ n) (p : Bool) (c : ℚ) (h : ∀ x ∈ a, x = c) :
    (build a n p).hist[0]? = some 0 ∧ (build a n p).hist[n - 1]? = some 0 := by
  have ho := outer_const a ha c h
  have hE : (build a n p).hist = counts a (linEdges (c - 1 / 2) (c + 1 / 2) n) := by
    show counts a (linEdges (outer a).1 (outer a).2 n) = _
    rw [ho]
  have hn0 : (0 : ℚ) < n := by exact_mod_cast (by omega : 0 < n)
  have hn3 : (3 : ℚ) ≤ n := by exact_mod_cast hn
  have h3 : 1 / (n : ℚ) ≤ 1 / 3 := by
    rw [div_le_div_iff₀ hn0 (by norm_num)]; linarith
  rw [hE]
  constructor
  · rw [counts_get a _ 0 (by rw [linEdges_length]; omega)]
    congr 1
    rw [List.countP_eq_zero]
    intro x hx
    rw [h x hx]
    simp only [List.getD_eq_getElem?_getD, linEdges_get _ _ n 0 (by omega), linEdges_get _ _ n (0 + 1) (by omega),
      Option.getD_some, linEdges_length, decide_eq_true_eq]
    rintro ⟨-, h4 | ⟨h4, -⟩⟩
    · have : c - 1 / 2 + (c + 1 / 2 - (c - 1 / 2)) * ((0 + 1 : ℕ) : ℚ) / n = c - 1 / 2 + 1 / n := by
        push_cast; ring
      rw [this] at h4; linarith
    · omega
  · rw [counts_get a _ (n - 1) (by rw [linEdges_length]; omega)]
    congr 1
    rw [List.countP_eq_zero]
    intro x hx
    rw [h x hx]
    simp only [List.getD_eq_getElem?_getD, linEdges_get _ _ n (n - 1) (by omega), Option.getD_some,
      linEdges_length, decide_eq_true_eq]
    rintro ⟨h4, -⟩
    have : c - 1 / 2 + (c + 1 / 2 - (c - 1 / 2)) * ((n - 1 : ℕ) : ℚ) / n = c + 1 / 2 - 1 / n := by
      rw [Nat.cast_sub (by omega)]; push_cast; field_simp; ring
    rw [this] at h4; linarith

/-- With at least three bins, the reported minimum is strictly below the reported maximum. -/
theorem min_lt_max (a : List ℚ) (ha : a ≠ []) (n : ℕ) (hn : 3 ≤ n) (p : Bool) :
    ∃ m M, (build a n p).getMin = some m ∧ (build a n p).getMax = some M ∧ m < M ∧ ∀ x ∈ a, m ≤ x ∧ x ≤ M := by
  obtain ⟨m, hm, h1, -, h3⟩ := getMin_build a ha n (by omega) p
  obtain ⟨M, hM, k1, -, k3⟩ := getMax_build a ha n (by omega) p
  refine ⟨m, M, hm, hM, ?_, fun x hx => ⟨h1 x hx, k1 x hx⟩⟩
  obtain ⟨b, t, rfl⟩ := List.exists_cons_of_ne_nil ha
  have hb1 := h1 b (by simp)
  have hb2 := k1 b (by simp)
  by_contra hc
  have hc' : M ≤ m := not_lt.mp hc
  have hall : ∀ x ∈ b :: t, x = b := by
    intro x hx
    have := h1 x hx; have := k1 x hx; linarith
  obtain ⟨q1, q2⟩ := hist_const _ ha n hn p b hall
  have ho := outer_const _ ha b hall
  have := h3 q1
  rw [ho] at this
  simp only at this
  linarith

end Dist
end Verif
