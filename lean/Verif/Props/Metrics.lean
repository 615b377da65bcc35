import Verif.Model.Metrics
import Verif.Props.Optimizers

/-!
# C86: the noise metrics
-/

namespace Verif

open Spec

namespace Spec

/-- The share of the counted values in bin `i`. -/
def share (h : List ℕ) (i : ℕ) : ℚ := (h.getD i 0 : ℚ) / (h.sum : ℚ)

end Spec

namespace Metrics

theorem normalize_some {h : List ℕ} (hs : h.sum ≠ 0) :
    normalize h = some ((List.range h.length).map (share h)) := by
  unfold normalize
  rw [if_neg hs, Option.some.injEq]
  apply List.ext_getElem
  · simp
  · intro i h1 h2
    rw [List.length_map] at h1
    simp [share, List.getD_eq_getElem?_getD, h1]

theorem share_nonneg (h : List ℕ) (i : ℕ) : 0 ≤ share h i := by unfold share; positivity

theorem le_sum_of_getD (h : List ℕ) (i : ℕ) : h.getD i 0 ≤ h.sum := by
  by_cases hi : i < h.length
  · rw [List.getD_eq_getElem?_getD, List.getElem?_eq_getElem hi]
    exact List.le_sum_of_mem (List.getElem_mem hi)
  · rw [List.getD_eq_getElem?_getD, List.getElem?_eq_none (by omega)]; exact Nat.zero_le _

theorem share_le_one (h : List ℕ) (i : ℕ) : share h i ≤ 1 := by
  unfold share
  refine div_le_one_of_le₀ ?_ (by positivity)
  exact_mod_cast le_sum_of_getD h i

theorem map_share_sum {h : List ℕ} (hs : h.sum ≠ 0) : ((List.range h.length).map (share h)).sum = 1 := by
  have e : (List.range h.length).map (share h) = h.map (fun (c : ℕ) => (c : ℚ) / (h.sum : ℚ)) := by
    have := normalize_some hs
    unfold normalize at this
    rw [if_neg hs, Option.some.injEq] at this
    exact this.symm
  have e2 : ∀ (l : List ℕ) (n : ℚ), (l.map (fun (c : ℕ) => (c : ℚ) / n)).sum = (l.sum : ℚ) / n := by
    intro l n
    induction l with
    | nil => simp
    | cons a l ih => simp only [List.map_cons, List.sum_cons, ih]; push_cast; ring
  rw [e, e2]
  have : (h.sum : ℚ) ≠ 0 := by exact_mod_cast hs
  field_simp

/-! ## The terms -/

theorem klTerm_pos {x y : ℝ} (hx : 0 < x) (hy : 0 < y) : klTerm x y = some (x * Real.log (x / y) - x + y) := by
  unfold klTerm; rw [if_pos ⟨hx, hy⟩]

theorem klTerm_spec {x y v : ℝ} (h : klTerm x y = some v) : 0 ≤ v ∧ (v = 0 ↔ x = y) := by
  unfold klTerm at h
  by_cases hp : 0 < x ∧ 0 < y
  · rw [if_pos hp, Option.some.injEq] at h
    subst h
    obtain ⟨hx, hy⟩ := hp
    have hl : Real.log (x / y) = -Real.log (y / x) := by
      rw [← Real.log_inv, inv_div]
    have e : x * Real.log (x / y) - x + y = x * (y / x - 1 - Real.log (y / x)) := by
      rw [hl]; field_simp; ring
    have ht : 0 < y / x := div_pos hy hx
    rw [e]
    have hle := Real.log_le_sub_one_of_pos ht
    refine ⟨mul_nonneg hx.le (by linarith), ?_⟩
    constructor
    · intro h0
      by_contra hne
      have hne' : y / x ≠ 1 := by
        intro h1
        rw [div_eq_one_iff_eq hx.ne'] at h1
        exact hne h1.symm
      have := Real.log_lt_sub_one_of_pos ht hne'
      have := mul_pos hx (by linarith : 0 < y / x - 1 - Real.log (y / x))
      linarith
    · rintro rfl
      rw [div_self hx.ne']; simp
  · rw [if_neg hp] at h
    by_cases h0 : x = 0 ∧ 0 ≤ y
    · rw [if_pos h0, Option.some.injEq] at h
      subst h
      obtain ⟨rfl, hy⟩ := h0
      exact ⟨hy, eq_comm⟩
    · rw [if_neg h0] at h; cases h

theorem total_cons_some (a : ℝ) (l : List (Option ℝ)) : total (some a :: l) = (total l).map (fun s => a + s) := by
  unfold total
  rw [List.mapM_cons]
  cases h : l.mapM id with
  | none => simp
  | some v => simp

theorem total_cons_none (l : List (Option ℝ)) : total (none :: l) = none := by
  unfold total
  rw [List.mapM_cons]
  simp

theorem total_nil : total [] = some 0 := by simp [total]

/-- The sum of the terms: infinite if and only if a term is, never negative, zero exactly for equal arrays. -/
theorem total_kl : ∀ (p q : List ℝ), p.length = q.length →
    (total (List.zipWith klTerm p q) = none ↔ ∃ (i : ℕ) (x y : ℝ), p[i]? = some x ∧ q[i]? = some y ∧ klTerm x y = none) ∧
    ∀ v, total (List.zipWith klTerm p q) = some v → 0 ≤ v ∧ (v = 0 ↔ p = q) := by
  intro p
  induction p with
  | nil =>
    intro q hq
    have : q = [] := List.length_eq_zero_iff.mp hq.symm
    subst this
    refine ⟨?_, ?_⟩
    · simp [total_nil]
    · intro v hv
      simp only [List.zipWith_nil_left, total_nil, Option.some.injEq] at hv
      subst hv; simp
  | cons a p ih =>
    intro q hq
    match q, hq with
    | b :: q, hq =>
      obtain ⟨h1, h2⟩ := ih q (by simpa using hq)
      rw [List.zipWith_cons_cons]
      cases ht : klTerm a b with
      | none =>
        rw [total_cons_none]
        refine ⟨⟨fun _ => ⟨0, a, b, rfl, rfl, ht⟩, fun _ => rfl⟩, fun v hv => by cases hv⟩
      | some t =>
        rw [total_cons_some, Option.map_eq_none_iff, h1]
        refine ⟨⟨?_, ?_⟩, ?_⟩
        · rintro ⟨i, x, y, hx, hy, hn⟩
          exact ⟨i + 1, x, y, hx, hy, hn⟩
        · rintro ⟨i, x, y, hx, hy, hn⟩
          cases i with
          | zero =>
            simp only [List.getElem?_cons_zero, Option.some.injEq] at hx hy
            subst hx; subst hy
            rw [ht] at hn; cases hn
          | succ i => exact ⟨i, x, y, hx, hy, hn⟩
        · intro v hv
          rw [Option.map_eq_some_iff] at hv
          obtain ⟨s, hs, rfl⟩ := hv
          obtain ⟨k1, k2⟩ := h2 s hs
          obtain ⟨k3, k4⟩ := klTerm_spec ht
          refine ⟨by linarith, ?_⟩
          rw [List.cons.injEq, ← k4, ← k2]
          constructor
          · intro h; constructor <;> linarith
          · rintro ⟨h, h'⟩; linarith

/-- The sum for arrays without zeros. -/
theorem total_pos : ∀ (p q : List ℝ), p.length = q.length → (∀ x ∈ p, 0 < x) → (∀ x ∈ q, 0 < x) →
    total (List.zipWith klTerm p q) = some (-(List.zipWith (fun a b => a * Real.log b) p q).sum -
      -(List.zipWith (fun a b => a * Real.log b) p p).sum - p.sum + q.sum) := by
  intro p
  induction p with
  | nil =>
    intro q hq _ _
    have : q = [] := List.length_eq_zero_iff.mp hq.symm
    subst this
    simp [total_nil]
  | cons a p ih =>
    intro q hq hp hq'
    match q, hq with
    | b :: q, hq =>
      have ha := hp a (by simp)
      have hb := hq' b (by simp)
      rw [List.zipWith_cons_cons, klTerm_pos ha hb, total_cons_some,
        ih q (by simpa using hq) (fun x hx => hp x (by simp [hx])) (fun x hx => hq' x (by simp [hx])), Option.map_some,
        Option.some.injEq, Real.log_div ha.ne' hb.ne']
      simp only [List.zipWith_cons_cons, List.sum_cons]
      ring

theorem smooth_pos {x : ℝ} (hx : 0 ≤ x) : 0 < smooth x := by
  unfold smooth
  split_ifs with h
  · positivity
  · exact lt_of_le_of_ne hx (Ne.symm h)

theorem smooth_inj {h g : List ℕ} (hh : h.sum < 10 ^ 10) (hg : g.sum < 10 ^ 10) (i j : ℕ)
    (e : smooth (share h i : ℝ) = smooth (share g j : ℝ)) : share h i = share g j := by
  have key : ∀ (l : List ℕ) (k : ℕ), l.sum < 10 ^ 10 → share l k = 0 ∨ (1 / 10 ^ 10 : ℚ) < share l k := by
    intro l k hl
    unfold share
    by_cases h0 : l.getD k 0 = 0
    · left; rw [h0]; simp
    · right
      have h1 : 1 ≤ l.getD k 0 := by omega
      have h2 := le_sum_of_getD l k
      have h3 : (0 : ℚ) < (l.sum : ℚ) := by exact_mod_cast (by omega : 0 < l.sum)
      have h4 : (l.sum : ℚ) < 10 ^ 10 := by exact_mod_cast hl
      have h5 : (1 : ℚ) ≤ (l.getD k 0 : ℚ) := by exact_mod_cast h1
      rw [div_lt_div_iff₀ (by positivity) h3]
      nlinarith
  have cast : ∀ q : ℚ, (1 / 10 ^ 10 : ℚ) < q → (1 / 10 ^ 10 : ℝ) < (q : ℝ) := by
    intro q hq
    have : (((1 / 10 ^ 10 : ℚ)) : ℝ) < (q : ℝ) := by exact_mod_cast hq
    push_cast at this
    exact this
  unfold smooth at e
  rcases key h i hh with h1 | h1 <;> rcases key g j hg with h2 | h2
  · rw [h1, h2]
  · have := cast _ h2
    rw [if_pos (by rw [h1]; simp), if_neg (by intro hc; rw [hc] at this; norm_num at this)] at e
    rw [← e] at this
    exact absurd this (lt_irrefl _)
  · have := cast _ h1
    rw [if_neg (by intro hc; rw [hc] at this; norm_num at this), if_pos (by rw [h2]; simp)] at e
    rw [e] at this
    exact absurd this (lt_irrefl _)
  · have t1 := cast _ h1
    have t2 := cast _ h2
    rw [if_neg (by intro hc; rw [hc] at t1; norm_num at t1), if_neg (by intro hc; rw [hc] at t2; norm_num at t2)] at e
    exact_mod_cast e

/-! ## Every value is counted once -/

theorem mono_of_steps (e : ℕ → ℚ) (k : ℕ) (he : ∀ i < k, e i ≤ e (i + 1)) : e 0 ≤ e k := by
  induction k with
  | zero => exact le_rfl
  | succ k ih => exact le_trans (ih (fun i hi => he i (by omega))) (he k (by omega))

theorem indicator_sum (e : ℕ → ℚ) (x : ℚ) (k : ℕ) (he : ∀ i < k, e i ≤ e (i + 1)) :
    ((List.range k).map (fun i => if e i ≤ x ∧ x < e (i + 1) then 1 else 0)).sum = if e 0 ≤ x ∧ x < e k then 1 else 0 := by
  induction k with
  | zero => simp
  | succ k ih =>
    rw [List.range_succ, List.map_append, List.sum_append, ih (fun i hi => he i (by omega))]
    have h0 := mono_of_steps e k (fun i hi => he i (by omega))
    have hk := he k (by omega)
    simp only [List.map_cons, List.map_nil, List.sum_cons, List.sum_nil, Nat.add_zero]
    by_cases h1 : e 0 ≤ x
    · by_cases h2 : x < e k
      · rw [if_pos ⟨h1, h2⟩, if_neg (by rintro ⟨h, _⟩; linarith), if_pos ⟨h1, lt_of_lt_of_le h2 hk⟩]
      · by_cases h3 : x < e (k + 1)
        · rw [if_neg (fun h => h2 h.2), if_pos ⟨not_lt.mp h2, h3⟩, if_pos ⟨h1, h3⟩]
        · rw [if_neg (fun h => h2 h.2), if_neg (fun h => h3 h.2), if_neg (fun h => h3 h.2)]
    · rw [if_neg (fun h => h1 h.1), if_neg (by rintro ⟨h, _⟩; linarith), if_neg (fun h => h1 h.1)]

/-- `np.histogram` counts every value between the first and the last edge exactly once, and no other. -/
theorem counts_sum (a edges : List ℚ) (he : edges.Pairwise (· ≤ ·)) (k : ℕ) (hk : edges.length = k + 2) :
    (Dist.counts a edges).sum = a.countP (fun x => decide (edges.getD 0 0 ≤ x ∧ x ≤ edges.getD (k + 1) 0)) := by
  have hs : ∀ i < k + 1, edges.getD i 0 ≤ edges.getD (i + 1) 0 := by
    intro i hi
    rw [List.getD_eq_getElem?_getD, List.getD_eq_getElem?_getD, List.getElem?_eq_getElem (by omega),
      List.getElem?_eq_getElem (by omega)]
    exact List.pairwise_iff_getElem.mp he i (i + 1) (by omega) (by omega) (by omega)
  induction a with
  | nil => simp [Dist.counts]
  | cons x a ih =>
    have e1 : (Dist.counts (x :: a) edges).sum = (Dist.counts a edges).sum +
        ((List.range (k + 1)).map (fun i => if edges.getD i 0 ≤ x ∧
          (x < edges.getD (i + 1) 0 ∨ (i + 2 = edges.length ∧ x ≤ edges.getD (i + 1) 0)) then 1 else 0)).sum := by
      unfold Dist.counts
      rw [hk, show k + 2 - 1 = k + 1 by omega, ← List.sum_map_add]
      congr 1
      apply List.map_congr_left
      intro i _
      rw [List.countP_cons]
      simp only [decide_eq_true_eq]
    rw [e1, ih, List.countP_cons]
    congr 1
    rw [List.range_succ, List.map_append, List.sum_append]
    have e2 : (List.range k).map (fun i => if edges.getD i 0 ≤ x ∧
          (x < edges.getD (i + 1) 0 ∨ (i + 2 = edges.length ∧ x ≤ edges.getD (i + 1) 0)) then 1 else 0) =
        (List.range k).map (fun i => if edges.getD i 0 ≤ x ∧ x < edges.getD (i + 1) 0 then 1 else 0) := by
      apply List.map_congr_left
      intro i hi
      rw [List.mem_range] at hi
      have : ¬ i + 2 = edges.length := by omega
      simp [this]
    rw [e2, indicator_sum (fun i => edges.getD i 0) x k (fun i hi => hs i (by omega))]
    simp only [List.map_cons, List.map_nil, List.sum_cons, List.sum_nil, Nat.add_zero, decide_eq_true_eq]
    have h0 := mono_of_steps (fun i => edges.getD i 0) k (fun i hi => hs i (by omega))
    have h1 := hs k (by omega)
    generalize edges.getD 0 0 = p at *
    generalize edges.getD k 0 = q at *
    generalize edges.getD (k + 1) 0 = r at *
    have hl : k + 2 = edges.length := hk.symm
    by_cases c1 : p ≤ x
    · by_cases c2 : x < q
      · rw [if_pos ⟨c1, c2⟩, if_neg (by rintro ⟨h, _⟩; linarith), if_pos ⟨c1, by linarith⟩]
      · by_cases c3 : x ≤ r
        · rw [if_neg (fun h => c2 h.2), if_pos ⟨not_lt.mp c2, .inr ⟨hl, c3⟩⟩, if_pos ⟨c1, c3⟩]
        · rw [if_neg (fun h => c2 h.2), if_neg (by rintro ⟨_, h | h⟩; · linarith
                                                   · exact c3 h.2), if_neg (fun h => c3 h.2)]
    · rw [if_neg (fun h => c1 h.1), if_neg (by rintro ⟨h, _⟩; linarith), if_neg (fun h => c1 h.1)]

theorem build_total (a : List ℚ) (n : ℕ) (hn : 1 ≤ n) : (Dist.build a n).hist.sum = a.length := by
  obtain ⟨k, rfl⟩ : ∃ k, n = k + 1 := ⟨n - 1, by omega⟩
  have hinv := Dist.inv_build a (k + 1) hn
  have hp : (Dist.linEdges (Dist.outer a).1 (Dist.outer a).2 (k + 1)).Pairwise (· ≤ ·) :=
    hinv.inc.imp (fun h => le_of_lt h)
  show (Dist.counts a (Dist.linEdges (Dist.outer a).1 (Dist.outer a).2 (k + 1))).sum = _
  rw [counts_sum a _ hp k (Dist.linEdges_length _ _ _), List.countP_eq_length]
  intro x hx
  have ha : a ≠ [] := List.ne_nil_of_mem hx
  rw [decide_eq_true_eq, Dist.linEdges_getD _ _ _ _ (by omega), Dist.linEdges_getD _ _ _ _ (by omega)]
  have hk : ((k + 1 : ℕ) : ℚ) ≠ 0 := by positivity
  rw [show (Dist.outer a).1 + ((Dist.outer a).2 - (Dist.outer a).1) * ((k + 1 : ℕ) : ℚ) / ((k + 1 : ℕ) : ℚ) =
    (Dist.outer a).2 by field_simp; ring]
  have := (Dist.outer_spec a ha).2 x hx
  simpa using this

/-! ## Lists of shares -/

/-- The shares of all bins, as real numbers. -/
noncomputable def shares (h : List ℕ) : List ℝ := (List.range h.length).map (fun i => (share h i : ℝ))

theorem shares_length (h : List ℕ) : (shares h).length = h.length := by simp [shares]

theorem shares_get (h : List ℕ) (i : ℕ) (hi : i < h.length) : (shares h)[i]? = some (share h i : ℝ) := by
  simp [shares, hi]

theorem share_out (h : List ℕ) (i : ℕ) (hi : h.length ≤ i) : share h i = 0 := by
  unfold share
  rw [List.getD_eq_getElem?_getD, List.getElem?_eq_none hi]
  simp

theorem map_eq_iff {f : ℝ → ℝ} {h g : List ℕ} (hl : h.length = g.length) :
    (shares h).map f = (shares g).map f ↔ ∀ i < h.length, f (share h i) = f (share g i) := by
  unfold shares
  rw [← hl, List.map_map, List.map_map, List.map_inj_left]
  simp

theorem compare_norm (m : Metric) {d e : Dist} (hl : d.hist.length = e.hist.length) (hd : d.hist.sum ≠ 0)
    (he : e.hist.sum ≠ 0) : compare m d e = some (m.onFloats (shares d.hist) (shares e.hist)) := by
  unfold compare
  rw [if_pos hl, if_pos rfl, normalize_some hd, normalize_some he]
  simp only [List.map_map]
  rfl

theorem shares_sum {h : List ℕ} (hs : h.sum ≠ 0) : (shares h).sum = 1 := by
  have := map_share_sum hs
  have e : ∀ l : List ℕ, (l.map (fun i => (share h i : ℝ))).sum = (((l.map (share h)).sum : ℚ) : ℝ) := by
    intro l
    induction l with
    | nil => simp
    | cons a l ih => simp only [List.map_cons, List.sum_cons, ih]; push_cast; ring
  unfold shares
  rw [e, this]; simp

theorem shares_bounds {h : List ℕ} {x : ℝ} (hx : x ∈ shares h) : 0 ≤ x ∧ x ≤ 1 := by
  unfold shares at hx
  obtain ⟨i, _, rfl⟩ := List.mem_map.mp hx
  exact ⟨by exact_mod_cast share_nonneg h i, by exact_mod_cast share_le_one h i⟩

theorem sq_sum_bounds : ∀ (p q : List ℝ), (∀ x ∈ p, 0 ≤ x ∧ x ≤ 1) → (∀ x ∈ q, 0 ≤ x ∧ x ≤ 1) → p.length = q.length →
    0 ≤ (List.zipWith (fun a b => (a - b) ^ 2) p q).sum ∧
    (List.zipWith (fun a b => (a - b) ^ 2) p q).sum ≤ p.sum + q.sum ∧
    ((List.zipWith (fun a b => (a - b) ^ 2) p q).sum = 0 ↔ p = q) := by
  intro p
  induction p with
  | nil =>
    intro q _ hq hl
    have : q = [] := List.length_eq_zero_iff.mp hl.symm
    subst this; simp
  | cons a p ih =>
    intro q hp hq hl
    match q, hl with
    | b :: q, hl =>
      obtain ⟨h1, h2, h3⟩ := ih q (fun x hx => hp x (by simp [hx])) (fun x hx => hq x (by simp [hx])) (by simpa using hl)
      obtain ⟨a0, a1⟩ := hp a (by simp)
      obtain ⟨b0, b1⟩ := hq b (by simp)
      rw [List.zipWith_cons_cons, List.sum_cons, List.sum_cons, List.sum_cons, List.cons.injEq, ← h3]
      have s0 := sq_nonneg (a - b)
      refine ⟨by linarith, by nlinarith, ?_⟩
      constructor
      · intro h
        have : (a - b) ^ 2 = 0 := by linarith
        exact ⟨by nlinarith [pow_eq_zero_iff (n := 2) (by norm_num) |>.mp this], by linarith⟩
      · rintro ⟨rfl, h⟩
        rw [h]; simp

theorem sq_comm (p q : List ℝ) : List.zipWith (fun a b => (a - b) ^ 2) p q = List.zipWith (fun a b => (a - b) ^ 2) q p := by
  rw [List.zipWith_comm]
  congr 1
  funext a b
  ring

end Metrics

open Metrics

/-- C86 (normalization).  The histogram of `n ≥ 1` bins over any non-empty data counts every value once and normalizes: one
share per bin, none negative, adding up to 1.  Normalization fails (NaN) exactly for a histogram without counts. -/
theorem C86_normalize (h : List ℕ) :
    (Metrics.normalize h = none ↔ ∀ c ∈ h, c = 0) ∧
    ∀ p, Metrics.normalize h = some p → p.length = h.length ∧ p.sum = 1 ∧ (∀ x ∈ p, 0 ≤ x ∧ x ≤ 1) ∧
      ∀ (i : ℕ) x, p[i]? = some x → x = share h i := by
  constructor
  · unfold Metrics.normalize
    rw [← List.sum_eq_zero_iff]
    split_ifs with h0
    · simp [h0]
    · simp [h0]
  · intro p hp
    have hs : h.sum ≠ 0 := by
      intro h0
      unfold Metrics.normalize at hp
      rw [if_pos h0] at hp; cases hp
    rw [normalize_some hs, Option.some.injEq] at hp
    subst hp
    refine ⟨by simp, map_share_sum hs, ?_, ?_⟩
    · intro x hx
      obtain ⟨i, _, rfl⟩ := List.mem_map.mp hx
      exact ⟨share_nonneg h i, share_le_one h i⟩
    · intro i x hx
      rw [List.getElem?_map, Option.map_eq_some_iff] at hx
      obtain ⟨j, hj, rfl⟩ := hx
      have := List.getElem?_eq_some_iff.mp hj
      obtain ⟨h1, h2⟩ := this
      rw [List.getElem_range] at h2
      rw [h2]

/-- C86 (data).  Every value is counted exactly once, so non-empty data can be compared. -/
theorem C86_counted (a : List ℚ) (n : ℕ) (hn : 1 ≤ n) :
    (Dist.build a n).hist.sum = a.length ∧ (a ≠ [] → (Metrics.normalize (Dist.build a n).hist).isSome) := by
  refine ⟨build_total a n hn, fun ha => ?_⟩
  rw [normalize_some (by rw [build_total a n hn]; simpa using ha)]
  rfl

/-- C86 (mean squared error).  Comparing two histograms with the same number of bins by `mse` is symmetric, never negative,
at most 2 divided by the number of bins, and zero exactly if all bins have the same share. -/
theorem C86_mse (d e : Dist) (hl : d.hist.length = e.hist.length) (hd : d.hist.sum ≠ 0) (he : e.hist.sum ≠ 0) :
    ∃ v, Metrics.compare .mse d e = some (some v) ∧ Metrics.compare .mse e d = some (some v) ∧ 0 ≤ v ∧ v ≤ 2 / d.hist.length ∧
      (v = 0 ↔ ∀ i < d.hist.length, share d.hist i = share e.hist i) := by
  rw [compare_norm _ hl hd he, compare_norm _ hl.symm he hd]
  have hlen : (shares d.hist).length = (shares e.hist).length := by rw [shares_length, shares_length, hl]
  obtain ⟨h1, h2, h3⟩ := sq_sum_bounds _ _ (fun x hx => shares_bounds hx) (fun x hx => shares_bounds hx) hlen
  have hz : (List.zipWith (fun a b => (a - b) ^ 2) (shares d.hist) (shares e.hist)).length = d.hist.length := by
    rw [List.length_zipWith, ← hlen, shares_length, min_self]
  have hpos : 0 < d.hist.length := by
    cases hh : d.hist with
    | nil => rw [hh] at hd; simp at hd
    | cons a l => simp
  have hpos' : (0 : ℝ) < d.hist.length := by exact_mod_cast hpos
  refine ⟨(List.zipWith (fun a b => (a - b) ^ 2) (shares d.hist) (shares e.hist)).sum / d.hist.length, ?_, ?_,
    div_nonneg h1 hpos'.le, ?_, ?_⟩
  · simp only [Metric.mse, mse]
    rw [hz, if_neg hpos.ne']
  · simp only [Metric.mse, mse]
    rw [sq_comm (shares e.hist), hz, if_neg hpos.ne']
  · rw [shares_sum hd, shares_sum he] at h2
    exact div_le_div_of_nonneg_right (by linarith) hpos'.le
  · rw [div_eq_zero_iff, or_iff_left hpos'.ne', h3]
    have := map_eq_iff (f := id) hl
    rw [List.map_id, List.map_id] at this
    rw [this]
    simp

/-- C86 (divergence).  Comparing two histograms with the same number of bins by `kl_divergence` is finite and never
negative, although the arrays it compares do not add up to 1 after replacing zeros; equal shares give 0, and below 10¹⁰
values 0 means equal shares. -/
theorem C86_kl (d e : Dist) (hl : d.hist.length = e.hist.length) (hd : d.hist.sum ≠ 0) (he : e.hist.sum ≠ 0) :
    ∃ v, Metrics.compare .kl d e = some (some v) ∧ 0 ≤ v ∧ ((∀ i < d.hist.length, share d.hist i = share e.hist i) → v = 0) ∧
      (d.hist.sum < 10 ^ 10 → e.hist.sum < 10 ^ 10 → v = 0 → ∀ i < d.hist.length, share d.hist i = share e.hist i) := by
  rw [compare_norm _ hl hd he]
  have hlen : ((shares d.hist).map smooth).length = ((shares e.hist).map smooth).length := by
    rw [List.length_map, List.length_map, shares_length, shares_length, hl]
  obtain ⟨h1, h2⟩ := total_kl _ _ hlen
  cases ht : total (List.zipWith klTerm ((shares d.hist).map smooth) ((shares e.hist).map smooth)) with
  | none =>
    obtain ⟨i, x, y, hx, hy, hn⟩ := h1.mp ht
    have key : ∀ (h : List ℕ) z, ((shares h).map smooth)[i]? = some z → 0 < z := by
      intro h z hz
      obtain ⟨w, hw, rfl⟩ := List.mem_map.mp (List.mem_of_getElem? hz)
      exact smooth_pos (shares_bounds hw).1
    rw [klTerm_pos (key _ _ hx) (key _ _ hy)] at hn
    cases hn
  | some v =>
    obtain ⟨h3, h4⟩ := h2 v ht
    refine ⟨v, by simp only [Metric.kl, kl]; rw [ht], h3, ?_, ?_⟩
    · intro h
      rw [h4, map_eq_iff hl]
      intro i hi
      rw [h i hi]
    · intro hd' he' h0 i hi
      exact smooth_inj hd' he' i i ((map_eq_iff hl).mp (h4.mp h0) i hi)

/-- C86 (divergence of counts).  Without normalization the replacement of zeros has no effect: the result is infinite
exactly if some bin is occupied in the first histogram and empty in the second; otherwise it is never negative, and zero
exactly for equal histograms. -/
theorem C86_kl_counts (d e : Dist) (hl : d.hist.length = e.hist.length) :
    (Metrics.compare .kl d e false = some none ↔ ∃ i < d.hist.length, d.hist.getD i 0 ≠ 0 ∧ e.hist.getD i 0 = 0) ∧
    ∀ v, Metrics.compare .kl d e false = some (some v) → 0 ≤ v ∧ (v = 0 ↔ d.hist = e.hist) := by
  have hc : Metrics.compare .kl d e false = some (total (List.zipWith klTerm (d.hist.map (fun (x : ℕ) => (x : ℝ)))
      (e.hist.map (fun (x : ℕ) => (x : ℝ))))) := by
    unfold Metrics.compare
    rw [if_pos hl, if_neg (by simp)]
    simp only [Metric.kl, klInt, List.zipWith_map]
  obtain ⟨h1, h2⟩ := total_kl (d.hist.map (fun (x : ℕ) => (x : ℝ))) (e.hist.map (fun (x : ℕ) => (x : ℝ))) (by simp [hl])
  rw [hc, Option.some.injEq, h1]
  refine ⟨⟨?_, ?_⟩, ?_⟩
  · rintro ⟨i, x, y, hx, hy, hn⟩
    rw [List.getElem?_map, Option.map_eq_some_iff] at hx hy
    obtain ⟨a, ha, rfl⟩ := hx
    obtain ⟨b, hb, rfl⟩ := hy
    refine ⟨i, (List.getElem?_eq_some_iff.mp ha).1, ?_⟩
    rw [List.getD_eq_getElem?_getD, List.getD_eq_getElem?_getD, ha, hb]
    show a ≠ 0 ∧ b = 0
    unfold klTerm at hn
    by_cases hp : (0 : ℝ) < a ∧ (0 : ℝ) < b
    · rw [if_pos hp] at hn; cases hn
    · rw [if_neg hp] at hn
      have ha' : a ≠ 0 := by
        rintro rfl
        rw [if_pos ⟨by simp, by positivity⟩] at hn; cases hn
      refine ⟨ha', ?_⟩
      by_contra hb'
      exact hp ⟨by exact_mod_cast Nat.pos_of_ne_zero ha', by exact_mod_cast Nat.pos_of_ne_zero hb'⟩
  · rintro ⟨i, hi, ha, hb⟩
    refine ⟨i, (d.hist.getD i 0 : ℝ), (e.hist.getD i 0 : ℝ), ?_, ?_, ?_⟩
    · rw [List.getElem?_map, List.getD_eq_getElem?_getD, List.getElem?_eq_getElem hi]; rfl
    · rw [List.getElem?_map, List.getD_eq_getElem?_getD, List.getElem?_eq_getElem (by omega)]; rfl
    · rw [hb]
      unfold klTerm
      rw [if_neg (by simp), if_neg (by rintro ⟨h, _⟩; exact ha (by exact_mod_cast h))]
  · intro v hv
    rw [Option.some.injEq] at hv
    obtain ⟨h3, h4⟩ := h2 v hv
    refine ⟨h3, h4.trans ⟨fun h => ?_, fun h => by rw [h]⟩⟩
    exact List.map_injective_iff.mpr (fun a b h => by exact_mod_cast h) h

/-- C86 (cross entropy).  `cross_entropy` of two histograms is finite exactly if the second has no empty bin; then, among
all histograms without empty bins, the first one itself has the smallest. -/
theorem C86_cross_entropy (d e : Dist) (hl : d.hist.length = e.hist.length) (hd : d.hist.sum ≠ 0) (he : e.hist.sum ≠ 0) :
    ((∃ v, Metrics.compare .crossEntropy d e = some (some v)) ↔ ∀ c ∈ e.hist, c ≠ 0) ∧
    ∀ v w, (∀ c ∈ d.hist, c ≠ 0) → Metrics.compare .crossEntropy d e = some (some v) →
      Metrics.compare .crossEntropy d d = some (some w) →
      w ≤ v ∧ (w = v ↔ ∀ i < d.hist.length, share d.hist i = share e.hist i) := by
  have hpos : ∀ h : List ℕ, h.sum ≠ 0 → ((∀ y ∈ shares h, 0 < y) ↔ ∀ c ∈ h, c ≠ 0) := by
    intro h hs
    have hs' : (0 : ℚ) < (h.sum : ℚ) := by exact_mod_cast Nat.pos_of_ne_zero hs
    constructor
    · intro hy c hc h0
      obtain ⟨i, hi, rfl⟩ := List.mem_iff_getElem.mp hc
      have := hy _ (List.mem_of_getElem? (shares_get h i hi))
      unfold share at this
      rw [List.getD_eq_getElem?_getD, List.getElem?_eq_getElem hi, Option.getD_some, h0] at this
      simp at this
    · intro hc y hy
      unfold shares at hy
      obtain ⟨i, hi, rfl⟩ := List.mem_map.mp hy
      rw [List.mem_range] at hi
      have : 0 < share h i := by
        unfold share
        rw [List.getD_eq_getElem?_getD, List.getElem?_eq_getElem hi, Option.getD_some]
        refine div_pos ?_ hs'
        exact_mod_cast Nat.pos_of_ne_zero (hc _ (List.getElem_mem hi))
      exact_mod_cast this
  have hce : ∀ e : Dist, d.hist.length = e.hist.length → e.hist.sum ≠ 0 → ∀ v,
      (Metrics.compare .crossEntropy d e = some (some v) ↔ (∀ c ∈ e.hist, c ≠ 0) ∧
        -(List.zipWith (fun a b => a * Real.log b) (shares d.hist) (shares e.hist)).sum = v) := by
    intro e hl he v
    rw [compare_norm _ hl hd he, Option.some.injEq]
    simp only [Metric.crossEntropy, crossEntropy]
    rw [← hpos _ he]
    by_cases hc : ∀ y ∈ shares e.hist, 0 < y
    · rw [if_pos hc, Option.some.injEq]
      exact ⟨fun h => ⟨hc, h⟩, fun h => h.2⟩
    · rw [if_neg hc]
      exact ⟨fun h => (by cases h), fun h => absurd h.1 hc⟩
  refine ⟨⟨?_, ?_⟩, ?_⟩
  · rintro ⟨v, hv⟩
    exact ((hce e hl he v).mp hv).1
  · intro h
    exact ⟨_, (hce e hl he _).mpr ⟨h, rfl⟩⟩
  · intro v w hdp hv hw
    obtain ⟨he1, rfl⟩ := (hce e hl he v).mp hv
    obtain ⟨-, rfl⟩ := (hce d rfl hd w).mp hw
    have hlen : (shares d.hist).length = (shares e.hist).length := by rw [shares_length, shares_length, hl]
    have ht := total_pos _ _ hlen ((hpos _ hd).mpr hdp) ((hpos _ he).mpr he1)
    obtain ⟨-, h2⟩ := total_kl _ _ hlen
    obtain ⟨h3, h4⟩ := h2 _ ht
    rw [shares_sum hd, shares_sum he] at h3 h4
    have := map_eq_iff (f := id) hl
    rw [List.map_id, List.map_id] at this
    refine ⟨by linarith, ?_⟩
    have h5 : (∀ i < d.hist.length, share d.hist i = share e.hist i) ↔ shares d.hist = shares e.hist := by
      rw [this]; simp
    rw [h5, ← h4]
    constructor <;> intro h <;> linarith

namespace C86Case

/-- Four values in two bins, three in the lower, against two and two. -/
def d : Dist := Dist.build [0, 1, 2, 8] 2
def e : Dist := Dist.build [0, 1, 7, 8] 2

/-- The hypotheses of the claims about comparisons. -/
example : d.hist.length = e.hist.length ∧ d.hist.sum ≠ 0 ∧ e.hist.sum ≠ 0 ∧ d.hist.sum < 10 ^ 10 ∧
    e.hist.sum < 10 ^ 10 ∧ (∀ c ∈ d.hist, c ≠ 0) ∧ (∀ c ∈ e.hist, c ≠ 0) := by decide +kernel

/-- They differ, so their divergence is positive. -/
example : ∃ v, Metrics.compare .kl d e = some (some v) ∧ 0 < v := by
  obtain ⟨v, h1, h2, -, h4⟩ := C86_kl d e (by decide +kernel) (by decide +kernel) (by decide +kernel)
  refine ⟨v, h1, lt_of_le_of_ne h2 (fun h0 => ?_)⟩
  have := h4 (by decide +kernel) (by decide +kernel) h0.symm 0 (by decide +kernel)
  revert this
  decide +kernel

/-- An empty bin: the divergence of the counts is infinite. -/
example : Metrics.compare .kl (Dist.build [0, 1, 2, 8] 3) (Dist.build [0, 1, 7, 8] 3) false ≠ some none ∧
    Metrics.compare .kl (Dist.build [0, 4, 8] 3) (Dist.build [0, 1, 8] 3) false = some none := by
  constructor
  · rw [Ne, (C86_kl_counts _ _ (by decide +kernel)).1]
    decide +kernel
  · rw [(C86_kl_counts _ _ (by decide +kernel)).1]
    decide +kernel

end C86Case

end Verif
