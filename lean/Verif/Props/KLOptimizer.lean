import Verif.Props.Metrics

/-!
# C88: the threshold the divergence search of `KLDivergenceOptimizer` picks
-/

namespace Verif

open Spec

namespace Spec

/-- The counts of the bins that share a group of `k` bins with bin `j`, among the first `i` bins. -/
def group (h : List ℕ) (k i j : ℕ) : List ℕ := ((h.take i).drop (j / k * k)).take k

/-- Some group of `k` bins among the first `i` bins holds no value. -/
def HasGap (h : List ℕ) (k i : ℕ) : Prop := ∃ j < i, ∀ c ∈ group h k i j, c = 0

/-- The share of bin `j` when the first `i` bins are kept and everything beyond is counted in the last of them. -/
def keptShare (h : List ℕ) (i j : ℕ) : ℚ :=
  (if j + 1 = i then ((h.drop j).sum : ℚ) else (h.getD j 0 : ℚ)) / (h.sum : ℚ)

/-- The share of bin `j` when every occupied bin holds the mean over the occupied bins of its group. -/
def meanShare (h : List ℕ) (k i j : ℕ) : ℚ :=
  (if h.getD j 0 = 0 then 0
    else ((group h k i j).sum : ℚ) / ((group h k i j).countP (fun c => decide (c ≠ 0)) : ℚ)) / ((h.take i).sum : ℚ)

/-- Zero shares count as `10⁻¹⁰`. -/
noncomputable def notZero (x : ℝ) : ℝ := if x = 0 then 1 / 10 ^ 10 else x

/-- The divergence of keeping the first `i` bins. -/
noncomputable def divergence (h : List ℕ) (k i : ℕ) : ℝ :=
  ((List.range i).map (fun j => notZero (keptShare h i j) * Real.log (notZero (keptShare h i j) / notZero (meanShare h k i j))
    - notZero (keptShare h i j) + notZero (meanShare h k i j))).sum

end Spec

namespace Optim

theorem argmin_spec {α : Type} [LinearOrder α] (l : List (Option α)) (m : ℕ) (h : argmin l = some m) :
    (none ∈ l → l[m]? = some none ∧ ∀ m' < m, l[m']? ≠ some none) ∧
    (none ∉ l → ∃ x, l[m]? = some (some x) ∧
      (∀ (m' : ℕ) (y : α), l[m']? = some (some y) → x ≤ y ∧ (m' < m → x < y))) := by
  unfold argmin at h
  cases hf : l.findIdx? (fun x => decide (x = none)) with
  | some i =>
    rw [hf] at h
    simp only [Option.some.injEq] at h
    subst h
    rw [List.findIdx?_eq_some_iff_getElem] at hf
    obtain ⟨hi, h1, h2⟩ := hf
    rw [decide_eq_true_eq] at h1
    refine ⟨fun _ => ⟨by rw [List.getElem?_eq_getElem hi, h1], fun m' hm' hc => ?_⟩, fun hn => ?_⟩
    · have := h2 m' hm'
      rw [List.getElem?_eq_getElem (by omega), Option.some.injEq] at hc
      rw [hc] at this; simp at this
    · exact absurd (h1 ▸ List.getElem_mem hi) hn
  | none =>
    rw [hf] at h
    simp only at h
    rw [List.findIdx?_eq_none_iff] at hf
    have hno : none ∉ l := fun hc => by have := hf _ hc; simp at this
    refine ⟨fun hc => absurd hc hno, fun _ => ?_⟩
    cases hm : (l.filterMap id).min? with
    | none => rw [hm] at h; cases h
    | some x =>
      rw [hm] at h
      simp only at h
      rw [List.findIdx?_eq_some_iff_getElem] at h
      obtain ⟨hi, h1, h2⟩ := h
      rw [decide_eq_true_eq] at h1
      refine ⟨x, by rw [List.getElem?_eq_getElem hi, h1], fun m' y hy => ?_⟩
      have hmem : y ∈ l.filterMap id := List.mem_filterMap.mpr ⟨some y, List.mem_of_getElem? hy, rfl⟩
      have hle := (List.min?_eq_some_iff.mp hm).2 y hmem
      refine ⟨hle, fun hlt => lt_of_le_of_ne hle ?_⟩
      rintro rfl
      have := h2 m' hlt
      obtain ⟨h3, h4⟩ := List.getElem?_eq_some_iff.mp hy
      rw [h4] at this; simp at this

theorem mapM_id_some {β : Type} (v : List β) : (v.map some).mapM id = some v := by
  induction v with
  | nil => rfl
  | cons a l ih => rw [List.map_cons, List.mapM_cons, ih]; rfl

theorem mapM_id_none {β : Type} (l : List (Option β)) (h : none ∈ l) : l.mapM id = none := by
  induction l with
  | nil => simp at h
  | cons a l ih =>
    rw [List.mapM_cons]
    cases a with
    | none => rfl
    | some a =>
      rw [ih (by simpa using h)]
      rfl

theorem list_of_get {β : Type} (l : List β) (n : ℕ) (f : ℕ → β) (hl : l.length = n) (h : ∀ j < n, l[j]? = some (f j)) :
    l = (List.range n).map f := by
  apply List.ext_getElem?
  intro j
  by_cases hj : j < n
  · rw [h j hj]; simp [hj]
  · rw [List.getElem?_eq_none (by omega), List.getElem?_eq_none (by simp; omega)]

theorem range_sum (h : List ℕ) (n : ℕ) (hn : n = h.length) :
    ((List.range n).map (fun j => (h.getD j 0 : ℚ))).sum = (h.sum : ℚ) := by
  subst hn
  induction h with
  | nil => simp
  | cons a l ih =>
    rw [List.length_cons, List.range_succ_eq_map, List.map_cons, List.map_map, List.sum_cons]
    have : ((List.range l.length).map ((fun j => ((a :: l).getD j 0 : ℚ)) ∘ Nat.succ)).sum = (l.sum : ℚ) := by
      rw [← ih]; rfl
    rw [this]
    simp

/-- The reference array, normalized. -/
theorem reference_eq (h : List ℕ) (i : ℕ) (hi : 1 ≤ i) (hl : i ≤ h.length) (hs : h.sum ≠ 0) :
    normalize (reference h i) = ((List.range i).map (keptShare h i)).map some := by
  obtain ⟨r, hr⟩ : ∃ r, r = (h.take i).modify (i - 1) (fun x => x + (h.drop i).sum) := ⟨_, rfl⟩
  have hlr : r.length = i := by rw [hr]; simp; omega
  have hget : ∀ j < i, (r[j]? = some (if j + 1 = i then (h.drop j).sum else h.getD j 0)) := by
    intro j hj
    rw [hr, List.getElem?_modify, List.getElem?_take_of_lt hj]
    have hj' : j < h.length := by omega
    rw [List.getElem?_eq_getElem hj', List.getD_eq_getElem?_getD, List.getElem?_eq_getElem hj']
    show some (if i - 1 = j then h[j] + (h.drop i).sum else h[j]) = some (if j + 1 = i then (h.drop j).sum else h[j])
    by_cases hc : j + 1 = i
    · rw [if_pos (by omega : i - 1 = j), if_pos hc, List.drop_eq_getElem_cons hj', List.sum_cons, hc]
    · rw [if_neg (by omega : ¬ i - 1 = j), if_neg hc]
  have hsum : r.sum = h.sum := by
    have e : r = h.take (i - 1) ++ [(h.drop (i - 1)).sum] := by
      apply List.ext_getElem?
      intro j
      by_cases hj : j < i
      · rw [hget j hj]
        by_cases hc : j + 1 = i
        · rw [if_pos hc, List.getElem?_append_right (by simp; omega), List.length_take, min_eq_left (by omega),
            show j - (i - 1) = 0 by omega, show i - 1 = j by omega]
          rfl
        · rw [if_neg hc, List.getElem?_append_left (by simp; omega), List.getElem?_take_of_lt (by omega),
            List.getD_eq_getElem?_getD, List.getElem?_eq_getElem (by omega)]
          rfl
      · rw [List.getElem?_eq_none (by omega), List.getElem?_eq_none (by simp; omega)]
    rw [e, List.sum_append, List.sum_singleton, ← List.sum_append, List.take_append_drop]
  have href : reference h i = (r.map (fun (x : ℕ) => (x : ℚ))).map some := by
    unfold reference; rw [← hr, List.map_map]; rfl
  have hcast : (r.map (fun (x : ℕ) => (x : ℚ))).sum = (h.sum : ℚ) := by
    rw [← hsum]; induction r with
    | nil => simp
    | cons a l ih => simp
  unfold normalize
  rw [href, mapM_id_some]
  simp only
  rw [hcast, if_neg (by exact_mod_cast hs), List.map_map, List.map_map]
  apply list_of_get
  · simp [hlr]
  · intro j hj
    rw [List.getElem?_map, hget j hj]
    simp only [Option.map_some, Option.some.injEq, keptShare, Function.comp]
    split_ifs <;> simp

/-- The candidate array: NaN in the groups without values. -/
theorem reduce_eq (bins target : ℕ) (ht : 1 ≤ target) (h : List ℕ) (i : ℕ) (hi : i ≤ bins) (hl : i ≤ h.length) :
    reduce bins target (h.take i) = some ((List.range i).map (fun j =>
      if (group h (groupSize bins target) i j).countP (fun c => decide (c ≠ 0)) = 0 then none
      else some (if h.getD j 0 = 0 then 0 else ((group h (groupSize bins target) i j).sum : ℚ) /
        ((group h (groupSize bins target) i j).countP (fun c => decide (c ≠ 0)) : ℚ)))) := by
  have hlen : (h.take i).length = i := by simp; omega
  obtain ⟨r, hr, hrl, hg, -⟩ := C76_kl_reduce bins target ht (h.take i) (by omega)
  rw [hr, Option.some.injEq]
  apply list_of_get
  · omega
  · intro j hj
    have hx : (h.take i)[j]? = some (h.getD j 0) := by
      rw [List.getElem?_take_of_lt hj, List.getD_eq_getElem?_getD, List.getElem?_eq_getElem (by omega)]; rfl
    exact hg _ j _ rfl hx _ rfl

theorem count_zero_iff (g : List ℕ) : g.countP (fun c => decide (c ≠ 0)) = 0 ↔ ∀ c ∈ g, c = 0 := by
  rw [List.countP_eq_zero]; simp

theorem total_somes (l : List ℝ) : Metrics.total (l.map some) = some l.sum := by
  unfold Metrics.total; rw [mapM_id_some]; rfl

/-- The divergence computed for the first `i` bins: NaN exactly with a gap. -/
theorem klDiv_eq (bins target : ℕ) (ht : 1 ≤ target) (h : List ℕ) (i : ℕ) (h1 : 1 ≤ i) (hi : i ≤ bins) (hl : i ≤ h.length)
    (cand : List (Option ℚ)) (hc : reduce bins target (h.take i) = some cand) :
    (HasGap h (groupSize bins target) i → Metrics.klDiv (normalize (reference h i)) (normalize cand) = none) ∧
    (¬ HasGap h (groupSize bins target) i → Metrics.klDiv (normalize (reference h i)) (normalize cand) =
      some (divergence h (groupSize bins target) i)) := by
  obtain ⟨k, hk⟩ : ∃ k, k = groupSize bins target := ⟨_, rfl⟩
  have hce := reduce_eq bins target ht h i hi hl
  have hsumr := C76_kl_reduce bins target ht (h.take i) (by simp; omega)
  rw [hc, Option.some.injEq, ← hk] at hce
  rw [← hk]
  constructor
  · rintro ⟨j, hj, hz⟩
    have hmem : none ∈ cand := by
      rw [hce]
      refine List.mem_map.mpr ⟨j, List.mem_range.mpr hj, ?_⟩
      rw [if_pos ((count_zero_iff _).mpr hz)]
    have hn : normalize cand = cand.map (fun _ => none) := by
      unfold normalize; rw [mapM_id_none _ hmem]
    unfold Metrics.klDiv
    rw [hn]
    have : (cand.map (fun _ => (none : Option ℚ))).mapM id = none := mapM_id_none _ (List.mem_map.mpr ⟨_, hmem, rfl⟩)
    rw [this]
    cases (normalize (reference h i)).mapM id <;> rfl
  · intro hgap
    have hnz : ∀ j < i, (group h k i j).countP (fun c => decide (c ≠ 0)) ≠ 0 := by
      intro j hj h0
      exact hgap ⟨j, hj, (count_zero_iff _).mp h0⟩
    have hce' : cand = ((List.range i).map (fun j => if h.getD j 0 = 0 then (0 : ℚ) else
        ((group h k i j).sum : ℚ) / ((group h k i j).countP (fun c => decide (c ≠ 0)) : ℚ))).map some := by
      rw [hce, List.map_map]
      apply List.map_congr_left
      intro j hj
      rw [if_neg (hnz j (List.mem_range.mp hj))]
      rfl
    obtain ⟨r, hr, -, -, hsum⟩ := hsumr
    rw [hc, Option.some.injEq] at hr
    subst hr
    have hcs := hsum _ hce'
    -- some bin is occupied
    have hpos : (h.take i).sum ≠ 0 := by
      intro h0
      rw [List.sum_eq_zero_iff] at h0
      apply hgap
      refine ⟨0, by omega, fun c hc => h0 c ?_⟩
      unfold group at hc
      exact List.mem_of_mem_drop (List.mem_of_mem_take hc)
    have hpos' : h.sum ≠ 0 := by
      intro h0
      rw [List.sum_eq_zero_iff] at h0
      exact hpos (List.sum_eq_zero_iff.mpr (fun c hc => h0 c (List.mem_of_mem_take hc)))
    have hcn : normalize cand = ((List.range i).map (meanShare h k i)).map some := by
      unfold normalize
      rw [hce', mapM_id_some]
      simp only
      rw [hcs, if_neg (by exact_mod_cast hpos), List.map_map, List.map_map]
      apply List.map_congr_left
      intro j _
      rfl
    unfold Metrics.klDiv
    rw [reference_eq h i h1 hl hpos', hcn, mapM_id_some, mapM_id_some]
    simp only [Option.bind_eq_bind, Option.bind_some]
    unfold Metrics.kl
    have hz : ∀ (f g : ℕ → ℚ) (l : List ℕ), List.zipWith Metrics.klTerm
        (((l.map f).map (fun (x : ℚ) => (x : ℝ))).map Metrics.smooth)
        (((l.map g).map (fun (x : ℚ) => (x : ℝ))).map Metrics.smooth) =
        l.map (fun j => Metrics.klTerm (Metrics.smooth (f j)) (Metrics.smooth (g j))) := by
      intro f g l
      induction l with
      | nil => rfl
      | cons a l ih => simp only [List.map_cons, List.zipWith_cons_cons, ih]
    rw [hz]
    have h0k : ∀ j, (0 : ℝ) ≤ ((keptShare h i j : ℚ) : ℝ) := by
      intro j
      have : (0 : ℚ) ≤ keptShare h i j := by
        unfold keptShare
        split_ifs <;> positivity
      exact_mod_cast this
    have h0m : ∀ j, (0 : ℝ) ≤ ((meanShare h k i j : ℚ) : ℝ) := by
      intro j
      have : (0 : ℚ) ≤ meanShare h k i j := by
        unfold meanShare
        split_ifs <;> positivity
      exact_mod_cast this
    have : (List.range i).map (fun j => Metrics.klTerm (Metrics.smooth (keptShare h i j)) (Metrics.smooth (meanShare h k i j)))
        = ((List.range i).map (fun j => notZero (keptShare h i j) *
            Real.log (notZero (keptShare h i j) / notZero (meanShare h k i j)) - notZero (keptShare h i j) +
            notZero (meanShare h k i j))).map some := by
      rw [List.map_map]
      apply List.map_congr_left
      intro j _
      rw [Metrics.klTerm_pos (Metrics.smooth_pos (h0k j)) (Metrics.smooth_pos (h0m j))]
      rfl
    rw [this, total_somes]
    rfl

theorem mapM_get {α β : Type} (f : α → Option β) (l : List α) (r : List β) (h : l.mapM f = some r) :
    r.length = l.length ∧ ∀ (i : ℕ) (x : α), l[i]? = some x → ∃ y, f x = some y ∧ r[i]? = some y := by
  induction l generalizing r with
  | nil =>
    have : r = [] := by simpa using h.symm
    subst this; simp
  | cons a l ih =>
    rw [List.mapM_cons] at h
    cases ha : f a with
    | none => rw [ha] at h; cases h
    | some b =>
      rw [ha] at h
      cases hl : l.mapM f with
      | none => rw [hl] at h; cases h
      | some s =>
        rw [hl] at h
        have : b :: s = r := by simpa using h
        subst this
        obtain ⟨h1, h2⟩ := ih s hl
        refine ⟨by simp [h1], fun i x hx => ?_⟩
        cases i with
        | zero =>
          simp only [List.getElem?_cons_zero, Option.some.injEq] at hx
          subst hx
          exact ⟨b, ha, rfl⟩
        | succ i => exact h2 i x hx

end Optim

open Optim

/-- C88 (threshold).  With its real divergence, `KLDivergenceOptimizer` slices the re-binned distribution at `(m + ½)` bin
widths, where `m` is: the first candidate with a group of empty bins, if any candidate has one (its divergence is NaN);
otherwise the first candidate of least divergence. -/
theorem C88_threshold (bins target : ℕ) (ht : 1 ≤ target) (htb : target < bins) (d : Dist) (h : List ℕ)
    (hh : h = (Dist.build d.sorted bins).hist) (k : ℕ) (hk : k = ⌈(bins : ℚ) / (target : ℚ)⌉.toNat) :
    ∃ m : ℕ, m < bins - target ∧
      Metrics.klOptimize bins target d = (Dist.build d.sorted bins).getSlice none
        (some (((m : ℚ) + 1 / 2) * (((Dist.outer d.sorted).2 - (Dist.outer d.sorted).1) / bins))) ∧
      ((∃ m' < bins - target, HasGap h k (target + m')) →
        HasGap h k (target + m) ∧ ∀ m' < m, ¬ HasGap h k (target + m')) ∧
      ((∀ m' < bins - target, ¬ HasGap h k (target + m')) →
        ∀ m' < bins - target, divergence h k (target + m) ≤ divergence h k (target + m') ∧
          (m' < m → divergence h k (target + m) < divergence h k (target + m'))) := by
  have hlenH : h.length = bins := by
    rw [hh]
    show (Dist.counts d.sorted (Dist.linEdges _ _ bins)).length = bins
    simp [Dist.counts, Dist.linEdges_length]
  obtain ⟨F, hF⟩ : ∃ F : ℕ → Option (Option ℝ), F = (fun i => do
    let cand ← reduce bins target (h.take i)
    if cand.length = (reference h i).length then
      some (Metrics.klDiv (normalize (reference h i)) (normalize cand))
    else none) := ⟨_, rfl⟩
  have hval : ∀ i, target ≤ i → i < bins → ∃ y, F i = some y ∧ (HasGap h k i → y = none) ∧
      (¬ HasGap h k i → y = some (divergence h k i)) := by
    intro i h1 h2
    obtain ⟨cand, hce, hcl⟩ : ∃ cand, reduce bins target (h.take i) = some cand ∧ cand.length = i :=
      ⟨_, reduce_eq bins target ht h i (by omega) (by omega), by simp⟩
    obtain ⟨g1, g2⟩ := klDiv_eq bins target ht h i (by omega) (by omega) (by omega) _ hce
    have hlen : (reference h i).length = i := by unfold reference; simp; omega
    refine ⟨Metrics.klDiv (normalize (reference h i)) (normalize cand), ?_, fun hg => ?_, fun hg => ?_⟩
    · rw [hF]
      simp only [Option.bind_eq_bind]
      rw [hce, Option.bind_some, if_pos (by rw [hlen, hcl])]
    · exact g1 (by rw [hk] at hg; exact hg)
    · rw [hk] at hg ⊢
      exact g2 hg
  obtain ⟨r, hr, hrl⟩ := mapM_of_forall F ((List.range bins).drop target) (by
    intro i hi
    obtain ⟨n, hn⟩ := List.getElem?_of_mem hi
    rw [List.getElem?_drop] at hn
    obtain ⟨hlt, he⟩ := List.getElem?_eq_some_iff.mp hn
    rw [List.getElem_range] at he
    rw [List.length_range] at hlt
    obtain ⟨y, hy, -⟩ := hval i (by omega) (by omega)
    exact ⟨y, hy⟩)
  have hrl' : r.length = bins - target := by rw [hrl]; simp
  obtain ⟨-, hget⟩ := mapM_get F _ _ hr
  have hr' : ∀ m' < bins - target, (HasGap h k (target + m') → r[m']? = some none) ∧
      (¬ HasGap h k (target + m') → r[m']? = some (some (divergence h k (target + m')))) := by
    intro m' hm'
    have hx : ((List.range bins).drop target)[m']? = some (target + m') := by
      rw [List.getElem?_drop, List.getElem?_range (by omega)]
    obtain ⟨y, h1, h2⟩ := hget m' _ hx
    obtain ⟨y', h3, h4, h5⟩ := hval (target + m') (by omega) (by omega)
    rw [h1, Option.some.injEq] at h3
    subst h3
    exact ⟨fun hg => by rw [h2, h4 hg], fun hg => by rw [h2, h5 hg]⟩
  obtain ⟨m, hm, hml⟩ := argmin_lt r (by intro h0; rw [h0] at hrl'; simp at hrl'; omega)
  obtain ⟨a1, a2⟩ := argmin_spec r m hm
  refine ⟨m, by omega, ?_, ?_, ?_⟩
  · unfold Metrics.klOptimize klTrim
    simp only
    rw [← hh]
    have : ((List.range bins).drop target).mapM (fun i => do
        let cand ← reduce bins target (h.take i)
        if cand.length = (reference h i).length then
          some (Metrics.klDiv (normalize (reference h i)) (normalize cand))
        else none) = some r := by rw [← hr, hF]
    rw [this]
    simp only [Option.bind_eq_bind, Option.bind_some]
    rw [hm, binSize_build _ _ (by omega)]
    simp only [Option.bind_some]
  · rintro ⟨m', hm', hg⟩
    obtain ⟨b1, b2⟩ := a1 (List.mem_of_getElem? ((hr' m' hm').1 hg))
    constructor
    · by_contra hc
      have := (hr' m (by omega)).2 hc
      rw [this] at b1; simp at b1
    · intro n hn hc
      exact b2 n hn ((hr' n (by omega)).1 hc)
  · intro hno m' hm'
    have hnone : none ∉ r := by
      intro hc
      obtain ⟨n, hn⟩ := List.getElem?_of_mem hc
      have hlt : n < bins - target := by rw [← hrl']; exact (List.getElem?_eq_some_iff.mp hn).1
      have := (hr' n hlt).2 (hno n hlt)
      rw [this] at hn; simp at hn
    obtain ⟨x, b1, b2⟩ := a2 hnone
    have e := (hr' m (by omega)).2 (hno m (by omega))
    rw [b1, Option.some.injEq, Option.some.injEq] at e
    rw [← e]
    exact b2 m' _ ((hr' m' hm').2 (hno m' hm'))

/-- C88 (gap).  If some `k` neighbouring bins of a group among the first `target` hold no value - with 2048 and 128, one of
the lowest eight 128ths of the range - the search stops at its first candidate, and for data around or above zero
everything above one and a half of 2048 bins is discarded: with both signs, all positive values but the smallest. -/
theorem C88_gap (bins target : ℕ) (ht : 1 ≤ target) (htb : target < bins) (hb : 3 ≤ bins) (a : List ℚ) (n : ℕ) (lo M : ℚ)
    (hlo : lo ∈ a) (hM : M ∈ a) (hlo0 : lo ≤ 0) (hM0 : 0 < M) (hall : ∀ x ∈ a, lo ≤ x ∧ x ≤ M) (k : ℕ)
    (hk : k = ⌈(bins : ℚ) / (target : ℚ)⌉.toNat) (g : ℕ) (hg : (g + 1) * k ≤ target) (w : ℚ) (hw : w = (M - lo) / bins)
    (hempty : ∀ x ∈ a, ¬ (lo + w * (g * k) ≤ x ∧ x < lo + w * ((g + 1) * k))) :
    ∃ d', Metrics.klOptimize bins target (Dist.build a n) = some d' ∧ ∀ x ∈ d'.sorted, x ∈ a ∧ x ≤ 3 / 2 * w := by
  obtain ⟨s, hs⟩ : ∃ s, s = (Dist.build a n).sorted := ⟨_, rfl⟩
  have hperm : s.Perm a := by rw [hs]; exact Dist.sorted_perm a
  have hne : s ≠ [] := by intro h; rw [h] at hperm; have := hperm.mem_iff.mpr hlo; simp at this
  have hlt : lo < M := by linarith
  have ho : Dist.outer s = (lo, M) := by
    have e1 : s.min? = some lo := by
      rw [List.min?_eq_some_iff]
      exact ⟨hperm.mem_iff.mpr hlo, fun x hx => (hall x (hperm.mem_iff.mp hx)).1⟩
    have e2 : s.max? = some M := by
      rw [List.max?_eq_some_iff]
      exact ⟨hperm.mem_iff.mpr hM, fun x hx => (hall x (hperm.mem_iff.mp hx)).2⟩
    unfold Dist.outer
    rw [e1, e2]
    simp [hlt.ne]
  have hbq : (0 : ℚ) < bins := by exact_mod_cast (by omega : 0 < bins)
  have hw0 : 0 < w := by rw [hw]; apply div_pos <;> linarith
  obtain ⟨d1, hd1⟩ : ∃ d1, d1 = Dist.build s bins := ⟨_, rfl⟩
  have hinv : d1.Inv := by rw [hd1]; exact Dist.inv_build s bins (by omega)
  have hE : d1.edges = Dist.linEdges lo M bins := by
    rw [hd1]; show Dist.linEdges (Dist.outer s).1 (Dist.outer s).2 bins = _; rw [ho]
  have hedge : ∀ i ≤ bins, d1.edges.getD i 0 = lo + w * i := by
    intro i hi
    rw [hE, Dist.linEdges_getD _ _ _ _ hi, hw]
    ring
  have hlenH : d1.hist.length = bins := by
    rw [hd1]
    show (Dist.counts s (Dist.linEdges _ _ bins)).length = bins
    simp [Dist.counts, Dist.linEdges_length]
  have hkp : 0 < k := by rw [hk]; exact groupSize_pos bins target ht (by omega)
  have hgk : g * k + k ≤ target := by rw [Nat.add_mul, Nat.one_mul] at hg; exact hg
  -- the bins of the gap are empty
  have hbin : ∀ i, g * k ≤ i → i < g * k + k → d1.hist.getD i 0 = 0 := by
    intro i h1 h2
    have hib : i < bins := by omega
    have hH : d1.hist = Dist.counts s d1.edges := by rw [hd1]; rfl
    have hlenE : d1.edges.length = bins + 1 := by rw [hE]; exact Dist.linEdges_length _ _ _
    rw [hH]
    unfold Dist.counts
    rw [List.getD_eq_getElem?_getD, List.getElem?_map, List.getElem?_range (by omega)]
    simp only [Option.map_some, Option.getD_some]
    rw [List.countP_eq_zero]
    intro x hx
    rw [decide_eq_true_eq, hedge i (by omega), hedge (i + 1) (by omega)]
    rintro ⟨c1, c2⟩
    have c3 : x < lo + w * ((i + 1 : ℕ) : ℚ) := by
      rcases c2 with c2 | ⟨c2, -⟩
      · exact c2
      · rw [hlenE] at c2; omega
    apply hempty x (hperm.mem_iff.mp hx)
    have q1 : ((g : ℚ) * k) ≤ i := by exact_mod_cast h1
    have q2 : ((i + 1 : ℕ) : ℚ) ≤ ((g : ℚ) + 1) * k := by
      have : ((i + 1 : ℕ) : ℚ) ≤ ((g * k + k : ℕ) : ℚ) := by exact_mod_cast (by omega : i + 1 ≤ g * k + k)
      push_cast at this ⊢
      linarith
    constructor
    · have := mul_le_mul_of_nonneg_left q1 hw0.le; linarith
    · have := mul_le_mul_of_nonneg_left q2 hw0.le; linarith
  have hgap : HasGap d1.hist k target := by
    refine ⟨g * k, by omega, fun c hc => ?_⟩
    unfold group at hc
    rw [Nat.mul_div_cancel _ hkp] at hc
    obtain ⟨n', hn'⟩ := List.getElem?_of_mem hc
    have hn2 : n' < k := by
      by_contra hcon
      rw [List.getElem?_eq_none (by rw [List.length_take]; omega)] at hn'; cases hn'
    rw [List.getElem?_take_of_lt hn2, List.getElem?_drop, List.getElem?_take_of_lt (by omega)] at hn'
    have := hbin (g * k + n') (by omega) (by omega)
    rw [List.getD_eq_getElem?_getD, hn'] at this
    exact this
  obtain ⟨m, hm, heq, hfirst, -⟩ := C88_threshold bins target ht htb (Dist.build a n) _ rfl k hk
  rw [← hs, ← hd1, ho] at heq
  rw [← hs, ← hd1] at hfirst
  obtain ⟨-, h2⟩ := hfirst ⟨0, by omega, by rw [Nat.add_zero]; exact hgap⟩
  have hm0 : m = 0 := by
    by_contra hc
    exact h2 0 (by omega) (by rw [Nat.add_zero]; exact hgap)
  subst hm0
  simp only at heq
  rw [← hw] at heq
  have hmin : d1.getMin = some lo := by rw [hd1, (build_extremes s hne bins hb).1, ho]
  have hsz : d1.binSize = some w := by rw [hd1, binSize_build s bins (by omega), ho, hw]
  have hsort : d1.sorted.Perm a := by rw [hd1]; exact (Dist.sorted_perm s).trans hperm
  have hstop : lo ≤ (((0 : ℕ) : ℚ) + 1 / 2) * w := by push_cast; nlinarith
  unfold Dist.getSlice at heq
  simp only [hmin, hsz, Option.bind_eq_bind, Option.bind_some] at heq
  split_ifs at heq with hnar
  · refine ⟨_, heq, ?_⟩
    intro x hx
    have hx' : x ∈ d1.slice (some lo) (some ((((0 : ℕ) : ℚ) + 1 / 2) * w)) := (Dist.sorted_perm _).mem_iff.mp hx
    rw [Dist.slice_eq_filter d1 hinv.data _ _ hstop, List.mem_filter] at hx'
    obtain ⟨h1, h2⟩ := hx'
    rw [decide_eq_true_eq] at h2
    refine ⟨hsort.mem_iff.mp h1, ?_⟩
    have := h2.2
    push_cast at this
    linarith
  · rw [Dist.clone_eq d1 hinv lo _ hstop] at heq
    refine ⟨_, heq, ?_⟩
    intro x hx
    simp only [List.mem_filter, decide_eq_true_eq] at hx
    obtain ⟨h1, -, h3⟩ := hx
    refine ⟨hsort.mem_iff.mp h1, h3.trans ?_⟩
    unfold Dist.cloneHi
    rcases Dist.lastEdgeLe_spec d1.edges ((((0 : ℕ) : ℚ) + 1 / 2) * w) d1.hist.length with ⟨-, k2⟩ | ⟨k1, k2, -⟩
    · exact absurd (by rw [hedge 0 (by omega)]; push_cast; linarith) (k2 0 (by rw [hinv.len]; omega))
    · rw [hinv.len, hlenH] at k1
      rw [hlenH] at k2 ⊢
      rw [hedge _ (by omega)] at k2
      rw [hedge _ (by omega)]
      generalize Dist.lastEdgeLe d1.edges ((((0 : ℕ) : ℚ) + 1 / 2) * w) bins = e at *
      have : ((min (e + 1) bins : ℕ) : ℚ) ≤ (e : ℚ) + 1 := by exact_mod_cast min_le_left _ _
      have := mul_le_mul_of_nonneg_left this hw0.le
      push_cast at k2
      linarith

namespace C88Case

/-- Values around zero with nothing between -7.98 and -1: the default optimizer discards all positive values above
0.0118. -/
def data : List ℚ := [-8, -1, -1 / 2, 0, 1 / 2, 1, 8]

example : ∃ d', Metrics.klOptimize 2048 128 (Dist.build data) = some d' ∧ ∀ x ∈ d'.sorted, x ∈ data ∧ x ≤ 3 / 256 := by
  obtain ⟨d', h1, h2⟩ := C88_gap 2048 128 (by norm_num) (by norm_num) (by norm_num) data 512 (-8) 8 (by decide +kernel)
    (by decide +kernel) (by norm_num) (by norm_num) (by decide +kernel) 16 (by norm_num; rfl) 1 (by norm_num) (16 / 2048)
    (by norm_num) (by decide +kernel)
  exact ⟨d', h1, fun x hx => ⟨(h2 x hx).1, (h2 x hx).2.trans (by norm_num)⟩⟩

/-- Two occupied bins, one group each: no gap, so the smallest divergence decides. -/
example : ∀ m' < 4 - 2, ¬ HasGap [3, 0, 2, 1] 2 (2 + m') := by
  unfold HasGap
  decide

end C88Case

end Verif
