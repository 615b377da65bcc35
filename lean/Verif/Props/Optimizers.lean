import Verif.Model.Optimizers
import Verif.Props.Distribution

/-!
# C76: the calibration optimizers
-/

namespace Verif
open Spec Dist

namespace Optim

/-- The extremes a fresh distribution reports are the outer edges of its histogram. -/
theorem build_extremes (a : List ℚ) (ha : a ≠ []) (n : ℕ) (hn : 3 ≤ n) :
    (Dist.build a n).getMin = some (outer a).1 ∧ (Dist.build a n).getMax = some (outer a).2 := by
  obtain ⟨m, hm, m1, m2, m3⟩ := Dist.getMin_build a ha n (by omega) true
  obtain ⟨M, hM, M1, M2, M3⟩ := Dist.getMax_build a ha n (by omega) true
  have key : m = (Dist.outer a).1 ∧ M = (Dist.outer a).2 := by
    obtain ⟨b, t, rfl⟩ := List.exists_cons_of_ne_nil ha
    obtain ⟨lo, hlo⟩ : ∃ lo, (b :: t).min? = some lo := by simp [List.min?_cons]
    obtain ⟨hi, hhi⟩ : ∃ hi, (b :: t).max? = some hi := by simp [List.max?_cons]
    have k1 := (List.min?_eq_some_iff.mp hlo)
    have k2 := (List.max?_eq_some_iff.mp hhi)
    by_cases hc : lo = hi
    · have hconst : ∀ x ∈ b :: t, x = lo := fun x hx =>
        le_antisymm (by rw [hc]; exact k2.2 x hx) (k1.2 x hx)
      obtain ⟨q1, q2⟩ := Dist.hist_const _ ha n hn true lo hconst
      exact ⟨m3 q1, M3 q2⟩
    · have e : Dist.outer (b :: t) = (lo, hi) := by unfold Dist.outer; rw [hlo, hhi]; simp [hc]
      rw [e] at m2 M2 ⊢
      exact ⟨le_antisymm (m1 lo k1.1) m2, le_antisymm M2 (M1 hi k2.1)⟩
  rw [← key.1, ← key.2]
  exact ⟨hm, hM⟩

theorem percentile_spec (a : List ℚ) (ha : a ≠ []) (hs : a.Pairwise (· ≤ ·)) (q : ℚ) (h0 : 0 ≤ q) (h1 : q ≤ 100) :
    ∃ x, percentile a q = some x ∧
      (∀ (i : ℕ) (y : ℚ), a[i]? = some y → (i : ℚ) ≤ q / 100 * ((a.length : ℚ) - 1) → y ≤ x) ∧
      (∀ (i : ℕ) (y : ℚ), a[i]? = some y → q / 100 * ((a.length : ℚ) - 1) ≤ i → x ≤ y) := by
  have hlen : 1 ≤ a.length := by
    have := List.length_pos_of_ne_nil ha; omega
  have hlenq : (1 : ℚ) ≤ a.length := by exact_mod_cast hlen
  unfold percentile
  rw [if_neg (by push Not; exact ⟨h0, h1⟩)]
  simp only
  obtain ⟨v, hv⟩ : ∃ v, v = q / 100 * ((a.length : ℚ) - 1) := ⟨_, rfl⟩
  rw [← hv]
  have hv0 : 0 ≤ v := by rw [hv]; apply mul_nonneg <;> linarith
  have hv1 : v ≤ (a.length : ℚ) - 1 := by
    rw [hv]
    have : q / 100 ≤ 1 := by linarith
    nlinarith
  have hf0 : 0 ≤ ⌊v⌋ := Int.floor_nonneg.mpr hv0
  obtain ⟨k, hk⟩ : ∃ k : ℕ, ⌊v⌋ = (k : ℤ) := ⟨⌊v⌋.toNat, by omega⟩
  have hkv : (k : ℚ) ≤ v := by have := Int.floor_le v; rw [hk] at this; exact_mod_cast this
  have hvk : v < (k : ℚ) + 1 := by have := Int.lt_floor_add_one v; rw [hk] at this; exact_mod_cast this
  have hklt : k < a.length := by
    have : (k : ℚ) < a.length := by linarith
    exact_mod_cast this
  rw [hk]
  simp only [Int.toNat_natCast, Int.cast_natCast]
  rw [List.getElem?_eq_getElem hklt]
  simp only
  have mono : ∀ (i j : ℕ) (x y : ℚ), a[i]? = some x → a[j]? = some y → i ≤ j → x ≤ y := by
    intro i j x y hx hy hij
    obtain ⟨hi, hx⟩ := List.getElem?_eq_some_iff.mp hx
    obtain ⟨hj, hy⟩ := List.getElem?_eq_some_iff.mp hy
    subst hx hy
    rcases Nat.lt_or_ge i j with h | h
    · exact List.pairwise_iff_getElem.mp hs i j hi hj h
    · have : i = j := by omega
      subst this; exact le_refl _
  have hak : a[k]? = some a[k] := List.getElem?_eq_getElem hklt
  by_cases hlast : k + 1 < a.length
  · have hak1 : a[k + 1]? = some a[k + 1] := List.getElem?_eq_getElem hlast
    have hle := mono k (k + 1) _ _ hak hak1 (by omega)
    refine ⟨_, rfl, ?_, ?_⟩
    · intro i y hy hi
      have hik : i ≤ k := by
        have : (i : ℚ) < k + 1 := by linarith
        have : i < k + 1 := by exact_mod_cast this
        omega
      have := mono i k _ _ hy hak hik
      rw [List.getD_eq_getElem?_getD, hak1, Option.getD_some]
      nlinarith
    · intro i y hy hi
      rw [List.getD_eq_getElem?_getD, hak1, Option.getD_some]
      by_cases hik : k + 1 ≤ i
      · have := mono (k + 1) i _ _ hak1 hy hik
        nlinarith
      · have hle' : (i : ℚ) ≤ k := by exact_mod_cast (by omega : i ≤ k)
        have hvk' : v = k := by linarith
        have hik' : i = k := by
          have : (k : ℚ) ≤ i := by linarith
          have : k ≤ i := by exact_mod_cast this
          omega
        subst hik'
        rw [hak, Option.some.injEq] at hy
        rw [hvk', hy]
        simp
  · have hnone : a[k + 1]? = none := List.getElem?_eq_none (by omega)
    refine ⟨_, rfl, ?_, ?_⟩
    · intro i y hy hi
      have hik : i ≤ k := by
        have : (i : ℚ) < k + 1 := by linarith
        have : i < k + 1 := by exact_mod_cast this
        omega
      have := mono i k _ _ hy hak hik
      rw [List.getD_eq_getElem?_getD, hnone, Option.getD_none]
      simpa using this
    · intro i y hy hi
      rw [List.getD_eq_getElem?_getD, hnone, Option.getD_none]
      have hik' : i = k := by
        have : (k : ℚ) ≤ i := by linarith
        have h1 : k ≤ i := by exact_mod_cast this
        have h2 : i < a.length := by
          by_contra hc; rw [List.getElem?_eq_none (by omega)] at hy; simp at hy
        omega
      subst hik'
      rw [hak, Option.some.injEq] at hy
      simp [hy]

/-- A histogram on given strictly increasing edges satisfies the histogram invariant. -/
theorem inv_buildOn (a edges : List ℚ) (hne : edges ≠ []) (he : edges.Pairwise (· < ·)) :
    ∃ d, buildOn a edges = some d ∧ d.Inv ∧ d.edges = edges ∧
      d.sorted = a.mergeSort (fun x y => decide (x ≤ y)) ∧ d.hist = counts a edges := by
  unfold buildOn
  rw [if_pos (he.imp le_of_lt)]
  refine ⟨_, rfl, ?_, rfl, rfl, rfl⟩
  have hlen1 : 1 ≤ edges.length := List.length_pos_of_ne_nil hne
  have hlenH : (counts a edges).length = edges.length - 1 := by simp [counts]
  have hperm := sorted_perm a
  have hget : ∀ i < edges.length - 1, (counts a edges).getD i 0 = (a.mergeSort (fun x y => decide (x ≤ y))).countP
      (fun x => decide (edges.getD i 0 ≤ x ∧ (x < edges.getD (i + 1) 0 ∨
        (i + 2 = edges.length ∧ x ≤ edges.getD (i + 1) 0)))) := by
    intro i hi
    rw [List.getD_eq_getElem?_getD, counts_get a _ i (by omega), Option.getD_some]
    exact (hperm.countP_eq _).symm
  refine ⟨by simp only; rw [hlenH]; omega, he, sorted_pairwise a, ?_, ?_, rfl⟩
  · intro i hi
    simp only at hi ⊢
    rw [hlenH] at hi
    rw [hget i hi]
    apply List.countP_mono_left
    intro x _ hx
    simp only [decide_eq_true_eq] at *
    exact ⟨hx.1, Or.inl hx.2⟩
  · intro i hi
    simp only at hi ⊢
    rw [hlenH] at hi
    rw [hget i hi]
    apply List.countP_mono_left
    intro x _ hx
    simp only [decide_eq_true_eq] at *
    rcases hx with ⟨h1, h2 | ⟨_, h2⟩⟩
    · exact ⟨h1, h2.le⟩
    · exact ⟨h1, h2⟩

theorem getMin_bounds (d : Dist) (hd : d.Inv) (hpos : 0 < d.hist.length) :
    ∃ m, d.getMin = some m ∧ d.edges.getD 0 0 ≤ m ∧ m ≤ d.edges.getD 1 0 := by
  obtain ⟨bin, h1, -, -, -, h5, h6, h7⟩ := getBin_spec d hd 0 hpos
  refine ⟨bin.min, ?_, h5, h6.trans h7⟩
  unfold getMin
  rw [show (0 : ℤ) = ((0 : ℕ) : ℤ) from rfl, h1]; rfl

theorem getMax_bounds (d : Dist) (hd : d.Inv) (hpos : 0 < d.hist.length) :
    ∃ m, d.getMax = some m ∧ d.edges.getD (d.hist.length - 1) 0 ≤ m ∧ m ≤ d.edges.getD d.hist.length 0 := by
  obtain ⟨bin, h1, -, -, -, h5, h6, h7⟩ := getBin_spec d hd (d.hist.length - 1) (by omega)
  refine ⟨bin.max, ?_, h5.trans h6, ?_⟩
  · have hlen := hd.len
    have hidx : d.getBin (-1) = d.getBin ((d.hist.length - 1 : ℕ) : ℤ) := by
      unfold getBin
      rw [if_pos (by omega), if_neg (by omega),
        show (d.edges.length : ℤ) - 1 + -1 = ((d.hist.length - 1 : ℕ) : ℤ) by omega]
    unfold getMax
    rw [hidx, h1]; rfl
  · rwa [show d.hist.length - 1 + 1 = d.hist.length by omega] at h7

/-- What `FixedPercentOptimizer` returns, in terms of the two percentiles. -/
theorem fixedPercent_eq (a : List ℚ) (ha : a ≠ []) (n : ℕ) (hn : 1 ≤ n) (p : ℚ) (h0 : 0 ≤ p) (h1 : p ≤ 1) :
    ∃ low high d', percentile (a.mergeSort (fun x y => decide (x ≤ y))) p = some low ∧
      percentile (a.mergeSort (fun x y => decide (x ≤ y))) (1 - p) = some high ∧
      fixedPercent p (Dist.build a n) = some d' ∧ d'.Inv ∧ d'.edges = linEdges (outer a).1 (outer a).2 n ∧
      d'.sorted = (a.mergeSort (fun x y => decide (x ≤ y))).map (clip low high) ∧ d'.hist.length = n := by
  obtain ⟨s, hsd⟩ : ∃ s, s = a.mergeSort (fun x y => decide (x ≤ y)) := ⟨_, rfl⟩
  have hs : s.Pairwise (· ≤ ·) := by rw [hsd]; exact sorted_pairwise a
  have hsne : s ≠ [] := by
    intro h
    have := (sorted_perm a).length_eq
    rw [← hsd, h] at this
    exact ha (List.length_eq_zero_iff.mp this.symm)
  obtain ⟨low, hl, -, -⟩ := percentile_spec s hsne hs p h0 (by linarith)
  obtain ⟨high, hh, -, -⟩ := percentile_spec s hsne hs (1 - p) (by linarith) (by linarith)
  have hinv := inv_build a n hn
  have hE : (Dist.build a n).edges = linEdges (outer a).1 (outer a).2 n := rfl
  obtain ⟨d', k1, k2, k3, k4, k5⟩ := inv_buildOn (s.map (clip low high)) (Dist.build a n).edges
    (by rw [hE]; intro h; have := linEdges_length (outer a).1 (outer a).2 n; rw [h] at this; simp at this) hinv.inc
  refine ⟨low, high, d', by rw [← hsd]; exact hl, by rw [← hsd]; exact hh, ?_, k2, by rw [k3, hE], ?_, ?_⟩
  · unfold fixedPercent
    have : (Dist.build a n).sorted = s := hsd.symm
    rw [this, hl, hh]
    exact k1
  · rw [k4, ← hsd]
    apply List.mergeSort_of_pairwise
    rw [List.pairwise_map]
    exact hs.imp (by intro x y h; simpa using clip_mono h)
  · have := k2.len
    rw [k3, hE, linEdges_length] at this
    omega

end Optim
open Optim

/-- C76.  `FixedPercentOptimizer` accepts exactly the values 0 ≤ percent ≤ 1 (on non-empty data). -/
theorem C76_percent_domain (a : List ℚ) (ha : a ≠ []) (n : ℕ) (hn : 1 ≤ n) (p : ℚ) :
    (∃ d', fixedPercent p (Dist.build a n) = some d') ↔ 0 ≤ p ∧ p ≤ 1 := by
  constructor
  · rintro ⟨d', h⟩
    by_contra hc
    unfold fixedPercent at h
    rw [Option.bind_eq_bind, Option.bind_eq_some_iff] at h
    obtain ⟨low, h1, h⟩ := h
    rw [Option.bind_eq_some_iff] at h
    obtain ⟨high, h2, -⟩ := h
    unfold percentile at h1 h2
    by_cases hp : p < 0
    · rw [if_pos (Or.inl hp)] at h1; simp at h1
    · rw [if_pos (Or.inl (by by_contra h3; exact hc ⟨by linarith, by linarith⟩))] at h2; simp at h2
  · rintro ⟨h0, h1⟩
    obtain ⟨_, _, d', -, -, h, -⟩ := fixedPercent_eq a ha n hn p h0 h1
    exact ⟨d', h⟩

/-- C76.  Whatever legal percentage is asked for, all but the lowest hundredth of the data collapse to one value `c`
(a value of at most the first percentile), and every trimmed value is at most `c`: `percent` is a fraction but numpy
reads percentages, so the upper limit is never above the 1st percentile. -/
theorem C76_percent_collapses (a : List ℚ) (n : ℕ) (hn : 1 ≤ n) (p : ℚ) (d' : Dist) (ha : a ≠ [])
    (h : fixedPercent p (Dist.build a n) = some d') :
    ∃ c, d'.sorted.length = a.length ∧ (∀ x ∈ d'.sorted, x ≤ c) ∧
      (∀ (i : ℕ) (x : ℚ), d'.sorted[i]? = some x → a.length - 1 ≤ 100 * i → x = c) ∧
      (∀ (i : ℕ) (y : ℚ), (a.mergeSort (fun x y => decide (x ≤ y)))[i]? = some y → a.length - 1 ≤ 100 * i → c ≤ y) := by
  obtain ⟨h0, h1⟩ := (C76_percent_domain a ha n hn p).mp ⟨d', h⟩
  obtain ⟨low, high, d'', k1, k2, k3, k4, k5, k6, k7⟩ := fixedPercent_eq a ha n hn p h0 h1
  rw [h, Option.some.injEq] at k3
  subst k3
  have hs := sorted_pairwise a
  have hlen : (a.mergeSort (fun x y => decide (x ≤ y))).length = a.length := (sorted_perm a).length_eq
  have hsne : a.mergeSort (fun x y => decide (x ≤ y)) ≠ [] := by
    intro h'
    rw [h'] at hlen
    exact ha (List.length_eq_zero_iff.mp hlen.symm)
  obtain ⟨x, q1, -, q3⟩ := percentile_spec _ hsne hs (1 - p) (by linarith) (by linarith)
  rw [k2, Option.some.injEq] at q1
  subst q1
  have hpos : 1 ≤ a.length := List.length_pos_of_ne_nil ha
  have hposq : (1 : ℚ) ≤ a.length := by exact_mod_cast hpos
  have hidx : ∀ i : ℕ, a.length - 1 ≤ 100 * i → (1 - p) / 100 * ((a.length : ℚ) - 1) ≤ i := by
    intro i hi
    have h2 : (a.length : ℚ) - 1 ≤ 100 * i := by
      have : ((a.length - 1 : ℕ) : ℚ) ≤ ((100 * i : ℕ) : ℚ) := by exact_mod_cast hi
      rw [Nat.cast_sub hpos] at this
      push_cast at this
      exact this
    have h3 : (1 - p) / 100 * ((a.length : ℚ) - 1) ≤ 1 / 100 * ((a.length : ℚ) - 1) := by
      apply mul_le_mul_of_nonneg_right <;> linarith
    linarith
  rw [hlen] at q3
  refine ⟨high, by rw [k6, List.length_map, hlen], ?_, ?_, ?_⟩
  · intro x hx
    rw [k6, List.mem_map] at hx
    obtain ⟨y, -, rfl⟩ := hx
    exact clip_le
  · intro i x hx hi
    rw [k6, List.getElem?_map, Option.map_eq_some_iff] at hx
    obtain ⟨y, hy, rfl⟩ := hx
    exact clip_of_ge (q3 i y hy (hidx i hi))
  · intro i y hy hi
    exact q3 i y hy (hidx i hi)

/-- C76.  And yet the calibration hardly notices: the trimmed distribution keeps the original histogram edges, so its
reported minimum and maximum are each within one bin of the original ones. -/
theorem C76_percent_extremes (a : List ℚ) (ha : a ≠ []) (n : ℕ) (hn : 3 ≤ n) (p : ℚ) (d' : Dist)
    (h : fixedPercent p (Dist.build a n) = some d') (m M : ℚ) (hm : (Dist.build a n).getMin = some m)
    (hM : (Dist.build a n).getMax = some M) :
    ∃ m' M', d'.getMin = some m' ∧ d'.getMax = some M' ∧ m ≤ m' ∧ m' ≤ m + (M - m) / n ∧
      M - (M - m) / n ≤ M' ∧ M' ≤ M := by
  obtain ⟨e1, e2⟩ := build_extremes a ha n hn
  rw [e1, Option.some.injEq] at hm
  rw [e2, Option.some.injEq] at hM
  subst hm hM
  obtain ⟨h0, h1⟩ := (C76_percent_domain a ha n (by omega) p).mp ⟨d', h⟩
  obtain ⟨low, high, d'', -, -, k3, k4, k5, -, k7⟩ := fixedPercent_eq a ha n (by omega) p h0 h1
  rw [h, Option.some.injEq] at k3
  subst k3
  have hnq : (0 : ℚ) < n := by exact_mod_cast (by omega : 0 < n)
  obtain ⟨m', q1, q2, q3⟩ := getMin_bounds d' k4 (by omega)
  obtain ⟨M', r1, r2, r3⟩ := getMax_bounds d' k4 (by omega)
  rw [k5, linEdges_getD _ _ _ _ (by omega)] at q2 q3
  rw [k7, k5, linEdges_getD _ _ _ _ (by omega)] at r2 r3
  refine ⟨m', M', q1, r1, ?_, ?_, ?_, ?_⟩
  · simpa using q2
  · simpa using q3
  · rw [Nat.cast_sub (by omega)] at r2
    have : (outer a).1 + ((outer a).2 - (outer a).1) * ((n : ℚ) - (1 : ℕ)) / n =
      (outer a).2 - ((outer a).2 - (outer a).1) / n := by field_simp; push_cast; ring
    rw [this] at r2
    exact r2
  · rwa [mul_div_assoc, div_self hnq.ne', mul_one, add_sub_cancel] at r3

/-- C76.  So the calibrated step shrinks by at most two bins out of `n` (less than 0.4 % with the default 512 bins):
percentile trimming does not remove outliers from the calibration. -/
theorem C76_percent_step (a : List ℚ) (ha : a ≠ []) (n : ℕ) (hn : 3 ≤ n) (p : ℚ) (d' : Dist)
    (h : fixedPercent p (Dist.build a n) = some d') (q : GDtype) (sym : Bool) (hq : calLo q sym < q.max)
    (s : ℚ) (z : ℤ) (hs : (Dist.build a n).quantize q none none sym = some (s, z)) :
    ∃ s' z', d'.quantize q none none sym = some (s', z') ∧ s * (1 - 2 / n) ≤ s' ∧ s' ≤ s := by
  obtain ⟨m, M, hm, hM, hlt, -⟩ := min_lt_max a ha n hn true
  obtain ⟨m', M', k1, k2, k3, k4, k5, k6⟩ := C76_percent_extremes a ha n hn p d' h m M hm hM
  have hnq : (3 : ℚ) ≤ n := by exact_mod_cast hn
  obtain ⟨w, hw⟩ : ∃ w, w = (M - m) / n := ⟨_, rfl⟩
  have hwn : w * n = M - m := by rw [hw]; field_simp
  rw [← hw] at k4 k5
  have hw0 : 0 < w := by rw [hw]; apply div_pos <;> linarith
  have hw3 : 3 * w ≤ M - m := by nlinarith
  have hm'M' : m' < M' := by linarith
  have r1 : min m 0 < max M 0 := lt_of_le_of_lt (min_le_left _ _) (lt_of_lt_of_le hlt (le_max_left _ _))
  have r2 : min m' 0 < max M' 0 := lt_of_le_of_lt (min_le_left _ _) (lt_of_lt_of_le hm'M' (le_max_left _ _))
  have e1 := Dist.quantize_eq (Dist.build a n) q sym m M hm hM r1 hq
  have e2 := Dist.quantize_eq d' q sym m' M' k1 k2 r2 hq
  rw [hs, Option.some.injEq, Prod.mk.injEq] at e1
  have hqq : (0 : ℚ) < (q.max : ℚ) - calLo q sym := by
    have : (calLo q sym : ℚ) < q.max := by exact_mod_cast hq
    linarith
  refine ⟨_, _, e2, ?_, ?_⟩
  · rw [e1.1, div_mul_eq_mul_div]
    apply div_le_div_of_nonneg_right _ hqq.le
    have a1 : min m' 0 ≤ min m 0 + w := by
      rcases le_total m 0 with h' | h'
      · rw [min_eq_left h']; exact (min_le_left _ _).trans k4
      · rw [min_eq_right h']; exact (min_le_right _ _).trans (by linarith)
    have a2 : max M 0 - w ≤ max M' 0 := by
      rcases le_total 0 M with h' | h'
      · rw [max_eq_left h']; exact k5.trans (le_max_left _ _)
      · rw [max_eq_right h']; exact le_trans (by linarith) (le_max_right _ _)
    have a3 : (M - m) ≤ max M 0 - min m 0 := by
      have := le_max_left M 0; have := min_le_left m 0; linarith
    have a4 : w ≤ (max M 0 - min m 0) / n := by rw [hw]; apply div_le_div_of_nonneg_right a3; linarith
    have a5 : (max M 0 - min m 0) * (1 - 2 / n) = (max M 0 - min m 0) - 2 * ((max M 0 - min m 0) / n) := by ring
    rw [a5]
    linarith
  · rw [e1.1]
    apply div_le_div_of_nonneg_right _ hqq.le
    have b1 : min m 0 ≤ min m' 0 := min_le_min k3 le_rfl
    have b2 : max M' 0 ≤ max M 0 := max_le_max k6 le_rfl
    linarith

namespace Optim

theorem expand_length (g : List ℕ) : (expand g).length = g.length := by
  unfold expand; simp only; split <;> simp

theorem flat_get {β : Type} (f : List ℕ → List β) (hf : ∀ g, (f g).length = g.length) (k : ℕ) (hk : 0 < k) (t : ℕ)
    (h : List ℕ) (j : ℕ) (hj : j < h.length) (hjt : j < t * k) :
    ((List.range t).flatMap (fun i => f ((h.drop (i * k)).take k)))[j]? =
      (f ((h.drop (j / k * k)).take k))[j % k]? := by
  induction t generalizing h j with
  | zero => omega
  | succ t ih =>
    rw [List.range_succ_eq_map, List.flatMap_cons, List.flatMap_map]
    have hlen : (f ((h.drop (0 * k)).take k)).length = min k h.length := by rw [hf]; simp
    have hshift : ((List.range t).flatMap fun i => f ((h.drop (i.succ * k)).take k)) =
        (List.range t).flatMap (fun i => f (((h.drop k).drop (i * k)).take k)) := by
      congr 1; funext i; rw [List.drop_drop]; congr 3; rw [Nat.succ_mul]; omega
    rw [hshift]
    by_cases hjk : j < k
    · rw [List.getElem?_append_left (by rw [hlen]; omega), Nat.div_eq_of_lt hjk, Nat.mod_eq_of_lt hjk]
    · rw [List.getElem?_append_right (by rw [hlen]; omega), hlen, Nat.min_eq_left (by omega)]
      rw [ih (h.drop k) (j - k) (by rw [List.length_drop]; omega) (by rw [Nat.succ_mul] at hjt; omega)]
      have e1 : (j - k) % k = j % k := by
        conv_rhs => rw [show j = j - k + k by omega, Nat.add_mod_right]
      have e2 : j / k = (j - k) / k + 1 := by
        conv_lhs => rw [show j = j - k + k by omega, Nat.add_div_right _ hk]
      rw [e1, List.drop_drop, e2, Nat.succ_mul]
      congr 4; omega

theorem flat_length {β : Type} (f : List ℕ → List β) (hf : ∀ g, (f g).length = g.length) (k t : ℕ) (h : List ℕ)
    (hle : h.length ≤ t * k) :
    ((List.range t).flatMap (fun i => f ((h.drop (i * k)).take k))).length = h.length := by
  induction t generalizing h with
  | zero => simp at hle; simp [hle]
  | succ t ih =>
    rw [List.range_succ_eq_map, List.flatMap_cons, List.flatMap_map, List.length_append, hf]
    have hshift : ((List.range t).flatMap fun i => f ((h.drop (i.succ * k)).take k)) =
        (List.range t).flatMap (fun i => f (((h.drop k).drop (i * k)).take k)) := by
      congr 1; funext i; rw [List.drop_drop]; congr 3; rw [Nat.succ_mul]; omega
    rw [hshift, ih (h.drop k) (by rw [List.length_drop]; rw [Nat.succ_mul] at hle; omega)]
    simp
    omega

theorem groupSize_spec (bins target : ℕ) (ht : 1 ≤ target) : bins ≤ target * groupSize bins target := by
  have htq : (0 : ℚ) < target := by exact_mod_cast ht
  have h0 : (0 : ℚ) ≤ (bins : ℚ) / target := by positivity
  have h1 : 0 ≤ ⌈(bins : ℚ) / (target : ℚ)⌉ := Int.ceil_nonneg h0
  have h2 := Int.le_ceil ((bins : ℚ) / (target : ℚ))
  unfold groupSize
  obtain ⟨c, hc⟩ : ∃ c : ℕ, ⌈(bins : ℚ) / (target : ℚ)⌉ = c := ⟨_, (Int.toNat_of_nonneg h1).symm⟩
  rw [hc] at h2 ⊢
  rw [Int.toNat_natCast]
  rw [div_le_iff₀ htq] at h2
  have : (bins : ℚ) ≤ ((target * c : ℕ) : ℚ) := by push_cast at h2 ⊢; linarith
  exact_mod_cast this

theorem groupSize_pos (bins target : ℕ) (ht : 1 ≤ target) (hb : 1 ≤ bins) : 0 < groupSize bins target := by
  have := groupSize_spec bins target ht
  rcases Nat.eq_zero_or_pos (groupSize bins target) with h | h
  · rw [h] at this; omega
  · exact h

theorem reduce_ok (bins target : ℕ) (ht : 1 ≤ target) (h : List ℕ) (hle : h.length ≤ bins) :
    reduce bins target h = some ((List.range target).flatMap
      (fun i => expand ((h.drop (i * groupSize bins target)).take (groupSize bins target)))) := by
  unfold reduce
  simp only
  rw [if_pos (flat_length expand expand_length _ _ _ (hle.trans (groupSize_spec bins target ht)))]

theorem expand_sum (g : List ℕ) (v : List ℚ) (h : expand g = v.map some) : v.sum = (g.sum : ℚ) := by
  unfold expand at h
  simp only at h
  split at h
  · rename_i h0
    cases g with
    | nil =>
      cases v with
      | nil => simp
      | cons => simp at h
    | cons x t =>
      cases v with
      | nil => simp at h
      | cons y u => simp at h
  · rename_i h0
    obtain ⟨S, hS⟩ : ∃ S : ℚ, S = (g.sum : ℚ) / (g.countP (fun x => decide (x ≠ 0)) : ℚ) := ⟨_, rfl⟩
    rw [← hS] at h
    have hv : v = g.map (fun x => if x = 0 then 0 else S) := by
      have e : g.map (fun x => some (if x = 0 then (0 : ℚ) else S)) =
          (g.map (fun x => if x = 0 then (0 : ℚ) else S)).map some := by rw [List.map_map]; rfl
      rw [e] at h
      exact (List.map_injective_iff.mpr (Option.some_injective _) h).symm
    have key : ∀ l : List ℕ, (l.map (fun x => if x = 0 then (0 : ℚ) else S)).sum =
        S * (l.countP (fun x => decide (x ≠ 0)) : ℚ) := by
      intro l
      induction l with
      | nil => simp
      | cons x t ih =>
        rw [List.map_cons, List.sum_cons, ih, List.countP_cons]
        by_cases hx : x = 0
        · simp [hx]
        · simp [hx]; ring
    rw [hv, key, hS]
    have : (g.countP (fun x => decide (x ≠ 0)) : ℚ) ≠ 0 := by exact_mod_cast h0
    field_simp

theorem flat_sum (k t : ℕ) (h : List ℕ) (hle : h.length ≤ t * k) (v : List ℚ)
    (hv : (List.range t).flatMap (fun i => expand ((h.drop (i * k)).take k)) = v.map some) :
    v.sum = (h.sum : ℚ) := by
  induction t generalizing h v with
  | zero =>
    simp at hle hv
    subst hle
    simp [hv]
  | succ t ih =>
    rw [List.range_succ_eq_map, List.flatMap_cons, List.flatMap_map] at hv
    have hshift : ((List.range t).flatMap fun i => expand ((h.drop (i.succ * k)).take k)) =
        (List.range t).flatMap (fun i => expand (((h.drop k).drop (i * k)).take k)) := by
      congr 1; funext i; rw [List.drop_drop]; congr 3; rw [Nat.succ_mul]; omega
    rw [hshift] at hv
    obtain ⟨v1, v2, rfl, e1, e2⟩ := List.map_eq_append_iff.mp hv.symm
    have s1 := expand_sum _ _ e1.symm
    have s2 := ih (h.drop k) (by rw [List.length_drop]; rw [Nat.succ_mul] at hle; omega) v2 e2.symm
    rw [List.sum_append, s1, s2]
    have : h.sum = (h.take k).sum + (h.drop k).sum := by rw [← List.sum_append, List.take_append_drop]
    rw [Nat.zero_mul, List.drop_zero, this, Nat.cast_add]

theorem argmin_lt {α : Type} [LinearOrder α] (l : List (Option α)) (hl : l ≠ []) : ∃ m, argmin l = some m ∧ m < l.length := by
  unfold argmin
  cases h : l.findIdx? (fun x => decide (x = none)) with
  | some i =>
    refine ⟨i, rfl, ?_⟩
    rw [List.findIdx?_eq_some_iff_getElem] at h
    obtain ⟨hi, -⟩ := h
    exact hi
  | none =>
    simp only
    rw [List.findIdx?_eq_none_iff] at h
    obtain ⟨x, t, rfl⟩ := List.exists_cons_of_ne_nil hl
    cases x with
    | none => have := h none (by simp); simp at this
    | some y =>
      cases hm : ((some y :: t).filterMap id).min? with
      | none =>
        rw [List.min?_eq_none_iff] at hm
        simp at hm
      | some m =>
        simp only
        have hmem := (List.min?_eq_some_iff.mp hm).1
        rw [List.mem_filterMap] at hmem
        obtain ⟨z, hz, hz'⟩ := hmem
        simp only [id] at hz'
        subst hz'
        cases hf : (some y :: t).findIdx? (fun x => decide (x = some m)) with
        | some i =>
          refine ⟨i, rfl, ?_⟩
          rw [List.findIdx?_eq_some_iff_getElem] at hf
          obtain ⟨hi, -⟩ := hf
          exact hi
        | none =>
          rw [List.findIdx?_eq_none_iff] at hf
          have := hf _ hz
          simp at this

theorem binSize_build (a : List ℚ) (n : ℕ) (hn : 1 ≤ n) :
    (Dist.build a n).binSize = some (((outer a).2 - (outer a).1) / n) := by
  have hE : (Dist.build a n).edges = linEdges (Dist.outer a).1 (Dist.outer a).2 n := rfl
  unfold Dist.binSize
  rw [hE, linEdges_get _ _ _ _ (by omega), linEdges_get _ _ _ _ (by omega)]
  have := outer_lt a
  have hn0 : (0 : ℚ) < n := by exact_mod_cast hn
  have h2 : (0 : ℚ) < ((outer a).2 - (outer a).1) / n := by apply div_pos <;> linarith
  simp only [Option.bind_eq_bind, Option.bind_some, Option.some.injEq]
  have h3 : (outer a).1 + ((outer a).2 - (outer a).1) * ((1 : ℕ) : ℚ) / n -
      ((outer a).1 + ((outer a).2 - (outer a).1) * ((0 : ℕ) : ℚ) / n) = ((outer a).2 - (outer a).1) / n := by
    push_cast; ring
  rw [h3, abs_of_pos h2]

theorem mapM_of_forall {α β : Type} (f : α → Option β) (l : List α) (h : ∀ x ∈ l, ∃ y, f x = some y) :
    ∃ r, l.mapM f = some r ∧ r.length = l.length := by
  induction l with
  | nil => exact ⟨[], rfl, rfl⟩
  | cons x t ih =>
    obtain ⟨y, hy⟩ := h x (by simp)
    obtain ⟨r, hr, hl⟩ := ih (fun z hz => h z (by simp [hz]))
    exact ⟨y :: r, by rw [List.mapM_cons, hy, hr]; rfl, by simp [hl]⟩

/-- Whatever the divergence, `klTrim` slices the re-binned distribution at `(m + 1/2)` bin widths, `m < bins - target`. -/
theorem klTrim_eq {α : Type} [LinearOrder α] (div : List (Option ℚ) → List (Option ℚ) → Option α) (bins target : ℕ) (ht : 1 ≤ target)
    (htb : target < bins) (d : Dist) :
    ∃ m : ℕ, m < bins - target ∧ klTrim div bins target d = (Dist.build d.sorted bins).getSlice none
      (some (((m : ℚ) + 1 / 2) * (((outer d.sorted).2 - (outer d.sorted).1) / bins))) := by
  have hlenH : (Dist.build d.sorted bins).hist.length = bins := by
    show (counts d.sorted (linEdges _ _ bins)).length = bins
    simp [counts, linEdges_length]
  obtain ⟨r, hr, hlen⟩ := mapM_of_forall (fun i => do
    let cand ← reduce bins target ((Dist.build d.sorted bins).hist.take i)
    if cand.length = (reference (Dist.build d.sorted bins).hist i).length then
      some (div (normalize (reference (Dist.build d.sorted bins).hist i)) (normalize cand))
    else none) ((List.range bins).drop target) (by
      intro i hi
      have hib : i < bins := by
        have := List.mem_of_mem_drop hi
        exact List.mem_range.mp this
      have hle : ((Dist.build d.sorted bins).hist.take i).length ≤ bins := by rw [List.length_take]; omega
      rw [reduce_ok bins target ht _ hle]
      simp only [Option.bind_eq_bind, Option.bind_some]
      rw [if_pos]
      · exact ⟨_, rfl⟩
      · rw [flat_length expand expand_length _ _ _ (hle.trans (groupSize_spec bins target ht))]
        unfold reference
        simp)
  have hrl : r.length = bins - target := by rw [hlen]; simp
  obtain ⟨m, hm, hml⟩ := argmin_lt r (by intro h; rw [h] at hrl; simp at hrl; omega)
  refine ⟨m, by omega, ?_⟩
  unfold klTrim
  simp only
  rw [hr]
  simp only [Option.bind_eq_bind, Option.bind_some]
  rw [hm, binSize_build _ _ (by omega)]
  simp only [Option.bind_some]

end Optim

/-- C76.  `reduce` (the candidate of the KL optimizer) never fails on a histogram of at most `bins` bins; it keeps the
length; in every group of `⌈bins/target⌉` bins an empty bin stays empty and every other one gets the group's total
divided by the number of its non-empty bins - unless the whole group is empty: then its entries are NaN. -/
theorem C76_kl_reduce (bins target : ℕ) (ht : 1 ≤ target) (h : List ℕ) (hle : h.length ≤ bins) :
    ∃ r, reduce bins target h = some r ∧ r.length = h.length ∧
      (∀ (k j x : ℕ), k = ⌈(bins : ℚ) / (target : ℚ)⌉.toNat → h[j]? = some x →
        ∀ g, g = (h.drop (j / k * k)).take k →
          r[j]? = some (if g.countP (fun y => decide (y ≠ 0)) = 0 then none
            else some (if x = 0 then 0 else (g.sum : ℚ) / (g.countP (fun y => decide (y ≠ 0)) : ℚ)))) ∧
      (∀ v : List ℚ, r = v.map some → v.sum = (h.sum : ℚ)) := by
  refine ⟨_, reduce_ok bins target ht h hle,
    flat_length expand expand_length _ _ _ (hle.trans (groupSize_spec bins target ht)), ?_, ?_⟩
  · rintro k j x rfl hx g rfl
    obtain ⟨hj, hx'⟩ := List.getElem?_eq_some_iff.mp hx
    have hkp := groupSize_pos bins target ht (by omega)
    rw [flat_get expand expand_length _ hkp _ _ _ hj
      (lt_of_lt_of_le hj (hle.trans (groupSize_spec bins target ht)))]
    have hg : ((h.drop (j / groupSize bins target * groupSize bins target)).take (groupSize bins target))[j %
        groupSize bins target]? = some x := by
      rw [List.getElem?_take_of_lt (Nat.mod_lt _ hkp), List.getElem?_drop]
      rw [show j / groupSize bins target * groupSize bins target + j % groupSize bins target = j by
        rw [Nat.mul_comm]; exact Nat.div_add_mod _ _, hx]
    unfold expand
    change _ = some (if ((h.drop (j / groupSize bins target * groupSize bins target)).take
      (groupSize bins target)).countP (fun y => decide (y ≠ 0)) = 0 then none else some (if x = 0 then 0 else
        (((h.drop (j / groupSize bins target * groupSize bins target)).take (groupSize bins target)).sum : ℚ) /
          (((h.drop (j / groupSize bins target * groupSize bins target)).take (groupSize bins target)).countP
            (fun y => decide (y ≠ 0)) : ℚ)))
    simp only
    split
    · rw [List.getElem?_map, hg]; rfl
    · rw [List.getElem?_map, hg]; rfl
  · intro v hv
    exact flat_sum _ _ _ (hle.trans (groupSize_spec bins target ht)) v hv

/-- C76.  On data whose smallest value is 0 (the output of a ReLU, say) the KL optimizer always discards everything
above `(bins - target)/bins` of the maximum - a sixteenth of the range with the default 2048 and 128 - whatever the
divergences are. -/
theorem C76_kl_drops_top {α : Type} [LinearOrder α] (div : List (Option ℚ) → List (Option ℚ) → Option α) (bins target : ℕ) (ht : 1 ≤ target)
    (htb : target < bins) (hb : 3 ≤ bins) (a : List ℚ) (n : ℕ) (M : ℚ) (h0 : (0 : ℚ) ∈ a) (hM : M ∈ a)
    (hM0 : 0 < M) (hall : ∀ x ∈ a, 0 ≤ x ∧ x ≤ M) :
    ∃ d', klTrim div bins target (Dist.build a n) = some d' ∧
      ∀ x ∈ d'.sorted, x ∈ a ∧ x ≤ M * (((bins : ℚ) - target) / bins) := by
  obtain ⟨s, hs⟩ : ∃ s, s = (Dist.build a n).sorted := ⟨_, rfl⟩
  have hperm : s.Perm a := by rw [hs]; exact sorted_perm a
  obtain ⟨m, hm, heq⟩ := klTrim_eq div bins target ht htb (Dist.build a n)
  rw [← hs] at heq
  have hne : s ≠ [] := by intro h; rw [h] at hperm; have := hperm.mem_iff.mpr h0; simp at this
  have ho : outer s = (0, M) := by
    have e1 : s.min? = some 0 := by
      rw [List.min?_eq_some_iff]
      exact ⟨hperm.mem_iff.mpr h0, fun x hx => (hall x (hperm.mem_iff.mp hx)).1⟩
    have e2 : s.max? = some M := by
      rw [List.max?_eq_some_iff]
      exact ⟨hperm.mem_iff.mpr hM, fun x hx => (hall x (hperm.mem_iff.mp hx)).2⟩
    unfold outer
    rw [e1, e2]
    simp [hM0.ne]
  rw [ho] at heq
  simp only [sub_zero] at heq
  obtain ⟨w, hw⟩ : ∃ w, w = M / (bins : ℚ) := ⟨_, rfl⟩
  have hbq : (0 : ℚ) < bins := by exact_mod_cast (by omega : 0 < bins)
  have hw0 : 0 < w := by rw [hw]; positivity
  rw [← hw] at heq
  obtain ⟨d1, hd1⟩ : ∃ d1, d1 = Dist.build s bins := ⟨_, rfl⟩
  have hinv : d1.Inv := by rw [hd1]; exact inv_build s bins (by omega)
  have hmin : d1.getMin = some 0 := by rw [hd1, (build_extremes s hne bins hb).1, ho]
  have hsz : d1.binSize = some w := by rw [hd1, binSize_build s bins (by omega), ho, hw, sub_zero]
  have hsort : d1.sorted.Perm a := by rw [hd1]; exact (sorted_perm s).trans hperm
  have hedge : ∀ i ≤ bins, d1.edges.getD i 0 = w * i := by
    intro i hi
    have hE : d1.edges = linEdges (outer s).1 (outer s).2 bins := by rw [hd1]; rfl
    rw [hE, linEdges_getD _ _ _ _ hi, ho, hw]
    simp only
    ring
  have hlenH : d1.hist.length = bins := by
    rw [hd1]
    show (counts s (linEdges _ _ bins)).length = bins
    simp [counts, linEdges_length]
  have hmq : (m : ℚ) + 1 ≤ (bins : ℚ) - target := by
    have h1 : m + 1 ≤ bins - target := by omega
    have h2 : ((m + 1 : ℕ) : ℚ) ≤ ((bins - target : ℕ) : ℚ) := by exact_mod_cast h1
    rw [Nat.cast_sub htb.le] at h2
    push_cast at h2
    exact h2
  have hlim : w * ((m : ℚ) + 1) ≤ M * (((bins : ℚ) - target) / bins) := by
    have : M * (((bins : ℚ) - target) / bins) = w * ((bins : ℚ) - target) := by rw [hw]; ring
    rw [this]
    exact mul_le_mul_of_nonneg_left hmq hw0.le
  have hm0 : (0 : ℚ) ≤ m := Nat.cast_nonneg m
  have hstop : 0 < ((m : ℚ) + 1 / 2) * w := by positivity
  rw [← hd1] at heq
  unfold Dist.getSlice at heq
  simp only [hmin, hsz, Option.bind_eq_bind, Option.bind_some] at heq
  rw [zero_sub, abs_neg, abs_of_pos hstop] at heq
  by_cases hnar : ((m : ℚ) + 1 / 2) * w < w
  · rw [if_pos hnar] at heq
    refine ⟨_, heq, ?_⟩
    intro x hx
    have hx' : x ∈ d1.slice (some 0) (some (((m : ℚ) + 1 / 2) * w)) := (sorted_perm _).mem_iff.mp hx
    rw [slice_eq_filter d1 hinv.data _ _ hstop.le, List.mem_filter] at hx'
    obtain ⟨h1, h2⟩ := hx'
    rw [decide_eq_true_eq] at h2
    refine ⟨hsort.mem_iff.mp h1, ?_⟩
    nlinarith [h2.2]
  · rw [if_neg hnar, clone_eq d1 hinv 0 _ hstop.le] at heq
    refine ⟨_, heq, ?_⟩
    intro x hx
    simp only [List.mem_filter, decide_eq_true_eq] at hx
    obtain ⟨h1, -, h3⟩ := hx
    refine ⟨hsort.mem_iff.mp h1, h3.trans ?_⟩
    have hhi : d1.cloneHi (((m : ℚ) + 1 / 2) * w) = m + 1 := by
      unfold cloneHi
      have : lastEdgeLe d1.edges (((m : ℚ) + 1 / 2) * w) d1.hist.length = m := by
        have hmb : m < bins := by omega
        rcases lastEdgeLe_spec d1.edges (((m : ℚ) + 1 / 2) * w) d1.hist.length with ⟨-, k2⟩ | ⟨k1, k2, k3⟩
        · exact absurd (by rw [hedge m (by omega)]; nlinarith) (k2 m (by rw [hinv.len, hlenH]; omega))
        · have g1 := k3 m (by rw [hinv.len, hlenH]; omega) (by rw [hedge m (by omega)]; nlinarith)
          rw [hinv.len] at k1
          rw [hedge _ (by omega)] at k2
          by_contra hne'
          have g2 : m + 1 ≤ lastEdgeLe d1.edges (((m : ℚ) + 1 / 2) * w) d1.hist.length := by omega
          have g3 : (m : ℚ) + 1 ≤ (lastEdgeLe d1.edges (((m : ℚ) + 1 / 2) * w) d1.hist.length : ℚ) := by
            exact_mod_cast g2
          nlinarith
      rw [this, hlenH]
      omega
    rw [hhi, hedge (m + 1) (by omega)]
    push_cast
    exact hlim

/-- C76.  On data that starts at or above its own width (pressures around 1000 with a spread of 50, say) the KL
optimizer discards nothing at all: the threshold counts bins from 0, not from the first edge. -/
theorem C76_kl_keeps_offset {α : Type} [LinearOrder α] (div : List (Option ℚ) → List (Option ℚ) → Option α) (bins target : ℕ) (ht : 1 ≤ target)
    (htb : target < bins) (hb : 3 ≤ bins) (a : List ℚ) (n : ℕ) (m M : ℚ) (hm : m ∈ a) (hM : M ∈ a) (hmM : m < M)
    (hall : ∀ x ∈ a, m ≤ x ∧ x ≤ M) (hoff : M - m ≤ m) :
    ∃ d', klTrim div bins target (Dist.build a n) = some d' ∧ d'.sorted.Perm a := by
  obtain ⟨s, hs⟩ : ∃ s, s = (Dist.build a n).sorted := ⟨_, rfl⟩
  have hperm : s.Perm a := by rw [hs]; exact sorted_perm a
  obtain ⟨k, hk, heq⟩ := klTrim_eq div bins target ht htb (Dist.build a n)
  rw [← hs] at heq
  have hne : s ≠ [] := by intro h; rw [h] at hperm; have := hperm.mem_iff.mpr hm; simp at this
  have ho : outer s = (m, M) := by
    have e1 : s.min? = some m := by
      rw [List.min?_eq_some_iff]
      exact ⟨hperm.mem_iff.mpr hm, fun x hx => (hall x (hperm.mem_iff.mp hx)).1⟩
    have e2 : s.max? = some M := by
      rw [List.max?_eq_some_iff]
      exact ⟨hperm.mem_iff.mpr hM, fun x hx => (hall x (hperm.mem_iff.mp hx)).2⟩
    unfold outer
    rw [e1, e2]
    simp [hmM.ne]
  rw [ho] at heq
  simp only at heq
  obtain ⟨w, hw⟩ : ∃ w, w = (M - m) / (bins : ℚ) := ⟨_, rfl⟩
  have hbq : (0 : ℚ) < bins := by exact_mod_cast (by omega : 0 < bins)
  have hw0 : 0 < w := by rw [hw]; apply div_pos <;> linarith
  have hwb : w * bins = M - m := by rw [hw]; field_simp
  rw [← hw] at heq
  obtain ⟨d1, hd1⟩ : ∃ d1, d1 = Dist.build s bins := ⟨_, rfl⟩
  have hinv : d1.Inv := by rw [hd1]; exact inv_build s bins (by omega)
  have hmin : d1.getMin = some m := by rw [hd1, (build_extremes s hne bins hb).1, ho]
  have hsz : d1.binSize = some w := by rw [hd1, binSize_build s bins (by omega), ho, hw]
  have hsort : d1.sorted.Perm a := by rw [hd1]; exact (sorted_perm s).trans hperm
  have hedge : ∀ i ≤ bins, d1.edges.getD i 0 = m + w * i := by
    intro i hi
    have hE : d1.edges = linEdges (outer s).1 (outer s).2 bins := by rw [hd1]; rfl
    rw [hE, linEdges_getD _ _ _ _ hi, ho, hw]
    simp only
    ring
  have hlenH : d1.hist.length = bins := by
    rw [hd1]
    show (counts s (linEdges _ _ bins)).length = bins
    simp [counts, linEdges_length]
  have hkq : (k : ℚ) + 2 ≤ bins := by
    have h1 : k + 2 ≤ bins := by omega
    exact_mod_cast h1
  have hk0 : (0 : ℚ) ≤ k := Nat.cast_nonneg k
  obtain ⟨v, hv⟩ : ∃ v, v = ((k : ℚ) + 1 / 2) * w := ⟨_, rfl⟩
  have hvlt : v + w < m := by
    have : v + w ≤ w * bins - w / 2 := by rw [hv]; nlinarith
    linarith
  rw [← hv, ← hd1] at heq
  unfold Dist.getSlice at heq
  simp only [hmin, hsz, Option.bind_eq_bind, Option.bind_some] at heq
  rw [if_neg (by rw [abs_of_pos (by linarith)]; linarith)] at heq
  have hlast : lastEdgeLe d1.edges m 0 = 0 := by
    rcases lastEdgeLe_spec d1.edges m 0 with ⟨k1, -⟩ | ⟨k1, k2, k3⟩
    · exact k1
    · rw [hinv.len, hlenH] at k1
      rw [hedge _ (by omega)] at k2
      by_contra hne'
      have g3 : (1 : ℚ) ≤ (lastEdgeLe d1.edges m 0 : ℚ) := by exact_mod_cast (by omega : 1 ≤ lastEdgeLe d1.edges m 0)
      nlinarith
  have hlast' : lastEdgeLe d1.edges v d1.hist.length = bins := by
    rcases lastEdgeLe_spec d1.edges v d1.hist.length with ⟨k1, -⟩ | ⟨k1, k2, k3⟩
    · rw [k1, hlenH]
    · rw [hinv.len] at k1
      rw [hedge _ (by omega)] at k2
      have : (0 : ℚ) ≤ (lastEdgeLe d1.edges v d1.hist.length : ℚ) := Nat.cast_nonneg _
      nlinarith
  unfold Dist.clone at heq
  rw [if_pos hinv.part] at heq
  simp only at heq
  rw [hlast, hlast', hlenH, show min (bins + 1) bins = bins by omega] at heq
  have e0 : d1.edges[0]? = some m := by
    have := hedge 0 (by omega)
    rw [List.getD_eq_getElem?_getD, List.getElem?_eq_getElem (by rw [hinv.len]; omega)] at this
    rw [List.getElem?_eq_getElem (by rw [hinv.len]; omega)]
    simpa using this
  have e1 : d1.edges[bins]? = some M := by
    have := hedge bins (le_refl _)
    rw [List.getD_eq_getElem?_getD, List.getElem?_eq_getElem (by rw [hinv.len]; omega), Option.getD_some, hwb] at this
    rw [List.getElem?_eq_getElem (by rw [hinv.len]; omega), this]
    congr 1; ring
  rw [e0, e1] at heq
  simp only at heq
  refine ⟨_, heq, ?_⟩
  simp only
  rw [slice_eq_filter d1 hinv.data _ _ hmM.le, List.filter_eq_self.mpr]
  · exact hsort
  · intro x hx
    rw [decide_eq_true_eq]
    exact hall x (hsort.mem_iff.mp hx)

/-- The repository's own test case, and a histogram with an empty group. -/
example : reduce 8 2 [1, 0, 2, 3, 5, 3, 1, 7] = some ([2, 0, 2, 2, 4, 4, 4, 4].map some) ∧
    reduce 4 2 [3, 1, 0, 0] = some [some 2, some 2, none, none] := by
  constructor
  · decide +kernel
  · decide +kernel

/-- Trimming a fraction of 0.05 of `0..4`: the four largest values collapse to one, yet the reported maximum is still
above 3.99. -/
example : ∃ (d' : Dist) (c M' : ℚ), fixedPercent (1 / 20) (Dist.build [0, 1, 2, 3, 4]) = some d' ∧ c ≤ 1 ∧
    (∀ i ∈ [1, 2, 3, 4], ∀ x, d'.sorted[i]? = some x → x = c) ∧ d'.getMax = some M' ∧ 4 - 1 / 128 ≤ M' := by
  have ha : ([0, 1, 2, 3, 4] : List ℚ) ≠ [] := by simp
  obtain ⟨d', h⟩ := (C76_percent_domain _ ha 512 (by omega) (1 / 20)).mpr (by norm_num)
  obtain ⟨c, -, -, h3, h4⟩ := C76_percent_collapses _ 512 (by omega) _ d' ha h
  have ho : outer [0, 1, 2, 3, 4] = (0, 4) := by decide +kernel
  obtain ⟨e1, e2⟩ := build_extremes _ ha 512 (by omega)
  rw [ho] at e1 e2
  obtain ⟨m', M', -, k2, -, -, k5, -⟩ := C76_percent_extremes _ ha 512 (by omega) _ d' h _ _ e1 e2
  refine ⟨d', c, M', h, ?_, ?_, k2, by norm_num at k5; linarith⟩
  · have hs : ([0, 1, 2, 3, 4] : List ℚ).mergeSort (fun x y => decide (x ≤ y)) = [0, 1, 2, 3, 4] :=
      List.mergeSort_of_pairwise (by decide +kernel)
    exact h4 1 1 (by rw [hs]; rfl) (by simp)
  · intro i hi x hx
    refine h3 i x hx ?_
    simp at hi
    rcases hi with rfl | rfl | rfl | rfl <;> simp

/-- A distribution meeting the hypotheses of both KL theorems. -/
example (div : List (Option ℚ) → List (Option ℚ) → Option ℚ) :
    (∃ d', klTrim div 2048 128 (Dist.build [0, 1, 5, 16]) = some d' ∧ ∀ x ∈ d'.sorted, x ∈ [0, 1, 5, 16] ∧
      x ≤ 16 * (((2048 : ℕ) - (128 : ℕ) : ℚ) / (2048 : ℕ))) ∧
    (∃ d', klTrim div 2048 128 (Dist.build [1000, 1020, 1050]) = some d' ∧ d'.sorted.Perm [1000, 1020, 1050]) := by
  constructor
  · exact C76_kl_drops_top div 2048 128 (by omega) (by omega) (by omega) _ 512 16 (by simp) (by simp) (by norm_num)
      (by intro x hx; simp at hx; rcases hx with rfl | rfl | rfl | rfl <;> norm_num)
  · exact C76_kl_keeps_offset div 2048 128 (by omega) (by omega) (by omega) _ 512 1000 1050 (by simp) (by simp)
      (by norm_num) (by intro x hx; simp at hx; rcases hx with rfl | rfl | rfl <;> norm_num) (by norm_num)

end Verif
