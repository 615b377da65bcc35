import Verif.Props.Distribution
import Verif.Lemmas.Keras

/-!
# C60: ReLU layers are fused into the calibration of the dense layer

A `Dense` layer with activation `relu` or `relu6` exports no activation operator; instead its pre-activation histogram
is sliced (`x[0:]`, `x[0:6]`) before calibration, and saturation is meant to do the rest.
-/

namespace Verif
open Spec

namespace Dist

/-- Extremes, edges and bin size of a fresh distribution. -/
theorem fresh (a : List ℚ) (ha : a ≠ []) (n : ℕ) (hn : 3 ≤ n) :
    (build a n).getMin = some (outer a).1 ∧ (build a n).getMax = some (outer a).2 ∧ (build a n).hist.length = n ∧
    (build a n).binSize = some (((outer a).2 - (outer a).1) / n) ∧
    ∀ i ≤ n, (build a n).edges.getD i 0 = (outer a).1 + ((outer a).2 - (outer a).1) / n * i := by
  obtain ⟨m, hm, m1, m2, m3⟩ := Dist.getMin_build a ha n (by omega) true
  obtain ⟨M, hM, M1, M2, M3⟩ := Dist.getMax_build a ha n (by omega) true
  obtain ⟨ho, hall⟩ := Dist.outer_spec a ha
  have key : m = (Dist.outer a).1 ∧ M = (Dist.outer a).2 := by
    obtain ⟨b, t, rfl⟩ := List.exists_cons_of_ne_nil ha
    obtain ⟨lo, hlo⟩ : ∃ lo, (b :: t).min? = some lo := by simp [List.min?_cons]
    obtain ⟨hi, hhi⟩ : ∃ hi, (b :: t).max? = some hi := by simp [List.max?_cons]
    have k1 := (List.min?_eq_some_iff.mp hlo)
    have k2 := (List.max?_eq_some_iff.mp hhi)
    by_cases hc : lo = hi
    · have hconst : ∀ x ∈ b :: t, x = lo := fun x hx =>
        le_antisymm (by rw [hc]; exact k2.2 x hx) (k1.2 x hx)
      obtain ⟨q1, q2⟩ := Dist.hist_const _ ha n hn true lo hconst
      exact ⟨m3 q1, M3 q2⟩
    · have e : Dist.outer (b :: t) = (lo, hi) := by unfold Dist.outer; rw [hlo, hhi]; simp [hc]
      rw [e] at m2 M2 ⊢
      exact ⟨le_antisymm (m1 lo k1.1) m2, le_antisymm M2 (M1 hi k2.1)⟩
  have hE : (Dist.build a n).edges = linEdges (Dist.outer a).1 (Dist.outer a).2 n := rfl
  have hn0 : (0 : ℚ) < n := by exact_mod_cast (by omega : 0 < n)
  refine ⟨by rw [hm, key.1], by rw [hM, key.2], ?_, ?_, ?_⟩
  · show (counts a (linEdges _ _ n)).length = n
    simp [counts, linEdges_length]
  · unfold Dist.binSize
    rw [hE, linEdges_get _ _ _ _ (by omega), linEdges_get _ _ _ _ (by omega)]
    simp only [Option.bind_eq_bind, Option.bind_some, Option.some.injEq, Nat.cast_one, mul_one, Nat.cast_zero, mul_zero,
      zero_div, add_zero, add_sub_cancel_left]
    exact abs_of_pos (div_pos (by linarith) hn0)
  · intro i hi
    rw [hE, linEdges_getD _ _ _ _ hi]; ring

/-- A slice that keeps the last bin keeps the maximum. -/
theorem clone_top (d : Dist) (hd : d.Inv) (a b : ℚ) (hab : a ≤ b) (d' : Dist) (h : d.clone a b = some d')
    (hhi : d.cloneHi b = d.hist.length) (hlo : d.cloneLo a < d.hist.length) (M : ℚ) (hM : d.getMax = some M) :
    d'.getMax = some M := by
  have hlen := hd.len
  have hd' := hd.clone hab h
  rw [clone_eq d hd a b hab] at h
  injection h with h
  obtain ⟨-, p3⟩ := getMax_of_inv d hd hM
  have hl' : d'.hist.length = d.hist.length - d.cloneLo a := by
    rw [← h]; simp only [List.length_drop, List.length_take]; omega
  have he : ∀ i ≤ d'.hist.length, d'.edges.getD i 0 = d.edges.getD (d.cloneLo a + i) 0 := by
    intro i hi
    rw [← h]; exact getD_take_drop _ _ _ _ _ (by omega)
  have hh : ∀ i < d'.hist.length, d'.hist.getD i 0 = d.hist.getD (d.cloneLo a + i) 0 := by
    intro i hi
    rw [← h]; exact getD_take_drop _ _ _ _ _ (by omega)
  obtain ⟨M', hM'⟩ : ∃ M', d'.getMax = some M' := by
    unfold getMax
    have hidx : d'.getBin (-1) = d'.getBin ((d'.hist.length - 1 : ℕ) : ℤ) := by
      have := hd'.len
      unfold getBin
      rw [if_pos (by omega), if_neg (by omega),
        show (d'.edges.length : ℤ) - 1 + -1 = ((d'.hist.length - 1 : ℕ) : ℤ) by omega]
    obtain ⟨bin, hb, -⟩ := getBin_spec d' hd' (d'.hist.length - 1) (by omega)
    rw [hidx, hb]
    exact ⟨_, rfl⟩
  rw [hM']
  obtain ⟨-, q3⟩ := getMax_of_inv d' hd' hM'
  rcases p3 with ⟨hlt, p⟩ | ⟨hge, p⟩
  · rcases q3 with ⟨_, q⟩ | ⟨hge', _⟩
    · rw [p, q, he _ (le_refl _), show d.cloneLo a + d'.hist.length = d.hist.length by omega]
    · rw [hh _ (by omega), show d.cloneLo a + (d'.hist.length - 1) = d.hist.length - 1 by omega] at hge'
      omega
  · rcases q3 with ⟨hlt, _⟩ | ⟨_, q⟩
    · rw [hh _ (by omega), show d.cloneLo a + (d'.hist.length - 1) = d.hist.length - 1 by omega] at hlt
      omega
    · obtain ⟨l1, -, -, l4⟩ := binView_spec d hd (d.hist.length - 1) (by omega)
      obtain ⟨l1', -, -, l4'⟩ := binView_spec d' hd' (d'.hist.length - 1) (by omega)
      have ee : d.sorted.filter (fun x => decide (d.edges.getD (d.hist.length - 1) 0 ≤ x ∧
          x ≤ d.edges.getD (d.hist.length - 1 + 1) 0)) =
          d'.sorted.filter (fun x => decide (d'.edges.getD (d'.hist.length - 1) 0 ≤ x ∧
          x ≤ d'.edges.getD (d'.hist.length - 1 + 1) 0)) := by
        rw [he _ (by omega), he _ (by omega),
          show d.cloneLo a + (d'.hist.length - 1) = d.hist.length - 1 by omega,
          show d.cloneLo a + (d'.hist.length - 1 + 1) = d.hist.length - 1 + 1 by omega]
        rw [← h]
        simp only
        rw [List.filter_filter]
        apply List.filter_congr
        intro x _
        have r1 := hd.le (show d.cloneLo a ≤ d.hist.length - 1 by omega) (by omega)
        have r2 := hd.le (show d.hist.length - 1 + 1 ≤ d.cloneHi b by omega) (by omega)
        rw [Bool.eq_iff_iff]
        simp only [Bool.and_eq_true, decide_eq_true_eq]
        constructor
        · intro ⟨x1, x2⟩; exact ⟨⟨x1, x2⟩, by linarith, by linarith⟩
        · exact fun hx => hx.1
      rw [← ee] at l4'
      have hll : (d.binView (d.hist.length - 1)).length = (d'.binView (d'.hist.length - 1)).length := by
        rw [l1, l1', hh _ (by omega), show d.cloneLo a + (d'.hist.length - 1) = d.hist.length - 1 by omega]
      have hsame : d.binView (d.hist.length - 1) = d'.binView (d'.hist.length - 1) := by
        rw [List.prefix_iff_eq_take.mp l4, List.prefix_iff_eq_take.mp l4', hll]
      rw [hsame, q] at p
      exact p

/-- Every element below the last edge is at most the reported maximum. -/
theorem le_getMax (d : Dist) (hd : d.Inv) {M : ℚ} (hM : d.getMax = some M) (x : ℚ) (hx : x ∈ d.sorted)
    (hlt : x < d.edges.getD d.hist.length 0) : x ≤ M := by
  obtain ⟨hpos, p3⟩ := getMax_of_inv d hd hM
  rcases p3 with ⟨_, p⟩ | ⟨hge, p⟩
  · rw [p]; exact hlt.le
  · have hlb := (binView_bounds d hd _ (by omega) M (List.mem_of_getLast? p)).2.1
    rcases lt_or_ge x (d.edges.getD (d.hist.length - 1) 0) with hc | hc
    · linarith
    · -- `x` is among the elements of the last bin
      have hlow := hd.low (d.hist.length - 1) (by omega)
      rw [show d.hist.length - 1 + 1 = d.hist.length by omega] at hlow
      set lo := d.edges.getD (d.hist.length - 1) 0 with hlo
      set up := d.edges.getD d.hist.length 0 with hup
      have hmem : x ∈ d.binView (d.hist.length - 1) := by
        unfold binView
        rw [← hlo]
        have e : (d.sorted.filter (fun x => decide (lo ≤ x))).take
            ((d.sorted.filter (fun x => decide (lo ≤ x))).countP (fun x => decide (x < up))) =
            (d.sorted.filter (fun x => decide (lo ≤ x))).filter (fun x => decide (x < up)) := by
          exact take_countP_of_sorted (hd.data.filter _) (fun x => decide (x < up)) (by
            intro x y h1 h2; simp only [decide_eq_true_eq] at *; linarith)
        have e2 : (d.sorted.filter (fun x => decide (lo ≤ x))).countP (fun x => decide (x < up)) =
            d.sorted.countP (fun x => decide (lo ≤ x ∧ x < up)) := by
          rw [List.countP_filter]
          apply List.countP_congr
          intro x _
          simp only [Bool.and_eq_true, decide_eq_true_eq]; tauto
        rw [e2] at e
        have hx' : x ∈ (d.sorted.filter (fun x => decide (lo ≤ x))).filter (fun x => decide (x < up)) := by
          simp [List.mem_filter, hx, hc, hlt]
        rw [← e] at hx'
        exact (List.take_subset_take_left _ hlow) hx'
      obtain ⟨-, k2, -⟩ := binView_spec d hd (d.hist.length - 1) (by omega)
      have hne : d.binView (d.hist.length - 1) ≠ [] := List.ne_nil_of_mem hmem
      rw [List.getLast?_eq_some_getLast hne] at p
      injection p with p
      rw [← List.dropLast_append_getLast hne, List.mem_append] at hmem
      rw [← List.dropLast_append_getLast hne, List.pairwise_append] at k2
      rcases hmem with hz | hz
      · rw [← p]; exact k2.2.2 x hz _ (by simp)
      · rw [List.mem_singleton] at hz; rw [hz, p]

/-- The slice taken for ReLU (`b = none`) and ReLU6 (`b = some 6`). -/
theorem relu_slice (a : List ℚ) (ha : a ≠ []) (n : ℕ) (hn : 3 ≤ n) (w : ℚ) (hw : w = ((outer a).2 - (outer a).1) / n)
    (hM : w < (outer a).2) (b : Option ℚ) (hb : ∀ v, b = some v → w ≤ v) :
    ∃ d' m' M', (build a n).getSlice (some 0) b = some d' ∧ d'.getMin = some m' ∧ d'.getMax = some M' ∧ -w < m' ∧
      0 < M' ∧ (∀ x ∈ a, 0 ≤ x → x ≤ b.getD (outer a).2 → x ≤ M') ∧
      ((outer a).1 ≤ b.getD (outer a).2 → M' ≤ b.getD (outer a).2 + w) ∧
      (∀ x ∈ a, x ≤ M' ∨ b.getD (outer a).2 - w < M') ∧ (b.getD (outer a).2 < (outer a).1 → M' = (outer a).2) := by
  obtain ⟨f1, f2, f3, f4, f5⟩ := fresh a ha n hn
  obtain ⟨ho, hall⟩ := outer_spec a ha
  have hn0 : (0 : ℚ) < n := by exact_mod_cast (by omega : 0 < n)
  have hw0 : 0 < w := by rw [hw]; exact div_pos (by linarith) hn0
  have hwn : w * n = (outer a).2 - (outer a).1 := by rw [hw]; field_simp
  have hinv := inv_build a n (by omega)
  rw [← hw] at f4 f5
  set d := build a n with hd
  set stop := b.getD (outer a).2 with hstop
  have hws : w ≤ stop := by
    cases b with
    | none => exact hM.le
    | some v => exact hb v rfl
  have h0s : 0 ≤ stop := by linarith
  have hlenE : d.edges.length = n + 1 := by rw [hinv.len, f3]
  have hEn : d.edges.getD n 0 = (outer a).2 := by rw [f5 n le_rfl, hwn]; ring
  have hE1 : d.edges.getD (n - 1) 0 = (outer a).2 - w := by
    rw [f5 (n - 1) (by omega), Nat.cast_sub (by omega), mul_sub, hwn]; push_cast; ring
  have hsucc : ∀ i, i + 1 ≤ n → d.edges.getD (i + 1) 0 = d.edges.getD i 0 + w := by
    intro i hi
    rw [f5 _ hi, f5 i (by omega)]; push_cast; ring
  have hget : d.getSlice (some 0) b = d.clone 0 stop := by
    unfold getSlice
    cases b with
    | none =>
      simp only [f2, f4, Option.bind_eq_bind, Option.bind_some]
      rw [if_neg]
      · rfl
      · rw [not_lt, zero_sub, abs_neg, abs_of_pos (by linarith)]; exact hM.le
    | some v =>
      simp only [f4, Option.bind_eq_bind, Option.bind_some]
      rw [if_neg]
      · rfl
      · have hws' : w ≤ v := hws
        rw [not_lt, zero_sub, abs_neg, abs_of_nonneg (by linarith)]; exact hws'
  -- the first kept bin
  have hL : (d.cloneLo 0 + 2 ≤ n) ∧ -w < d.edges.getD (d.cloneLo 0) 0 ∧
      (∀ x ∈ a, 0 ≤ x → d.edges.getD (d.cloneLo 0) 0 ≤ x) ∧
      ∀ i ≤ n, d.cloneLo 0 < i → 0 < d.edges.getD i 0 := by
    rcases lastEdgeLe_spec d.edges 0 0 with ⟨h1, h2⟩ | ⟨h1, h2, h3⟩
    · have hc : d.cloneLo 0 = 0 := h1
      have hall' : ∀ i ≤ n, 0 < d.edges.getD i 0 := fun i hi => not_le.mp (h2 i (by omega))
      rw [hc]
      refine ⟨by omega, by linarith [hall' 0 (by omega)], ?_, fun i hi _ => hall' i hi⟩
      intro x hx _
      rw [f5 0 (by omega)]
      simpa using (hall x hx).1
    · change d.cloneLo 0 < _ at h1
      change d.edges.getD (d.cloneLo 0) 0 ≤ 0 at h2
      change ∀ i < d.edges.length, d.edges.getD i 0 ≤ 0 → i ≤ d.cloneLo 0 at h3
      have hpos : ∀ i ≤ n, d.cloneLo 0 < i → 0 < d.edges.getD i 0 := by
        intro i hi hlt
        by_contra hc
        have := h3 i (by omega) (not_lt.mp hc)
        omega
      have hlt : d.cloneLo 0 + 2 ≤ n := by
        by_contra hc
        have := hinv.le (show n - 1 ≤ d.cloneLo 0 by omega) (by rw [f3]; omega)
        rw [hE1] at this
        linarith
      refine ⟨hlt, ?_, fun x _ h => le_trans h2 h, hpos⟩
      have k1 := hpos (d.cloneLo 0 + 1) (by omega) (by omega)
      rw [hsucc _ (by omega)] at k1
      linarith
  obtain ⟨hL1, hL2, hL3, hL4⟩ := hL
  -- the last kept bin
  have hKn : d.cloneHi stop ≤ n := by unfold cloneHi; rw [f3]; exact min_le_right _ _
  have hK : d.cloneLo 0 < d.cloneHi stop ∧ 0 < d.edges.getD (d.cloneHi stop - 1) 0 ∧
      (d.cloneHi stop = n ∨ (stop < d.edges.getD (d.cloneHi stop) 0)) ∧
      ((outer a).1 ≤ stop → d.edges.getD (d.cloneHi stop - 1) 0 ≤ stop) := by
    have hdef : d.cloneHi stop = min (lastEdgeLe d.edges stop n + 1) n := by unfold cloneHi; rw [f3]
    rcases lastEdgeLe_spec d.edges stop n with ⟨h1, h2⟩ | ⟨h1, h2, h3⟩
    · rw [h1, Nat.min_eq_right (by omega)] at hdef
      rw [hdef]
      refine ⟨by omega, hL4 _ (by omega) (by omega), Or.inl rfl, ?_⟩
      intro h
      have := h2 0 (by omega)
      rw [f5 0 (by omega)] at this
      simp at this
      linarith
    · set K := lastEdgeLe d.edges stop n with hKdef
      have htop : d.cloneHi stop = n ∨ stop < d.edges.getD (d.cloneHi stop) 0 := by
        rcases Nat.lt_or_ge (K + 1) n with hlt | hge
        · right
          rw [Nat.min_eq_left hlt.le] at hdef
          rw [hdef]
          by_contra hc
          have := h3 (K + 1) (by omega) (not_lt.mp hc)
          omega
        · left; omega
      have hle : d.edges.getD (d.cloneHi stop - 1) 0 ≤ stop :=
        le_trans (hinv.le (show d.cloneHi stop - 1 ≤ K by omega) (by rw [f3]; omega)) h2
      rcases lastEdgeLe_spec d.edges 0 0 with ⟨g1, g2⟩ | ⟨g1, g2, g3⟩
      · have hc : d.cloneLo 0 = 0 := g1
        exact ⟨by omega, not_le.mp (g2 _ (by omega)), htop, fun _ => hle⟩
      · change d.edges.getD (d.cloneLo 0) 0 ≤ 0 at g2
        have hge : d.cloneLo 0 + 1 ≤ K := h3 _ (by omega) (by rw [hsucc _ (by omega)]; linarith)
        exact ⟨by omega, hL4 _ (by omega) (by omega), htop, fun _ => hle⟩
  obtain ⟨hK1, hK2, hK3, hK4⟩ := hK
  have hcl := clone_eq d hinv 0 stop h0s
  set d' : Dist := _ with hd'def
  have hcl : d.clone 0 stop = some d' := hcl
  have hinv' := hinv.clone h0s hcl
  have hl' : d'.hist.length = d.cloneHi stop - d.cloneLo 0 := by
    rw [hd'def]; simp only [List.length_drop, List.length_take]; omega
  have he : ∀ i ≤ d'.hist.length, d'.edges.getD i 0 = d.edges.getD (d.cloneLo 0 + i) 0 := by
    intro i hi
    rw [hd'def]; exact getD_take_drop _ _ _ _ _ (by omega)
  obtain ⟨b0, hb0, -, -, -, b1, -, -⟩ := getBin_spec d' hinv' 0 (by omega)
  have hmin : d'.getMin = some b0.min := by unfold getMin; rw [show (0 : ℤ) = ((0 : ℕ) : ℤ) from rfl, hb0]; rfl
  obtain ⟨bl, hbl, -, -, -, l1, l2, l3⟩ := getBin_spec d' hinv' (d'.hist.length - 1) (by omega)
  have hmax : d'.getMax = some bl.max := by
    unfold getMax
    have hidx : d'.getBin (-1) = d'.getBin ((d'.hist.length - 1 : ℕ) : ℤ) := by
      have := hinv'.len
      unfold getBin
      rw [if_pos (by omega), if_neg (by omega),
        show (d'.edges.length : ℤ) - 1 + -1 = ((d'.hist.length - 1 : ℕ) : ℤ) by omega]
    rw [hidx, hbl]; rfl
  rw [he 0 (by omega), Nat.add_zero] at b1
  rw [he _ (by omega), show d.cloneLo 0 + (d'.hist.length - 1) = d.cloneHi stop - 1 by omega] at l1
  rw [he _ (by omega), show d.cloneLo 0 + (d'.hist.length - 1 + 1) = d.cloneHi stop by omega] at l3
  have hstep := hsucc (d.cloneHi stop - 1) (by omega)
  rw [show d.cloneHi stop - 1 + 1 = d.cloneHi stop by omega] at hstep
  have htopM : d.cloneHi stop = n → bl.max = (outer a).2 := by
    intro h
    have := clone_top d hinv 0 stop h0s d' hcl (by rw [h, f3]) (by rw [f3]; omega) _ f2
    rw [hmax] at this
    injection this
  refine ⟨d', b0.min, bl.max, by rw [hget, hcl], hmin, hmax, by linarith, by linarith, ?_, ?_, ?_, ?_⟩
  · intro x hx h0 hxs
    rcases hK3 with h | h
    · rw [htopM h]; exact (hall x hx).2
    · refine le_getMax d' hinv' hmax x ?_ ?_
      · rw [hd'def]
        simp only [List.mem_filter, decide_eq_true_eq]
        refine ⟨(sorted_perm a).mem_iff.mpr hx, hL3 x hx h0, by linarith⟩
      · rw [he _ le_rfl, show d.cloneLo 0 + d'.hist.length = d.cloneHi stop by omega]
        linarith
  · intro h
    have := hK4 h
    linarith
  · intro x hx
    rcases hK3 with h | h
    · left; rw [htopM h]; exact (hall x hx).2
    · right; linarith
  · intro h
    apply htopM
    rcases lastEdgeLe_spec d.edges stop n with ⟨h1, -⟩ | ⟨h1, h2, -⟩
    · unfold cloneHi; rw [f3, h1]; omega
    · have := hinv.le (Nat.zero_le (lastEdgeLe d.edges stop n)) (by rw [f3]; omega)
      rw [f5 0 (by omega), Nat.cast_zero, mul_zero, add_zero] at this
      linarith

/-- Slicing off everything: all data negative by at least one bin. -/
theorem relu_dead (a : List ℚ) (ha : a ≠ []) (n : ℕ) (hn : 3 ≤ n)
    (hM : (outer a).2 < 0) (hw : ((outer a).2 - (outer a).1) / n ≤ -(outer a).2) (q : GDtype) (z : Option ℤ) (s : Option ℚ)
    (sym : Bool) : ((build a n).getSlice (some 0) none).bind (fun d => d.quantize q z s sym) = none := by
  obtain ⟨f1, f2, f3, f4, f5⟩ := fresh a ha n hn
  have hinv := inv_build a n (by omega)
  set d := build a n with hd
  have hlenE : d.edges.length = n + 1 := by rw [hinv.len, f3]
  have hn0 : (0 : ℚ) < n := by exact_mod_cast (by omega : 0 < n)
  have hEn : d.edges.getD n 0 = (outer a).2 := by rw [f5 n le_rfl]; field_simp; ring
  have hget : d.getSlice (some 0) none = d.clone 0 (outer a).2 := by
    unfold getSlice
    simp only [f2, f4, Option.bind_eq_bind, Option.bind_some]
    rw [if_neg]
    rw [not_lt, zero_sub, abs_neg, abs_of_neg hM]; exact hw
  have hlo : lastEdgeLe d.edges 0 0 = n := by
    rcases lastEdgeLe_spec d.edges 0 0 with ⟨h1, h2⟩ | ⟨h1, h2, h3⟩
    · exact absurd (by rw [hEn]; exact hM.le) (h2 n (by omega))
    · have := h3 n (by omega) (by rw [hEn]; exact hM.le)
      omega
  have hhi : lastEdgeLe d.edges (outer a).2 n = n := by
    rcases lastEdgeLe_spec d.edges (outer a).2 n with ⟨h1, h2⟩ | ⟨h1, h2, h3⟩
    · exact h1
    · have := h3 n (by omega) (by rw [hEn])
      omega
  rw [hget, Option.bind_eq_none_iff]
  intro d' h
  unfold clone at h
  rw [hinv.part] at h
  simp only [if_true, hlo, f3, hhi, Nat.min_eq_right (Nat.le_succ n)] at h
  split at h
  · simp only [Option.some.injEq] at h
    have hh : d'.hist = [] := by
      rw [← h]
      simp only [List.drop_eq_nil_iff, List.length_take]
      omega
    have he : d'.edges.length = 1 := by
      rw [← h]; simp only [List.length_drop, List.length_take]; omega
    have hbin : d'.getMin = none := by
      unfold getMin getBin
      rw [hh]
      obtain ⟨u, hu⟩ := List.length_eq_one_iff.mp he
      rw [hu]
      simp [ReducedLUT.pyIndex]
    unfold quantize
    rw [hbin]
    rfl
  · cases h

/-- With calibrated parameters, quantization of *any* number saturates at the calibrated range (extended to contain
zero), up to half a step. -/
theorem quantize_saturates (d : Dist) (q : GDtype) (hd : Fits32 q.min q.max) (hq : q.min < q.max) (m M : ℚ)
    (hm : d.getMin = some m) (hM : d.getMax = some M) (hlt : min m 0 < max M 0) (s : ℚ) (zp : ℤ)
    (h : d.quantize q = some (s, zp)) :
    0 < s ∧ Code q.min q.max zp ∧
      ∀ x, |real zp s (Quantization.quantize q x zp s) - clip (min m 0) (max M 0) x| ≤ s / 2 := by
  obtain ⟨c1, c2, c3, c4⟩ := cal_core (min m 0) (max M 0) (min_le_right _ _) (le_max_right _ _) hlt _ _ hq
  rw [Dist.quantize_eq d q false m M hm hM hlt hq] at h
  simp only [Option.some.injEq, Prod.mk.injEq, calLo, Bool.false_eq_true, if_false] at h
  obtain ⟨hs, hz⟩ := h
  have hzr := abs_le.mp (abs_roundHalfEven_sub_le ((min m 0 * q.max - max M 0 * q.min) / (min m 0 - max M 0)))
  have hzm : Code q.min q.max zp := by
    constructor
    · have := roundHalfEven_mono c2
      rwa [roundHalfEven_int, hz] at this
    · have := roundHalfEven_mono c3
      rwa [roundHalfEven_int, hz] at this
  rw [hz] at hzr
  rw [hs] at c1 c4
  refine ⟨c1, hzm, fun x => ?_⟩
  set z := (min m 0 * q.max - max M 0 * q.min) / (min m 0 - max M 0) with hzdef
  rw [Verif.quantize_eq hd]
  set x' := clip (min m 0) (max M 0) x with hx'
  set k := clip q.min q.max (roundHalfUp (x / s + zp)) with hk
  have c5 := c4 x' (clip_ge hlt.le) clip_le
  have herr := clip_round_err hd.2.1 (v := x' / s + zp) (by linarith [c5.1, hzr.1]) (by linarith [c5.2, hzr.2])
  set k' := clip q.min q.max (roundHalfUp (x' / s + zp)) with hk'
  have hkhi : (k : ℚ) ≤ q.max := by exact_mod_cast (clip_le : k ≤ q.max)
  have hklo : (q.min : ℚ) ≤ k := by exact_mod_cast (clip_ge hd.2.1 : q.min ≤ k)
  have hqd : (0 : ℚ) < (q.max : ℚ) - q.min := by
    have : (q.min : ℚ) < q.max := by exact_mod_cast hq
    linarith
  have hne : min m 0 - max M 0 ≠ 0 := by linarith
  have hne' : max M 0 - min m 0 ≠ 0 := by linarith
  have htop : max M 0 / s + z = q.max := by
    rw [← hs, hzdef]; field_simp; ring
  have hbot : min m 0 / s + z = q.min := by
    rw [← hs, hzdef]; field_simp; ring
  have key : |(k : ℚ) - (x' / s + zp)| ≤ 1 / 2 := by
    have herr' := abs_le.mp herr
    rcases le_total x (min m 0) with h1 | h1
    · have e : x' = min m 0 := clip_of_le hlt.le h1
      have : k ≤ k' := clip_mono (roundHalfUp_mono (by rw [e]; gcongr))
      have : (k : ℚ) ≤ k' := by exact_mod_cast this
      rw [abs_le]
      rw [e] at herr' ⊢
      constructor <;> linarith
    · rcases le_total (max M 0) x with h2 | h2
      · have e : x' = max M 0 := clip_of_ge h2
        have : k' ≤ k := clip_mono (roundHalfUp_mono (by rw [e]; gcongr))
        have : (k' : ℚ) ≤ k := by exact_mod_cast this
        rw [abs_le]
        rw [e] at herr' ⊢
        constructor <;> linarith
      · have e : x' = x := clip_of_mem h1 h2
        rw [hk'] at herr
        rw [e] at herr ⊢
        exact herr
  have : real zp s k - x' = s * ((k : ℚ) - (x' / s + zp)) := by
    unfold real; field_simp; ring
  rw [this, abs_mul, abs_of_pos c1]
  calc s * _ ≤ s * (1 / 2) := mul_le_mul_of_nonneg_left key c1.le
    _ = s / 2 := by ring

end Dist

/-- C30 (saturation).  With calibrated parameters, *every* number — not only calibration data — is mapped to within half
a step of its nearest point in the interval spanned by the calibration data and zero; constant data span an interval of
width 1 around them.  Nothing outside the calibrated range is represented. -/
theorem C30_saturation (a : List ℚ) (n : ℕ) (hn : 3 ≤ n) (q : GDtype) (hd : Fits32 q.min q.max) (hq : q.min < q.max)
    (lo hi : ℚ) (hlo : lo ∈ a) (hhi : hi ∈ a) (hmin : ∀ x ∈ a, lo ≤ x) (hmax : ∀ x ∈ a, x ≤ hi) (hne : lo < hi)
    (s : ℚ) (zp : ℤ) (h : (Dist.build a n).quantize q = some (s, zp)) (x : ℚ) :
    |real zp s (Quantization.quantize q x zp s) - max (min lo 0) (min (max hi 0) x)| ≤ s / 2 := by
  have ha : a ≠ [] := List.ne_nil_of_mem hlo
  obtain ⟨f1, f2, -⟩ := Dist.fresh a ha n hn
  have e : Dist.outer a = (lo, hi) := by
    have h1 : a.min? = some lo := List.min?_eq_some_iff.mpr ⟨hlo, hmin⟩
    have h2 : a.max? = some hi := List.max?_eq_some_iff.mpr ⟨hhi, hmax⟩
    unfold Dist.outer; rw [h1, h2]; simp [hne.ne]
  rw [e] at f1 f2
  have hlt : min lo 0 < max hi 0 := lt_of_le_of_lt (min_le_left _ _) (lt_of_lt_of_le hne (le_max_left _ _))
  have := (Dist.quantize_saturates _ q hd hq lo hi f1 f2 hlt s zp h).2.2 x
  have hc : clip (min lo 0) (max hi 0) x = max (min lo 0) (min (max hi 0) x) := by
    unfold clip
    rcases le_total (max hi 0) x with h2 | h2
    · rw [min_eq_left (le_trans h2 (le_max_right _ _)), min_eq_left h2, max_eq_right hlt.le]
    · rw [min_eq_right h2, min_eq_right (max_le hlt.le h2)]
  rw [← hc]; exact this

/-- The largest value exceeds 1/512 of the spread of all values. -/
def Spec.ReluAlive (a : List ℚ) : Prop := ∃ x ∈ a, ∀ y ∈ a, x - y < 512 * x

/-- `W` bounds the spread of the values; the calibration treats constant data as if they had spread 1. -/
def Spec.SpreadLe (a : List ℚ) (W : ℚ) : Prop :=
  (∀ x ∈ a, ∀ y ∈ a, x - y ≤ W) ∧ (1 ≤ W ∨ ∃ x ∈ a, ∃ y ∈ a, x ≠ y)

namespace Dist

theorem outer_cases (a : List ℚ) (ha : a ≠ []) :
    (∃ c, (∀ x ∈ a, x = c) ∧ outer a = (c - 1 / 2, c + 1 / 2)) ∨
    ((outer a).1 ∈ a ∧ (outer a).2 ∈ a ∧ (outer a).1 ≠ (outer a).2) := by
  obtain ⟨b, t, rfl⟩ := List.exists_cons_of_ne_nil ha
  obtain ⟨lo, hlo⟩ : ∃ lo, (b :: t).min? = some lo := by simp [List.min?_cons]
  obtain ⟨hi, hhi⟩ : ∃ hi, (b :: t).max? = some hi := by simp [List.max?_cons]
  have k1 := (List.min?_eq_some_iff.mp hlo)
  have k2 := (List.max?_eq_some_iff.mp hhi)
  by_cases hc : lo = hi
  · left
    have hconst : ∀ x ∈ b :: t, x = lo := fun x hx =>
      le_antisymm (by rw [hc]; exact k2.2 x hx) (k1.2 x hx)
    exact ⟨lo, hconst, outer_const _ ha lo hconst⟩
  · right
    have e : outer (b :: t) = (lo, hi) := by unfold outer; rw [hlo, hhi]; simp [hc]
    rw [e]
    exact ⟨k1.1, k2.1, hc⟩

theorem alive_bin (a : List ℚ) (ha : a ≠ []) (h : Spec.ReluAlive a) :
    ((outer a).2 - (outer a).1) / (512 : ℕ) < (outer a).2 := by
  obtain ⟨x, hx, hall⟩ := h
  rw [div_lt_iff₀ (by norm_num)]
  push_cast
  rcases outer_cases a ha with ⟨c, hc, e⟩ | ⟨h1, h2, h3⟩
  · have := hall x hx
    rw [hc x hx] at this
    rw [e]; simp only; linarith
  · have k1 := hall _ h1
    have k2 := ((outer_spec a ha).2 x hx).2
    linarith

theorem spread_bin (a : List ℚ) (ha : a ≠ []) (W : ℚ) (h : Spec.SpreadLe a W) : (outer a).2 - (outer a).1 ≤ W := by
  rcases outer_cases a ha with ⟨c, hc, e⟩ | ⟨h1, h2, h3⟩
  · rcases h.2 with hW | ⟨x, hx, y, hy, hne⟩
    · rw [e]; simp only; linarith
    · exact absurd ((hc x hx).trans (hc y hy).symm) hne
  · exact h.1 _ h2 _ h1

end Dist

namespace Keras

/-- Where a dense layer with a skipped activation leaves its calibrated output. -/
theorem skip_output {w w' : World} {c : DenseCfg} {l : KDense} {prev r : QRes}
    (h : l.quantize w c prev = some (w', r)) (hs : upper l.actName ∈ skipFunctions) (pre : Arr ℚ)
    (hpre : l.pre prev.data = some pre) :
    ∃ q d s zp o, quantization c.biasAddDtype = some q ∧ l.trim (Dist.build pre.flat) = some d ∧
      d.quantize q = some (s, zp) ∧ r.out = some o ∧ (w'.nodes o.id).quant = q ∧ (w'.nodes o.id).scale = s ∧
      (w'.nodes o.id).zp = zp ∧ r.data = pre ∧ ∃ op, r.ops = [op] ∧ op.outputs = [o] := by
  obtain ⟨qk, qa, qba, qb, input, kn, pre', d, p, -, -, h3, -, -, -, h7, h8, h9, -, hr⟩ := l.quantize_spec h
  rw [hpre] at h7
  injection h7 with h7
  subst h7
  rcases hr with ⟨-, rfl, rfl⟩ | ⟨hn, -⟩
  · refine ⟨qba, d, p.1, p.2, _, h3, h8, h9, rfl, ?_, ?_, ?_, rfl, _, rfl, rfl⟩ <;>
      simp [fcWorld, World.alloc_nodes, Node.base, Node.withTensor]
  · exact absurd hs hn

end Keras

open Keras

/-- C60 (ReLU).  A dense layer with activation `relu` exports a single operator, whose calibrated output behaves like the
rectified pre-activation: non-negative calibration pre-activations are reproduced within half a step, and negative ones
come out within half a step plus one 512th of the spread of zero — provided the largest pre-activation exceeds one 512th
of the spread. -/
theorem C60_fused_relu (w w' : World) (c : DenseCfg) (l : KDense) (prev r : QRes)
    (h : l.quantize w c prev = some (w', r)) (hact : upper l.actName = "RELU".toList) (pre : Arr ℚ)
    (hpre : l.pre prev.data = some pre) (hal : ReluAlive pre.flat) (W : ℚ) (hW : SpreadLe pre.flat W)
    (hd : ∀ q, Keras.quantization c.biasAddDtype = some q → Fits32 q.min q.max ∧ q.min < q.max) :
    ∃ o op, r.ops = [op] ∧ op.outputs = [o] ∧ r.out = some o ∧ 0 < (w'.nodes o.id).scale ∧
      Code (w'.nodes o.id).quant.min (w'.nodes o.id).quant.max (w'.nodes o.id).zp ∧
      ∀ x ∈ pre.flat,
        let y := real (w'.nodes o.id).zp (w'.nodes o.id).scale
          (Quantization.quantize (w'.nodes o.id).quant x (w'.nodes o.id).zp (w'.nodes o.id).scale)
        (0 ≤ x → |y - x| ≤ (w'.nodes o.id).scale / 2) ∧
        (x < 0 → |y| ≤ W / 512 + (w'.nodes o.id).scale / 2) := by
  obtain ⟨q, d, s, zp, o, h1, h2, h3, h4, h5, h6, h7, h8, op, h9, h10⟩ :=
    Keras.skip_output h (by rw [hact]; decide) pre hpre
  obtain ⟨hf, hq⟩ := hd q h1
  have hne : pre.flat ≠ [] := by
    obtain ⟨x, hx, -⟩ := hal; exact List.ne_nil_of_mem hx
  obtain ⟨d', m, M, e1, e2, e3, e4, e5, e6, e7, -⟩ := Dist.relu_slice pre.flat hne 512 (by omega) _ rfl
    (Dist.alive_bin _ hne hal) none (by simp)
  have htrim : l.trim (Dist.build pre.flat) = some d' := by
    unfold Keras.KDense.trim; rw [if_pos hact]; exact e1
  rw [htrim] at h2
  injection h2 with h2
  subst h2
  have hlt : min m 0 < max M 0 := lt_of_le_of_lt (min_le_right _ _) (lt_of_lt_of_le e5 (le_max_left _ _))
  obtain ⟨k1, k2, k3⟩ := Dist.quantize_saturates d' q hf hq m M e2 e3 hlt s zp h3
  rw [← h5, ← h6, ← h7] at k3
  rw [← h6] at k1
  rw [← h5, ← h7] at k2
  refine ⟨o, op, h9, h10, h4, k1, k2, fun x hx => ?_⟩
  have hw := Dist.spread_bin _ hne W hW
  have k := abs_le.mp (k3 x)
  intro y
  have hall := ((Dist.outer_spec _ hne).2 x hx).2
  constructor
  · intro h0
    have : clip (min m 0) (max M 0) x = x :=
      clip_of_mem (le_trans (min_le_right _ _) h0) (le_trans (e6 x hx h0 hall) (le_max_left _ _))
    rw [this] at k
    exact abs_le.mpr k
  · intro h0
    have b1 : clip (min m 0) (max M 0) x ≤ 0 := by
      have := clip_mono (lo := min m 0) (hi := max M 0) h0.le
      rwa [clip_of_mem (min_le_right _ _) (le_max_right _ _)] at this
    have b2 : min m 0 ≤ clip (min m 0) (max M 0) x := clip_ge hlt.le
    have b3 : -(W / 512) ≤ min m 0 := by
      apply le_min
      · have : ((Dist.outer pre.flat).2 - (Dist.outer pre.flat).1) / (512 : ℕ) ≤ W / 512 := by
          push_cast; gcongr
        linarith
      · have := (Dist.outer_spec _ hne).1
        have : 0 ≤ W / 512 := div_nonneg (by linarith) (by norm_num)
        linarith
    rw [abs_le]
    constructor <;> linarith [k.1, k.2]

/-- What the sliced calibration of a `relu6` layer does. -/
theorem Keras.relu6_core (w w' : World) (c : DenseCfg) (l : KDense) (prev r : QRes)
    (h : l.quantize w c prev = some (w', r)) (hact : upper l.actName = "RELU6".toList) (pre : Arr ℚ)
    (hpre : l.pre prev.data = some pre) (hal : ReluAlive pre.flat) (W : ℚ) (hW : SpreadLe pre.flat W) (hW6 : W ≤ 3072)
    (hd : ∀ q, quantization c.biasAddDtype = some q → Fits32 q.min q.max ∧ q.min < q.max) :
    ∃ o op, r.ops = [op] ∧ op.outputs = [o] ∧ r.out = some o ∧ 0 < (w'.nodes o.id).scale ∧
      Code (w'.nodes o.id).quant.min (w'.nodes o.id).quant.max (w'.nodes o.id).zp ∧
      ∃ m M, -(W / 512) ≤ m ∧ m ≤ 0 ∧ 0 < M ∧ (∀ x ∈ pre.flat, 0 ≤ x → x ≤ 6 → x ≤ M) ∧
        ((∃ x ∈ pre.flat, x ≤ 6) → M ≤ 6 + W / 512 ∧ ∀ x ∈ pre.flat, x ≤ M ∨ 6 - W / 512 < M) ∧
        ((∀ x ∈ pre.flat, 7 < x) → ∀ x ∈ pre.flat, x ≤ M) ∧
      ∀ x, |real (w'.nodes o.id).zp (w'.nodes o.id).scale
          (Quantization.quantize (w'.nodes o.id).quant x (w'.nodes o.id).zp (w'.nodes o.id).scale) -
          clip m M x| ≤ (w'.nodes o.id).scale / 2 := by
  obtain ⟨q, d, s, zp, o, h1, h2, h3, h4, h5, h6, h7, h8, op, h9, h10⟩ :=
    Keras.skip_output h (by rw [hact]; decide) pre hpre
  obtain ⟨hf, hq⟩ := hd q h1
  have hne : pre.flat ≠ [] := by
    obtain ⟨x, hx, -⟩ := hal; exact List.ne_nil_of_mem hx
  have hw := Dist.spread_bin _ hne W hW
  have hw' : ((Dist.outer pre.flat).2 - (Dist.outer pre.flat).1) / (512 : ℕ) ≤ W / 512 := by
    push_cast; gcongr
  obtain ⟨d', m, M, e1, e2, e3, e4, e5, e6, e7, e8, e9⟩ := Dist.relu_slice pre.flat hne 512 (by omega) _ rfl
    (Dist.alive_bin _ hne hal) (some 6) (by intro v hv; injection hv with hv; subst hv; linarith)
  simp only [Option.getD_some] at e6 e7 e8 e9
  have htrim : l.trim (Dist.build pre.flat) = some d' := by
    unfold KDense.trim
    rw [if_neg (by rw [hact]; decide), if_pos hact]; exact e1
  rw [htrim] at h2
  injection h2 with h2
  subst h2
  have hlt : min m 0 < max M 0 := lt_of_le_of_lt (min_le_right _ _) (lt_of_lt_of_le e5 (le_max_left _ _))
  obtain ⟨k1, k2, k3⟩ := Dist.quantize_saturates d' q hf hq m M e2 e3 hlt s zp h3
  rw [← h5, ← h6, ← h7, max_eq_left e5.le] at k3
  rw [← h6] at k1
  rw [← h5, ← h7] at k2
  have hos := Dist.outer_spec _ hne
  refine ⟨o, op, h9, h10, h4, k1, k2, min m 0, M, ?_, min_le_right _ _, e5, e6, ?_, ?_, k3⟩
  · apply le_min
    · linarith
    · have : 0 ≤ W / 512 := div_nonneg (by linarith [hos.1]) (by norm_num)
      linarith
  · rintro ⟨x, hx, hx6⟩
    have := e7 (le_trans (hos.2 x hx).1 hx6)
    refine ⟨by linarith, fun x hx => ?_⟩
    rcases e8 x hx with h | h
    · exact Or.inl h
    · right; linarith
  · intro hall x hx
    have hgt : 6 < (Dist.outer pre.flat).1 := by
      rcases Dist.outer_cases _ hne with ⟨c, hc, e⟩ | ⟨g, -⟩
      · have := hall x hx
        rw [hc x hx] at this
        rw [e]; simp only; linarith
      · have := hall _ g; linarith
    rw [e9 hgt]
    exact (hos.2 x hx).2

/-- C60 (ReLU6).  A dense layer with activation `relu6` exports a single operator whose calibrated output is within half a
step plus one 512th of the spread of `min(max(x, 0), 6)` for every calibration pre-activation `x` — provided the largest
pre-activation exceeds one 512th of the spread, the spread is at most 3072, and some pre-activation is at most 6. -/
theorem C60_fused_relu6 (w w' : World) (c : DenseCfg) (l : KDense) (prev r : QRes)
    (h : l.quantize w c prev = some (w', r)) (hact : upper l.actName = "RELU6".toList) (pre : Arr ℚ)
    (hpre : l.pre prev.data = some pre) (hal : ReluAlive pre.flat) (W : ℚ) (hW : SpreadLe pre.flat W) (hW6 : W ≤ 3072)
    (h6 : ∃ x ∈ pre.flat, x ≤ 6)
    (hd : ∀ q, quantization c.biasAddDtype = some q → Fits32 q.min q.max ∧ q.min < q.max) :
    ∃ o op, r.ops = [op] ∧ op.outputs = [o] ∧ r.out = some o ∧ 0 < (w'.nodes o.id).scale ∧
      Code (w'.nodes o.id).quant.min (w'.nodes o.id).quant.max (w'.nodes o.id).zp ∧
      ∀ x ∈ pre.flat, |real (w'.nodes o.id).zp (w'.nodes o.id).scale
          (Quantization.quantize (w'.nodes o.id).quant x (w'.nodes o.id).zp (w'.nodes o.id).scale) -
          min (max x 0) 6| ≤ W / 512 + (w'.nodes o.id).scale / 2 := by
  obtain ⟨o, op, k1, k2, k3, k4, k5, m, M, m1, m2, M1, M2, M3, -, k⟩ :=
    relu6_core w w' c l prev r h hact pre hpre hal W hW hW6 hd
  obtain ⟨M3, M4⟩ := M3 h6
  refine ⟨o, op, k1, k2, k3, k4, k5, fun x hx => ?_⟩
  have kx := abs_le.mp (k x)
  have hW0 : 0 ≤ W := by have := hW.1 x hx x hx; linarith
  have hW5 : 0 ≤ W / 512 := div_nonneg hW0 (by norm_num)
  have key : |clip m M x - min (max x 0) 6| ≤ W / 512 := by
    rcases lt_or_ge x 0 with h0 | h0
    · rw [max_eq_right h0.le, min_eq_left (by norm_num)]
      have b1 : clip m M x ≤ 0 := by
        have := clip_mono (lo := m) (hi := M) h0.le
        rwa [clip_of_mem m2 M1.le] at this
      have b2 : m ≤ clip m M x := clip_ge (by linarith)
      rw [abs_le]; constructor <;> linarith
    · rw [max_eq_left h0]
      rcases le_or_gt x 6 with h1 | h1
      · rw [min_eq_left h1, clip_of_mem (by linarith) (M2 x hx h0 h1)]
        simpa using hW5
      · rw [min_eq_right h1.le]
        rcases le_total x M with h2 | h2
        · rw [clip_of_mem (by linarith) h2, abs_le]; constructor <;> linarith
        · rw [clip_of_ge h2, abs_le]
          rcases M4 x hx with h3 | h3 <;> constructor <;> linarith
  have := abs_le.mp key
  rw [abs_le]; constructor <;> linarith

/-- C60 (ReLU6, exception).  If every pre-activation exceeds 7, the clip at 6 is lost: the exported layer reproduces the
pre-activations themselves (numbers above 7) within half a step. -/
theorem C60_relu6_lost (w w' : World) (c : DenseCfg) (l : KDense) (prev r : QRes)
    (h : l.quantize w c prev = some (w', r)) (hact : upper l.actName = "RELU6".toList) (pre : Arr ℚ)
    (hpre : l.pre prev.data = some pre) (W : ℚ) (hW : SpreadLe pre.flat W) (hW6 : W ≤ 3072)
    (h7 : ∀ x ∈ pre.flat, 7 < x) (hne : pre.flat ≠ [])
    (hd : ∀ q, quantization c.biasAddDtype = some q → Fits32 q.min q.max ∧ q.min < q.max) :
    ∃ o, r.out = some o ∧ 0 < (w'.nodes o.id).scale ∧
      ∀ x ∈ pre.flat, |real (w'.nodes o.id).zp (w'.nodes o.id).scale
          (Quantization.quantize (w'.nodes o.id).quant x (w'.nodes o.id).zp (w'.nodes o.id).scale) - x| ≤
          (w'.nodes o.id).scale / 2 := by
  have hal : ReluAlive pre.flat := by
    obtain ⟨x, hx⟩ := List.exists_mem_of_ne_nil _ hne
    have := h7 x hx
    exact ⟨x, hx, fun y hy => by have := h7 y hy; linarith⟩
  obtain ⟨o, op, k1, k2, k3, k4, k5, m, M, m1, m2, M1, M2, -, M3, k⟩ :=
    relu6_core w w' c l prev r h hact pre hpre hal W hW hW6 hd
  refine ⟨o, k3, k4, fun x hx => ?_⟩
  have := k x
  rwa [clip_of_mem (by linarith [h7 x hx]) (M3 h7 x hx)] at this

/-- C60 (dead layer).  If the calibration pre-activations of a `relu` layer are not all equal, all negative, and at least
one 512th of their spread below zero, quantization raises an exception. -/
theorem C60_dead_raises (w : World) (c : DenseCfg) (l : KDense) (prev : QRes)
    (hact : upper l.actName = "RELU".toList) (pre : Arr ℚ) (hpre : l.pre prev.data = some pre)
    (hneg : ∀ x ∈ pre.flat, x < 0) (hvar : ∃ x ∈ pre.flat, ∃ y ∈ pre.flat, x ≠ y)
    (hfar : ∀ x ∈ pre.flat, ∀ y ∈ pre.flat, x - y ≤ -512 * x) :
    l.quantize w c prev = none := by
  rw [Option.eq_none_iff_forall_not_mem]
  rintro ⟨w', r⟩ h
  obtain ⟨q, d, s, zp, o, h1, h2, h3, -⟩ := Keras.skip_output h (by rw [hact]; decide) pre hpre
  obtain ⟨x, hx, y, hy, hxy⟩ := hvar
  have hne := List.ne_nil_of_mem hx
  have hout : (Dist.outer pre.flat).1 ∈ pre.flat ∧ (Dist.outer pre.flat).2 ∈ pre.flat := by
    rcases Dist.outer_cases _ hne with ⟨c, hc, e⟩ | ⟨g1, g2, -⟩
    · exact absurd ((hc x hx).trans (hc y hy).symm) hxy
    · exact ⟨g1, g2⟩
  have := Dist.relu_dead pre.flat hne 512 (by omega) (hneg _ hout.2) (by
    rw [div_le_iff₀ (by norm_num)]
    have := hfar _ hout.2 _ hout.1
    push_cast; linarith) q none none false
  unfold KDense.trim at h2
  rw [if_pos hact] at h2
  change Dist.getSlice _ _ _ = _ at h2
  rw [h2] at this
  simp only [Option.bind_some] at this
  rw [this] at h3
  cases h3

/-! ### Concrete cases -/

namespace C60Case

/-- One unit, kernel `[[1]]`, no bias. -/
def layer (act : String) : KDense :=
  { name := "d", units := 1, kernel := [[1]], bias := none, actName := act, act := fun x => max x 0 }

/-- A world with the input node. -/
def world : World := (World.empty (Node.base 0 0 (intDtype 7))).alloc (Node.base 1 0 (intDtype 7))

/-- The previous result: calibration data `X`. -/
def prev (X : List (List ℚ)) : QRes := { data := .mat X, out := some ⟨0, true⟩, ops := [] }

/-- Scale and zero point of the layer's output node. -/
def outParams (act : String) (X : List (List ℚ)) : Option (ℚ × ℤ) :=
  ((layer act).quantize world {} (prev X)).map (fun p => ((p.1.nodes 3).scale, (p.1.nodes 3).zp))

example : upper (layer "relu").actName = "RELU".toList := by decide
example : (layer "relu").pre (prev [[-100], [1]]).data = some (.mat [[-100], [1]]) := by decide +kernel
example : ReluAlive [-100, 1] := ⟨1, by simp, by simp; norm_num⟩
example : SpreadLe [-100, 1] 101 := ⟨by simp; norm_num, Or.inl (by norm_num)⟩
example : (quantization ({} : DenseCfg).biasAddDtype).map (fun q => (q.min, q.max)) = some (-128, 127) := by
  decide +kernel

/-- The bound in `C60_fused_relu` is not slack: for pre-activations -100 and 1 the zero point is -88, not the lowest code
-128, and the rectified layer represents -100 by `-101/544 ≈ -0.186`. -/
example : outParams "relu" [[-100], [1]] = some (101 / 21760, -88) ∧
    real (-88) (101 / 21760) (Quantization.quantize (intDtype 7) (-100) (-88) (101 / 21760)) = -101 / 544 := by
  decide +kernel

/-- `relu6` with pre-activations -3 and 4: nothing is clipped. -/
example : (outParams "relu6" [[-3], [4]]).isSome = true ∧ ReluAlive [-3, 4] ∧ SpreadLe [-3, 4] 7 ∧ (7 : ℚ) ≤ 3072 := by
  refine ⟨by decide +kernel, ⟨4, by simp, by simp; norm_num⟩, ⟨by simp; norm_num, Or.inl (by norm_num)⟩, by norm_num⟩

/-- `relu6` with pre-activations 8 and 20: the output represents 20. -/
example : ∃ s zp, outParams "relu6" [[8], [20]] = some (s, zp) ∧
    real zp s (Quantization.quantize (intDtype 7) 20 zp s) = 20 :=
  ⟨4 / 51, -128, by decide +kernel⟩

/-- A dead layer: pre-activations -100 and -1. -/
example : (outParams "relu" [[-100], [-1]]) = none := by decide +kernel

end C60Case

end Verif
