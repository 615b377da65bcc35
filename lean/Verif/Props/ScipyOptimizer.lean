import Verif.Props.Metrics
import Verif.Lemmas.KernelExport

/-!
# C87: the noise-driven range search (`ScipyOptimizer`)
-/

namespace Verif

open Spec Metrics

namespace Metrics

theorem outer_of {a : List ℚ} {lo hi : ℚ} (hlo : lo ∈ a) (hhi : hi ∈ a) (hb : ∀ x ∈ a, lo ≤ x ∧ x ≤ hi) (hne : lo ≠ hi) :
    Dist.outer a = (lo, hi) := by
  have h1 : a.min? = some lo := List.min?_eq_some_iff.mpr ⟨hlo, fun x hx => (hb x hx).1⟩
  have h2 : a.max? = some hi := List.max?_eq_some_iff.mpr ⟨hhi, fun x hx => (hb x hx).2⟩
  unfold Dist.outer
  rw [h1, h2]
  simp [hne]

theorem edges_ends (a : List ℚ) (n : ℕ) (hn : 1 ≤ n) :
    (Dist.build a n).edges.head? = some (Dist.outer a).1 ∧ (Dist.build a n).edges.getLast? = some (Dist.outer a).2 ∧
      (Dist.build a n).edges.getD 0 0 = (Dist.outer a).1 ∧ (Dist.build a n).edges.getD n 0 = (Dist.outer a).2 := by
  have hE : (Dist.build a n).edges = Dist.linEdges (Dist.outer a).1 (Dist.outer a).2 n := rfl
  have hn0 : (n : ℚ) ≠ 0 := by exact_mod_cast (by omega : n ≠ 0)
  have e0 : (Dist.build a n).edges[0]? = some (Dist.outer a).1 := by
    rw [hE, Dist.linEdges_get _ _ _ _ (by omega)]; simp
  have en : (Dist.build a n).edges[n]? = some (Dist.outer a).2 := by
    rw [hE, Dist.linEdges_get _ _ _ _ (le_refl _)]
    rw [Option.some.injEq]
    field_simp
    ring
  refine ⟨?_, ?_, ?_, ?_⟩
  · rw [List.head?_eq_getElem?, e0]
  · rw [List.getLast?_eq_getElem?, hE, Dist.linEdges_length, Nat.add_sub_cancel, ← hE, en]
  · rw [List.getD_eq_getElem?_getD, e0]; rfl
  · rw [List.getD_eq_getElem?_getD, en]; rfl

theorem full_slice (a : List ℚ) (ha : a ≠ []) (n : ℕ) (hn : 3 ≤ n) :
    (Dist.build a n).getSlice (some (Dist.outer a).1) (some (Dist.outer a).2) = some (Dist.build a n) := by
  obtain ⟨h1, h2⟩ := Optim.build_extremes a ha n hn
  have := C32_full_slice a ha n hn
  unfold Dist.getSlice at this ⊢
  rw [h1, h2] at this
  exact this

/-- A value the int8 round trip returns inside the data's range. -/
theorem some_back (lo hi : ℚ) (hlt : lo < hi) (s : ℚ) (zp : ℤ)
    (hs : s = (max hi 0 - min lo 0) / (((127 : ℤ) : ℚ) - ((-128 : ℤ) : ℚ)))
    (hz : zp = roundHalfEven ((min lo 0 * ((127 : ℤ) : ℚ) - max hi 0 * ((-128 : ℤ) : ℚ)) / (min lo 0 - max hi 0))) :
    ∃ x, (x = lo ∨ x = hi) ∧ lo ≤ real zp s (clip (-128) 127 (roundHalfUp (x / s + zp))) ∧
      real zp s (clip (-128) 127 (roundHalfUp (x / s + zp))) ≤ hi := by
  obtain ⟨mn, hmn⟩ : ∃ mn, mn = min lo 0 := ⟨_, rfl⟩
  obtain ⟨mx, hmx⟩ : ∃ mx, mx = max hi 0 := ⟨_, rfl⟩
  rw [← hmn, ← hmx] at hs hz
  have hd : 0 < mx - mn := by
    rw [hmn, hmx]
    have := min_le_left lo 0
    have := le_max_left hi 0
    linarith
  have hs' : s = (mx - mn) / 255 := by rw [hs]; norm_num
  have hs0 : 0 < s := by rw [hs']; positivity
  have hd' : mn - mx ≠ 0 := by linarith
  obtain ⟨r, hr⟩ : ∃ r, r = (mn * ((127 : ℤ) : ℚ) - mx * ((-128 : ℤ) : ℚ)) / (mn - mx) := ⟨_, rfl⟩
  rw [← hr] at hz
  have hmnr : mn / s + r = -128 := by
    rw [hr, hs']; push_cast
    have : mx - mn ≠ 0 := hd.ne'
    rw [show mn - mx = -(mx - mn) by ring]
    field_simp
    ring
  have hmxr : mx / s + r = 127 := by
    rw [hr, hs']; push_cast
    have : mx - mn ≠ 0 := hd.ne'
    rw [show mn - mx = -(mx - mn) by ring]
    field_simp
    ring
  have hδ := abs_le.mp (abs_roundHalfEven_sub_le r)
  rw [← hz] at hδ
  have hcode : ∀ k : ℤ, real zp s k = s * (k - zp) := fun k => by unfold real; ring
  -- the two ends
  have low : ∀ x, x = mn → (zp : ℚ) ≤ r → real zp s (clip (-128) 127 (roundHalfUp (x / s + zp))) = mn + s * (r - zp) := by
    rintro x rfl hle
    have : roundHalfUp (x / s + zp) ≤ -128 := by
      have : roundHalfUp (x / s + zp) < -127 := by
        unfold roundHalfUp
        rw [Int.floor_lt]; push_cast; linarith
      omega
    rw [clip_of_le (by norm_num) this, hcode]
    push_cast
    have : x = s * (-128 - r) := by rw [← hmnr]; field_simp; ring
    rw [this]; ring
  have high : ∀ x, x = mx → r ≤ (zp : ℚ) → real zp s (clip (-128) 127 (roundHalfUp (x / s + zp))) = mx - s * (zp - r) := by
    rintro x rfl hle
    have : 127 ≤ roundHalfUp (x / s + zp) := by
      unfold roundHalfUp
      rw [Int.le_floor]; push_cast; linarith
    rw [clip_of_ge this, hcode]
    push_cast
    have : x = s * (127 - r) := by rw [← hmxr]; field_simp; ring
    rw [this]; ring
  by_cases h1 : 0 ≤ lo
  · have e1 : mn = 0 := by rw [hmn]; exact min_eq_right h1
    have e2 : mx = hi := by rw [hmx]; exact max_eq_left (by linarith)
    have hr' : r = ((-128 : ℤ) : ℚ) := by rw [e1, zero_div, zero_add] at hmnr; rw [hmnr]; norm_num
    have hz' : (zp : ℚ) = r := by rw [hz, hr', roundHalfEven_int]
    refine ⟨hi, .inr rfl, ?_⟩
    rw [high hi e2.symm hz'.ge, e2, hz']
    constructor <;> nlinarith
  · by_cases h2 : hi ≤ 0
    · have e1 : mn = lo := by rw [hmn]; exact min_eq_left (by linarith)
      have e2 : mx = 0 := by rw [hmx]; exact max_eq_right h2
      have hr' : r = ((127 : ℤ) : ℚ) := by rw [e2, zero_div, zero_add] at hmxr; rw [hmxr]; norm_num
      have hz' : (zp : ℚ) = r := by rw [hz, hr', roundHalfEven_int]
      refine ⟨lo, .inl rfl, ?_⟩
      rw [low lo e1.symm hz'.le, e1, hz']
      constructor <;> nlinarith
    · have e1 : mn = lo := by rw [hmn]; exact min_eq_left (by linarith)
      have e2 : mx = hi := by rw [hmx]; exact max_eq_left (by linarith)
      have hsd : s * 255 = hi - lo := by rw [hs', e1, e2]; field_simp
      rcases le_total (zp : ℚ) r with hle | hle
      · refine ⟨lo, .inl rfl, ?_⟩
        rw [low lo e1.symm hle, e1]
        constructor <;> nlinarith
      · refine ⟨hi, .inr rfl, ?_⟩
        rw [high hi e2.symm hle, e2]
        constructor <;> nlinarith

/-- A slice keeps every value between its bounds. -/
theorem slice_keeps (a : List ℚ) (n : ℕ) (hn : 1 ≤ n) (x0 x1 : ℚ) (hx : x0 ≤ x1) (h0 : (Dist.outer a).1 ≤ x0)
    (h1 : x1 ≤ (Dist.outer a).2) :
    ∃ d, (Dist.build a n).getSlice (some x0) (some x1) = some d ∧ ∀ v ∈ a, x0 ≤ v → v ≤ x1 → v ∈ d.sorted := by
  have hinv := Dist.inv_build a n hn
  obtain ⟨-, -, e0, en⟩ := edges_ends a n hn
  have hlenH : (Dist.build a n).hist.length = n := by
    show (Dist.counts a (Dist.linEdges _ _ n)).length = n
    simp [Dist.counts, Dist.linEdges_length]
  have hlenE := hinv.len
  have hmem : ∀ v ∈ a, v ∈ (Dist.build a n).sorted := fun v hv => (Dist.sorted_perm a).mem_iff.mpr hv
  unfold Dist.getSlice
  simp only [Option.bind_eq_bind, Option.bind_some, Optim.binSize_build a n hn]
  split_ifs with hc
  · refine ⟨_, rfl, ?_⟩
    intro v hv hv0 hv1
    refine (Dist.sorted_perm _).mem_iff.mpr ?_
    rw [Dist.slice_eq_filter _ hinv.data _ _ hx, List.mem_filter]
    exact ⟨hmem v hv, by simpa using ⟨hv0, hv1⟩⟩
  · rw [Dist.clone_eq _ hinv _ _ hx]
    refine ⟨_, rfl, ?_⟩
    intro v hv hv0 hv1
    rw [List.mem_filter, decide_eq_true_eq]
    refine ⟨hmem v hv, ?_, ?_⟩
    · refine le_trans ?_ hv0
      unfold Dist.cloneLo
      rcases Dist.lastEdgeLe_spec (Dist.build a n).edges x0 0 with ⟨h, _⟩ | ⟨_, h, _⟩
      · rw [h, e0]; exact h0
      · exact h
    · refine le_trans hv1 ?_
      unfold Dist.cloneHi
      rcases Dist.lastEdgeLe_spec (Dist.build a n).edges x1 (Dist.build a n).hist.length with ⟨h, _⟩ | ⟨h, _, h'⟩
      · rw [h, min_eq_right (by omega), hlenH, en]; exact h1
      · rcases Nat.lt_or_ge (Dist.lastEdgeLe (Dist.build a n).edges x1 (Dist.build a n).hist.length + 1)
          (Dist.build a n).hist.length with hlt | hge
        · rw [min_eq_left hlt.le]
          by_contra hcon
          have := h' (Dist.lastEdgeLe (Dist.build a n).edges x1 (Dist.build a n).hist.length + 1) (by omega)
            (not_le.mp hcon).le
          omega
        · rw [min_eq_right hge, hlenH, en]; exact h1

end Metrics

/-- C87 (narrow data).  If all values of the data differ by less than 1, every candidate range has the same cost, whatever
the metric and the type: the search cannot prefer any. -/
theorem C87_narrow (Q : GDtype) (m : Metric) (a : List ℚ) (n : ℕ) (hn : 1 ≤ n) (lo hi : ℚ) (hlo : lo ∈ a) (hhi : hi ∈ a)
    (hb : ∀ x ∈ a, lo ≤ x ∧ x ≤ hi) (hne : lo ≠ hi) (hw : hi - lo < 1) (x0 x1 : ℚ) :
    scipyCost Q m (Dist.build a n) x0 x1 = some (some 999999999) := by
  obtain ⟨h1, h2, -, -⟩ := edges_ends a n hn
  rw [outer_of hlo hhi hb hne] at h1 h2
  unfold scipyCost
  rw [h1, h2]
  simp only [Option.bind_eq_bind, Option.bind_some]
  rw [if_pos]
  by_contra hc
  push Not at hc
  obtain ⟨c1, c2, c3⟩ := hc
  linarith

/-- C87 (wide data).  If the data spans at least 1, the full range, where the search starts, has a finite cost: for an int8
type and `mse` it is between 0 and 2 divided by the number of bins. -/
theorem C87_start (a : List ℚ) (n : ℕ) (hn : 3 ≤ n) (lo hi : ℚ) (hlo : lo ∈ a) (hhi : hi ∈ a)
    (hb : ∀ x ∈ a, lo ≤ x ∧ x ≤ hi) (hw : 1 ≤ hi - lo) :
    ∃ v, scipyCost (intDtype 7) .mse (Dist.build a n) lo hi = some (some v) ∧ 0 ≤ v ∧ v ≤ 2 / n := by
  have ha : a ≠ [] := List.ne_nil_of_mem hlo
  have hlt : lo < hi := by linarith
  have ho := outer_of hlo hhi hb hlt.ne
  obtain ⟨h1, h2, h3, h4⟩ := edges_ends a n (by omega)
  obtain ⟨hm, hM⟩ := Optim.build_extremes a ha n hn
  have hf := full_slice a ha n hn
  rw [ho] at h1 h2 h3 h4 hm hM hf
  simp only at h1 h2 h3 h4 hm hM hf
  have hinv := Dist.inv_build a n (by omega)
  have hlt' : min lo 0 < max hi 0 :=
    lt_of_le_of_lt (min_le_left _ _) (lt_of_lt_of_le hlt (le_max_left _ _))
  have hq := Dist.quantize_eq (Dist.build a n) (intDtype 7) false lo hi hm hM hlt' (by decide +kernel)
  have hcal : calLo (intDtype 7) false = -128 := by decide +kernel
  have hmax : (intDtype 7).max = 127 := by decide +kernel
  rw [hcal, hmax] at hq
  obtain ⟨s, hs⟩ : ∃ s, s = (max hi 0 - min lo 0) / (((127 : ℤ) : ℚ) - ((-128 : ℤ) : ℚ)) := ⟨_, rfl⟩
  obtain ⟨zp, hz⟩ : ∃ zp, zp = roundHalfEven ((min lo 0 * ((127 : ℤ) : ℚ) - max hi 0 * ((-128 : ℤ) : ℚ)) /
    (min lo 0 - max hi 0)) := ⟨_, rfl⟩
  rw [← hs, ← hz] at hq
  obtain ⟨x, hx, b1, b2⟩ := some_back lo hi hlt s zp hs hz
  have hzc : Code (-128) 127 zp := by
    obtain ⟨s', z', hq', -, hc⟩ := C29_valid_parameters a ha n hn true (intDtype 7) false (by decide +kernel)
    have : (some (s, zp) : Option (ℚ × ℤ)) = some (s', z') := hq.symm.trans hq'
    rw [Option.some.injEq, Prod.mk.injEq] at this
    rw [this.2]; rw [hcal, hmax] at hc; exact hc
  have hxa : x ∈ a := by rcases hx with rfl | rfl <;> assumption
  obtain ⟨back, hback⟩ : ∃ back, back = Quantization.dequantizeArray
    (Quantization.quantizeArray (intDtype 7) (Dist.build a n).sorted zp s) zp s := ⟨_, rfl⟩
  have hmin : (intDtype 7).min = -128 := by decide +kernel
  have hmemb : real zp s (clip (-128) 127 (roundHalfUp (x / s + zp))) ∈ back := by
    rw [hback, Keras.quantizeArray_eq]
    unfold Quantization.dequantizeArray
    rw [List.map_map]
    refine List.mem_map.mpr ⟨x, (Dist.sorted_perm a).mem_iff.mpr hxa, ?_⟩
    show Quantization.dequantize (Quantization.quantize (intDtype 7) x zp s) zp s = _
    rw [quantize_eq (by decide +kernel), hmin, hmax]
    obtain ⟨z1, z2⟩ := hzc
    have c1 : (-128 : ℤ) ≤ clip (-128) 127 (roundHalfUp (x / s + zp)) := clip_ge (by norm_num)
    have c2 : clip (-128) 127 (roundHalfUp (x / s + zp)) ≤ 127 := clip_le
    rw [dequantize_eq (by unfold IsInt32; omega) (by unfold IsInt32; omega)]
  have hlenH : (Dist.build a n).hist.length = n := by
    show (Dist.counts a (Dist.linEdges _ _ n)).length = n
    simp [Dist.counts, Dist.linEdges_length]
  have hlenE : (Dist.build a n).edges.length = n + 1 := by rw [hinv.len, hlenH]
  have hpw : (Dist.build a n).edges.Pairwise (· ≤ ·) := hinv.inc.imp (fun h => le_of_lt h)
  obtain ⟨k, rfl⟩ : ∃ k, n = k + 1 := ⟨n - 1, by omega⟩
  have hsum : (Dist.counts back (Dist.build a (k + 1)).edges).sum ≠ 0 := by
    rw [counts_sum back _ hpw k hlenE, Ne, List.countP_eq_zero]
    intro hc
    apply hc _ hmemb
    rw [decide_eq_true_eq, h3, h4]
    exact ⟨b1, b2⟩
  obtain ⟨v, v1, -, v3, v4, -⟩ := C86_mse (Dist.build a (k + 1))
    { sorted := back.mergeSort (fun x y => decide (x ≤ y)), edges := (Dist.build a (k + 1)).edges,
      hist := Dist.counts back (Dist.build a (k + 1)).edges, partialBins := true }
    (by rw [hlenH]; simp [Dist.counts, hlenE]) (by rw [build_total a _ (by omega)]; simpa using ha) hsum
  refine ⟨v, ?_, v3, by rw [hlenH] at v4; exact v4⟩
  unfold scipyCost
  rw [h1, h2]
  simp only [Option.bind_eq_bind, Option.bind_some]
  rw [if_neg (by push Not; exact ⟨hw, le_refl _, le_refl _⟩), hf, Option.bind_some, hq, Option.bind_some]
  simp only
  rw [← hback]
  unfold Optim.buildOn
  rw [if_pos hpw, Option.bind_some]
  exact v1

/-- C87 (result).  If the data spans at least 1 and the minimiser returns a range that is no worse than the start, that
range is at least 1 wide and inside the data, and the trimmed distribution keeps every value in it. -/
theorem C87_result (Q : GDtype) (m : Metric) (a : List ℚ) (n : ℕ) (hn : 1 ≤ n) (lo hi : ℚ) (hlo : lo ∈ a) (hhi : hi ∈ a)
    (hb : ∀ x ∈ a, lo ≤ x ∧ x ≤ hi) (hne : lo ≠ hi) (v w : ℝ)
    (_hv : scipyCost Q m (Dist.build a n) lo hi = some (some v)) (hv' : v < 999999999) (x : ℚ × ℚ)
    (hx : scipyCost Q m (Dist.build a n) x.1 x.2 = some (some w)) (hw : w ≤ v) :
    1 ≤ hi - lo ∧ 1 ≤ x.2 - x.1 ∧ lo ≤ x.1 ∧ x.2 ≤ hi ∧
      ∃ d, scipyTrim x (Dist.build a n) = some d ∧ ∀ u ∈ a, x.1 ≤ u → u ≤ x.2 → u ∈ d.sorted := by
  have ho := outer_of hlo hhi hb hne
  obtain ⟨h1, h2, -, -⟩ := edges_ends a n hn
  rw [ho] at h1 h2
  have hg : ¬ (x.2 - x.1 < 1 ∨ x.1 < lo ∨ hi < x.2) := by
    intro hc
    unfold scipyCost at hx
    rw [h1, h2] at hx
    simp only [Option.bind_eq_bind, Option.bind_some] at hx
    rw [if_pos hc, Option.some.injEq, Option.some.injEq] at hx
    linarith
  push Not at hg
  obtain ⟨g1, g2, g3⟩ := hg
  refine ⟨by linarith, g1, g2, g3, ?_⟩
  exact slice_keeps a n hn x.1 x.2 (by linarith) (by rw [ho]; exact g2) (by rw [ho]; exact g3)

/-- The values that fall in the `k`-th of `n` equal parts of `[lo, hi]`; the last part is closed. -/
def Spec.InPart (lo hi : ℚ) (n k : ℕ) (v : ℚ) : Prop :=
  lo + (hi - lo) * k / n ≤ v ∧ (v < lo + (hi - lo) * (k + 1) / n ∨ k + 1 = n ∧ v ≤ hi)

instance (lo hi : ℚ) (n k : ℕ) (v : ℚ) : Decidable (Spec.InPart lo hi n k v) := by
  unfold Spec.InPart; infer_instance

/-- For each of `n` equal parts of `[lo, hi]`, the share of the values in `[lo, hi]` that fall in it. -/
noncomputable def Spec.shares (lo hi : ℚ) (n : ℕ) (data : List ℚ) : List ℝ :=
  (List.range n).map (fun k => (data.countP (fun v => decide (Spec.InPart lo hi n k v)) : ℝ) /
    (data.countP (fun v => decide (lo ≤ v ∧ v ≤ hi)) : ℝ))

namespace Metrics

theorem shares_counts (lo hi : ℚ) (hlt : lo < hi) (n : ℕ) (hn : 1 ≤ n) (data : List ℚ) :
    (Dist.counts data (Dist.linEdges lo hi n)).sum = data.countP (fun v => decide (lo ≤ v ∧ v ≤ hi)) ∧
    ((∃ v ∈ data, lo ≤ v ∧ v ≤ hi) → ∃ p, normalize (Dist.counts data (Dist.linEdges lo hi n)) = some p ∧
      p.map (fun (x : ℚ) => (x : ℝ)) = Spec.shares lo hi n data) := by
  obtain ⟨k, rfl⟩ : ∃ k, n = k + 1 := ⟨n - 1, by omega⟩
  have hn0 : ((k + 1 : ℕ) : ℚ) ≠ 0 := by positivity
  have hget : ∀ i, i ≤ k + 1 → (Dist.linEdges lo hi (k + 1)).getD i 0 = lo + (hi - lo) * i / ((k + 1 : ℕ) : ℚ) := by
    intro i hi'
    rw [List.getD_eq_getElem?_getD, Dist.linEdges_get _ _ _ _ hi']; rfl
  have hlen := Dist.linEdges_length lo hi (k + 1)
  have hpw : (Dist.linEdges lo hi (k + 1)).Pairwise (· ≤ ·) := by
    unfold Dist.linEdges
    rw [List.pairwise_map]
    refine List.Pairwise.imp ?_ List.pairwise_lt_range
    intro a b hab
    have h1 : (a : ℚ) ≤ b := by exact_mod_cast hab.le
    have h2 : 0 ≤ hi - lo := by linarith
    gcongr
  have hend : lo + (hi - lo) * ((k + 1 : ℕ) : ℚ) / ((k + 1 : ℕ) : ℚ) = hi := by field_simp; ring
  have hsum : (Dist.counts data (Dist.linEdges lo hi (k + 1))).sum =
      data.countP (fun v => decide (lo ≤ v ∧ v ≤ hi)) := by
    rw [counts_sum data _ hpw k hlen, hget 0 (by omega), hget (k + 1) le_rfl, hend]
    simp
  refine ⟨hsum, ?_⟩
  rintro ⟨v, hv, hv'⟩
  have hpos : data.countP (fun v => decide (lo ≤ v ∧ v ≤ hi)) ≠ 0 := by
    rw [Ne, List.countP_eq_zero]
    intro h
    exact h v hv (by simpa using hv')
  unfold normalize
  rw [hsum, if_neg hpos]
  refine ⟨_, rfl, ?_⟩
  unfold Dist.counts Spec.shares
  rw [hlen, List.map_map, List.map_map]
  show (List.range (k + 1)).map _ = _
  refine List.map_congr_left ?_
  intro i hi'
  rw [List.mem_range] at hi'
  simp only [Function.comp_apply]
  have hc : data.countP (fun x => decide ((Dist.linEdges lo hi (k + 1)).getD i 0 ≤ x ∧
      (x < (Dist.linEdges lo hi (k + 1)).getD (i + 1) 0 ∨
        (i + 2 = k + 1 + 1 ∧ x ≤ (Dist.linEdges lo hi (k + 1)).getD (i + 1) 0)))) =
      data.countP (fun v => decide (Spec.InPart lo hi (k + 1) i v)) := by
    refine List.countP_congr ?_
    intro x _
    rw [hget i (by omega), hget (i + 1) (by omega)]
    simp only [decide_eq_true_eq]
    unfold Spec.InPart
    have e : lo + (hi - lo) * ((i + 1 : ℕ) : ℚ) / ((k + 1 : ℕ) : ℚ) = lo + (hi - lo) * ((i : ℚ) + 1) / ((k + 1 : ℕ) : ℚ) := by
      push_cast; ring
    rw [e]
    refine and_congr_right fun _ => or_congr_right ?_
    constructor
    · rintro ⟨h1, h2⟩
      have : i = k := by omega
      subst this
      refine ⟨rfl, ?_⟩
      rw [← e, hend] at h2; exact h2
    · rintro ⟨h1, h2⟩
      have : i = k := by omega
      subst this
      refine ⟨rfl, ?_⟩
      rw [← e, hend]; exact h2
  rw [hc]
  push_cast
  rfl

theorem counts_perm {a b : List ℚ} (h : a.Perm b) (edges : List ℚ) : Dist.counts a edges = Dist.counts b edges := by
  unfold Dist.counts
  exact List.map_congr_left fun i _ => h.countP_eq _

end Metrics

/-- C87 (cost).  The cost of a candidate range at least 1 wide and inside the data is the metric between two histograms on
the same equal parts of the *whole* range: that of the data, and that of *all* the data sent through the optimizer's type
with the int8 parameters of the values kept by the candidate range. -/
theorem C87_cost (Q : GDtype) (m : Metric) (a : List ℚ) (n : ℕ) (hn : 1 ≤ n) (lo hi : ℚ) (hlo : lo ∈ a) (hhi : hi ∈ a)
    (hb : ∀ x ∈ a, lo ≤ x ∧ x ≤ hi) (x0 x1 : ℚ) (h0 : lo ≤ x0) (h1 : x1 ≤ hi) (hw : 1 ≤ x1 - x0)
    (d : Dist) (hd : (Dist.build a n).getSlice (some x0) (some x1) = some d)
    (s : ℚ) (zp : ℤ) (hq : d.quantize (intDtype 7) = some (s, zp)) (back : List ℚ)
    (hback : back = a.map (fun v => Quantization.dequantize (Quantization.quantize Q v zp s) zp s)) :
    ((∃ v ∈ back, lo ≤ v ∧ v ≤ hi) →
      scipyCost Q m (Dist.build a n) x0 x1 = some (m.onFloats (Spec.shares lo hi n a) (Spec.shares lo hi n back))) ∧
    ((∀ v ∈ back, ¬ (lo ≤ v ∧ v ≤ hi)) → scipyCost Q m (Dist.build a n) x0 x1 = some none) := by
  have hlt : lo < hi := by linarith
  have ho := outer_of hlo hhi hb hlt.ne
  obtain ⟨e1, e2, -, -⟩ := edges_ends a n hn
  have hinv := Dist.inv_build a n hn
  have hpw : (Dist.build a n).edges.Pairwise (· ≤ ·) := hinv.inc.imp (fun h => le_of_lt h)
  have hE : (Dist.build a n).edges = Dist.linEdges lo hi n := by
    show Dist.linEdges (Dist.outer a).1 (Dist.outer a).2 n = _
    rw [ho]
  have hH : (Dist.build a n).hist = Dist.counts a (Dist.linEdges lo hi n) := by
    show Dist.counts a (Dist.linEdges (Dist.outer a).1 (Dist.outer a).2 n) = _
    rw [ho]
  rw [ho] at e1 e2
  obtain ⟨p, hp, hp'⟩ := (shares_counts lo hi hlt n hn a).2 ⟨lo, hlo, hb lo hlo⟩
  have hperm : (Quantization.dequantizeArray (Quantization.quantizeArray Q (Dist.build a n).sorted zp s) zp s).Perm back := by
    rw [hback, Keras.quantizeArray_eq]
    unfold Quantization.dequantizeArray
    rw [List.map_map]
    exact (Dist.sorted_perm a).map _
  have hcost : scipyCost Q m (Dist.build a n) x0 x1 = Metrics.compare m (Dist.build a n)
      { sorted := (Quantization.dequantizeArray (Quantization.quantizeArray Q (Dist.build a n).sorted zp s) zp s).mergeSort
          (fun x y => decide (x ≤ y)), edges := (Dist.build a n).edges,
        hist := Dist.counts (Quantization.dequantizeArray (Quantization.quantizeArray Q (Dist.build a n).sorted zp s) zp s)
          (Dist.build a n).edges, partialBins := true } := by
    unfold scipyCost
    rw [e1, e2]
    simp only [Option.bind_eq_bind, Option.bind_some]
    rw [if_neg (by push Not; exact ⟨hw, h0, h1⟩), hd, Option.bind_some, hq, Option.bind_some]
    simp only
    unfold Optim.buildOn
    rw [if_pos hpw, Option.bind_some]
  have hlen : (Dist.build a n).hist.length =
      (Dist.counts (Quantization.dequantizeArray (Quantization.quantizeArray Q (Dist.build a n).sorted zp s) zp s)
        (Dist.build a n).edges).length := by
    rw [hH, hE]; simp [Dist.counts]
  rw [hcost]
  unfold Metrics.compare
  rw [if_pos hlen]
  simp only [if_true]
  rw [counts_perm hperm, hH, hE, hp]
  constructor
  · intro hv
    obtain ⟨q, hq1, hq2⟩ := (shares_counts lo hi hlt n hn back).2 hv
    rw [hq1]
    simp only [hp', hq2]
  · intro hv
    have : Metrics.normalize (Dist.counts back (Dist.linEdges lo hi n)) = none := by
      unfold Metrics.normalize
      rw [if_pos]
      rw [(shares_counts lo hi hlt n hn back).1, List.countP_eq_zero]
      intro v hv'
      simpa using hv v hv'
    rw [this]

/-- C87 (unsigned types).  The parameters are always those of int8.  With an unsigned 8-bit type and a range of
non-negative values up to `M`, every value in the lower half of the range is evaluated as `128/255·M`: the cost does not
see the lower half of the data. -/
theorem C87_unsigned (d : Dist) (m M : ℚ) (hm : d.getMin = some m) (hM : d.getMax = some M) (h0 : 0 ≤ m) (hpos : 0 < M) :
    ∃ s zp, d.quantize (intDtype 7) = some (s, zp) ∧ s = M / 255 ∧
      ∀ data : List ℚ, Quantization.dequantizeArray (Quantization.quantizeArray (uintDtype 8) data zp s) zp s =
        data.map (fun v => Quantization.dequantize (Quantization.quantize (uintDtype 8) v zp s) zp s) ∧
        ∀ v ∈ data, v ≤ M / 2 → Quantization.dequantize (Quantization.quantize (uintDtype 8) v zp s) zp s = 128 / 255 * M := by
  have hlt' : min m 0 < max M 0 := by rw [min_eq_right h0, max_eq_left hpos.le]; exact hpos
  have hq := Dist.quantize_eq d (intDtype 7) false m M hm hM hlt' (by decide +kernel)
  have hcal : calLo (intDtype 7) false = -128 := by decide +kernel
  have hmax : (intDtype 7).max = 127 := by decide +kernel
  rw [hcal, hmax, min_eq_right h0, max_eq_left hpos.le] at hq
  have e1 : (M - 0) / (((127 : ℤ) : ℚ) - ((-128 : ℤ) : ℚ)) = M / 255 := by norm_num
  have e2 : (0 * ((127 : ℤ) : ℚ) - M * ((-128 : ℤ) : ℚ)) / (0 - M) = ((-128 : ℤ) : ℚ) := by
    rw [zero_mul, zero_sub, zero_sub, neg_div_neg_eq, mul_div_assoc, mul_comm, div_mul_cancel₀ _ hpos.ne']
  rw [e1, e2, roundHalfEven_int] at hq
  refine ⟨M / 255, -128, hq, rfl, fun data => ⟨?_, fun v _ hv => ?_⟩⟩
  · rw [Keras.quantizeArray_eq]
    unfold Quantization.dequantizeArray
    rw [List.map_map]
    rfl
  · have hs : 0 < M / 255 := by positivity
    rw [quantize_eq (by decide +kernel)]
    have e3 : (uintDtype 8).min = 0 := rfl
    have e4 : (uintDtype 8).max = 255 := by decide +kernel
    have h1 : roundHalfUp (v / (M / 255) + ((-128 : ℤ) : ℚ)) ≤ 0 := by
      have : roundHalfUp (v / (M / 255) + ((-128 : ℤ) : ℚ)) < 1 := by
        unfold roundHalfUp
        rw [Int.floor_lt]
        have : v / (M / 255) ≤ 255 / 2 := by
          rw [div_le_iff₀ hs]; linarith
        push_cast
        linarith
      omega
    rw [e3, e4, clip_of_le (by norm_num) h1, dequantize_eq (by decide) (by decide)]
    unfold real
    push_cast
    ring

namespace C87Case

/-- Data spanning more than 1, and data spanning less. -/
def wide : List ℚ := [0, 1, 2, 8]
def narrow : List ℚ := [0, 1 / 8, -1 / 4]

example : ∃ v, scipyCost (intDtype 7) .mse (Dist.build wide 4) 0 8 = some (some v) ∧ 0 ≤ v ∧ v ≤ 1 / 2 := by
  obtain ⟨v, h1, h2, h3⟩ := C87_start wide 4 (by norm_num) 0 8 (by decide) (by decide) (by decide) (by norm_num)
  exact ⟨v, h1, h2, le_trans h3 (by norm_num)⟩

/-- The start itself is a result no worse than the start. -/
example : ∃ d, scipyTrim (0, 8) (Dist.build wide 4) = some d ∧ ∀ u ∈ wide, 0 ≤ u → u ≤ 8 → u ∈ d.sorted := by
  obtain ⟨v, h1, h2, h3⟩ := C87_start wide 4 (by norm_num) 0 8 (by decide) (by decide) (by decide) (by norm_num)
  have hv : v < 999999999 := by norm_num at h3; linarith
  exact (C87_result (intDtype 7) .mse wide 4 (by norm_num) 0 8 (by decide) (by decide) (by decide) (by norm_num) v v h1 hv
    (0, 8) h1 le_rfl).2.2.2.2

/-- The full range of the wide data meets the hypotheses of `C87_cost`. -/
example : ∃ d s zp, (Dist.build wide 4).getSlice (some 0) (some 8) = some d ∧ d.quantize (intDtype 7) = some (s, zp) := by
  have ho : Dist.outer wide = (0, 8) := outer_of (by decide) (by decide) (by decide) (by norm_num)
  have h := full_slice wide (by decide) 4 (by norm_num)
  rw [ho] at h
  obtain ⟨s, z, hq, -⟩ := C29_valid_parameters wide (by decide) 4 (by norm_num) true (intDtype 7) false (by decide +kernel)
  exact ⟨_, s, z, h, hq⟩

example (x0 x1 : ℚ) : scipyCost (uintDtype 8) .kl (Dist.build narrow) x0 x1 = some (some 999999999) :=
  C87_narrow _ _ narrow 512 (by norm_num) (-1 / 4) (1 / 8) (by decide +kernel) (by decide +kernel) (by decide +kernel)
    (by norm_num) (by norm_num) x0 x1

example : (Dist.build wide 4).getMin = some 0 ∧ (Dist.build wide 4).getMax = some 8 := by
  obtain ⟨h1, h2⟩ := Optim.build_extremes wide (by decide) 4 (by norm_num)
  rw [outer_of (a := wide) (lo := 0) (hi := 8) (by decide) (by decide) (by decide) (by norm_num)] at h1 h2
  exact ⟨h1, h2⟩

end C87Case

end Verif
