import Verif.Lemmas.QuboExtra
import Verif.Props.Qubo

/-!
# Properties C79–C81: the two QUBO builders, the matrix files, the QAOA route

Vocabulary as in `Verif.Props.Qubo`.
-/

namespace Verif
open Spec QuboIn Dict

/-! ## C79: the class `ADAInt` -/

/-- C79.  For every layer and every neuron the QUBO built by the class is, entry by entry and in the same order, the one
built by the functions. -/
theorem C79_same_qubo (p : QuboIn) (l : ℕ) (hl : l < p.O) : p.qubos[l]? = some (ADAInt.qubo p l) := by
  rw [p.qubos_eq, List.getElem?_map, List.getElem?_range hl, ADAInt.qubo_eq p l hl]; rfl

/-- The second QUBO of the example layer: nine coefficients. -/
example : (ADAInt.qubo exQubo 1).length = 9 ∧ exQubo.qubos[1]? = some (ADAInt.qubo exQubo 1) := by decide +kernel

/-- C79.  So the class's energy is the error of the rounded neuron as well. -/
theorem C79_energy_is_error (p : QuboIn) (hw : p.sw ≠ 0) (hx : p.sx ≠ 0) (l : ℕ) (hl : l < p.O) (x : ℕ → ℚ)
    (hb : Binary x) :
    bqmEnergy (ADAInt.qubo p l) x =
      roundedError p l (fun i => x (p.kVar l i)) (x (p.bVar l)) - roundedError p l (fun _ => 0) 0 := by
  obtain ⟨J, hJ, e⟩ := C37_energy_is_error p hw hx l hl x hb
  rw [C79_same_qubo p l hl, Option.some.injEq] at hJ
  rw [hJ]; exact e

theorem redondeo_row (p : QuboIn) (l : ℕ) (hl : l < p.O) (f : ℕ → ℚ) :
    tensorRedondeo p.D ((bqmVars (p.ent l)).map f) =
      some ((List.range p.D).map (fun i => f (p.kVar l i)), f (p.bVar l)) := by
  obtain ⟨J, hJ, hv, -⟩ := C39_columns p l hl
  rw [p.qubos_eq, List.getElem?_map, List.getElem?_range hl] at hJ
  cases hJ
  unfold tensorRedondeo
  rw [hv, List.map_append, List.map_map]
  have hlen : (List.map (f ∘ p.kVar l) (List.range p.D)).length = p.D := by simp
  rw [List.take_left' hlen, if_pos hlen, List.getElem?_append_right (by simp)]
  simp [Function.comp]

theorem mapM_range {α : Type} (n : ℕ) (f : ℕ → Option α) (g : ℕ → α) (h : ∀ i < n, f i = some (g i)) :
    (List.range n).mapM f = some ((List.range n).map g) := by
  have gen : ∀ L : List ℕ, (∀ l ∈ L, l < n) → L.mapM f = some (L.map g) := by
    intro L hL
    induction L with
    | nil => rfl
    | cons a L ih =>
      rw [List.mapM_cons, h a (hL a (by simp)), ih (fun m hm => hL m (by simp [hm]))]
      rfl
  exact gen _ (fun l hl => List.mem_range.mp hl)

/-- C79.  The layer is sampled twice, `2 * O` questions in all, and the returned policies come from the last `O` answers
only: entry `(l, i)` is what the sampler gave weight `(l, i)` in its answer number `O + l`; the first `O` answers (those to
the class) never reach the result. -/
theorem C79_second_pass_wins (ask : ℕ → QDict → ℕ → ℚ) (p : QuboIn) :
    ∃ first, quboDenseBoth ask p = some (first,
      (List.range p.O).map (fun l => (List.range p.D).map (fun i => ask (p.O + l) (ADAInt.qubo p l) (p.kVar l i))),
      (List.range p.O).map (fun l => ask (p.O + l) (ADAInt.qubo p l) (p.bVar l))) ∧
    first.1 = (List.range p.O).map (fun l => (List.range p.D).map (fun i => ask l (ADAInt.qubo p l) (p.kVar l i))) ∧
    first.2 = (List.range p.O).map (fun l => ask l (ADAInt.qubo p l) (p.bVar l)) := by
  have q1 := mapM_range p.O (fun l => tensorRedondeo p.D (sampleRow (ask l) (ADAInt.qubo p l)))
    (fun l => ((List.range p.D).map (fun i => ask l (ADAInt.qubo p l) (p.kVar l i)), ask l (ADAInt.qubo p l) (p.bVar l)))
    (fun l hl => by
      rw [ADAInt.qubo_eq p l hl]
      exact redondeo_row p l hl (ask l (p.ent l)))
  have q2 := mapM_range p.O (fun l => tensorRedondeo p.D (sampleRow (ask (p.O + l)) (p.ent l)))
    (fun l => ((List.range p.D).map (fun i => ask (p.O + l) (ADAInt.qubo p l) (p.kVar l i)),
      ask (p.O + l) (ADAInt.qubo p l) (p.bVar l)))
    (fun l hl => by
      rw [ADAInt.qubo_eq p l hl]
      exact redondeo_row p l hl (ask (p.O + l) (p.ent l)))
  have hz : p.qubos.zipIdx.mapM (fun e => tensorRedondeo p.D (sampleRow (ask (p.O + e.2)) e.1)) =
      (List.range p.O).mapM (fun l => tensorRedondeo p.D (sampleRow (ask (p.O + l)) (p.ent l))) := by
    have : p.qubos.zipIdx = (List.range p.O).map (fun l => (p.ent l, l)) := by
      rw [p.qubos_eq]
      apply List.ext_getElem
      · simp
      · intro i h1 h2
        simp
    rw [this, List.mapM_map]
    rfl
  refine ⟨((List.range p.O).map (fun l => (List.range p.D).map (fun i => ask l (ADAInt.qubo p l) (p.kVar l i))),
      (List.range p.O).map (fun l => ask l (ADAInt.qubo p l) (p.bVar l))), ?_, rfl, rfl⟩
  unfold quboDenseBoth
  rw [q1, hz, q2]
  simp [Function.comp_def]

/-- C79.  With a sampler that always answers the same QUBO alike, both passes find the same policies, those of
`quboDense`. -/
theorem C79_deterministic (sampler : QDict → ℕ → ℚ) (p : QuboIn) :
    quboDenseBoth (fun _ => sampler) p = (quboDense sampler p).map (fun r => (r, r)) := by
  obtain ⟨first, h, h1, h2⟩ := C79_second_pass_wins (fun _ => sampler) p
  obtain ⟨K, B, hKB, hK, hr, hB, hdec⟩ := C39_decode sampler p
  have eK : K = (List.range p.O).map (fun l => (List.range p.D).map (fun i => sampler (ADAInt.qubo p l) (p.kVar l i))) := by
    apply List.ext_getElem
    · simp [hK]
    · intro l hl _
      have hl' : l < p.O := by omega
      have hd := (hdec l _ (C79_same_qubo p l hl')).1
      rw [List.getElem_map, List.getElem_range]
      apply List.ext_getElem
      · rw [hr _ (List.getElem_mem hl)]; simp
      · intro i hi _
        have hi' : i < p.D := by rw [hr _ (List.getElem_mem hl)] at hi; exact hi
        have := hd i hi'
        rw [List.getElem?_eq_getElem hl, Option.bind_some, List.getElem?_eq_getElem hi, Option.some.injEq] at this
        simp [this]
  have eB : B = (List.range p.O).map (fun l => sampler (ADAInt.qubo p l) (p.bVar l)) := by
    apply List.ext_getElem
    · simp [hB]
    · intro l hl _
      have hl' : l < p.O := by omega
      have hd := (hdec l _ (C79_same_qubo p l hl')).2
      rw [List.getElem?_eq_getElem hl, Option.some.injEq] at hd
      simp [hd]
  rw [h, hKB, eK, eB]
  have : first = ((List.range p.O).map (fun l => (List.range p.D).map (fun i => sampler (ADAInt.qubo p l) (p.kVar l i))),
      (List.range p.O).map (fun l => sampler (ADAInt.qubo p l) (p.bVar l))) := Prod.ext h1 h2
  rw [this]; rfl

/-! ## C80: the matrix files -/

theorem matrixCell_eq (p : QuboIn) (l : ℕ) (hl : l < p.O) (i j : ℕ) (m : ℚ) :
    matrixCell (p.ent1 l) (p.ent2 l) (p.ent3 l) (p.ent4 l) i j m = (get? (p.ent l) (i + 1, j + 1)).getD m := by
  have hh : ∀ d : QDict, ∀ k, has d k = true ↔ (get? d k).isSome = true := by
    intro d k
    rw [has_iff]
    constructor
    · intro h
      by_contra hn
      have : get? d k = none := by simpa using hn
      obtain ⟨e, he, rfl⟩ := List.mem_map.mp h
      unfold get? at this
      rw [Option.map_eq_none_iff, List.find?_eq_none] at this
      exact this e he (by simp)
    · intro h
      obtain ⟨v, hv⟩ := Option.isSome_iff_exists.mp h
      exact List.mem_map.mpr ⟨_, mem_of_get? d k v hv, rfl⟩
  have e1 : ∀ v, get? (p.ent1 l) (i + 1, j + 1) = some v → i = j := by
    intro v hv
    obtain ⟨t, -, ht⟩ := p.mem_ent1 (List.mem_map.mpr ⟨_, mem_of_get? _ _ v hv, rfl⟩)
    rw [Prod.mk.injEq] at ht; omega
  have e3 : ∀ v, get? (p.ent3 l) (i + 1, j + 1) = some v → i = j := by
    intro v hv
    have := mem_of_get? _ _ v hv
    simp only [ent3, List.mem_singleton, Prod.mk.injEq] at this
    omega
  have mem : ∀ (d : QDict) v, get? d (i + 1, j + 1) = some v → (i + 1, j + 1) ∈ keys d :=
    fun d v hv => List.mem_map.mpr ⟨_, mem_of_get? _ _ v hv, rfl⟩
  unfold matrixCell ent
  simp only [hh, get?_append]
  cases a1 : get? (p.ent1 l) (i + 1, j + 1) with
  | some v1 =>
    have m1 := mem _ _ a1
    have hij := e1 v1 a1
    have a2 : get? (p.ent2 l) (i + 1, j + 1) = none := get?_none _ _ (fun h => p.disj12 m1 h)
    have a3 : get? (p.ent3 l) (i + 1, j + 1) = none := get?_none _ _ (fun h => p.disj13 hl (.inl m1) h)
    have a4 : get? (p.ent4 l) (i + 1, j + 1) = none := get?_none _ _ (fun h => p.disj4 hl (.inl m1) h)
    rw [a2, a3, a4]
    simp [hij]
  | none =>
    cases a2 : get? (p.ent2 l) (i + 1, j + 1) with
    | some v2 =>
      have m2 := mem _ _ a2
      have a3 : get? (p.ent3 l) (i + 1, j + 1) = none := get?_none _ _ (fun h => p.disj13 hl (.inr m2) h)
      have a4 : get? (p.ent4 l) (i + 1, j + 1) = none := get?_none _ _ (fun h => p.disj4 hl (.inr (.inl m2)) h)
      simp [a3, a4]
    | none =>
      cases a3 : get? (p.ent3 l) (i + 1, j + 1) with
      | some v3 =>
        have m3 := mem _ _ a3
        have hij := e3 v3 a3
        have a4 : get? (p.ent4 l) (i + 1, j + 1) = none := get?_none _ _ (fun h => p.disj4 hl (.inr (.inr m3)) h)
        rw [a4]
        simp [hij]
      | none =>
        cases a4 : get? (p.ent4 l) (i + 1, j + 1) <;> simp

/-- C80.  The matrix saved for a layer holds, at row `i` and column `j`, the layer's QUBO coefficient of the variables
`i + 1` and `j + 1`, and 0 where there is none. -/
theorem C80_entries (p : QuboIn) (i j : ℕ) (hi : i < p.size) (hj : j < p.size) :
    p.matrix i j = (get? p.total (i + 1, j + 1)).getD 0 := by
  have gen : ∀ n ≤ p.O, (List.range n).foldl (fun M l =>
      matrixStep p.size (p.dict1 l) (p.fill2 p.bt2 l []) (p.dict3 l) (p.fill4 p.bt4 l []) M) (fun _ _ => 0) i j =
      (get? ((List.range n).flatMap p.ent) (i + 1, j + 1)).getD 0 := by
    intro n hn
    induction n with
    | zero => rfl
    | succ n ih =>
      have hl : n < p.O := by omega
      rw [List.range_succ, List.foldl_append, List.foldl_cons, List.foldl_nil]
      have hst : ∀ (d1 d2 d3 d4 : QDict) (M : ℕ → ℕ → ℚ),
          matrixStep p.size d1 d2 d3 d4 M i j = matrixCell d1 d2 d3 d4 i j (M i j) := by
        intro d1 d2 d3 d4 M
        unfold matrixStep
        rw [if_pos ⟨hi, hj⟩]
      rw [hst, ih (by omega)]
      rw [p.dict1_eq, p.fill2_eq, p.fill4_eq n hl, show p.dict3 n = p.ent3 n from rfl, matrixCell_eq p n hl,
        List.flatMap_append, get?_append]
      simp only [List.flatMap_cons, List.flatMap_nil, List.append_nil]
      cases a : get? (p.ent n) (i + 1, j + 1) with
      | none => simp
      | some v =>
        have hb := p.mem_ent_block (l := n) (List.mem_map.mpr ⟨_, mem_of_get? _ _ v a, rfl⟩)
        have : get? ((List.range n).flatMap p.ent) (i + 1, j + 1) = none := by
          apply get?_none
          intro hk
          simp only [keys, List.mem_map, List.mem_flatMap, List.mem_range] at hk
          obtain ⟨e, ⟨l', hl', he⟩, hek⟩ := hk
          have hb' := p.mem_ent_block (l := l') (k := e.1) (List.mem_map.mpr ⟨e, he, rfl⟩)
          rw [hek] at hb'
          have := p.block_disjoint (by omega) hl hb'.1 hb.1
          omega
        rw [this]; simp
  rw [p.total_eq]
  exact gen p.O le_rfl

/-- C80.  The quadratic form of the saved matrix is the energy of the layer's QUBO, at every assignment (0/1 or not). -/
theorem C80_quadratic_form (p : QuboIn) (x : ℕ → ℚ) :
    ∑ i ∈ Finset.range p.size, ∑ j ∈ Finset.range p.size, p.matrix i j * x (i + 1) * x (j + 1) = bqmEnergy p.total x := by
  have hr : ∀ k ∈ keys p.total, (1 ≤ k.1 ∧ k.1 ≤ p.size) ∧ (1 ≤ k.2 ∧ k.2 ≤ p.size) := by
    intro k hk
    obtain ⟨l, hl, hk⟩ := p.mem_keys_total hk
    have := p.mem_ent_block hk
    exact ⟨p.block_range hl this.1, p.block_range hl this.2⟩
  rw [← energy_cells p.total (p.size + 1) p.nodup_total (fun k hk => by have := hr k hk; omega) x, Finset.sum_range_succ']
  have h0 : ∀ i j, i = 0 ∨ j = 0 → (get? p.total (i, j)).getD 0 = 0 := by
    intro i j hij
    rw [get?_none]
    · rfl
    · intro hk
      have := hr _ hk
      simp only at this
      omega
  have hz : ∑ j ∈ Finset.range (p.size + 1), (get? p.total (0, j)).getD 0 * x 0 * x j = 0 := by
    apply Finset.sum_eq_zero
    intro j _
    rw [h0 0 j (.inl rfl)]; ring
  rw [hz, add_zero]
  apply Finset.sum_congr rfl
  intro i hi
  rw [Finset.sum_range_succ', h0 (i + 1) 0 (.inr rfl)]
  rw [zero_mul, zero_mul, add_zero]
  apply Finset.sum_congr rfl
  intro j hj
  rw [C80_entries p i j (Finset.mem_range.mp hi) (Finset.mem_range.mp hj)]

/-- C80.  The first loop saves the same matrix. -/
theorem C80_both_files (p : QuboIn) : p.matrixInt = p.matrix := by
  unfold matrixInt matrix
  apply List.foldl_ext
  intro M l hl
  have hl' := List.mem_range.mp hl
  rw [ADAInt.dicts_eq p l hl', p.dict1_eq, p.fill2_eq, p.fill4_eq l hl']
  rfl

theorem bt2_symm (p : QuboIn) (i j : ℕ) (hi : i < p.D) (hj : j < p.D) :
    p.bt2.getD (j + i * p.D) 0 = p.bt2.getD (i + j * p.D) 0 := by
  rw [p.bt2_get i j hi hj, p.bt2_get j i hj hi]
  congr 1
  apply Finset.sum_congr rfl
  intro s _
  by_cases h : i = j
  · rw [if_pos h, if_pos h.symm]
  · rw [if_neg h, if_neg (Ne.symm h)]; ring

theorem ent_swap (p : QuboIn) (l : ℕ) (a b : ℕ) (v : ℚ) (h : ((a, b), v) ∈ p.ent l) : ((b, a), v) ∈ p.ent l := by
  simp only [ent, List.mem_append] at h ⊢
  rcases h with ((h | h) | h) | h
  · refine .inl (.inl (.inl ?_))
    simp only [ent1, List.mem_map, List.mem_range, Prod.mk.injEq] at h ⊢
    obtain ⟨i, hi, ⟨rfl, rfl⟩, rfl⟩ := h
    exact ⟨i, hi, ⟨rfl, rfl⟩, rfl⟩
  · refine .inl (.inl (.inr ?_))
    simp only [ent2, List.mem_flatMap, List.mem_range] at h ⊢
    obtain ⟨i, hi, j, hj, h⟩ := h
    refine ⟨j, hj, i, hi, ?_⟩
    rw [← bt2_symm p i j hi hj]
    split_ifs at h ⊢
    · simp at h
    · simp only [List.mem_singleton, Prod.mk.injEq] at h ⊢
      tauto
  · refine .inl (.inr ?_)
    simp only [ent3, List.mem_singleton, Prod.mk.injEq] at h ⊢
    tauto
  · refine .inr ?_
    simp only [ent4, List.mem_flatMap, List.mem_range] at h ⊢
    obtain ⟨i, hi, h⟩ := h
    refine ⟨i, hi, ?_⟩
    split_ifs at h ⊢
    · simp at h
    · simp only [List.mem_cons, List.not_mem_nil, or_false, Prod.mk.injEq] at h ⊢
      tauto

/-- C80.  The matrix is symmetric: the coefficient of a pair does not depend on its order. -/
theorem C80_symmetric (p : QuboIn) (i j : ℕ) (hi : i < p.size) (hj : j < p.size) : p.matrix i j = p.matrix j i := by
  rw [C80_entries p i j hi hj, C80_entries p j i hj hi]
  have key : ∀ a b v, get? p.total (a, b) = some v → get? p.total (b, a) = some v := by
    intro a b v h
    apply get?_mem _ _ _ p.nodup_total
    have := mem_of_get? _ _ _ h
    rw [p.total_eq, List.mem_flatMap] at this ⊢
    obtain ⟨l, hl, he⟩ := this
    exact ⟨l, hl, ent_swap p l a b v he⟩
  cases h : get? p.total (i + 1, j + 1) with
  | some v => rw [key _ _ _ h]
  | none =>
    cases h' : get? p.total (j + 1, i + 1) with
    | none => rfl
    | some v => rw [key _ _ _ h'] at h; cases h

/-- C80.  Entries of different neurons are zero: in the saved matrix the neurons do not interact. -/
theorem C80_blocks (p : QuboIn) (l m a b : ℕ) (hl : l < p.O) (hm : m < p.O) (hlm : l ≠ m)
    (ha : (∃ i < p.D, a + 1 = p.kVar l i) ∨ a + 1 = p.bVar l) (hb : (∃ i < p.D, b + 1 = p.kVar m i) ∨ b + 1 = p.bVar m) :
    p.matrix a b = 0 := by
  have ra := p.block_range hl (v := a + 1) ha
  have rb := p.block_range hm (v := b + 1) hb
  rw [C80_entries p a b (by omega) (by omega), get?_none]
  · rfl
  · intro hk
    obtain ⟨n, hn, hk⟩ := p.mem_keys_total hk
    have hin := p.mem_ent_block hk
    exact hlm ((p.block_disjoint hl hn ha hin.1).trans (p.block_disjoint hm hn hb hin.2).symm)

/-- C80.  The file shows each entry to eight decimals: within 5e-9 of it, and entries below that are shown as 0. -/
theorem C80_printed (x : ℚ) : |fmt8 x - x| ≤ 1 / (2 * 10 ^ 8) ∧ (|x| < 1 / (2 * 10 ^ 8) → fmt8 x = 0) := by
  obtain ⟨y, rfl⟩ : ∃ y, x = y / 10 ^ 8 := ⟨x * 10 ^ 8, by field_simp⟩
  have hy : y / 10 ^ 8 * 10 ^ 8 = y := by field_simp
  have h := abs_roundHalfEven_sub_le y
  have e : fmt8 (y / 10 ^ 8) = ((roundHalfEven y : ℤ) : ℚ) / 10 ^ 8 := by
    unfold fmt8; rw [hy]
  have h8 : |(10 : ℚ) ^ 8| = 10 ^ 8 := by norm_num
  rw [e]
  refine ⟨?_, ?_⟩
  · rw [← sub_div, abs_div, h8, div_le_div_iff₀ (by norm_num) (by norm_num)]
    linarith
  · intro hx
    rw [abs_div, h8, div_lt_div_iff₀ (by norm_num) (by norm_num)] at hx
    have h2 : |y| < 1 / 2 := by linarith
    have h3 : |((roundHalfEven y : ℤ) : ℚ)| < 1 := by
      rw [abs_le] at h
      rw [abs_lt] at h2 ⊢
      constructor <;> linarith
    have h4 : roundHalfEven y = 0 := by
      have : |roundHalfEven y| < 1 := by exact_mod_cast h3
      exact Int.abs_lt_one_iff.mp this
    rw [h4]; norm_num

/-- The example layer has a 6×6 matrix; a coupling, a bias coupling and a zero between the neurons. -/
example : exQubo.size = 6 ∧ exQubo.matrix 0 1 = exQubo.matrix 1 0 ∧ exQubo.matrix 0 1 ≠ 0 ∧ exQubo.matrix 0 4 ≠ 0 ∧
    exQubo.matrix 0 3 = 0 := by decide +kernel

/-- A layer whose coupling of the two weights disappears in the file: scales 1/1000, both codes 1. -/
def tinyQubo : QuboIn where
  N := 1
  D := 2
  O := 1
  input := fun _ _ => 1 / 1000
  output := fun _ _ => 0
  kernel := fun _ _ => 1 / 2000
  bias := fun _ => 0
  sx := 1 / 1000
  sw := 1 / 1000
  sb := 1 / 1000000

/-- Its matrix is not zero, the file is. -/
example : tinyQubo.matrix 0 1 ≠ 0 ∧ fmt8 (tinyQubo.matrix 0 1) = 0 ∧ fmt8 (tinyQubo.matrix 0 0) = 0 := by decide +kernel

/-! ## C81: the QAOA route -/

theorem foldl_max_spec (J : QDict) (m : ℕ) :
    m ≤ J.foldl (fun m e => max m (max e.1.1 e.1.2)) m ∧
    (∀ k ∈ keys J, k.1 ≤ J.foldl (fun m e => max m (max e.1.1 e.1.2)) m ∧
      k.2 ≤ J.foldl (fun m e => max m (max e.1.1 e.1.2)) m) ∧
    ∀ B, m ≤ B → (∀ k ∈ keys J, k.1 ≤ B ∧ k.2 ≤ B) → J.foldl (fun m e => max m (max e.1.1 e.1.2)) m ≤ B := by
  induction J generalizing m with
  | nil => exact ⟨le_rfl, by simp [keys], fun B h _ => h⟩
  | cons a J ih =>
    obtain ⟨h1, h2, h3⟩ := ih (max m (max a.1.1 a.1.2))
    simp only [List.foldl_cons, keys, List.map_cons, List.mem_cons, forall_eq_or_imp]
    refine ⟨by omega, ⟨by omega, h2⟩, fun B hB hk => h3 B (by omega) hk.2⟩

theorem indiceMaximo_ent (p : QuboIn) (l : ℕ) (hl : l < p.O) : indiceMaximo (p.ent l) = p.bVar l := by
  obtain ⟨-, h2, h3⟩ := foldl_max_spec (p.ent l) 0
  apply le_antisymm
  · apply h3 _ (Nat.zero_le _)
    intro k hk
    have hb := p.mem_ent_block hk
    have : ∀ v, p.InBlock l v → v ≤ p.bVar l := by
      rintro v (⟨i, hi, rfl⟩ | rfl)
      · have := p.kVar_le l i hl hi
        unfold bVar; omega
      · exact le_rfl
    exact ⟨this _ hb.1, this _ hb.2⟩
  · exact (h2 (p.bVar l, p.bVar l) (by simp [keys, ent, ent3])).1

theorem diag_ent (p : QuboIn) (l v : ℕ) : (v, v) ∈ keys (p.ent l) ↔ p.InBlock l v := by
  constructor
  · exact fun h => (p.mem_ent_block h).1
  · rintro (⟨i, hi, rfl⟩ | rfl)
    · simp only [ent, keys_append, List.mem_append]
      exact .inl (.inl (.inl (List.mem_map.mpr ⟨_, List.mem_map.mpr ⟨i, List.mem_range.mpr hi, rfl⟩, rfl⟩)))
    · simp [keys, ent, ent3]

theorem qpVars_ent (p : QuboIn) (l : ℕ) (hl : l < p.O) :
    qpVars (p.ent l) = (List.range p.D).map (p.kVar l) ++ [p.bVar l] := by
  unfold qpVars
  rw [indiceMaximo_ent p l hl]
  congr 1
  refine List.Pairwise.eq_of_mem_iff (r := (· < ·)) (List.Pairwise.filter _ ?_) ?_ ?_
  · exact List.pairwise_lt_range'
  · rw [List.pairwise_map]
    refine List.pairwise_lt_range.imp ?_
    intro a b hab
    unfold kVar; omega
  · intro v
    simp only [List.mem_filter, List.mem_range'_1, List.mem_map, List.mem_range, has_iff, diag_ent]
    constructor
    · rintro ⟨⟨h1, h2⟩, ⟨i, hi, rfl⟩ | rfl⟩
      · exact ⟨i, hi, rfl⟩
      · omega
    · rintro ⟨i, hi, rfl⟩
      have := p.kVar_le l i hl hi
      refine ⟨⟨by unfold kVar; omega, ?_⟩, .inl ⟨i, hi, rfl⟩⟩
      unfold bVar; omega

/-- The entries in index order. -/
def primadoEnt (J : QDict) : QDict :=
  (List.range (indiceMaximo J + 1)).flatMap (fun i => (List.range (indiceMaximo J + 1)).flatMap (fun j =>
    if has J (i, j) = true then [((i, j), (get? J (i, j)).getD 0)] else []))

/-- `primado` lists the entries in index order. -/
theorem primado_eq (J : QDict) : primado J = primadoEnt J := by
  have nd : (keys (primadoEnt J)).Nodup := by
    unfold primadoEnt
    unfold keys
    rw [List.map_flatMap, List.nodup_flatMap]
    constructor
    · intro i _
      rw [List.map_flatMap, List.nodup_flatMap]
      constructor
      · intro j _; split_ifs <;> simp
      · refine List.Nodup.pairwise_of_forall_ne List.nodup_range ?_
        intro a _ b _ hab
        simp only [Function.onFun]
        intro k h1 h2
        split_ifs at h1 <;> simp at h1
        split_ifs at h2 <;> simp at h2
        rw [h1] at h2
        exact hab (Prod.mk.inj h2).2
    · refine List.Nodup.pairwise_of_forall_ne List.nodup_range ?_
      intro a _ b _ hab
      simp only [Function.onFun]
      intro k h1 h2
      rw [List.map_flatMap, List.mem_flatMap] at h1 h2
      obtain ⟨_, _, h1⟩ := h1
      obtain ⟨_, _, h2⟩ := h2
      split_ifs at h1 <;> simp at h1
      split_ifs at h2 <;> simp at h2
      rw [h1] at h2
      exact hab (Prod.mk.inj h2).1
  have h := update_fresh ([] : QDict) _ nd (by simp [keys])
  rw [List.nil_append] at h
  rw [← h]
  unfold primado update primadoEnt
  rw [List.foldl_flatMap]
  congr 1
  funext d i
  rw [List.foldl_flatMap]
  congr 1
  funext d j
  split_ifs <;> rfl

theorem primado_mem (J : QDict) (hJ : (keys J).Nodup) (e : (ℕ × ℕ) × ℚ) : e ∈ primado J ↔ e ∈ J := by
  rw [primado_eq]
  unfold primadoEnt
  simp only [List.mem_flatMap, List.mem_range]
  constructor
  · rintro ⟨i, hi, j, hj, h⟩
    split_ifs at h with hh
    · simp only [List.mem_singleton] at h
      obtain ⟨e', he', hk⟩ := List.mem_map.mp ((has_iff _ _).mp hh)
      rw [h]
      have := get?_mem J (i, j) e'.2 hJ (by rw [← hk]; exact he')
      rw [this, Option.getD_some, ← hk]; exact he'
    · simp at h
  · intro he
    have hb := (foldl_max_spec J 0).2.1 e.1 (List.mem_map.mpr ⟨e, he, rfl⟩)
    refine ⟨e.1.1, Nat.lt_succ_of_le hb.1, e.1.2, Nat.lt_succ_of_le hb.2, ?_⟩
    have : has J (e.1.1, e.1.2) = true := (has_iff _ _).mpr (List.mem_map.mpr ⟨e, he, rfl⟩)
    rw [if_pos this, get?_mem J (e.1.1, e.1.2) e.2 hJ he]
    simp

/-- C81.  Reordering for the quadratic program changes nothing: the same entries, the same objective. -/
theorem C81_same_program (J : QDict) (hJ : (J.map Prod.fst).Nodup) :
    (∀ e, e ∈ primado J ↔ e ∈ J) ∧ ∀ x, bqmEnergy (primado J) x = bqmEnergy J x := by
  refine ⟨primado_mem J hJ, fun x => ?_⟩
  have nd : (primado J).Nodup := by
    rw [primado_eq]
    unfold primadoEnt
    rw [List.nodup_flatMap]
    constructor
    · intro i _
      rw [List.nodup_flatMap]
      constructor
      · intro j _; split_ifs <;> simp
      · refine List.Nodup.pairwise_of_forall_ne List.nodup_range ?_
        intro a _ b _ hab
        simp only [Function.onFun]
        intro k h1 h2
        split_ifs at h1 <;> simp at h1
        split_ifs at h2 <;> simp at h2
        rw [h1] at h2
        simp only [Prod.mk.injEq] at h2
        exact hab h2.1.2
    · refine List.Nodup.pairwise_of_forall_ne List.nodup_range ?_
      intro a _ b _ hab
      simp only [Function.onFun]
      intro k h1 h2
      rw [List.mem_flatMap] at h1 h2
      obtain ⟨_, _, h1⟩ := h1
      obtain ⟨_, _, h2⟩ := h2
      split_ifs at h1 <;> simp at h1
      split_ifs at h2 <;> simp at h2
      rw [h1] at h2
      simp only [Prod.mk.injEq] at h2
      exact hab h2.1.1
  have hperm : (primado J).Perm J := (List.perm_ext_iff_of_nodup nd (List.Nodup.of_map _ hJ)).mpr (primado_mem J hJ)
  unfold bqmEnergy
  exact (hperm.map _).sum_eq

/-- C81.  The QUBO of a neuron is accepted as a quadratic program: its variables are declared in the order weights (by
input), bias; whatever the optimizer answers, the decoded policy has the value of weight `(l, i)` at position `i` and the
bias's value last, exactly as the sampler route decodes it. -/
theorem C81_decode (solver : QDict → ℕ → ℚ) (p : QuboIn) (l : ℕ) (hl : l < p.O) :
    ∃ J x, p.qubos[l]? = some J ∧ qpVars J = bqmVars J ∧ qaoaSolution solver J = some x ∧
      tensorRedondeo2 p.D x =
        some ((List.range p.D).map (fun i => solver (primado J) (p.kVar l i)), solver (primado J) (p.bVar l)) := by
  obtain ⟨J, hJ, hv, -⟩ := C39_columns p l hl
  have hJ' := hJ
  rw [p.qubos_eq, List.getElem?_map, List.getElem?_range hl] at hJ'
  cases hJ'
  have hq := qpVars_ent p l hl
  have hne : p.ent l ≠ [] := by simp [ent, ent3]
  have hdecl : ∀ e ∈ primado (p.ent l), e.1.1 ∈ qpVars (p.ent l) ∧ e.1.2 ∈ qpVars (p.ent l) := by
    intro e he
    rw [primado_mem _ (p.nodup_ent l hl)] at he
    have hb := p.mem_ent_block (l := l) (k := e.1) (List.mem_map.mpr ⟨e, he, rfl⟩)
    have : ∀ v, p.InBlock l v → v ∈ qpVars (p.ent l) := by
      rw [hq]
      rintro v (⟨i, hi, rfl⟩ | rfl)
      · exact List.mem_append.mpr (.inl (List.mem_map.mpr ⟨i, List.mem_range.mpr hi, rfl⟩))
      · simp
    exact ⟨this _ hb.1, this _ hb.2⟩
  refine ⟨p.ent l, (qpVars (p.ent l)).map (solver (primado (p.ent l))), hJ, hq.trans hv.symm, ?_, ?_⟩
  · unfold qaoaSolution
    rw [if_pos ⟨hne, hdecl⟩]
  · rw [hq, ← hv]
    exact redondeo_row p l hl (solver (primado (p.ent l)))

/-- C81.  An optimizer that minimises the program it is given therefore finds an optimal rounding of the neuron. -/
theorem C81_optimal (solver : QDict → ℕ → ℚ) (p : QuboIn) (hw : p.sw ≠ 0) (hx : p.sx ≠ 0) (l : ℕ) (hl : l < p.O)
    (hopt : ∀ J, p.qubos[l]? = some J → Minimises (bqmEnergy (primado J)) (solver (primado J))) :
    ∃ J x r, p.qubos[l]? = some J ∧ qaoaSolution solver J = some x ∧ tensorRedondeo2 p.D x = some r ∧
      ∀ (b : ℕ → ℚ) (β : ℚ), Binary b → (β = 0 ∨ β = 1) →
        roundedError p l (fun i => r.1.getD i 0) r.2 ≤ roundedError p l b β := by
  obtain ⟨J, x, hJ, -, hsol, hdec⟩ := C81_decode solver p l hl
  have ho := hopt J hJ
  have hnd : (J.map Prod.fst).Nodup := by
    obtain ⟨J', hJ', hnd, -⟩ := C38_nothing_overwritten p l hl
    rw [hJ, Option.some.injEq] at hJ'
    rw [hJ']; exact hnd
  have ho' : Minimises (bqmEnergy J) (solver (primado J)) := by
    have e : bqmEnergy (primado J) = bqmEnergy J := funext (C81_same_program J hnd).2
    rw [e] at ho; exact ho
  refine ⟨J, x, _, hJ, hsol, hdec, fun b β hb hβ => ?_⟩
  obtain ⟨J', hJ', hiff⟩ := C37_minimiser_iff p hw hx l hl (solver (primado J)) ho'.1
  rw [hJ, Option.some.injEq] at hJ'
  subst hJ'
  have h := hiff.mp ho' b β hb hβ
  have e : roundedError p l (fun i => ((List.range p.D).map (fun i => solver (primado J) (p.kVar l i))).getD i 0)
      (solver (primado J) (p.bVar l)) =
      roundedError p l (fun i => solver (primado J) (p.kVar l i)) (solver (primado J) (p.bVar l)) := by
    unfold roundedError mse
    congr 1
    apply Finset.sum_congr rfl
    intro s _
    congr 3
    apply Finset.sum_congr rfl
    intro i hi
    have : ((List.range p.D).map (fun i => solver (primado J) (p.kVar l i))).getD i 0 = solver (primado J) (p.kVar l i) := by
      rw [List.getD_eq_getElem?_getD, List.getElem?_map, List.getElem?_range (Finset.mem_range.mp hi)]; rfl
    simp only [this]
  rw [e]; exact h

/-- The second neuron of the example: three variables, the optimizer's answer decoded. -/
example : (exQubo.qubos[1]?.bind (fun J => (qaoaSolution (fun _ v => v) J).bind (tensorRedondeo2 2))) = some ([3, 4], 6) ∧
    (exQubo.qubos[1]?.map (fun J => qpVars J)) = some [3, 4, 6] := by decide +kernel

/-- A QUBO without a linear entry for a variable other than the last is rejected. -/
example : qaoaSolution (fun _ _ => 0) [((1, 2), 5), ((2, 2), 1)] = none := by decide +kernel

end Verif
