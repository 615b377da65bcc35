import Verif.Model.QuboExtra
import Verif.Lemmas.Qubo
import Mathlib.Data.List.Sort

namespace Verif
open Spec

namespace Dict
variable {κ ν : Type} [DecidableEq κ]

/-- Writing what is already there changes nothing. -/
theorem set_same (d : Dict κ ν) (k : κ) (v : ν) (hd : (keys d).Nodup) (h : (k, v) ∈ d) : set d k v = d := by
  induction d with
  | nil => simp at h
  | cons a d ih =>
    obtain ⟨k', v'⟩ := a
    simp only [keys, List.map_cons, List.nodup_cons] at hd
    simp only [set]
    rcases List.mem_cons.mp h with h | h
    · rw [Prod.mk.injEq] at h
      rw [if_pos h.1.symm, h.1, h.2]
    · have : k' ≠ k := by
        rintro rfl
        exact hd.1 (List.mem_map.mpr ⟨_, h, rfl⟩)
      rw [if_neg this, ih hd.2 h]

theorem update_same (d e : Dict κ ν) (hd : (keys d).Nodup) (h : ∀ p ∈ e, p ∈ d) : update d e = d := by
  unfold update
  induction e with
  | nil => rfl
  | cons a e ih =>
    rw [List.foldl_cons, set_same d a.1 a.2 hd (h a (by simp))]
    exact ih (fun p hp => h p (by simp [hp]))

theorem get?_cons (k' : κ) (v' : ν) (d : Dict κ ν) (k : κ) :
    get? ((k', v') :: d) k = if k' = k then some v' else get? d k := by
  unfold get?
  by_cases h : k' = k
  · rw [List.find?_cons_of_pos (by simp [h]), if_pos h]; rfl
  · rw [List.find?_cons_of_neg (by simp [h]), if_neg h]

theorem get?_none (d : Dict κ ν) (k : κ) (h : k ∉ keys d) : get? d k = none := by
  induction d with
  | nil => rfl
  | cons a d ih =>
    obtain ⟨k', v'⟩ := a
    simp only [keys, List.map_cons, List.mem_cons, not_or] at h
    rw [get?_cons, if_neg (Ne.symm h.1)]
    exact ih h.2

theorem get?_mem (d : Dict κ ν) (k : κ) (v : ν) (hd : (keys d).Nodup) (h : (k, v) ∈ d) : get? d k = some v := by
  induction d with
  | nil => simp at h
  | cons a d ih =>
    obtain ⟨k', v'⟩ := a
    simp only [keys, List.map_cons, List.nodup_cons] at hd
    rw [get?_cons]
    rcases List.mem_cons.mp h with h | h
    · rw [Prod.mk.injEq] at h
      rw [if_pos h.1.symm, h.2]
    · have : k' ≠ k := by
        rintro rfl
        exact hd.1 (List.mem_map.mpr ⟨_, h, rfl⟩)
      rw [if_neg this, ih hd.2 h]

theorem has_iff (d : Dict κ ν) (k : κ) : has d k = true ↔ k ∈ keys d := by
  unfold has keys
  simp [List.any_eq_true, List.mem_map]

theorem mem_of_get? (d : Dict κ ν) (k : κ) (v : ν) (h : get? d k = some v) : (k, v) ∈ d := by
  unfold get? at h
  rw [Option.map_eq_some_iff] at h
  obtain ⟨p, hp, rfl⟩ := h
  have h1 := List.find?_some hp
  simp only [decide_eq_true_eq] at h1
  rw [← h1]
  exact List.mem_of_find?_eq_some hp

/-- Reading a concatenation. -/
theorem get?_append (d e : Dict κ ν) (k : κ) : get? (d ++ e) k = (get? d k).or (get? e k) := by
  induction d with
  | nil => simp [get?]
  | cons a d ih =>
    obtain ⟨k', v'⟩ := a
    rw [List.cons_append, get?_cons, get?_cons]
    by_cases h : k' = k
    · simp [h]
    · simp [h, ih]

end Dict

open Dict

/-- The double sum over all cells is the sum over the entries. -/
theorem energy_cells (J : QDict) (n : ℕ) (hJ : (keys J).Nodup) (hn : ∀ k ∈ keys J, k.1 < n ∧ k.2 < n) (x : ℕ → ℚ) :
    ∑ i ∈ Finset.range n, ∑ j ∈ Finset.range n, (get? J (i, j)).getD 0 * x i * x j = bqmEnergy J x := by
  induction J with
  | nil => simp [get?, bqmEnergy]
  | cons a J ih =>
    obtain ⟨k, v⟩ := a
    simp only [keys, List.map_cons, List.nodup_cons, List.mem_cons, forall_eq_or_imp] at hJ hn
    have hcell : ∀ i j, (get? ((k, v) :: J) (i, j)).getD 0 * x i * x j =
        (if j = k.2 then (if i = k.1 then v * x i * x j else 0) else 0) + (get? J (i, j)).getD 0 * x i * x j := by
      intro i j
      rw [get?_cons]
      by_cases h : k = (i, j)
      · subst h
        rw [if_pos rfl, get?_none J _ hJ.1]
        simp
      · rw [if_neg h]
        have : ¬ (j = k.2 ∧ i = k.1) := fun hh => h (by rw [hh.1, hh.2])
        by_cases h1 : j = k.2
        · rw [if_pos h1, if_neg (fun h2 => this ⟨h1, h2⟩), zero_add]
        · rw [if_neg h1, zero_add]
    have e : bqmEnergy ((k, v) :: J) x = v * x k.1 * x k.2 + bqmEnergy J x := by simp [bqmEnergy]
    rw [e, ← ih hJ.2 hn.2]
    simp_rw [hcell, Finset.sum_add_distrib]
    congr 1
    rw [Finset.sum_congr rfl (fun i _ => Finset.sum_ite_eq' (Finset.range n) k.2 _)]
    simp only [Finset.mem_range, hn.1.2, if_true]
    rw [Finset.sum_ite_eq' (Finset.range n) k.1 _, if_pos (Finset.mem_range.mpr hn.1.1)]

namespace QuboIn
variable (p : QuboIn)

theorem nodup_ent (l : ℕ) (hl : l < p.O) : (keys (p.ent l)).Nodup := by
  unfold ent
  rw [keys_append, keys_append, keys_append]
  refine List.nodup_append'.mpr ⟨List.nodup_append'.mpr ⟨List.nodup_append'.mpr ⟨p.nodup1 l, p.nodup2 l, ?_⟩,
    by simp [Dict.keys, ent3], ?_⟩, p.nodup4 l hl, ?_⟩
  · exact fun k h1 h2 => p.disj12 h1 h2
  · exact fun k h1 h2 => p.disj13 hl (List.mem_append.mp h1) h2
  · intro k h1 h2
    simp only [List.mem_append] at h1
    exact p.disj4 hl (by tauto) h2

theorem nodup_total : (keys p.total).Nodup := by
  unfold keys
  rw [p.total_eq, List.map_flatMap, List.nodup_flatMap]
  refine ⟨fun m hm => p.nodup_ent m (List.mem_range.mp hm), ?_⟩
  refine List.Nodup.pairwise_of_forall_ne List.nodup_range ?_
  intro a ha b hb hab
  simp only [Function.onFun]
  intro k h1 h2
  exact hab (p.block_disjoint (List.mem_range.mp ha) (List.mem_range.mp hb) (p.mem_ent_block h1).1 (p.mem_ent_block h2).1)

theorem mem_keys_total {k : ℕ × ℕ} (h : k ∈ keys p.total) : ∃ l < p.O, k ∈ keys (p.ent l) := by
  rw [p.total_eq] at h
  simp only [keys, List.mem_map, List.mem_flatMap, List.mem_range] at h
  obtain ⟨e, ⟨l, hl, he⟩, rfl⟩ := h
  exact ⟨l, hl, List.mem_map.mpr ⟨e, he, rfl⟩⟩

/-- Labels of a block run from 1 to the size of the layer. -/
theorem block_range {l v : ℕ} (hl : l < p.O) (h : p.InBlock l v) : 1 ≤ v ∧ v ≤ p.size := by
  have e : p.size = p.D * p.O + p.O := by unfold size; rw [Nat.mul_comm]
  rcases h with ⟨i, hi, rfl⟩ | rfl
  · have := p.kVar_le l i hl hi
    refine ⟨by unfold kVar; omega, by omega⟩
  · unfold bVar; omega

theorem fill2_same (l : ℕ) : p.fill2 p.bt2 l (p.ent2 l) = p.ent2 l := by
  have : p.fill2 p.bt2 l (p.ent2 l) = update (p.ent2 l) (p.ent2 l) := by
    conv_rhs => rw [ent2]
    unfold fill2 update kVar
    rw [List.foldl_flatMap]
    congr 1
    · funext d i
      rw [List.foldl_flatMap]
      congr 1
      funext d j
      split_ifs
      · rfl
      · simp only [List.foldl_cons, List.foldl_nil, Nat.mul_comm l p.D]
  rw [this, update_same _ _ (p.nodup2 l) (fun _ h => h)]

theorem fill4_same (l : ℕ) (hl : l < p.O) : p.fill4 p.bt4 l (p.ent4 l) = p.ent4 l := by
  have : p.fill4 p.bt4 l (p.ent4 l) = update (p.ent4 l) (p.ent4 l) := by
    conv_rhs => rw [ent4]
    unfold fill4 update kVar bVar
    rw [List.foldl_flatMap]
    congr 1
    · funext d i
      split_ifs
      · rfl
      · simp only [List.foldl_cons, List.foldl_nil]
  rw [this, update_same _ _ (p.nodup4 l hl) (fun _ h => h)]

end QuboIn

namespace ADAInt
open QuboIn
variable (p : QuboIn)

theorem dicts_eq (l : ℕ) (hl : l < p.O) : dicts p l = (p.ent1 l, p.ent2 l, p.ent3 l, p.ent4 l) := by
  have b4 : bt4 p = p.bt4 := by
    unfold bt4 QuboIn.bt4
    simp only [mul_comm p.sx p.sw]
    rfl
  have h1 : bterm1 p [] l = p.ent1 l := p.dict1_eq l
  have h2 : bterm2Rep p (bt2 p) [] l = p.ent2 l := p.fill2_eq l
  have h2' : bterm2Rep p (bt2 p) (p.ent2 l) l = p.ent2 l := p.fill2_same l
  have h4 : bterm4Rep p [] (bt4 p) l = p.ent4 l := by rw [b4]; exact p.fill4_eq l hl
  have h4' : bterm4Rep p (p.ent4 l) (bt4 p) l = p.ent4 l := by rw [b4]; exact p.fill4_same l hl
  unfold dicts bterm2 bterm4
  simp only
  rw [h1, h2, h2', h4, h4']
  rfl

theorem qubo_eq (l : ℕ) (hl : l < p.O) : qubo p l = p.ent l := by
  unfold qubo
  rw [dicts_eq p l hl]
  have := p.unir_eq l hl [] (by simp [keys])
  unfold unir at this
  rw [List.nil_append] at this
  exact this

end ADAInt
end Verif
