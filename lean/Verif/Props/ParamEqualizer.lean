import Verif.Model.ParamEqualizer
import Verif.Lemmas.ParamEqualizer
import Mathlib.Data.Finset.Card
import Mathlib.Algebra.Order.Field.Power
import Mathlib.Tactic.Linarith
import Mathlib.Tactic.Positivity
import Mathlib.Tactic.FieldSimp

/-!
# Properties C42, C43, C56, C58: the parameter search
-/

namespace Verif
open ParamEq Spec

/-! ## C43 -/

/-- C43.  The proposed scale of a positive scale always exists and differs from it by less than a tenth. -/
theorem C43_scale_step (s : ℚ) (hs : 0 < s) (d : Draw) (hd : d.Valid) :
    ∃ s', eqScale s d = some s' ∧ |s' - s| < s / 10 ∧ 0 < s' := by
  have hlog : (10 : ℚ) ^ Int.log 10 s ≤ s := by
    have := Int.zpow_log_le_self (b := 10) (r := s) (by norm_num) hs
    exact_mod_cast this
  have hp : (0 : ℚ) < (10 : ℚ) ^ Int.log 10 s := by positivity
  have heq : d.r / (10 : ℚ) ^ (-Int.log 10 s + 1) = d.r * (10 : ℚ) ^ Int.log 10 s / 10 := by
    rw [zpow_add₀ (by norm_num), zpow_neg, zpow_one]
    field_simp
  obtain ⟨-, ⟨h0, h1⟩, -⟩ := hd
  have hlt : d.r * (10 : ℚ) ^ Int.log 10 s / 10 < s / 10 := by
    have : d.r * (10 : ℚ) ^ Int.log 10 s ≤ d.r * s := mul_le_mul_of_nonneg_left hlog h0
    have : d.r * s < 1 * s := mul_lt_mul_of_pos_right h1 hs
    linarith
  have hge : 0 ≤ d.r * (10 : ℚ) ^ Int.log 10 s / 10 := by positivity
  refine ⟨s + d.r / (10 : ℚ) ^ (-Int.log 10 s + 1) * (if 1 / 2 < d.sg then -1 else 1), ?_, ?_, ?_⟩
  · unfold eqScale; rw [if_neg (not_le.mpr hs)]
  · rw [heq, add_sub_cancel_left, abs_lt]
    split_ifs <;> constructor <;> linarith
  · rw [heq]; split_ifs <;> linarith

/-- Several moves of one scale. -/
def Spec.scaleMoves (s : ℚ) : List Draw → Option ℚ
  | [] => some s
  | d :: ds => (eqScale s d).bind (fun s => scaleMoves s ds)

/-- C43.  After `n` moves the scale is positive and within the factors `(9/10)^n` and `(11/10)^n`. -/
theorem C43_scale_history (s : ℚ) (hs : 0 < s) (ds : List Draw) (hd : ∀ d ∈ ds, d.Valid) :
    ∃ s', scaleMoves s ds = some s' ∧ 0 < s' ∧ s * (9 / 10) ^ ds.length ≤ s' ∧ s' ≤ s * (11 / 10) ^ ds.length := by
  induction ds generalizing s with
  | nil => exact ⟨s, rfl, hs, by simp, by simp⟩
  | cons d ds ih =>
    obtain ⟨s1, h1, h2, h3⟩ := C43_scale_step s hs d (hd d (by simp))
    obtain ⟨s', i1, i2, i3, i4⟩ := ih s1 h3 (fun d h => hd d (by simp [h]))
    rw [abs_lt] at h2
    refine ⟨s', ?_, i2, ?_, ?_⟩
    · show (eqScale s d).bind _ = _
      rw [h1]; exact i1
    · have hp : (0 : ℚ) ≤ (9 / 10) ^ ds.length := by positivity
      have : s * (9 / 10) * (9 / 10) ^ ds.length ≤ s1 * (9 / 10) ^ ds.length :=
        mul_le_mul_of_nonneg_right (by linarith) hp
      rw [List.length_cons, pow_succ]
      linarith
    · have hp : (0 : ℚ) ≤ (11 / 10) ^ ds.length := by positivity
      have : s1 * (11 / 10) ^ ds.length ≤ s * (11 / 10) * (11 / 10) ^ ds.length :=
        mul_le_mul_of_nonneg_right (by linarith) hp
      rw [List.length_cons, pow_succ]
      linarith

/-- C43.  The bound of one tenth is the best possible: at a power of ten moves come arbitrarily close to it.  At other
scales the steps are smaller, down to a hundredth (scale just below a power of ten). -/
theorem C43_step_size (k : ℤ) (r : ℚ) (d : Draw) (hd : d = ⟨0, r, 0⟩) :
    eqScale ((10 : ℚ) ^ k) d = some ((10 : ℚ) ^ k + r * ((10 : ℚ) ^ k / 10)) := by
  have hp : (0 : ℚ) < (10 : ℚ) ^ k := by positivity
  have hl : Int.log 10 ((10 : ℚ) ^ k) = k := by
    have := Int.log_zpow (R := ℚ) (b := 10) (by norm_num) k
    exact_mod_cast this
  unfold eqScale
  rw [if_neg (not_le.mpr hp), hd]
  simp only [hl]
  rw [if_neg (by norm_num), zpow_add₀ (by norm_num), zpow_neg, zpow_one]
  congr 1
  field_simp

/-- A negative or zero scale raises (`log10`). -/
theorem C43_nonpositive_raises (s : ℚ) (hs : s ≤ 0) (d : Draw) : eqScale s d = none := by
  unfold eqScale; rw [if_pos hs]

/-- C43.  The zero point moves by exactly one and stays in the dtype range, if the dtype has at least two values. -/
theorem C43_zero_point_step (q : GDtype) (hq : q.min < q.max) (zp : ℤ) (hz : q.min ≤ zp ∧ zp ≤ q.max) (d : Draw) :
    (eqZp zp q d = zp + 1 ∨ eqZp zp q d = zp - 1) ∧ q.min ≤ eqZp zp q d ∧ eqZp zp q d ≤ q.max := by
  unfold eqZp
  split_ifs <;> omega

/-- Several moves of one zero point. -/
def Spec.zpMoves (q : GDtype) (zp : ℤ) (ds : List Draw) : ℤ := ds.foldl (fun z d => eqZp z q d) zp

/-- C43.  After `n` moves the zero point is in range and at most `n` away. -/
theorem C43_zero_point_history (q : GDtype) (hq : q.min < q.max) (ds : List Draw) (zp : ℤ)
    (hz : q.min ≤ zp ∧ zp ≤ q.max) :
    q.min ≤ zpMoves q zp ds ∧ zpMoves q zp ds ≤ q.max ∧ |zpMoves q zp ds - zp| ≤ ds.length ∧
      (zpMoves q zp ds - zp - ds.length) % 2 = 0 := by
  induction ds generalizing zp with
  | nil => simp [zpMoves, hz]
  | cons d ds ih =>
    obtain ⟨h1, h2, h3⟩ := C43_zero_point_step q hq zp hz d
    obtain ⟨i1, i2, i3, i4⟩ := ih (eqZp zp q d) ⟨h2, h3⟩
    have e : zpMoves q zp (d :: ds) = zpMoves q (eqZp zp q d) ds := rfl
    rw [e]
    refine ⟨i1, i2, ?_, ?_⟩
    · rw [abs_le] at i3 ⊢
      simp only [List.length_cons, Nat.cast_add, Nat.cast_one]
      rcases h1 with h | h <;> rw [h] at i3 ⊢ <;> constructor <;> linarith [i3.1, i3.2]
    · simp only [List.length_cons, Nat.cast_add, Nat.cast_one]
      rcases h1 with h | h <;> rw [h] at i4 ⊢ <;> omega

example : eqScale (1 / 50) ⟨0, 1 / 2, 0⟩ = some (41 / 2000) := by decide +kernel
example : (⟨0, 1 / 2, 0⟩ : Draw).Valid := by unfold Draw.Valid; norm_num

/-! ## C42 -/

/-- A network state and a list of its nodes on which the parameter search may be started: pairwise different existing
nodes, none of them a bias, with positive scales and zero points in the range of a dtype of at least two values; these
nodes and all biases are consistent (requantizing them with their own parameters changes nothing). -/
structure Spec.Searchable (w : World) (ids : List ℕ) : Prop where
  nodup : ids.Nodup
  live : ∀ i ∈ ids, i < w.next ∧ i ∉ w.biases
  legal : ∀ i ∈ ids, 0 < (w.nodes i).scale ∧ (w.nodes i).quant.min < (w.nodes i).quant.max ∧
    (w.nodes i).quant.min ≤ (w.nodes i).zp ∧ (w.nodes i).zp ≤ (w.nodes i).quant.max
  canon : ∀ i < w.next, i ∈ ids ∨ i ∈ w.biases → (w.nodes i).requantize = w.nodes i

/-- The loss reads only the network's own nodes (those that exist when the search starts). -/
def Spec.Reads (n : ℕ) (cost : (ℕ → Node) → ℚ) : Prop := ∀ a b : ℕ → Node, (∀ j < n, a j = b j) → cost a = cost b

/-- Random numbers for one move of `n` nodes. -/
def Spec.MoveDraws (n : ℕ) (ds : List Draw) : Prop := ds.length = n ∧ ∀ d ∈ ds, d.Valid

namespace ParamEq
variable {w0 : World} {ids : List ℕ} {cost : (ℕ → Node) → ℚ}

/-- Positive scale, zero point in range (dtype taken from the start state). -/
def Legal (w0 w : World) (i : ℕ) : Prop :=
  0 < (w.nodes i).scale ∧ (w0.nodes i).quant.min ≤ (w.nodes i).zp ∧ (w.nodes i).zp ≤ (w0.nodes i).quant.max

def SameParams (n m : Node) : Prop := n.scale = m.scale ∧ n.zp = m.zp

structure LoopInv (w0 : World) (ids : List ℕ) (cost : (ℕ → Node) → ℚ) (st : BFS) : Prop where
  sim : Sim w0.next ids (deepcopy w0 ids).1 st.w
  same : ∀ k (hk : k < ids.length), SameParams (st.w.nodes ids[k]) (st.w.nodes (w0.next + k))
  legal : ∀ i ∈ ids, Legal w0 st.w i
  best : ∃ wb, Sim w0.next ids (deepcopy w0 ids).1 wb ∧ (∀ i ∈ ids, (wb.nodes i).Canon) ∧
    (∀ i ∈ ids, SameParams (st.w.nodes i) (wb.nodes i)) ∧ cost wb.nodes = st.bestCost
  le : st.bestCost < cost w0.nodes ∨
    (st.bestCost = cost w0.nodes ∧ ∀ i ∈ ids, SameParams (st.w.nodes i) (w0.nodes i))

theorem sim_start (hw : w0.Inv) (hs : Searchable w0 ids) :
    Sim w0.next ids (deepcopy w0 ids).1 (deepcopy w0 ids).1 :=
  ⟨deepcopy_inv hw ids, rfl, rfl, fun _ => Node.SameCore.refl _, fun _ _ _ _ => rfl, fun j hj => by
    rw [deepcopy_biases hw] at hj
    have := bias_lt hw hj
    rw [(deepcopy_live w0 ids j this).2]
    exact hs.canon j this (Or.inr hj)⟩

theorem loopInv_start (hw : w0.Inv) (hs : Searchable w0 ids) (hc : Reads w0.next cost) :
    LoopInv w0 ids cost { w := (deepcopy w0 ids).1, bestCost := cost (deepcopy w0 ids).1.nodes, retries := 0 } := by
  have hcost : cost (deepcopy w0 ids).1.nodes = cost w0.nodes := hc _ _ (fun j hj => (deepcopy_live w0 ids j hj).2)
  have hn : ∀ i ∈ ids, (deepcopy w0 ids).1.nodes i = w0.nodes i :=
    fun i hi => (deepcopy_live w0 ids i (hs.live i hi).1).2
  refine ⟨sim_start hw hs, ?_, ?_, ⟨_, sim_start hw hs, ?_, fun _ _ => ⟨rfl, rfl⟩, rfl⟩, Or.inr ⟨hcost, ?_⟩⟩
  · intro k hk
    rw [deepcopy_node w0 ids k hk, hn _ (List.getElem_mem hk)]
    exact ⟨rfl, rfl⟩
  · intro i hi
    unfold Legal
    rw [hn i hi]
    obtain ⟨h1, -, h2, h3⟩ := hs.legal i hi
    exact ⟨h1, h2, h3⟩
  · intro i hi
    rw [hn i hi]
    exact hs.canon i (hs.live i hi).1 (Or.inl hi)
  · intro i hi
    show SameParams ((deepcopy w0 ids).1.nodes i) _
    rw [hn i hi]; exact ⟨rfl, rfl⟩

/-- The two directions of `copy`. -/
theorem copy_live (hw : w0.Inv) (hs : Searchable w0 ids) (rq : Bool) {a : World}
    (h : Sim w0.next ids (deepcopy w0 ids).1 a) :
    ∃ a', copy a ids (List.range' w0.next ids.length) rq = some a' ∧ Sim w0.next ids (deepcopy w0 ids).1 a' ∧
      (∀ k (hk : k < ids.length), SameParams (a'.nodes ids[k]) (a.nodes (w0.next + k)) ∧
        (rq = true → (a'.nodes ids[k]).Canon)) ∧
      ∀ j, j ∉ w0.biases → j ∉ ids → a'.nodes j = a.nodes j := by
  have hfst : (ids.zip (List.range' w0.next ids.length)).map Prod.fst = ids := List.map_fst_zip (by simp)
  have hb := deepcopy_biases hw ids
  obtain ⟨a', h1, h2, h3, h4⟩ := copy_spec (n0 := w0.next) (ids := ids) (b := (deepcopy w0 ids).1) rq
    (ids.zip (List.range' w0.next ids.length)) (by rw [hfst]; exact hs.nodup)
    (by
      intro p hp
      obtain ⟨m1, m2⟩ := List.of_mem_zip hp
      rw [List.mem_range'_1] at m2
      rw [hfst, hb]
      refine ⟨Or.inl m1, (hs.live _ m1).2, fun hc => ?_, fun hc => ?_⟩
      · have := bias_lt hw hc; omega
      · have := (hs.live _ hc).1; omega) a h
  rw [hfst, hb] at h4
  refine ⟨a', h1, h2, ?_, h4⟩
  intro k hk
  have hm : (ids[k], w0.next + k) ∈ ids.zip (List.range' w0.next ids.length) := by
    rw [List.mem_iff_getElem]
    refine ⟨k, by simp [hk], ?_⟩
    simp
  obtain ⟨e1, e2, e3⟩ := h3 _ hm
  exact ⟨⟨e1, e2⟩, e3⟩

theorem copy_best (hw : w0.Inv) (hs : Searchable w0 ids) {a : World} (h : Sim w0.next ids (deepcopy w0 ids).1 a) :
    ∃ a', copy a (List.range' w0.next ids.length) ids false = some a' ∧ Sim w0.next ids (deepcopy w0 ids).1 a' ∧
      (∀ k (hk : k < ids.length), SameParams (a'.nodes (w0.next + k)) (a.nodes ids[k])) ∧
      ∀ j < w0.next, j ∉ w0.biases → a'.nodes j = a.nodes j := by
  have hfst : ((List.range' w0.next ids.length).zip ids).map Prod.fst = List.range' w0.next ids.length :=
    List.map_fst_zip (by simp)
  have hb := deepcopy_biases hw ids
  obtain ⟨a', h1, h2, h3, h4⟩ := copy_spec (n0 := w0.next) (ids := ids) (b := (deepcopy w0 ids).1) false
    ((List.range' w0.next ids.length).zip ids) (by rw [hfst]; exact List.nodup_range')
    (by
      intro p hp
      obtain ⟨m1, m2⟩ := List.of_mem_zip hp
      rw [List.mem_range'_1] at m1
      rw [hfst, hb]
      refine ⟨Or.inr m1.1, fun hc => ?_, (hs.live _ m2).2, fun hc => ?_⟩
      · have := bias_lt hw hc; omega
      · rw [List.mem_range'_1] at hc; have := (hs.live _ m2).1; omega) a h
  rw [hfst, hb] at h4
  refine ⟨a', h1, h2, ?_, ?_⟩
  · intro k hk
    have hm : (w0.next + k, ids[k]) ∈ (List.range' w0.next ids.length).zip ids := by
      rw [List.mem_iff_getElem]
      refine ⟨k, by simp [hk], ?_⟩
      simp
    obtain ⟨e1, e2, -⟩ := h3 _ hm
    exact ⟨e1, e2⟩
  · intro j hj hjb
    refine h4 j hjb ?_
    rw [List.mem_range'_1]; omega

theorem move_live (hw : w0.Inv) (hs : Searchable w0 ids) {ds : List Draw} (hd : MoveDraws ids.length ds) {a : World}
    (h : Sim w0.next ids (deepcopy w0 ids).1 a) (hl : ∀ i ∈ ids, Legal w0 a i) :
    ∃ a', move a ids ds = some a' ∧ Sim w0.next ids (deepcopy w0 ids).1 a' ∧
      (∀ i ∈ ids, Legal w0 a' i ∧ (a'.nodes i).Canon ∧ |(a'.nodes i).zp - (a.nodes i).zp| = 1) ∧
      (∀ j, j ∉ w0.biases → j ∉ ids → a'.nodes j = a.nodes j) ∧
      ∀ p ∈ ids.zip ds, eqScale (a.nodes p.1).scale p.2 = some (a'.nodes p.1).scale := by
  have hfst : (ids.zip ds).map Prod.fst = ids := List.map_fst_zip (by rw [hd.1])
  have hb := deepcopy_biases hw ids
  have hsc : ∀ p ∈ ids.zip ds, ∃ s, eqScale (a.nodes p.1).scale p.2 = some s ∧ 0 < s := by
    intro p hp
    obtain ⟨m1, m2⟩ := List.of_mem_zip hp
    obtain ⟨s, e1, -, e2⟩ := C43_scale_step _ (hl p.1 m1).1 p.2 (hd.2 p.2 m2)
    exact ⟨s, e1, e2⟩
  obtain ⟨a', h1, h2, h3, h4⟩ := move_spec (n0 := w0.next) (ids := ids) (b := (deepcopy w0 ids).1) (ids.zip ds)
    (by rw [hfst]; exact hs.nodup)
    (by
      intro p hp
      obtain ⟨m1, m2⟩ := List.of_mem_zip hp
      rw [hb]
      exact ⟨Or.inl m1, (hs.live _ m1).2⟩) a h (fun p hp => ⟨_, (hsc p hp).choose_spec.1⟩)
  rw [hfst, hb] at h4
  refine ⟨a', h1, h2, ?_, h4, fun p hp => (h3 p hp).1⟩
  intro i hi
  have : i ∈ (ids.zip ds).map Prod.fst := by rw [hfst]; exact hi
  obtain ⟨p, hp, rfl⟩ := List.mem_map.mp this
  obtain ⟨e1, e2, e3⟩ := h3 p hp
  obtain ⟨s, f1, f2⟩ := hsc p hp
  rw [f1, Option.some.injEq] at e1
  rw [(deepcopy_live w0 ids p.1 (hs.live p.1 hi).1).2] at e2
  obtain ⟨g1, g2, g3⟩ := hs.legal p.1 hi
  obtain ⟨-, l2, l3⟩ := hl p.1 hi
  obtain ⟨z1, z2, z3⟩ := C43_zero_point_step _ g2 _ ⟨l2, l3⟩ p.2
  refine ⟨⟨by rw [← e1]; exact f2, by rw [e2]; exact z2, by rw [e2]; exact z3⟩, e3, ?_⟩
  rw [e2]
  rcases z1 with z | z <;> rw [z] <;> simp

theorem bfsStep_inv (hw : w0.Inv) (hs : Searchable w0 ids) (hc : Reads w0.next cost) {st : BFS}
    (h : LoopInv w0 ids cost st) {ds : List Draw} (hd : MoveDraws ids.length ds) :
    ∃ st', bfsStep cost ids (List.range' w0.next ids.length) st ds = some st' ∧ LoopInv w0 ids cost st' ∧
      ((st'.retries = 0 ∧ st'.bestCost < st.bestCost ∧
          ∀ i ∈ ids, |(st'.w.nodes i).zp - (st.w.nodes i).zp| = 1) ∨
        (st'.retries = st.retries + 1 ∧ st'.bestCost = st.bestCost ∧
          ∀ i ∈ ids, SameParams (st'.w.nodes i) (st.w.nodes i))) := by
  obtain ⟨a, m1, m2, m3, m4, -⟩ := move_live hw hs hd h.sim h.legal
  unfold bfsStep
  simp only [m1, Option.bind_eq_bind, Option.bind_some]
  by_cases hlt : cost a.nodes < st.bestCost
  · rw [if_pos hlt]
    obtain ⟨a', c1, c2, c3, c4⟩ := copy_best hw hs m2
    have hn : ∀ i ∈ ids, a'.nodes i = a.nodes i := fun i hi => c4 i (hs.live i hi).1 (hs.live i hi).2
    refine ⟨_, by rw [c1]; rfl, ⟨c2, ?_, ?_, ⟨a, m2, fun i hi => (m3 i hi).2.1, ?_, rfl⟩, Or.inl ?_⟩,
      Or.inl ⟨rfl, hlt, ?_⟩⟩
    · intro k hk
      show SameParams (a'.nodes _) (a'.nodes _)
      rw [hn _ (List.getElem_mem hk)]
      exact ⟨(c3 k hk).1.symm, (c3 k hk).2.symm⟩
    · intro i hi
      unfold Legal
      simp only [hn i hi]
      exact (m3 i hi).1
    · intro i hi
      show SameParams (a'.nodes i) (a.nodes i)
      rw [hn i hi]; exact ⟨rfl, rfl⟩
    · rcases h.le with hle | hle
      · exact lt_trans hlt hle
      · exact lt_of_lt_of_eq hlt hle.1
    · intro i hi
      show |(a'.nodes i).zp - _| = 1
      rw [hn i hi]; exact (m3 i hi).2.2
  · rw [if_neg hlt]
    obtain ⟨a', c1, c2, c3, c4⟩ := copy_live hw hs false m2
    -- the copies were not touched by the move
    have hcp : ∀ k, a.nodes (w0.next + k) = st.w.nodes (w0.next + k) := by
      intro k
      refine m4 _ (fun hx => ?_) (fun hx => ?_)
      · have := bias_lt hw hx; omega
      · have := (hs.live _ hx).1; omega
    have hcp' : ∀ k, a'.nodes (w0.next + k) = st.w.nodes (w0.next + k) := by
      intro k
      rw [c4, hcp]
      · intro hx; have := bias_lt hw hx; omega
      · intro hx; have := (hs.live _ hx).1; omega
    have hn : ∀ k (hk : k < ids.length), SameParams (a'.nodes ids[k]) (st.w.nodes ids[k]) := by
      intro k hk
      have e1 := (c3 k hk).1
      have e2 := h.same k hk
      rw [hcp] at e1
      exact ⟨e1.1.trans e2.1.symm, e1.2.trans e2.2.symm⟩
    have hn' : ∀ i ∈ ids, SameParams (a'.nodes i) (st.w.nodes i) := by
      intro i hi
      obtain ⟨k, hk, rfl⟩ := List.mem_iff_getElem.mp hi
      exact hn k hk
    obtain ⟨wb, b1, b2, b3, b4⟩ := h.best
    refine ⟨{ st with w := a', retries := st.retries + 1 }, by rw [c1]; rfl,
      ⟨c2, ?_, ?_, ⟨wb, b1, b2, ?_, b4⟩, ?_⟩, Or.inr ⟨rfl, rfl, hn'⟩⟩
    · intro k hk
      show SameParams (a'.nodes _) (a'.nodes _)
      rw [hcp']
      have e1 := (c3 k hk).1
      rw [hcp] at e1
      exact e1
    · intro i hi
      unfold Legal
      simp only [(hn' i hi).1, (hn' i hi).2]
      exact h.legal i hi
    · intro i hi
      exact ⟨(hn' i hi).1.trans (b3 i hi).1, (hn' i hi).2.trans (b3 i hi).2⟩
    · rcases h.le with hle | ⟨hle, hp⟩
      · exact Or.inl hle
      · refine Or.inr ⟨hle, fun i hi => ?_⟩
        exact ⟨(hn' i hi).1.trans (hp i hi).1, (hn' i hi).2.trans (hp i hi).2⟩

theorem bfsLoop_inv (hw : w0.Inv) (hs : Searchable w0 ids) (hc : Reads w0.next cost) (m : ℕ)
    (draws : List (List Draw)) (hd : ∀ ds ∈ draws, MoveDraws ids.length ds) {st st' : BFS}
    (h : LoopInv w0 ids cost st)
    (he : bfsLoop cost m ids (List.range' w0.next ids.length) draws st = some st') : LoopInv w0 ids cost st' := by
  induction draws generalizing st with
  | nil => simp [bfsLoop] at he
  | cons ds draws ih =>
    obtain ⟨s1, h1, h2, -⟩ := bfsStep_inv hw hs hc h (hd ds (by simp))
    unfold bfsLoop at he
    simp only [h1, Option.bind_eq_bind, Option.bind_some] at he
    split_ifs at he
    · simp only [Option.some.injEq] at he; rw [← he]; exact h2
    · exact ih (fun ds hds => hd ds (by simp [hds])) h2 he

end ParamEq

/-- The parameter search on any consistent heap. -/
theorem ParamEq.never_worse (w : World) (hinv : w.Inv)
    (ids : List ℕ) (hs : Searchable w ids) (cost : (ℕ → Node) → ℚ) (hc : Reads w.next cost) (maxRetries : ℕ)
    (draws : List (List Draw)) (hd : ∀ ds ∈ draws, MoveDraws ids.length ds) (w' : World) (c : ℚ)
    (h : optimize cost maxRetries w ids draws = some (w', c)) :
    cost w'.nodes = c ∧ c ≤ cost w.nodes ∧ (c = cost w.nodes → ∀ j < w.next, w'.nodes j = w.nodes j) ∧
      (∀ i ∈ ids, 0 < (w'.nodes i).scale ∧ (w.nodes i).quant.min ≤ (w'.nodes i).zp ∧
        (w'.nodes i).zp ≤ (w.nodes i).quant.max) ∧
      (∀ i < w.next, i ∉ ids → i ∉ w.biases → w'.nodes i = w.nodes i) ∧
      (∀ i < w.next, (w.nodes i).requantize = w.nodes i → (w'.nodes i).requantize = w'.nodes i) ∧
      (∀ i < w.next, ∀ l ∈ w.hooks i,
        (w'.nodes l.bias).scale = (w'.nodes l.kernel).scale * (w'.nodes l.input).scale ∧ (w'.nodes l.bias).zp = 0) ∧
      w'.Inv ∧ w'.biases = w.biases ∧ w.next ≤ w'.next ∧ (∀ i < w.next, Node.SameCore (w'.nodes i) (w.nodes i)) ∧
      ∀ i < w.next, w'.hooks i = w.hooks i := by
  unfold optimize at h
  simp only [deepcopy, Option.bind_eq_bind, Option.bind_eq_some_iff, Option.some.injEq, Prod.mk.injEq] at h
  obtain ⟨st, h1, wf, h2, rfl, rfl⟩ := h
  have hst := bfsLoop_inv hinv hs hc maxRetries draws hd (loopInv_start hinv hs hc) h1
  obtain ⟨a', c1, c2, c3, c4⟩ := copy_live hinv hs true hst.sim
  rw [c1] at h2
  injection h2 with h2
  subst h2
  have hpar : ∀ i ∈ ids, SameParams (a'.nodes i) (st.w.nodes i) ∧ (a'.nodes i).Canon := by
    intro i hi
    obtain ⟨k, hk, rfl⟩ := List.mem_iff_getElem.mp hi
    have e := hst.same k hk
    obtain ⟨e1, e2⟩ := c3 k hk
    exact ⟨⟨e1.1.trans e.1.symm, e1.2.trans e.2.symm⟩, e2 rfl⟩
  obtain ⟨wb, b1, b2, b3, b4⟩ := hst.best
  have hlink := deepcopy_link hinv ids
  have hnodes : ∀ j < w.next, a'.nodes j = wb.nodes j := c2.nodes_eq b1 hlink (fun i hi => (hpar i hi).2) b2
    (fun i hi => ⟨(hpar i hi).1.1.trans (b3 i hi).1, (hpar i hi).1.2.trans (b3 i hi).2⟩)
  have hcost : cost a'.nodes = st.bestCost := by rw [hc _ _ hnodes, b4]
  have hb := deepcopy_biases hinv ids
  have hrest : ∀ i < w.next, i ∉ ids → i ∉ w.biases → a'.nodes i = w.nodes i := by
    intro i hi hii hib
    rw [c2.rest i hi (by rw [hb]; exact hib) hii, (deepcopy_live w ids i hi).2]
  refine ⟨hcost, ?_, ?_, ?_, hrest, ?_, ?_, c2.inv, ?_, ?_, ?_, fun i hi => by
    rw [c2.hooks, (deepcopy_live w ids i hi).1]⟩
  · rcases hst.le with hle | hle
    · exact hle.le
    · exact hle.1.le
  · intro heq j hj
    have hp : ∀ i ∈ ids, SameParams (st.w.nodes i) (w.nodes i) := by
      rcases hst.le with hle | hle
      · rw [heq] at hle; exact absurd hle (lt_irrefl _)
      · exact hle.2
    have := c2.nodes_eq (sim_start hinv hs) hlink (fun i hi => (hpar i hi).2)
      (fun i hi => by
        rw [(deepcopy_live w ids i (hs.live i hi).1).2]; exact hs.canon i (hs.live i hi).1 (Or.inl hi))
      (fun i hi => by
        rw [(deepcopy_live w ids i (hs.live i hi).1).2]
        exact ⟨(hpar i hi).1.1.trans (hp i hi).1, (hpar i hi).1.2.trans (hp i hi).2⟩) j hj
    rw [this, (deepcopy_live w ids j hj).2]
  · intro i hi
    have := hst.legal i hi
    unfold Legal at this
    rw [(hpar i hi).1.1, (hpar i hi).1.2]
    exact this
  · intro i hi hcan
    by_cases hii : i ∈ ids
    · exact (hpar i hii).2
    · by_cases hib : i ∈ w.biases
      · exact c2.canon i (by rw [hb]; exact hib)
      · rw [hrest i hi hii hib]; exact hcan
  · intro i hi l hl
    have : l ∈ a'.hooks i := by rw [c2.hooks, (deepcopy_live w ids i hi).1]; exact hl
    exact ⟨c2.inv.rel i l this, (c2.inv.ok i l this).1⟩
  · rw [c2.biases, hb]
  · rw [c2.next]; show w.next ≤ w.next + ids.length; omega
  · intro i hi
    have := c2.core i
    rwa [(deepcopy_live w ids i hi).2] at this

/-- C42.  Start the search on any network built by the quantizer.  Whenever it returns, whatever the random numbers,
the loss and the retry limit: the returned cost is the loss of the network as it now is, and it is not greater than
the loss before.  If it is not smaller, the network is exactly what it was.  Every searched node has a positive scale
and a zero point in the range of its dtype; all other nodes except biases are unchanged, and biases still have scale
input × kernel, zero point 0 and matching integers (`Inv`). -/
theorem C42_never_worse (d : Node) (ops : List World.Op) (w : World) (hw : World.Runs (World.empty d) ops w)
    (ids : List ℕ) (hs : Searchable w ids) (cost : (ℕ → Node) → ℚ) (hc : Reads w.next cost) (maxRetries : ℕ)
    (draws : List (List Draw)) (hd : ∀ ds ∈ draws, MoveDraws ids.length ds) (w' : World) (c : ℚ)
    (h : optimize cost maxRetries w ids draws = some (w', c)) :
    cost w'.nodes = c ∧ c ≤ cost w.nodes ∧ (c = cost w.nodes → ∀ j < w.next, w'.nodes j = w.nodes j) ∧
      (∀ i ∈ ids, 0 < (w'.nodes i).scale ∧ (w.nodes i).quant.min ≤ (w'.nodes i).zp ∧
        (w'.nodes i).zp ≤ (w.nodes i).quant.max) ∧
      (∀ i < w.next, i ∉ ids → i ∉ w.biases → w'.nodes i = w.nodes i) ∧
      (∀ i < w.next, (w.nodes i).requantize = w.nodes i → (w'.nodes i).requantize = w'.nodes i) ∧
      (∀ i < w.next, ∀ l ∈ w.hooks i,
        (w'.nodes l.bias).scale = (w'.nodes l.kernel).scale * (w'.nodes l.input).scale ∧ (w'.nodes l.bias).zp = 0) := by
  obtain ⟨h1, h2, h3, h4, h5, h6, h7, -⟩ := ParamEq.never_worse w (hw.inv (World.inv_empty d)) ids hs cost hc maxRetries draws hd w' c h
  exact ⟨h1, h2, h3, h4, h5, h6, h7⟩

/-- The loop state after the given iterations (without looking at the retry limit). -/
def Spec.iterations (cost : (ℕ → Node) → ℚ) (w : World) (ids : List ℕ) (draws : List (List Draw)) : Option BFS :=
  draws.foldlM (fun st ds => bfsStep cost ids (deepcopy w ids).2 st ds)
    { w := (deepcopy w ids).1, bestCost := cost (deepcopy w ids).1.nodes, retries := 0 }

/-- C42.  No iteration raises, and each one either records a strictly smaller cost and resets the retry counter, or
keeps cost and parameters (restoring them) and counts one retry. -/
theorem C42_costs_decrease (d : Node) (ops : List World.Op) (w : World) (hw : World.Runs (World.empty d) ops w)
    (ids : List ℕ) (hs : Searchable w ids) (cost : (ℕ → Node) → ℚ) (hc : Reads w.next cost)
    (draws : List (List Draw)) (hd : ∀ ds ∈ draws, MoveDraws ids.length ds) (ds : List Draw)
    (hds : MoveDraws ids.length ds) :
    ∃ st st', iterations cost w ids draws = some st ∧ iterations cost w ids (draws ++ [ds]) = some st' ∧
      ((st'.bestCost < st.bestCost ∧ st'.retries = 0) ∨
        (st'.bestCost = st.bestCost ∧ st'.retries = st.retries + 1 ∧
          ∀ i ∈ ids, (st'.w.nodes i).scale = (st.w.nodes i).scale ∧ (st'.w.nodes i).zp = (st.w.nodes i).zp)) := by
  have hinv := hw.inv (World.inv_empty d)
  have key : ∀ (draws : List (List Draw)), (∀ ds ∈ draws, MoveDraws ids.length ds) →
      ∃ st, iterations cost w ids draws = some st ∧ LoopInv w ids cost st := by
    intro draws
    induction draws using List.reverseRecOn with
    | nil => exact fun _ => ⟨_, rfl, loopInv_start hinv hs hc⟩
    | append_singleton l x ih =>
      intro h
      obtain ⟨st, h1, h2⟩ := ih (fun ds hds => h ds (by simp [hds]))
      obtain ⟨st', h3, h4, -⟩ := bfsStep_inv hinv hs hc h2 (h x (by simp))
      refine ⟨st', ?_, h4⟩
      unfold iterations at h1 ⊢
      rw [List.foldlM_append, h1]
      simp only [List.foldlM_cons, List.foldlM_nil, Option.bind_eq_bind, Option.bind_some]
      show (bfsStep cost ids (List.range' w.next ids.length) st x).bind _ = _
      rw [h3]; rfl
  obtain ⟨st, h1, h2⟩ := key draws hd
  obtain ⟨st', h3, -, h5⟩ := bfsStep_inv hinv hs hc h2 hds
  refine ⟨st, st', h1, ?_, ?_⟩
  · unfold iterations at h1 ⊢
    rw [List.foldlM_append, h1]
    simp only [List.foldlM_cons, List.foldlM_nil, Option.bind_eq_bind, Option.bind_some]
    show (bfsStep cost ids (List.range' w.next ids.length) st ds).bind _ = _
    rw [h3]; rfl
  · rcases h5 with ⟨e1, e2, -⟩ | ⟨e1, e2, e3⟩
    · exact Or.inl ⟨e2, e1⟩
    · exact Or.inr ⟨e2, e1, e3⟩

namespace ParamEq
variable {w0 : World} {ids : List ℕ} {cost : (ℕ → Node) → ℚ}

theorem bfsLoop_terminates (hw : w0.Inv) (hs : Searchable w0 ids) (hc : Reads w0.next cost) (m : ℕ) (S : Finset ℚ)
    (hS : ∀ nodes, cost nodes ∈ S) (draws : List (List Draw)) (hd : ∀ ds ∈ draws, MoveDraws ids.length ds) {st : BFS}
    (h : LoopInv w0 ids cost st) (hr : st.retries ≤ m)
    (hlen : (S.filter (fun x => x < st.bestCost)).card * (m + 1) + (m + 1 - st.retries) ≤ draws.length) :
    ∃ st', bfsLoop cost m ids (List.range' w0.next ids.length) draws st = some st' := by
  induction draws generalizing st with
  | nil => simp only [List.length_nil] at hlen; omega
  | cons ds draws ih =>
    obtain ⟨s1, h1, h2, h3⟩ := bfsStep_inv hw hs hc h (hd ds (by simp))
    unfold bfsLoop
    simp only [h1, Option.bind_eq_bind, Option.bind_some]
    split_ifs with hm
    · exact ⟨_, rfl⟩
    · refine ih (fun ds hds => hd ds (by simp [hds])) h2 (by omega) ?_
      simp only [List.length_cons] at hlen
      rcases h3 with ⟨e1, e2, -⟩ | ⟨e1, e2, -⟩
      · have hlt : (S.filter (fun x => x < s1.bestCost)).card < (S.filter (fun x => x < st.bestCost)).card := by
          apply Finset.card_lt_card
          refine ⟨fun x hx => ?_, fun hsub => ?_⟩
          · rw [Finset.mem_filter] at hx ⊢
            exact ⟨hx.1, lt_trans hx.2 e2⟩
          · obtain ⟨wb, -, -, -, b4⟩ := h2.best
            have : s1.bestCost ∈ S.filter (fun x => x < st.bestCost) := by
              rw [Finset.mem_filter]; exact ⟨by rw [← b4]; exact hS _, e2⟩
            have := hsub this
            rw [Finset.mem_filter] at this
            exact lt_irrefl _ this.2
        have hmul := Nat.mul_le_mul_right (m + 1) (Nat.succ_le_of_lt hlt)
        rw [Nat.succ_mul] at hmul
        rw [e1]
        omega
      · rw [e2, e1]; omega

end ParamEq

/-- The parameter search on any consistent heap ends. -/
theorem ParamEq.terminates (w : World) (hinv : w.Inv)
    (ids : List ℕ) (hs : Searchable w ids) (cost : (ℕ → Node) → ℚ) (hc : Reads w.next cost) (maxRetries : ℕ)
    (S : Finset ℚ) (hS : ∀ nodes, cost nodes ∈ S) (draws : List (List Draw))
    (hd : ∀ ds ∈ draws, MoveDraws ids.length ds) (hlen : (S.card + 1) * (maxRetries + 1) ≤ draws.length) :
    ∃ w' c, optimize cost maxRetries w ids draws = some (w', c) := by
  have hcard : ∀ x : ℚ, (S.filter (fun y => y < x)).card ≤ S.card := fun x => Finset.card_filter_le _ _
  obtain ⟨st, h1⟩ := bfsLoop_terminates hinv hs hc maxRetries S hS draws hd (loopInv_start hinv hs hc) (Nat.zero_le _)
    (by
      refine le_trans ?_ hlen
      rw [Nat.succ_mul]
      exact Nat.add_le_add (Nat.mul_le_mul_right _ (hcard _)) (by simp))
  have hst := bfsLoop_inv hinv hs hc maxRetries draws hd (loopInv_start hinv hs hc) h1
  obtain ⟨a', c1, -⟩ := copy_live hinv hs true hst.sim
  refine ⟨a', st.bestCost, ?_⟩
  unfold optimize
  simp only [Option.bind_eq_bind]
  show (bfsLoop cost maxRetries ids (List.range' w.next ids.length) draws _).bind _ = _
  rw [h1]
  show (copy st.w ids (List.range' w.next ids.length) true).bind _ = _
  rw [c1]; rfl

/-- C42, termination.  If the loss takes finitely many values (as floating point numbers do), the search ends after at
most `(number of values + 1) * (maxRetries + 1)` iterations. -/
theorem C42_terminates (d : Node) (ops : List World.Op) (w : World) (hw : World.Runs (World.empty d) ops w)
    (ids : List ℕ) (hs : Searchable w ids) (cost : (ℕ → Node) → ℚ) (hc : Reads w.next cost) (maxRetries : ℕ)
    (S : Finset ℚ) (hS : ∀ nodes, cost nodes ∈ S) (draws : List (List Draw))
    (hd : ∀ ds ∈ draws, MoveDraws ids.length ds) (hlen : (S.card + 1) * (maxRetries + 1) ≤ draws.length) :
    ∃ w' c, optimize cost maxRetries w ids draws = some (w', c) :=
  ParamEq.terminates w (hw.inv (World.inv_empty d)) ids hs cost hc maxRetries S hS draws hd hlen

/-- C42, termination needs finitely many losses: with an exact loss (here: the scale itself) and unlucky random numbers
the search never ends, whatever the retry limit. -/
theorem C42_may_run_forever : ∃ (w : World) (cost : (ℕ → Node) → ℚ) (ds : List Draw),
    (∃ d ops, World.Runs (World.empty d) ops w) ∧ Searchable w [0] ∧ Reads w.next cost ∧ MoveDraws 1 ds ∧
      ∀ maxRetries n, optimize cost maxRetries w [0] (List.replicate n ds) = none := by
  set w : World := (World.empty (Node.base 1 0 (intDtype 7))).alloc (Node.base 1 0 (intDtype 7)) with hw
  have hruns : World.Runs (World.empty (Node.base 1 0 (intDtype 7))) [.alloc (Node.base 1 0 (intDtype 7))] w :=
    .cons trivial rfl (.nil _)
  have hinv := hruns.inv (World.inv_empty _)
  have hhooks : ∀ i, w.hooks i = [] := by intro i; by_cases hi : i = 0 <;> simp [hw, World.alloc, World.empty, hi]
  have hs : Searchable w [0] := by
    refine ⟨by simp, ?_, ?_, ?_⟩
    · intro i hi
      rw [List.mem_singleton] at hi
      subst hi
      refine ⟨by decide, ?_⟩
      rintro ⟨i, l, hl, -⟩
      rw [hhooks] at hl
      exact absurd hl (by simp)
    · intro i hi
      rw [List.mem_singleton] at hi
      subst hi
      decide +kernel
    · intro i _ _
      by_cases hi : i = 0 <;> simp only [hw, World.alloc, World.empty, hi, if_true, if_false] <;> rfl
  set cost : (ℕ → Node) → ℚ := fun n => (n 0).scale with hcost
  have hc : Reads w.next cost := fun a b h => by
    have : a 0 = b 0 := h 0 (by decide)
    simp only [hcost, this]
  have hd : MoveDraws 1 [⟨0, 1 / 2, 3 / 4⟩] := by
    refine ⟨rfl, ?_⟩
    intro d hd
    rw [List.mem_singleton] at hd
    subst hd
    unfold Draw.Valid; norm_num
  have hdec : ∀ s : ℚ, 0 < s → ∃ s', eqScale s ⟨0, 1 / 2, 3 / 4⟩ = some s' ∧ s' < s := by
    intro s hs
    unfold eqScale
    rw [if_neg (not_le.mpr hs)]
    refine ⟨_, rfl, ?_⟩
    have : (0 : ℚ) < (10 : ℚ) ^ (-Int.log 10 s + 1) := by positivity
    have : (0 : ℚ) < 1 / 2 / (10 : ℚ) ^ (-Int.log 10 s + 1) := by positivity
    simp only
    rw [if_pos (by norm_num)]
    linarith
  have hloop : ∀ m n (st : BFS), LoopInv w [0] cost st →
      bfsLoop cost m [0] (List.range' w.next [0].length) (List.replicate n [⟨0, 1 / 2, 3 / 4⟩]) st = none := by
    intro m n
    induction n with
    | zero => intro st _; rfl
    | succ n ih =>
      intro st hst
      obtain ⟨s1, h1, h2, h3⟩ := bfsStep_inv hinv hs hc hst hd
      have himp : s1.retries = 0 := by
        rcases h3 with ⟨e, -⟩ | ⟨-, e, -⟩
        · exact e
        · exfalso
          -- the move lowers the cost, so this branch is impossible
          obtain ⟨a, m1, m2, m3, m4, m5⟩ := move_live hinv hs hd hst.sim hst.legal
          have m6 := m5 (0, ⟨0, 1 / 2, 3 / 4⟩) (by simp)
          obtain ⟨s', d1, d2⟩ := hdec _ (hst.legal 0 (by simp)).1
          simp only at m6
          rw [d1, Option.some.injEq] at m6
          obtain ⟨wb, -, -, b3, b4⟩ := hst.best
          have hbest : st.bestCost = (st.w.nodes 0).scale := by
            rw [← b4]; exact ((b3 0 (by simp)).1).symm
          have hlt : cost a.nodes < st.bestCost := by
            rw [hbest]; show (a.nodes 0).scale < _; rw [← m6]; exact d2
          unfold bfsStep at h1
          simp only [m1, Option.bind_eq_bind, Option.bind_some, if_pos hlt, Option.bind_eq_some_iff,
            Option.some.injEq] at h1
          obtain ⟨a', -, rfl⟩ := h1
          exact absurd e hlt.ne
      rw [List.replicate_succ]
      unfold bfsLoop
      simp only [h1, Option.bind_eq_bind, Option.bind_some, himp, Nat.not_lt_zero, if_false]
      exact ih s1 h2
  refine ⟨w, cost, [⟨0, 1 / 2, 3 / 4⟩], ⟨_, _, hruns⟩, hs, hc, hd, ?_⟩
  intro m n
  have h0 := hloop m n _ (loopInv_start hinv hs hc)
  unfold optimize
  simp only [Option.bind_eq_bind]
  show (bfsLoop cost m [0] (List.range' w.next [0].length) _ _).bind _ = _
  rw [h0]; rfl

/-- Freshly built nodes satisfy the consistency hypothesis of C42. -/
theorem C42_fresh_nodes_consistent (s : ℚ) (z : ℤ) (q : GDtype) (fp : FArr) (fn : ℚ → ℚ) (os : ℚ) (oz : ℤ) :
    (Node.base s z q).requantize = Node.base s z q ∧
      ((Node.base s z q).withTensor fp).requantize = (Node.base s z q).withTensor fp ∧
      ((Node.base s z q).withLut fn os oz).requantize = (Node.base s z q).withLut fn os oz :=
  ⟨Node.canon_base _ _ _, Node.canon_withTensor _ (Node.canon_base _ _ _) fp,
    Node.canon_withLut _ (Node.canon_base _ _ _) fn os oz⟩

/-- An input node and a Dense layer on it (kernel node 1, bias node 2). -/
def Spec.demoNet : World :=
  ((World.empty (Node.base 1 0 (intDtype 7))).alloc (Node.base (1 / 2) 0 (intDtype 7))).dense 0
    ((Node.base (1 / 4) 0 (intDtype 7)).withTensor ⟨[1, 1], [1]⟩) (intDtype 31) ⟨[1], [1]⟩

theorem demoNet_biases : demoNet.biases = {2} := by
  ext x
  constructor
  · rintro ⟨i, l, hl, rfl⟩
    simp only [demoNet, World.dense, World.addHook, World.alloc, World.empty] at hl
    split_ifs at hl <;> simp_all [List.not_mem_nil]
  · rintro rfl
    refine ⟨0, ⟨1, 0, 2⟩, ?_, rfl⟩
    decide +kernel

/-- The hypotheses of C42 hold for this network and its kernel and input nodes, for the loss "distance of the kernel
scale from 6/25 plus distance of the bias scale from 3/25"; one improving and one failing iteration end the search with
retry limit 0, and the linked bias scale (1/8 before) has followed. -/
example : (∃ d ops, World.Runs (World.empty d) ops demoNet) ∧ Searchable demoNet [1, 0] ∧
    Reads demoNet.next (fun n => |(n 1).scale - 6 / 25| + |(n 2).scale - 3 / 25|) ∧
    (optimize (fun n => |(n 1).scale - 6 / 25| + |(n 2).scale - 3 / 25|) 0 demoNet [1, 0]
      [[⟨0, 1 / 2, 3 / 4⟩, ⟨0, 0, 0⟩], [⟨0, 1 / 2, 1 / 4⟩, ⟨0, 0, 0⟩]]).map
      (fun r => ((r.1.nodes 1).scale, (r.1.nodes 1).zp, (r.1.nodes 2).scale, r.2)) =
      some (49 / 200, -1, 49 / 400, 3 / 400) := by
  have hb := demoNet_biases
  refine ⟨⟨Node.base 1 0 (intDtype 7), [.alloc (Node.base (1 / 2) 0 (intDtype 7)),
      .dense 0 ((Node.base (1 / 4) 0 (intDtype 7)).withTensor ⟨[1, 1], [1]⟩) (intDtype 31) ⟨[1], [1]⟩],
      .cons trivial rfl (.cons ⟨by decide, ?_⟩ rfl (.nil _))⟩, ⟨by decide, ?_, ?_, ?_⟩, ?_, by decide +kernel⟩
  · rintro ⟨i, l, hl, -⟩
    by_cases hi : i = 0 <;> simp [World.alloc, World.empty, hi] at hl
  · intro i hi
    rw [hb]
    simp only [List.mem_cons, List.not_mem_nil, or_false] at hi
    rcases hi with rfl | rfl <;> exact ⟨by decide, by simp⟩
  · intro i hi
    simp only [List.mem_cons, List.not_mem_nil, or_false] at hi
    rcases hi with rfl | rfl <;> decide +kernel
  · intro i hi
    have h3 : i < 3 := hi
    have h0 : (demoNet.nodes 0).Canon := Node.canon_base (1 / 2) 0 (intDtype 7)
    have h1 : (demoNet.nodes 1).Canon := Node.canon_withTensor _ (Node.canon_base (1 / 4) 0 (intDtype 7)) ⟨[1, 1], [1]⟩
    have h2 : (demoNet.nodes 2).Canon :=
      Node.canon_withTensor _ (Node.canon_base (1 / 2 * (1 / 4)) 0 (intDtype 31)) ⟨[1], [1]⟩
    have : i = 0 ∨ i = 1 ∨ i = 2 := by omega
    rcases this with rfl | rfl | rfl
    · exact fun _ => h0
    · exact fun _ => h1
    · exact fun _ => h2
  · intro a b h
    have e1 : a 1 = b 1 := h 1 (by decide)
    have e2 : a 2 = b 2 := h 2 (by decide)
    simp only [e1, e2]

/-- C36, network level.  Changing the parameters of an activation's output node `o` (which the parameter search does)
changes neither the table on the activation's input node `a` nor the output parameters stored in it: the next layer
decodes with the new parameters what the table encodes with the old ones. -/
theorem C36_output_node_update (d : Node) (ops : List World.Op) (w : World) (h : World.Runs (World.empty d) ops w)
    (a o : ℕ) (hao : a ≠ o) (ha : a ∉ w.biases) (ho : o ∉ w.biases) (s : ℚ) (z : ℤ) (rq : Bool) :
    ∃ w', w.step (.update o s z rq) = some w' ∧ (w'.nodes a).lut = (w.nodes a).lut ∧ (w'.nodes o).scale = s ∧
      (w'.nodes o).zp = z := by
  obtain ⟨w', h1, h2, h3, h4⟩ := C33_update_total d ops w h o ho s z rq
  exact ⟨w', h1, by rw [h4 a ha hao], h2, h3⟩

/-! ## C56 -/

/-- C56.  Every recorded improvement changes the zero point of every searched node by exactly one, so after an odd
number of improvements a kernel that was quantized symmetrically (zero point 0) has a zero point different from 0. -/
theorem C56_symmetry_lost (d : Node) (ops : List World.Op) (w : World) (hw : World.Runs (World.empty d) ops w)
    (ids : List ℕ) (hs : Searchable w ids) (cost : (ℕ → Node) → ℚ) (hc : Reads w.next cost)
    (draws : List (List Draw)) (hd : ∀ ds ∈ draws, MoveDraws ids.length ds) :
    ∃ st, ∃ k : ℕ, iterations cost w ids draws = some st ∧ (k = 0 ↔ st.bestCost = cost w.nodes) ∧
      ∀ i ∈ ids, ((st.w.nodes i).zp - (w.nodes i).zp - k) % 2 = 0 ∧
        ((w.nodes i).zp = 0 → k % 2 = 1 → (st.w.nodes i).zp ≠ 0) := by
  have hinv := hw.inv (World.inv_empty d)
  have key : ∀ (draws : List (List Draw)), (∀ ds ∈ draws, MoveDraws ids.length ds) →
      ∃ st, ∃ k : ℕ, iterations cost w ids draws = some st ∧ LoopInv w ids cost st ∧
        (k = 0 → st.bestCost = cost w.nodes) ∧ (0 < k → st.bestCost < cost w.nodes) ∧
        ∀ i ∈ ids, ((st.w.nodes i).zp - (w.nodes i).zp - k) % 2 = 0 := by
    intro draws
    induction draws using List.reverseRecOn with
    | nil =>
      refine fun _ => ⟨_, 0, rfl, loopInv_start hinv hs hc, ?_, ?_, ?_⟩
      · intro _
        exact hc _ _ (fun j hj => (deepcopy_live w ids j hj).2)
      · intro h; exact absurd h (lt_irrefl _)
      · intro i hi
        show (((deepcopy w ids).1.nodes i).zp - _ - _) % 2 = 0
        rw [(deepcopy_live w ids i (hs.live i hi).1).2]
        simp
    | append_singleton l x ih =>
      intro h
      obtain ⟨st, k, h1, h2, hk0, hk1, hz⟩ := ih (fun ds hds => h ds (by simp [hds]))
      obtain ⟨st', h3, h4, h5⟩ := bfsStep_inv hinv hs hc h2 (h x (by simp))
      have hit : iterations cost w ids (l ++ [x]) = some st' := by
        unfold iterations at h1 ⊢
        rw [List.foldlM_append, h1]
        simp only [List.foldlM_cons, List.foldlM_nil, Option.bind_eq_bind, Option.bind_some]
        show (bfsStep cost ids (List.range' w.next ids.length) st x).bind _ = _
        rw [h3]; rfl
      rcases h5 with ⟨-, e2, e3⟩ | ⟨-, e2, e3⟩
      · refine ⟨st', k + 1, hit, h4, by omega, ?_, ?_⟩
        · intro _
          rcases Nat.eq_zero_or_pos k with hk | hk
          · exact lt_of_lt_of_eq e2 (hk0 hk)
          · exact lt_trans e2 (hk1 hk)
        · intro i hi
          have := hz i hi
          have e := e3 i hi
          push_cast
          rcases abs_eq (by norm_num : (0 : ℤ) ≤ 1) |>.mp e with e | e <;> omega
      · refine ⟨st', k, hit, h4, fun hk => e2.trans (hk0 hk), fun hk => lt_of_eq_of_lt e2 (hk1 hk), ?_⟩
        intro i hi
        rw [(e3 i hi).2]; exact hz i hi
  obtain ⟨st, k, h1, -, hk0, hk1, hz⟩ := key draws hd
  refine ⟨st, k, h1, ⟨hk0, fun e => ?_⟩, fun i hi => ⟨hz i hi, fun h0 hk hc => ?_⟩⟩
  · by_contra hne
    exact absurd e (hk1 (Nat.pos_of_ne_zero hne)).ne
  · have := hz i hi
    rw [h0, hc] at this
    omega

/-! ## C58 -/

namespace ParamEq

/-- The two worlds have the same first `n0` objects. -/
def Agree (n0 : ℕ) (a c : World) : Prop := ∀ j < n0, a.nodes j = c.nodes j ∧ a.hooks j = c.hooks j

theorem Agree.trans {n0 : ℕ} {a b c : World} (h : Agree n0 a b) (h' : Agree n0 b c) : Agree n0 a c :=
  fun j hj => ⟨(h j hj).1.trans (h' j hj).1, (h j hj).2.trans (h' j hj).2⟩

theorem Agree.symm {n0 : ℕ} {a b : World} (h : Agree n0 a b) : Agree n0 b a :=
  fun j hj => ⟨(h j hj).1.symm, (h j hj).2.symm⟩

def Closed (n0 : ℕ) (a : World) : Prop :=
  ∀ i < n0, ∀ l ∈ a.hooks i, l.kernel < n0 ∧ l.input < n0 ∧ l.bias < n0

theorem update_agree (n0 fuel : ℕ) : ∀ (a c a' : World) id s z rq, Agree n0 a c → Closed n0 a → id < n0 →
    World.update fuel a id s z rq = some a' →
    ∃ c', World.update fuel c id s z rq = some c' ∧ Agree n0 a' c' := by
  induction fuel with
  | zero => intro a c a' id s z rq _ _ _ h; simp [World.update] at h
  | succ fuel ih =>
    intro a c a' id s z rq hag hcl hid h
    unfold World.update at h ⊢
    simp only at h ⊢
    have fold : ∀ (ls : List Link), (∀ l ∈ ls, l.kernel < n0 ∧ l.input < n0 ∧ l.bias < n0) → ∀ (a c a' : World),
        Agree n0 a c → Closed n0 a → ls.foldlM (fun w l => World.update fuel w l.bias
          ((w.nodes l.kernel).scale * (w.nodes l.input).scale) (w.nodes l.bias).zp true) a = some a' →
        ∃ c', ls.foldlM (fun w l => World.update fuel w l.bias
          ((w.nodes l.kernel).scale * (w.nodes l.input).scale) (w.nodes l.bias).zp true) c = some c' ∧
          Agree n0 a' c' := by
      intro ls
      induction ls with
      | nil =>
        intro _ a c a' hag _ h
        simp only [List.foldlM_nil, Option.pure_def, Option.some.injEq] at h ⊢
        exact ⟨c, rfl, h ▸ hag⟩
      | cons l ls ihl =>
        intro hls a c a' hag hcl h
        simp only [List.foldlM_cons, Option.bind_eq_bind, Option.bind_eq_some_iff] at h ⊢
        obtain ⟨a1, h1, h2⟩ := h
        obtain ⟨l1, l2, l3⟩ := hls l (by simp)
        obtain ⟨c1, e1, e2⟩ := ih a c a1 _ _ _ _ hag hcl l3 h1
        have hsh := (World.update_shape _ _ _ _ _ _ _ h1).1
        obtain ⟨c', e3, e4⟩ := ihl (fun l hl => hls l (by simp [hl])) a1 c1 a' e2
          (by unfold Closed; rw [hsh]; exact hcl) h2
        refine ⟨c', ⟨c1, ?_, e3⟩, e4⟩
        rw [← (hag _ l1).1, ← (hag _ l2).1, ← (hag _ l3).1]
        exact e1
    have hag1 : Agree n0 (a.setNode id ((a.nodes id).update s z rq)) (c.setNode id ((c.nodes id).update s z rq)) := by
      intro j hj
      refine ⟨?_, (hag j hj).2⟩
      simp only [World.setNode]
      split_ifs
      · rw [(hag id hid).1]
      · exact (hag j hj).1
    have hh : (c.setNode id ((c.nodes id).update s z rq)).hooks id =
        (a.setNode id ((a.nodes id).update s z rq)).hooks id := ((hag id hid).2).symm
    rw [hh]
    exact fold _ (fun l hl => hcl id hid l hl) _ _ _ hag1 hcl h

theorem move_agree (n0 : ℕ) (ids : List ℕ) (ds : List Draw) (hids : ∀ i ∈ ids, i < n0) (a c a' : World)
    (hag : Agree n0 a c) (hcl : Closed n0 a) (h : move a ids ds = some a') :
    ∃ c', move c ids ds = some c' ∧ Agree n0 a' c' := by
  unfold move at h ⊢
  have hz : ∀ p ∈ ids.zip ds, p.1 < n0 := fun p hp => hids _ (List.of_mem_zip hp).1
  revert h
  generalize ids.zip ds = ps at hz
  intro h
  induction ps generalizing a c with
  | nil =>
    simp only [List.foldlM_nil, Option.pure_def, Option.some.injEq] at h ⊢
    exact ⟨c, rfl, h ▸ hag⟩
  | cons p ps ih =>
    simp only [List.foldlM_cons, Option.bind_eq_bind, Option.bind_eq_some_iff] at h ⊢
    obtain ⟨a1, ⟨s, hs, h1⟩, h2⟩ := h
    have hp := hz p (by simp)
    obtain ⟨c1, e1, e2⟩ := update_agree n0 _ a c a1 _ _ _ _ hag hcl hp h1
    have hsh := (World.update_shape _ _ _ _ _ _ _ h1).1
    obtain ⟨c', e3, e4⟩ := ih a1 c1 e2 (by unfold Closed; rw [hsh]; exact hcl) (fun q hq => hz q (by simp [hq])) h2
    refine ⟨c', ⟨c1, ⟨s, ?_, ?_⟩, e3⟩, e4⟩
    · rw [← (hag _ hp).1]; exact hs
    · rw [← (hag _ hp).1]; exact e1

theorem deepcopy_agree {n0 : ℕ} {w : World} (h : n0 ≤ w.next) (ids : List ℕ) : Agree n0 (deepcopy w ids).1 w :=
  fun j hj => ⟨(deepcopy_live w ids j (by omega)).2, (deepcopy_live w ids j (by omega)).1⟩

/-- What stays true of the whole heap during annealing. -/
structure Bg (n0 : ℕ) (Bs : Set ℕ) (w : World) : Prop where
  inv : w.Inv
  hb : w.biases = Bs
  bcanon : ∀ x ∈ Bs, (w.nodes x).Canon
  blt : ∀ x ∈ Bs, x < n0
  link : ∀ i, ∀ l ∈ w.hooks i, l.kernel < n0 ∧ l.input < n0
  le : n0 ≤ w.next

theorem Bg.closed {n0 : ℕ} {Bs : Set ℕ} {w : World} (h : Bg n0 Bs w) : Closed n0 w := by
  intro i _ l hl
  obtain ⟨h1, h2⟩ := h.link i l hl
  exact ⟨h1, h2, h.blt _ (by rw [← h.hb]; exact ⟨i, l, hl, rfl⟩)⟩

/-- A list of nodes the annealer may move. -/
structure Movable (Bs : Set ℕ) (w : World) (L : List ℕ) : Prop where
  nodup : L.Nodup
  lt : ∀ i ∈ L, i < w.next
  nb : ∀ i ∈ L, i ∉ Bs
  pos : ∀ i ∈ L, 0 < (w.nodes i).scale

theorem Bg.deepcopy {n0 : ℕ} {Bs : Set ℕ} {w : World} (h : Bg n0 Bs w) (L : List ℕ) :
    Bg n0 Bs (deepcopy w L).1 := by
  refine ⟨deepcopy_inv h.inv L, by rw [deepcopy_biases h.inv, h.hb], ?_, h.blt, ?_, ?_⟩
  · intro x hx
    rw [(deepcopy_live w L x (by have := h.blt x hx; have := h.le; omega)).2]
    exact h.bcanon x hx
  · intro i l hl
    obtain ⟨i', e, -⟩ := deepcopy_hooks_sub w L i
    rw [e] at hl
    exact h.link i' l hl
  · show n0 ≤ w.next + L.length
    have := h.le; omega

theorem Movable.deepcopy {Bs : Set ℕ} {w : World} {M : List ℕ} (hm : Movable Bs w M) (L : List ℕ) :
    Movable Bs (deepcopy w L).1 M := by
  refine ⟨hm.nodup, fun i hi => ?_, hm.nb, fun i hi => ?_⟩
  · show i < w.next + L.length
    have := hm.lt i hi; omega
  · rw [(deepcopy_live w L i (hm.lt i hi)).2]; exact hm.pos i hi

theorem Movable.copy {n0 : ℕ} {Bs : Set ℕ} {w : World} (h : Bg n0 Bs w) {L : List ℕ} (hm : Movable Bs w L) :
    Movable Bs (ParamEq.deepcopy w L).1 (ParamEq.deepcopy w L).2 ∧
      (∀ i ∈ (ParamEq.deepcopy w L).2, n0 ≤ i) ∧ (ParamEq.deepcopy w L).2.length = L.length := by
  have hmem : ∀ i ∈ (ParamEq.deepcopy w L).2, w.next ≤ i ∧ i < w.next + L.length := by
    intro i hi
    have : i ∈ List.range' w.next L.length := hi
    rw [List.mem_range'_1] at this
    exact this
  refine ⟨⟨List.nodup_range', fun i hi => ?_, fun i hi hc => ?_, fun i hi => ?_⟩, fun i hi => ?_, by simp [ParamEq.deepcopy]⟩
  · exact (hmem i hi).2
  · have := h.blt i hc; have := h.le; have := hmem i hi; omega
  · obtain ⟨h1, h2⟩ := hmem i hi
    have := deepcopy_node w L (i - w.next) (by omega)
    rw [show w.next + (i - w.next) = i by omega] at this
    rw [this]
    exact hm.pos _ (List.getElem_mem _)
  · have := hmem i hi; have := h.le; omega

theorem move_bg {n0 : ℕ} {Bs : Set ℕ} {w w' : World} (h : Bg n0 Bs w) {L : List ℕ} (hm : Movable Bs w L)
    {ds : List Draw} (hd : MoveDraws L.length ds) (he : move w L ds = some w') :
    Bg n0 Bs w' ∧ w'.next = w.next ∧ (∀ M, Movable Bs w M → Movable Bs w' M) ∧
      ((∀ i ∈ L, n0 ≤ i) → Agree n0 w' w) := by
  have hfst : (L.zip ds).map Prod.fst = L := List.map_fst_zip (by rw [hd.1])
  have hsc : ∀ p ∈ L.zip ds, ∃ s, eqScale (w.nodes p.1).scale p.2 = some s ∧ 0 < s := by
    intro p hp
    obtain ⟨m1, m2⟩ := List.of_mem_zip hp
    obtain ⟨s, e1, -, e2⟩ := C43_scale_step _ (hm.pos p.1 m1) p.2 (hd.2 p.2 m2)
    exact ⟨s, e1, e2⟩
  have hsim : ∀ ids, Sim n0 ids w w := fun ids =>
    ⟨h.inv, rfl, rfl, fun _ => Node.SameCore.refl _, fun _ _ _ _ => rfl, fun j hj => h.bcanon j (by rw [← h.hb]; exact hj)⟩
  obtain ⟨a', h1, h2, h3, h4⟩ := move_spec (n0 := n0) (ids := L) (b := w) (L.zip ds) (by rw [hfst]; exact hm.nodup)
    (fun p hp => ⟨Or.inl (List.of_mem_zip hp).1, by rw [h.hb]; exact hm.nb _ (List.of_mem_zip hp).1⟩) w (hsim L)
    (fun p hp => ⟨_, (hsc p hp).choose_spec.1⟩)
  have hee : a' = w' := by
    have : some a' = some w' := h1.symm.trans he
    injection this
  subst hee
  rw [hfst, h.hb] at h4
  refine ⟨⟨h2.inv, by rw [h2.biases, h.hb], fun x hx => h2.canon x (by rw [h.hb]; exact hx), h.blt,
    by rw [h2.hooks]; exact h.link, by rw [h2.next]; exact h.le⟩, h2.next, ?_, ?_⟩
  · intro M hM
    refine ⟨hM.nodup, fun i hi => by rw [h2.next]; exact hM.lt i hi, hM.nb, fun i hi => ?_⟩
    by_cases hiL : i ∈ L
    · rw [← hfst] at hiL
      obtain ⟨p, hp, rfl⟩ := List.mem_map.mp hiL
      obtain ⟨e1, -⟩ := h3 p hp
      obtain ⟨s, f1, f2⟩ := hsc p hp
      rw [f1, Option.some.injEq] at e1
      rw [← e1]; exact f2
    · rw [h4 i (hM.nb i hi) hiL]; exact hM.pos i hi
  · intro hge
    obtain ⟨a2, g1, g2, -, -⟩ := move_spec (n0 := n0) (ids := []) (b := w) (L.zip ds)
      (by rw [hfst]; exact hm.nodup)
      (fun p hp => ⟨Or.inr (hge _ (List.of_mem_zip hp).1), by rw [h.hb]; exact hm.nb _ (List.of_mem_zip hp).1⟩) w
      (hsim []) (fun p hp => ⟨_, (hsc p hp).choose_spec.1⟩)
    have hee : a2 = a' := by
      have : some a2 = some a' := g1.symm.trans h1
      injection this
    subst hee
    intro j hj
    exact ⟨g2.nodes_eq (hsim []) h.link (by simp) (by simp) (by simp) j hj, by rw [g2.hooks]⟩

/-- The annealer's state: `sep` says that the node list it moves no longer contains network nodes. -/
structure SAInv (n0 : ℕ) (Bs : Set ℕ) (n : ℕ) (s : SA) : Prop where
  bg : Bg n0 Bs s.w
  state : Movable Bs s.w s.state ∧ s.state.length = n
  prev : Movable Bs s.w s.prev ∧ s.prev.length = n ∧ ∀ i ∈ s.prev, n0 ≤ i

theorem saStep_inv {n0 : ℕ} {Bs : Set ℕ} {n : ℕ} {cost : (ℕ → Node) → ℚ} {acc : Bool} {s s' : SA} {ds : List Draw}
    (h : SAInv n0 Bs n s) (hd : MoveDraws n ds) (he : saStep cost acc s ds = some s') :
    ∃ w1, move s.w s.state ds = some w1 ∧ SAInv n0 Bs n s' ∧ Agree n0 s'.w w1 ∧ w1.next = s.w.next ∧
      ((∀ i ∈ s.state, n0 ≤ i) → Agree n0 w1 s.w) ∧ s'.bestE ≤ s.bestE ∧
      (if s.prevE < cost w1.nodes ∧ acc = false then
        (∀ i ∈ s'.state, n0 ≤ i) ∧ s'.prevE = s.prevE ∧ s'.bestE = s.bestE
      else s'.state = s.state ∧ s'.prevE = cost w1.nodes ∧ s'.bestE ≤ cost w1.nodes) := by
  unfold saStep at he
  simp only [Option.bind_eq_bind, Option.bind_eq_some_iff] at he
  obtain ⟨w1, h1, h2⟩ := he
  have hd' : MoveDraws s.state.length ds := by rw [h.state.2]; exact hd
  obtain ⟨b1, b2, b3, b4⟩ := move_bg h.bg h.state.1 hd' h1
  refine ⟨w1, h1, ?_⟩
  by_cases hrej : s.prevE < cost w1.nodes ∧ acc = false
  · rw [if_pos hrej] at h2
    rw [if_pos hrej]
    have e : s' = { s with w := (deepcopy w1 s.prev).1, state := (deepcopy w1 s.prev).2 } := by
      injection h2 with h2; exact h2.symm
    subst e
    obtain ⟨c1, c2, c3⟩ := (b3 _ h.prev.1).copy b1
    refine ⟨⟨b1.deepcopy _, ⟨c1, c3.trans h.prev.2.1⟩, (b3 _ h.prev.1).deepcopy _, h.prev.2⟩,
      deepcopy_agree b1.le _, b2, b4, le_refl _, c2, rfl, rfl⟩
  · rw [if_neg hrej] at h2
    rw [if_neg hrej]
    obtain ⟨c1, c2, c3⟩ := (b3 _ h.state.1).copy b1
    by_cases hb : cost w1.nodes < s.bestE
    · simp only [if_pos hb] at h2
      injection h2 with h2
      subst h2
      refine ⟨⟨(b1.deepcopy _).deepcopy _, ⟨((b3 _ h.state.1).deepcopy _).deepcopy _, h.state.2⟩,
        c1.deepcopy _, c3.trans h.state.2, c2⟩, ?_, b2, b4, hb.le, rfl, rfl, le_refl _⟩
      exact (deepcopy_agree (b1.deepcopy _).le _).trans (deepcopy_agree b1.le _)
    · simp only [if_neg hb] at h2
      injection h2 with h2
      subst h2
      exact ⟨⟨b1.deepcopy _, ⟨(b3 _ h.state.1).deepcopy _, h.state.2⟩, c1, c3.trans h.state.2, c2⟩,
        deepcopy_agree b1.le _, b2, b4, le_refl _, rfl, rfl, not_lt.mp hb⟩

/-- Once the moved list is separate from the network, the network does not change any more. -/
theorem saLoop_detached {n0 : ℕ} {Bs : Set ℕ} {n : ℕ} {cost : (ℕ → Node) → ℚ} (hc : Reads n0 cost)
    (steps : List (Bool × List Draw)) (hd : ∀ c ∈ steps, MoveDraws n c.2) {s s' : SA} (h : SAInv n0 Bs n s)
    (hdet : ∀ i ∈ s.state, n0 ≤ i) (he : saLoop cost steps s = some s') :
    Agree n0 s'.w s.w ∧ n0 ≤ s'.w.next ∧ s'.bestE ≤ s.bestE := by
  induction steps generalizing s with
  | nil =>
    simp only [saLoop, Option.some.injEq] at he
    subst he
    exact ⟨fun _ _ => ⟨rfl, rfl⟩, h.bg.le, le_refl _⟩
  | cons c steps ih =>
    unfold saLoop at he
    simp only [Option.bind_eq_bind, Option.bind_eq_some_iff] at he
    obtain ⟨s1, h1, h2⟩ := he
    obtain ⟨w1, -, i2, i3, -, i5, i6, i7⟩ := saStep_inv h (hd c (by simp)) h1
    have hdet' : ∀ i ∈ s1.state, n0 ≤ i := by
      split_ifs at i7
      · exact i7.1
      · rw [i7.1]; exact hdet
    obtain ⟨k1, k2, k3⟩ := ih (fun c hc => hd c (by simp [hc])) i2 hdet' h2
    exact ⟨k1.trans (i3.trans (i5 hdet)), k2, k3.trans i6⟩

end ParamEq

/-- Moving the network's own nodes step by step, each candidate being accepted: not worse than the one before, or
accepted by the annealer's coin. -/
inductive Spec.Accepted (cost : (ℕ → Node) → ℚ) (ids : List ℕ) : World → List (Bool × List Draw) → World → Prop
  | nil (w) : Accepted cost ids w [] w
  | cons {w acc ds w1 rest w2} : move w ids ds = some w1 → (cost w1.nodes ≤ cost w.nodes ∨ acc = true) →
      Accepted cost ids w1 rest w2 → Accepted cost ids w ((acc, ds) :: rest) w2

namespace ParamEq

theorem saLoop_accepted {n0 : ℕ} {Bs : Set ℕ} {ids : List ℕ} {cost : (ℕ → Node) → ℚ} (hc : Reads n0 cost)
    (hids : ∀ i ∈ ids, i < n0) {w w1 : World} {pre : List (Bool × List Draw)} (ha : Accepted cost ids w pre w1)
    (post : List (Bool × List Draw)) (hd : ∀ c ∈ pre, MoveDraws ids.length c.2) {s s' : SA}
    (h : SAInv n0 Bs ids.length s) (hst : s.state = ids) (hag : Agree n0 s.w w) (hE : s.prevE = cost w.nodes)
    (hB : s.bestE ≤ cost w.nodes) (he : saLoop cost (pre ++ post) s = some s') :
    ∃ s1, SAInv n0 Bs ids.length s1 ∧ s1.state = ids ∧ Agree n0 s1.w w1 ∧ s1.prevE = cost w1.nodes ∧
      s1.bestE ≤ cost w1.nodes ∧ saLoop cost post s1 = some s' := by
  induction ha generalizing s with
  | nil w => exact ⟨s, h, hst, hag, hE, hB, he⟩
  | @cons w acc ds w2 rest w3 hm hacc _ ih =>
    rw [List.cons_append] at he
    unfold saLoop at he
    simp only [Option.bind_eq_bind, Option.bind_eq_some_iff] at he
    obtain ⟨s1, h1, h2⟩ := he
    obtain ⟨x, i1, i2, i3, -, -, i6, i7⟩ := saStep_inv h (hd (acc, ds) (by simp)) h1
    rw [hst] at i1
    obtain ⟨x', j1, j2⟩ := move_agree n0 ids ds hids s.w w x hag h.bg.closed i1
    rw [hm, Option.some.injEq] at j1
    subst j1
    have hcost : cost x.nodes = cost w2.nodes := hc _ _ (fun j hj => (j2 j hj).1)
    rw [if_neg (by rw [hE, hcost]; rintro ⟨e1, e2⟩; rcases hacc with e | e
                   · exact absurd e1 (not_lt.mpr e)
                   · rw [e2] at e; exact absurd e (by simp)), hcost] at i7
    exact ih (fun c hc => hd c (by simp [hc])) i2 (i7.1.trans hst) (i3.trans j2) i7.2.1 i7.2.2 h2

theorem anneal_start {w : World} (hw : w.Inv) {ids : List ℕ} (hs : Searchable w ids) {cost : (ℕ → Node) → ℚ}
    (hc : Reads w.next cost) {steps : List (Bool × List Draw)} {wf : World} {L : List ℕ} {E : ℚ}
    (he : anneal cost w ids steps = some (wf, L, E)) :
    ∃ s s', SAInv w.next w.biases ids.length s ∧ s.state = ids ∧ Agree w.next s.w w ∧ s.prevE = cost w.nodes ∧
      s.bestE = cost w.nodes ∧ saLoop cost steps s = some s' ∧ wf = (deepcopy s'.w s'.best).1 ∧ E = s'.bestE := by
  unfold anneal at he
  simp only [Option.bind_eq_bind, Option.bind_eq_some_iff, Option.some.injEq, Prod.mk.injEq] at he
  obtain ⟨s', h1, h2, -, h3⟩ := he
  have bg0 : Bg w.next w.biases w := by
    refine ⟨hw, rfl, fun x hx => hs.canon x (bias_lt hw hx) (Or.inr hx), fun x hx => bias_lt hw hx, ?_, le_refl _⟩
    intro i l hl
    obtain ⟨k1, k2⟩ := hw.home i l hl
    exact ⟨(hw.bound _ l k1).1, (hw.bound _ l k2).1⟩
  have m0 : Movable w.biases w ids :=
    ⟨hs.nodup, fun i hi => (hs.live i hi).1, fun i hi => (hs.live i hi).2, fun i hi => (hs.legal i hi).1⟩
  obtain ⟨c1, c2, c3⟩ := m0.copy bg0
  have bg1 := bg0.deepcopy ids
  have hag : Agree w.next (deepcopy (deepcopy w ids).1 ids).1 w :=
    (deepcopy_agree bg1.le ids).trans (deepcopy_agree (le_refl _) ids)
  have hcost : cost (deepcopy (deepcopy w ids).1 ids).1.nodes = cost w.nodes := hc _ _ (fun j hj => (hag j hj).1)
  exact ⟨_, s', ⟨bg1.deepcopy ids, ⟨(m0.deepcopy ids).deepcopy ids, rfl⟩, c1.deepcopy ids, c3, c2⟩, rfl, hag, hcost,
    hcost, h1, h2.symm, h3.symm⟩

end ParamEq

/-- C58.  With the annealing optimizer, the first rejected candidate is never undone: the network keeps exactly that
candidate's parameters until the optimizer returns, whatever happens afterwards.  So the network returned is worse than
the last accepted one, and worse than the cost the optimizer reports. -/
theorem C58_rejected_candidate_stays (d : Node) (ops : List World.Op) (w : World)
    (hw : World.Runs (World.empty d) ops w) (ids : List ℕ) (hs : Searchable w ids) (cost : (ℕ → Node) → ℚ)
    (hc : Reads w.next cost) (pre post : List (Bool × List Draw)) (ds : List Draw)
    (hd : ∀ c ∈ pre ++ (false, ds) :: post, MoveDraws ids.length c.2) (w1 w2 : World)
    (hpre : Accepted cost ids w pre w1) (hmove : move w1 ids ds = some w2) (hworse : cost w1.nodes < cost w2.nodes)
    (wf : World) (L : List ℕ) (E : ℚ) (h : anneal cost w ids (pre ++ (false, ds) :: post) = some (wf, L, E)) :
    (∀ j < w.next, wf.nodes j = w2.nodes j) ∧ cost wf.nodes = cost w2.nodes ∧ cost w1.nodes < cost wf.nodes ∧
      E < cost wf.nodes := by
  have hinv := hw.inv (World.inv_empty d)
  obtain ⟨s, s', a1, a2, a3, a4, a5, a6, rfl, rfl⟩ := anneal_start hinv hs hc h
  have hids : ∀ i ∈ ids, i < w.next := fun i hi => (hs.live i hi).1
  obtain ⟨s1, b1, b2, b3, b4, b5, b6⟩ := saLoop_accepted hc hids hpre ((false, ds) :: post)
    (fun c hc => hd c (by simp [hc])) a1 a2 a3 a4 a5.le a6
  unfold saLoop at b6
  simp only [Option.bind_eq_bind, Option.bind_eq_some_iff] at b6
  obtain ⟨s2, c1, c2⟩ := b6
  obtain ⟨x, i1, i2, i3, -, -, i6, i7⟩ := saStep_inv b1 (hd (false, ds) (by simp)) c1
  rw [b2] at i1
  obtain ⟨x', j1, j2⟩ := move_agree w.next ids ds hids s1.w w1 x b3 b1.bg.closed i1
  rw [hmove, Option.some.injEq] at j1
  subst j1
  have hcost : cost x.nodes = cost w2.nodes := hc _ _ (fun j hj => (j2 j hj).1)
  rw [if_pos ⟨by rw [b4, hcost]; exact hworse, rfl⟩] at i7
  obtain ⟨k1, k2, k3⟩ := saLoop_detached hc post (fun c hc => hd c (by simp [hc])) i2 i7.1 c2
  have hfin : Agree w.next (deepcopy s'.w s'.best).1 w2 :=
    (deepcopy_agree k2 _).trans (k1.trans (i3.trans j2))
  have hcf : cost (deepcopy s'.w s'.best).1.nodes = cost w2.nodes := hc _ _ (fun j hj => (hfin j hj).1)
  refine ⟨fun j hj => (hfin j hj).1, hcf, by rw [hcf]; exact hworse, ?_⟩
  rw [hcf]
  exact lt_of_le_of_lt (k3.trans (i6.trans b5)) hworse

/-- C58.  If no candidate is rejected, the network ends with the last candidate, not with the best one. -/
theorem C58_last_not_best (d : Node) (ops : List World.Op) (w : World) (hw : World.Runs (World.empty d) ops w)
    (ids : List ℕ) (hs : Searchable w ids) (cost : (ℕ → Node) → ℚ) (hc : Reads w.next cost)
    (steps : List (Bool × List Draw)) (hd : ∀ c ∈ steps, MoveDraws ids.length c.2) (w1 : World)
    (hacc : Accepted cost ids w steps w1) (wf : World) (L : List ℕ) (E : ℚ)
    (h : anneal cost w ids steps = some (wf, L, E)) :
    (∀ j < w.next, wf.nodes j = w1.nodes j) ∧ E ≤ cost wf.nodes := by
  have hinv := hw.inv (World.inv_empty d)
  obtain ⟨s, s', a1, a2, a3, a4, a5, a6, rfl, rfl⟩ := anneal_start hinv hs hc h
  have hids : ∀ i ∈ ids, i < w.next := fun i hi => (hs.live i hi).1
  obtain ⟨s1, b1, b2, b3, b4, b5, b6⟩ := saLoop_accepted hc hids hacc [] hd a1 a2 a3 a4 a5.le (by simpa using a6)
  simp only [saLoop, Option.some.injEq] at b6
  subst b6
  have hfin : Agree w.next (deepcopy s1.w s1.best).1 w1 := (deepcopy_agree b1.bg.le _).trans b3
  refine ⟨fun j hj => (hfin j hj).1, ?_⟩
  rw [hc _ _ (fun j hj => (hfin j hj).1)]
  exact b5

namespace ParamEq

theorem move_other {n0 : ℕ} {Bs : Set ℕ} {w w' : World} (h : Bg n0 Bs w) {L : List ℕ} (hm : Movable Bs w L)
    {ds : List Draw} (hd : MoveDraws L.length ds) (he : move w L ds = some w') (i : ℕ) (hb : i ∉ Bs) (hi : i ∉ L) :
    w'.nodes i = w.nodes i := by
  have hfst : (L.zip ds).map Prod.fst = L := List.map_fst_zip (by rw [hd.1])
  have hsc : ∀ p ∈ L.zip ds, ∃ s, eqScale (w.nodes p.1).scale p.2 = some s := by
    intro p hp
    obtain ⟨m1, m2⟩ := List.of_mem_zip hp
    obtain ⟨s, e1, -, -⟩ := C43_scale_step _ (hm.pos p.1 m1) p.2 (hd.2 p.2 m2)
    exact ⟨s, e1⟩
  obtain ⟨a', h1, h2, h3, h4⟩ := move_spec (n0 := n0) (ids := L) (b := w) (L.zip ds) (by rw [hfst]; exact hm.nodup)
    (fun p hp => ⟨Or.inl (List.of_mem_zip hp).1, by rw [h.hb]; exact hm.nb _ (List.of_mem_zip hp).1⟩) w
    ⟨h.inv, rfl, rfl, fun _ => Node.SameCore.refl _, fun _ _ _ _ => rfl, fun j hj => h.bcanon j (by rw [← h.hb]; exact hj)⟩
    hsc
  have hee : a' = w' := by
    have : some a' = some w' := h1.symm.trans he
    injection this
  subst hee
  rw [hfst, h.hb] at h4
  exact h4 i hb hi

/-- The remembered list consists of objects of its own. -/
def OwnBest (n0 : ℕ) (s : SA) : Prop := ∀ i ∈ s.best, n0 ≤ i ∧ i < s.w.next ∧ i ∉ s.state

theorem deepcopy_get (w : World) (L : List ℕ) (k i j : ℕ) (hi : (deepcopy w L).2[k]? = some i) (hj : L[k]? = some j) :
    i = w.next + k ∧ (deepcopy w L).1.nodes i = w.nodes j := by
  have hk := (List.getElem?_eq_some_iff.mp hj).1
  have e : (deepcopy w L).2[k]? = some (w.next + k) := by
    show (List.range' w.next L.length)[k]? = _
    rw [List.getElem?_range' hk]; simp
  rw [e, Option.some.injEq] at hi
  subst hi
  refine ⟨rfl, ?_⟩
  rw [deepcopy_node w L k hk]
  rw [List.getElem?_eq_getElem hk, Option.some.injEq] at hj
  rw [hj]

theorem saStep_best {n0 : ℕ} {Bs : Set ℕ} {n : ℕ} {cost : (ℕ → Node) → ℚ} {acc : Bool} {s s' : SA} {ds : List Draw}
    (h : SAInv n0 Bs n s) (ho : OwnBest n0 s) (hd : MoveDraws n ds) (he : saStep cost acc s ds = some s') {w1 : World}
    (hm : move s.w s.state ds = some w1) :
    OwnBest n0 s' ∧ ((s'.best = s.best ∧ s'.bestE = s.bestE ∧ ∀ i ∈ s.best, s'.w.nodes i = s.w.nodes i) ∨
      (¬ (s.prevE < cost w1.nodes ∧ acc = false) ∧ cost w1.nodes < s.bestE ∧ s'.bestE = cost w1.nodes ∧
        s'.best.length = s.state.length ∧
        ∀ (k : ℕ) i j, s'.best[k]? = some i → s.state[k]? = some j → s'.w.nodes i = w1.nodes j)) := by
  unfold saStep at he
  simp only [Option.bind_eq_bind, hm, Option.bind_some] at he
  have hd' : MoveDraws s.state.length ds := by rw [h.state.2]; exact hd
  obtain ⟨b1, b2, b3, b4⟩ := move_bg h.bg h.state.1 hd' hm
  have hold : ∀ i ∈ s.best, w1.nodes i = s.w.nodes i := by
    intro i hi
    obtain ⟨o1, o2, o3⟩ := ho i hi
    exact move_other h.bg h.state.1 hd' hm i (fun hc => by have := h.bg.blt i hc; omega) o3
  have hlt : ∀ i ∈ s.best, i < w1.next := fun i hi => by rw [b2]; exact (ho i hi).2.1
  by_cases hrej : s.prevE < cost w1.nodes ∧ acc = false
  · rw [if_pos hrej, Option.some.injEq] at he
    subst he
    refine ⟨fun i hi => ⟨(ho i hi).1, ?_, fun hc => ?_⟩, .inl ⟨rfl, rfl, fun i hi => ?_⟩⟩
    · show i < w1.next + s.prev.length
      have := hlt i hi; omega
    · have hc : i ∈ List.range' w1.next s.prev.length := hc
      rw [List.mem_range'_1] at hc
      have := hlt i hi; omega
    · show (deepcopy w1 s.prev).1.nodes i = _
      rw [(deepcopy_live w1 s.prev i (hlt i hi)).2]; exact hold i hi
  · rw [if_neg hrej] at he
    by_cases hb : cost w1.nodes < s.bestE
    · simp only [if_pos hb] at he
      rw [Option.some.injEq] at he
      subst he
      refine ⟨fun i hi => ?_, .inr ⟨hrej, hb, rfl, by simp [deepcopy], ?_⟩⟩
      · have hi : i ∈ List.range' (w1.next + s.state.length) s.state.length := hi
        rw [List.mem_range'_1] at hi
        refine ⟨by have := b1.le; omega, hi.2, fun hc => ?_⟩
        have := h.state.1.lt i hc
        rw [← b2] at this
        omega
      · intro k i j hi hj
        have hjlt : j < w1.next := by rw [b2]; exact h.state.1.lt j (List.mem_of_getElem? hj)
        rw [(deepcopy_get _ _ k i j hi hj).2, (deepcopy_live w1 s.state j hjlt).2]
    · simp only [if_neg hb] at he
      rw [Option.some.injEq] at he
      subst he
      refine ⟨fun i hi => ⟨(ho i hi).1, ?_, (ho i hi).2.2⟩, .inl ⟨rfl, rfl, fun i hi => ?_⟩⟩
      · show i < w1.next + s.state.length
        have := hlt i hi; omega
      · show (deepcopy w1 s.state).1.nodes i = _
        rw [(deepcopy_live w1 s.state i (hlt i hi)).2]; exact hold i hi

/-- After the first rejection the best is never replaced. -/
theorem saLoop_best_detached {n0 : ℕ} {Bs : Set ℕ} {n : ℕ} {cost : (ℕ → Node) → ℚ} (hc : Reads n0 cost)
    (steps : List (Bool × List Draw)) (hd : ∀ c ∈ steps, MoveDraws n c.2) {s s' : SA} (h : SAInv n0 Bs n s)
    (ho : OwnBest n0 s) (hdet : ∀ i ∈ s.state, n0 ≤ i) (hE : s.bestE ≤ cost s.w.nodes)
    (he : saLoop cost steps s = some s') :
    s'.best = s.best ∧ s'.bestE = s.bestE ∧ OwnBest n0 s' ∧ ∀ i ∈ s.best, s'.w.nodes i = s.w.nodes i := by
  induction steps generalizing s with
  | nil =>
    simp only [saLoop, Option.some.injEq] at he
    subst he
    exact ⟨rfl, rfl, ho, fun _ _ => rfl⟩
  | cons c steps ih =>
    unfold saLoop at he
    simp only [Option.bind_eq_bind, Option.bind_eq_some_iff] at he
    obtain ⟨s1, h1, h2⟩ := he
    obtain ⟨w1, i1, i2, i3, -, i5, i6, i7⟩ := saStep_inv h (hd c (by simp)) h1
    obtain ⟨o1, o2⟩ := saStep_best h ho (hd c (by simp)) h1 i1
    have hcw : cost w1.nodes = cost s.w.nodes := hc _ _ (fun j hj => (i5 hdet j hj).1)
    have hcs : cost s1.w.nodes = cost w1.nodes := hc _ _ (fun j hj => (i3 j hj).1)
    rcases o2 with ⟨e1, e2, e3⟩ | ⟨-, e2, -⟩
    · have hdet' : ∀ i ∈ s1.state, n0 ≤ i := by
        split_ifs at i7
        · exact i7.1
        · rw [i7.1]; exact hdet
      obtain ⟨k1, k2, k3, k4⟩ := ih (fun c hc => hd c (by simp [hc])) i2 o1 hdet' (by rw [e2, hcs, hcw]; exact hE) h2
      refine ⟨k1.trans e1, k2.trans e2, k3, fun i hi => ?_⟩
      rw [k4 i (by rw [e1]; exact hi), e3 i hi]
    · rw [hcw] at e2
      exact absurd e2 (not_lt.mpr hE)

theorem accepted_snoc {cost : (ℕ → Node) → ℚ} {ids : List ℕ} {w v v1 : World} {pre : List (Bool × List Draw)}
    (h : Accepted cost ids w pre v) {acc : Bool} {ds : List Draw} (hm : move v ids ds = some v1)
    (hc : cost v1.nodes ≤ cost v.nodes ∨ acc = true) : Accepted cost ids w (pre ++ [(acc, ds)]) v1 := by
  induction h with
  | nil w => exact .cons hm hc (.nil _)
  | cons h1 h2 _ ih => exact .cons h1 h2 (ih hm hc)

/-- The objects `L` of the heap `x` carry the contents of the nodes `ids` of the network state `v`. -/
def Carries (x v : World) (L ids : List ℕ) : Prop :=
  L.length = ids.length ∧ ∀ (k : ℕ) i j, L[k]? = some i → ids[k]? = some j → x.nodes i = v.nodes j

theorem saLoop_best {n0 : ℕ} {Bs : Set ℕ} {ids : List ℕ} {cost : (ℕ → Node) → ℚ} (hc : Reads n0 cost)
    (hids : ∀ i ∈ ids, i < n0) {w : World} (steps : List (Bool × List Draw))
    (hd : ∀ c ∈ steps, MoveDraws ids.length c.2) :
    ∀ {s s' : SA} {v vb : World} {pre pb : List (Bool × List Draw)}, SAInv n0 Bs ids.length s → OwnBest n0 s →
      s.state = ids → Accepted cost ids w pre v → Agree n0 s.w v → s.prevE = cost v.nodes → s.bestE ≤ cost v.nodes →
      pb <+: pre → Accepted cost ids w pb vb → s.bestE = cost vb.nodes → Carries s.w vb s.best ids →
      saLoop cost steps s = some s' →
      ∃ pb' vb', pb' <+: pre ++ steps ∧ Accepted cost ids w pb' vb' ∧ s'.bestE = cost vb'.nodes ∧
        Carries s'.w vb' s'.best ids ∧ OwnBest n0 s' := by
  induction steps with
  | nil =>
    intro s s' v vb pre pb _ ho _ _ _ _ _ h1 h2 h3 h4 he
    simp only [saLoop, Option.some.injEq] at he
    subst he
    exact ⟨pb, vb, by simpa using h1, h2, h3, h4, ho⟩
  | cons c steps ih =>
    intro s s' v vb pre pb h ho hst hacc hag hE hB h1 h2 h3 h4 he
    unfold saLoop at he
    simp only [Option.bind_eq_bind, Option.bind_eq_some_iff] at he
    obtain ⟨s1, e1, e2⟩ := he
    obtain ⟨x, i1, i2, i3, -, -, i6, i7⟩ := saStep_inv h (hd c (by simp)) e1
    obtain ⟨o1, o2⟩ := saStep_best h ho (hd c (by simp)) e1 i1
    have i1' := i1
    rw [hst] at i1'
    obtain ⟨v1, j1, j2⟩ := move_agree n0 ids c.2 hids s.w v x hag h.bg.closed i1'
    have hcost : cost x.nodes = cost v1.nodes := hc _ _ (fun j hj => (j2 j hj).1)
    have hkeep : ∀ {y : World}, (∀ i ∈ s.best, y.nodes i = s.w.nodes i) → Carries y vb s.best ids := by
      intro y hy
      refine ⟨h4.1, fun k i j hi hj => ?_⟩
      rw [hy i (List.mem_of_getElem? hi)]
      exact h4.2 k i j hi hj
    by_cases hrej : s.prevE < cost x.nodes ∧ c.1 = false
    · rw [if_pos hrej] at i7
      rcases o2 with ⟨f1, f2, f3⟩ | ⟨f1, -⟩
      · have hcs : cost s1.w.nodes = cost x.nodes := hc _ _ (fun j hj => (i3 j hj).1)
        obtain ⟨k1, k2, k3, k4⟩ := saLoop_best_detached hc steps (fun c hc => hd c (by simp [hc])) i2 o1 i7.1
          (by rw [hcs, f2]; exact le_of_lt (lt_of_le_of_lt (by rw [hE]; exact hB) hrej.1)) e2
        refine ⟨pb, vb, h1.trans (List.prefix_append _ _), h2, by rw [k2, f2]; exact h3, ?_, k3⟩
        rw [k1, f1]
        exact hkeep (fun i hi => by rw [k4 i (by rw [f1]; exact hi), f3 i hi])
      · exact absurd hrej f1
    · rw [if_neg hrej] at i7
      have hacc1 : Accepted cost ids w (pre ++ [c]) v1 := by
        refine accepted_snoc hacc j1 ?_
        by_contra hc'
        push Not at hc'
        exact hrej ⟨by rw [hE, hcost]; exact hc'.1, by simpa using hc'.2⟩
      have happ : pre ++ c :: steps = (pre ++ [c]) ++ steps := by simp
      rw [happ]
      rcases o2 with ⟨f1, f2, f3⟩ | ⟨-, f2, f3, f4, f5⟩
      · exact ih (fun c hc => hd c (by simp [hc])) i2 o1 (i7.1.trans hst) hacc1 (i3.trans j2) (by rw [i7.2.1, hcost])
          (by rw [← hcost]; exact i7.2.2) (h1.trans (List.prefix_append _ _)) h2 (by rw [f2]; exact h3)
          (by rw [f1]; exact hkeep f3) e2
      · refine ih (fun c hc => hd c (by simp [hc])) i2 o1 (i7.1.trans hst) hacc1 (i3.trans j2) (by rw [i7.2.1, hcost])
          (by rw [← hcost]; exact i7.2.2) (List.prefix_refl _) hacc1 (by rw [f3, hcost]) ⟨by rw [f4, hst], ?_⟩ e2
        intro k i j hi hj
        rw [f5 k i j hi (by rw [hst]; exact hj)]
        exact (j2 j (hids j (List.mem_of_getElem? hj))).1

theorem saLoop_bestE {cost : (ℕ → Node) → ℚ} {n0 : ℕ} {Bs : Set ℕ} {n : ℕ} (steps : List (Bool × List Draw))
    (hd : ∀ c ∈ steps, MoveDraws n c.2) {s s' : SA} (h : SAInv n0 Bs n s) (he : saLoop cost steps s = some s') :
    s'.bestE ≤ s.bestE := by
  induction steps generalizing s with
  | nil => simp only [saLoop, Option.some.injEq] at he; subst he; exact le_rfl
  | cons c steps ih =>
    unfold saLoop at he
    simp only [Option.bind_eq_bind, Option.bind_eq_some_iff] at he
    obtain ⟨s1, h1, h2⟩ := he
    obtain ⟨w1, -, i2, -, -, -, i6, -⟩ := saStep_inv h (hd c (by simp)) h1
    exact (ih (fun c hc => hd c (by simp [hc])) i2 h2).trans i6

end ParamEq

/-- C58 (what the returned list is).  The list the annealing optimizer returns does hold the best parameters it has seen:
it consists of objects outside the network whose contents are those of the searched nodes after some sequence of accepted
candidates, the returned cost is the cost of exactly that network, and no sequence of accepted candidates at the beginning
of the run has a smaller one. -/
theorem C58_returned_list (d : Node) (ops : List World.Op) (w : World) (hw : World.Runs (World.empty d) ops w)
    (ids : List ℕ) (hs : Searchable w ids) (cost : (ℕ → Node) → ℚ) (hc : Reads w.next cost)
    (steps : List (Bool × List Draw)) (hd : ∀ c ∈ steps, MoveDraws ids.length c.2) (wf : World) (L : List ℕ) (E : ℚ)
    (h : anneal cost w ids steps = some (wf, L, E)) :
    (∃ pb v, pb <+: steps ∧ Accepted cost ids w pb v ∧ E = cost v.nodes ∧ L.length = ids.length ∧
      ∀ (k : ℕ) i j, L[k]? = some i → ids[k]? = some j → w.next ≤ i ∧ wf.nodes i = v.nodes j) ∧
    ∀ q u, q <+: steps → Accepted cost ids w q u → E ≤ cost u.nodes := by
  have hinv := hw.inv (World.inv_empty d)
  have hids : ∀ i ∈ ids, i < w.next := fun i hi => (hs.live i hi).1
  have hstart := anneal_start hinv hs hc h
  unfold anneal at h
  simp only [Option.bind_eq_bind, Option.bind_eq_some_iff, Option.some.injEq, Prod.mk.injEq] at h
  obtain ⟨s', h1, rfl, rfl, rfl⟩ := h
  have bg0 : Bg w.next w.biases w := by
    refine ⟨hinv, rfl, fun x hx => hs.canon x (bias_lt hinv hx) (Or.inr hx), fun x hx => bias_lt hinv hx, ?_, le_refl _⟩
    intro i l hl
    obtain ⟨k1, k2⟩ := hinv.home i l hl
    exact ⟨(hinv.bound _ l k1).1, (hinv.bound _ l k2).1⟩
  have m0 : Movable w.biases w ids :=
    ⟨hs.nodup, fun i hi => (hs.live i hi).1, fun i hi => (hs.live i hi).2, fun i hi => (hs.legal i hi).1⟩
  obtain ⟨c1, c2, c3⟩ := m0.copy bg0
  have bg1 := bg0.deepcopy ids
  have hag : Agree w.next (deepcopy (deepcopy w ids).1 ids).1 w :=
    (deepcopy_agree bg1.le ids).trans (deepcopy_agree (le_refl _) ids)
  have hcost : cost (deepcopy (deepcopy w ids).1 ids).1.nodes = cost w.nodes := hc _ _ (fun j hj => (hag j hj).1)
  have hsa : SAInv w.next w.biases ids.length
      ⟨(deepcopy (deepcopy w ids).1 ids).1, ids, (deepcopy w ids).2, cost (deepcopy (deepcopy w ids).1 ids).1.nodes,
        (deepcopy (deepcopy w ids).1 ids).2, cost (deepcopy (deepcopy w ids).1 ids).1.nodes⟩ :=
    ⟨bg1.deepcopy ids, ⟨(m0.deepcopy ids).deepcopy ids, rfl⟩, c1.deepcopy ids, c3, c2⟩
  constructor
  · obtain ⟨pb, v, r1, r2, r3, r4, r5⟩ := saLoop_best hc hids steps hd (v := w) (vb := w) (pre := []) (pb := []) hsa (by
        intro i hi
        have hi : i ∈ List.range' (w.next + ids.length) ids.length := hi
        rw [List.mem_range'_1] at hi
        exact ⟨by omega, hi.2, fun hcon => by have := hids i hcon; omega⟩) rfl (.nil _) hag hcost hcost.le (List.prefix_refl _)
      (.nil _) hcost ⟨by simp [deepcopy], fun k i j hi hj => by
        have hjl := hids j (List.mem_of_getElem? hj)
        show (deepcopy (deepcopy w ids).1 ids).1.nodes i = w.nodes j
        rw [(deepcopy_get _ _ k i j hi hj).2, (deepcopy_live w ids j hjl).2]⟩ h1
    refine ⟨pb, v, by simpa using r1, r2, r3, r4.1, fun k i j hi hj => ?_⟩
    obtain ⟨q1, q2, q3⟩ := r5 i (List.mem_of_getElem? hi)
    refine ⟨q1, ?_⟩
    rw [(deepcopy_live s'.w s'.best i q2).2]
    exact r4.2 k i j hi hj
  · intro q u hq ha
    obtain ⟨post, rfl⟩ := hq
    obtain ⟨s1, b1, b2, b3, b4, b5, b6⟩ := saLoop_accepted hc hids ha post (fun c hc => hd c (by simp [hc])) hsa rfl hag hcost
      hcost.le h1
    exact (saLoop_bestE post (fun c hc => hd c (by simp [hc])) b1 b6).trans b5

/-- C58, concrete run: loss = distance of the scale from 1.  The start has loss 0; one rejected candidate; the network
is left with loss 1/20 although the optimizer reports 0. -/
theorem C58_example : ∃ w : World, (∃ d ops, World.Runs (World.empty d) ops w) ∧ |(w.nodes 0).scale - 1| = 0 ∧
    (anneal (fun n => |(n 0).scale - 1|) w [0] [(false, [⟨0, 1 / 2, 0⟩]), (true, [⟨0, 1 / 4, 1 / 2⟩])]).map
      (fun r => (r.2.2, |(r.1.nodes 0).scale - 1|)) = some (0, 1 / 20) := by
  refine ⟨(World.empty (Node.base 1 0 (intDtype 7))).alloc (Node.base 1 0 (intDtype 7)),
    ⟨_, [.alloc _], .cons trivial rfl (.nil _)⟩, ?_, ?_⟩ <;> decide +kernel

end Verif
