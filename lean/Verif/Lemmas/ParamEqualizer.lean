import Verif.Model.ParamEqualizer
import Verif.Props.Node

/-! Lemmas for the parameter search: node contents are determined by the parameters. -/

namespace Verif

/-! ## Single nodes -/

namespace Node

/-- Requantizing with the current parameters changes nothing. -/
def Canon (n : Node) : Prop := n.requantize = n

/-- Two nodes that become equal when given the same parameters. -/
def SameCore (n m : Node) : Prop := ∀ s z, n.update s z true = m.update s z true

theorem SameCore.refl (n : Node) : SameCore n n := fun _ _ => rfl

theorem SameCore.trans {a b c : Node} (h : SameCore a b) (h' : SameCore b c) : SameCore a c :=
  fun s z => (h s z).trans (h' s z)

theorem SameCore.symm {a b : Node} (h : SameCore a b) : SameCore b a := fun s z => (h s z).symm

theorem sameCore_update (n : Node) (s : ℚ) (z : ℤ) (rq : Bool) : SameCore (n.update s z rq) n := by
  intro s' z'
  cases rq
  · rfl
  · simp only [update, if_true, requantize, Option.map_map]
    rfl

theorem canon_update (n : Node) (s : ℚ) (z : ℤ) : Canon (n.update s z true) := by
  have h := sameCore_update n s z true s z
  unfold Canon
  exact h

theorem update_params (n : Node) (s : ℚ) (z : ℤ) (rq : Bool) :
    (n.update s z rq).scale = s ∧ (n.update s z rq).zp = z := by
  unfold update; cases rq <;> exact ⟨rfl, rfl⟩

theorem eq_of_sameCore {n m : Node} (h : SameCore n m) (hn : n.Canon) (hm : m.Canon) (hs : n.scale = m.scale)
    (hz : n.zp = m.zp) : n = m := by
  have h1 : n.update n.scale n.zp true = n := hn
  have h2 : m.update m.scale m.zp true = m := hm
  rw [← h1, ← h2, hs, hz]
  exact h _ _

theorem canon_base (s : ℚ) (z : ℤ) (q : GDtype) : (base s z q).Canon := rfl

theorem canon_withTensor (n : Node) (h : n.Canon) (fp : FArr) : (n.withTensor fp).Canon := by
  have ha := agrees_withTensor n fp _ rfl
  have hl : n.lut.map (fun l => l.updateIn n.scale n.zp) = n.lut := congrArg Node.lut h
  have ha' : Quantization.quantizeArray n.quant fp.data n.zp n.scale (some (baseRoundingFArr fp n.scale).data) =
      Quantization.quantizeArray n.quant fp.data n.zp n.scale := ha.symm
  unfold Canon requantize withTensor
  simp only [Option.map_some, hl, ha']

theorem canon_withLut (n : Node) (h : n.Canon) (fn : ℚ → ℚ) (os : ℚ) (oz : ℤ) : (n.withLut fn os oz).Canon := by
  have ht : n.requantize.tensor = n.tensor := congrArg Node.tensor h
  unfold requantize at ht
  simp only at ht
  unfold Canon requantize withLut
  simp only [Option.map_some, ht]
  rfl

end Node

/-! ## Worlds -/

namespace World

theorem update_core (fuel : ℕ) : ∀ (w w' : World) id s z rq, World.update fuel w id s z rq = some w' →
    (∀ j, Node.SameCore (w'.nodes j) (w.nodes j)) ∧
      (∀ j, (w.nodes j).Canon → (j = id → rq = true) → (w'.nodes j).Canon) ∧
      (rq = true → (w'.nodes id).Canon) := by
  induction fuel with
  | zero => intro w w' id s z rq h; simp [World.update] at h
  | succ fuel ih =>
    intro w w' id s z rq h
    unfold World.update at h
    simp only at h
    have fold : ∀ (ls : List Link) (a b : World), ls.foldlM (fun w l => World.update fuel w l.bias
        ((w.nodes l.kernel).scale * (w.nodes l.input).scale) (w.nodes l.bias).zp true) a = some b →
        (∀ j, Node.SameCore (b.nodes j) (a.nodes j)) ∧ (∀ j, (a.nodes j).Canon → (b.nodes j).Canon) := by
      intro ls
      induction ls with
      | nil =>
        intro a b h
        simp only [List.foldlM_nil, Option.pure_def, Option.some.injEq] at h
        rw [h]; exact ⟨fun _ => Node.SameCore.refl _, fun _ h => h⟩
      | cons l ls ihl =>
        intro a b h
        simp only [List.foldlM_cons, Option.bind_eq_bind, Option.bind_eq_some_iff] at h
        obtain ⟨c, h1, h2⟩ := h
        obtain ⟨i1, i2⟩ := ihl c b h2
        obtain ⟨j1, j2, -⟩ := ih _ _ _ _ _ _ h1
        exact ⟨fun j => (i1 j).trans (j1 j), fun j hj => i2 j (j2 j hj (fun _ => rfl))⟩
    obtain ⟨f1, f2⟩ := fold _ _ _ h
    have hself : (w.setNode id ((w.nodes id).update s z rq)).nodes id = (w.nodes id).update s z rq := by
      simp [setNode]
    have hother : ∀ j, j ≠ id → (w.setNode id ((w.nodes id).update s z rq)).nodes j = w.nodes j := by
      intro j hj; simp [setNode, hj]
    have hcan : rq = true → ((w.setNode id ((w.nodes id).update s z rq)).nodes id).Canon := by
      intro e; rw [hself, e]; exact Node.canon_update _ _ _
    refine ⟨fun j => (f1 j).trans ?_, fun j hj hr => f2 j ?_, fun e => f2 id (hcan e)⟩
    · by_cases e : j = id
      · rw [e, hself]; exact Node.sameCore_update _ _ _ _
      · rw [hother j e]; exact Node.SameCore.refl _
    · by_cases e : j = id
      · rw [e]; exact hcan (hr e)
      · rw [hother j e]; exact hj

theorem update_shape (fuel : ℕ) : ∀ (w w' : World) id s z rq, World.update fuel w id s z rq = some w' →
    w'.hooks = w.hooks ∧ w'.next = w.next := by
  induction fuel with
  | zero => intro w w' id s z rq h; simp [World.update] at h
  | succ fuel ih =>
    intro w w' id s z rq h
    unfold World.update at h
    simp only at h
    have fold : ∀ (ls : List Link) (a b : World), ls.foldlM (fun w l => World.update fuel w l.bias
        ((w.nodes l.kernel).scale * (w.nodes l.input).scale) (w.nodes l.bias).zp true) a = some b →
        b.hooks = a.hooks ∧ b.next = a.next := by
      intro ls
      induction ls with
      | nil => intro a b h; simp only [List.foldlM_nil, Option.pure_def, Option.some.injEq] at h; rw [h]; exact ⟨rfl, rfl⟩
      | cons l ls ihl =>
        intro a b h
        simp only [List.foldlM_cons, Option.bind_eq_bind, Option.bind_eq_some_iff] at h
        obtain ⟨c, h1, h2⟩ := h
        obtain ⟨i1, i2⟩ := ihl c b h2
        obtain ⟨j1, j2⟩ := ih _ _ _ _ _ _ h1
        exact ⟨i1.trans j1, i2.trans j2⟩
    exact fold _ (w.setNode id ((w.nodes id).update s z rq)) _ h

end World

namespace ParamEq
open World

/-- `a` differs from the reference world `b` only in the parameters (and what follows from them) of the objects in
`ids`, of biases, and of objects from `n0` on. -/
structure Sim (n0 : ℕ) (ids : List ℕ) (b a : World) : Prop where
  inv : a.Inv
  hooks : a.hooks = b.hooks
  next : a.next = b.next
  core : ∀ j, Node.SameCore (a.nodes j) (b.nodes j)
  rest : ∀ j < n0, j ∉ b.biases → j ∉ ids → a.nodes j = b.nodes j
  canon : ∀ j ∈ b.biases, (a.nodes j).Canon

variable {n0 : ℕ} {ids : List ℕ} {b : World}

theorem Sim.biases {a : World} (h : Sim n0 ids b a) : a.biases = b.biases := by
  unfold World.biases; rw [h.hooks]

theorem Sim.update {a : World} (h : Sim n0 ids b a) (id : ℕ) (hid : id ∈ ids ∨ n0 ≤ id) (hb : id ∉ b.biases) (s : ℚ)
    (z : ℤ) (rq : Bool) :
    ∃ a', World.update recursionLimit a id s z rq = some a' ∧ Sim n0 ids b a' ∧
      (a'.nodes id).scale = s ∧ (a'.nodes id).zp = z ∧ (rq = true → (a'.nodes id).Canon) ∧
      ∀ j, j ∉ b.biases → j ≠ id → a'.nodes j = a.nodes j := by
  obtain ⟨a', h1, h2, -, -, h3, h4, h5⟩ := h.inv.update 998 id (by rw [h.biases]; exact hb) s z rq
  have h1' : World.update recursionLimit a id s z rq = some a' := h1
  obtain ⟨c1, c2, c3⟩ := update_core _ _ _ _ _ _ _ h1'
  obtain ⟨s1, s2⟩ := update_shape _ _ _ _ _ _ _ h1'
  rw [h.biases] at h5
  refine ⟨a', h1', ⟨h2, s1.trans h.hooks, s2.trans h.next, fun j => (c1 j).trans (h.core j), ?_, ?_⟩, h3, h4, c3, h5⟩
  · intro j hj hjb hji
    rw [h5 j hjb, h.rest j hj hjb hji]
    rintro rfl
    rcases hid with hid | hid
    · exact hji hid
    · omega
  · intro j hj
    exact c2 j (h.canon j hj) (fun e => absurd (e ▸ hj) hb)

theorem copy_spec (rq : Bool) (ps : List (ℕ × ℕ)) (hnd : (ps.map Prod.fst).Nodup)
    (hps : ∀ p ∈ ps, (p.1 ∈ ids ∨ n0 ≤ p.1) ∧ p.1 ∉ b.biases ∧ p.2 ∉ b.biases ∧ p.2 ∉ ps.map Prod.fst) (a : World)
    (h : Sim n0 ids b a) :
    ∃ a', ps.foldlM (fun w p => World.update recursionLimit w p.1 (w.nodes p.2).scale (w.nodes p.2).zp rq) a = some a' ∧
      Sim n0 ids b a' ∧
      (∀ p ∈ ps, (a'.nodes p.1).scale = (a.nodes p.2).scale ∧ (a'.nodes p.1).zp = (a.nodes p.2).zp ∧
        (rq = true → (a'.nodes p.1).Canon)) ∧
      ∀ j, j ∉ b.biases → j ∉ ps.map Prod.fst → a'.nodes j = a.nodes j := by
  induction ps generalizing a with
  | nil => exact ⟨a, rfl, h, by simp, fun _ _ _ => rfl⟩
  | cons p ps ih =>
    simp only [List.map_cons, List.nodup_cons] at hnd
    obtain ⟨q1, q2, q3, q4⟩ := hps p (by simp)
    obtain ⟨a1, u1, u2, u3, u4, u5, u6⟩ := h.update p.1 q1 q2 (a.nodes p.2).scale (a.nodes p.2).zp rq
    obtain ⟨a', i1, i2, i3, i4⟩ := ih hnd.2 (fun q hq => by
      obtain ⟨r1, r2, r3, r4⟩ := hps q (by simp [hq])
      refine ⟨r1, r2, r3, fun hc => r4 ?_⟩
      simp only [List.map_cons, List.mem_cons]; exact Or.inr hc) a1 u2
    have hp1 : a'.nodes p.1 = a1.nodes p.1 := i4 p.1 q2 hnd.1
    refine ⟨a', ?_, i2, ?_, ?_⟩
    · simp only [List.foldlM_cons, Option.bind_eq_bind, u1, Option.bind_some]; exact i1
    · intro q hq
      rcases List.mem_cons.mp hq with rfl | hq'
      · rw [hp1]; exact ⟨u3, u4, u5⟩
      · obtain ⟨j1, j2, j3⟩ := i3 q hq'
        obtain ⟨r1, r2, r3, r4⟩ := hps q hq
        have : a1.nodes q.2 = a.nodes q.2 := u6 q.2 r3 (fun e => r4 (by simp [e]))
        rw [this] at j1 j2
        exact ⟨j1, j2, j3⟩
    · intro j hj hjn
      simp only [List.map_cons, List.mem_cons, not_or] at hjn
      rw [i4 j hj hjn.2, u6 j hj hjn.1]

theorem quant_eq {n m : Node} (h : Node.SameCore n m) : n.quant = m.quant := by
  have := congrArg Node.quant (h 0 0)
  exact this

theorem move_spec (ps : List (ℕ × Draw)) (hnd : (ps.map Prod.fst).Nodup)
    (hps : ∀ p ∈ ps, (p.1 ∈ ids ∨ n0 ≤ p.1) ∧ p.1 ∉ b.biases) (a : World) (h : Sim n0 ids b a)
    (hsc : ∀ p ∈ ps, ∃ s, eqScale (a.nodes p.1).scale p.2 = some s) :
    ∃ a', ps.foldlM (fun w p => do
        let zp := eqZp (w.nodes p.1).zp (w.nodes p.1).quant p.2
        let scale ← eqScale (w.nodes p.1).scale p.2
        World.update World.recursionLimit w p.1 scale zp true) a = some a' ∧
      Sim n0 ids b a' ∧
      (∀ p ∈ ps, eqScale (a.nodes p.1).scale p.2 = some (a'.nodes p.1).scale ∧
        (a'.nodes p.1).zp = eqZp (a.nodes p.1).zp (b.nodes p.1).quant p.2 ∧ (a'.nodes p.1).Canon) ∧
      ∀ j, j ∉ b.biases → j ∉ ps.map Prod.fst → a'.nodes j = a.nodes j := by
  induction ps generalizing a with
  | nil => exact ⟨a, rfl, h, by simp, fun _ _ _ => rfl⟩
  | cons p ps ih =>
    simp only [List.map_cons, List.nodup_cons] at hnd
    obtain ⟨q1, q2⟩ := hps p (by simp)
    obtain ⟨s, hs⟩ := hsc p (by simp)
    obtain ⟨a1, u1, u2, u3, u4, u5, u6⟩ := h.update p.1 q1 q2 s
      (eqZp (a.nodes p.1).zp (a.nodes p.1).quant p.2) true
    have hne : ∀ q ∈ ps, q.1 ≠ p.1 := by
      intro q hq e; exact hnd.1 (by rw [← e]; exact List.mem_map_of_mem hq)
    have hsame : ∀ q ∈ ps, a1.nodes q.1 = a.nodes q.1 :=
      fun q hq => u6 q.1 (hps q (by simp [hq])).2 (hne q hq)
    obtain ⟨a', i1, i2, i3, i4⟩ := ih hnd.2 (fun q hq => hps q (by simp [hq])) a1 u2
      (fun q hq => by rw [hsame q hq]; exact hsc q (by simp [hq]))
    have hp1 : a'.nodes p.1 = a1.nodes p.1 := i4 p.1 q2 hnd.1
    refine ⟨a', ?_, i2, ?_, ?_⟩
    · simp only [List.foldlM_cons, Option.bind_eq_bind, hs, Option.bind_some, u1]; exact i1
    · intro q hq
      rcases List.mem_cons.mp hq with rfl | hq'
      · rw [hp1, u3, u4]; exact ⟨hs, by rw [quant_eq (h.core q.1)], u5 rfl⟩
      · have := i3 q hq'
        rw [hsame q hq'] at this
        exact this
    · intro j hj hjn
      simp only [List.map_cons, List.mem_cons, not_or] at hjn
      rw [i4 j hj hjn.2, u6 j hj hjn.1]

/-- Two worlds over the same reference, all searched objects canonical, with the same parameters: same live objects. -/
theorem Sim.nodes_eq {a a' : World} (h : Sim n0 ids b a) (h' : Sim n0 ids b a')
    (hlink : ∀ i, ∀ l ∈ b.hooks i, l.kernel < n0 ∧ l.input < n0)
    (hc : ∀ j ∈ ids, (a.nodes j).Canon) (hc' : ∀ j ∈ ids, (a'.nodes j).Canon)
    (hp : ∀ j ∈ ids, (a.nodes j).scale = (a'.nodes j).scale ∧ (a.nodes j).zp = (a'.nodes j).zp) :
    ∀ j < n0, a.nodes j = a'.nodes j := by
  have hscale : ∀ j < n0, j ∉ b.biases → (a.nodes j).scale = (a'.nodes j).scale := by
    intro j hj hjb
    by_cases hji : j ∈ ids
    · exact (hp j hji).1
    · rw [h.rest j hj hjb hji, h'.rest j hj hjb hji]
  intro j hj
  have hcore : Node.SameCore (a.nodes j) (a'.nodes j) := (h.core j).trans (h'.core j).symm
  by_cases hjb : j ∈ b.biases
  · have hjb0 := hjb
    obtain ⟨i, l, hl, rfl⟩ := hjb
    have hla : l ∈ a.hooks i := by rw [h.hooks]; exact hl
    have hla' : l ∈ a'.hooks i := by rw [h'.hooks]; exact hl
    obtain ⟨k1, k2⟩ := hlink i l hl
    have nb := h.inv.toWired.kernel_not_bias hla hla
    have hker : l.kernel ∉ b.biases := by
      rintro ⟨i2, l2, h2, e⟩
      exact (h.inv.toWired.kernel_not_bias hla (l' := l2) (j := i2) (by rw [h.hooks]; exact h2)).1 e.symm
    have hin : l.input ∉ b.biases := by
      rintro ⟨i2, l2, h2, e⟩
      exact (h.inv.toWired.kernel_not_bias hla (l' := l2) (j := i2) (by rw [h.hooks]; exact h2)).2 e.symm
    have r1 := h.inv.rel i l hla
    have r2 := h'.inv.rel i l hla'
    unfold World.Rel at r1 r2
    refine Node.eq_of_sameCore hcore (h.canon _ hjb0) (h'.canon _ hjb0) ?_ ?_
    · rw [r1, r2, hscale _ k1 hker, hscale _ k2 hin]
    · rw [(h.inv.ok i l hla).1, (h'.inv.ok i l hla').1]
  · by_cases hji : j ∈ ids
    · exact Node.eq_of_sameCore hcore (hc j hji) (hc' j hji) (hp j hji).1 (hp j hji).2
    · rw [h.rest j hj hjb hji, h'.rest j hj hjb hji]

/-! ## Copies -/

theorem deepcopy_hooks_sub (w : World) (ids : List ℕ) (i : ℕ) :
    ∃ i', (deepcopy w ids).1.hooks i = w.hooks i' ∧ (i < w.next → i' = i) := by
  simp only [deepcopy]
  split_ifs with h
  · exact ⟨_, rfl, fun h' => absurd h' (by omega)⟩
  · exact ⟨i, rfl, fun _ => rfl⟩

theorem deepcopy_live (w : World) (ids : List ℕ) (i : ℕ) (hi : i < w.next) :
    (deepcopy w ids).1.hooks i = w.hooks i ∧ (deepcopy w ids).1.nodes i = w.nodes i := by
  have : ¬ (w.next ≤ i ∧ i < w.next + ids.length) := by omega
  simp only [deepcopy, if_neg this]
  exact ⟨trivial, trivial⟩

theorem deepcopy_biases {w : World} (hw : w.Inv) (ids : List ℕ) : (deepcopy w ids).1.biases = w.biases := by
  ext x
  constructor
  · rintro ⟨i, l, hl, rfl⟩
    obtain ⟨i', e, -⟩ := deepcopy_hooks_sub w ids i
    rw [e] at hl
    exact ⟨i', l, hl, rfl⟩
  · rintro ⟨i, l, hl, rfl⟩
    refine ⟨i, l, ?_, rfl⟩
    rw [(deepcopy_live w ids i (hw.bound i l hl).1).1]; exact hl

theorem deepcopy_inv {w : World} (hw : w.Inv) (ids : List ℕ) : (deepcopy w ids).1.Inv := by
  have hb := deepcopy_biases hw ids
  have hbd : ∀ i, ∀ l ∈ w.hooks i, l.kernel < w.next ∧ l.input < w.next ∧ l.bias < w.next := by
    intro i l hl
    obtain ⟨h1, h2⟩ := hw.home i l hl
    exact ⟨(hw.bound _ l h1).1, (hw.bound _ l h2).1, (hw.bound _ l hl).2⟩
  refine ⟨⟨?_, ?_, ?_, ?_, ?_⟩, ?_, ?_⟩
  · intro i l hl
    obtain ⟨i', e, -⟩ := deepcopy_hooks_sub w ids i
    rw [e] at hl
    obtain ⟨h1, h2⟩ := hw.home i' l hl
    obtain ⟨b1, b2, -⟩ := hbd i' l hl
    rw [(deepcopy_live w ids _ b1).1, (deepcopy_live w ids _ b2).1]
    exact ⟨h1, h2⟩
  · intro i l hl
    have hlt : i < w.next + ids.length := by
      by_contra hc
      have h1 : ¬ (w.next ≤ i ∧ i < w.next + ids.length) := by omega
      simp only [deepcopy, if_neg h1] at hl
      rw [hw.fresh i (by omega)] at hl
      simp at hl
    obtain ⟨i', e, -⟩ := deepcopy_hooks_sub w ids i
    rw [e] at hl
    have := (hbd i' l hl).2.2
    show i < w.next + ids.length ∧ l.bias < w.next + ids.length
    omega
  · intro i hi
    change w.next + ids.length ≤ i at hi
    have h1 : ¬ (w.next ≤ i ∧ i < w.next + ids.length) := by omega
    simp only [deepcopy, if_neg h1]
    exact hw.fresh i (by omega)
  · intro x hx
    rw [hb] at hx
    have : x < w.next := by obtain ⟨i, l, hl, rfl⟩ := hx; exact (hbd i l hl).2.2
    rw [(deepcopy_live w ids x this).1]
    exact hw.leaf x hx
  · intro i j l hl l' hl'
    obtain ⟨i', e, -⟩ := deepcopy_hooks_sub w ids i
    obtain ⟨j', e', -⟩ := deepcopy_hooks_sub w ids j
    rw [e] at hl
    rw [e'] at hl'
    exact hw.uniq i' j' l hl l' hl'
  · intro i l hl
    obtain ⟨i', e, -⟩ := deepcopy_hooks_sub w ids i
    rw [e] at hl
    obtain ⟨b1, b2, b3⟩ := hbd i' l hl
    unfold Rel
    rw [(deepcopy_live w ids _ b1).2, (deepcopy_live w ids _ b2).2, (deepcopy_live w ids _ b3).2]
    exact hw.rel i' l hl
  · intro i l hl
    obtain ⟨i', e, -⟩ := deepcopy_hooks_sub w ids i
    rw [e] at hl
    obtain ⟨b1, b2, b3⟩ := hbd i' l hl
    unfold BiasOk
    rw [(deepcopy_live w ids _ b3).2]
    exact hw.ok i' l hl

theorem deepcopy_link {w : World} (hw : w.Inv) (ids : List ℕ) :
    ∀ i, ∀ l ∈ (deepcopy w ids).1.hooks i, l.kernel < w.next ∧ l.input < w.next := by
  intro i l hl
  obtain ⟨i', e, -⟩ := deepcopy_hooks_sub w ids i
  rw [e] at hl
  obtain ⟨h1, h2⟩ := hw.home i' l hl
  exact ⟨(hw.bound _ l h1).1, (hw.bound _ l h2).1⟩

theorem deepcopy_node (w : World) (ids : List ℕ) (k : ℕ) (hk : k < ids.length) :
    (deepcopy w ids).1.nodes (w.next + k) = w.nodes ids[k] := by
  have : w.next ≤ w.next + k ∧ w.next + k < w.next + ids.length := by omega
  simp only [deepcopy, if_pos this]
  congr 1
  simp [List.getD_eq_getElem?_getD, hk]

theorem bias_lt {w : World} (hw : w.Inv) {x : ℕ} (hx : x ∈ w.biases) : x < w.next := by
  obtain ⟨i, l, hl, rfl⟩ := hx; exact (hw.bound i l hl).2

end ParamEq
end Verif
