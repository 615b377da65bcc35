import Verif.Model.Fpga

/-!
# C67: the loss the board reports is the loss of the candidate that was sent
-/

namespace Verif
open Fpga

namespace Spec

/-- The executions of a client in which the board answers each request at most once and only after it was published,
with `f` of the candidate.  `timeouts` says whether a wait may time out. -/
inductive LossRun {α β : Type} (f : α → β) (timeouts : Bool) (start : LSt α β) : LSt α β → List ℕ → Prop
  | start : LossRun f timeouts start start []
  | thread {s s' : LSt α β} {u : List ℕ} {a : LAct β} : LossRun f timeouts start s u →
      a = .main ∨ a = .set ∨ (timeouts = true ∧ a = .timeout) → s.step a = some s' → LossRun f timeouts start s' u
  | answer {s s' : LSt α β} {u : List ℕ} {k : ℕ} {c : α} : LossRun f timeouts start s u → k ∉ u →
      s.published[k]? = some c → s.step (.store (f c)) = some s' → LossRun f timeouts start s' (k :: u)

end Spec

namespace Fpga

def LossMatched {α β : Type} (f : α → β) (nets : List α) (s : LSt α β) (u : List ℕ) : Prop :=
  ∃ pre, nets = pre ++ s.todo ∧ s.results = pre.map (fun c => some (f c)) ∧ (∀ k < pre.length, k ∈ u) ∧
    ((s.published = pre ∧ s.storing = false ∧ (s.pc = .clear ∨ s.pc = .publish ∧ s.event = false)) ∨
     (∃ c rest, s.todo = c :: rest ∧ s.published = pre ++ [c] ∧ s.pc = .wait ∧
        (s.storing = true → s.loss = f c ∧ pre.length ∈ u) ∧
        (s.event = true → s.loss = f c ∧ pre.length ∈ u ∧ s.storing = false)))

theorem lossMatched_of {α β : Type} (f : α → β) (nets : List α) (e : Bool) (l : β) {s : LSt α β} {u : List ℕ}
    (h : Spec.LossRun f false (LSt.init nets e l) s u) : LossMatched f nets s u := by
  induction h with
  | start => exact ⟨[], by simp [LSt.init]⟩
  | @thread s s' u a _ ha hs ih =>
    obtain ⟨todo, pc, event, loss, storing, published, results⟩ := s
    obtain ⟨pre, h1, h2, h3, h4⟩ := ih
    dsimp only at h1 h2 h4
    rcases ha with rfl | rfl | ⟨h, _⟩
    · cases todo with
      | nil => simp [LSt.step] at hs
      | cons c rest =>
        rcases h4 with ⟨hp, hst, rfl | ⟨rfl, he⟩⟩ | ⟨c', rest', ht, hp, rfl, hs1, hs2⟩
        · simp only [LSt.step, Option.some.injEq] at hs
          subst hs
          exact ⟨pre, h1, h2, h3, .inl ⟨hp, hst, .inr ⟨rfl, rfl⟩⟩⟩
        · simp only [LSt.step, Option.some.injEq] at hs
          subst hs
          subst hst; subst he
          exact ⟨pre, h1, h2, h3, .inr ⟨c, rest, rfl, by rw [hp], rfl, by simp, by simp⟩⟩
        · injection ht with hc hr
          subst hc; subst hr
          simp only [LSt.step] at hs
          split_ifs at hs with he
          injection hs with hs
          subst hs
          obtain ⟨hl, hu, hst⟩ := hs2 he
          refine ⟨pre ++ [c], by rw [h1]; simp, by rw [h2, hl]; simp, ?_, .inl ⟨hp, hst, .inl rfl⟩⟩
          intro k hk
          rw [List.length_append, List.length_singleton] at hk
          rcases Nat.lt_succ_iff_lt_or_eq.mp hk with hk | rfl
          · exact h3 k hk
          · exact hu
    · simp only [LSt.step] at hs
      split_ifs at hs with hst'
      injection hs with hs
      subst hs
      rcases h4 with ⟨hp, hst, _⟩ | ⟨c', rest', ht, hp, hpc, hs1, hs2⟩
      · rw [hst'] at hst; cases hst
      · obtain ⟨hl, hu⟩ := hs1 hst'
        exact ⟨pre, h1, h2, h3, .inr ⟨c', rest', ht, hp, hpc, by simp, fun _ => ⟨hl, hu, rfl⟩⟩⟩
    · cases h
  | @answer s s' u k c _ hk hc hs ih =>
    obtain ⟨todo, pc, event, loss, storing, published, results⟩ := s
    obtain ⟨pre, h1, h2, h3, h4⟩ := ih
    dsimp only at h1 h2 h4 hc
    simp only [LSt.step] at hs
    split_ifs at hs with hst'
    injection hs with hs
    subst hs
    have hkl : k < published.length := (List.getElem?_eq_some_iff.mp hc).1
    rcases h4 with ⟨hp, hst, _⟩ | ⟨c', rest', ht, hp, hpc, hs1, hs2⟩
    · exact absurd (h3 k (hp ▸ hkl)) hk
    · rw [hp, List.length_append, List.length_singleton] at hkl
      have : k = pre.length := by
        rcases Nat.lt_succ_iff_lt_or_eq.mp hkl with hlt | h
        · exact absurd (h3 k hlt) hk
        · exact h
      subst this
      rw [hp, List.getElem?_append_right (Nat.le_refl _), Nat.sub_self] at hc
      injection hc with hc
      subst hc
      refine ⟨pre, h1, h2, fun j hj => List.mem_cons_of_mem _ (h3 j hj),
        .inr ⟨_, _, ht, hp, hpc, fun _ => ⟨rfl, List.mem_cons_self⟩, fun he => absurd (hs2 he).2.1 hk⟩⟩

end Fpga

/-- C67 (matching).  As long as no call has timed out and the board answers each request at most once, the calls made so
far have returned, in order, exactly the losses of the candidates they were made for, under every interleaving. -/
theorem C67_loss_matched {α β : Type} (f : α → β) (nets : List α) (e : Bool) (l : β) (s : LSt α β) (u : List ℕ)
    (h : Spec.LossRun f false (LSt.init nets e l) s u) :
    s.results = (nets.take s.results.length).map (fun c => some (f c)) := by
  obtain ⟨pre, h1, h2, _⟩ := lossMatched_of f nets e l h
  have : s.results.length = pre.length := by rw [h2, List.length_map]
  rw [this, h1, List.take_left, h2]

/-- C67 (false after a timeout).  One timeout can misattribute the answers for the rest of the client's life: for every
sequence of candidates there is an execution in which the board answers each request at most once and in order, only the
first call times out, and every later call returns the loss of the candidate *before* its own. -/
theorem C67_lag {α β : Type} (f : α → β) (n : α) (nets : List α) (l : β) :
    ∃ s u, Spec.LossRun f true (LSt.init (n :: nets) false l) s u ∧ s.todo = [] ∧
      s.results = none :: ((n :: nets).take nets.length).map (fun c => some (f c)) := by
  have h0 := Spec.LossRun.start (f := f) (timeouts := true) (start := LSt.init (n :: nets) false l)
  have h0 := h0.thread (a := .main) (by simp) rfl
  have h0 := h0.thread (a := .main) (by simp) rfl
  have h0 := h0.thread (a := .timeout) (by simp) rfl
  have key : ∀ (rest pre : List α) (p : α) (s : LSt α β) (u : List ℕ),
      Spec.LossRun f true (LSt.init (n :: nets) false l) s u → s.todo = rest → s.pc = .clear → s.storing = false →
      s.published = pre ++ [p] → (∀ k ∈ u, k < pre.length) →
      ∃ s' u', Spec.LossRun f true (LSt.init (n :: nets) false l) s' u' ∧ s'.todo = [] ∧
        s'.results = s.results ++ ((p :: rest).take rest.length).map (fun c => some (f c)) := by
    intro rest
    induction rest with
    | nil =>
      intro pre p s u h ht _ _ _ _
      exact ⟨s, u, h, ht, by simp⟩
    | cons c rest ih =>
      intro pre p s u h ht hpc hst hp hu
      obtain ⟨todo, pc, event, loss, storing, published, results⟩ := s
      dsimp only at ht hpc hst hp
      subst ht; subst hpc; subst hst
      have h := h.thread (a := .main) (by simp) rfl
      have h := h.thread (a := .main) (by simp) rfl
      have h := h.answer (k := pre.length) (c := p) (fun hm => absurd (hu _ hm) (by omega))
        (by dsimp only; rw [hp]; simp) rfl
      have h := h.thread (a := .set) (by simp) rfl
      have h := h.thread (a := .main) (by simp) rfl
      obtain ⟨s', u', h1, h2, h3⟩ := ih (pre ++ [p]) c _ _ h rfl rfl rfl (by dsimp only; rw [hp]) (by
        intro k hk
        rw [List.length_append, List.length_singleton]
        rcases List.mem_cons.mp hk with rfl | hk
        · omega
        · have := hu k hk; omega)
      exact ⟨s', u', h1, h2, by rw [h3]; simp⟩
  obtain ⟨s, u, h1, h2, h3⟩ := key nets [] n _ _ h0 rfl rfl rfl rfl (by simp)
  exact ⟨s, u, h1, h2, by rw [h3]; rfl⟩

/-- The hypotheses of `C67_loss_matched` are met by a client that asked for two losses and got them. -/
example : ∃ s u, Spec.LossRun (fun n : ℕ => n * n) false (LSt.init [3, 5, 7] true 0) s u ∧
    s.results = [some 9, some 25] := by
  have h := Spec.LossRun.start (f := fun n : ℕ => n * n) (timeouts := false) (start := LSt.init [3, 5, 7] true 0)
  have h := h.thread (a := .main) (by simp) rfl
  have h := h.thread (a := .main) (by simp) rfl
  have h := h.answer (k := 0) (by simp) rfl rfl
  have h := h.thread (a := .set) (by simp) rfl
  have h := h.thread (a := .main) (by simp) rfl
  have h := h.thread (a := .main) (by simp) rfl
  have h := h.thread (a := .main) (by simp) rfl
  have h := h.answer (k := 1) (by simp) rfl rfl
  have h := h.thread (a := .set) (by simp) rfl
  have h := h.thread (a := .main) (by simp) rfl
  exact ⟨_, _, h, rfl⟩

end Verif
