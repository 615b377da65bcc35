import Verif.Props.Fpga

/-!
# C50: batches of any number of dimensions
-/

namespace Verif
open Fpga

/-- C50 (dimensions).  A message always claims two dimensions.  A 2-D batch is encoded as it is.  A 1-D batch arrives as
a column.  A batch of sequences is encoded exactly as the 2-D batch of its flattened samples – and arrives like
that –, so the number of steps and features is lost. -/
theorem C50_dimensions {α : Type} :
    (∀ rows : List (List α), Msg.ofArr (.mat rows) = Msg.ofBatch rows) ∧
    (∀ x : List α, x ≠ [] → ∃ m, Msg.ofArr (.vec x) = some m ∧ m.shape = [x.length, 1] ∧
      m.toBatch = some (x.map (fun v => [v]))) ∧
    (∀ (X : List (List (List α))) (T F : ℕ), X ≠ [] → (∀ s ∈ X, s.length = T ∧ ∀ r ∈ s, r.length = F) →
      ∃ m, Msg.ofArr (.cube X) = some m ∧ Msg.ofArr (.cube X) = Msg.ofBatch (X.map List.flatten) ∧
        m.shape = [X.length, T * F] ∧ m.toBatch = some (X.map List.flatten)) := by
  refine ⟨fun rows => rfl, fun x hx => ?_, fun X T F hne hs => ?_⟩
  · obtain ⟨m, h1, h2, h3⟩ := C50_message_round_trip (x.map (fun v => [v])) 1 (by simpa using hx) (by simp)
    have e : (x.map (fun v => [v])).flatten = x := by
      clear h1 h2 h3 hx
      induction x with
      | nil => rfl
      | cons a t ih => rw [List.map_cons, List.flatten_cons, ih, List.singleton_append]
    have e2 : Msg.ofArr (.vec x) = Msg.ofBatch (x.map (fun v => [v])) := by
      unfold Msg.ofArr Msg.ofBatch
      rw [e, List.length_map]
      rfl
    refine ⟨m, e2.trans h1, ?_, h3⟩
    rw [h2, List.length_map]
  · obtain ⟨m, h1, h2, h3⟩ := C50_message_round_trip (X.map List.flatten) (T * F) (by simpa using hne) (by
      intro r hr
      obtain ⟨s, hs', rfl⟩ := List.mem_map.mp hr
      obtain ⟨k1, k2⟩ := hs s hs'
      have : ∀ (l : List (List α)), (∀ r ∈ l, r.length = F) → l.flatten.length = l.length * F := by
        intro l hl
        induction l with
        | nil => simp
        | cons a t ih =>
          rw [List.flatten_cons, List.length_append, hl a (by simp), ih (fun r hr => hl r (by simp [hr])),
            List.length_cons, Nat.add_mul]
          omega
      rw [this s k2, k1])
    have e2 : Msg.ofArr (.cube X) = Msg.ofBatch (X.map List.flatten) := by
      unfold Msg.ofArr Msg.ofBatch
      rw [List.length_map]
      show (if X.length = 0 then none else some (⟨[X.length, X.flatten.flatten.length / X.length], X.flatten.flatten⟩ : Msg α)) = _
      rw [List.flatten_flatten]
    refine ⟨m, e2.trans h1, e2, ?_, h3⟩
    rw [h2, List.length_map]

/-- C50 (dimensions lost).  Two different batches of sequences that no receiver can tell apart. -/
theorem C50_dimensions_lost {α : Type} (a b : α) :
    Msg.ofArr (.cube [[[a, b]]]) = Msg.ofArr (.cube [[[a], [b]]]) ∧ Arr.cube [[[a, b]]] ≠ .cube [[[a], [b]]] := by
  refine ⟨rfl, ?_⟩
  intro h
  simp at h

end Verif
