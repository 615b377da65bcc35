import Verif.Props.Pipeline
import Verif.Lemmas.Export

/-! # The exported kernel and bias of a dense layer -/

namespace Verif
open Spec Keras

theorem Arr.chunks_flatten {α β : Type} (f : α → β) (n : ℕ) (rows : List (List α)) (h : ∀ r ∈ rows, r.length = n) :
    Arr.chunks rows.length n (rows.flatten.map f) = rows.map (fun r => r.map f) := by
  induction rows with
  | nil => rfl
  | cons r rows ih =>
    have hr := h r (by simp)
    have ih := ih (fun r hr => h r (by simp [hr]))
    unfold Arr.chunks at ih ⊢
    rw [List.length_cons, List.range_succ_eq_map, List.map_cons, List.map_map, List.map_cons]
    congr 1
    · simp [← hr]
    · rw [← ih]
      apply List.map_congr_left
      intro i _
      simp only [Function.comp, Nat.succ_eq_add_one, List.flatten_cons, List.map_append]
      rw [List.drop_append, List.length_map, hr, show (i + 1) * n - n = i * n by rw [Nat.add_mul, one_mul]; omega,
        List.drop_eq_nil_of_le (by rw [List.length_map, hr, Nat.add_mul]; omega), List.nil_append]

namespace Keras

theorem kernelT_length (l : KDense) : l.kernelT.length = l.units := by simp [KDense.kernelT]

theorem kernelT_row {l : KDense} {r : List ℚ} (h : r ∈ l.kernelT) : r.length = l.kernel.length := by
  obtain ⟨j, -, rfl⟩ := List.mem_map.mp h
  simp

theorem quantizeArray_eq (d : GDtype) (xs : List ℚ) (z : ℤ) (s : ℚ) :
    Quantization.quantizeArray d xs z s = xs.map (fun x => Quantization.quantize d x z s) := by
  unfold Quantization.quantizeArray
  simp only [List.map_map]
  rfl

theorem kernel_ne {l : KDense} (hu : 0 < l.units) (hk : 0 < l.kernel.length) : l.kernelT.flatten ≠ [] := by
  intro hc
  have := congrArg List.length hc
  simp only [KDense.kernelT, List.length_flatten, List.map_map, List.length_nil, List.sum_eq_zero_iff, List.mem_map,
    List.mem_range, Function.comp_apply, List.length_map, forall_exists_index, and_imp] at this
  have := this _ 0 hu rfl
  omega

/-- The kernel node: zero point 0, the calibrated scale, and the transposed kernel rounded to nearest. -/
theorem kernelNode_eq {l : KDense} {q : GDtype} {sym : Bool} {kn : Node} (h : l.kernelNode q sym = some kn)
    (hu : 0 < l.units) (hk : 0 < l.kernel.length) :
    ∃ s : ℚ, ∃ z : ℤ, (Dist.build l.kernelT.flatten).quantize q (some 0) none sym = some (s, z) ∧
      kn = (Node.base s z q).withTensor ⟨[l.units, l.kernel.length], l.kernelT.flatten⟩ := by
  unfold KDense.kernelNode at h
  simp only [Option.bind_eq_bind, Option.bind_eq_some_iff, Option.some.injEq] at h
  obtain ⟨p, hp, lo, hlo, hi, hhi, rfl⟩ := h
  obtain ⟨m, M, hm, hM, hlt, hall⟩ := Dist.min_lt_max l.kernelT.flatten (kernel_ne hu hk) 512 (by omega) true
  rw [hm, Option.some.injEq] at hlo
  rw [hM, Option.some.injEq] at hhi
  subst hlo hhi
  refine ⟨p.1, p.2, hp, ?_⟩
  have hid : l.kernelT.flatten.map (clip m M) = l.kernelT.flatten := by
    conv_rhs => rw [← List.map_id l.kernelT.flatten]
    apply List.map_congr_left
    intro x hx
    exact clip_of_mem (hall x hx).1 (hall x hx).2
  rw [hid]

/-- The exported kernel node. -/
theorem kernel_json {l : KDense} (s : ℚ) (z : ℤ) (q : GDtype) :
    nodeJson ((Node.base s z q).withTensor ⟨[l.units, l.kernel.length], l.kernelT.flatten⟩) false =
      { scale := some s, zeroPoint := some z
        tensor := some
          { data := some (.mat (l.kernelT.map (fun r => r.map (fun x => Quantization.quantize q x z s))))
            shape := [l.units, l.kernel.length], dtype := q.repr }
        lut := none } := by
  have := Arr.chunks_flatten (fun x => Quantization.quantize q x z s) l.kernel.length l.kernelT (fun r hr => kernelT_row hr)
  rw [kernelT_length] at this
  unfold nodeJson
  simp only [Node.withTensor, Node.base, Option.map_some, Option.map_none, Bool.false_eq_true, if_false, quantizeArray_eq]
  unfold Arr.ofShape
  simp only
  rw [this]

end Keras
end Verif
