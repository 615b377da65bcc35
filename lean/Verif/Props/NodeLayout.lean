import Verif.Props.Keras

/-!
# C45: the layout of an exported tensor
-/

namespace Verif

/-- An array has the given dimensions: all rows equally long, all planes alike. -/
def Spec.Rectangular {α : Type} : Arr α → List ℕ → Prop
  | .vec x, sh => sh = [x.length]
  | .mat x, sh => ∃ n, sh = [x.length, n] ∧ ∀ r ∈ x, r.length = n
  | .cube x, sh => ∃ m n, sh = [x.length, m, n] ∧ ∀ p ∈ x, p.length = m ∧ ∀ r ∈ p, r.length = n

open Spec Keras

theorem Arr.chunks_length {α : Type} (m n : ℕ) (l : List α) : (chunks m n l).length = m := by simp [chunks]

theorem Arr.chunks_row {α : Type} (m n : ℕ) (l : List α) (h : l.length = m * n) : ∀ r ∈ chunks m n l, r.length = n := by
  intro r hr
  simp only [chunks, List.mem_map, List.mem_range] at hr
  obtain ⟨i, hi, rfl⟩ := hr
  rw [List.length_take, List.length_drop, h]
  have : (i + 1) * n ≤ m * n := Nat.mul_le_mul_right _ hi
  rw [Nat.add_mul, Nat.one_mul] at this
  omega

theorem Arr.chunks_join {α : Type} (m n : ℕ) (l : List α) (h : l.length = m * n) : (chunks m n l).flatten = l := by
  induction m generalizing l with
  | zero =>
    rw [Nat.zero_mul, List.length_eq_zero_iff] at h
    subst h
    rfl
  | succ m ih =>
    rw [Nat.add_mul, Nat.one_mul] at h
    have e : chunks (m + 1) n l = l.take n :: chunks m n (l.drop n) := by
      unfold chunks
      rw [List.range_succ_eq_map, List.map_cons, List.map_map]
      congr 1
      · simp
      · apply List.map_congr_left
        intro i _
        simp only [Function.comp_apply, List.drop_drop]
        congr 2
        rw [Nat.succ_eq_add_one, Nat.add_mul, Nat.one_mul, Nat.add_comm]
    rw [e, List.flatten_cons, ih _ (by rw [List.length_drop]; omega), List.take_append_drop]

/-- C45 (layout).  The JSON of a node with a tensor of one, two or three dimensions states the scale, zero point, dtype
and dimensions of the node, and its data are nested lists of exactly these dimensions whose entries, read in row-major
order, are the quantized values.  Without the tensor (activations) it has no data and no batch dimension. -/
theorem C45_layout (n : Node) (t : TensorPart) (ht : n.tensor = some t)
    (hlen : t.quantized.length = t.fp.shape.prod) (hr : 1 ≤ t.fp.shape.length ∧ t.fp.shape.length ≤ 3) :
    (∃ j arr, (nodeJson n false).tensor = some j ∧ (nodeJson n false).scale = some n.scale ∧
      (nodeJson n false).zeroPoint = some n.zp ∧ j.shape = t.fp.shape ∧ j.dtype = n.quant.repr ∧ j.data = some arr ∧
      Rectangular arr t.fp.shape ∧ arr.flat = t.quantized) ∧
    ∃ j, (nodeJson n true).tensor = some j ∧ j.data = none ∧ j.shape = t.fp.shape.tail ∧ j.dtype = n.quant.repr := by
  constructor
  · have key : ∃ arr, Arr.ofShape t.fp.shape t.quantized = some arr ∧ Rectangular arr t.fp.shape ∧ arr.flat = t.quantized := by
      generalize t.fp.shape = sh at *
      generalize t.quantized = l at *
      match sh, hr with
      | [m], _ =>
        refine ⟨.vec l, rfl, ?_, rfl⟩
        show [m] = [l.length]
        simp at hlen
        rw [hlen]
      | [m, n], _ =>
        have hlen' : l.length = m * n := by simpa using hlen
        refine ⟨.mat (Arr.chunks m n l), rfl, ⟨n, by rw [Arr.chunks_length], Arr.chunks_row m n l hlen'⟩, ?_⟩
        exact Arr.chunks_join m n l hlen'
      | [k, m, n], _ =>
        have hlen' : l.length = k * (m * n) := by simpa using hlen
        have hrow := Arr.chunks_row k (m * n) l hlen'
        refine ⟨.cube ((Arr.chunks k (m * n) l).map (Arr.chunks m n)), rfl, ⟨m, n, by rw [List.length_map, Arr.chunks_length],
          ?_⟩, ?_⟩
        · intro p hp
          obtain ⟨r, hr', rfl⟩ := List.mem_map.mp hp
          exact ⟨Arr.chunks_length _ _ _, Arr.chunks_row m n r (hrow r hr')⟩
        · show (((Arr.chunks k (m * n) l).map (Arr.chunks m n)).flatten).flatten = l
          rw [List.flatten_flatten, List.map_map]
          have : (Arr.chunks k (m * n) l).map (List.flatten ∘ Arr.chunks m n) = Arr.chunks k (m * n) l := by
            have := List.map_congr_left (f := List.flatten ∘ Arr.chunks m n) (g := id)
              (fun r hr' => Arr.chunks_join m n r (hrow r hr'))
            rw [this, List.map_id]
          rw [this, Arr.chunks_join k (m * n) l hlen']
    obtain ⟨arr, h1, h2, h3⟩ := key
    refine ⟨⟨Arr.ofShape t.fp.shape t.quantized, t.fp.shape, n.quant.repr⟩, arr, ?_, rfl, rfl, rfl, rfl, h1, h2, h3⟩
    unfold nodeJson
    rw [ht]
    rfl
  · refine ⟨⟨none, t.fp.shape.drop 1, n.quant.repr⟩, ?_, rfl, List.drop_one, rfl⟩
    unfold nodeJson
    rw [ht]
    rfl

/-- A tensor of dimensions 2 × 1 × 3 and its nested lists. -/
example : (nodeJson ⟨intDtype 7, 1 / 2, 3, 1 / 2, 3, none, some ⟨⟨[2, 1, 3], []⟩, ⟨[], []⟩, ⟨[], []⟩, [1, 2, 3, 4, 5, 6]⟩⟩
    false).tensor.bind (fun (j : TensorJ) => j.data) = some (.cube [[[1, 2, 3]], [[4, 5, 6]]]) := by rfl

end Verif
