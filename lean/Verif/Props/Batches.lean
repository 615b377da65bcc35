import Verif.Props.Onnx
import Verif.Props.Quant

/-!
# Batches and ties: C17 and C25 for every array, C04 for values halfway between two codes
-/

namespace Verif
open Spec

/-- C04.  A value exactly halfway between two codes of the dtype gets the upper one. -/
theorem C04_ties (d : GDtype) (hd : Fits32 d.min d.max) (zp : ℤ) (s : ℚ) (hs : 0 < s) (q : ℤ)
    (_hq : Code d.min d.max q) (hq' : Code d.min d.max (q + 1)) :
    Quantization.quantize d ((real zp s q + real zp s (q + 1)) / 2) zp s = q + 1 := by
  rw [quantize_eq hd]
  have hs' : s ≠ 0 := hs.ne'
  have h : (real zp s q + real zp s (q + 1)) / 2 / s + zp + 1 / 2 = ((q + 1 : ℤ) : ℚ) := by
    unfold real
    field_simp
    push_cast
    ring
  have h2 : roundHalfUp ((real zp s q + real zp s (q + 1)) / 2 / s + zp) = q + 1 := by
    unfold roundHalfUp
    rw [h, Int.floor_intCast]
  rw [h2]
  exact clip_of_mem hq'.1 hq'.2

example : Quantization.quantize (intDtype 7) ((real 3 (1 / 2) 5 + real 3 (1 / 2) (5 + 1)) / 2) 3 (1 / 2) = 5 + 1 :=
  C04_ties (intDtype 7) (by decide) 3 (1 / 2) (by norm_num) 5 (by decide) (by decide)

/-- C17.  A batch is accepted exactly when every sample has one entry per input feature; the output then has one row per
sample, each row has one value per neuron, and every value lies in the output dtype.  3-D arrays are refused. -/
theorem C17_batches (l : FC) (hd : l.outDtype.min ≤ l.outDtype.max) (hl : l.WF)
    (hb : l.bias.length = l.weights.length) (X : List (List ℤ)) :
    ((l.infer (.mat X)).isSome ↔ ∀ x ∈ X, x.length = l.nIn) ∧
    (∀ out, l.infer (.mat X) = some out →
      ∃ Y, out = .mat Y ∧ Y.length = X.length ∧
        ∀ y ∈ Y, y.length = l.weights.length ∧ ∀ q ∈ y, Code l.outDtype.min l.outDtype.max q) ∧
    ∀ Z, l.infer (.cube Z) = none := by
  refine ⟨?_, ?_, fun Z => rfl⟩
  · rw [FC.infer_mat l hl]
    by_cases h : ∀ x ∈ X, x.length = l.nIn
    · rw [if_pos ⟨h, hb⟩]
      exact ⟨fun _ => h, fun _ => rfl⟩
    · rw [if_neg (fun hc => h hc.1)]
      exact ⟨fun hc => absurd hc (by simp), fun hc => absurd hc h⟩
  · intro out h
    rw [FC.infer_mat l hl] at h
    split_ifs at h with hc
    injection h with h
    refine ⟨_, h.symm, by simp, ?_⟩
    intro y hy
    obtain ⟨x, hx, rfl⟩ := List.mem_map.mp hy
    have hv : l.infer (.vec x) =
        some (.vec ((FC.addBias l.bias (matVec l.weights (l.center x))).map l.finish)) := by
      rw [FC.infer_vec, if_pos ⟨hc.1 x hx, hb⟩]
    obtain ⟨y, e, h1, h2⟩ := C17_output_in_range l hd x _ hv
    injection e with e
    subst e
    exact ⟨h1, h2⟩

example : exFC.outDtype.min ≤ exFC.outDtype.max ∧ exFC.WF ∧ exFC.bias.length = exFC.weights.length ∧
    exFC.infer (.mat [[127, -128, 5], [0, 0, 0]]) = some (.mat [[-4, 7], [-5, -12]]) := by
  unfold FC.WF
  decide +kernel

/-- C25.  The integer ONNX operators on a batch and on a 3-D array: accepted exactly when every row has the right
length, and every row of the output is the output for that row on its own, so one uint8 value per
neuron. -/
theorem C25_batches :
    (∀ (l : QMatMul) (X : List (List ℤ)) (out : Arr ℤ), l.infer (.mat X) = some out ↔
      ∃ Y, out = .mat Y ∧ List.Forall₂ (fun x y => l.infer (.vec x) = some (.vec y)) X Y) ∧
    (∀ (l : QMatMul) (X : List (List (List ℤ))) (out : Arr ℤ), l.infer (.cube X) = some out ↔
      ∃ Y, out = .cube Y ∧ List.Forall₂ (List.Forall₂ (fun x y => l.infer (.vec x) = some (.vec y))) X Y) ∧
    (∀ (l : QAdd) (X : List (List ℤ)) (out : Arr ℤ), l.infer (.mat X) = some out ↔
      ∃ Y, out = .mat Y ∧ List.Forall₂ (fun x y => l.infer (.vec x) = some (.vec y)) X Y) ∧
    (∀ (l : QAdd) (X : List (List (List ℤ))) (out : Arr ℤ), l.infer (.cube X) = some out ↔
      ∃ Y, out = .cube Y ∧ List.Forall₂ (List.Forall₂ (fun x y => l.infer (.vec x) = some (.vec y))) X Y) := by
  have rows : ∀ (n : ℕ) (row : List ℤ → List ℤ) (f : Arr ℤ → Option (Arr ℤ))
      (_ : ∀ x, f (.vec x) = if x.length = n then some (.vec (row x)) else none) (X Y : List (List ℤ)),
      List.Forall₂ (fun x y => f (.vec x) = some (.vec y)) X Y ↔ (∀ x ∈ X, x.length = n) ∧ Y = X.map row := by
    intro n row f hf X
    induction X with
    | nil => intro Y; cases Y <;> simp
    | cons x X ih =>
      intro Y
      cases Y with
      | nil => simp
      | cons y Y =>
        rw [List.forall₂_cons, ih, hf]
        by_cases hx : x.length = n
        · simp only [if_pos hx, Option.some.injEq, Arr.vec.injEq, List.mem_cons, List.map_cons, List.cons.injEq,
            forall_eq_or_imp]
          constructor
          · rintro ⟨rfl, h1, h2⟩; exact ⟨⟨hx, h1⟩, rfl, h2⟩
          · rintro ⟨⟨_, h1⟩, rfl, h2⟩; exact ⟨rfl, h1, h2⟩
        · simp [hx]
  have cubes : ∀ (n : ℕ) (row : List ℤ → List ℤ) (f : Arr ℤ → Option (Arr ℤ))
      (_ : ∀ x, f (.vec x) = if x.length = n then some (.vec (row x)) else none) (X Y : List (List (List ℤ))),
      List.Forall₂ (List.Forall₂ (fun x y => f (.vec x) = some (.vec y))) X Y ↔
        (∀ m ∈ X, ∀ x ∈ m, x.length = n) ∧ Y = X.map (fun m => m.map row) := by
    intro n row f hf X
    induction X with
    | nil => intro Y; cases Y <;> simp
    | cons x X ih =>
      intro Y
      cases Y with
      | nil => simp
      | cons y Y =>
        rw [List.forall₂_cons, ih, rows n row f hf]
        simp only [List.mem_cons, List.map_cons, List.cons.injEq, forall_eq_or_imp]
        tauto
  have mats : ∀ (P : Prop) [Decidable P] (Z : List (List ℤ)) (out : Arr ℤ),
      (if P then some (Arr.mat Z) else none) = some out ↔ ∃ Y, out = .mat Y ∧ P ∧ Y = Z := by
    intro P _ Z out
    by_cases hP : P
    · rw [if_pos hP]
      simp only [Option.some.injEq, hP, true_and, exists_eq_right]
      exact eq_comm
    · simp [hP]
  have cbs : ∀ (P : Prop) [Decidable P] (Z : List (List (List ℤ))) (out : Arr ℤ),
      (if P then some (Arr.cube Z) else none) = some out ↔ ∃ Y, out = .cube Y ∧ P ∧ Y = Z := by
    intro P _ Z out
    by_cases hP : P
    · rw [if_pos hP]
      simp only [Option.some.injEq, hP, true_and, exists_eq_right]
      exact eq_comm
    · simp [hP]
  refine ⟨fun l X out => ?_, fun l X out => ?_, fun l X out => ?_, fun l X out => ?_⟩
  · simp only [rows l.nIn l.row l.infer (fun _ => rfl)]
    exact mats _ _ out
  · simp only [cubes l.nIn l.row l.infer (fun _ => rfl)]
    exact cbs _ _ out
  · simp only [rows l.b.length l.row l.infer (fun _ => rfl)]
    exact mats _ _ out
  · simp only [cubes l.b.length l.row l.infer (fun _ => rfl)]
    exact cbs _ _ out

example : (QMatMul.mk' 1 0 [[1, 2], [3, 4]] 2 1 0 1 0).infer (.mat [[1, 1], [0, 2]]) = some (.mat [[3, 7], [4, 8]]) := by
  decide +kernel

end Verif
