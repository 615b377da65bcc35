import Verif.Model.InferCall
import Verif.Props.TfliteRun

/-!
# Property C114: the `isInputQuant` argument
-/

namespace Verif
open Spec

namespace Spec

/-- All entries are int8 codes. -/
def Codes8 (x : Arr ℤ) : Prop := ∀ q ∈ x.flat, Code (-128) 127 q

/-- What the documentation of `isInputQuant` promises: codes go to the first layer as they are. -/
def HonoursCodes (net : NetJ) : Prop :=
  ∀ (ext : Ext) (N : SeqNet), SeqNet.load net = some N → ∀ x : Arr ℤ, Codes8 x → ∀ verbose isBatch,
    SeqNet.inferCall ext N (.int x) true verbose isBatch = SeqNet.runLayers ext N.layers (.int x)

end Spec

namespace InferCall

theorem fold (ext : Ext) (ls : List Layer) (b : Bool) (x : Tensor) (rec : List Tensor) :
    ls.foldl (fun acc l => acc.bind (fun (out, rec) => (l.infer ext out).map (fun y =>
      let y := if b then y else y
      (y, rec ++ [y])))) (some (x, rec)) = (SeqNet.runLayers ext ls x).map (fun p => (p.1, rec ++ p.2)) := by
  have hnone : ∀ ls : List Layer, ls.foldl (fun acc l => acc.bind (fun (out, rec) => (l.infer ext out).map (fun y =>
      let y := if b then y else y
      (y, rec ++ [y])))) (none : Option (Tensor × List Tensor)) = none := by
    intro ls
    induction ls with
    | nil => rfl
    | cons l ls ih => exact ih
  induction ls generalizing x rec with
  | nil => simp [SeqNet.runLayers]
  | cons l ls ih =>
    rw [List.foldl_cons]
    simp only [Option.bind_some, ite_self] at *
    cases h : l.infer ext x with
    | none => rw [Option.map_none, hnone]; simp [SeqNet.runLayers, h]
    | some y =>
      rw [Option.map_some, ih]
      simp only [SeqNet.runLayers, h, Option.bind_eq_bind, Option.bind_some]
      cases SeqNet.runLayers ext ls y with
      | none => rfl
      | some p => simp

theorem call_eq (ext : Ext) (net : SeqNet) (x : Tensor) (f v b : Bool) : net.inferCall ext x f v b = net.infer ext x := by
  have h := fold ext net.layers v (net.prepare x) []
  simp only [List.nil_append, Prod.mk.eta, Option.map_id', ite_self] at h
  unfold SeqNet.inferCall SeqNet.infer
  simp only [ite_self]
  exact h

/-- Which codes survive being quantized again. -/
theorem again (s : ℚ) (z : ℤ) (hs : 0 < s) :
    (∀ q : ℤ, Code (-128) 127 q → Quantization.quantize (intDtype 7) (q : ℚ) z s = q) ↔ z = 0 ∧ 254 / 255 ≤ s ∧ s < 256 / 255 := by
  have e : ∀ q : ℤ, Quantization.quantize (intDtype 7) (q : ℚ) z s = min 127 (max (-128) ⌊(q : ℚ) / s + z + 1 / 2⌋) :=
    fun q => quantize_eq (d := intDtype 7) (by unfold Fits32; decide +kernel) _ _ _
  simp only [e]
  constructor
  · intro h
    have hz : z = 0 := by
      have h0 := h 0 (by unfold Code; norm_num)
      rw [Int.cast_zero, zero_div, zero_add, show ⌊(z : ℚ) + 1 / 2⌋ = z by
        rw [Int.floor_eq_iff]; constructor <;> linarith] at h0
      omega
    subst hz
    refine ⟨rfl, ?_, ?_⟩
    · have h1 := h (-127) (by unfold Code; norm_num)
      have h2 : (-127 : ℤ) ≤ ⌊((-127 : ℤ) : ℚ) / s + (0 : ℤ) + 1 / 2⌋ := by omega
      rw [Int.le_floor] at h2
      push_cast at h2
      have h3 : (127 : ℚ) / s ≤ 255 / 2 := by rw [neg_div] at h2; linarith
      rw [div_le_iff₀ hs] at h3
      linarith
    · have h1 := h (-128) (by unfold Code; norm_num)
      have h2 : ⌊((-128 : ℤ) : ℚ) / s + (0 : ℤ) + 1 / 2⌋ < -127 := by omega
      rw [Int.floor_lt] at h2
      push_cast at h2
      have h3 : 255 / 2 < (128 : ℚ) / s := by rw [neg_div] at h2; linarith
      rw [lt_div_iff₀ hs] at h3
      linarith
  · rintro ⟨rfl, h1, h2⟩ q ⟨q1, q2⟩
    have q1' : (-128 : ℚ) ≤ q := by exact_mod_cast q1
    have q2' : (q : ℚ) ≤ 127 := by exact_mod_cast q2
    have lo : q = -128 ∨ q ≤ ⌊(q : ℚ) / s + (0 : ℤ) + 1 / 2⌋ := by
      rw [or_iff_not_imp_left]
      intro hne
      have q3 : (-127 : ℚ) ≤ q := by exact_mod_cast (show (-127 : ℤ) ≤ q by omega)
      rw [Int.le_floor]
      have : (q : ℚ) - 1 / 2 ≤ q / s := by
        rw [le_div_iff₀ hs]
        rcases le_total 0 ((q : ℚ) - 1 / 2) with hq | hq <;> nlinarith
      push_cast
      linarith
    have hi : q = 127 ∨ ⌊(q : ℚ) / s + (0 : ℤ) + 1 / 2⌋ < q + 1 := by
      rw [or_iff_not_imp_left]
      intro hne
      have q3 : (q : ℚ) ≤ 126 := by exact_mod_cast (show q ≤ 126 by omega)
      rw [Int.floor_lt]
      have : (q : ℚ) / s < q + 1 / 2 := by
        rw [div_lt_iff₀ hs]
        rcases le_total 0 ((q : ℚ) + 1 / 2) with hq | hq <;> nlinarith
      push_cast
      linarith
    omega

theorem map_same {x : Arr ℤ} {f : ℤ → ℤ} (h : ∀ q ∈ x.flat, f q = q) : x.map f = x := by
  have hv : ∀ l : List ℤ, (∀ q ∈ l, f q = q) → l.map f = l := fun l hl => by
    conv_rhs => rw [← List.map_id l]
    exact List.map_congr_left (fun q hq => hl q hq)
  have hm : ∀ L : List (List ℤ), (∀ q ∈ L.flatten, f q = q) → L.map (List.map f) = L := fun L hL => by
    conv_rhs => rw [← List.map_id L]
    exact List.map_congr_left (fun l hl => hv l (fun q hq => hL q (List.mem_flatten.mpr ⟨l, hl, hq⟩)))
  cases x with
  | vec l => exact congrArg Arr.vec (hv l h)
  | mat L => exact congrArg Arr.mat (hm L h)
  | cube M =>
    refine congrArg Arr.cube ?_
    conv_rhs => rw [← List.map_id M]
    exact List.map_congr_left (fun L hL => hm L (fun q hq => h q (by
      obtain ⟨l, hl, hq⟩ := List.mem_flatten.mp hq
      exact List.mem_flatten.mpr ⟨l, List.mem_flatten.mpr ⟨L, hL, hl⟩, hq⟩)))

theorem map_map (x : Arr ℤ) (g : ℤ → ℚ) (f : ℚ → ℤ) : (x.map g).map f = x.map (fun q => f (g q)) := by
  cases x <;> simp [Arr.map]

end InferCall

open InferCall

/-- **C114 (flags).**  None of the flags of `infer` changes the answer or the recorded results. -/
theorem C114_flags (ext : Ext) (net : SeqNet) (x : Tensor) (f v b f' v' b' : Bool) :
    net.inferCall ext x f v b = net.inferCall ext x f' v' b' := by rw [call_eq, call_eq]

/-- **C114 (models without flags).**  The other theorems about inference speak about every call. -/
theorem C114_infer (ext : Ext) (net : SeqNet) (x : Tensor) (f v b : Bool) : net.inferCall ext x f v b = net.infer ext x :=
  call_eq ext net x f v b

/-- **C114 (codes taken for numbers).**  If the network quantizes its input itself, codes, with `isInputQuant` set, are treated like
the floating-point numbers of the same values. -/
theorem C114_taken_for_numbers (ext : Ext) (net : SeqNet) (hq : net.hasQuantLayers = false) (x : Arr ℤ) (f v b : Bool) :
    net.inferCall ext (.int x) f v b = net.inferCall ext (.flt (x.map (fun (q : ℤ) => (q : ℚ)))) false v b := by
  rw [call_eq, call_eq]
  unfold SeqNet.infer SeqNet.prepare
  rw [hq]
  rfl

/-- **C114 (with a quantize operator)** by name, codes go to the first layer as they are. -/
theorem C114_quantize_operator (net : NetJ) (op : OpJ) (rest : List OpJ) (hg : net.graph = op :: rest)
    (hname : contains "QUANT" (upper op.name) = true) : HonoursCodes net := by
  intro ext N h x _ v b
  rw [call_eq]
  have : N.hasQuantLayers = true := by
    unfold SeqNet.load at h
    rw [hg] at h
    simp only [Option.bind_eq_bind, Option.bind_eq_some_iff, List.getElem?_cons_zero, Option.some.injEq] at h
    obtain ⟨_, -, _, -, _, -, _, -, _, rfl, _, -, _, -, rfl⟩ := h
    exact hname
  unfold SeqNet.infer SeqNet.prepare
  rw [this]
  rfl

/-- The parameters of the input node with which `infer` quantizes. -/
theorem InferCall.loaded {net : NetJ} {N : SeqNet} (h : SeqNet.load net = some N) {op : OpJ} {rest : List OpJ}
    (hg : net.graph = op :: rest) (hname : contains "QUANT" (upper op.name) = false) {i : NodeJ}
    (hi : net.input[0]? = some (some i)) {s : ℚ} (hs : i.scale = some s) (hs0 : s ≠ 0) :
    N.hasQuantLayers = false ∧ N.inputZp = i.zeroPoint.getD 0 ∧ N.inputScale = s := by
  unfold SeqNet.load at h
  rw [hg, hi] at h
  simp only [Option.bind_eq_bind, Option.bind_eq_some_iff, List.getElem?_cons_zero, Option.some.injEq] at h
  obtain ⟨_, rfl, _, hi', _, -, _, -, _, rfl, _, -, _, -, rfl⟩ := h
  rw [Option.some.injEq] at hi'
  subst hi'
  refine ⟨hname, rfl, ?_⟩
  simp only [hs, if_neg hs0]

/-- **C114 (without a quantize operator).**  If the zero point is 0 and the step all but 1, codes go to the first layer as they are. -/
theorem C114_unit_step (net : NetJ) (op : OpJ) (rest : List OpJ) (hg : net.graph = op :: rest)
    (hname : contains "QUANT" (upper op.name) = false) (i : NodeJ) (hi : net.input[0]? = some (some i)) (s : ℚ)
    (hs : i.scale = some s) (h1 : 254 / 255 ≤ s) (h2 : s < 256 / 255) (hz : i.zeroPoint.getD 0 = 0) : HonoursCodes net := by
  intro ext N h x hx v b
  have hs0 : 0 < s := lt_of_lt_of_le (by norm_num) h1
  obtain ⟨a1, a2, a3⟩ := loaded h hg hname hi hs hs0.ne'
  rw [call_eq]
  unfold SeqNet.infer SeqNet.prepare
  rw [a1, a2, a3, hz, if_neg (by decide)]
  congr 2
  unfold Tensor.toFlt
  rw [map_map]
  exact map_same (fun q hq => (again s 0 hs0).mpr ⟨rfl, h1, h2⟩ q (hx q hq))

/-- **C114 (the flag matters only then).**  With any other positive step or zero point there is a code that a call with
`isInputQuant` quantizes once more: the network that consists of TFLite's SOFTMAX, which returns its input, answers with another
code. -/
theorem C114_quantized_twice (s : ℚ) (z : ℤ) (hs : 0 < s) (node out : NodeJ) (hn : node.scale = some s)
    (hz : node.zeroPoint = some z) :
    HonoursCodes ⟨"TFLITE", 1, [⟨"SOFTMAX", "Softmax", [node], [node], none⟩], [some node], [some out]⟩ ↔
      z = 0 ∧ 254 / 255 ≤ s ∧ s < 256 / 255 := by
  have hname : contains "QUANT" (upper "Softmax") = false := by decide +kernel
  constructor
  · intro h
    rw [← again s z hs]
    intro q hq
    have hl : SeqNet.load ⟨"TFLITE", 1, [⟨"SOFTMAX", "Softmax", [node], [node], none⟩], [some node], [some out]⟩ =
        some ⟨false, z, s, [.softmax]⟩ := by
      have e1 : SeqNet.engine ⟨"TFLITE", 1, [⟨"SOFTMAX", "Softmax", [node], [node], none⟩], [some node], [some out]⟩ =
          some buildLayer := by
        unfold SeqNet.engine
        exact if_pos (show "TFLITE".toList = upper "TFLITE" by decide +kernel)
      have e2 : buildLayer ⟨"SOFTMAX", "Softmax", [node], [node], none⟩ = some .softmax := by
        have : layerKind "SOFTMAX" = some .softmax := by decide +kernel
        unfold buildLayer
        simp only [this]
        rfl
      unfold SeqNet.load
      simp only [e1, Option.bind_eq_bind, Option.bind_some, List.getElem?_cons_zero, List.mapM_cons, List.mapM_nil, e2, hn, hz,
        hname, Option.getD_some, if_neg hs.ne', Option.pure_def]
    have := h ⟨id, id, id⟩ _ hl (.vec [q]) (by intro r hr; obtain rfl := List.mem_singleton.mp hr; exact hq) false false
    rw [call_eq] at this
    simp only [SeqNet.infer, SeqNet.prepare, SeqNet.runLayers, Layer.infer, Tensor.toFlt, Arr.map, List.map_cons, List.map_nil,
      Option.bind_eq_bind, Option.bind_some, Option.some.injEq, Prod.mk.injEq, Tensor.int.injEq, Arr.vec.injEq, List.cons.injEq,
      and_true, Bool.false_eq_true, if_false] at this
    exact this.1
  · rintro ⟨rfl, h1, h2⟩
    exact C114_unit_step _ _ _ rfl hname node rfl s hn h1 h2 (by rw [hz]; rfl)

namespace C114Case

/-- A step of 1/16: the code 5 becomes 80. -/
def net : NetJ := ⟨"TFLITE", 1, [⟨"SOFTMAX", "Softmax", [⟨some (1 / 16), some 0, none, none⟩], [], none⟩],
  [some ⟨some (1 / 16), some 0, none, none⟩], [some ⟨some 1, some 0, none, none⟩]⟩

example : (SeqNet.load net).bind (fun N => (N.inferCall ⟨id, id, id⟩ (.int (.vec [5, 9])) true false false).map Prod.fst) =
    some (.int (.vec [80, 127])) := by decide +kernel

example : ¬ HonoursCodes ⟨"TFLITE", 1, [⟨"SOFTMAX", "Softmax", [⟨some (1 / 16), some 0, none, none⟩],
    [⟨some (1 / 16), some 0, none, none⟩], none⟩], [some ⟨some (1 / 16), some 0, none, none⟩], [some ⟨some 1, some 0, none, none⟩]⟩ := by
  rw [C114_quantized_twice (1 / 16) 0 (by norm_num) _ _ rfl rfl]
  norm_num

/-- The same network with a quantize operator in front passes codes on. -/
example : HonoursCodes { net with graph := ⟨"QUANTIZE", "Quantize", [], [], none⟩ :: net.graph } :=
  C114_quantize_operator _ _ _ rfl (by decide +kernel)

end C114Case

end Verif
