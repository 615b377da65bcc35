import Verif.Props.Onnx2Json

/-!
# C84: what an ONNX file means, and that the converted network computes it
-/

namespace Verif

open Spec Onnx2Json

namespace Spec

/-- The constant tensor a model calls `id`: the last one of that name. -/
def Const (m : OModel) (id : String) (i : Initializer) : Prop :=
  ∃ before after, m.initializers = before ++ i :: after ∧ i.name = id ∧ ∀ j ∈ after, j.name ≠ id

/-- `id` is a real-valued constant of the model. -/
def RealConst (m : OModel) (id : String) (s : ℚ) : Prop := ∃ i, Const m id i ∧ i.floatData.head? = some s

/-- `id` is an integer constant of the model. -/
def IntConst (m : OModel) (id : String) (z : ℤ) : Prop := ∃ i, Const m id i ∧ i.int32Data.head? = some z

/-- The converter knows the size `d` of the tensor `id`: it is the last of that name in the list of intermediate tensors
(but not the very first entry), or it is not in that list and is the model's input or output. -/
def Known (m : OModel) (id : String) (d : ℕ) : Prop :=
  (∃ before after, before ≠ [] ∧ m.valueInfo = before ++ (id, d) :: after ∧ ∀ v ∈ after, v.1 ≠ id) ∨
  ((∀ v ∈ m.valueInfo, v.1 ≠ id) ∧ (m.inputs.head? = some (id, d) ∨
    (∃ i, m.inputs.head? = some i ∧ i.1 ≠ id) ∧ m.outputs.head? = some (id, d)))

/-- The quantized operators an ONNX node can stand for, with the numbers of the file. -/
inductive OnnxOp
  | quantize (S : ℚ) (Z : ℤ)
  | dequantize (S : ℚ) (Z : ℤ)
  | matmul (iS : ℚ) (iZ : ℤ) (r c : ℕ) (W : List (List ℤ)) (wS : ℚ) (wZ : ℤ) (oS : ℚ) (oZ : ℤ)
  | add (iS : ℚ) (iZ : ℤ) (b : List ℤ) (bS : ℚ) (bZ : ℤ) (oS : ℚ) (oZ : ℤ)
  | sigmoid (iS : ℚ) (iZ : ℤ) (oS : ℚ) (oZ : ℤ)
  | tanh
  | softmax

/-- The engine's operator for each. -/
def OnnxOp.layer : OnnxOp → Layer
  | .quantize S Z => .quantize (uintDtype 8) Z S
  | .dequantize S Z => .dequantize Z S
  | .matmul iS iZ r c W wS wZ oS oZ => .qmatmul ⟨iS * wS / oS, r, c, W, iZ, wZ, oZ⟩
  | .add iS iZ b bS bZ oS oZ => .qadd ⟨iS, iZ, b, bS, bZ, oS, oZ⟩
  | .sigmoid iS iZ oS oZ => .qsigmoid iS iZ oS oZ
  | .tanh => .otanh
  | .softmax => .osoftmax

/-- What an ONNX node stands for in a model: which constant is in which position (ONNX operator definitions). -/
inductive NodeMeans (m : OModel) : ONode → OnnxOp → Prop
  | quantize (x s z : String) (out : List String) (S : ℚ) (Z : ℤ) (hs : RealConst m s S) (hz : IntConst m z Z)
      (ho : out ≠ []) : NodeMeans m ⟨"QuantizeLinear", [x, s, z], out⟩ (.quantize S Z)
  | dequantize (x s z : String) (out : List String) (S : ℚ) (Z : ℤ) (hs : RealConst m s S) (hz : IntConst m z Z)
      (ho : out ≠ []) : NodeMeans m ⟨"DequantizeLinear", [x, s, z], out⟩ (.dequantize S Z)
  | matmul (x is iz w ws wz os oz : String) (out : List String) (iS wS oS : ℚ) (iZ wZ oZ : ℤ) (W : List (List ℤ))
      (r c : ℕ) (wi : Initializer) (his : RealConst m is iS) (hiz : IntConst m iz iZ) (hw : Const m w wi)
      (hd : wi.dims = [r, c]) (hW : IsMatrix wi.rawData r c W) (hws : RealConst m ws wS) (hwz : IntConst m wz wZ)
      (hos : RealConst m os oS) (hoz : IntConst m oz oZ) (ho : out ≠ []) :
      NodeMeans m ⟨"QLinearMatMul", [x, is, iz, w, ws, wz, os, oz], out⟩ (.matmul iS iZ r c W wS wZ oS oZ)
  | add (x is iz b bs bz os oz : String) (out : List String) (iS bS oS : ℚ) (iZ bZ oZ : ℤ) (bi : Initializer)
      (his : RealConst m is iS) (hiz : IntConst m iz iZ) (hb : Const m b bi) (hd : bi.dims = [bi.rawData.length])
      (hbs : RealConst m bs bS) (hbz : IntConst m bz bZ) (hos : RealConst m os oS) (hoz : IntConst m oz oZ)
      (ho : out ≠ []) :
      NodeMeans m ⟨"QLinearAdd", [x, is, iz, b, bs, bz, os, oz], out⟩ (.add iS iZ bi.rawData bS bZ oS oZ)
  | sigmoid (x is iz os oz : String) (out : List String) (iS oS : ℚ) (iZ oZ : ℤ) (his : RealConst m is iS)
      (hiz : IntConst m iz iZ) (hos : RealConst m os oS) (hoz : IntConst m oz oZ) (ho : out ≠ []) :
      NodeMeans m ⟨"QLinearSigmoid", [x, is, iz, os, oz], out⟩ (.sigmoid iS iZ oS oZ)
  | tanh (x y : String) (ins outs : List String) (d e : ℕ) (hx : Known m x d) (hy : Known m y e) :
      NodeMeans m ⟨"Tanh", x :: ins, y :: outs⟩ .tanh
  | softmax (x y : String) (ins outs : List String) (d e : ℕ) (hx : Known m x d) (hy : Known m y e) :
      NodeMeans m ⟨"Softmax", x :: ins, y :: outs⟩ .softmax

end Spec

namespace Onnx2Json

theorem init_const {m : OModel} {id : String} {i : Initializer} (h : Const m id i) : m.init id = some i := by
  obtain ⟨a, b, hm, hi, hb⟩ := h
  unfold OModel.init
  rw [hm, List.reverse_append, List.reverse_cons, List.append_assoc, List.find?_append, List.find?_eq_none.mpr]
  · rw [Option.none_or]
    show (i :: a.reverse).find? _ = _
    rw [List.find?_cons_of_pos (by simpa using hi)]
  · intro j hj
    rw [List.mem_reverse] at hj
    simpa using hb j hj

theorem node_none {m : OModel} {s z : String} {S : ℚ} {Z : ℤ} (hs : RealConst m s S) (hz : IntConst m z Z) :
    quantizedNode m none s z = some ⟨some S, some Z, none, none⟩ := by
  obtain ⟨i, h1, h2⟩ := hs
  obtain ⟨j, h3, h4⟩ := hz
  rw [List.head?_eq_getElem?] at h2 h4
  simp [quantizedNode, init_const h1, init_const h3, h2, h4]

theorem find_last {α : Type} [DecidableEq α] (l a b : List α) (x : α) (h : l = a ++ x :: b) (hb : x ∉ b) :
    (List.range l.length).reverse.find? (fun k => decide (l[k]? = some x)) = some a.length := by
  subst h
  rw [List.length_append, List.length_cons, show a.length + (b.length + 1) = (a.length + 1) + b.length by omega,
    List.range_add, List.reverse_append, List.find?_append, List.find?_eq_none.mpr, Option.none_or, List.range_succ,
    List.reverse_append]
  · simp
  · intro k hk
    rw [List.mem_reverse] at hk
    obtain ⟨j, hj, rfl⟩ := List.mem_map.mp hk
    rw [List.getElem?_append_right (by omega), show a.length + 1 + j - a.length = j + 1 by omega,
      List.getElem?_cons_succ]
    simp only [decide_eq_true_eq]
    exact fun h => hb (List.mem_of_getElem? h)

theorem base_known {m : OModel} {id : String} {d : ℕ} (h : Known m id d) :
    baseNode m id = some ⟨none, none, some ⟨none, [d], "?"⟩, none⟩ := by
  unfold baseNode
  rcases h with ⟨a, b, ha, hv, hb⟩ | ⟨hv, h⟩
  · have := find_last (m.valueInfo.map Prod.fst) (a.map Prod.fst) (b.map Prod.fst) id (by rw [hv]; simp) (by
      intro h
      obtain ⟨v, h1, h2⟩ := List.mem_map.mp h
      exact hb v h1 h2)
    rw [List.length_map, List.length_map] at this
    rw [this]
    obtain ⟨v, a', rfl⟩ := List.exists_cons_of_ne_nil ha
    have e : m.valueInfo[a'.length + 1]? = some (id, d) := by
      rw [hv, List.cons_append, List.getElem?_cons_succ, List.getElem?_append_right (le_refl _), Nat.sub_self]; rfl
    simp only [List.length_cons, e, Option.bind_eq_bind, Option.bind_some]
  · have : (List.range m.valueInfo.length).reverse.find?
        (fun i => decide ((m.valueInfo.map Prod.fst)[i]? = some id)) = none := by
      rw [List.find?_eq_none]
      intro k _ h
      simp only [decide_eq_true_eq] at h
      obtain ⟨v, h1, h2⟩ := List.mem_map.mp (List.mem_of_getElem? h)
      exact hv v h1 h2
    rw [this]
    rcases h with h | ⟨⟨i, hi, hne⟩, h⟩
    · rw [List.head?_eq_getElem?] at h
      simp [h]
    · rw [List.head?_eq_getElem?] at h hi
      simp [h, hi, hne.symm]

end Onnx2Json

/-- C84 (operators).  Every ONNX node the specification gives a meaning is converted to an operator that the engine loads
with exactly that meaning: each scale, zero point, weight and bias comes from the constant the node names in that
position.  (A quantized sigmoid is meant as the operator `QLinearSigmoid`; the table it is exported as is C48.) -/
theorem C84_operators (ext : Ext) (m : OModel) (n : ONode) (o : OnnxOp) (h : NodeMeans m n o) :
    unfusedLayer ext m n = some o.layer := by
  cases h with
  | quantize x s z out S Z hs hz ho =>
    obtain ⟨o, os, rfl⟩ := List.exists_cons_of_ne_nil ho
    rw [unfused_ne ext m _ (by simp), build_linear ext m _ _ (.inr rfl)]
    simp only [linear, node_none hs hz, List.getElem?_cons_zero, Option.bind_eq_bind, Option.bind_some, Option.map_some]
    rfl
  | dequantize x s z out S Z hs hz ho =>
    obtain ⟨o, os, rfl⟩ := List.exists_cons_of_ne_nil ho
    rw [unfused_ne ext m _ (by simp), build_linear ext m _ _ (.inl rfl)]
    simp only [linear, node_none hs hz, List.getElem?_cons_zero, Option.bind_eq_bind, Option.bind_some, Option.map_some]
    rfl
  | matmul x is iz w ws wz os oz out iS wS oS iZ wZ oZ W r c wi his hiz hw hd hW hws hwz hos hoz ho =>
    obtain ⟨a1, a2, a3⟩ := his
    obtain ⟨b1, b2, b3⟩ := hiz
    obtain ⟨c1, c2, c3⟩ := hws
    obtain ⟨d1, d2, d3⟩ := hwz
    obtain ⟨e1, e2, e3⟩ := hos
    obtain ⟨f1, f2, f3⟩ := hoz
    obtain ⟨op, h1, h2⟩ := C49_matmul_weights ext m ⟨"QLinearMatMul", [x, is, iz, w, ws, wz, os, oz], out⟩ x is iz w ws wz
      os oz a1 b1 wi c1 d1 e1 f1 iS wS oS iZ wZ oZ r c W rfl ho (init_const a2) a3 (init_const b2) b3 (init_const hw) hd hW
      (init_const c2) c3 (init_const d2) d3 (init_const e2) e3 (init_const f2) f3
    rw [unfused_ne ext m _ (by simp), h1]
    exact h2
  | add x is iz b bs bz os oz out iS bS oS iZ bZ oZ bi his hiz hb hd hbs hbz hos hoz ho =>
    obtain ⟨o, os', rfl⟩ := List.exists_cons_of_ne_nil ho
    rw [unfused_ne ext m _ (by simp), build_add]
    have hn : quantizedNode m (some b) bs bz false =
        some ⟨some bS, some bZ, some ⟨some (.vec bi.rawData), [bi.rawData.length], "uint8"⟩, none⟩ := by
      obtain ⟨c1, c2, c3⟩ := hbs
      obtain ⟨d1, d2, d3⟩ := hbz
      rw [List.head?_eq_getElem?] at c3 d3
      simp [quantizedNode, init_const c2, init_const d2, init_const hb, c3, d3, hd, reshape]
    have hq : qlinear false m ⟨"QLinearAdd", [x, is, iz, b, bs, bz, os, oz], o :: os'⟩ = some ([⟨some iS, some iZ, none, none⟩,
        ⟨some bS, some bZ, some ⟨some (.vec bi.rawData), [bi.rawData.length], "uint8"⟩, none⟩,
        ⟨some oS, some oZ, none, none⟩], []) := by
      simp [qlinear, node_none his hiz, node_none hos hoz, hn]
    rw [hq]
    show (QAdd.fromModel _).map Layer.qadd = _
    have hk : QAdd.fromModel ⟨"QLinearAdd", "QLinearAdd", [⟨some iS, some iZ, none, none⟩,
        ⟨some bS, some bZ, some ⟨some (.vec bi.rawData), [bi.rawData.length], "uint8"⟩, none⟩,
        ⟨some oS, some oZ, none, none⟩], [], none⟩ = some ⟨iS, iZ, bi.rawData, bS, bZ, oS, oZ⟩ := by
      unfold QAdd.fromModel
      simp
    simp only
    rw [hk]; rfl
  | sigmoid x is iz os oz out iS oS iZ oZ his hiz hos hoz ho =>
    obtain ⟨o, os', rfl⟩ := List.exists_cons_of_ne_nil ho
    unfold unfusedLayer
    rw [if_pos rfl]
    simp [qlinearSigmoid, node_none his hiz, node_none hos hoz, qsigmoidFromModel, OnnxOp.layer]
  | tanh x y ins outs d e hx hy =>
    rw [unfused_ne ext m _ (by simp), build_pass]
    simp only [passThrough, base_known hx, base_known hy, List.getElem?_cons_zero, Option.bind_eq_bind, Option.bind_some,
      Option.map_some]
    rfl
  | softmax x y ins outs d e hx hy =>
    rw [unfused_ne ext m _ (by simp)]
    have hb : buildOp ext m ⟨"Softmax", [⟨"Softmax", x :: ins, y :: outs⟩]⟩ =
        (passThrough m ⟨"Softmax", x :: ins, y :: outs⟩).map (fun b => ⟨"Softmax", "Softmax", b.1, b.2, none⟩) := by
      simp [buildOp]
      cases passThrough m ⟨"Softmax", x :: ins, y :: outs⟩ <;> rfl
    rw [hb]
    simp only [passThrough, base_known hx, base_known hy, List.getElem?_cons_zero, Option.bind_eq_bind, Option.bind_some,
      Option.map_some]
    rfl

/-- C84 (sizes).  The exported `Tanh` or `Softmax` operator records the sizes of exactly the tensors it connects. -/
theorem C84_tensor_sizes (ext : Ext) (m : OModel) (t : String) (ht : t = "Tanh" ∨ t = "Softmax") (x y : String)
    (ins outs : List String) (d e : ℕ) (hx : Known m x d) (hy : Known m y e) :
    ∃ op i o, buildOp ext m ⟨t, [⟨t, x :: ins, y :: outs⟩]⟩ = some op ∧ op.opType = t ∧ op.inputs = [i] ∧
      op.outputs = [o] ∧ (i.tensor.map (·.shape)) = some [d] ∧ (o.tensor.map (·.shape)) = some [e] := by
  have hp : passThrough m ⟨t, x :: ins, y :: outs⟩ = some ([⟨none, none, some ⟨none, [d], "?"⟩, none⟩],
      [⟨none, none, some ⟨none, [e], "?"⟩, none⟩]) := by
    simp [passThrough, base_known hx, base_known hy]
  refine ⟨⟨t, t, [⟨none, none, some ⟨none, [d], "?"⟩, none⟩], [⟨none, none, some ⟨none, [e], "?"⟩, none⟩], none⟩, _, _, ?_,
    rfl, rfl, rfl, rfl, rfl⟩
  rcases ht with rfl | rfl <;> simp [buildOp, hp]

/-- C84 (declared interface).  The exported network declares one input entry per model input, with its size and without
quantization parameters, and declares the *same* list as its outputs: whatever the model's outputs are, their sizes are
not exported. -/
theorem C84_interface (ext : Ext) (m : OModel) (net : NetJ) (h : model2json ext m = some net) :
    net.engine = "ONNX" ∧ net.input.length = m.inputs.length ∧ net.output = net.input ∧
      ∀ (k : ℕ) v, m.inputs[k]? = some v → ∃ n, net.input[k]? = some (some n) ∧ n.scale = none ∧ n.zeroPoint = none ∧
        (n.tensor.map (·.shape)) = some [v.2] := by
  unfold model2json at h
  simp only [Option.bind_eq_bind, Option.bind_eq_some_iff, Option.some.injEq] at h
  obtain ⟨g, -, rfl⟩ := h
  refine ⟨rfl, by simp, rfl, ?_⟩
  intro k v hv
  refine ⟨⟨none, none, some ⟨none, [v.2], "?"⟩, none⟩, ?_, rfl, rfl, rfl⟩
  simp only [List.getElem?_map, hv]
  rfl

end Verif
