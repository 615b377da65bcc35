import Verif.Model.Node
import Verif.Props.LutLayer
import Verif.Props.Quant

/-!
# Properties C33–C36: stored integers, bias scale and LUTs under parameter updates
-/

namespace Verif
open Spec

/-! ## C34 -/

namespace Node

/-- The stored integers are the quantization of the float tensor under the node's current parameters and policy. -/
def Spec.Agrees (n : Node) : Prop :=
  ∀ t, n.tensor = some t →
    t.quantized = Quantization.quantizeArray n.quant t.fp.data n.zp n.scale (some t.policy.data)

/-- Operations on a single node. -/
inductive NodeOp where
  | update (s : ℚ) (zp : ℤ)
  | setPolicy (p : FArr)
  | resetRounding

/-- Apply one operation (updates requantize). -/
def NodeOp.apply (n : Node) : NodeOp → Option Node
  | .update s zp => some (n.update s zp true)
  | .setPolicy p => n.setPolicy p
  | .resetRounding => n.resetRounding

/-- A history of operations. -/
def history (n : Node) (ops : List NodeOp) : Option Node := ops.foldlM NodeOp.apply n

theorem agrees_withTensor (n : Node) (fp : FArr) : Spec.Agrees (n.withTensor fp) := by
  intro t ht
  simp only [withTensor, Option.some.injEq] at ht
  subst ht
  exact (C06_base_policy_is_nearest n.quant fp.data n.zp n.scale).symm

theorem agrees_requantize (n : Node) : Spec.Agrees n.requantize := by
  intro t ht
  simp only [requantize, Option.map_eq_some_iff] at ht
  obtain ⟨t', -, rfl⟩ := ht
  rfl

theorem agrees_update (n : Node) (s : ℚ) (zp : ℤ) : Spec.Agrees (n.update s zp true) := agrees_requantize _

theorem agrees_setPolicy (n n' : Node) (p : FArr) (h : n.setPolicy p = some n') : Spec.Agrees n' := by
  unfold setPolicy at h
  split at h
  · simp at h
  · split_ifs at h
    simp only [Option.some.injEq] at h
    subst h
    intro t ht
    simp only [Option.some.injEq] at ht
    subst ht
    rfl

theorem agrees_apply (n n' : Node) (op : NodeOp) (h : op.apply n = some n') : Spec.Agrees n' := by
  cases op with
  | update s zp => simp only [NodeOp.apply, Option.some.injEq] at h; subst h; exact agrees_update _ _ _
  | setPolicy p => exact agrees_setPolicy n n' p h
  | resetRounding =>
    simp only [NodeOp.apply, resetRounding] at h
    split at h
    · simp at h
    · exact agrees_setPolicy _ _ _ h

end Node

/-- C34.  After construction and after every history of updates (requantizing), rounding-policy assignments and
rounding resets that does not raise, the stored integers are the quantization of the float tensor with the current
scale, zero point and policy. -/
theorem C34_stored_integers_agree (n : Node) (fp : FArr) (ops : List Node.NodeOp) (n' : Node)
    (h : (n.withTensor fp).history ops = some n') : Node.Spec.Agrees n' := by
  have key : ∀ (ops : List Node.NodeOp) (m : Node), Node.Spec.Agrees m → m.history ops = some n' →
      Node.Spec.Agrees n' := by
    intro ops
    induction ops with
    | nil => intro m hm h; simp only [Node.history, List.foldlM_nil, Option.pure_def, Option.some.injEq] at h; rwa [← h]
    | cons op ops ih =>
      intro m _ h
      simp only [Node.history, List.foldlM_cons, Option.bind_eq_bind, Option.bind_eq_some_iff] at h
      obtain ⟨m', h1, h2⟩ := h
      exact ih m' (Node.agrees_apply m m' op h1) h2
  exact key ops _ (Node.agrees_withTensor n fp) h

/-- C34: the float tensor and the dtype never change. -/
theorem C34_float_tensor_constant (n : Node) (fp : FArr) (ops : List Node.NodeOp) (n' : Node)
    (h : (n.withTensor fp).history ops = some n') : n'.quant = n.quant ∧ n'.tensor.map TensorPart.fp = some fp := by
  have key : ∀ (ops : List Node.NodeOp) (m : Node), m.history ops = some n' →
      n'.quant = m.quant ∧ n'.tensor.map TensorPart.fp = m.tensor.map TensorPart.fp := by
    intro ops
    induction ops with
    | nil =>
      intro m h
      simp only [Node.history, List.foldlM_nil, Option.pure_def, Option.some.injEq] at h
      rw [h]; exact ⟨rfl, rfl⟩
    | cons op ops ih =>
      intro m h
      simp only [Node.history, List.foldlM_cons, Option.bind_eq_bind, Option.bind_eq_some_iff] at h
      obtain ⟨m', h1, h2⟩ := h
      obtain ⟨i1, i2⟩ := ih m' h2
      have hset : ∀ p, m.setPolicy p = some m' → m'.quant = m.quant ∧
          m'.tensor.map TensorPart.fp = m.tensor.map TensorPart.fp := by
        intro p hp
        unfold Node.setPolicy at hp
        split at hp
        · simp at hp
        · rename_i t ht
          split_ifs at hp
          simp only [Option.some.injEq] at hp
          subst hp
          exact ⟨rfl, by rw [ht]; rfl⟩
      have hm : m'.quant = m.quant ∧ m'.tensor.map TensorPart.fp = m.tensor.map TensorPart.fp := by
        cases op with
        | update s zp =>
          simp only [Node.NodeOp.apply, Option.some.injEq] at h1
          subst h1
          refine ⟨rfl, ?_⟩
          simp only [Node.update, if_true, Node.requantize, Option.map_map]
          rfl
        | setPolicy p => exact hset p h1
        | resetRounding =>
          simp only [Node.NodeOp.apply, Node.resetRounding] at h1
          split at h1
          · simp at h1
          · exact hset _ h1
      exact ⟨i1.trans hm.1, i2.trans hm.2⟩
  obtain ⟨h1, h2⟩ := key ops _ h
  exact ⟨h1, h2⟩

/-- C34: right after construction this is round-to-nearest. -/
theorem C34_initially_nearest (n : Node) (fp : FArr) :
    (n.withTensor fp).tensor.map TensorPart.quantized =
      some (fp.data.map (fun x => Quantization.quantize n.quant x n.zp n.scale)) := by
  simp only [Node.withTensor, Option.map_some, Quantization.quantizeArray, List.map_map]
  rfl

/-- C34: updates without requantization, and the scale and zero-point resets, leave the stored integers unchanged. -/
theorem C34_no_requantize (n : Node) (s : ℚ) (zp : ℤ) :
    (n.update s zp false).tensor = n.tensor ∧ (n.update s zp false).scale = s ∧ (n.update s zp false).zp = zp ∧
      n.resetScale.tensor = n.tensor ∧ n.resetZp.tensor = n.tensor := ⟨rfl, rfl, rfl, rfl, rfl⟩

/-- … and so they can disagree with the parameters afterwards, also after `reset_scale`. -/
theorem C34_reset_scale_disagrees : ∃ n : Node, ∃ ops n',
    (n.withTensor ⟨[1], [1]⟩).history ops = some n' ∧ ¬ Node.Spec.Agrees n'.resetScale := by
  refine ⟨Node.base 1 0 (intDtype 7), [.update (1 / 2) 0], _, rfl, ?_⟩
  intro h
  have := h _ rfl
  revert this
  decide +kernel

/-- C34, consequence: the policy computed for the initial scale is kept by later updates, so after an update the
integers are in general not the nearest ones any more (0.6 at scale 1/2 is stored as 2, not 1). -/
theorem C34_update_loses_nearest : ∃ n' : Node,
    ((Node.base 1 0 (intDtype 7)).withTensor ⟨[1], [3 / 5]⟩).history [.update (1 / 2) 0] = some n' ∧
      n'.tensor.map TensorPart.quantized = some [2] ∧
      Quantization.quantize (intDtype 7) (3 / 5) 0 (1 / 2) = 1 := ⟨_, rfl, by decide +kernel, by decide +kernel⟩

/-! ## C34: full histories, including the resets and updates that do not requantize -/

/-- Everything a user can do to one tensor node. -/
inductive TensorOp where
  | update (s : ℚ) (zp : ℤ) (requantize : Bool)
  | setPolicy (p : FArr)
  | resetRounding
  | resetScale
  | resetZp

/-- Apply one of them to the modelled node. -/
def TensorOp.apply (n : Node) : TensorOp → Option Node
  | .update s zp rq => some (n.update s zp rq)
  | .setPolicy p => n.setPolicy p
  | .resetRounding => n.resetRounding
  | .resetScale => some n.resetScale
  | .resetZp => some n.resetZp

namespace Spec

/-- What a user sees of a tensor node: its scale, zero point, rounding policy, and the scale, zero point and policy
that the stored integers were computed with. -/
structure TensorView where
  scale : ℚ
  zp : ℤ
  policy : FArr
  usedScale : ℚ
  usedZp : ℤ
  usedPolicy : FArr

/-- The documented effect of each operation on a node constructed with scale `s0`, zero point `z0` and float tensor
`fp`: the resets restore the constructor's values, a policy must have the tensor's shape, and the integers are
recomputed by requantizing updates and by changes of policy, not by the other operations. -/
def tensorStep (s0 : ℚ) (z0 : ℤ) (fp : FArr) (v : TensorView) : TensorOp → Option TensorView
  | .update s zp true => some ⟨s, zp, v.policy, s, zp, v.policy⟩
  | .update s zp false => some { v with scale := s, zp := zp }
  | .setPolicy p => if p.shape = fp.shape then some ⟨v.scale, v.zp, p, v.scale, v.zp, p⟩ else none
  | .resetRounding =>
    some ⟨v.scale, v.zp, baseRoundingFArr fp s0, v.scale, v.zp, baseRoundingFArr fp s0⟩
  | .resetScale => some { v with scale := s0 }
  | .resetZp => some { v with zp := z0 }

/-- The view right after construction. -/
def tensorInit (s0 : ℚ) (z0 : ℤ) (fp : FArr) : TensorView :=
  ⟨s0, z0, baseRoundingFArr fp s0, s0, z0, baseRoundingFArr fp s0⟩

/-- A node shows a view. -/
def Shows (q : GDtype) (fp : FArr) (n : Node) (v : TensorView) : Prop :=
  n.quant = q ∧ n.scale = v.scale ∧ n.zp = v.zp ∧ ∃ t, n.tensor = some t ∧ t.fp = fp ∧ t.policy = v.policy ∧
    t.quantized = Quantization.quantizeArray q fp.data v.usedZp v.usedScale (some v.usedPolicy.data)

end Spec

/-- C34.  For every history of operations on a tensor node: the node raises exactly when the documented machine does
(a policy of the wrong shape), and otherwise shows exactly what it shows. -/
theorem C34_history_refines (q : GDtype) (s0 : ℚ) (z0 : ℤ) (fp : FArr) (ops : List TensorOp) :
    match ops.foldlM TensorOp.apply ((Node.base s0 z0 q).withTensor fp),
        ops.foldlM (Spec.tensorStep s0 z0 fp) (Spec.tensorInit s0 z0 fp) with
    | some n, some v => Spec.Shows q fp n v
    | none, none => True
    | _, _ => False := by
  have key : ∀ (ops : List TensorOp) (n : Node) (v : Spec.TensorView), Spec.Shows q fp n v → n.ogScale = s0 →
      n.ogZp = z0 → n.tensor.map TensorPart.ogPolicy = some (baseRoundingFArr fp s0) →
      match ops.foldlM TensorOp.apply n, ops.foldlM (Spec.tensorStep s0 z0 fp) v with
      | some n, some v => Spec.Shows q fp n v
      | none, none => True
      | _, _ => False := by
    intro ops
    induction ops with
    | nil => intro n v h _ _ _; exact h
    | cons op ops ih =>
      intro n v h h1 h2 h3
      obtain ⟨hq, hs, hz, t, ht, hf, hp, hqz⟩ := h
      have h3' : t.ogPolicy = baseRoundingFArr fp s0 := by simpa [ht] using h3
      simp only [List.foldlM_cons, Option.bind_eq_bind]
      cases op with
      | update s zp rq =>
        cases rq with
        | true =>
          refine ih _ _ ⟨hq, rfl, rfl, ⟨t.fp, t.policy, t.ogPolicy,
            Quantization.quantizeArray q fp.data zp s (some v.policy.data)⟩, ?_, hf, hp, rfl⟩ h1 h2 ?_
          · simp only [Node.update, if_true, Node.requantize, ht, Option.map_some, hq, hf, hp]
          · simp only [Node.update, if_true, Node.requantize, ht, Option.map_some, h3']
        | false => exact ih _ _ ⟨hq, rfl, rfl, t, ht, hf, hp, hqz⟩ h1 h2 h3
      | setPolicy p =>
        simp only [TensorOp.apply, Spec.tensorStep, Node.setPolicy, ht, hf]
        by_cases hsh : p.shape = fp.shape
        · rw [if_neg (not_not.2 hsh), if_pos hsh]
          refine ih _ _ ⟨hq, hs, hz, _, rfl, rfl, rfl, ?_⟩ h1 h2 ?_
          · simp only [hq, hs, hz]
          · simp only [Option.map_some, h3']
        · rw [if_pos hsh, if_neg hsh]; trivial
      | resetRounding =>
        simp only [TensorOp.apply, Spec.tensorStep, Node.resetRounding, Node.setPolicy, ht, hf, h3']
        rw [if_neg (not_not.2 (show (baseRoundingFArr fp s0).shape = fp.shape from rfl))]
        refine ih _ _ ⟨hq, hs, hz, _, rfl, rfl, rfl, ?_⟩ h1 h2 ?_
        · simp only [hq, hs, hz]
        · simp only [Option.map_some]
      | resetScale => exact ih _ _ ⟨hq, h1, hz, t, ht, hf, hp, hqz⟩ h1 h2 h3
      | resetZp => exact ih _ _ ⟨hq, hs, h2, t, ht, hf, hp, hqz⟩ h1 h2 h3
  refine key ops _ _ ⟨rfl, rfl, rfl, _, rfl, rfl, rfl, ?_⟩ rfl rfl rfl
  exact (C06_base_policy_is_nearest q fp.data z0 s0).symm

/-- The histories do something: a policy of the same size but another shape is refused; after an update and the two
resets the constructor's parameters are back while the integers are those of the update. -/
example : ([.setPolicy ⟨[2], [1, 1]⟩] : List TensorOp).foldlM TensorOp.apply
      ((Node.base 1 0 (intDtype 7)).withTensor ⟨[1, 2], [1, 2]⟩) = none ∧
    (([.update (1 / 2) 3 true, .resetScale, .resetZp] : List TensorOp).foldlM TensorOp.apply
      ((Node.base 1 0 (intDtype 7)).withTensor ⟨[1, 2], [1, 2]⟩)).map
        (fun n => (n.scale, n.zp, n.tensor.map TensorPart.quantized)) = some (1, 0, some [5, 7]) := by
  decide +kernel

/-! ## C35 -/

/-- C35.  The dequantized view equals the real values of the stored integers exactly when `zp * (scale + 1) = 0`
(unless the tensor is empty). -/
theorem C35_dequantized_iff (n : Node) (t : TensorPart) (ht : n.tensor = some t) (hne : t.quantized ≠ []) :
    n.dequantized = some (t.quantized.map (fun q => real n.zp n.scale q)) ↔ (n.zp : ℚ) * (n.scale + 1) = 0 := by
  unfold Node.dequantized
  rw [ht]
  simp only [Option.map_some, Option.some.injEq]
  rw [List.map_inj_left]
  obtain ⟨q, hq⟩ := List.exists_mem_of_ne_nil _ hne
  constructor
  · intro h
    have := h q hq
    unfold real at this
    linarith
  · intro h q _
    unfold real
    linarith

/-- C35, usual case: for a positive scale the view is right iff the zero point is 0, and otherwise every element is off
by the same amount `zp * (scale + 1)`. -/
theorem C35_dequantized_offset (n : Node) (t : TensorPart) (ht : n.tensor = some t) (hs : 0 < n.scale) :
    n.dequantized = some (t.quantized.map (fun q => real n.zp n.scale q + n.zp * (n.scale + 1))) ∧
      (t.quantized ≠ [] →
        (n.dequantized = some (t.quantized.map (fun q => real n.zp n.scale q)) ↔ n.zp = 0)) := by
  constructor
  · unfold Node.dequantized
    rw [ht]
    simp only [Option.map_some, Option.some.injEq, List.map_inj_left]
    intro q _
    unfold real
    ring
  · intro hne
    rw [C35_dequantized_iff n t ht hne, mul_eq_zero]
    constructor
    · rintro (h | h)
      · exact_mod_cast h
      · linarith
    · intro h; left; rw [h]; rfl

/-- A tensor with zero point 3: the view is wrong. -/
example : ∃ t, ((Node.base (1 / 2) 3 (intDtype 7)).withTensor ⟨[2], [1, -2]⟩).tensor = some t ∧ t.quantized ≠ [] ∧
    ((Node.base (1 / 2) 3 (intDtype 7)).withTensor ⟨[2], [1, -2]⟩).dequantized = some [11 / 2, 5 / 2] :=
  ⟨_, rfl, by decide +kernel, by decide +kernel⟩

/-! ## C36 -/

/-- C36, construction.  A freshly attached table has, for every code, the quantized activation of that code under the
node's and the output parameters (round to nearest), and looking a code up returns it. -/
theorem C36_after_construction (n : Node) (hd : Fits32 n.quant.min n.quant.max) (fn : ℚ → ℚ) (os : ℚ) (ozp : ℤ) :
    ∃ l, (n.withLut fn os ozp).lut = some l ∧
      l.lut = Quantization.createLUT n.quant fn n.scale n.zp os ozp ∧
      ∀ q, Code n.quant.min n.quant.max q → IsInt32 (q - n.zp) →
        l.call q = some (Quantization.quantize n.quant (fn (real n.zp n.scale q)) ozp os) := by
  have hl : (NodeLUT.init n.quant fn n.scale n.zp os ozp).lut =
      Quantization.createLUT n.quant fn n.scale n.zp os ozp :=
    C06_base_policy_is_nearest n.quant (Quantization.floatActivation n.quant fn n.scale n.zp) ozp os
  refine ⟨_, rfl, hl, ?_⟩
  intro q hq hz
  have hidx : q + -n.quant.min = ((q - n.quant.min).toNat : ℤ) := by unfold Code at hq; omega
  unfold NodeLUT.call
  rw [hl]
  show ReducedLUT.pyIndex _ (q + -n.quant.min) = _
  rw [hidx]
  have := C07_entry n.quant hd fn n.scale n.zp os ozp q hq hz
  rw [← this]
  simp only [ReducedLUT.pyIndex, Int.natCast_nonneg, if_true, Int.toNat_natCast]

/-- The parameter updates of a history, all requantizing. -/
def Node.updates (n : Node) (ps : List (ℚ × ℤ)) : Node := ps.foldl (fun n p => n.update p.1 p.2 true) n

theorem Node.updates_lut (ps : List (ℚ × ℤ)) (n : Node) (l : NodeLUT) (hl : n.lut = some l)
    (h0 : l.inS = n.scale ∧ l.inZp = n.zp ∧ l.create = l) :
    (n.updates ps).quant = n.quant ∧ ∃ l', (n.updates ps).lut = some l' ∧
      l' = ({ l with inS := (n.updates ps).scale, inZp := (n.updates ps).zp } : NodeLUT).create := by
  induction ps generalizing n l with
  | nil =>
    refine ⟨rfl, l, hl, ?_⟩
    obtain ⟨h1, h2, h3⟩ := h0
    show l = NodeLUT.create { l with inS := n.scale, inZp := n.zp }
    rw [← h1, ← h2]
    exact h3.symm
  | cons p ps ih =>
    have hn : (n.update p.1 p.2 true).lut = some (l.updateIn p.1 p.2) := by
      simp only [Node.update, if_true, Node.requantize, hl, Option.map_some]
    obtain ⟨i1, l', i2, i3⟩ := ih (n.update p.1 p.2 true) (l.updateIn p.1 p.2) hn ⟨rfl, rfl, rfl⟩
    refine ⟨i1, l', i2, ?_⟩
    rw [i3]
    rfl

/-- C36, input updates.  After any history of (requantizing) parameter updates of the node, the table is `create_LUT`
of the node's current parameters with the rounding policy of construction time; looking up a code returns one of the
two codes next to the exact value (saturated). -/
theorem C36_input_history (n : Node) (hd : Fits32 n.quant.min n.quant.max) (fn : ℚ → ℚ) (os : ℚ) (hos : os ≠ 0)
    (ozp : ℤ) (ps : List (ℚ × ℤ)) :
    ∃ l policy, ((n.withLut fn os ozp).updates ps).lut = some l ∧
      l.lut = Quantization.createLUT n.quant fn ((n.withLut fn os ozp).updates ps).scale
        ((n.withLut fn os ozp).updates ps).zp os ozp (some policy) ∧
      ∀ q, Code n.quant.min n.quant.max q → IsInt32 (q - ((n.withLut fn os ozp).updates ps).zp) →
        ∃ b : ℤ, (b = 0 ∨ b = 1) ∧
          l.call q = some (clip n.quant.min n.quant.max
            (⌊fn (real ((n.withLut fn os ozp).updates ps).zp ((n.withLut fn os ozp).updates ps).scale q) / os + ozp⌋
              + b)) := by
  obtain ⟨hq, l, h1, h2⟩ := Node.updates_lut ps (n.withLut fn os ozp) _ rfl ⟨rfl, rfl, rfl⟩
  set m := (n.withLut fn os ozp).updates ps with hm
  set bits : List ℤ := (Quantization.floatActivation n.quant fn n.scale n.zp).map (fun y => baseRounding y os)
    with hbits
  have hpol : (Quantization.floatActivation n.quant fn n.scale n.zp).map (fun y => (baseRounding y os : ℚ)) =
      bits.map (fun (b : ℤ) => (b : ℚ)) := by rw [hbits, List.map_map]; rfl
  have hlut : l.lut = Quantization.createLUT n.quant fn m.scale m.zp os ozp
      (some (bits.map (fun (b : ℤ) => (b : ℚ)))) := by rw [h2, ← hpol]; rfl
  refine ⟨l, _, h1, hlut, ?_⟩
  intro q hc hz
  have hoff : l.offset = -n.quant.min := by rw [h2]; rfl
  have hidx : q + -n.quant.min = ((q - n.quant.min).toNat : ℤ) := by unfold Code at hc; omega
  have hlen : ∀ s z, (Quantization.floatActivation n.quant fn s z).length = (n.quant.max - n.quant.min + 1).toNat := by
    intro s z
    simp [Quantization.floatActivation, Quantization.dequantizeArray, codes_length]
  have hb : bits.length = (Quantization.floatActivation n.quant fn m.scale m.zp).length := by
    rw [hbits, List.length_map, hlen, hlen]
  unfold NodeLUT.call
  rw [hoff, hidx, hlut]
  unfold Quantization.createLUT
  rw [C06_policy_neighbours n.quant hd _ ozp os hos bits hb]
  have hq32 : IsInt32 q := ⟨by have := hd.1; have := hc.1; omega, by have := hd.2.2; have := hc.2; omega⟩
  have hf : (Quantization.floatActivation n.quant fn m.scale m.zp)[(q - n.quant.min).toNat]? =
      some (fn (real m.zp m.scale q)) := by
    unfold Quantization.floatActivation Quantization.dequantizeArray
    simp only [List.getElem?_map, codes_get hc, Option.map_some, dequantize_eq hq32 hz]
  have hlt : (q - n.quant.min).toNat < bits.length := by
    rw [hb, hlen]; unfold Code at hc; omega
  obtain ⟨b, hbget⟩ : ∃ b, bits[(q - n.quant.min).toNat]? = some b := ⟨_, List.getElem?_eq_getElem hlt⟩
  have hb01 : b = 0 ∨ b = 1 := by
    have := List.mem_of_getElem? hbget
    rw [hbits, List.mem_map] at this
    obtain ⟨y, -, rfl⟩ := this
    unfold baseRounding
    split_ifs <;> simp
  refine ⟨b, hb01, ?_⟩
  simp only [ReducedLUT.pyIndex, Int.natCast_nonneg, if_true, Int.toNat_natCast]
  simp [List.getElem?_zipWith, hf, hbget]

/-- C36, false part.  Changing the output parameters or assigning a policy does not rebuild the table, so it then
differs from `create_LUT` of the current parameters and policy; so does an update with `requantize=False`. -/
theorem C36_stale :
    (∀ (l : NodeLUT) s z p, (l.updateOut s z).lut = l.lut ∧ (l.setPolicy p).lut = l.lut) ∧
    (∃ (l : NodeLUT) (s : ℚ) (z : ℤ) (p : List ℚ),
      l = NodeLUT.init (intDtype 1) id 1 0 1 0 ∧
      (l.updateOut s z).lut ≠ ((l.updateOut s z).create).lut ∧
      (l.setPolicy p).lut ≠ ((l.setPolicy p).create).lut) ∧
    (∃ (n : Node) (l : NodeLUT), n = ((Node.base 1 0 (intDtype 1)).withLut id 1 0).update (1 / 2) 0 false ∧
      n.lut = some l ∧ l.lut ≠ Quantization.createLUT n.quant id n.scale n.zp 1 0) := by
  refine ⟨fun l s z p => ⟨rfl, rfl⟩, ⟨_, 2, 0, [1, 1, 1, 1], rfl, ?_, ?_⟩, ⟨_, _, rfl, rfl, ?_⟩⟩ <;> decide +kernel

/-- C36, consequence of the stale policy: after an input update entries need not be nearest. -/
theorem C36_input_update_not_nearest : ∃ l : NodeLUT,
    (((Node.base 1 0 (intDtype 1)).withLut (fun x => x * (3 / 5)) 1 0).updates [(1 / 3, 0)]).lut = some l ∧
      l.call 1 = some 1 ∧ Quantization.quantize (intDtype 1) (real 0 (1 / 3) 1 * (3 / 5)) 0 1 = 0 :=
  ⟨_, rfl, by decide +kernel, by decide +kernel⟩

/-! ## C33 -/

namespace World

/-- What the quantizer's callers respect: `Dense.quantize` gets an existing node that is not itself a bias as input,
and only non-bias nodes are updated directly (the repository's parameter equalizers update kernels and activations). -/
def Legal (w : World) : Op → Prop
  | .alloc _ => True
  | .dense i _ _ _ => i < w.next ∧ i ∉ w.biases
  | .update id _ _ _ => id < w.next ∧ id ∉ w.biases
  | .setPolicy id _ => id < w.next

/-- A history of legal operations, none of which raises. -/
inductive Runs : World → List Op → World → Prop
  | nil (w) : Runs w [] w
  | cons {w op w' ops w''} : w.Legal op → w.step op = some w' → Runs w' ops w'' → Runs w (op :: ops) w''

/-- The bias relation for one link. -/
def Rel (w : World) (l : Link) : Prop :=
  (w.nodes l.bias).scale = (w.nodes l.kernel).scale * (w.nodes l.input).scale

/-- Per-bias-node facts. -/
def BiasOk (w : World) (l : Link) : Prop :=
  (w.nodes l.bias).zp = 0 ∧ (∃ t, (w.nodes l.bias).tensor = some t) ∧ Node.Spec.Agrees (w.nodes l.bias)

structure Wired (w : World) : Prop where
  home : ∀ i, ∀ l ∈ w.hooks i, l ∈ w.hooks l.kernel ∧ l ∈ w.hooks l.input
  bound : ∀ i, ∀ l ∈ w.hooks i, i < w.next ∧ l.bias < w.next
  fresh : ∀ i, w.next ≤ i → w.hooks i = []
  leaf : ∀ b ∈ w.biases, w.hooks b = []
  uniq : ∀ i j, ∀ l ∈ w.hooks i, ∀ l' ∈ w.hooks j, l.bias = l'.bias → l = l'

structure Inv (w : World) : Prop extends Wired w where
  rel : ∀ i, ∀ l ∈ w.hooks i, w.Rel l
  ok : ∀ i, ∀ l ∈ w.hooks i, w.BiasOk l

theorem Wired.kernel_not_bias {w : World} (h : w.Wired) {i : ℕ} {l l' : Link} {j : ℕ} (hl : l ∈ w.hooks i)
    (hl' : l' ∈ w.hooks j) : l.kernel ≠ l'.bias ∧ l.input ≠ l'.bias := by
  obtain ⟨h1, h2⟩ := h.home i l hl
  have hb : l'.bias ∈ w.biases := ⟨j, l', hl', rfl⟩
  have := h.leaf _ hb
  constructor
  · intro e; rw [e, this] at h1; simp at h1
  · intro e; rw [e, this] at h2; simp at h2

/-- Running the hooks of a node: they only touch bias nodes, and re-establish the relation. -/
theorem hooks_run (w0 : World) (hw : w0.Wired) (n : ℕ) (id : ℕ) (todo : List Link)
    (htodo : ∀ l ∈ todo, l ∈ w0.hooks id) (w : World) (hh : w.hooks = w0.hooks) (hn : w.next = w0.next)
    (hrel : ∀ i, ∀ l ∈ w0.hooks i, l ∉ todo → w.Rel l) (hok : ∀ i, ∀ l ∈ w0.hooks i, w.BiasOk l) :
    ∃ w', todo.foldlM (fun w l => update (n + 1) w l.bias ((w.nodes l.kernel).scale * (w.nodes l.input).scale)
        (w.nodes l.bias).zp true) w = some w' ∧ w'.hooks = w0.hooks ∧ w'.next = w0.next ∧
      (∀ i, ∀ l ∈ w0.hooks i, w'.Rel l) ∧ (∀ i, ∀ l ∈ w0.hooks i, w'.BiasOk l) ∧
      (∀ j, j ∉ w0.biases → w'.nodes j = w.nodes j) := by
  induction todo generalizing w with
  | nil => exact ⟨w, rfl, hh, hn, fun i l hl => hrel i l hl (by simp), hok, fun _ _ => rfl⟩
  | cons l todo ih =>
    have hl := htodo l (by simp)
    have hb : l.bias ∈ w0.biases := ⟨id, l, hl, rfl⟩
    have hleaf : w.hooks l.bias = [] := by rw [hh]; exact hw.leaf _ hb
    set s := (w.nodes l.kernel).scale * (w.nodes l.input).scale with hs
    set w1 := w.setNode l.bias ((w.nodes l.bias).update s (w.nodes l.bias).zp true) with hw1
    have hupd : update (n + 1) w l.bias s (w.nodes l.bias).zp true = some w1 := by
      unfold update
      simp only
      have : w1.hooks l.bias = [] := hleaf
      rw [← hw1, this]
      rfl
    have hother : ∀ j, j ≠ l.bias → w1.nodes j = w.nodes j := by
      intro j hj; simp [hw1, setNode, hj]
    have hself : w1.nodes l.bias = (w.nodes l.bias).update s (w.nodes l.bias).zp true := by
      simp [hw1, setNode]
    have hrel1 : ∀ i, ∀ l' ∈ w0.hooks i, l' ∉ todo → w1.Rel l' := by
      intro i l' hl' hnot
      obtain ⟨k1, k2⟩ := hw.kernel_not_bias hl' hl
      unfold Rel
      rw [hother _ k1, hother _ k2]
      by_cases hbb : l'.bias = l.bias
      · have : l' = l := hw.uniq i id l' hl' l hl hbb
        subst this
        rw [hself]
        rfl
      · rw [hother _ hbb]
        refine hrel i l' hl' ?_
        rw [List.mem_cons]
        rintro (rfl | h)
        · exact hbb rfl
        · exact hnot h
    have hok1 : ∀ i, ∀ l' ∈ w0.hooks i, w1.BiasOk l' := by
      intro i l' hl'
      obtain ⟨o1, ⟨t, o2⟩, o3⟩ := hok i l' hl'
      unfold BiasOk
      by_cases hbb : l'.bias = l.bias
      · rw [hbb] at o1 o2 ⊢
        rw [hself]
        refine ⟨o1, ?_, Node.agrees_update _ _ _⟩
        simp only [Node.update, if_true, Node.requantize, o2, Option.map_some]
        exact ⟨_, rfl⟩
      · rw [hother _ hbb]; exact ⟨o1, ⟨t, o2⟩, o3⟩
    obtain ⟨w', r1, r2, r3, r4, r5, r6⟩ := ih (fun l' h => htodo l' (by simp [h])) w1 hh hn hrel1 hok1
    refine ⟨w', ?_, r2, r3, r4, r5, ?_⟩
    · simp only [List.foldlM_cons, Option.bind_eq_bind]
      rw [hupd, Option.bind_some]
      exact r1
    · intro j hj
      rw [r6 j hj, hother j (fun e => hj (by rw [e]; exact hb))]

theorem Inv.update {w : World} (hw : w.Inv) (n : ℕ) (id : ℕ) (hid : id ∉ w.biases) (s : ℚ) (zp : ℤ) (rq : Bool) :
    ∃ w', World.update (n + 2) w id s zp rq = some w' ∧ w'.Inv ∧ w'.next = w.next ∧ w'.biases = w.biases ∧
      (w'.nodes id).scale = s ∧ (w'.nodes id).zp = zp ∧
      ∀ j, j ∉ w.biases → j ≠ id → w'.nodes j = w.nodes j := by
  set w1 := w.setNode id ((w.nodes id).update s zp rq) with hw1
  have hother : ∀ j, j ≠ id → w1.nodes j = w.nodes j := by intro j hj; simp [hw1, setNode, hj]
  have hid' : ∀ i, ∀ l ∈ w.hooks i, l.bias ≠ id := fun i l hl e => hid (by rw [← e]; exact ⟨i, l, hl, rfl⟩)
  obtain ⟨w', r1, r2, r3, r4, r5, r6⟩ := hooks_run w hw.toWired n id (w.hooks id) (fun _ h => h) w1 rfl rfl
    (by
      intro i l hl hnot
      obtain ⟨h1, h2⟩ := hw.home i l hl
      have k1 : l.kernel ≠ id := fun e => hnot (by rw [← e]; exact h1)
      have k2 : l.input ≠ id := fun e => hnot (by rw [← e]; exact h2)
      unfold Rel
      rw [hother _ k1, hother _ k2, hother _ (hid' i l hl)]
      exact hw.rel i l hl)
    (by
      intro i l hl
      unfold BiasOk
      rw [hother _ (hid' i l hl)]
      exact hw.ok i l hl)
  have hb : w'.biases = w.biases := by unfold biases; rw [r2]
  have hsc : (w1.nodes id).scale = s ∧ (w1.nodes id).zp = zp := by
    have : w1.nodes id = (w.nodes id).update s zp rq := by simp [hw1, setNode]
    rw [this]; unfold Node.update; cases rq <;> exact ⟨rfl, rfl⟩
  refine ⟨w', ?_, ?_, r3, hb, by rw [r6 id hid]; exact hsc.1, by rw [r6 id hid]; exact hsc.2, ?_⟩
  · unfold World.update
    simp only
    exact r1
  · refine ⟨⟨?_, ?_, ?_, ?_, ?_⟩, ?_, ?_⟩
    · rw [r2]; exact hw.home
    · rw [r2, r3]; exact hw.bound
    · rw [r2, r3]; exact hw.fresh
    · rw [hb, r2]; exact hw.leaf
    · rw [r2]; exact hw.uniq
    · rw [r2]; exact r4
    · rw [r2]; exact r5
  · intro j hj hne
    rw [r6 j hj, hother j hne]

theorem Inv.alloc {w : World} (hw : w.Inv) (n : Node) : (w.alloc n).Inv ∧ (w.alloc n).biases = w.biases := by
  have hhooks : ∀ i, (w.alloc n).hooks i = w.hooks i := by
    intro i
    simp only [World.alloc]
    split_ifs with h
    · rw [h]; exact (hw.fresh _ (le_refl _)).symm
    · rfl
  have hb : (w.alloc n).biases = w.biases := by
    unfold biases; simp only [hhooks]
  have hnode : ∀ i, i ≠ w.next → (w.alloc n).nodes i = w.nodes i := by
    intro i hi; simp [World.alloc, hi]
  have hex : ∀ i, ∀ l ∈ w.hooks i, l.kernel ≠ w.next ∧ l.input ≠ w.next ∧ l.bias ≠ w.next := by
    intro i l hl
    obtain ⟨h1, h2⟩ := hw.home i l hl
    have := (hw.bound _ l h1).1
    have := (hw.bound _ l h2).1
    have := (hw.bound _ l hl).2
    omega
  refine ⟨⟨⟨?_, ?_, ?_, ?_, ?_⟩, ?_, ?_⟩, hb⟩
  · intro i l hl; rw [hhooks] at hl ⊢; rw [hhooks]; exact hw.home i l hl
  · intro i l hl
    rw [hhooks] at hl
    obtain ⟨h1, h2⟩ := hw.bound i l hl
    show i < w.next + 1 ∧ l.bias < w.next + 1
    omega
  · intro i hi
    rw [hhooks]
    exact hw.fresh i (by change w.next + 1 ≤ i at hi; omega)
  · intro b hbb
    rw [hhooks]; rw [hb] at hbb; exact hw.leaf b hbb
  · intro i j l hl l' hl'
    rw [hhooks] at hl hl'
    exact hw.uniq i j l hl l' hl'
  · intro i l hl
    rw [hhooks] at hl
    obtain ⟨e1, e2, e3⟩ := hex i l hl
    unfold Rel
    rw [hnode _ e1, hnode _ e2, hnode _ e3]
    exact hw.rel i l hl
  · intro i l hl
    rw [hhooks] at hl
    obtain ⟨e1, e2, e3⟩ := hex i l hl
    unfold BiasOk
    rw [hnode _ e3]
    exact hw.ok i l hl

/-- Installing one more link whose bias node is fresh. -/
theorem Inv.link {w : World} (hw : w.Inv) (l : Link) (hne : l.kernel ≠ l.input) (hk : l.kernel < w.next)
    (hi : l.input < w.next) (hb : l.bias < w.next) (hkb : l.kernel ∉ w.biases) (hib : l.input ∉ w.biases)
    (hbk : l.bias ≠ l.kernel) (hbi : l.bias ≠ l.input) (hnew : l.bias ∉ w.biases) (hleaf : w.hooks l.bias = [])
    (hrel : w.Rel l) (hok : w.BiasOk l) : ((w.addHook l.kernel l).addHook l.input l).Inv := by
  set w' := (w.addHook l.kernel l).addHook l.input l with hw'
  have hmem : ∀ i l', l' ∈ w'.hooks i ↔ l' ∈ w.hooks i ∨ (l' = l ∧ (i = l.kernel ∨ i = l.input)) := by
    intro i l'
    simp only [hw', addHook]
    by_cases h1 : i = l.input
    · have h2 : ¬ i = l.kernel := fun e => hne (by rw [← e, h1])
      simp [h1, Ne.symm hne]
    · by_cases h2 : i = l.kernel
      · simp [h2, hne]
      · simp [h1, h2]
  have hnodes : w'.nodes = w.nodes := rfl
  have hbias : ∀ b, b ∈ w'.biases ↔ b ∈ w.biases ∨ b = l.bias := by
    intro b
    constructor
    · rintro ⟨i, l', h, rfl⟩
      rcases (hmem i l').mp h with h | ⟨rfl, -⟩
      · exact Or.inl ⟨i, l', h, rfl⟩
      · exact Or.inr rfl
    · rintro (⟨i, l', h, rfl⟩ | rfl)
      · exact ⟨i, l', (hmem i l').mpr (Or.inl h), rfl⟩
      · exact ⟨l.kernel, l, (hmem _ _).mpr (Or.inr ⟨rfl, Or.inl rfl⟩), rfl⟩
  refine ⟨⟨?_, ?_, ?_, ?_, ?_⟩, ?_, ?_⟩
  · intro i l' hl'
    rw [hmem, hmem]
    rcases (hmem i l').mp hl' with h | ⟨rfl, -⟩
    · obtain ⟨h1, h2⟩ := hw.home i l' h; exact ⟨Or.inl h1, Or.inl h2⟩
    · exact ⟨Or.inr ⟨rfl, Or.inl rfl⟩, Or.inr ⟨rfl, Or.inr rfl⟩⟩
  · intro i l' hl'
    show i < w.next ∧ l'.bias < w.next
    rcases (hmem i l').mp hl' with h | ⟨rfl, rfl | rfl⟩
    · exact hw.bound i l' h
    · exact ⟨hk, hb⟩
    · exact ⟨hi, hb⟩
  · intro i hi'
    change w.next ≤ i at hi'
    rw [List.eq_nil_iff_forall_not_mem]
    intro l' hl'
    rcases (hmem i l').mp hl' with h | ⟨rfl, rfl | rfl⟩
    · rw [hw.fresh i hi'] at h; simp at h
    · omega
    · omega
  · intro b hbb
    rw [List.eq_nil_iff_forall_not_mem]
    intro l' hl'
    rcases (hbias b).mp hbb with hb1 | hb1
    · rcases (hmem b l').mp hl' with h | ⟨rfl, rfl | rfl⟩
      · rw [hw.leaf b hb1] at h; simp at h
      · exact hkb hb1
      · exact hib hb1
    · subst hb1
      rcases (hmem l.bias l').mp hl' with h | ⟨rfl, h | h⟩
      · rw [hleaf] at h; simp at h
      · exact hbk h
      · exact hbi h
  · intro i j l1 h1 l2 h2 he
    rcases (hmem i l1).mp h1 with g1 | ⟨g1, -⟩ <;> rcases (hmem j l2).mp h2 with g2 | ⟨g2, -⟩
    · exact hw.uniq i j l1 g1 l2 g2 he
    · exact absurd ⟨i, l1, g1, by rw [he, g2]⟩ hnew
    · exact absurd ⟨j, l2, g2, by rw [← he, g1]⟩ hnew
    · rw [g1, g2]
  · intro i l' hl'
    unfold Rel
    rw [hnodes]
    rcases (hmem i l').mp hl' with h | ⟨rfl, -⟩
    · exact hw.rel i l' h
    · exact hrel
  · intro i l' hl'
    unfold BiasOk
    rw [hnodes]
    rcases (hmem i l').mp hl' with h | ⟨rfl, -⟩
    · exact hw.ok i l' h
    · exact hok

theorem Inv.dense {w : World} (hw : w.Inv) (i : ℕ) (hi : i < w.next) (hib : i ∉ w.biases) (k : Node) (q : GDtype)
    (b : FArr) : (w.dense i k q b).Inv ∧ (⟨w.next, i, w.next + 1⟩ : Link) ∈ (w.dense i k q b).hooks w.next := by
  obtain ⟨i1, b1⟩ := hw.alloc k
  set w1 := w.alloc k with hw1
  set bn := (Node.base ((w1.nodes i).scale * (w1.nodes w.next).scale) 0 q).withTensor b with hbn
  obtain ⟨i2, b2⟩ := i1.alloc bn
  set w2 := w1.alloc bn with hw2
  have hn1 : w1.next = w.next + 1 := rfl
  have hn2 : w2.next = w.next + 2 := rfl
  have hbias_lt : ∀ x ∈ w.biases, x < w.next := by
    rintro x ⟨j, l, hl, rfl⟩; exact (hw.bound j l hl).2
  have hnodei : ∀ j, j ≠ w.next + 1 → w2.nodes j = w1.nodes j := by
    intro j hj; simp [hw2, World.alloc, hn1, hj]
  have hnodeb : w2.nodes (w.next + 1) = bn := by simp [hw2, World.alloc, hn1]
  refine ⟨?_, ?_⟩
  · refine i2.link ⟨w.next, i, w.next + 1⟩ ?_ ?_ ?_ ?_ ?_ ?_ ?_ ?_ ?_ ?_ ?_ ?_ <;> try simp only
    · omega
    · omega
    · omega
    · omega
    · rw [b2, b1]; intro h; have := hbias_lt _ h; omega
    · rw [b2, b1]; exact hib
    · omega
    · omega
    · rw [b2, b1]; intro h; have := hbias_lt _ h; omega
    · simp [hw2, World.alloc, hn1]
    · unfold Rel
      simp only
      rw [hnodeb, hnodei _ (by omega), hnodei _ (by omega)]
      show (w1.nodes i).scale * (w1.nodes w.next).scale = _
      ring
    · unfold BiasOk
      simp only
      rw [hnodeb]
      exact ⟨rfl, ⟨_, rfl⟩, Node.agrees_withTensor _ _⟩
  · show (⟨w.next, i, w.next + 1⟩ : Link) ∈ (addHook (addHook w2 w.next _) i _).hooks w.next
    have hne : ¬ w.next = i := by omega
    simp only [addHook, if_neg hne, if_true]
    exact List.mem_append_right _ (List.mem_singleton.mpr rfl)

theorem Inv.setPolicy {w : World} (hw : w.Inv) (id : ℕ) (p : FArr) (n' : Node)
    (h : (w.nodes id).setPolicy p = some n') : (w.setNode id n').Inv := by
  have hag := Node.agrees_setPolicy _ _ _ h
  have hsame : n'.scale = (w.nodes id).scale ∧ n'.zp = (w.nodes id).zp ∧ ∃ t, n'.tensor = some t := by
    unfold Node.setPolicy at h
    split at h
    · simp at h
    · split_ifs at h
      simp only [Option.some.injEq] at h
      subst h
      exact ⟨rfl, rfl, _, rfl⟩
  have hsc : ∀ j, ((w.setNode id n').nodes j).scale = (w.nodes j).scale := by
    intro j
    simp only [setNode]
    split_ifs with e
    · rw [e]; exact hsame.1
    · rfl
  refine ⟨⟨hw.home, hw.bound, hw.fresh, hw.leaf, hw.uniq⟩, ?_, ?_⟩
  · intro i l hl
    unfold Rel
    rw [hsc, hsc, hsc]
    exact hw.rel i l hl
  · intro i l hl
    obtain ⟨o1, o2, o3⟩ := hw.ok i l hl
    unfold BiasOk
    simp only [setNode]
    split_ifs with e
    · exact ⟨by rw [hsame.2.1, ← e]; exact o1, hsame.2.2, hag⟩
    · exact ⟨o1, o2, o3⟩

theorem Inv.step {w w' : World} (hw : w.Inv) (op : Op) (hl : w.Legal op) (h : w.step op = some w') : w'.Inv := by
  cases op with
  | alloc n => simp only [World.step, Option.some.injEq] at h; subst h; exact (hw.alloc n).1
  | dense i k q b =>
    simp only [World.step, Option.some.injEq] at h; subst h
    exact (hw.dense i hl.1 hl.2 k q b).1
  | update id s z rq =>
    obtain ⟨w1, h1, h2, -⟩ := hw.update 998 id hl.2 s z rq
    have : World.update recursionLimit w id s z rq = some w1 := h1
    simp only [World.step] at h
    rw [this] at h
    injection h with h
    rw [← h]; exact h2
  | setPolicy id p =>
    simp only [World.step, Option.map_eq_some_iff] at h
    obtain ⟨n', h1, rfl⟩ := h
    exact hw.setPolicy id p n' h1

theorem inv_empty (d : Node) : (World.empty d).Inv := by
  refine ⟨⟨?_, ?_, ?_, ?_, ?_⟩, ?_, ?_⟩ <;> simp [World.empty, biases]

theorem Runs.inv {w w' : World} {ops : List Op} (h : Runs w ops w') (hw : w.Inv) : w'.Inv := by
  induction h with
  | nil w => exact hw
  | cons hl hs _ ih => exact ih (hw.step _ hl hs)

/-- Hooks are never removed. -/
theorem hooks_step {w w' : World} (hw : w.Inv) (op : Op) (hl : w.Legal op) (h : w.step op = some w') (i : ℕ) (l : Link)
    (hm : l ∈ w.hooks i) : l ∈ w'.hooks i := by
  have hi : i < w.next := (hw.bound i l hm).1
  cases op with
  | alloc n =>
    simp only [World.step, Option.some.injEq] at h; subst h
    have : ¬ i = w.next := by omega
    simpa [World.alloc, this] using hm
  | dense i' k q b =>
    simp only [World.step, Option.some.injEq] at h; subst h
    simp only [World.dense, addHook, World.alloc]
    have h1 : ¬ i = w.next := by omega
    have h2 : ¬ i = w.next + 1 := by omega
    by_cases h3 : i = i'
    · subst h3; simp [h1, h2, hm]
    · simp [h1, h2, h3, hm]
  | update id s z rq =>
    have key : ∀ (fuel : ℕ) (w w' : World) id s z rq, World.update fuel w id s z rq = some w' → w'.hooks = w.hooks := by
      intro fuel
      induction fuel with
      | zero => intro w w' id s z rq h; simp [World.update] at h
      | succ fuel ih =>
        intro w w' id s z rq h
        unfold World.update at h
        simp only at h
        have fold : ∀ (ls : List Link) (a b : World), ls.foldlM (fun w l => World.update fuel w l.bias
            ((w.nodes l.kernel).scale * (w.nodes l.input).scale) (w.nodes l.bias).zp true) a = some b →
            b.hooks = a.hooks := by
          intro ls
          induction ls with
          | nil => intro a b h; simp only [List.foldlM_nil, Option.pure_def, Option.some.injEq] at h; rw [h]
          | cons l ls ihl =>
            intro a b h
            simp only [List.foldlM_cons, Option.bind_eq_bind, Option.bind_eq_some_iff] at h
            obtain ⟨c, h1, h2⟩ := h
            rw [ihl c b h2, ih _ _ _ _ _ _ h1]
        exact (fold _ _ _ h).trans rfl
    rw [key _ _ _ _ _ _ _ h]; exact hm
  | setPolicy id p =>
    simp only [World.step, Option.map_eq_some_iff] at h
    obtain ⟨n', h1, rfl⟩ := h
    exact hm

theorem Runs.hooks {w w' : World} {ops : List Op} (h : Runs w ops w') (hw : w.Inv) (i : ℕ) (l : Link)
    (hm : l ∈ w.hooks i) : l ∈ w'.hooks i := by
  induction h with
  | nil w => exact hm
  | cons hl hs _ ih => exact ih (hw.step _ hl hs) (hooks_step hw _ hl hs i l hm)

/-- Dtype and float tensor of a node. -/
def sig (n : Node) : GDtype × Option FArr := (n.quant, n.tensor.map TensorPart.fp)

theorem sig_update (n : Node) (s : ℚ) (z : ℤ) (rq : Bool) : sig (n.update s z rq) = sig n := by
  cases rq
  · rfl
  · simp only [sig, Node.update, if_true, Node.requantize, Option.map_map]; rfl

theorem sig_world_update (fuel : ℕ) : ∀ (w w' : World) id s z rq, World.update fuel w id s z rq = some w' →
    ∀ j, sig (w'.nodes j) = sig (w.nodes j) := by
  induction fuel with
  | zero => intro w w' id s z rq h; simp [World.update] at h
  | succ fuel ih =>
    intro w w' id s z rq h j
    unfold World.update at h
    simp only at h
    have fold : ∀ (ls : List Link) (a b : World), ls.foldlM (fun w l => World.update fuel w l.bias
        ((w.nodes l.kernel).scale * (w.nodes l.input).scale) (w.nodes l.bias).zp true) a = some b →
        sig (b.nodes j) = sig (a.nodes j) := by
      intro ls
      induction ls with
      | nil => intro a b h; simp only [List.foldlM_nil, Option.pure_def, Option.some.injEq] at h; rw [h]
      | cons l ls ihl =>
        intro a b h
        simp only [List.foldlM_cons, Option.bind_eq_bind, Option.bind_eq_some_iff] at h
        obtain ⟨c, h1, h2⟩ := h
        rw [ihl c b h2, ih _ _ _ _ _ _ h1]
    rw [fold _ _ _ h]
    simp only [setNode]
    split_ifs with e
    · rw [e]; exact sig_update _ _ _ _
    · rfl

theorem sig_step {w w' : World} (op : Op) (h : w.step op = some w') :
    w.next ≤ w'.next ∧ ∀ j < w.next, sig (w'.nodes j) = sig (w.nodes j) := by
  cases op with
  | alloc n =>
    simp only [World.step, Option.some.injEq] at h; subst h
    refine ⟨Nat.le_succ _, fun j hj => ?_⟩
    have : ¬ j = w.next := by omega
    simp [World.alloc, this]
  | dense i k q b =>
    simp only [World.step, Option.some.injEq] at h; subst h
    refine ⟨by show w.next ≤ w.next + 1 + 1; omega, fun j hj => ?_⟩
    have h1 : ¬ j = w.next := by omega
    have h2 : ¬ j = w.next + 1 := by omega
    simp [World.dense, addHook, World.alloc, h1, h2]
  | update id s z rq =>
    refine ⟨?_, fun j _ => sig_world_update _ _ _ _ _ _ _ h j⟩
    have key : ∀ (fuel : ℕ) (w w' : World) id s z rq, World.update fuel w id s z rq = some w' → w'.next = w.next := by
      intro fuel
      induction fuel with
      | zero => intro w w' id s z rq h; simp [World.update] at h
      | succ fuel ih =>
        intro w w' id s z rq h
        unfold World.update at h
        simp only at h
        have fold : ∀ (ls : List Link) (a b : World), ls.foldlM (fun w l => World.update fuel w l.bias
            ((w.nodes l.kernel).scale * (w.nodes l.input).scale) (w.nodes l.bias).zp true) a = some b →
            b.next = a.next := by
          intro ls
          induction ls with
          | nil => intro a b h; simp only [List.foldlM_nil, Option.pure_def, Option.some.injEq] at h; rw [h]
          | cons l ls ihl =>
            intro a b h
            simp only [List.foldlM_cons, Option.bind_eq_bind, Option.bind_eq_some_iff] at h
            obtain ⟨c, h1, h2⟩ := h
            rw [ihl c b h2, ih _ _ _ _ _ _ h1]
        exact (fold _ _ _ h).trans rfl
    exact (key _ _ _ _ _ _ _ h).symm.le
  | setPolicy id p =>
    simp only [World.step, Option.map_eq_some_iff] at h
    obtain ⟨n', h1, rfl⟩ := h
    refine ⟨le_refl _, fun j _ => ?_⟩
    simp only [setNode]
    split_ifs with e
    · rw [e]
      unfold Node.setPolicy at h1
      split at h1
      · simp at h1
      · rename_i t ht
        split_ifs at h1
        simp only [Option.some.injEq] at h1
        subst h1
        simp [sig, ht]
    · rfl

theorem Runs.sig {w w' : World} {ops : List Op} (h : Runs w ops w') (j : ℕ) (hj : j < w.next) :
    World.sig (w'.nodes j) = World.sig (w.nodes j) := by
  induction h with
  | nil w => rfl
  | cons hl hs _ ih =>
    obtain ⟨h1, h2⟩ := sig_step _ hs
    rw [ih (by omega), h2 j hj]

end World

/-- C33.  Build nodes and Dense layers in any order, then add a Dense layer on node `i` and continue with any further
history of layers, parameter updates (requantizing or not) of any non-bias node, and policy assignments.  The layer's
bias node (object `w.next + 1`) always has scale = input scale × kernel scale, zero point 0, and its stored integers
are the quantization of the float bias under these parameters (with its current rounding policy). -/
theorem C33_bias_scale (d : Node) (ops1 ops2 : List World.Op) (w w' : World) (i : ℕ) (kernel : Node) (qb : GDtype)
    (bias : FArr) (h1 : World.Runs (World.empty d) ops1 w)
    (h2 : World.Runs w (.dense i kernel qb bias :: ops2) w') :
    (w'.nodes (w.next + 1)).scale = (w'.nodes i).scale * (w'.nodes w.next).scale ∧
      (w'.nodes (w.next + 1)).zp = 0 ∧
      ∃ t, (w'.nodes (w.next + 1)).tensor = some t ∧
        t.quantized = Quantization.quantizeArray qb bias.data 0
          ((w'.nodes i).scale * (w'.nodes w.next).scale) (some t.policy.data) := by
  have hinv := h1.inv (World.inv_empty d)
  have hinv' := h2.inv hinv
  cases h2 with
  | cons hl hs hr =>
    simp only [World.step, Option.some.injEq] at hs
    subst hs
    obtain ⟨k1, k2⟩ := hinv.dense i hl.1 hl.2 kernel qb bias
    have hm := hr.hooks k1 _ _ k2
    have hrel := hinv'.rel _ _ hm
    obtain ⟨o1, ⟨t, o2⟩, o3⟩ := hinv'.ok _ _ hm
    unfold World.Rel at hrel
    simp only at hrel o1 o2 o3
    have hrel' : (w'.nodes (w.next + 1)).scale = (w'.nodes i).scale * (w'.nodes w.next).scale := by
      rw [hrel]; ring
    refine ⟨hrel', o1, t, o2, ?_⟩
    have := o3 t o2
    rw [o1, hrel'] at this
    have hsig := hr.sig (w.next + 1) (by show w.next + 1 < w.next + 1 + 1; omega)
    have h0 : World.sig ((w.dense i kernel qb bias).nodes (w.next + 1)) = (qb, some bias) := by
      simp [World.dense, World.addHook, World.alloc, World.sig, Node.withTensor, Node.base]
    rw [h0] at hsig
    simp only [World.sig, o2, Option.map_some, Prod.mk.injEq, Option.some.injEq] at hsig
    rw [hsig.1, hsig.2] at this
    exact this

/-- C33: such an update never raises (the hook chain never exceeds the recursion limit), sets the parameters it was
asked to set, and changes no other node except biases. -/
theorem C33_update_total (d : Node) (ops : List World.Op) (w : World) (h : World.Runs (World.empty d) ops w) (id : ℕ)
    (hid : id ∉ w.biases) (s : ℚ) (zp : ℤ) (rq : Bool) :
    ∃ w', w.step (.update id s zp rq) = some w' ∧ (w'.nodes id).scale = s ∧ (w'.nodes id).zp = zp ∧
      ∀ j, j ∉ w.biases → j ≠ id → w'.nodes j = w.nodes j := by
  obtain ⟨w', h1, -, -, -, h2, h3, h4⟩ := (h.inv (World.inv_empty d)).update 998 id hid s zp rq
  exact ⟨w', h1, h2, h3, h4⟩

/-- C33, why only non-bias nodes: updating the bias node itself breaks the relation. -/
theorem C33_direct_bias_update : ∃ w w' : World,
    w = ((World.empty (Node.base 1 0 (intDtype 7))).alloc (Node.base (1 / 2) 0 (intDtype 7))).dense 0
      ((Node.base (1 / 4) 0 (intDtype 7)).withTensor ⟨[1, 1], [1]⟩) (intDtype 31) ⟨[1], [1]⟩ ∧
    w.step (.update 2 1 0 true) = some w' ∧
    (w'.nodes 2).scale ≠ (w'.nodes 0).scale * (w'.nodes 1).scale := by
  refine ⟨_, _, rfl, rfl, ?_⟩
  decide +kernel

/-- A concrete legal history: an input node, a Dense layer, an input update without requantization and a kernel update.
The bias is requantized each time: 1 at scale 1/8 is 8, at scale 1/16 it is 16, at scale 1/32 it is 32. -/
example : ∃ w w' : World, World.Runs (World.empty (Node.base 1 0 (intDtype 7)))
      [.alloc (Node.base (1 / 2) 0 (intDtype 7))] w ∧
    World.Runs w [.dense 0 ((Node.base (1 / 4) 0 (intDtype 7)).withTensor ⟨[1, 1], [1]⟩) (intDtype 31) ⟨[1], [1]⟩,
      .update 0 (1 / 4) 0 false, .update 1 (1 / 8) 0 true] w' ∧
    ((w'.nodes 2).tensor.map TensorPart.quantized) = some [32] := by
  have hdense : ∀ i, ∀ l ∈ (((World.empty (Node.base 1 0 (intDtype 7))).alloc (Node.base (1 / 2) 0 (intDtype 7))).dense 0
      ((Node.base (1 / 4) 0 (intDtype 7)).withTensor ⟨[1, 1], [1]⟩) (intDtype 31) ⟨[1], [1]⟩).hooks i,
      ∀ {b}, l.bias = b → b ≠ 2 → False := by
    intro i l hl b hb hne
    have : l = ⟨1, 0, 2⟩ := by
      simp only [World.dense, World.addHook, World.alloc, World.empty] at hl
      split_ifs at hl <;> simp_all [List.not_mem_nil]
    rw [this] at hb
    exact hne hb.symm
  refine ⟨_, _, .cons trivial rfl (.nil _), .cons ⟨by decide, ?_⟩ rfl (.cons ⟨by decide, ?_⟩ rfl
    (.cons ⟨by decide, ?_⟩ rfl (.nil _))), by decide +kernel⟩
  · rintro ⟨i, l, hl, -⟩
    have h0 : ∀ i, ((World.empty (Node.base 1 0 (intDtype 7))).alloc (Node.base (1 / 2) 0 (intDtype 7))).hooks i = [] := by
      intro i
      unfold World.alloc
      simp only
      split_ifs <;> rfl
    rw [h0] at hl
    exact absurd hl (by simp)
  · rintro ⟨i, l, hl, hb⟩
    exact hdense i l hl hb (by decide)
  · rintro ⟨i, l, hl, hb⟩
    exact hdense i l hl hb (by decide)

end Verif
