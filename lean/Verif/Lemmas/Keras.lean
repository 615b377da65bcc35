import Verif.Model.Keras
import Verif.Props.Dispatch

/-! # Lemmas about the Keras pipeline -/

namespace Verif

namespace World

@[simp] theorem alloc_next (w : World) (n : Node) : (w.alloc n).next = w.next + 1 := rfl
@[simp] theorem setNode_next (w : World) (i : ℕ) (n : Node) : (w.setNode i n).next = w.next := rfl
@[simp] theorem addHook_next (w : World) (i : ℕ) (l : Link) : (w.addHook i l).next = w.next := rfl
@[simp] theorem addHook_nodes (w : World) (i : ℕ) (l : Link) : (w.addHook i l).nodes = w.nodes := rfl
theorem alloc_nodes (w : World) (n : Node) (i : ℕ) : (w.alloc n).nodes i = if i = w.next then n else w.nodes i := rfl
theorem setNode_nodes (w : World) (j : ℕ) (n : Node) (i : ℕ) :
    (w.setNode j n).nodes i = if i = j then n else w.nodes i := rfl

@[simp] theorem dense_next (w : World) (i : ℕ) (k : Node) (q : GDtype) (b : FArr) :
    (w.dense i k q b).next = w.next + 2 := rfl

theorem dense_nodes (w : World) (i : ℕ) (k : Node) (q : GDtype) (b : FArr) (hi : i < w.next) (j : ℕ) :
    (w.dense i k q b).nodes j =
      if j = w.next + 1 then (Node.base ((w.nodes i).scale * k.scale) 0 q).withTensor b
      else if j = w.next then k else w.nodes j := by
  simp only [World.dense, addHook_nodes, alloc_nodes, alloc_next, if_neg (show i ≠ w.next by omega), if_pos]
  rfl

end World

namespace Keras

/-- The fully-connected operator that `Dense.quantize` creates. -/
def fcOp (w : World) (l : KDense) (input : Ref) : Op :=
  { opType := "FULLY_CONNECTED", name := "fully_connected " ++ l.name,
    inputs := [input, ⟨w.next, false⟩, ⟨w.next + 1, false⟩], outputs := [⟨w.next + 2, true⟩] }

/-- Whether the activation gets a table. -/
def KDense.isLut (l : KDense) : Bool := decide (upper l.actName ∈ lutFunctions)

/-- The operator name of the activation. -/
def KDense.actOpName (l : KDense) : String :=
  String.ofList (if l.isLut then upper l.actName ++ "LUT".toList else upper l.actName)

/-- The activation operator that `Dense.quantize` creates. -/
def actOp (w : World) (l : KDense) : Op :=
  { opType := l.actOpName, name := l.actOpName, inputs := [⟨w.next + 2, true⟩], outputs := [⟨w.next + 3, true⟩] }

/-- The world after the fully-connected operator. -/
def fcWorld (w : World) (l : KDense) (input : Ref) (kn : Node) (qb qba : GDtype) (p : ℚ × ℤ) (data : Arr ℚ) : World :=
  (w.dense input.id kn qb ⟨[l.biasV.length], l.biasV⟩).alloc ((Node.base p.1 p.2 qba).withTensor data.toFArr)

/-- What a successful `Dense.quantize` has done. -/
theorem KDense.quantize_spec {w w' : World} {c : DenseCfg} {l : KDense} {prev r : QRes}
    (h : l.quantize w c prev = some (w', r)) :
    ∃ qk qa qba qb input kn pre d p,
      quantization c.kernelDtype = some qk ∧ quantization c.activationDtype = some qa ∧
      quantization c.biasAddDtype = some qba ∧ quantization c.biasDtype = some qb ∧
      prev.out = some input ∧ l.kernelNode qk c.kernelSymmetric = some kn ∧ l.pre prev.data = some pre ∧
      l.trim (Dist.build pre.flat) = some d ∧ d.quantize qba = some p ∧ c.adaround = false ∧
      ((upper l.actName ∈ skipFunctions ∧ w' = fcWorld w l input kn qb qba p prev.data ∧
          r = { data := pre, out := some ⟨w.next + 2, true⟩, ops := [fcOp w l input] }) ∨
       (upper l.actName ∉ skipFunctions ∧ ∃ o, (Dist.build (pre.map l.act).flat).quantize qa = some o ∧
          w' = (if l.isLut then (fcWorld w l input kn qb qba p prev.data).setNode (w.next + 2)
                (((fcWorld w l input kn qb qba p prev.data).nodes (w.next + 2)).withLut l.act o.1 o.2)
              else fcWorld w l input kn qb qba p prev.data).alloc
                ((Node.base o.1 o.2 qa).withTensor (pre.map l.act).toFArr) ∧
          r = { data := pre.map l.act, out := some ⟨w.next + 3, true⟩, ops := [fcOp w l input, actOp w l] })) := by
  unfold KDense.quantize at h
  simp only [Option.bind_eq_bind, Option.bind_eq_some_iff] at h
  obtain ⟨qk, hk, qa, ha, qba, hba, qb, hb, input, hi, kn, hkn, pre, hpre, d, hd, p, hp, h⟩ := h
  cases had : c.adaround with
  | true => rw [had] at h; simp at h
  | false =>
    rw [had] at h
    simp only [Bool.false_eq_true, if_false, Option.bind_eq_some_iff] at h
    obtain ⟨a, hact, h⟩ := h
    refine ⟨qk, qa, qba, qb, input, kn, pre, d, p, hk, ha, hba, hb, hi, hkn, hpre, hd, hp, rfl, ?_⟩
    unfold quantizeActivation at hact
    by_cases hs : upper l.actName ∈ skipFunctions
    · left
      simp only [if_pos hs, Option.some.injEq] at hact
      subst hact
      simp only [Option.some.injEq, Prod.mk.injEq] at h
      exact ⟨hs, h.1.symm, h.2.symm⟩
    · right
      simp only [if_neg hs, Option.bind_eq_bind, Option.bind_eq_some_iff, Option.some.injEq] at hact
      obtain ⟨o, ho, hact⟩ := hact
      subst hact
      simp only [Option.some.injEq, Prod.mk.injEq] at h
      refine ⟨hs, o, ho, ?_, ?_⟩
      · rw [← h.1]
        rfl
      · rw [← h.2]
        have : ∀ b : Bool, ∀ w1 w2 : World, w1.next = w2.next → (if b then w1 else w2).next = w2.next := by
          intro b w1 w2 h; cases b <;> simp [h]
        simp only [QRes.mk.injEq, true_and, List.head?_cons, Option.some.injEq, Ref.mk.injEq, and_true, fcOp, actOp,
          List.cons.injEq, Op.mk.injEq]
        refine ⟨?_, ?_⟩
        · rw [this _ _ _ (by rfl)]; rfl
        · rw [this _ _ _ (by rfl)]
          exact ⟨rfl, rfl, rfl, rfl, by rfl⟩

end Keras
end Verif

namespace Verif.Keras

/-- What a successful LSTM quantization returns. -/
theorem KLSTM.quantize_ops {ext : Ext} {w w' : World} {l : KLSTM} {prev r : QRes}
    (h : l.quantize ext w prev = some (w', r)) :
    ∃ op input rest, prev.out = some input ∧ r.ops = [op] ∧ op.opType = "LSTM" ∧ op.inputs = input :: rest ∧
      r.out = some ⟨w.next + 12, true⟩ ∧ op.outputs = [⟨w.next + 12, true⟩] := by
  unfold KLSTM.quantize at h
  simp only [Option.bind_eq_bind, Option.bind_eq_some_iff, Option.some.injEq, Prod.mk.injEq] at h
  obtain ⟨input, hi, X, hX, st, hst, ns, hns, a, ha, res, hres, hw, hr⟩ := h
  subst hr
  exact ⟨_, input, _, hi, rfl, rfl, rfl, rfl, rfl⟩

end Verif.Keras
