import Verif.Lemmas.KernelExport
import Verif.Props.Loads
import Verif.Props.LSTM
import Verif.Props.Floating

/-! # The nodes a quantized LSTM exports -/

namespace Verif
open Spec Keras

theorem World.allocAll_get (ns : List Node) (w : World) (i : ℕ) (n : Node) (h : ns[i]? = some n) :
    (KLSTM.allocAll w ns).nodes (w.next + i) = n := by
  induction ns generalizing w i with
  | nil => simp at h
  | cons m ns ih =>
    cases i with
    | zero =>
      simp only [List.getElem?_cons_zero, Option.some.injEq] at h
      show (KLSTM.allocAll (w.alloc m) ns).nodes (w.next + 0) = n
      rw [(allocAll_nodes ns (w.alloc m)).2 (w.next + 0) (by simp), World.alloc_nodes, if_pos (by omega), h]
    | succ i =>
      simp only [List.getElem?_cons_succ] at h
      show (KLSTM.allocAll (w.alloc m) ns).nodes (w.next + (i + 1)) = n
      have := ih (w.alloc m) i h
      rw [World.alloc_next] at this
      rw [← this]; congr 1; omega

namespace Keras

theorem gateAct_spec {w w' : World} {src : ℕ} {fn : ℚ → ℚ} {nm : String} {data : Arr ℚ} {q : GDtype} {rs : List Ref}
    (h : KLSTM.gateAct w src fn nm data q = some (w', rs)) (h1 : upper nm ∈ lutFunctions)
    (h2 : upper nm ∉ skipFunctions) :
    ∃ s : ℚ, ∃ z : ℤ, (Dist.build (data.map fn).flat).quantize q = some (s, z) ∧
      rs = [⟨w.next, true⟩, ⟨w.next + 1, true⟩] ∧ w'.next = w.next + 2 ∧
      w'.nodes w.next = (w.nodes src).withLut fn s z ∧
      w'.nodes (w.next + 1) = (Node.base s z q).withTensor (data.map fn).toFArr ∧
      ∀ j < w.next, w'.nodes j = w.nodes j := by
  have hframe := (gateAct_frame h).2
  unfold KLSTM.gateAct quantizeActivation at h
  simp only [h1, if_neg h2, decide_true, if_true, Option.bind_eq_bind, Option.bind_eq_some_iff] at h
  obtain ⟨r, ⟨p, hp, hr⟩, h⟩ := h
  rw [Option.some.injEq] at hr
  subst hr
  simp only [Option.some.injEq, Prod.mk.injEq] at h
  obtain ⟨rfl, rfl⟩ := h
  refine ⟨p.1, p.2, hp, ?_, ?_, ?_, ?_, hframe⟩
  · simp [World.setNode, World.alloc_next]
  · simp [World.setNode, World.alloc_next]
  · rw [World.alloc_nodes, if_neg (by simp [World.setNode, World.alloc_next]), World.setNode_nodes, if_pos rfl,
      World.alloc_nodes, if_pos rfl]
  · rw [World.alloc_nodes, if_pos (by simp [World.setNode, World.alloc_next])]

theorem range4_mapM {α : Type} {f : ℕ → Option α} {ys : List α} (h : (List.range 4).mapM f = some ys) :
    ∃ a b c d, ys = [a, b, c, d] ∧ f 0 = some a ∧ f 1 = some b ∧ f 2 = some c ∧ f 3 = some d := by
  rw [show List.range 4 = [0, 1, 2, 3] from rfl] at h
  simp only [List.mapM_cons, List.mapM_nil, Option.bind_eq_bind, Option.pure_def, Option.bind_eq_some_iff,
    Option.some.injEq] at h
  obtain ⟨a, ha, x, ⟨b, hb, y, ⟨c, hc, z, ⟨d, hd, u, hu, rfl⟩, rfl⟩, rfl⟩, rfl⟩ := h
  subst hu
  exact ⟨a, b, c, d, rfl, ha, hb, hc, hd⟩

theorem calNode_spec {a : Arr ℚ} {q : GDtype} {sym : Bool} {n : Node} (h : KLSTM.calNode a q sym = some n) :
    ∃ s : ℚ, ∃ z : ℤ, KLSTM.scaleZp a.flat q sym = some (s, z) ∧ n = (Node.base s z q).withTensor a.toFArr := by
  unfold KLSTM.calNode at h
  simp only [Option.bind_eq_bind, Option.bind_eq_some_iff, Option.some.injEq] at h
  obtain ⟨p, hp, rfl⟩ := h
  exact ⟨p.1, p.2, hp, rfl⟩

/-- A matrix node: calibrated parameters and the tensor. -/
def matNode (s : ℚ) (z : ℤ) (M : List (List ℚ)) : Node := (Node.base s z (intDtype 7)).withTensor (Arr.mat M).toFArr

theorem mat_json (s : ℚ) (z : ℤ) (M : List (List ℚ)) (n : ℕ) (hM : M ≠ []) (h : ∀ r ∈ M, r.length = n) :
    nodeJson (matNode s z M) false =
      { scale := some s, zeroPoint := some z
        tensor := some
          { data := some (.mat (M.map (fun r => r.map (fun x => Quantization.quantize (intDtype 7) x z s))))
            shape := [M.length, n], dtype := (intDtype 7).repr }
        lut := none } := by
  have hn : (M.getD 0 []).length = n := by
    obtain ⟨r, M', rfl⟩ := List.exists_cons_of_ne_nil hM
    exact h r (by simp)
  have := Arr.chunks_flatten (fun x => Quantization.quantize (intDtype 7) x z s) n M h
  unfold nodeJson matNode
  simp only [Node.withTensor, Node.base, Option.map_some, Option.map_none, Bool.false_eq_true, if_false,
    quantizeArray_eq, Arr.toFArr, Arr.shape, hn]
  unfold Arr.ofShape
  simp only
  rw [show (Arr.mat M).flat = M.flatten from rfl, this]

/-- What the output nodes of the five activations are calibrated on. -/
def actData (ext : Ext) (l : KLSTM) (st : KLSTM.Steps) : ℕ → Arr ℚ
  | 0 => (Arr.cube ((st.map (fun s => s.1)).take l.units)).map ext.sigmoid
  | 1 => (l.gateCols st 1).map ext.sigmoid
  | 2 => (l.gateCols st 2).map ext.tanh
  | 3 => (Arr.cube (st.map (fun s => s.1.map (fun r => r.drop (3 * l.units))))).map ext.sigmoid
  | _ => (Arr.cube (KLSTM.cells st)).map ext.tanh

/-- The facts about a quantized LSTM layer: calibrated parameters and where each node is. -/
structure LstmFacts (ext : Ext) (l : KLSTM) (v : World) (k0 : ℕ) (inS : ℚ) (sK sU sA : ℕ → ℚ) (zK zU zA : ℕ → ℤ)
    (st : KLSTM.Steps) (sH sC : ℚ) (zH zC : ℤ) (sT : ℕ → ℚ) (zT : ℕ → ℤ) : Prop where
  calK : ∀ i < 4, KLSTM.scaleZp (Arr.mat (KLSTM.cols l.units i l.kernel)).flat (intDtype 7) = some (sK i, zK i)
  calU : ∀ i < 4, KLSTM.scaleZp (Arr.mat (KLSTM.cols l.units i l.recurrent)).flat (intDtype 7) = some (sU i, zU i)
  calA : ∀ i < 4, KLSTM.scaleZp (l.gateCols st i).flat (intDtype 7) = some (sA i, zA i)
  calH : KLSTM.scaleZp (Arr.cube (KLSTM.hiddens st)).flat (intDtype 7) = some (sH, zH)
  calC : KLSTM.scaleZp (Arr.cube (KLSTM.cells st)).flat (intDtype 7) true = some (sC, zC)
  calT : ∀ i < 5, (Dist.build (actData ext l st i).flat).quantize (intDtype 7) = some (sT i, zT i)
  nodeK : ∀ i < 4, v.nodes (k0 + i) = matNode (sK i) (zK i) (KLSTM.cols l.units i l.kernel)
  nodeU : ∀ i < 4, v.nodes (k0 + 4 + i) = matNode (sU i) (zU i) (KLSTM.cols l.units i l.recurrent)
  nodeB : ∀ i < 4, v.nodes (k0 + 8 + i) = (Node.base (inS * sK i) 0 (intDtype 31)).withTensor
    (Arr.vec ((l.bias.drop (i * l.units)).take l.units)).toFArr
  nodeH : v.nodes (k0 + 12) = (Node.base sH zH (intDtype 7)).withTensor (Arr.cube (KLSTM.hiddens st)).toFArr
  nodeBA : ∀ i < 4, v.nodes (k0 + 13 + i) = (Node.base (sU i * sH) 0 (intDtype 31)).withTensor (l.gateCols st i).toFArr
  nodeA : ∀ i < 4, v.nodes (k0 + 17 + i) = (Node.base (sA i) (zA i) (intDtype 7)).withTensor (l.gateCols st i).toFArr
  nodeC : v.nodes (k0 + 21) = (Node.base sC zC (intDtype 7)).withTensor (Arr.cube (KLSTM.cells st)).toFArr
  nodeI : v.nodes (k0 + 22) = (v.nodes (k0 + 17)).withLut ext.sigmoid (sT 0) (zT 0)
  nodeF : v.nodes (k0 + 24) = (v.nodes (k0 + 18)).withLut ext.sigmoid (sT 1) (zT 1)
  nodeG : v.nodes (k0 + 26) = (v.nodes (k0 + 19)).withLut ext.tanh (sT 2) (zT 2)
  nodeO : v.nodes (k0 + 28) = (v.nodes (k0 + 20)).withLut ext.sigmoid (sT 3) (zT 3)
  nodeS : v.nodes (k0 + 30) = (v.nodes (k0 + 21)).withLut ext.tanh (sT 4) (zT 4)
  nodeT : ∀ i < 5, ∃ b, v.nodes (k0 + 23 + 2 * i) = (Node.base (sT i) (zT i) (intDtype 7)).withTensor b
  nodeTD : ∀ i < 5, v.nodes (k0 + 23 + 2 * i) = (Node.base (sT i) (zT i) (intDtype 7)).withTensor (actData ext l st i).toFArr

theorem nodes_spec {l : KLSTM} {inS : ℚ} {st : KLSTM.Steps} {ns : List Node} (h : l.nodes inS st = some ns) :
    ∃ (sK sU sA : ℕ → ℚ) (zK zU zA : ℕ → ℤ) (sH sC : ℚ) (zH zC : ℤ),
      ns.length = 22 ∧
      (∀ i < 4, KLSTM.scaleZp (Arr.mat (KLSTM.cols l.units i l.kernel)).flat (intDtype 7) = some (sK i, zK i)) ∧
      (∀ i < 4, KLSTM.scaleZp (Arr.mat (KLSTM.cols l.units i l.recurrent)).flat (intDtype 7) = some (sU i, zU i)) ∧
      (∀ i < 4, KLSTM.scaleZp (l.gateCols st i).flat (intDtype 7) = some (sA i, zA i)) ∧
      KLSTM.scaleZp (Arr.cube (KLSTM.hiddens st)).flat (intDtype 7) = some (sH, zH) ∧
      KLSTM.scaleZp (Arr.cube (KLSTM.cells st)).flat (intDtype 7) true = some (sC, zC) ∧
      (∀ i < 4, ns[i]? = some (matNode (sK i) (zK i) (KLSTM.cols l.units i l.kernel))) ∧
      (∀ i < 4, ns[4 + i]? = some (matNode (sU i) (zU i) (KLSTM.cols l.units i l.recurrent))) ∧
      (∀ i < 4, ns[8 + i]? = some ((Node.base (inS * sK i) 0 (intDtype 31)).withTensor
        (Arr.vec ((l.bias.drop (i * l.units)).take l.units)).toFArr)) ∧
      ns[12]? = some ((Node.base sH zH (intDtype 7)).withTensor (Arr.cube (KLSTM.hiddens st)).toFArr) ∧
      (∀ i < 4, ns[13 + i]? = some ((Node.base (sU i * sH) 0 (intDtype 31)).withTensor (l.gateCols st i).toFArr)) ∧
      (∀ i < 4, ns[17 + i]? = some ((Node.base (sA i) (zA i) (intDtype 7)).withTensor (l.gateCols st i).toFArr)) ∧
      ns[21]? = some ((Node.base sC zC (intDtype 7)).withTensor (Arr.cube (KLSTM.cells st)).toFArr) := by
  unfold KLSTM.nodes at h
  simp only [Option.bind_eq_bind, Option.bind_eq_some_iff, Option.some.injEq] at h
  obtain ⟨ks, hks, us, hus, hid, hhid, ras, hras, cell, hcell, rfl⟩ := h
  obtain ⟨k0, k1, k2, k3, rfl, e0, e1, e2, e3⟩ := range4_mapM hks
  obtain ⟨u0, u1, u2, u3, rfl, f0, f1, f2, f3⟩ := range4_mapM hus
  obtain ⟨a0, a1, a2, a3, rfl, g0, g1, g2, g3⟩ := range4_mapM hras
  obtain ⟨sk0, zk0, ck0, rfl⟩ := calNode_spec e0
  obtain ⟨sk1, zk1, ck1, rfl⟩ := calNode_spec e1
  obtain ⟨sk2, zk2, ck2, rfl⟩ := calNode_spec e2
  obtain ⟨sk3, zk3, ck3, rfl⟩ := calNode_spec e3
  obtain ⟨su0, zu0, cu0, rfl⟩ := calNode_spec f0
  obtain ⟨su1, zu1, cu1, rfl⟩ := calNode_spec f1
  obtain ⟨su2, zu2, cu2, rfl⟩ := calNode_spec f2
  obtain ⟨su3, zu3, cu3, rfl⟩ := calNode_spec f3
  obtain ⟨sa0, za0, ca0, rfl⟩ := calNode_spec g0
  obtain ⟨sa1, za1, ca1, rfl⟩ := calNode_spec g1
  obtain ⟨sa2, za2, ca2, rfl⟩ := calNode_spec g2
  obtain ⟨sa3, za3, ca3, rfl⟩ := calNode_spec g3
  obtain ⟨sh, zh, ch, rfl⟩ := calNode_spec hhid
  obtain ⟨sc, zc, cc, rfl⟩ := calNode_spec hcell
  have four : ∀ {P : ℕ → Prop}, P 0 → P 1 → P 2 → P 3 → ∀ i < 4, P i := by
    intro P p0 p1 p2 p3 i hi
    match i, hi with
    | 0, _ => exact p0
    | 1, _ => exact p1
    | 2, _ => exact p2
    | 3, _ => exact p3
  refine ⟨fun i => [sk0, sk1, sk2, sk3].getD i 0, fun i => [su0, su1, su2, su3].getD i 0,
    fun i => [sa0, sa1, sa2, sa3].getD i 0, fun i => [zk0, zk1, zk2, zk3].getD i 0,
    fun i => [zu0, zu1, zu2, zu3].getD i 0, fun i => [za0, za1, za2, za3].getD i 0, sh, sc, zh, zc, ?_⟩
  refine ⟨rfl, four ck0 ck1 ck2 ck3, four cu0 cu1 cu2 cu3, four ca0 ca1 ca2 ca3, ch, cc, four rfl rfl rfl rfl,
    four rfl rfl rfl rfl, four rfl rfl rfl rfl, rfl, four rfl rfl rfl rfl, four rfl rfl rfl rfl, rfl⟩

theorem sigmoid_lut : upper "sigmoid" ∈ lutFunctions ∧ upper "sigmoid" ∉ skipFunctions := by decide +kernel

theorem tanh_lut : upper "tanh" ∈ lutFunctions ∧ upper "tanh" ∉ skipFunctions := by decide +kernel

/-- Everything a successful LSTM quantization leaves behind, in any later world that keeps its nodes. -/
theorem lstm_facts {ext : Ext} {w w' v : World} {l : KLSTM} {prev r : QRes} (h : l.quantize ext w prev = some (w', r))
    (hv : ∀ j < w'.next, v.nodes j = w'.nodes j) :
    ∃ (input : Ref) (X : List (List (List ℚ))) (sK sU sA : ℕ → ℚ) (zK zU zA : ℕ → ℤ) (st : KLSTM.Steps)
      (sH sC : ℚ) (zH zC : ℤ) (sT : ℕ → ℚ) (zT : ℕ → ℤ),
      prev.out = some input ∧ prev.data = .cube X ∧ l.call ext X = some st ∧
      LstmFacts ext l v w.next (w.nodes input.id).scale sK sU sA zK zU zA st sH sC zH zC sT zT ∧
      r.ops = [l.op input w.next (KLSTM.refs (w.next + 22) 10 true)] ∧ w'.next = w.next + 32 ∧
      (∀ j < w.next, w'.nodes j = w.nodes j) := by
  unfold KLSTM.quantize at h
  simp only [Option.bind_eq_bind, Option.bind_eq_some_iff, Option.some.injEq, Prod.mk.injEq] at h
  obtain ⟨input, hi, X, hX, st, hst, ns, hns, a, ha, res, hres, hw, hr⟩ := h
  obtain ⟨sK, sU, sA, zK, zU, zA, sH, sC, zH, zC, hlen, cK, cU, cA, cH, cC, nK, nU, nB, nH, nBA, nA, nC⟩ :=
    nodes_spec hns
  obtain ⟨f1, f2⟩ := allocAll_nodes ns w
  have fget := fun i n (h : ns[i]? = some n) => World.allocAll_get ns w i n h
  unfold KLSTM.acts at ha
  simp only [Option.bind_eq_bind, Option.bind_eq_some_iff, Option.some.injEq] at ha
  obtain ⟨⟨v0, s0⟩, h0, ⟨v1, s1⟩, h1, ⟨v2, s2⟩, h2, ⟨v3, s3⟩, h3, ⟨v4, s4⟩, h4, rfl⟩ := ha
  obtain ⟨t0, z0, d0, rfl, n0, p0, q0, k0⟩ := gateAct_spec h0 sigmoid_lut.1 sigmoid_lut.2
  obtain ⟨t1, z1, d1, rfl, n1, p1, q1, k1⟩ := gateAct_spec h1 sigmoid_lut.1 sigmoid_lut.2
  obtain ⟨t2, z2, d2, rfl, n2, p2, q2, k2⟩ := gateAct_spec h2 tanh_lut.1 tanh_lut.2
  obtain ⟨t3, z3, d3, rfl, n3, p3, q3, k3⟩ := gateAct_spec h3 sigmoid_lut.1 sigmoid_lut.2
  obtain ⟨t4, z4, d4, rfl, n4, p4, q4, k4⟩ := gateAct_spec h4 tanh_lut.1 tanh_lut.2
  simp only at *
  subst hw
  generalize hA : KLSTM.allocAll w ns = A at *
  have hA' : A.next = w.next + 22 := by rw [f1, hlen]
  rw [hA'] at n0 p0 q0 k0
  rw [n0] at n1 p1 q1 k1
  rw [n1] at n2 p2 q2 k2
  rw [n2] at n3 p3 q3 k3
  rw [n3] at n4 p4 q4 k4
  have base : ∀ j < w.next + 22, v.nodes j = A.nodes j := by
    intro j hj
    rw [hv j (by omega), k4 j (by omega), k3 j (by omega), k2 j (by omega), k1 j (by omega), k0 j (by omega)]
  have hXd : prev.data = .cube X := by
    unfold KLSTM.samples3 at hX
    split at hX
    · rename_i Y hY; rw [hY]; rw [Option.some.injEq] at hX; rw [hX]
    · cases hX
  have four : ∀ {P : ℕ → Prop}, P 0 → P 1 → P 2 → P 3 → P 4 → ∀ i < 5, P i := by
    intro P p0 p1 p2 p3 p4 i hi
    match i, hi with
    | 0, _ => exact p0
    | 1, _ => exact p1
    | 2, _ => exact p2
    | 3, _ => exact p3
    | 4, _ => exact p4
  refine ⟨input, X, sK, sU, sA, zK, zU, zA, st, sH, sC, zH, zC, fun i => [t0, t1, t2, t3, t4].getD i 0,
    fun i => [z0, z1, z2, z3, z4].getD i 0, hi, hXd, hst, ?_, ?_, by omega, ?_⟩
  · constructor
    · exact cK
    · exact cU
    · exact cA
    · exact cH
    · exact cC
    · exact four d0 d1 d2 d3 d4
    · intro i hi; rw [base _ (by omega)]; exact fget i _ (nK i hi)
    · intro i hi; rw [base _ (by omega), Nat.add_assoc]; exact fget (4 + i) _ (nU i hi)
    · intro i hi; rw [base _ (by omega), Nat.add_assoc]; exact fget (8 + i) _ (nB i hi)
    · rw [base _ (by omega)]; exact fget 12 _ nH
    · intro i hi; rw [base _ (by omega), Nat.add_assoc]; exact fget (13 + i) _ (nBA i hi)
    · intro i hi; rw [base _ (by omega), Nat.add_assoc]; exact fget (17 + i) _ (nA i hi)
    · rw [base _ (by omega)]; exact fget 21 _ nC
    · rw [hv _ (by omega), k4 _ (by omega), k3 _ (by omega), k2 _ (by omega), k1 _ (by omega), p0, base _ (by omega)]
      rfl
    · rw [hv _ (by omega), k4 _ (by omega), k3 _ (by omega), k2 _ (by omega), p1, base _ (by omega),
        k0 _ (by omega)]
      rfl
    · rw [hv _ (by omega), k4 _ (by omega), k3 _ (by omega), p2, base _ (by omega), k1 _ (by omega), k0 _ (by omega)]
      rfl
    · rw [hv _ (by omega), k4 _ (by omega), p3, base _ (by omega), k2 _ (by omega), k1 _ (by omega), k0 _ (by omega)]
      rfl
    · rw [hv _ (by omega), p4, base _ (by omega), k3 _ (by omega), k2 _ (by omega), k1 _ (by omega), k0 _ (by omega)]
      rfl
    · have e0 := (hv _ (by omega)).trans ((k4 _ (by omega)).trans ((k3 _ (by omega)).trans
        ((k2 _ (by omega)).trans ((k1 _ (by omega)).trans q0))))
      have e1 := (hv _ (by omega)).trans ((k4 _ (by omega)).trans ((k3 _ (by omega)).trans
        ((k2 _ (by omega)).trans q1)))
      have e2 := (hv _ (by omega)).trans ((k4 _ (by omega)).trans ((k3 _ (by omega)).trans q2))
      have e3 := (hv _ (by omega)).trans ((k4 _ (by omega)).trans q3)
      have e4 := (hv _ (by omega)).trans q4
      exact four ⟨_, e0⟩ ⟨_, e1⟩ ⟨_, e2⟩ ⟨_, e3⟩ ⟨_, e4⟩
    · have e0 := (hv _ (by omega)).trans ((k4 _ (by omega)).trans ((k3 _ (by omega)).trans
        ((k2 _ (by omega)).trans ((k1 _ (by omega)).trans q0))))
      have e1 := (hv _ (by omega)).trans ((k4 _ (by omega)).trans ((k3 _ (by omega)).trans
        ((k2 _ (by omega)).trans q1)))
      have e2 := (hv _ (by omega)).trans ((k4 _ (by omega)).trans ((k3 _ (by omega)).trans q2))
      have e3 := (hv _ (by omega)).trans ((k4 _ (by omega)).trans q3)
      have e4 := (hv _ (by omega)).trans q4
      exact four e0 e1 e2 e3 e4
  · rw [← hr]
    simp only [hA', n0, n1, n2, n3]
    rfl
  · intro j hj
    rw [k4 j (by omega), k3 j (by omega), k2 j (by omega), k1 j (by omega), k0 j (by omega)]
    exact f2 j hj

end Keras
end Verif
