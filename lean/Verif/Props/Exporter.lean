import Verif.Model.Exporter
import Verif.Props.Locality
import Verif.Props.LSTMExport

/-!
# Property C94: the exported file as a function of weights, configuration and calibration data
-/

namespace Verif
open Keras

namespace Keras

/-- Where the heap model is, as the exporter without objects sees it. -/
def tipOf (w : World) (r : Ref) (data : Arr ℚ) : Tip :=
  ⟨nodeJson (w.nodes r.id) r.exclude, (w.nodes r.id).scale, (w.nodes r.id).zp, data⟩

theorem stored_json (ext : Ext) (s : ℚ) (z : ℤ) (q : GDtype) (shape : List ℕ) (data : List ℚ) :
    nodeJson ((Node.base s z q).withTensor ⟨shape, data⟩) false = (Arith.exact ext).stored s z q shape data := by
  simp only [nodeJson, Node.withTensor, Node.base, Arith.stored, Arith.exact, Option.map_some, Option.map_none]
  rw [quantizeArray_eq]
  rfl

theorem declared_json (s : ℚ) (z : ℤ) (q : GDtype) (x : Arr ℚ) :
    nodeJson ((Node.base s z q).withTensor x.toFArr) true = declared s z q x.shape := by
  simp only [nodeJson, Node.withTensor, Node.base, declared, Option.map_some, Option.map_none, if_true, Arr.toFArr]

theorem kernelNode_exact (ext : Ext) (l : KDense) (q : GDtype) (sym : Bool) :
    l.kernelNode q sym = ((Arith.exact ext).kernel l q sym).map (fun k =>
      (Node.base k.1.1 k.1.2 q).withTensor ⟨[l.units, l.kernel.length], k.2⟩) := by
  unfold KDense.kernelNode Arith.kernel
  simp only [Option.bind_eq_bind]
  show ((Dist.build l.kernelT.flatten).quantize q (some 0) none sym).bind _ = Option.map _
    (((Dist.build l.kernelT.flatten).quantize q (some 0) none sym).bind _)
  cases (Dist.build l.kernelT.flatten).quantize q (some 0) none sym with
  | none => rfl
  | some k =>
  cases (Dist.build l.kernelT.flatten).getMin with
  | none => rfl
  | some lo =>
  cases (Dist.build l.kernelT.flatten).getMax with
  | none => rfl
  | some hi => rfl

/-- One dense layer: the operators the heap model creates are those the exporter without objects writes. -/
theorem dense_some (ext : Ext) {w w' : World} {c : DenseCfg} {l : KDense} {prev q : QRes} {r : Ref} (hr : prev.out = some r)
    (hid : r.id < w.next) (h : l.quantize w c prev = some (w', q)) :
    ∃ o, q.out = some o ∧
      (Arith.exact ext).dense c l (tipOf w r prev.data) = some (q.ops.map (opJson w'), tipOf w' o q.data) := by
  obtain ⟨qk, qa, qba, qb, input, kn, pre, d, p, h1, h2, h3, h4, hin, hkn, hpre, hd, hp, had, hq⟩ := l.quantize_spec h
  rw [hr, Option.some.injEq] at hin
  subst hin
  rw [kernelNode_exact ext, Option.map_eq_some_iff] at hkn
  obtain ⟨k, hk, hkn⟩ := hkn
  have hK : nodeJson kn false = (Arith.exact ext).stored k.1.1 k.1.2 qk [l.units, l.kernel.length] k.2 := by
    rw [← hkn, stored_json ext]
  have hKs : kn.scale = k.1.1 := by rw [← hkn]; rfl
  clear hkn
  have hfc := fcWorld_nodes w l r kn qb qba p prev.data hid
  have hfn := fcWorld_next w l r kn qb qba p prev.data
  have n0 : (fcWorld w l r kn qb qba p prev.data).nodes r.id = w.nodes r.id := by
    rw [hfc, if_neg (by omega), if_neg (by omega), if_neg (by omega)]
  have n1 : (fcWorld w l r kn qb qba p prev.data).nodes w.next = kn := by
    rw [hfc, if_neg (by omega), if_neg (by omega), if_pos rfl]
  have n2 : nodeJson ((fcWorld w l r kn qb qba p prev.data).nodes (w.next + 1)) false =
      (Arith.exact ext).stored ((w.nodes r.id).scale * k.1.1) 0 qb [l.biasV.length] l.biasV := by
    rw [hfc, if_neg (by omega), if_pos rfl, stored_json ext, hKs]
  have n3 : (fcWorld w l r kn qb qba p prev.data).nodes (w.next + 2) =
      (Node.base p.1 p.2 qba).withTensor prev.data.toFArr := by
    rw [hfc, if_pos rfl]
  have e : (Arith.exact ext).dense c l (tipOf w r prev.data) = (Arith.exact ext).activation l qa qba pre
    (fcJson l.name (tipOf w r prev.data).node ((Arith.exact ext).stored k.1.1 k.1.2 qk [l.units, l.kernel.length] k.2)
      ((Arith.exact ext).stored ((w.nodes r.id).scale * k.1.1) 0 qb [l.biasV.length] l.biasV))
    (declared p.1 p.2 qba prev.data.shape) p := by
    unfold Arith.dense
    rw [h1, h2, h3, h4]
    simp only [Option.bind_eq_bind, Option.bind_some]
    rw [hk]
    simp only [Option.bind_some]
    rw [show (Arith.exact ext).pre l (tipOf w r prev.data).data = some pre from hpre]
    simp only [Option.bind_some]
    rw [hd]
    simp only [Option.bind_some]
    rw [show (Arith.exact ext).calibrate d qba = some p from hp]
    simp only [Option.bind_some, had, Bool.false_eq_true, if_false]
    rfl
  rw [e]
  unfold Arith.activation
  rcases hq with ⟨hs, rfl, rfl⟩ | ⟨hs, o, ho, rfl, rfl⟩
  · refine ⟨_, rfl, ?_⟩
    rw [if_pos hs]
    simp only [List.map_cons, List.map_nil, opJson, fcOp, tipOf, n0, n1, n2, n3, hK, declared_json, fcJson]
    rfl
  · refine ⟨_, rfl, ?_⟩
    rw [if_neg hs, show (Arith.exact ext).calibrate (Dist.build (pre.map ((Arith.exact ext).act l)).flat) qa = some o from ho]
    obtain ⟨W, hW⟩ : ∃ W, W = fcWorld w l r kn qb qba p prev.data := ⟨_, rfl⟩
    rw [← hW] at hfc hfn n0 n1 n2 n3 ⊢
    obtain ⟨V, hV⟩ : ∃ V, V = (if l.isLut = true then W.setNode (w.next + 2) ((W.nodes (w.next + 2)).withLut l.act o.1 o.2)
      else W) := ⟨_, rfl⟩
    rw [← hV]
    have hVn : V.next = w.next + 3 := by
      rw [hV]
      cases l.isLut
      · exact hfn
      · exact hfn
    have hVo : ∀ j, j ≠ w.next + 2 → V.nodes j = W.nodes j := by
      intro j hj
      rw [hV]
      cases l.isLut
      · rfl
      · rw [if_pos rfl, World.setNode_nodes, if_neg hj]
    have hV2 : nodeJson (V.nodes (w.next + 2)) true =
        (Arith.exact ext).tabled l qba p o (declared p.1 p.2 qba prev.data.shape) := by
      unfold Arith.tabled
      rw [hV]
      show _ = (⟨_, _, _, if l.isLut then _ else _⟩ : NodeJ)
      cases l.isLut with
      | false => rw [if_neg (by decide), if_neg (by decide), n3, declared_json]; rfl
      | true =>
        rw [if_pos rfl, if_pos rfl, World.setNode_nodes, if_pos rfl, n3]
        rw [← declared_json]
        rfl
    obtain ⟨U, hU⟩ : ∃ U, U = V.alloc ((Node.base o.1 o.2 qa).withTensor (pre.map l.act).toFArr) := ⟨_, rfl⟩
    rw [← hU]
    have u0 : ∀ j, j < w.next + 3 → U.nodes j = V.nodes j := by
      intro j hj
      rw [hU, World.alloc_nodes, if_neg (by omega)]
    have u3 : U.nodes (w.next + 3) = (Node.base o.1 o.2 qa).withTensor (pre.map l.act).toFArr := by
      rw [hU, World.alloc_nodes, if_pos hVn.symm]
    simp only [List.map_cons, List.map_nil, opJson, fcOp, actOp, tipOf, fcJson, Option.map_some, u3, declared_json,
      u0 r.id (by omega), u0 w.next (by omega), u0 (w.next + 1) (by omega), u0 (w.next + 2) (by omega),
      hVo r.id (by omega), hVo w.next (by omega), hVo (w.next + 1) (by omega), hV2, n0, n1, n2, hK]
    rfl

/-- If the exporter without objects succeeds on a dense layer, so does the heap model. -/
theorem dense_succeeds (ext : Ext) {w : World} {c : DenseCfg} {l : KDense} {prev : QRes} {r : Ref} (hr : prev.out = some r)
    {x : List OpJ × Tip} (h : (Arith.exact ext).dense c l (tipOf w r prev.data) = some x) :
    ∃ y, l.quantize w c prev = some y := by
  unfold Arith.dense at h
  simp only [Option.bind_eq_bind, Option.bind_eq_some_iff] at h
  obtain ⟨qk, h1, qa, h2, qba, h3, qb, h4, k, hk, pre, hpre, d, hd, o, ho, h⟩ := h
  cases had : c.adaround with
  | true => rw [had] at h; simp at h
  | false =>
    rw [had] at h
    simp only [Bool.false_eq_true, if_false] at h
    replace hpre : l.pre prev.data = some pre := hpre
    replace ho : d.quantize qba = some o := ho
    unfold KDense.quantize
    rw [h1, h2, h3, h4, hr]
    simp only [Option.bind_eq_bind, Option.bind_some]
    rw [kernelNode_exact ext, hk]
    simp only [Option.map_some, Option.bind_some, hpre, hd, ho, had, Bool.false_eq_true, if_false]
    unfold quantizeActivation
    unfold Arith.activation at h
    by_cases hs : upper l.actName ∈ skipFunctions
    · simp only [if_pos hs, Option.bind_some]
      exact ⟨_, rfl⟩
    · rw [if_neg hs, Option.map_eq_some_iff] at h
      obtain ⟨a, ha, -⟩ := h
      replace ha : (Dist.build (pre.map l.act).flat).quantize qa = some a := ha
      simp only [if_neg hs, Option.bind_eq_bind, ha, Option.bind_some]
      exact ⟨_, rfl⟩

/-- A node that carries a table. -/
theorem tabled_json (q : GDtype) (s : ℚ) (z : ℤ) (x : Arr ℚ) (fn : ℚ → ℚ) (so : ℚ) (zo : ℤ) (ext : Ext) :
    nodeJson (((Node.base s z q).withTensor x.toFArr).withLut fn so zo) true =
      ⟨some s, some z, some ⟨none, x.shape.drop 1, q.repr⟩,
        some ⟨some ((Arith.exact ext).table q fn s z so zo), some (-q.min), none⟩⟩ := rfl

theorem refs_map (f : Ref → NodeJ) (i k : ℕ) (b : Bool) :
    (KLSTM.refs i k b).map f = (List.range k).map (fun j => f ⟨i + j, b⟩) := by
  unfold KLSTM.refs
  rw [List.map_map]
  rfl

theorem range_mapM {α : Type} (n : ℕ) (f : ℕ → Option α) (g : ℕ → α) (h : ∀ i < n, f i = some (g i)) :
    (List.range n).mapM f = some ((List.range n).map g) :=
  mapM_eq_map f g _ (fun i hi => h i (List.mem_range.mp hi))

theorem range_map {α : Type} (n : ℕ) (f g : ℕ → α) (h : ∀ i < n, f i = g i) : (List.range n).map f = (List.range n).map g :=
  List.map_congr_left (fun i hi => h i (List.mem_range.mp hi))

theorem scaleZp_exact (ext : Ext) (a : Arr ℚ) : (Arith.exact ext).scaleZp a = KLSTM.scaleZp a.flat (intDtype 7) := by
  unfold Arith.scaleZp KLSTM.scaleZp Arith.exact
  rw [if_neg (by decide)]

/-- One LSTM layer: the operator the heap model creates is the one the exporter without objects writes. -/
theorem lstm_some (ext : Ext) {w w' : World} {l : KLSTM} {prev q : QRes} {r : Ref} (hr : prev.out = some r)
    (hid : r.id < w.next) (h : l.quantize ext w prev = some (w', q)) :
    ∃ o, q.out = some o ∧
      (Arith.exact ext).lstm l (tipOf w r prev.data) = some (q.ops.map (opJson w'), tipOf w' o q.data) := by
  obtain ⟨input, X, sK, sU, sA, zK, zU, zA, st, sH, sC, zH, zC, sT, zT, hp, hX, hst, hf, hops, hnext, hframe⟩ :=
    lstm_facts h (fun j _ => rfl)
  rw [hr, Option.some.injEq] at hp
  subst hp
  obtain ⟨ho, res, hres, hdata⟩ : q.out = some ⟨w.next + 12, true⟩ ∧ ∃ res, l.result X.length st = some res ∧ q.data = res := by
    unfold KLSTM.quantize at h
    simp only [Option.bind_eq_bind, Option.bind_eq_some_iff, Option.some.injEq, Prod.mk.injEq] at h
    obtain ⟨input', -, X', hX', st', hst', ns, -, a, -, res, hres, -, hq⟩ := h
    rw [hX] at hX'
    simp only [KLSTM.samples3, Option.some.injEq] at hX'
    subst hX'
    rw [hst, Option.some.injEq] at hst'
    subst hst'
    rw [← hq]
    exact ⟨rfl, res, hres, rfl⟩
  refine ⟨_, ho, ?_⟩
  have hcal : (Arith.exact ext).lstmCal l st = some ⟨(List.range 4).map (fun i => (sK i, zK i)),
      (List.range 4).map (fun i => (sU i, zU i)), (sH, zH), (List.range 4).map (fun i => (sA i, zA i)), (sC, zC),
      (List.range 5).map (fun i => (sT i, zT i))⟩ := by
    unfold Arith.lstmCal
    rw [range_mapM 4 (fun i => (Arith.exact ext).scaleZp (.mat (KLSTM.cols l.units i l.kernel))) (fun i => (sK i, zK i))
      (fun i hi => (scaleZp_exact ext _).trans (hf.calK i hi))]
    simp only [Option.bind_eq_bind, Option.bind_some]
    rw [range_mapM 4 (fun i => (Arith.exact ext).scaleZp (.mat (KLSTM.cols l.units i l.recurrent))) (fun i => (sU i, zU i))
      (fun i hi => (scaleZp_exact ext _).trans (hf.calU i hi))]
    simp only [Option.bind_some]
    rw [show (Arith.exact ext).scaleZp (.cube (KLSTM.hiddens st)) = some (sH, zH) from
      (scaleZp_exact ext _).trans hf.calH]
    simp only [Option.bind_some]
    rw [range_mapM 4 (fun i => (Arith.exact ext).scaleZp (l.gateCols st i)) (fun i => (sA i, zA i))
      (fun i hi => (scaleZp_exact ext _).trans (hf.calA i hi))]
    simp only [Option.bind_some]
    rw [show (Arith.exact ext).calibrateKernel (Dist.build (Arr.cube (KLSTM.cells st)).flat) (intDtype 7) true =
      some (sC, zC) from hf.calC]
    simp only [Option.bind_some]
    have e0 : (Arith.exact ext).scaleZp ((Arr.cube ((st.map (fun s => s.1)).take l.units)).map (Arith.exact ext).sigmoid) =
      some (sT 0, zT 0) := hf.calT 0 (by omega)
    have e1 : (Arith.exact ext).scaleZp ((l.gateCols st 1).map (Arith.exact ext).sigmoid) = some (sT 1, zT 1) :=
      hf.calT 1 (by omega)
    have e2 : (Arith.exact ext).scaleZp ((l.gateCols st 2).map (Arith.exact ext).tanh) = some (sT 2, zT 2) :=
      hf.calT 2 (by omega)
    have e3 : (Arith.exact ext).scaleZp ((Arr.cube (st.map (fun s => s.1.map (fun r => r.drop (3 * l.units))))).map
      (Arith.exact ext).sigmoid) = some (sT 3, zT 3) := hf.calT 3 (by omega)
    have e4 : (Arith.exact ext).scaleZp ((Arr.cube (KLSTM.cells st)).map (Arith.exact ext).tanh) = some (sT 4, zT 4) :=
      hf.calT 4 (by omega)
    simp only [Arith.lstmActs, List.mapM_cons, List.mapM_nil, e0, e1, e2, e3, e4, Option.bind_eq_bind, Option.bind_some,
      Option.pure_def]
    rfl
  unfold Arith.lstm
  rw [show KLSTM.samples3 (tipOf w r prev.data).data = some X by show KLSTM.samples3 prev.data = _; rw [hX]; rfl]
  simp only [Option.bind_eq_bind, Option.bind_some]
  rw [show (Arith.exact ext).run l X = some st from hst]
  simp only [Option.bind_some, hcal, hres]
  have hH : nodeJson (w'.nodes (w.next + 12)) true = declared sH zH (intDtype 7) (Arr.cube (KLSTM.hiddens st)).shape := by
    rw [hf.nodeH, declared_json]
  have hop : opJson w' (l.op r w.next (KLSTM.refs (w.next + 22) 10 true)) =
      (Arith.exact ext).lstmJson l (tipOf w r prev.data) st ⟨(List.range 4).map (fun i => (sK i, zK i)),
      (List.range 4).map (fun i => (sU i, zU i)), (sH, zH), (List.range 4).map (fun i => (sA i, zA i)), (sC, zC),
      (List.range 5).map (fun i => (sT i, zT i))⟩ := by
    have gK : ∀ i < 4, ((List.range 4).map (fun i => (sK i, zK i))).getD i (0, 0) = (sK i, zK i) := by
      intro i hi; simp [List.getD_eq_getElem?_getD, hi]
    have gU : ∀ i < 4, ((List.range 4).map (fun i => (sU i, zU i))).getD i (0, 0) = (sU i, zU i) := by
      intro i hi; simp [List.getD_eq_getElem?_getD, hi]
    have gA : ∀ i < 4, ((List.range 4).map (fun i => (sA i, zA i))).getD i (0, 0) = (sA i, zA i) := by
      intro i hi; simp [List.getD_eq_getElem?_getD, hi]
    unfold opJson KLSTM.op Arith.lstmJson
    simp only [List.map_append, List.map_cons, List.map_nil, refs_map, hH]
    have jK := range_map 4 (fun j => nodeJson (w'.nodes (w.next + j)) false)
      (fun i => (Arith.exact ext).matNode (((List.range 4).map (fun i => (sK i, zK i))).getD i (0, 0)) (KLSTM.cols l.units i l.kernel))
      (fun i hi => by
        show nodeJson (w'.nodes (w.next + i)) false = _
        rw [gK i hi, hf.nodeK i hi]
        exact stored_json ext _ _ _ _ _)
    have jU := range_map 4 (fun j => nodeJson (w'.nodes (w.next + 4 + j)) false)
      (fun i => (Arith.exact ext).matNode (((List.range 4).map (fun i => (sU i, zU i))).getD i (0, 0)) (KLSTM.cols l.units i l.recurrent))
      (fun i hi => by
        show nodeJson (w'.nodes (w.next + 4 + i)) false = _
        rw [gU i hi, hf.nodeU i hi]
        exact stored_json ext _ _ _ _ _)
    have jB := range_map 4 (fun j => nodeJson (w'.nodes (w.next + 8 + j)) false)
      (fun i => (Arith.exact ext).stored ((Arith.exact ext).mul (tipOf w r prev.data).scale
          (((List.range 4).map (fun i => (sK i, zK i))).getD i (0, 0)).1) 0 (intDtype 31)
        (Arr.vec ((l.bias.drop (i * l.units)).take l.units)).shape (Arr.vec ((l.bias.drop (i * l.units)).take l.units)).flat)
      (fun i hi => by
        show nodeJson (w'.nodes (w.next + 8 + i)) false = _
        rw [gK i hi, hf.nodeB i hi]
        exact stored_json ext _ _ _ _ _)
    have jBA := range_map 4 (fun j => nodeJson (w'.nodes (w.next + 13 + j)) true)
      (fun i => declared ((Arith.exact ext).mul (((List.range 4).map (fun i => (sU i, zU i))).getD i (0, 0)).1 sH) 0 (intDtype 31)
        (l.gateCols st i).shape)
      (fun i hi => by
        show nodeJson (w'.nodes (w.next + 13 + i)) true = _
        rw [gU i hi, hf.nodeBA i hi]
        exact declared_json _ _ _ _)
    have jA := range_map 4 (fun j => nodeJson (w'.nodes (w.next + 17 + j)) true)
      (fun i => declared (((List.range 4).map (fun i => (sA i, zA i))).getD i (0, 0)).1
        (((List.range 4).map (fun i => (sA i, zA i))).getD i (0, 0)).2 (intDtype 7) (l.gateCols st i).shape)
      (fun i hi => by
        show nodeJson (w'.nodes (w.next + 17 + i)) true = _
        rw [gA i hi, hf.nodeA i hi]
        exact declared_json _ _ _ _)
    have jC : (List.range 1).map (fun j => nodeJson (w'.nodes (w.next + 21 + j)) true) =
        [declared sC zC (intDtype 7) (Arr.cube (KLSTM.cells st)).shape] := by
      rw [show List.range 1 = [0] from rfl]
      simp only [List.map_cons, List.map_nil, Nat.add_zero, hf.nodeC, declared_json]
    have jI : nodeJson (w'.nodes r.id) r.exclude = (tipOf w r prev.data).node := by rw [hframe r.id hid]; rfl
    rw [jK, jU, jB, jBA, jA, jC, jI]
    have a0 := hf.nodeA 0 (by omega)
    have a1 := hf.nodeA 1 (by omega)
    have a2 := hf.nodeA 2 (by omega)
    have a3 := hf.nodeA 3 (by omega)
    have i0 := hf.nodeI
    have i1 := hf.nodeF
    have i2 := hf.nodeG
    have i3 := hf.nodeO
    have i4 := hf.nodeS
    have t0 := hf.nodeTD 0 (by omega)
    have t1 := hf.nodeTD 1 (by omega)
    have t2 := hf.nodeTD 2 (by omega)
    have t3 := hf.nodeTD 3 (by omega)
    have t4 := hf.nodeTD 4 (by omega)
    simp only [Nat.add_assoc] at a0 a1 a2 a3 t0 t1 t2 t3 t4
    rw [a0] at i0
    rw [a1] at i1
    rw [a2] at i2
    rw [a3] at i3
    rw [hf.nodeC] at i4
    have eT : (Arith.exact ext).lstmTables l st ⟨(List.range 4).map (fun i => (sK i, zK i)),
        (List.range 4).map (fun i => (sU i, zU i)), (sH, zH), (List.range 4).map (fun i => (sA i, zA i)), (sC, zC),
        (List.range 5).map (fun i => (sT i, zT i))⟩ =
      [nodeJson (w'.nodes (w.next + 22)) true, nodeJson (w'.nodes (w.next + 23)) true,
        nodeJson (w'.nodes (w.next + 24)) true, nodeJson (w'.nodes (w.next + 25)) true,
        nodeJson (w'.nodes (w.next + 26)) true, nodeJson (w'.nodes (w.next + 27)) true,
        nodeJson (w'.nodes (w.next + 28)) true, nodeJson (w'.nodes (w.next + 29)) true,
        nodeJson (w'.nodes (w.next + 30)) true, nodeJson (w'.nodes (w.next + 31)) true] := by
      rw [i0, i1, i2, i3, i4, tabled_json _ _ _ _ _ _ _ ext, tabled_json _ _ _ _ _ _ _ ext, tabled_json _ _ _ _ _ _ _ ext,
        tabled_json _ _ _ _ _ _ _ ext, tabled_json _ _ _ _ _ _ _ ext]
      rw [show w'.nodes (w.next + 23) = _ from t0, show w'.nodes (w.next + 25) = _ from t1,
        show w'.nodes (w.next + 27) = _ from t2, show w'.nodes (w.next + 29) = _ from t3,
        show w'.nodes (w.next + 31) = _ from t4]
      simp only [declared_json]
      rfl
    rw [eT]
    rfl
  rw [hops]
  simp only [List.map_cons, List.map_nil, hop, tipOf, hf.nodeH, hdata]
  rfl

/-- If the exporter without objects succeeds on an LSTM layer, so does the heap model. -/
theorem lstm_succeeds (ext : Ext) {w : World} {l : KLSTM} {prev : QRes} {r : Ref} (hr : prev.out = some r)
    {x : List OpJ × Tip} (h : (Arith.exact ext).lstm l (tipOf w r prev.data) = some x) :
    ∃ y, l.quantize ext w prev = some y := by
  unfold Arith.lstm at h
  simp only [Option.bind_eq_bind, Option.bind_eq_some_iff] at h
  obtain ⟨X, hX, st, hst, c, hc, res, hres, -⟩ := h
  replace hX : KLSTM.samples3 prev.data = some X := hX
  replace hst : l.call ext X = some st := hst
  unfold Arith.lstmCal at hc
  simp only [Option.bind_eq_bind, Option.bind_eq_some_iff] at hc
  obtain ⟨K, hK, U, hU, H, hH, R, hR, C, hC, T, hT, -⟩ := hc
  have node : ∀ {a : Arr ℚ} {p : ℚ × ℤ}, (Arith.exact ext).scaleZp a = some p →
      KLSTM.calNode a (intDtype 7) = some ((Node.base p.1 p.2 (intDtype 7)).withTensor a.toFArr) := by
    intro a p hp
    rw [scaleZp_exact] at hp
    unfold KLSTM.calNode
    rw [hp]
    rfl
  obtain ⟨k0, k1, k2, k3, -, e0, e1, e2, e3⟩ := range4_mapM hK
  obtain ⟨u0, u1, u2, u3, -, f0, f1, f2, f3⟩ := range4_mapM hU
  obtain ⟨a0, a1, a2, a3, -, g0, g1, g2, g3⟩ := range4_mapM hR
  have four : ∀ (f : ℕ → Option Node) {a b c d : Node}, f 0 = some a → f 1 = some b → f 2 = some c → f 3 = some d →
      (List.range 4).mapM f = some [a, b, c, d] := by
    intro f a b c d h0 h1 h2 h3
    rw [show List.range 4 = [0, 1, 2, 3] from rfl]
    simp only [List.mapM_cons, List.mapM_nil, h0, h1, h2, h3, Option.bind_eq_bind, Option.bind_some, Option.pure_def]
  obtain ⟨ns, hns⟩ : ∃ ns, l.nodes (w.nodes r.id).scale st = some ns := by
    unfold KLSTM.nodes
    rw [four (fun i => KLSTM.calNode (.mat (KLSTM.cols l.units i l.kernel)) (intDtype 7)) (node e0) (node e1) (node e2) (node e3)]
    simp only [Option.bind_eq_bind, Option.bind_some]
    rw [four (fun i => KLSTM.calNode (.mat (KLSTM.cols l.units i l.recurrent)) (intDtype 7)) (node f0) (node f1) (node f2) (node f3)]
    simp only [Option.bind_some]
    rw [node hH]
    simp only [Option.bind_some]
    rw [four (fun i => KLSTM.calNode (l.gateCols st i) (intDtype 7)) (node g0) (node g1) (node g2) (node g3)]
    simp only [Option.bind_some]
    rw [show KLSTM.calNode (.cube (KLSTM.cells st)) (intDtype 7) true =
      some ((Node.base C.1 C.2 (intDtype 7)).withTensor (Arr.cube (KLSTM.cells st)).toFArr) by
        unfold KLSTM.calNode
        rw [show KLSTM.scaleZp (Arr.cube (KLSTM.cells st)).flat (intDtype 7) true = some C from hC]
        rfl]
    exact ⟨_, rfl⟩
  have gate : ∀ (w : World) (src : ℕ) {fn : ℚ → ℚ} {nm : String} {data : Arr ℚ} {p : ℚ × ℤ},
      upper nm ∉ skipFunctions → (Arith.exact ext).scaleZp (data.map fn) = some p →
      ∃ y, KLSTM.gateAct w src fn nm data (intDtype 7) = some y := by
    intro w src fn nm data p hs hp
    unfold KLSTM.gateAct quantizeActivation
    simp only [if_neg hs, Option.bind_eq_bind]
    unfold Arith.scaleZp Arith.exact at hp
    simp only at hp
    rw [hp]
    exact ⟨_, rfl⟩
  simp only [Arith.lstmActs, List.mapM_cons, List.mapM_nil, Option.bind_eq_bind, Option.pure_def,
    Option.bind_eq_some_iff] at hT
  obtain ⟨t0, d0, -, ⟨t1, d1, -, ⟨t2, d2, -, ⟨t3, d3, -, ⟨t4, d4, -⟩, -⟩, -⟩, -⟩, -⟩ := hT
  obtain ⟨v0, h0⟩ := gate (KLSTM.allocAll w ns) (w.next + 17) sigmoid_lut.2 d0
  obtain ⟨v1, h1⟩ := gate v0.1 (w.next + 18) sigmoid_lut.2 d1
  obtain ⟨v2, h2⟩ := gate v1.1 (w.next + 19) tanh_lut.2 d2
  obtain ⟨v3, h3⟩ := gate v2.1 (w.next + 20) sigmoid_lut.2 d3
  obtain ⟨v4, h4⟩ := gate v3.1 (w.next + 21) tanh_lut.2 d4
  obtain ⟨y, hy⟩ : ∃ y, l.acts ext (KLSTM.allocAll w ns) w.next st = some y :=
    ⟨_, Keras.bind_of h0 (Keras.bind_of h1 (Keras.bind_of h2 (Keras.bind_of h3 (Keras.bind_of h4 rfl))))⟩
  exact ⟨_, Keras.bind_of hr (Keras.bind_of hX (Keras.bind_of hst (Keras.bind_of hns (Keras.bind_of hy
    (Keras.bind_of hres rfl)))))⟩

/-- The layer loop: both models fail, or both succeed with the same operators. -/
theorem layers_exact {ext : Ext} {cfg : Cfg} (ls : List KLayer) :
    ∀ (w : World) (prev : QRes) (r : Ref), prev.out = some r → r.id < w.next →
    (quantizeLayers ext cfg w prev ls = none ∧ (Arith.exact ext).layers cfg (tipOf w r prev.data) ls = none) ∨
    ∃ w' last rs o, quantizeLayers ext cfg w prev ls = some (w', last, rs) ∧ last.out = some o ∧
      (Arith.exact ext).layers cfg (tipOf w r prev.data) ls = some ((networkOps rs).map (opJson w'), tipOf w' o last.data) := by
  induction ls with
  | nil =>
    intro w prev r hr hid
    exact .inr ⟨w, prev, [], r, rfl, hr, rfl⟩
  | cons l ls ih =>
    intro w prev r hr hid
    cases l with
    | dropout => exact ih w prev r hr hid
    | input => exact ih w prev r hr hid
    | other => exact .inl ⟨rfl, rfl⟩
    | dense l =>
      simp only [quantizeLayers, layerStep, Arith.layers, Option.bind_eq_bind]
      cases hc : cfg.denseFor l.name with
      | none => exact .inl ⟨rfl, rfl⟩
      | some c =>
        simp only [Option.bind_some]
        cases hq : l.quantize w c prev with
        | none =>
          left
          refine ⟨rfl, ?_⟩
          cases hx : (Arith.exact ext).dense c l (tipOf w r prev.data) with
          | none => rfl
          | some x =>
            obtain ⟨y, hy⟩ := dense_succeeds ext hr hx
            rw [hq] at hy; cases hy
        | some q =>
          obtain ⟨w1, q⟩ := q
          obtain ⟨o, ho, hx⟩ := dense_some ext hr hid hq
          have hs : layerStep ext cfg w prev (.dense l) = some (w1, some q) := by
            simp only [layerStep, hc, hq, Option.bind_eq_bind, Option.bind_some]
          obtain ⟨f1, f2, f3⟩ := layer_frame hs hr hid
          obtain ⟨o', ho', hoid⟩ := f3 q rfl
          rw [ho, Option.some.injEq] at ho'
          subst ho'
          have hrefs := layer_refs hs hr hid
          simp only [hx, Option.bind_some]
          rcases ih w1 q o ho hoid with ⟨i1, i2⟩ | ⟨w2, last, rs, o2, i1, i2, i3⟩
          · left
            rw [i1, i2]; exact ⟨rfl, rfl⟩
          · right
            rw [i1, i3]
            refine ⟨w2, last, q :: rs, o2, rfl, i2, ?_⟩
            simp only [Option.bind_some, networkOps, List.flatMap_cons, List.map_append, Option.some.injEq, Prod.mk.injEq,
              and_true, List.append_cancel_right_eq]
            obtain ⟨-, hsame⟩ := layers_frame ls i1 ho hoid
            symm
            apply List.map_congr_left
            intro op hop
            obtain ⟨b1, b2⟩ := hrefs op hop
            unfold opJson
            rw [List.map_congr_left (fun r hr => by rw [hsame r.id (b1 r hr)]),
              List.map_congr_left (l := op.outputs) (fun r hr => by rw [hsame r.id (b2 r hr)])]
    | lstm l =>
      simp only [quantizeLayers, layerStep, Arith.layers, Option.bind_eq_bind]
      cases hq : l.quantize ext w prev with
      | none =>
        left
        refine ⟨rfl, ?_⟩
        cases hx : (Arith.exact ext).lstm l (tipOf w r prev.data) with
        | none => rfl
        | some x =>
          obtain ⟨y, hy⟩ := lstm_succeeds ext hr hx
          rw [hq] at hy; cases hy
      | some q =>
        obtain ⟨w1, q⟩ := q
        obtain ⟨o, ho, hx⟩ := lstm_some ext hr hid hq
        have hs : layerStep ext cfg w prev (.lstm l) = some (w1, some q) := by
          simp only [layerStep, hq, Option.bind_eq_bind, Option.bind_some]
        obtain ⟨f1, f2, f3⟩ := layer_frame hs hr hid
        obtain ⟨o', ho', hoid⟩ := f3 q rfl
        rw [ho, Option.some.injEq] at ho'
        subst ho'
        have hrefs := layer_refs hs hr hid
        simp only [hx, Option.bind_some]
        rcases ih w1 q o ho hoid with ⟨i1, i2⟩ | ⟨w2, last, rs, o2, i1, i2, i3⟩
        · left
          rw [i1, i2]; exact ⟨rfl, rfl⟩
        · right
          rw [i1, i3]
          refine ⟨w2, last, q :: rs, o2, rfl, i2, ?_⟩
          simp only [Option.bind_some, networkOps, List.flatMap_cons, List.map_append, Option.some.injEq, Prod.mk.injEq,
            and_true, List.append_cancel_right_eq]
          obtain ⟨-, hsame⟩ := layers_frame ls i1 ho hoid
          symm
          apply List.map_congr_left
          intro op hop
          obtain ⟨b1, b2⟩ := hrefs op hop
          unfold opJson
          rw [List.map_congr_left (fun r hr => by rw [hsame r.id (b1 r hr)]),
            List.map_congr_left (l := op.outputs) (fun r hr => by rw [hsame r.id (b2 r hr)])]

end Keras

/-- The operators of the exported file. -/
theorem Keras.file_graph (ext : Ext) (cfg : Cfg) (x : Arr ℚ) (ls : List KLayer) :
    (quantizeModel ext cfg x ls).map (fun r => (networkJson r.1 r.2).graph) = (Arith.exact ext).graph cfg x ls := by
  unfold quantizeModel Arith.graph inputQuantize
  simp only [Option.bind_eq_bind]
  cases quantization cfg.quantizeDtype with
  | none => rfl
  | some q =>
  simp only [Option.bind_some]
  rw [show (Arith.exact ext).calibrate (Dist.build x.flat) q = (Dist.build x.flat).quantize q from rfl]
  cases (Dist.build x.flat).quantize q with
  | none => rfl
  | some p =>
  simp only [Option.bind_some]
  obtain ⟨W, hW⟩ : ∃ W, W = (World.empty (Node.base 0 0 (intDtype 7))).alloc ((Node.base p.1 p.2 q).withTensor x.toFArr) :=
    ⟨_, rfl⟩
  obtain ⟨I, hI⟩ : ∃ I : QRes, I = ⟨x, some ⟨(World.empty (Node.base 0 0 (intDtype 7))).next, true⟩,
      [⟨"QUANTIZE", "QUANTIZE", [], [⟨(World.empty (Node.base 0 0 (intDtype 7))).next, true⟩], none⟩]⟩ := ⟨_, rfl⟩
  rw [← hW, ← hI]
  have hIo : I.out = some ⟨0, true⟩ := by rw [hI]; rfl
  have hz : (0 : ℕ) < W.next := by rw [hW, World.alloc_next]; show 0 < 0 + 1; omega
  have hn : W.nodes 0 = (Node.base p.1 p.2 q).withTensor x.toFArr := by rw [hW]; rfl
  have ht : tipOf W ⟨0, true⟩ I.data = ⟨declared p.1 p.2 q x.shape, p.1, p.2, x⟩ := by
    unfold tipOf
    simp only [hn, declared_json]
    rw [hI]; rfl
  rcases layers_exact (ext := ext) (cfg := cfg) ls W I ⟨0, true⟩ hIo hz with ⟨i1, i2⟩ | ⟨w', last, rs, o, i1, i2, i3⟩
  · rw [ht] at i2
    rw [i1, i2]; rfl
  · rw [ht] at i3
    rw [i1, i3]
    simp only [Option.bind_some]
    obtain ⟨-, -, ⟨r, hr, z, hz1, hz2⟩, -, -⟩ := layers_facts ls i1 (by rw [hI]; simp)
      (by rw [hI]; exact ⟨_, rfl, _, rfl, rfl⟩)
    rw [i2, Option.some.injEq] at hr
    subst hr
    obtain ⟨-, hsame⟩ := layers_frame ls i1 hIo hz
    unfold dequantize
    rw [hz1]
    simp only [Option.bind_eq_bind, Option.bind_some, hz2, List.getLast?_singleton, Option.map_some, networkJson, networkOps,
      List.flatMap_append, List.flatMap_cons, List.flatMap_nil, List.append_nil, List.map_append, List.map_cons, List.map_nil,
      Option.some.injEq]
    have e : I.ops.map (opJson w') = [⟨"QUANTIZE", "QUANTIZE", [], [declared p.1 p.2 q x.shape], none⟩] := by
      rw [hI]
      show [(⟨"QUANTIZE", "QUANTIZE", [], [nodeJson (w'.nodes 0) true], none⟩ : OpJ)] = _
      rw [hsame 0 hz, hn, declared_json]
    rw [e]
    rfl


/-- C94.  The exported file is a function of the weights, the configuration and the
calibration data that can be written down without any objects, hooks or references: `(Arith.exact ext).graph` (one line per node
that is written).  It fails exactly when quantization fails. -/
theorem C94_file (ext : Ext) (cfg : Cfg) (x : Arr ℚ) (ls : List KLayer) :
    (quantizeModel ext cfg x ls).map (fun r => networkJson r.1 r.2) = ((Arith.exact ext).graph cfg x ls).map exportJson := by
  rw [← Keras.file_graph ext cfg x ls]
  cases quantizeModel ext cfg x ls with
  | none => rfl
  | some r =>
    simp only [Option.map_some, networkJson, exportJson, List.length_map]

/-- A model with a tanh layer, a dropout layer and a linear layer. -/
example (ext : Ext) : ∃ w rs, quantizeModel ext {} (.mat C59Case.X) C59Case.layers = some (w, rs) ∧
      ((Arith.exact ext).graph {} (.mat C59Case.X) C59Case.layers).map exportJson = some (networkJson w rs) := by
  obtain ⟨w, rs, h⟩ := C59Case.succeeds ext
  refine ⟨w, rs, h, ?_⟩
  rw [← C94_file ext {} _ _, h]
  rfl

/-- A model with an LSTM layer. -/
example : ∃ w rs, quantizeModel C52Case.ext {} (.cube [[[1], [-1]], [[2], [1 / 2]]]) [.lstm C52Case.lstm] = some (w, rs) ∧
    ((Arith.exact C52Case.ext).graph {} (.cube [[[1], [-1]], [[2], [1 / 2]]]) [.lstm C52Case.lstm]).map exportJson =
      some (networkJson w rs) := by
  have hs : (quantizeModel C52Case.ext {} (.cube [[[1], [-1]], [[2], [1 / 2]]]) [.lstm C52Case.lstm]).isSome := by
    decide +kernel
  obtain ⟨⟨w, rs⟩, h⟩ := Option.isSome_iff_exists.mp hs
  refine ⟨w, rs, h, ?_⟩
  rw [← C94_file C52Case.ext {} _ _, h]
  rfl

/-- The whole file of a layer with two inputs and one output, computed: weights 1 and -1/2 with the scale 1/128 are 127 (after
saturation) and -64, the bias 1/3 is 5440/16320. -/
example : ((Arith.exact C52Case.ext).graph {} (.mat [[1, -1]]) [.dense ⟨"a", 1, [[1], [-1/2]], some [1/3], "linear", id⟩]) =
    some [⟨"QUANTIZE", "QUANTIZE", [], [⟨some (2/255), some 0, some ⟨none, [2], "int8"⟩, none⟩], none⟩,
      ⟨"FULLY_CONNECTED", "fully_connected a",
        [⟨some (2/255), some 0, some ⟨none, [2], "int8"⟩, none⟩,
          ⟨some (1/128), some 0, some ⟨some (.mat [[127, -64]]), [1, 2], "int8"⟩, none⟩,
          ⟨some (1/16320), some 0, some ⟨some (.vec [5440]), [1], "int32"⟩, none⟩],
        [⟨some (7/765), some (-128), some ⟨none, [2], "int8"⟩, none⟩], none⟩,
      ⟨"DEQUANTIZE", "DEQUANTIZE", [⟨some (7/765), some (-128), some ⟨none, [2], "int8"⟩, none⟩], [], none⟩] := by
  decide +kernel

end Verif
