import Verif.Lemmas.Keras

/-! # What the nodes of a quantized Keras model are at the end of quantization -/

namespace Verif.Keras

theorem fcWorld_next (w : World) (l : KDense) (input : Ref) (kn : Node) (qb qba : GDtype) (p : ℚ × ℤ) (data : Arr ℚ) :
    (fcWorld w l input kn qb qba p data).next = w.next + 3 := rfl

theorem fcWorld_nodes (w : World) (l : KDense) (input : Ref) (kn : Node) (qb qba : GDtype) (p : ℚ × ℤ) (data : Arr ℚ)
    (hi : input.id < w.next) (j : ℕ) :
    (fcWorld w l input kn qb qba p data).nodes j =
      if j = w.next + 2 then (Node.base p.1 p.2 qba).withTensor data.toFArr
      else if j = w.next + 1 then
        (Node.base ((w.nodes input.id).scale * kn.scale) 0 qb).withTensor ⟨[l.biasV.length], l.biasV⟩
      else if j = w.next then kn else w.nodes j := by
  unfold fcWorld
  rw [World.alloc_nodes, World.dense_next, World.dense_nodes _ _ _ _ _ hi]

/-- The nodes and calibration of a dense layer whose kernel node is `k`, input node `input`, calibration input `X`. -/
structure FCFacts (W : World) (c : DenseCfg) (l : KDense) (X : Arr ℚ) (input : Ref) (k : ℕ) (qk qa qba qb : GDtype)
    (kn : Node) (pre : Arr ℚ) (d : Dist) (p : ℚ × ℤ) : Prop where
  kernelDtype : quantization c.kernelDtype = some qk
  activationDtype : quantization c.activationDtype = some qa
  biasAddDtype : quantization c.biasAddDtype = some qba
  biasDtype : quantization c.biasDtype = some qb
  kernelNode : l.kernelNode qk c.kernelSymmetric = some kn
  kernel : W.nodes k = kn
  bias : W.nodes (k + 1) =
    (Node.base ((W.nodes input.id).scale * kn.scale) 0 qb).withTensor ⟨[l.biasV.length], l.biasV⟩
  preEq : l.pre X = some pre
  trim : l.trim (Dist.build pre.flat) = some d
  cal : d.quantize qba = some p

/-- The fully-connected operator with kernel node `k`. -/
def fcAt (k : ℕ) (l : KDense) (input : Ref) : Op :=
  { opType := "FULLY_CONNECTED", name := "fully_connected " ++ l.name,
    inputs := [input, ⟨k, false⟩, ⟨k + 1, false⟩], outputs := [⟨k + 2, true⟩] }

/-- The activation operator of the dense layer with kernel node `k`. -/
def actAt (k : ℕ) (l : KDense) : Op :=
  { opType := l.actOpName, name := l.actOpName, inputs := [⟨k + 2, true⟩], outputs := [⟨k + 3, true⟩] }

/-- The operators `ops` quantize the layers `ls` (dense, dropout and input layers) on calibration data `X` from the node
`r`, ending in the node `o`; all nodes as they are in `W`. -/
inductive Chain (W : World) (cfg : Cfg) : Arr ℚ → Ref → List KLayer → List Op → Ref → Arr ℚ → Prop
  | nil (X r) : Chain W cfg X r [] [] r X
  | skip {X r l ls ops o Z} (hl : l = .dropout ∨ l = .input) (h : Chain W cfg X r ls ops o Z) :
      Chain W cfg X r (l :: ls) ops o Z
  | plain {X r} {l : KDense} {ls ops o Z} {c qk qa qba qb kn pre d p} (k : ℕ) (hr : r.id < k) (hk : k + 2 < W.next)
      (hc : cfg.denseFor l.name = some c)
      (hf : FCFacts W c l X r k qk qa qba qb kn pre d p) (hs : upper l.actName ∈ skipFunctions)
      (hout : W.nodes (k + 2) = (Node.base p.1 p.2 qba).withTensor X.toFArr)
      (h : Chain W cfg pre ⟨k + 2, true⟩ ls ops o Z) : Chain W cfg X r (.dense l :: ls) (fcAt k l r :: ops) o Z
  | act {X r} {l : KDense} {ls ops o Z} {c qk qa qba qb kn pre d p a} (k : ℕ) (hr : r.id < k) (hk : k + 3 < W.next)
      (hc : cfg.denseFor l.name = some c)
      (hf : FCFacts W c l X r k qk qa qba qb kn pre d p) (hs : upper l.actName ∉ skipFunctions)
      (ha : (Dist.build (pre.map l.act).flat).quantize qa = some a)
      (hout : W.nodes (k + 2) = if l.isLut then ((Node.base p.1 p.2 qba).withTensor X.toFArr).withLut l.act a.1 a.2
        else (Node.base p.1 p.2 qba).withTensor X.toFArr)
      (hact : W.nodes (k + 3) = (Node.base a.1 a.2 qa).withTensor (pre.map l.act).toFArr)
      (h : Chain W cfg (pre.map l.act) ⟨k + 3, true⟩ ls ops o Z) :
      Chain W cfg X r (.dense l :: ls) (fcAt k l r :: actAt k l :: ops) o Z

theorem allocAll_nodes (ns : List Node) (w : World) :
    (KLSTM.allocAll w ns).next = w.next + ns.length ∧ ∀ j < w.next, (KLSTM.allocAll w ns).nodes j = w.nodes j := by
  induction ns generalizing w with
  | nil => exact ⟨rfl, fun _ _ => rfl⟩
  | cons n ns ih =>
    obtain ⟨h1, h2⟩ := ih (w.alloc n)
    refine ⟨?_, ?_⟩
    · show (KLSTM.allocAll (w.alloc n) ns).next = _
      rw [h1]; simp; omega
    · intro j hj
      show (KLSTM.allocAll (w.alloc n) ns).nodes j = _
      rw [h2 j (by simp; omega), World.alloc_nodes, if_neg (by omega)]

theorem gateAct_frame {w w' : World} {src : ℕ} {fn : ℚ → ℚ} {nm : String} {data : Arr ℚ} {q : GDtype} {rs : List Ref}
    (h : KLSTM.gateAct w src fn nm data q = some (w', rs)) :
    w.next ≤ w'.next ∧ ∀ j < w.next, w'.nodes j = w.nodes j := by
  unfold KLSTM.gateAct at h
  simp only [Option.bind_eq_bind, Option.bind_eq_some_iff] at h
  obtain ⟨r, hr, h⟩ := h
  split at h
  · simp at h
  · rename_i op hop
    simp only [Option.some.injEq, Prod.mk.injEq] at h
    obtain ⟨rfl, -⟩ := h
    unfold quantizeActivation at hr
    simp only at hr
    split_ifs at hr with hs
    · simp only [Option.some.injEq] at hr
      subst hr
      refine ⟨by simp, fun j hj => ?_⟩
      rw [World.alloc_nodes, if_neg (by omega)]
    · simp only [Option.bind_eq_bind, Option.bind_eq_some_iff, Option.some.injEq] at hr
      obtain ⟨p, -, rfl⟩ := hr
      refine ⟨by simp; omega, fun j hj => ?_⟩
      rw [World.alloc_nodes, if_neg (by simp; omega), World.setNode_nodes, if_neg (by omega), World.alloc_nodes,
        if_neg (by omega)]
    · simp only [Option.bind_eq_bind, Option.bind_eq_some_iff, Option.some.injEq] at hr
      obtain ⟨p, -, rfl⟩ := hr
      refine ⟨by simp; omega, fun j hj => ?_⟩
      rw [World.alloc_nodes, if_neg (by simp; omega), World.alloc_nodes, if_neg (by omega)]

theorem mapM_length {α β : Type} (f : α → Option β) : ∀ {l : List α} {r : List β}, l.mapM f = some r → r.length = l.length
  | [], r, h => by simp at h; subst h; rfl
  | a :: l, r, h => by
    simp only [List.mapM_cons, Option.bind_eq_bind, Option.bind_eq_some_iff, Option.pure_def, Option.some.injEq] at h
    obtain ⟨b, -, t, ht, rfl⟩ := h
    simp [mapM_length f ht]

/-- Quantizing a layer only creates nodes; existing ones keep their state. -/
theorem layer_frame {ext : Ext} {cfg : Cfg} {w w' : World} {prev : QRes} {l : KLayer} {q : Option QRes} {r : Ref}
    (h : layerStep ext cfg w prev l = some (w', q)) (hr : prev.out = some r) (hid : r.id < w.next) :
    w.next ≤ w'.next ∧ (∀ j < w.next, w'.nodes j = w.nodes j) ∧
      ∀ x, q = some x → ∃ o, x.out = some o ∧ o.id < w'.next := by
  cases l with
  | dense l =>
    simp only [layerStep, Option.bind_eq_bind, Option.bind_eq_some_iff, Option.some.injEq, Prod.mk.injEq] at h
    obtain ⟨c, hc, ⟨w1, r1⟩, hq, rfl, rfl⟩ := h
    obtain ⟨qk, qa, qba, qb, input, kn, pre, d, p, -, -, -, -, hin, -, -, -, -, -, hq⟩ := l.quantize_spec hq
    rw [hr] at hin
    injection hin with hin
    subst hin
    have hfc := fcWorld_nodes w l r kn qb qba p prev.data hid
    have hfn := fcWorld_next w l r kn qb qba p prev.data
    have key : ∀ j < w.next, (fcWorld w l r kn qb qba p prev.data).nodes j = w.nodes j := by
      intro j hj
      rw [hfc, if_neg (by omega), if_neg (by omega), if_neg (by omega)]
    rcases hq with ⟨-, rfl, rfl⟩ | ⟨-, o, -, rfl, rfl⟩
    · refine ⟨by rw [hfn]; omega, key, ?_⟩
      rintro x hx
      injection hx with hx
      subst hx
      exact ⟨_, rfl, by rw [hfn]; show w.next + 2 < _; omega⟩
    · have hn : ∀ b : Bool, (if b = true then (fcWorld w l r kn qb qba p prev.data).setNode (w.next + 2)
          (((fcWorld w l r kn qb qba p prev.data).nodes (w.next + 2)).withLut l.act o.1 o.2)
          else fcWorld w l r kn qb qba p prev.data).next = w.next + 3 := by
        intro b; cases b <;> simp [hfn]
      refine ⟨by rw [World.alloc_next, hn]; omega, ?_, ?_⟩
      · intro j hj
        rw [World.alloc_nodes, if_neg (by rw [hn]; omega)]
        cases l.isLut
        · rw [if_neg (by decide)]; exact key j hj
        · rw [if_pos rfl, World.setNode_nodes, if_neg (by omega)]; exact key j hj
      · rintro x hx
        injection hx with hx
        subst hx
        exact ⟨_, rfl, by rw [World.alloc_next, hn]; show w.next + 3 < _; omega⟩
  | lstm l =>
    simp only [layerStep, Option.bind_eq_bind, Option.bind_eq_some_iff, Option.some.injEq, Prod.mk.injEq] at h
    obtain ⟨⟨w1, r1⟩, hq, rfl, rfl⟩ := h
    unfold KLSTM.quantize at hq
    simp only [Option.bind_eq_bind, Option.bind_eq_some_iff, Option.some.injEq, Prod.mk.injEq] at hq
    obtain ⟨input, -, X, -, st, -, ns, hns, a, ha, res, -, rfl, rfl⟩ := hq
    obtain ⟨f1, f2⟩ := allocAll_nodes ns w
    have hlen : 12 < ns.length := by
      unfold KLSTM.nodes at hns
      simp only [Option.bind_eq_bind, Option.bind_eq_some_iff, Option.some.injEq] at hns
      obtain ⟨ks, hks, us, hus, hid, -, ras, -, cell, -, rfl⟩ := hns
      have := mapM_length _ hks
      have := mapM_length _ hus
      simp only [List.length_append, KLSTM.biasNodes, KLSTM.biasAddNodes, List.length_map, List.length_range,
        List.length_cons, List.length_nil] at *
      omega
    unfold KLSTM.acts at ha
    simp only [Option.bind_eq_bind, Option.bind_eq_some_iff, Option.some.injEq] at ha
    obtain ⟨⟨v0, s0⟩, h0, ⟨v1, s1⟩, h1, ⟨v2, s2⟩, h2, ⟨v3, s3⟩, h3, ⟨v4, s4⟩, h4, rfl⟩ := ha
    obtain ⟨g0, k0⟩ := gateAct_frame h0
    obtain ⟨g1, k1⟩ := gateAct_frame h1
    obtain ⟨g2, k2⟩ := gateAct_frame h2
    obtain ⟨g3, k3⟩ := gateAct_frame h3
    obtain ⟨g4, k4⟩ := gateAct_frame h4
    simp only at *
    refine ⟨by omega, ?_, ?_⟩
    · intro j hj
      rw [k4 j (by omega), k3 j (by omega), k2 j (by omega), k1 j (by omega), k0 j (by omega), f2 j hj]
    · rintro x hx
      injection hx with hx
      subst hx
      exact ⟨_, rfl, by show w.next + 12 < _; omega⟩
  | dropout =>
    simp only [layerStep, Option.some.injEq, Prod.mk.injEq] at h
    obtain ⟨rfl, rfl⟩ := h
    exact ⟨le_rfl, fun _ _ => rfl, fun x hx => by cases hx⟩
  | input =>
    simp only [layerStep, Option.some.injEq, Prod.mk.injEq] at h
    obtain ⟨rfl, rfl⟩ := h
    exact ⟨le_rfl, fun _ _ => rfl, fun x hx => by cases hx⟩
  | other => simp [layerStep] at h

/-- The layer loop only creates nodes. -/
theorem layers_frame {ext : Ext} {cfg : Cfg} (ls : List KLayer) : ∀ {w w' : World} {prev last : QRes} {rs : List QRes}
    {r : Ref}, quantizeLayers ext cfg w prev ls = some (w', last, rs) → prev.out = some r → r.id < w.next →
    w.next ≤ w'.next ∧ ∀ j < w.next, w'.nodes j = w.nodes j := by
  induction ls with
  | nil =>
    intro w w' prev last rs r h hr hid
    simp only [quantizeLayers, Option.some.injEq, Prod.mk.injEq] at h
    obtain ⟨rfl, -, -⟩ := h
    exact ⟨le_rfl, fun _ _ => rfl⟩
  | cons l ls ih =>
    intro w w' prev last rs r h hr hid
    simp only [quantizeLayers, Option.bind_eq_bind, Option.bind_eq_some_iff] at h
    obtain ⟨⟨w1, q⟩, hs, h⟩ := h
    obtain ⟨f1, f2, f3⟩ := layer_frame hs hr hid
    cases q with
    | none =>
      obtain ⟨i1, i2⟩ := ih h hr (by simp only; omega)
      exact ⟨by simp only at *; omega, fun j hj => by rw [i2 j (by simp only; omega), f2 j hj]⟩
    | some q =>
      simp only [Option.bind_eq_some_iff, Option.some.injEq, Prod.mk.injEq] at h
      obtain ⟨⟨w2, last', rs'⟩, h2, rfl, rfl, rfl⟩ := h
      obtain ⟨o, ho, hoid⟩ := f3 q rfl
      obtain ⟨i1, i2⟩ := ih h2 ho hoid
      exact ⟨by simp only at *; omega, fun j hj => by rw [i2 j (by omega), f2 j hj]⟩

/-- The nodes and operators of a quantized model without LSTM layers. -/
theorem layers_chain {ext : Ext} {cfg : Cfg} (ls : List KLayer) (hls : ∀ l, KLayer.lstm l ∉ ls) :
    ∀ {w w' : World} {prev last : QRes} {rs : List QRes} {r : Ref},
    quantizeLayers ext cfg w prev ls = some (w', last, rs) → prev.out = some r → r.id < w.next →
    (∃ z, prev.ops.getLast? = some z ∧ z.outputs.getLast? = some r) →
    ∃ o, Chain w' cfg prev.data r ls (networkOps rs) o last.data ∧ last.out = some o ∧
      ∃ z, last.ops.getLast? = some z ∧ z.outputs.getLast? = some o := by
  induction ls with
  | nil =>
    intro w w' prev last rs r h hr hid hz
    simp only [quantizeLayers, Option.some.injEq, Prod.mk.injEq] at h
    obtain ⟨rfl, rfl, rfl⟩ := h
    exact ⟨r, .nil _ _, hr, hz⟩
  | cons l ls ih =>
    intro w w' prev last rs r h hr hid hz
    have hls' : ∀ l, KLayer.lstm l ∉ ls := fun l hl => hls l (List.mem_cons_of_mem _ hl)
    simp only [quantizeLayers, Option.bind_eq_bind, Option.bind_eq_some_iff] at h
    obtain ⟨⟨w1, q⟩, hs, h⟩ := h
    obtain ⟨f1, f2, f3⟩ := layer_frame hs hr hid
    cases l with
    | lstm l => exact absurd List.mem_cons_self (hls l)
    | other => simp [layerStep] at hs
    | dropout =>
      simp only [layerStep, Option.some.injEq, Prod.mk.injEq] at hs
      obtain ⟨rfl, rfl⟩ := hs
      obtain ⟨o, i1, i2⟩ := ih hls' h hr hid hz
      exact ⟨o, .skip (.inl rfl) i1, i2⟩
    | input =>
      simp only [layerStep, Option.some.injEq, Prod.mk.injEq] at hs
      obtain ⟨rfl, rfl⟩ := hs
      obtain ⟨o, i1, i2⟩ := ih hls' h hr hid hz
      exact ⟨o, .skip (.inr rfl) i1, i2⟩
    | dense l =>
      simp only [layerStep, Option.bind_eq_bind, Option.bind_eq_some_iff, Option.some.injEq, Prod.mk.injEq] at hs
      obtain ⟨c, hc, ⟨w1', r1⟩, hq, rfl, rfl⟩ := hs
      simp only [Option.bind_eq_some_iff, Option.some.injEq, Prod.mk.injEq] at h
      obtain ⟨⟨w2, last', rs'⟩, h2, rfl, rfl, rfl⟩ := h
      obtain ⟨o, ho, hoid⟩ := f3 _ rfl
      obtain ⟨g1, g2⟩ := layers_frame ls h2 ho hoid
      obtain ⟨qk, qa, qba, qb, input, kn, pre, d, p, e1, e2, e3, e4, hin, e5, e6, e7, e8, -, hq⟩ := l.quantize_spec hq
      rw [hr] at hin
      injection hin with hin
      subst hin
      have hfc := fcWorld_nodes w l r kn qb qba p prev.data hid
      have hfn := fcWorld_next w l r kn qb qba p prev.data
      simp only at *
      rcases hq with ⟨hsk, rfl, rfl⟩ | ⟨hsk, a, ha, rfl, rfl⟩
      · obtain ⟨o', i1, i2⟩ := ih hls' h2 rfl (by rw [hfn]; show w.next + 2 < _; omega) ⟨_, rfl, rfl⟩
        rw [hfn] at g2
        refine ⟨o', ?_, i2⟩
        refine Chain.plain (ops := networkOps rs') w.next hid (by rw [hfn] at g1; omega) hc ⟨e1, e2, e3, e4, e5, ?_, ?_, e6, e7, e8⟩ hsk ?_ i1
        · rw [g2 _ (by omega), hfc, if_neg (by omega), if_neg (by omega), if_pos rfl]
        · rw [g2 _ (by omega), hfc, if_neg (by omega), if_pos rfl, g2 _ (by omega), hfc, if_neg (by omega),
            if_neg (by omega), if_neg (by omega)]
        · rw [g2 _ (by omega), hfc, if_pos rfl]
      · have hn : ∀ b : Bool, (if b = true then (fcWorld w l r kn qb qba p prev.data).setNode (w.next + 2)
            (((fcWorld w l r kn qb qba p prev.data).nodes (w.next + 2)).withLut l.act a.1 a.2)
            else fcWorld w l r kn qb qba p prev.data).next = w.next + 3 := by
          intro b; cases b <;> simp [hfn]
        have hv : ∀ (b : Bool) j, j ≠ w.next + 2 → (if b = true then (fcWorld w l r kn qb qba p prev.data).setNode (w.next + 2)
            (((fcWorld w l r kn qb qba p prev.data).nodes (w.next + 2)).withLut l.act a.1 a.2)
            else fcWorld w l r kn qb qba p prev.data).nodes j = (fcWorld w l r kn qb qba p prev.data).nodes j := by
          intro b j hj; cases b <;> simp [World.setNode_nodes, hj]
        have hv2 : ∀ (b : Bool), (if b = true then (fcWorld w l r kn qb qba p prev.data).setNode (w.next + 2)
            (((fcWorld w l r kn qb qba p prev.data).nodes (w.next + 2)).withLut l.act a.1 a.2)
            else fcWorld w l r kn qb qba p prev.data).nodes (w.next + 2) =
            if b = true then ((Node.base p.1 p.2 qba).withTensor prev.data.toFArr).withLut l.act a.1 a.2
            else (Node.base p.1 p.2 qba).withTensor prev.data.toFArr := by
          intro b; cases b <;> simp [World.setNode_nodes, hfc]
        obtain ⟨o', i1, i2⟩ := ih hls' h2 rfl (by rw [World.alloc_next, hn]; show w.next + 3 < _; omega) ⟨_, rfl, rfl⟩
        rw [World.alloc_next, hn] at g2
        refine ⟨o', ?_, i2⟩
        refine Chain.act (ops := networkOps rs') w.next hid (by rw [World.alloc_next, hn] at g1; omega) hc ⟨e1, e2, e3, e4, e5, ?_, ?_, e6, e7, e8⟩ hsk ha ?_ ?_ i1
        · rw [g2 _ (by omega), World.alloc_nodes, hn, if_neg (by omega), hv _ _ (by omega), hfc, if_neg (by omega),
            if_neg (by omega), if_pos rfl]
        · rw [g2 _ (by omega), World.alloc_nodes, hn, if_neg (by omega), hv _ _ (by omega), hfc, if_neg (by omega),
            if_pos rfl, g2 _ (by omega), World.alloc_nodes, hn, if_neg (by omega), hv _ _ (by omega), hfc,
            if_neg (by omega), if_neg (by omega), if_neg (by omega)]
        · rw [g2 _ (by omega), World.alloc_nodes, hn, if_neg (by omega), hv2]
        · rw [g2 _ (by omega), World.alloc_nodes, hn, if_pos rfl]

/-- The whole model: input node 0, the chain of layers, the operators. -/
theorem model_chain {ext : Ext} {cfg : Cfg} {x : Arr ℚ} {ls : List KLayer} {w : World} {rs : List QRes}
    (hls : ∀ l, KLayer.lstm l ∉ ls) (h : quantizeModel ext cfg x ls = some (w, rs)) :
    0 < w.next ∧ ∃ q p ops o Z, quantization cfg.quantizeDtype = some q ∧ (Dist.build x.flat).quantize q = some p ∧
      w.nodes 0 = (Node.base p.1 p.2 q).withTensor x.toFArr ∧ Chain w cfg x ⟨0, true⟩ ls ops o Z ∧
      networkOps rs = { opType := "QUANTIZE", name := "QUANTIZE", inputs := [], outputs := [⟨0, true⟩] } ::
        (ops ++ [{ opType := "DEQUANTIZE", name := "DEQUANTIZE", inputs := [o], outputs := [] }]) := by
  unfold quantizeModel at h
  simp only [Option.bind_eq_bind, Option.bind_eq_some_iff, Option.some.injEq, Prod.mk.injEq] at h
  obtain ⟨⟨w0, i⟩, hi, ⟨w1, last, rs'⟩, hl, d, hd, rfl, rfl⟩ := h
  unfold inputQuantize at hi
  simp only [Option.bind_eq_bind, Option.bind_eq_some_iff, Option.some.injEq, Prod.mk.injEq] at hi
  obtain ⟨q, hq, p, hp, rfl, rfl⟩ := hi
  have hlt : (World.alloc (World.empty (Node.base 0 0 (intDtype 7))) ((Node.base p.1 p.2 q).withTensor x.toFArr)).next = 1 := rfl
  obtain ⟨o, c1, c2, z, hz, hzo⟩ := layers_chain ls hls hl rfl (by rw [hlt]; show 0 < 1; omega) ⟨_, rfl, rfl⟩
  obtain ⟨f1, f2⟩ := layers_frame ls hl rfl (by rw [hlt]; show 0 < 1; omega)
  unfold dequantize at hd
  simp only [Option.bind_eq_bind, Option.bind_eq_some_iff, Option.some.injEq] at hd
  obtain ⟨op, hop, o', ho, rfl⟩ := hd
  simp only at hop hz c1
  rw [hz] at hop
  injection hop with hop
  subst hop
  rw [hzo] at ho
  injection ho with ho
  subst ho
  refine ⟨by rw [hlt] at f1; simp only at f1 ⊢; omega, q, p, networkOps rs', o, last.data, hq, hp, ?_, c1, ?_⟩
  · simp only at f2 ⊢
    rw [f2 0 (by rw [hlt]; omega)]; rfl
  · simp only [networkOps, List.flatMap_append, List.flatMap_cons, List.flatMap_nil, List.append_nil]
    rfl

end Verif.Keras
