import Verif.Props.LSTMExport
import Verif.Props.RecurrentAccuracy

/-!
# Property C93: what a layer contributes to the exported file

Dropout and input layers contribute nothing, settings of layers the model does not have change nothing, and layers that
come later never change what earlier ones exported.
-/

namespace Verif
open Keras

namespace Keras

theorem gateAct_refs {w w' : World} {src : ℕ} {fn : ℚ → ℚ} {an : String} {data : Arr ℚ} {q : GDtype} {rs : List Ref}
    (h : KLSTM.gateAct w src fn an data q = some (w', rs)) : ∀ r ∈ rs, r.id < w'.next := by
  unfold KLSTM.gateAct quantizeActivation at h
  simp only [Option.bind_eq_bind, Option.bind_eq_some_iff] at h
  obtain ⟨⟨w1, o, d⟩, h1, h⟩ := h
  by_cases hu : upper an ∈ skipFunctions
  · rw [if_pos hu, Option.some.injEq, Prod.mk.injEq, Prod.mk.injEq] at h1
    obtain ⟨-, rfl, -⟩ := h1
    simp at h
  · rw [if_neg hu] at h1
    simp only [Option.bind_eq_some_iff, Option.some.injEq, Prod.mk.injEq] at h1
    obtain ⟨p, -, rfl, rfl, -⟩ := h1
    simp only [Option.some.injEq, Prod.mk.injEq] at h
    obtain ⟨rfl, rfl⟩ := h
    have hn : ∀ (b : Bool) (n : Node), (if b = true then ((w.alloc (w.nodes src)).setNode w.next n)
        else w.alloc (w.nodes src)).next = w.next + 1 := by
      intro b n; cases b <;> simp
    intro r hr
    rw [World.alloc_next, hn]
    simp only [List.take_succ_cons, List.take_zero, List.mem_append, List.mem_singleton] at hr
    rcases hr with rfl | rfl
    · show w.next < _; omega
    · show (if _ then _ else _ : World).next < _
      rw [hn]; omega

/-- Operators only refer to objects that exist. -/
theorem layer_refs {ext : Ext} {cfg : Cfg} {w w' : World} {prev x : QRes} {l : KLayer} {r : Ref}
    (h : layerStep ext cfg w prev l = some (w', some x)) (hr : prev.out = some r) (hid : r.id < w.next) :
    ∀ op ∈ x.ops, (∀ r ∈ op.inputs, r.id < w'.next) ∧ ∀ r ∈ op.outputs, r.id < w'.next := by
  cases l with
  | dense l =>
    simp only [layerStep, Option.bind_eq_bind, Option.bind_eq_some_iff, Option.some.injEq, Prod.mk.injEq] at h
    obtain ⟨c, hc, ⟨w1, r1⟩, hq, rfl, rfl⟩ := h
    obtain ⟨qk, qa, qba, qb, input, kn, pre, d, p, -, -, -, -, hin, -, -, -, -, -, hq⟩ := l.quantize_spec hq
    rw [hr] at hin
    injection hin with hin
    subst hin
    have hfn := fcWorld_next w l r kn qb qba p prev.data
    have hfc : (∀ a ∈ (fcOp w l r).inputs, a.id < w.next + 3) ∧ ∀ a ∈ (fcOp w l r).outputs, a.id < w.next + 3 := by
      unfold fcOp
      constructor
      · intro a ha
        simp only [List.mem_cons, List.not_mem_nil, or_false] at ha
        rcases ha with rfl | rfl | rfl
        · omega
        · show w.next < _; omega
        · show w.next + 1 < _; omega
      · intro a ha
        simp only [List.mem_singleton] at ha
        subst ha
        show w.next + 2 < _; omega
    rcases hq with ⟨-, rfl, rfl⟩ | ⟨-, o, -, rfl, rfl⟩
    · intro op hop
      simp only [List.mem_singleton] at hop
      subst hop
      rw [hfn]; exact hfc
    · have hn : ∀ b : Bool, (if b = true then (fcWorld w l r kn qb qba p prev.data).setNode (w.next + 2)
          (((fcWorld w l r kn qb qba p prev.data).nodes (w.next + 2)).withLut l.act o.1 o.2)
          else fcWorld w l r kn qb qba p prev.data).next = w.next + 3 := by
        intro b; cases b <;> simp [hfn]
      intro op hop
      rw [World.alloc_next, hn]
      simp only [List.mem_cons, List.not_mem_nil, or_false] at hop
      rcases hop with rfl | rfl
      · exact ⟨fun a ha => (hfc.1 a ha).trans (by omega), fun a ha => (hfc.2 a ha).trans (by omega)⟩
      · unfold actOp
        constructor
        · intro a ha
          simp only [List.mem_singleton] at ha
          subst ha
          show w.next + 2 < _; omega
        · intro a ha
          simp only [List.mem_singleton] at ha
          subst ha
          show w.next + 3 < _; omega
  | lstm l =>
    simp only [layerStep, Option.bind_eq_bind, Option.bind_eq_some_iff, Option.some.injEq, Prod.mk.injEq] at h
    obtain ⟨⟨w1, r1⟩, hq, rfl, rfl⟩ := h
    unfold KLSTM.quantize at hq
    simp only [Option.bind_eq_bind, Option.bind_eq_some_iff, Option.some.injEq, Prod.mk.injEq] at hq
    obtain ⟨input, hin, X, -, st, -, ns, hns, a, ha, res, -, rfl, rfl⟩ := hq
    rw [hr, Option.some.injEq] at hin
    subst hin
    obtain ⟨f1, f2⟩ := allocAll_nodes ns w
    have hlen : ns.length = 22 := by
      unfold KLSTM.nodes at hns
      simp only [Option.bind_eq_bind, Option.bind_eq_some_iff, Option.some.injEq] at hns
      obtain ⟨ks, hks, us, hus, hid, -, ras, hras, cell, -, rfl⟩ := hns
      have := mapM_length _ hks
      have := mapM_length _ hus
      have := mapM_length _ hras
      simp only [List.length_append, KLSTM.biasNodes, KLSTM.biasAddNodes, List.length_map, List.length_range,
        List.length_cons, List.length_nil] at *
      omega
    unfold KLSTM.acts at ha
    simp only [Option.bind_eq_bind, Option.bind_eq_some_iff, Option.some.injEq] at ha
    obtain ⟨⟨v0, s0⟩, h0, ⟨v1, s1⟩, h1, ⟨v2, s2⟩, h2, ⟨v3, s3⟩, h3, ⟨v4, s4⟩, h4, rfl⟩ := ha
    have g0 := (gateAct_frame h0).1
    have g1 := (gateAct_frame h1).1
    have g2 := (gateAct_frame h2).1
    have g3 := (gateAct_frame h3).1
    have g4 := (gateAct_frame h4).1
    have k0 := gateAct_refs h0
    have k1 := gateAct_refs h1
    have k2 := gateAct_refs h2
    have k3 := gateAct_refs h3
    have k4 := gateAct_refs h4
    have hrefs : ∀ (i k : ℕ) (e : Bool), i + k ≤ w.next + 22 → ∀ a ∈ KLSTM.refs i k e, a.id < w.next + 22 := by
      intro i k e hik a ha
      simp only [KLSTM.refs, List.mem_map, List.mem_range] at ha
      obtain ⟨j, hj, rfl⟩ := ha
      show i + j < _; omega
    simp only at *
    have hv : w.next + 22 ≤ v4.next := by omega
    intro op hop
    simp only [List.mem_singleton] at hop
    subst hop
    constructor
    · intro b hb
      simp only [KLSTM.op, List.mem_append, List.mem_singleton] at hb
      rcases hb with (((((((rfl | hb) | hb) | hb) | hb) | hb) | hb) | hb)
      · omega
      · have := hrefs _ _ _ (by omega) b hb; omega
      · have := hrefs _ _ _ (by omega) b hb; omega
      · have := hrefs _ _ _ (by omega) b hb; omega
      · have := hrefs _ _ _ (by omega) b hb; omega
      · have := hrefs _ _ _ (by omega) b hb; omega
      · have := hrefs _ _ _ (by omega) b hb; omega
      · rcases hb with ((((hb | hb) | hb) | hb) | hb)
        · have := k0 b hb; omega
        · have := k1 b hb; omega
        · have := k2 b hb; omega
        · have := k3 b hb; omega
        · exact k4 b hb
    · intro b hb
      simp only [KLSTM.op, List.mem_singleton] at hb
      subst hb
      show w.next + 12 < _; omega
  | dropout => simp [layerStep] at h
  | input => simp [layerStep] at h
  | other => simp [layerStep] at h

/-- The layer loop, and the objects its operators refer to. -/
theorem layers_refs {ext : Ext} {cfg : Cfg} (ls : List KLayer) : ∀ {w w' : World} {prev last : QRes} {rs : List QRes}
    {r : Ref}, quantizeLayers ext cfg w prev ls = some (w', last, rs) → prev.out = some r → r.id < w.next →
    (∀ op ∈ networkOps rs, (∀ r ∈ op.inputs, r.id < w'.next) ∧ ∀ r ∈ op.outputs, r.id < w'.next) ∧
      ∃ o, last.out = some o ∧ o.id < w'.next := by
  induction ls with
  | nil =>
    intro w w' prev last rs r h hr hid
    simp only [quantizeLayers, Option.some.injEq, Prod.mk.injEq] at h
    obtain ⟨rfl, rfl, rfl⟩ := h
    exact ⟨by simp [networkOps], r, hr, hid⟩
  | cons l ls ih =>
    intro w w' prev last rs r h hr hid
    simp only [quantizeLayers, Option.bind_eq_bind, Option.bind_eq_some_iff] at h
    obtain ⟨⟨w1, q⟩, hs, h⟩ := h
    obtain ⟨f1, f2, f3⟩ := layer_frame hs hr hid
    cases q with
    | none => exact ih h hr (by simp only; omega)
    | some q =>
      simp only [Option.bind_eq_some_iff, Option.some.injEq, Prod.mk.injEq] at h
      obtain ⟨⟨w2, last', rs'⟩, h2, rfl, rfl, rfl⟩ := h
      obtain ⟨o, ho, hoid⟩ := f3 q rfl
      obtain ⟨i1, i2⟩ := ih h2 ho hoid
      have hle := (layers_frame ls h2 ho hoid).1
      refine ⟨?_, i2⟩
      intro op hop
      simp only [networkOps, List.flatMap_cons, List.mem_append] at hop
      rcases hop with hop | hop
      · obtain ⟨a1, a2⟩ := layer_refs hs hr hid op hop
        simp only at *
        exact ⟨fun a ha => (a1 a ha).trans_le hle, fun a ha => (a2 a ha).trans_le hle⟩
      · exact i1 op hop

theorem quantizeLayers_append {ext : Ext} {cfg : Cfg} (a b : List KLayer) : ∀ (w : World) (prev : QRes),
    quantizeLayers ext cfg w prev (a ++ b) = (quantizeLayers ext cfg w prev a).bind (fun r =>
      (quantizeLayers ext cfg r.1 r.2.1 b).map (fun t => (t.1, t.2.1, r.2.2 ++ t.2.2))) := by
  induction a with
  | nil =>
    intro w prev
    simp only [List.nil_append, quantizeLayers, Option.bind_some]
    cases quantizeLayers ext cfg w prev b <;> rfl
  | cons l a ih =>
    intro w prev
    simp only [List.cons_append, quantizeLayers, Option.bind_eq_bind]
    cases layerStep ext cfg w prev l with
    | none => rfl
    | some r =>
      simp only [Option.bind_some]
      cases r.2 with
      | none => simp only; rw [ih]
      | some q =>
        simp only
        rw [ih]
        cases quantizeLayers ext cfg r.1 q a with
        | none => rfl
        | some t =>
          simp only [Option.bind_some]
          cases quantizeLayers ext cfg t.1 t.2.1 b <;> rfl

end Keras

/-- C93 (dropout and input layers).  Wherever in the model a dropout or an input layer stands, quantizing the model without
it gives the same result (or fails alike). -/
theorem C93_dropout (ext : Ext) (cfg : Cfg) (x : Arr ℚ) (a b : List KLayer) (l : KLayer) (hl : l = .dropout ∨ l = .input) :
    quantizeModel ext cfg x (a ++ l :: b) = quantizeModel ext cfg x (a ++ b) := by
  have h : ∀ w prev, quantizeLayers ext cfg w prev (a ++ l :: b) = quantizeLayers ext cfg w prev (a ++ b) := by
    intro w prev
    rw [quantizeLayers_append, quantizeLayers_append]
    congr 1
    funext r
    congr 1
    rcases hl with rfl | rfl <;> simp only [quantizeLayers, layerStep, Option.bind_eq_bind, Option.bind_some]
  unfold quantizeModel
  simp only [h]

/-- C93 (configuration).  Two configurations with the same input type that give every dense layer of the model the same
settings — its own entry if it has one, the default otherwise — give the same result, whatever else they contain. -/
theorem C93_configuration (ext : Ext) (cfg cfg' : Cfg) (x : Arr ℚ) (ls : List KLayer) (hq : cfg.quantizeDtype = cfg'.quantizeDtype)
    (h : ∀ l : KDense, .dense l ∈ ls → (cfg.specific.lookup l.name).getD (some cfg.dense) =
      (cfg'.specific.lookup l.name).getD (some cfg'.dense)) :
    quantizeModel ext cfg x ls = quantizeModel ext cfg' x ls := by
  have key : ∀ w prev, quantizeLayers ext cfg w prev ls = quantizeLayers ext cfg' w prev ls := by
    induction ls with
    | nil => intro w prev; rfl
    | cons l ls ih =>
      intro w prev
      have ih' := ih (fun l hl => h l (List.mem_cons_of_mem _ hl))
      have hs : layerStep ext cfg w prev l = layerStep ext cfg' w prev l := by
        cases l with
        | dense l =>
          have := h l List.mem_cons_self
          simp only [layerStep, Cfg.denseFor, this]
        | _ => rfl
      simp only [quantizeLayers, hs, ih']
  unfold quantizeModel
  simp only [hq, key]

/-- C93 (configuration).  An entry for a name no dense layer has changes nothing; neither does an entry that repeats the
defaults, if the name has no other entry. -/
theorem C93_entry (ext : Ext) (cfg : Cfg) (x : Arr ℚ) (ls : List KLayer) (name : String) (e : Option DenseCfg)
    (h : (∀ l : KDense, .dense l ∈ ls → l.name ≠ name) ∨ (e = some cfg.dense ∧ cfg.specific.lookup name = none)) :
    quantizeModel ext { cfg with specific := (name, e) :: cfg.specific } x ls = quantizeModel ext cfg x ls := by
  refine C93_configuration ext _ _ x ls rfl (fun l hl => ?_)
  show (List.lookup l.name ((name, e) :: cfg.specific)).getD _ = _
  rw [List.lookup_cons]
  by_cases hn : l.name = name
  · rcases h with h | ⟨rfl, h⟩
    · exact absurd hn (h l hl)
    · rw [hn, h]
      simp
  · rw [beq_false_of_ne hn]

/-- C93 (prefix).  Quantizing a model that continues another one writes the same operators for the common layers, number
for number: the graph of the shorter model without its final dequantize operator is the beginning of the longer one's. In
particular whenever the longer model can be quantized, so can the shorter. -/
theorem C93_prefix (ext : Ext) (cfg : Cfg) (x : Arr ℚ) (a b : List KLayer) (w' : World) (rs' : List QRes)
    (h : quantizeModel ext cfg x (a ++ b) = some (w', rs')) :
    ∃ w rs, quantizeModel ext cfg x a = some (w, rs) ∧ ∃ g d t, (networkJson w rs).graph = g ++ [d] ∧
      d.opType = "DEQUANTIZE" ∧ (networkJson w' rs').graph = g ++ t := by
  unfold quantizeModel at h
  simp only [Option.bind_eq_bind, Option.bind_eq_some_iff, Option.some.injEq, Prod.mk.injEq] at h
  obtain ⟨⟨w0, i0⟩, hi, ⟨w2, last, rs2⟩, hls, d, hd, rfl, rfl⟩ := h
  rw [quantizeLayers_append] at hls
  simp only [Option.bind_eq_some_iff, Option.map_eq_some_iff, Prod.mk.injEq] at hls
  obtain ⟨⟨w1, last1, rs1⟩, h1, ⟨w3, last3, rs3⟩, h3, rfl, rfl, rfl⟩ := hls
  have hi' := hi
  unfold inputQuantize at hi
  simp only [Option.bind_eq_bind, Option.bind_eq_some_iff, Option.some.injEq, Prod.mk.injEq] at hi
  obtain ⟨q, hq, p, hp, rfl, rfl⟩ := hi
  have hz : (0 : ℕ) < ((World.empty (Node.base 0 0 (intDtype 7))).alloc ((Node.base p.1 p.2 q).withTensor x.toFArr)).next := by
    rw [World.alloc_next]; show 0 < 0 + 1; omega
  obtain ⟨f1, f2⟩ := layers_refs a h1 rfl hz
  obtain ⟨o, ho, hoid⟩ := f2
  have hle := (layers_frame a h1 rfl hz).1
  obtain ⟨-, hsame⟩ := layers_frame b h3 ho hoid
  obtain ⟨-, -, ⟨r, hr, z, hz1, hz2⟩, -, -⟩ := layers_facts a h1 (by simp) ⟨_, rfl, _, rfl, rfl⟩
  have hdq : dequantize last1 = some { data := last1.data, out := none, ops := [{ opType := "DEQUANTIZE", name := "DEQUANTIZE", inputs := [r], outputs := [] }] } := by
    unfold dequantize
    rw [hz1]
    simp only [Option.bind_eq_bind, Option.bind_some, hz2, List.getLast?_singleton]
  obtain ⟨I, hI⟩ : ∃ I : QRes, I = ⟨x, some ⟨(World.empty (Node.base 0 0 (intDtype 7))).next, true⟩,
      [⟨"QUANTIZE", "QUANTIZE", [], [⟨(World.empty (Node.base 0 0 (intDtype 7))).next, true⟩], none⟩]⟩ := ⟨_, rfl⟩
  rw [← hI] at h1 hi' ⊢
  obtain ⟨D, hD⟩ : ∃ D : Op, D = ⟨"DEQUANTIZE", "DEQUANTIZE", [r], [], none⟩ := ⟨_, rfl⟩
  rw [← hD] at hdq
  refine ⟨w1, [I] ++ rs1 ++ [⟨last1.data, none, [D]⟩], ?_, (networkOps ([I] ++ rs1)).map (opJson w1), opJson w1 D,
    (networkOps (rs3 ++ [d])).map (opJson w3), ?_, by rw [hD]; rfl, ?_⟩
  · unfold quantizeModel
    rw [hi']
    simp only [Option.bind_eq_bind, Option.bind_some, h1, hdq]
  · simp only [networkJson, networkOps, List.flatMap_append, List.map_append, List.flatMap_cons, List.flatMap_nil,
      List.append_nil, List.map_cons, List.map_nil]
  · have e : (networkOps ([I] ++ rs1)).map (opJson w3) = (networkOps ([I] ++ rs1)).map (opJson w1) := by
      apply List.map_congr_left
      intro op hop
      have hb : (∀ r ∈ op.inputs, r.id < w1.next) ∧ ∀ r ∈ op.outputs, r.id < w1.next := by
        simp only [networkOps, List.flatMap_append, List.mem_append, List.flatMap_cons, List.flatMap_nil,
          List.append_nil] at hop
        rcases hop with hop | hop
        · rw [hI, List.mem_singleton] at hop
          subst hop
          refine ⟨by simp, ?_⟩
          intro a ha
          rw [List.mem_singleton] at ha
          subst ha
          exact hz.trans_le hle
        · exact f1 op hop
      unfold opJson
      rw [List.map_congr_left (fun r hr => by rw [hsame r.id (hb.1 r hr)]),
        List.map_congr_left (l := op.outputs) (fun r hr => by rw [hsame r.id (hb.2 r hr)])]
    rw [← e]
    simp only [networkJson, networkOps, List.flatMap_append, List.map_append, List.append_assoc]

/-- The model of `C59Case` (tanh layer, dropout, linear layer): its first layer alone exports the same operators, and the
dropout layer can be left out. -/
example (ext : Ext) : ∃ w rs w' rs', quantizeModel ext {} (.mat C59Case.X) (C59Case.layers.take 1) = some (w, rs) ∧
    quantizeModel ext {} (.mat C59Case.X) (C59Case.layers.take 1 ++ C59Case.layers.drop 2) = some (w', rs') ∧
    ∃ g d t, (networkJson w rs).graph = g ++ [d] ∧ d.opType = "DEQUANTIZE" ∧ (networkJson w' rs').graph = g ++ t := by
  obtain ⟨w', rs', h⟩ := C59Case.succeeds ext
  have h1 : quantizeModel ext {} (.mat C59Case.X) (C59Case.layers.take 1 ++ C59Case.layers.drop 2) = some (w', rs') := by
    rw [← C93_dropout ext {} (.mat C59Case.X) (C59Case.layers.take 1) (C59Case.layers.drop 2) .dropout (.inl rfl)]
    exact h
  obtain ⟨w, rs, h2, h3⟩ := C93_prefix ext {} _ _ _ w' rs' h1
  exact ⟨w, rs, w', rs', h2, h1, h3⟩

/-- An entry for a layer the model does not have changes nothing, an entry for one it has may make it fail. -/
example (ext : Ext) : quantizeModel ext { specific := [("c", none)] } (.mat C59Case.X) C59Case.layers =
      quantizeModel ext {} (.mat C59Case.X) C59Case.layers ∧
    quantizeModel ext { specific := [("b", none)] } (.mat C59Case.X) C59Case.layers = none := by
  constructor
  · refine C93_entry ext {} _ _ "c" none (.inl ?_)
    intro l hl
    simp only [C59Case.layers, List.mem_cons, List.not_mem_nil, or_false, KLayer.dense.injEq, reduceCtorEq, false_or] at hl
    rcases hl with rfl | rfl <;> decide
  · have : ∀ w prev, quantizeLayers ext { specific := [("b", none)] } w prev (C59Case.layers.drop 2) = none := by
      intro w prev; rfl
    unfold quantizeModel
    rw [show C59Case.layers = C59Case.layers.take 2 ++ C59Case.layers.drop 2 from rfl]
    simp only [quantizeLayers_append, this, Option.map_none, Option.bind_eq_bind]
    cases inputQuantize (World.empty (Node.base 0 0 (intDtype 7))) "int8" (Arr.mat C59Case.X) with
    | none => rfl
    | some i =>
      simp only [Option.bind_some]
      cases quantizeLayers ext { specific := [("b", none)] } i.1 i.2 (C59Case.layers.take 2) <;> rfl

end Verif
