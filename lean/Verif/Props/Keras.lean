import Verif.Lemmas.Keras
import Mathlib.Data.List.Chain

/-!
# C45: the exported network preserves the operators of the Keras model
-/

namespace Verif
open Keras

/-- Operator types a Keras layer contributes to the exported network: a dense layer contributes its matrix product and,
unless the activation is linear, softmax, relu or relu6, one operator for the activation; dropout and input layers
contribute nothing. -/
def Spec.exported : KLayer → List (List Char)
  | .dense l => "FULLY_CONNECTED".toList ::
    (let a := upper l.actName
     if a ∈ ["LINEAR".toList, "SOFTMAX".toList, "RELU".toList, "RELU6".toList] then []
     else if a = "TANH".toList then ["TANHLUT".toList]
     else if a = "SIGMOID".toList then ["SIGMOIDLUT".toList]
     else [a])
  | .lstm _ => ["LSTM".toList]
  | .dropout => []
  | .input => []
  | .other => []

namespace Keras

theorem layer_types {ext : Ext} {cfg : Cfg} {w w' : World} {prev : QRes} {l : KLayer} {r : Option QRes}
    (h : layerStep ext cfg w prev l = some (w', r)) :
    ((r.map QRes.ops).getD []).map (fun o => o.opType.toList) = Spec.exported l := by
  cases l with
  | dense l =>
    simp only [layerStep, Option.bind_eq_bind, Option.bind_eq_some_iff, Option.some.injEq, Prod.mk.injEq] at h
    obtain ⟨c, hc, ⟨w1, r1⟩, hq, rfl, rfl⟩ := h
    obtain ⟨qk, qa, qba, qb, input, kn, pre, d, p, -, -, -, -, -, -, -, -, -, -, hr⟩ := l.quantize_spec hq
    rcases hr with ⟨hs, -, rfl⟩ | ⟨hs, o, -, -, rfl⟩
    · show ["FULLY_CONNECTED".toList] = "FULLY_CONNECTED".toList :: _
      rw [if_pos (show upper l.actName ∈ ["LINEAR".toList, "SOFTMAX".toList, "RELU".toList, "RELU6".toList] from hs)]
    · show ["FULLY_CONNECTED".toList, (KDense.actOpName l).toList] = "FULLY_CONNECTED".toList :: _
      rw [if_neg (show upper l.actName ∉ ["LINEAR".toList, "SOFTMAX".toList, "RELU".toList, "RELU6".toList] from hs),
        KDense.actOpName, String.toList_ofList, KDense.isLut]
      by_cases h1 : upper l.actName = "TANH".toList
      · rw [if_pos h1, if_pos (by rw [h1]; decide), h1]; rfl
      · rw [if_neg h1]
        by_cases h2 : upper l.actName = "SIGMOID".toList
        · rw [if_pos h2, if_pos (by rw [h2]; decide), h2]; rfl
        · have hn : upper l.actName ∉ lutFunctions := by
            simp only [lutFunctions, List.mem_cons, List.not_mem_nil, or_false, not_or]
            exact ⟨h1, h2⟩
          rw [if_neg h2, decide_eq_false hn, if_neg (by decide), String.toList_ofList]
  | lstm l =>
    simp only [layerStep, Option.bind_eq_bind, Option.bind_eq_some_iff, Option.some.injEq, Prod.mk.injEq] at h
    obtain ⟨⟨w1, r1⟩, hq, rfl, rfl⟩ := h
    obtain ⟨op, input, rest, -, h1, h2, -⟩ := KLSTM.quantize_ops hq
    simp only [Option.map_some, Option.getD_some, h1, List.map_cons, List.map_nil, h2, Spec.exported]
  | dropout =>
    simp only [layerStep, Option.some.injEq, Prod.mk.injEq] at h
    obtain ⟨-, rfl⟩ := h
    rfl
  | input =>
    simp only [layerStep, Option.some.injEq, Prod.mk.injEq] at h
    obtain ⟨-, rfl⟩ := h
    rfl
  | other => simp [layerStep] at h

/-- Consecutive operators: the single output node of one is the first input node of the next. -/
def Linked (a b : Op) : Prop := ∃ r, a.outputs = [r] ∧ b.inputs.head? = some r

/-- The result `q` continues `prev`: its operators form a chain starting at `prev`'s output and ending in its own. -/
def Continues (prev q : QRes) : Prop :=
  (∃ r, prev.out = some r ∧ ∃ a rest, q.ops = a :: rest ∧ a.inputs.head? = some r) ∧
  q.ops.IsChain Linked ∧ ∃ r, q.out = some r ∧ ∃ z, q.ops.getLast? = some z ∧ z.outputs = [r]

theorem layer_chain {ext : Ext} {cfg : Cfg} {w w' : World} {prev q : QRes} {l : KLayer}
    (h : layerStep ext cfg w prev l = some (w', some q)) : Continues prev q := by
  cases l with
  | dense l =>
    simp only [layerStep, Option.bind_eq_bind, Option.bind_eq_some_iff, Option.some.injEq, Prod.mk.injEq] at h
    obtain ⟨c, hc, ⟨w1, r1⟩, hq, rfl, rfl⟩ := h
    obtain ⟨qk, qa, qba, qb, input, kn, pre, d, p, -, -, -, -, hin, -, -, -, -, -, hr⟩ := l.quantize_spec hq
    rcases hr with ⟨hs, -, rfl⟩ | ⟨hs, o, -, -, rfl⟩
    · refine ⟨⟨input, hin, _, _, rfl, rfl⟩, by simp, _, rfl, _, rfl, rfl⟩
    · refine ⟨⟨input, hin, _, _, rfl, rfl⟩, ?_, _, rfl, _, rfl, rfl⟩
      simp only [List.isChain_cons_cons, List.isChain_singleton, and_true]
      exact ⟨_, rfl, rfl⟩
  | lstm l =>
    simp only [layerStep, Option.bind_eq_bind, Option.bind_eq_some_iff, Option.some.injEq, Prod.mk.injEq] at h
    obtain ⟨⟨w1, r1⟩, hq, rfl, rfl⟩ := h
    obtain ⟨op, input, rest, h0, h1, h2, h3, h4, h5⟩ := KLSTM.quantize_ops hq
    refine ⟨⟨input, h0, op, [], h1, by rw [h3]; rfl⟩, by simp [h1], _, h4, op, by rw [h1]; rfl, h5⟩
  | dropout => simp [layerStep] at h
  | input => simp [layerStep] at h
  | other => simp [layerStep] at h

/-- The result's last operator produces the result's output node. -/
def Ends (q : QRes) : Prop := ∃ r, q.out = some r ∧ ∃ z, q.ops.getLast? = some z ∧ z.outputs = [r]

theorem layers_facts {ext : Ext} {cfg : Cfg} (ls : List KLayer) : ∀ {w w' : World} {prev last : QRes} {rs : List QRes},
    quantizeLayers ext cfg w prev ls = some (w', last, rs) → prev.ops.IsChain Linked → Ends prev →
    (networkOps rs).map (fun o => o.opType.toList) = ls.flatMap Spec.exported ∧
    (prev.ops ++ networkOps rs).IsChain Linked ∧ Ends last ∧
    (prev.ops ++ networkOps rs).getLast? = last.ops.getLast? ∧ KLayer.other ∉ ls := by
  induction ls with
  | nil =>
    intro w w' prev last rs h hc he
    simp only [quantizeLayers, Option.some.injEq, Prod.mk.injEq] at h
    obtain ⟨-, rfl, rfl⟩ := h
    exact ⟨rfl, by simpa [networkOps] using hc, he, by simp [networkOps], by simp⟩
  | cons l ls ih =>
    intro w w' prev last rs h hc he
    simp only [quantizeLayers, Option.bind_eq_bind, Option.bind_eq_some_iff] at h
    obtain ⟨⟨w1, r⟩, hs, h⟩ := h
    have hl : KLayer.other ≠ l := by rintro rfl; simp [layerStep] at hs
    have ht := layer_types hs
    cases r with
    | none =>
      obtain ⟨i1, i2, i3, i4, i5⟩ := ih h hc he
      refine ⟨?_, i2, i3, i4, by simp [hl, i5]⟩
      rw [i1, List.flatMap_cons, ← ht]; simp
    | some q =>
      simp only [Option.bind_eq_some_iff, Option.some.injEq, Prod.mk.injEq] at h
      obtain ⟨⟨w2, last', rs'⟩, h2, rfl, rfl, rfl⟩ := h
      obtain ⟨⟨r1, hr1, a, rest, ha, hin⟩, hqc, hqe⟩ := layer_chain hs
      obtain ⟨i1, i2, i3, i4, i5⟩ := ih h2 hqc hqe
      refine ⟨?_, ?_, i3, ?_, by simp [hl, i5]⟩
      · rw [List.flatMap_cons, ← ht, ← i1]; simp [networkOps]
      · simp only [networkOps, List.flatMap_cons] at i2 ⊢
        rw [List.isChain_append]
        refine ⟨hc, i2, ?_⟩
        intro x hx y hy
        obtain ⟨r', hr', z, hz, hzo⟩ := he
        rw [hz] at hx
        simp only [Option.mem_def, Option.some.injEq] at hx
        rw [ha] at hy
        simp only [List.cons_append, List.head?_cons, Option.mem_def, Option.some.injEq] at hy
        subst hx hy
        rw [hr'] at hr1
        injection hr1 with hr1
        subst hr1
        exact ⟨_, hzo, hin⟩
      · simp only [networkOps, List.flatMap_cons] at i4 ⊢
        rw [List.getLast?_append, i4]
        obtain ⟨_, _, z, hz, _⟩ := i3
        rw [hz]; rfl

/-- What `_quantize` returns. -/
theorem model_facts {ext : Ext} {cfg : Cfg} {x : Arr ℚ} {ls : List KLayer} {w : World} {rs : List QRes}
    (h : quantizeModel ext cfg x ls = some (w, rs)) :
    (networkOps rs).map (fun o => o.opType.toList) =
      "QUANTIZE".toList :: ls.flatMap Spec.exported ++ ["DEQUANTIZE".toList] ∧
    (networkOps rs).IsChain Linked ∧ KLayer.other ∉ ls := by
  unfold quantizeModel at h
  simp only [Option.bind_eq_bind, Option.bind_eq_some_iff, Option.some.injEq, Prod.mk.injEq] at h
  obtain ⟨⟨w0, i⟩, hi, ⟨w1, last, rs'⟩, hl, d, hd, rfl, rfl⟩ := h
  unfold inputQuantize at hi
  simp only [Option.bind_eq_bind, Option.bind_eq_some_iff, Option.some.injEq, Prod.mk.injEq] at hi
  obtain ⟨q, -, p, -, rfl, rfl⟩ := hi
  obtain ⟨i1, i2, i3, i4, i5⟩ := layers_facts ls hl (by simp) ⟨_, rfl, _, rfl, rfl⟩
  unfold dequantize at hd
  simp only [Option.bind_eq_bind, Option.bind_eq_some_iff, Option.some.injEq] at hd
  obtain ⟨op, hop, o, ho, rfl⟩ := hd
  simp only [networkOps] at i1 i2 i4 ⊢
  refine ⟨?_, ?_, i5⟩
  · simp [i1]
  · simp only [List.flatMap_append, List.flatMap_cons, List.flatMap_nil, List.append_nil] at i2 i4 ⊢
    rw [List.isChain_append]
    refine ⟨i2, by simp, ?_⟩
    intro a ha b hb
    rw [i4, hop] at ha
    simp only [Option.mem_def, Option.some.injEq, List.head?_cons] at ha hb
    subst ha hb
    obtain ⟨r, -, z, hz, hzo⟩ := i3
    rw [hop] at hz
    injection hz with hz
    subst hz
    rw [hzo] at ho
    simp only [List.getLast?_singleton, Option.some.injEq] at ho
    subst ho
    exact ⟨_, hzo, rfl⟩

end Keras

/-- C45 (operators).  The exported JSON's operator list is QUANTIZE, then the operators of the model's layers in model
order, then DEQUANTIZE, its recorded operator count is the length of that list, and no layer type is silently ignored
except dropout and input layers. -/
theorem C45_operators (ext : Ext) (cfg : Cfg) (x : Arr ℚ) (layers : List KLayer) (w : World) (rs : List QRes)
    (h : quantizeModel ext cfg x layers = some (w, rs)) (w' : World) :
    (networkJson w' rs).graph.map (fun o => o.opType.toList) =
      ["QUANTIZE".toList] ++ layers.flatMap Spec.exported ++ ["DEQUANTIZE".toList] ∧
    (networkJson w' rs).operators = (networkJson w' rs).graph.length := by
  obtain ⟨h1, -, -⟩ := model_facts h
  refine ⟨?_, by simp [networkJson]⟩
  simp only [networkJson, List.map_map]
  rw [show ((fun o : OpJ => o.opType.toList) ∘ opJson w') = fun o : Op => o.opType.toList from rfl, h1]
  simp

/-- C45 (unsupported layers).  A model with a layer that is neither dense, LSTM, dropout nor input is rejected. -/
theorem C45_unsupported (ext : Ext) (cfg : Cfg) (x : Arr ℚ) (layers : List KLayer) (h : KLayer.other ∈ layers) :
    quantizeModel ext cfg x layers = none := by
  rw [Option.eq_none_iff_forall_not_mem]
  rintro ⟨w, rs⟩ hr
  exact (model_facts hr).2.2 h

/-- C45 (wiring).  In the exported JSON each operator has exactly one output node, except the last (DEQUANTIZE), and
the next operator's first input node is identical to it — also after any later change to the node objects (`w'`), since
both refer to the same object. -/
theorem C45_wiring (ext : Ext) (cfg : Cfg) (x : Arr ℚ) (layers : List KLayer) (w : World) (rs : List QRes)
    (h : quantizeModel ext cfg x layers = some (w, rs)) (w' : World) (i : ℕ) (a b : OpJ)
    (ha : (networkJson w' rs).graph[i]? = some a) (hb : (networkJson w' rs).graph[i + 1]? = some b) :
    ∃ n, a.outputs = [n] ∧ b.inputs.head? = some n := by
  obtain ⟨-, hc, -⟩ := model_facts h
  simp only [networkJson, List.getElem?_map, Option.map_eq_some_iff] at ha hb
  obtain ⟨oa, hoa, rfl⟩ := ha
  obtain ⟨ob, hob, rfl⟩ := hb
  obtain ⟨hi, rfl⟩ := List.getElem?_eq_some_iff.mp hoa
  obtain ⟨hi', rfl⟩ := List.getElem?_eq_some_iff.mp hob
  obtain ⟨r, h1, h2⟩ := List.isChain_iff_getElem.mp hc i hi'
  refine ⟨nodeJson (w'.nodes r.id) r.exclude, by simp [opJson, h1], by simp [opJson, h2]⟩

end Verif
