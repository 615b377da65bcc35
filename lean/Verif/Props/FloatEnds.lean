import Verif.Props.TfliteFloat

/-!
# C103: networks without conversion operators at their ends

C92 and C100 for network files and TFLite models that take or return int8 tensors: without a quantize operator in front the
engine quantizes the input itself, without a dequantize operator at the end it returns codes.
-/

namespace Verif
open Spec Tflite2Json

namespace Spec

/-- How a network file begins, before the operators `rest`: with a quantize operator to int8 codes with parameters `(s, z)`;
or with the first operator of `rest`, whose name does not contain "QUANT", and then `(s, z)` are the parameters of the
file's input node (step 1 if it has none or zero, zero point 0 if it has none). -/
def Opens (net : NetJ) (s : ℚ) (z : ℤ) (rest : List OpJ) : Prop :=
  (∃ q o r, net.graph = q :: rest ∧ q.opType = "QUANTIZE" ∧ contains "QUANT" (upper q.name) = true ∧ q.outputs = o :: r ∧
    HasParams o s z ∧ IsInt8 o ∧ ∃ i, net.input[0]? = some (some i)) ∨
  (net.graph = rest ∧ (∃ first, rest[0]? = some first ∧ contains "QUANT" (upper first.name) = false) ∧
    ∃ i, net.input[0]? = some (some i) ∧ i.zeroPoint.getD 0 = z ∧
      (i.scale = some s ∨ s = 1 ∧ (i.scale = none ∨ i.scale = some 0)))

/-- Int8 codes that stand for the numbers `t` within `E`, for step and zero point `p`. -/
def CodesFor (p : ℚ × ℤ) (c : List ℤ) (t E : List ℚ) : Prop :=
  E.length = t.length ∧
    List.Forall₂ (fun (q : ℤ) (a : ℚ × ℚ) => Code (-128) 127 q ∧ |real p.2 p.1 q - a.1| ≤ a.2) c (t.zip E)

end Spec

namespace FloatEnds
open FloatEngine Accuracy

theorem opens_run (ext : Ext) {net : NetJ} {s : ℚ} {z : ℤ} {rest : List OpJ} (h : Opens net s z rest) (hs : 0 < s)
    (heng : upper net.engine = "TFLITE".toList) (hout : ∃ o, net.output[0]? = some (some o)) {layers : List Layer}
    (hl : rest.mapM Fmt.f64.buildLayer = some layers) :
    ∃ (N : SeqNet) (pre : Arr ℚ → List Tensor), Fmt.f64.load net = some N ∧ ∀ a : Arr ℚ,
      Fmt.f64.infer ext N (.flt a) =
        (Fmt.f64.runLayers ext layers (.int (a.map (fun v => Fmt.f64.quantize (intDtype 7) v z s)))).map
          (fun r => (r.1, pre a ++ r.2)) := by
  obtain ⟨outp, hout⟩ := hout
  rcases h with ⟨q, o, r, hg, hq1, hq2, hq3, hq4, hq5, inp, hinp⟩ | ⟨hg, ⟨first, hf1, hf2⟩, inp, hinp, hz, hsc⟩
  · obtain ⟨qt, hqt, hqd⟩ := names_int8 hq5
    have hbq : Fmt.f64.buildLayer q = some (.quantize (intDtype 7) z s) := by
      have hk : layerKind q.opType = some .quantize := by rw [hq1]; decide +kernel
      unfold Fmt.buildLayer Verif.buildLayer
      rw [hk]
      simp only
      unfold quantizeFromModel
      rw [hq3]
      simp only [List.getElem?_cons_zero, Option.bind_eq_bind, Option.bind_some, hqt, hqd, hq4.1, hq4.2]
    have hall : net.graph.mapM Fmt.f64.buildLayer = some (Layer.quantize (intDtype 7) z s :: layers) := by
      rw [hg, List.mapM_cons, hbq, hl]; rfl
    obtain ⟨sc, hsc⟩ : ∃ sc : ℚ, sc = match inp.scale with
        | none => 1
        | some s => if s = 0 then 1 else s := ⟨_, rfl⟩
    refine ⟨⟨true, inp.zeroPoint.getD 0, sc, Layer.quantize (intDtype 7) z s :: layers⟩,
      fun a => [.int (a.map (fun v => Fmt.f64.quantize (intDtype 7) v z s))], ?_, fun a => ?_⟩
    · unfold Fmt.load
      rw [if_pos heng.symm]
      unfold Fmt.loadWith
      rw [hall]
      have hfirst : net.graph[0]? = some q := by rw [hg]; rfl
      rw [hfirst, hinp, hout]
      simp only [Option.bind_eq_bind, Option.bind_some, hq2]
      rw [hsc]
      rfl
    · unfold Fmt.infer Fmt.prepare
      rw [if_pos rfl]
      simp only [Fmt.runLayers, Fmt.inferLayer, Tensor.toFlt, Option.bind_eq_bind, Option.bind_some]
      cases Fmt.f64.runLayers ext layers (.int (a.map (fun v => Fmt.f64.quantize (intDtype 7) v z s))) <;> rfl
  · refine ⟨⟨false, z, s, layers⟩, fun _ => [], ?_, fun a => ?_⟩
    · unfold Fmt.load
      rw [if_pos heng.symm]
      unfold Fmt.loadWith
      rw [hg, hl, hf1, hinp, hout]
      simp only [Option.bind_eq_bind, Option.bind_some, hf2, hz]
      rcases hsc with e | ⟨rfl, e | e⟩
      · rw [e]; simp only [if_neg hs.ne']
      · rw [e]
      · rw [e]; rfl
    · unfold Fmt.infer Fmt.prepare
      rw [if_neg (by simp)]
      simp only [Tensor.toFlt]
      cases Fmt.f64.runLayers ext layers (.int (a.map (fun v => Fmt.f64.quantize (intDtype 7) v z s))) <;> rfl

theorem batch_close {s : ℚ} (hs : 0 < s) {z : ℤ} (hz : Code (-128) 127 z) {n : ℕ} (X : List (List ℚ))
    (hlen : ∀ x ∈ X, x.length = n) :
    List.Forall₂ (fun c (p : List ℚ × List ℚ) => p.1.length = n ∧ Close s z c p.1 p.2)
      (X.map (fun x => x.map (fun v => Fmt.f64.quantize (intDtype 7) v z s)))
      (X.map (fun x => (x, inputBound s z x))) := by
  rw [List.forall₂_map_left_iff, List.forall₂_map_right_iff, List.forall₂_same]
  exact fun x hx => ⟨hlen x hx, quant_close hs hz x⟩

end FloatEnds

open FloatEnds FloatEngine Accuracy

theorem FloatEnds.codes_of (ext : Ext) (net : NetJ) (s : ℚ) (z : ℤ) (ops : List OpJ) (fs : List FileOp)
    (heng : upper net.engine = "TFLITE".toList) (hout : ∃ o, net.output[0]? = some (some o)) (hopen : Opens net s z ops)
    (hops : List.Forall₂ (fun op f => ∀ n, f.Fits n → StepOk ext op f n) ops fs) (hs : 0 < s) (hz : Code (-128) 127 z) (n : ℕ) (hfit : fileFits (s, z) fs n) :
    ∃ N, Fmt.f64.load net = some N ∧
      (∀ x : List ℚ, x.length = n → ∃ y rec, Fmt.f64.infer ext N (.flt (.vec x)) = some (.int (.vec y), rec) ∧
        CodesFor (fileLast (s, z) fs) y (fileExact fs x) (fileBound fs x (inputBound s z x))) ∧
      ∀ X : List (List ℚ), X ≠ [] → (∀ x ∈ X, x.length = n) →
        ∃ Y rec, Fmt.f64.infer ext N (.flt (.mat X)) = some (.int (.mat Y), rec) ∧
          List.Forall₂ (fun y x =>
            CodesFor (fileLast (s, z) fs) y (fileExact fs x) (fileBound fs x (inputBound s z x))) Y X := by
  obtain ⟨layers, hls, hzl, hv, hm⟩ := ops_close_of ext hops (s, z) n hfit hz
  obtain ⟨N, pre, hN, hrun⟩ := opens_run ext hopen hs heng hout hls
  refine ⟨N, hN, fun x hx => ?_, fun X hX hlen => ?_⟩
  · obtain ⟨out, rec, e1, c1⟩ := hv _ _ _ hx (quant_close hs hz x)
    exact ⟨out, _, by rw [hrun]; simp only [Arr.map, e1]; rfl, c1⟩
  · obtain ⟨O, rec, e1, c1⟩ := hm _ _ (by simpa using hX) (batch_close hs hz X hlen)
    rw [List.forall₂_map_right_iff] at c1
    exact ⟨O, _, by rw [hrun]; simp only [Arr.map, e1]; rfl, c1⟩

/-- **C103 (codes).**  A network file of the int8 engine that ends without a dequantize operator – with or without a quantize
operator in front – loads, and in float64 it answers every sample and every non-empty batch with int8 codes (an integer
array) that stand for the real network's outputs within the bound of C92 (before its last rounding). -/
theorem C103_codes (ext : Ext) (net : NetJ) (s : ℚ) (z : ℤ) (ops : List OpJ) (fs : List FileOp)
    (heng : upper net.engine = "TFLITE".toList) (hout : ∃ o, net.output[0]? = some (some o)) (hopen : Opens net s z ops)
    (hops : List.Forall₂ FileMeans ops fs) (hs : 0 < s) (hz : Code (-128) 127 z) (n : ℕ) (hfit : fileFits (s, z) fs n) :
    ∃ N, Fmt.f64.load net = some N ∧
      (∀ x : List ℚ, x.length = n → ∃ y rec, Fmt.f64.infer ext N (.flt (.vec x)) = some (.int (.vec y), rec) ∧
        CodesFor (fileLast (s, z) fs) y (fileExact fs x) (fileBound fs x (inputBound s z x))) ∧
      ∀ X : List (List ℚ), X ≠ [] → (∀ x ∈ X, x.length = n) →
        ∃ Y rec, Fmt.f64.infer ext N (.flt (.mat X)) = some (.int (.mat Y), rec) ∧
          List.Forall₂ (fun y x =>
            CodesFor (fileLast (s, z) fs) y (fileExact fs x) (fileBound fs x (inputBound s z x))) Y X :=
  codes_of ext net s z ops fs heng hout hopen (hops.imp (fun _ _ h _ hf => op_step ext h hf)) hs hz n hfit

theorem FloatEnds.numbers_of (ext : Ext) (net : NetJ) (s : ℚ) (z : ℤ) (ops : List OpJ) (d : OpJ) (fs : List FileOp)
    (heng : upper net.engine = "TFLITE".toList) (hout : ∃ o, net.output[0]? = some (some o))
    (hopen : Opens net s z (ops ++ [d])) (hops : List.Forall₂ (fun op f => ∀ n, f.Fits n → StepOk ext op f n) ops fs) (hd : d.opType = "DEQUANTIZE") (i : NodeJ)
    (rest : List NodeJ) (hdi : d.inputs = i :: rest) (hi : HasParams i (fileLast (s, z) fs).1 (fileLast (s, z) fs).2)
    (hi8 : IsInt8 i) (hs : 0 < s) (hz : Code (-128) 127 z) (n : ℕ) (hfit : fileFits (s, z) fs n)
    (hlast : IsFloat 53 (-1074) (fileLast (s, z) fs).1) :
    ∃ N, Fmt.f64.load net = some N ∧
      (∀ x : List ℚ, x.length = n → ∃ y rec, Fmt.f64.infer ext N (.flt (.vec x)) = some (.flt (.vec y), rec) ∧
        Within y (fileExact fs x) (outputBound (fileExact fs x) (fileBound fs x (inputBound s z x)))) ∧
      ∀ X : List (List ℚ), X ≠ [] → (∀ x ∈ X, x.length = n) →
        ∃ Y rec, Fmt.f64.infer ext N (.flt (.mat X)) = some (.flt (.mat Y), rec) ∧
          List.Forall₂ (fun y x =>
            Within y (fileExact fs x) (outputBound (fileExact fs x) (fileBound fs x (inputBound s z x)))) Y X := by
  obtain ⟨layers, hls, hzl, hv, hm⟩ := ops_close_of ext hops (s, z) n hfit hz
  obtain ⟨dt, hdt, hdd⟩ := names_int8 hi8
  have hbd : Fmt.f64.buildLayer d = some (.dequantize (fileLast (s, z) fs).2 (fileLast (s, z) fs).1) := by
    have hk : layerKind d.opType = some .dequantize := by rw [hd]; decide +kernel
    unfold Fmt.buildLayer Verif.buildLayer
    rw [hk]
    simp only
    unfold dequantizeFromModel
    rw [hdi]
    simp only [List.getElem?_cons_zero, Option.bind_eq_bind, Option.bind_some, hdt, hdd, hi.1, hi.2]
  have hall : (ops ++ [d]).mapM Fmt.f64.buildLayer =
      some (layers ++ [.dequantize (fileLast (s, z) fs).2 (fileLast (s, z) fs).1]) := by
    rw [List.mapM_append, hls, List.mapM_cons, hbd]
    rfl
  obtain ⟨N, pre, hN, hrun⟩ := opens_run ext hopen hs heng hout hall
  have tail : ∀ (O : Arr ℤ) (rec : List Tensor) (c : Arr ℤ), Fmt.f64.runLayers ext layers (.int c) = some (.int O, rec) →
      ∃ rec', Fmt.f64.runLayers ext (layers ++ [.dequantize (fileLast (s, z) fs).2 (fileLast (s, z) fs).1]) (.int c) =
        some (.flt (O.map (fun q => Fmt.f64.dequantize q (fileLast (s, z) fs).2 (fileLast (s, z) fs).1)), rec') := by
    intro O rec c e
    refine ⟨rec ++ [.flt (O.map (fun q => Fmt.f64.dequantize q (fileLast (s, z) fs).2 (fileLast (s, z) fs).1))], ?_⟩
    rw [runLayers_append]
    simp only [Fmt.runLayers, Fmt.inferLayer, Option.bind_eq_bind, Option.bind_some, e, Tensor.toInt, Option.map_some]
  refine ⟨N, hN, fun x hx => ?_, fun X hX hlen => ?_⟩
  · obtain ⟨out, rec, e1, c1⟩ := hv _ _ _ hx (quant_close hs hz x)
    obtain ⟨rec', e2⟩ := tail _ _ _ e1
    exact ⟨out.map (fun q => Fmt.f64.dequantize q (fileLast (s, z) fs).2 (fileLast (s, z) fs).1), pre (.vec x) ++ rec',
      by rw [hrun]; simp only [Arr.map, e2]; rfl, deq_near (.inl hlast) hzl c1⟩
  · obtain ⟨O, rec, e1, c1⟩ := hm _ _ (by simpa using hX) (batch_close hs hz X hlen)
    rw [List.forall₂_map_right_iff] at c1
    obtain ⟨rec', e2⟩ := tail _ _ _ e1
    refine ⟨O.map (fun o => o.map (fun q => Fmt.f64.dequantize q (fileLast (s, z) fs).2 (fileLast (s, z) fs).1)),
      pre (.mat X) ++ rec', by rw [hrun]; simp only [Arr.map, e2]; rfl, ?_⟩
    rw [List.forall₂_map_left_iff]
    exact c1.imp (fun o x h => deq_near (.inl hlast) hzl h)

/-- **C103 (numbers).**  A network file of the int8 engine that ends with a dequantize operator – with or without a quantize
operator in front – loads, and in float64 it answers every sample and every non-empty batch with numbers within the bound
of C92. -/
theorem C103_numbers (ext : Ext) (net : NetJ) (s : ℚ) (z : ℤ) (ops : List OpJ) (d : OpJ) (fs : List FileOp)
    (heng : upper net.engine = "TFLITE".toList) (hout : ∃ o, net.output[0]? = some (some o))
    (hopen : Opens net s z (ops ++ [d])) (hops : List.Forall₂ FileMeans ops fs) (hd : d.opType = "DEQUANTIZE") (i : NodeJ)
    (rest : List NodeJ) (hdi : d.inputs = i :: rest) (hi : HasParams i (fileLast (s, z) fs).1 (fileLast (s, z) fs).2)
    (hi8 : IsInt8 i) (hs : 0 < s) (hz : Code (-128) 127 z) (n : ℕ) (hfit : fileFits (s, z) fs n)
    (hlast : IsFloat 53 (-1074) (fileLast (s, z) fs).1) :
    ∃ N, Fmt.f64.load net = some N ∧
      (∀ x : List ℚ, x.length = n → ∃ y rec, Fmt.f64.infer ext N (.flt (.vec x)) = some (.flt (.vec y), rec) ∧
        Within y (fileExact fs x) (outputBound (fileExact fs x) (fileBound fs x (inputBound s z x)))) ∧
      ∀ X : List (List ℚ), X ≠ [] → (∀ x ∈ X, x.length = n) →
        ∃ Y rec, Fmt.f64.infer ext N (.flt (.mat X)) = some (.flt (.mat Y), rec) ∧
          List.Forall₂ (fun y x =>
            Within y (fileExact fs x) (outputBound (fileExact fs x) (fileBound fs x (inputBound s z x)))) Y X :=
  numbers_of ext net s z ops d fs heng hout hopen (hops.imp (fun _ _ h _ hf => op_step ext h hf)) hd i rest hdi hi hi8 hs hz n hfit
    hlast

/-- **C103 (the name decides).**  Whether the engine quantizes its input depends on the first operator's *name* only: if a file
that begins with a fully connected operator calls it anything with "quant" in it, the input numbers are not quantized but
truncated to integers and taken for codes. -/
theorem C103_name_decides (ext : Ext) (net : NetJ) (op : OpJ) (rest : List OpJ) (hg : net.graph = op :: rest)
    (ht : op.opType = "FULLY_CONNECTED") (hname : contains "QUANT" (upper op.name) = true)
    (heng : upper net.engine = "TFLITE".toList) (N : SeqNet) (h : Fmt.f64.load net = some N) (a : Arr ℚ) :
    Fmt.f64.infer ext N (.flt a) = Fmt.f64.infer ext N (.int (a.map trunc)) := by
  unfold Fmt.load at h
  rw [if_pos heng.symm] at h
  unfold Fmt.loadWith at h
  simp only [Option.bind_eq_bind, Option.bind_eq_some_iff, Option.some.injEq] at h
  obtain ⟨-, -, inp, -, -, -, out, -, first, hf, ls, hls, rfl⟩ := h
  rw [hg] at hf hls
  simp only [List.getElem?_cons_zero, Option.some.injEq] at hf
  subst hf
  rw [List.mapM_cons] at hls
  simp only [Option.bind_eq_bind, Option.bind_eq_some_iff, Option.pure_def, Option.some.injEq] at hls
  obtain ⟨l, hl, ls', -, rfl⟩ := hls
  have hk : layerKind op.opType = some .fullyConnected := by rw [ht]; decide +kernel
  unfold Fmt.buildLayer at hl
  rw [hk] at hl
  simp only [Option.map_eq_some_iff] at hl
  obtain ⟨fc, -, rfl⟩ := hl
  simp only [Fmt.infer, Fmt.prepare, hname, if_true]
  rfl

namespace Spec

/-- How a TFLite model begins before the operators `rest`, which read the int8 tensor `i`: with a quantize operator that
writes `i`, or with `rest` itself, `i` being the model's input. -/
def TfliteBegins (en : Enums) (m : TModel) (i : ℕ) (rest : List TOp) : Prop :=
  (m.inputs ≠ [] ∧ ∃ q, m.operators = q :: rest ∧ IsOp en m q "QUANTIZE" ∧ q.outputs = [i]) ∨
  (m.inputs[0]? = some i ∧ m.operators = rest)

end Spec

namespace FloatEnds
open TfliteF64

theorem plain_name {cext ideal : Ext} {en : Enums} {ip : Interp} {m : TModel} {ls lt δ : ℚ} (hi : Interprets ip m) {op : TOp}
    {i o : ℕ} {f : FileOp} (h : TfliteMeans en ip m ideal ls lt δ op i o f) {j : OpJ}
    (hj : buildOp cext en ip m op Fmt.f64.int8Table = some j) : contains "QUANT" (upper j.name) = false := by
  have lut : ∀ {g : ℚ → ℚ} {name : String}, lutOp g name en ip m op Fmt.f64.int8Table = some j → j.name = name := by
    intro g name h
    unfold lutOp at h
    simp only [Option.bind_eq_bind, Option.bind_eq_some_iff] at h
    obtain ⟨b, -, h⟩ := h
    split at h
    · split at h
      · rw [Option.some.injEq] at h
        subst h
        rfl
      · cases h
    · cases h
  cases h with
  | dense hop hin hout hx hw ho hW hB =>
    obtain ⟨-, e, -, -⟩ := plain_op hi hop (by decide) (by decide) hj
    rw [e]; decide +kernel
  | tanh hop hin hout hx ho =>
    rw [buildOp_is hop, if_pos rfl] at hj
    rw [lut hj]; decide +kernel
  | logistic hop hin hout hx ho =>
    rw [buildOp_is hop, if_neg (by decide), if_pos rfl] at hj
    rw [lut hj]; decide +kernel
  | relu hop hin hout hx ho =>
    obtain ⟨-, e, -, -⟩ := plain_op hi hop (by decide) (by decide) hj
    rw [e]; decide +kernel

/-- How the converted file begins. -/
theorem opens_of {cext ideal : Ext} {en : Enums} {ip : Interp} {m : TModel} {ls lt δ : ℚ} (hi : Interprets ip m) {i o : ℕ}
    {s : ℚ} {z : ℤ} {ops rest : List TOp} {fs : List FileOp} (hb : TfliteBegins en m i (ops ++ rest))
    (hx : Int8Tensor en m i s z) (hc : TfliteChain en ip m ideal ls lt δ ops i o fs) (hne : ops ≠ []) {is os : List NodeJ}
    {g : List OpJ} (his : m.inputs.mapM (nodeAt en ip m) = some is)
    (hg : m.operators.mapM (fun op => buildOp cext en ip m op Fmt.f64.int8Table) = some g) :
    ∃ js rs, ops.mapM (fun op => buildOp cext en ip m op Fmt.f64.int8Table) = some js ∧
      rest.mapM (fun op => buildOp cext en ip m op Fmt.f64.int8Table) = some rs ∧
      Opens ⟨"TFLITE", m.operators.length, g, is.map some, os.map some⟩ s z (js ++ rs) := by
  have hsplit : ∀ {r : List OpJ}, (ops ++ rest).mapM (fun op => buildOp cext en ip m op Fmt.f64.int8Table) = some r →
      ∃ js rs, ops.mapM (fun op => buildOp cext en ip m op Fmt.f64.int8Table) = some js ∧
        rest.mapM (fun op => buildOp cext en ip m op Fmt.f64.int8Table) = some rs ∧ r = js ++ rs := by
    intro r h
    rw [List.mapM_append] at h
    simp only [Option.bind_eq_bind, Option.bind_eq_some_iff, Option.pure_def, Option.some.injEq] at h
    obtain ⟨js, h1, rs, h2, rfl⟩ := h
    exact ⟨js, rs, h1, h2, rfl⟩
  have k1 := forall₂_nodes hi his
  rcases hb with ⟨hin, q, hq, hq1, hq2⟩ | ⟨hin, hops⟩
  · rw [hq, List.mapM_cons] at hg
    simp only [Option.bind_eq_bind, Option.bind_eq_some_iff, Option.pure_def, Option.some.injEq] at hg
    obtain ⟨jq, hjq, r, hr, rfl⟩ := hg
    obtain ⟨js, rs, h1, h2, rfl⟩ := hsplit hr
    refine ⟨js, rs, h1, h2, .inl ?_⟩
    obtain ⟨q1, q2, -, q4⟩ := plain_op hi hq1 (by decide) (by decide) hjq
    rw [hq2] at q4
    obtain ⟨nq, q5, q6⟩ := forall₂_one q4
    refine ⟨jq, nq, [], rfl, q1, by rw [q2]; decide +kernel, q5, (node8 q6 hx).1, (node8 q6 hx).2, ?_⟩
    generalize m.inputs = l at hin k1
    cases k1 with
    | nil => exact absurd rfl hin
    | cons a b => exact ⟨_, rfl⟩
  · rw [hops] at hg
    obtain ⟨js, rs, h1, h2, rfl⟩ := hsplit hg
    refine ⟨js, rs, h1, h2, .inr ⟨rfl, ?_, ?_⟩⟩
    · cases hc with
      | nil => exact absurd rfl hne
      | cons h t =>
        rw [List.mapM_cons] at h1
        simp only [Option.bind_eq_bind, Option.bind_eq_some_iff, Option.pure_def, Option.some.injEq] at h1
        obtain ⟨j, hj, js', -, rfl⟩ := h1
        exact ⟨j, rfl, plain_name hi h hj⟩
    · generalize m.inputs = l at hin k1
      cases k1 with
      | nil => simp at hin
      | cons a b =>
        simp only [List.getElem?_cons_zero, Option.some.injEq] at hin
        subst hin
        have := (node8 a hx).1
        exact ⟨_, rfl, by rw [this.2]; rfl, .inl this.1⟩

theorem some_output {en : Enums} {ip : Interp} {m : TModel} (hi : Interprets ip m) (hout : m.outputs ≠ []) {os : List NodeJ}
    (hos : m.outputs.mapM (nodeAt en ip m) = some os) : ∃ o, (os.map some)[0]? = some (some o) := by
  have k2 := forall₂_nodes hi hos
  generalize m.outputs = l at hout k2
  cases k2 with
  | nil => exact absurd rfl hout
  | cons a b => exact ⟨_, rfl⟩

end FloatEnds

open TfliteF64 in
/-- **C103 (TFLite models with int8 outputs).**  A TFLite model of fully connected, tanh and logistic operators whose result is
an int8 tensor, its input being an int8 tensor or quantized by the first operator: whenever the converter converts it (as in
C100), the engine answers, in float64, with the int8 codes that stand for the model's exact outputs within C100's bound. -/
theorem C103_tflite_codes (ext cext ideal : Ext) (ls lt δ : ℚ) (hls : 0 ≤ ls) (hlt : 0 ≤ lt)
    (hsig : ∀ a b, |ideal.sigmoid a - ideal.sigmoid b| ≤ ls * |a - b|)
    (htanh : ∀ a b, |ideal.tanh a - ideal.tanh b| ≤ lt * |a - b|) (hce : Approximates δ cext ideal)
    (en : Enums) (ip : Interp) (m : TModel) (hi : Interprets ip m) (hout : m.outputs ≠ []) (i o : ℕ) (s : ℚ) (z : ℤ)
    (ops : List TOp) (hne : ops ≠ []) (fs : List FileOp) (hb : TfliteBegins en m i ops) (hx : Int8Tensor en m i s z)
    (hc : TfliteChain en ip m ideal ls lt δ ops i o fs) (n : ℕ) (hfit : fileFits (s, z) fs n) (net : NetJ)
    (h : convert cext en ip m Fmt.f64.int8Table = some net) :
    ∃ N, Fmt.f64.load net = some N ∧
      (∀ x : List ℚ, x.length = n → ∃ y rec, Fmt.f64.infer ext N (.flt (.vec x)) = some (.int (.vec y), rec) ∧
        CodesFor (fileLast (s, z) fs) y (fileExact fs x) (fileBound fs x (inputBound s z x))) ∧
      ∀ X : List (List ℚ), X ≠ [] → (∀ x ∈ X, x.length = n) →
        ∃ Y rec, Fmt.f64.infer ext N (.flt (.mat X)) = some (.int (.mat Y), rec) ∧
          List.Forall₂ (fun y x =>
            CodesFor (fileLast (s, z) fs) y (fileExact fs x) (fileBound fs x (inputBound s z x))) Y X := by
  unfold convert at h
  simp only [Option.bind_eq_bind, Option.bind_eq_some_iff, Option.some.injEq] at h
  obtain ⟨is, his, os, hos, g, hg, rfl⟩ := h
  obtain ⟨js, rs, h1, h2, h3⟩ := opens_of (rest := []) (os := os) hi (by rwa [List.append_nil]) hx hc hne his hg
  simp only [List.mapM_nil, Option.pure_def, Option.some.injEq] at h2
  subst h2
  rw [List.append_nil] at h3
  obtain ⟨a1, -⟩ := chain_means hls hlt hsig htanh hce hi hc h1 hx
  have hpos : 0 < s := by obtain ⟨_, _, _, _, p, _⟩ := hx.1; exact p
  exact C103_codes ext _ s z js fs (by show upper "TFLITE" = _; decide +kernel) (some_output hi hout hos) h3 a1 hpos hx.2.2 n hfit

open TfliteF64 in
/-- **C103 (TFLite models with int8 inputs and dequantized outputs).**  The same if the model ends with a dequantize operator:
numbers within C100's bound. -/
theorem C103_tflite_numbers (ext cext ideal : Ext) (ls lt δ : ℚ) (hls : 0 ≤ ls) (hlt : 0 ≤ lt)
    (hsig : ∀ a b, |ideal.sigmoid a - ideal.sigmoid b| ≤ ls * |a - b|)
    (htanh : ∀ a b, |ideal.tanh a - ideal.tanh b| ≤ lt * |a - b|) (hce : Approximates δ cext ideal)
    (en : Enums) (ip : Interp) (m : TModel) (hi : Interprets ip m) (hout : m.outputs ≠ []) (i o : ℕ) (s : ℚ) (z : ℤ)
    (ops : List TOp) (hne : ops ≠ []) (d : TOp) (fs : List FileOp) (hb : TfliteBegins en m i (ops ++ [d]))
    (hx : Int8Tensor en m i s z) (hc : TfliteChain en ip m ideal ls lt δ ops i o fs) (hd : IsOp en m d "DEQUANTIZE")
    (hdi : d.inputs = [o]) (n : ℕ) (hfit : fileFits (s, z) fs n) (net : NetJ)
    (h : convert cext en ip m Fmt.f64.int8Table = some net) :
    ∃ N, Fmt.f64.load net = some N ∧
      (∀ x : List ℚ, x.length = n → ∃ y rec, Fmt.f64.infer ext N (.flt (.vec x)) = some (.flt (.vec y), rec) ∧
        Within y (fileExact fs x) (outputBound (fileExact fs x) (fileBound fs x (inputBound s z x)))) ∧
      ∀ X : List (List ℚ), X ≠ [] → (∀ x ∈ X, x.length = n) →
        ∃ Y rec, Fmt.f64.infer ext N (.flt (.mat X)) = some (.flt (.mat Y), rec) ∧
          List.Forall₂ (fun y x =>
            Within y (fileExact fs x) (outputBound (fileExact fs x) (fileBound fs x (inputBound s z x)))) Y X := by
  unfold convert at h
  simp only [Option.bind_eq_bind, Option.bind_eq_some_iff, Option.some.injEq] at h
  obtain ⟨is, his, os, hos, g, hg, rfl⟩ := h
  obtain ⟨js, rs, h1, h2, h3⟩ := opens_of (os := os) hi hb hx hc hne his hg
  rw [List.mapM_cons, List.mapM_nil] at h2
  simp only [Option.bind_eq_bind, Option.bind_eq_some_iff, Option.pure_def, Option.some.injEq] at h2
  obtain ⟨jd, hjd, _, rfl, rfl⟩ := h2
  obtain ⟨a1, a2⟩ := chain_means hls hlt hsig htanh hce hi hc h1 hx
  obtain ⟨d1, -, d3, -⟩ := plain_op hi hd (by decide) (by decide) hjd
  rw [hdi] at d3
  obtain ⟨nd, d5, d6⟩ := forall₂_one d3
  have hpos : 0 < s := by obtain ⟨_, _, _, _, p, _⟩ := hx.1; exact p
  exact C103_numbers ext _ s z js jd fs (by show upper "TFLITE" = _; decide +kernel) (some_output hi hout hos) h3 a1 d1 nd [] d5
    (node8 d6 a2).1 (node8 d6 a2).2 hpos hx.2.2 n hfit (float_of_float32 a2.2.1)

/-! ## Concrete cases -/

namespace C103Case

section
open C92Case

/-- The file of C92's example without its first and its last operator. -/
def file : NetJ := ⟨"TFLITE", 2, [fcOp, actOp], [some (node (1 / 64) 5)], [some (node (1 / 8) 0)]⟩

theorem opens : Opens file (1 / 64) 5 [fcOp, actOp] :=
  .inr ⟨rfl, ⟨fcOp, rfl, by decide +kernel⟩, node (1 / 64) 5, rfl, rfl, .inl rfl⟩

theorem operators : List.Forall₂ FileMeans [fcOp, actOp] ops := by
  obtain ⟨q, os, d, hg, -, h, -⟩ := means.graph
  have : [qOp] ++ [fcOp, actOp] ++ [dOp] = [q] ++ os ++ [d] := hg
  have e : [fcOp, actOp] = os := by
    have h1 := List.append_inj' this rfl
    exact (List.append_inj h1.1 rfl).2
  rw [e]
  exact h

/-- `C103_codes` applies. -/
example : ∃ N, Fmt.f64.load file = some N ∧
    ∀ x : List ℚ, x.length = 2 → ∃ y rec, Fmt.f64.infer ⟨id, id, id⟩ N (.flt (.vec x)) = some (.int (.vec y), rec) ∧
      CodesFor (fileLast (1 / 64, 5) ops) y (fileExact ops x) (fileBound ops x (inputBound (1 / 64) 5 x)) := by
  obtain ⟨N, h1, h2, -⟩ := C103_codes ⟨id, id, id⟩ file (1 / 64) 5 _ ops (by decide +kernel) ⟨_, rfl⟩ opens operators
    (by norm_num) (by unfold Code; norm_num) 2 fits
  exact ⟨N, h1, h2⟩

/-- The same file with an unlucky name for its first operator. -/
def misnamed : NetJ := { file with graph := [{ fcOp with name := "quantized dense" }, actOp] }

/-- Its answers are different: the engine does not quantize the input any more. -/
example : ((Fmt.f64.load file).bind (fun N => Fmt.f64.infer ⟨id, id, id⟩ N (.flt (.vec [3 / 4, 1])))).map Prod.fst ≠
    ((Fmt.f64.load misnamed).bind (fun N => Fmt.f64.infer ⟨id, id, id⟩ N (.flt (.vec [3 / 4, 1])))).map Prod.fst := by
  decide +kernel

end

section
open C100Case
open C71Case (en members types)

/-- The model of C100's example as an int8 model: without the conversions at its ends. -/
def model : TModel := { m with operators := [⟨1, [1, 2, 3], [4], .relu⟩, ⟨2, [4], [5], .none⟩], inputs := [1], outputs := [5] }

theorem chain : TfliteBegins en model 1 model.operators ∧ Int8Tensor en model 1 (1 / 2 ^ 6) 3 ∧
    TfliteChain en ip model ideal (1 / 4) (1 / 16) (1 / 2 ^ 50) model.operators 1 5 ops := by
  have h1 : Int8Tensor en m 1 (1 / 2 ^ 6) 3 := int8 1 _ rfl rfl 6 (by norm_num) 3 (by norm_num) (by unfold Code; norm_num)
  have h2 : Int8Tensor en m 2 (1 / 2 ^ 7) 0 := int8 2 _ rfl rfl 7 (by norm_num) 0 (by norm_num) (by unfold Code; norm_num)
  have h4 : Int8Tensor en m 4 (1 / 2 ^ 6) (-128) :=
    int8 4 _ rfl rfl 6 (by norm_num) (-128) (by norm_num) (by unfold Code; norm_num)
  have h5 : Int8Tensor en m 5 (1 / 2 ^ 8) (-128) :=
    int8 5 _ rfl rfl 8 (by norm_num) (-128) (by norm_num) (by unfold Code; norm_num)
  refine ⟨.inr ⟨rfl, rfl⟩, h1, ?_⟩
  refine .cons (.dense ⟨9, rfl, members (9, "FULLY_CONNECTED") (by simp)⟩ rfl rfl h1 h2 h4 ⟨_, rfl, rfl, rfl⟩ ⟨_, rfl, rfl, rfl⟩)
    (.cons (.logistic ⟨14, rfl, ?_⟩ rfl rfl h4 h5) (.nil 5))
  unfold Spec.Member
  decide +kernel

/-- `C103_tflite_codes` applies. -/
example : ∃ j N, convert lib en ip model Fmt.f64.int8Table = some j ∧ Fmt.f64.load j = some N ∧
    ∀ x : List ℚ, x.length = 2 → ∃ y rec, Fmt.f64.infer lib N (.flt (.vec x)) = some (.int (.vec y), rec) ∧
      CodesFor (fileLast (1 / 2 ^ 6, 3) ops) y (fileExact ops x) (fileBound ops x (inputBound (1 / 2 ^ 6) 3 x)) := by
  have hc : (convert lib en ip model Fmt.f64.int8Table).isSome := by decide +kernel
  obtain ⟨j, hj⟩ := Option.isSome_iff_exists.mp hc
  obtain ⟨N, h1, h2, -⟩ := C103_tflite_codes lib lib ideal (1 / 4) (1 / 16) (1 / 2 ^ 50) (by norm_num) (by norm_num) lipschitz.1
    lipschitz.2.1 lipschitz.2.2 en ip model ⟨interprets.1, interprets.2, interprets.3⟩ (by decide) 1 5 (1 / 2 ^ 6) 3 _
    (by decide) ops chain.1 chain.2.1 chain.2.2 2 fits j hj
  exact ⟨j, N, hj, h1, h2⟩

end

end C103Case

end Verif
