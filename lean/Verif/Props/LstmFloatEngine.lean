import Verif.Lemmas.LstmFloat64
import Verif.Props.RecurrentAccuracy

/-!
# Property C96: recurrent networks in the inference engine with IEEE binary64 arithmetic
-/

namespace Verif

open Spec Keras

namespace Spec

/-- A recurrent layer of a network file: the real layer `l` it stands for, the zero point `zIn` of its input, what the engine
would hold for it in exact arithmetic, and the quantities of the error bound. -/
structure RecLayer where
  l : KLSTM
  zIn : ℤ
  L : LSTM
  b : LstmBudget

/-- The operator of the file stands for the layer: its weights are within half a step and the
tolerances `b.tolK`, `b.tolU`, `b.tolB` of those of `l`, its tables are
within half a step and the tolerance `b.tab` of the saturated values of the functions, its zero points are int8 codes, and its scales keep the factors inside the float64 range. -/
structure LstmMeans (ext : Ext) (op : OpJ) (r : RecLayer) : Prop where
  kind : op.opType = "LSTM"
  load : LSTM.fromModel op = some r.L
  shape : LstmShape r.l
  scales : LstmScales op r.b.sIn r.b.sK r.b.sU r.b.sA r.b.sH r.b.sC (r.b.sT 0) (r.b.sT 1) (r.b.sT 2) (r.b.sT 3) r.b.sS
  reads : LstmCodes ext r.l r.b r.zIn r.L
  positive : 0 < r.b.sIn
  zeroPoints : ∀ z ∈ [r.zIn, r.L.gi.raZp, r.L.gf.raZp, r.L.gc.raZp, r.L.go.raZp, r.L.hiddenZp], Code (-128) 127 z
  hidden : r.b.zH = r.L.hiddenZp
  amp : r.b.amp = 255
  eps : r.b.eps = 1 / 2 ^ 49
  factors : LstmFactors r.b
  holds : r.b.Holds ext r.l

/-- The layers fit together: each reads the codes the previous one writes (the first one `n` features with parameters `p`),
and exactly the last one does not return sequences. -/
def recFits : ℚ × ℤ → ℕ → List RecLayer → Prop
  | _, _, [] => False
  | p, n, [r] => (r.b.sIn, r.zIn) = p ∧ r.l.kernel.length = n ∧ r.l.returnSequences = false
  | p, n, r :: rs => (r.b.sIn, r.zIn) = p ∧ r.l.kernel.length = n ∧ r.l.returnSequences = true ∧
      recFits (r.b.sH, r.L.hiddenZp) r.l.units rs

/-- The real function of the recurrent layers: the last hidden state of the last one. -/
def recExact (ext : Ext) : List RecLayer → List (List ℚ) → List ℚ
  | [], _ => []
  | [r], x => lastHidden ext r.l x
  | r :: rs, x => recExact ext rs (hiddenSeq ext r.l x)

/-- The error of the last hidden state after `T` steps. -/
def recBound (T : ℕ) : List RecLayer → List ℚ
  | [] => []
  | [r] => List.replicate r.l.units (r.b.error T).1
  | _ :: rs => recBound T rs

/-- Parameters and number of the codes at the end. -/
def recLast : List RecLayer → (ℚ × ℤ) × ℕ
  | [] => ((0, 0), 0)
  | [r] => ((r.b.sH, r.L.hiddenZp), r.l.units)
  | _ :: rs => recLast rs

/-- On the sequence `x`, whose codes are off by at most `e`, every layer stays in its calibrated ranges, and its budget allows
for the error of its input. -/
def recInRange (ext : Ext) : ℚ → List RecLayer → List (List ℚ) → Prop
  | _, [], _ => True
  | e, r :: rs, x => e ≤ r.b.eIn ∧ LstmInRange ext r.l r.L r.b x x.length ∧
      ∃ e', (∀ t ≤ x.length, (r.b.error t).1 ≤ e') ∧ recInRange ext e' rs (hiddenSeq ext r.l x)

/-- A network file for sequences: a quantize operator, LSTM operators, further operators, and a dequantize operator. -/
structure SeqNetMeans (ext : Ext) (net : NetJ) (s : ℚ) (z : ℤ) (rs : List RecLayer) (fs : List FileOp) : Prop where
  engine : upper net.engine = "TFLITE".toList
  input : ∃ i, net.input[0]? = some (some i)
  output : ∃ o, net.output[0]? = some (some o)
  graph : ∃ q lops ops d, net.graph = q :: (lops ++ ops) ++ [d] ∧
    (q.opType = "QUANTIZE" ∧ contains "QUANT" (upper q.name) = true ∧ ∃ o rest, q.outputs = o :: rest ∧ HasParams o s z ∧ IsInt8 o) ∧
    List.Forall₂ (LstmMeans ext) lops rs ∧ List.Forall₂ FileMeans ops fs ∧
    (d.opType = "DEQUANTIZE" ∧ ∃ i rest, d.inputs = i :: rest ∧
      HasParams i (fileLast (recLast rs).1 fs).1 (fileLast (recLast rs).1 fs).2 ∧ IsInt8 i)

end Spec

namespace LstmF64

open RecAcc Accuracy

theorem build (ext : Ext) {op : OpJ} {r : RecLayer} (h : LstmMeans ext op r) :
    ∃ L', Fmt.f64.buildLayer op = some (.lstm L') ∧ LstmNear r.b.eps r.L L' := by
  have hr := h.reads
  obtain ⟨p4, q4⟩ := mult_some h.factors.gates hr.posC h.factors.cell.1 h.factors.cell.2
  obtain ⟨p5, q5⟩ := mult_some h.factors.output hr.posH h.factors.hidden.1 h.factors.hidden.2
  have hl := fromModel_round Fmt.f64 h.load h.scales q4 q5
  refine ⟨_, ?_, by rw [h.eps]; exact layer_near hr h.factors (fun z hz => h.zeroPoints z (List.mem_cons_of_mem _ hz))⟩
  unfold Fmt.buildLayer
  have : layerKind op.opType = some .lstm := by rw [h.kind]; decide +kernel
  rw [this]
  simp only [hl, Option.map_some]

/-- One recurrent layer on a batch of integer sequences. -/
theorem run (ext : Ext) {op : OpJ} {r : RecLayer} (h : LstmMeans ext op r) {L' : LSTM} (hn : LstmNear r.b.eps r.L L')
    {X : List (List (List ℚ))} {Q : List (List (List ℤ))} {T : ℕ} (hX : Batch X T r.l.kernel.length) (hlen : Q.length = X.length)
    (hall : ∀ (i : ℕ) x q, X[i]? = some x → Q[i]? = some q → ∃ e, SeqClose r.b.sIn r.zIn e T r.l.kernel.length x q ∧
      e ≤ r.b.eIn ∧ LstmInRange ext r.l r.L r.b x x.length) :
    ∃ out, L'.infer (.cube Q) = some out ∧
      if r.l.returnSequences then
        ∃ Y, out = .cube Y ∧ Y.length = X.length ∧ ∀ (i : ℕ) x y, X[i]? = some x → Y[i]? = some y →
          y.length = T ∧ ∀ t < T, (y.getD t []).length = r.l.units ∧ ∀ u < r.l.units,
            Code (-128) 127 ((y.getD t []).getD u 0) ∧
            |real r.L.hiddenZp r.b.sH ((y.getD t []).getD u 0) - (lstmState ext r.l x (t + 1)).1 u| ≤ (r.b.error (t + 1)).1
      else
        ∃ Y, out = .mat Y ∧ Y.length = X.length ∧ ∀ (i : ℕ) x y, X[i]? = some x → Y[i]? = some y →
          y.length = r.l.units ∧ ∀ u < r.l.units, Code (-128) 127 (y.getD u 0) ∧
            |real r.L.hiddenZp r.b.sH (y.getD u 0) - (lstmState ext r.l x T).1 u| ≤ (r.b.error T).1 := by
  have hr := h.reads
  obtain ⟨hne, hT, hrect⟩ := hX
  refine LstmAcc.sequence h.shape h.positive hr h.holds hn h.hidden T hT X Q hne hlen ?_
  intro i x q hx hq
  obtain ⟨e, hcl, hee, hrange⟩ := hall i x q hx hq
  rw [(hrect x (List.mem_of_getElem? hx)).1] at hrange
  refine ⟨⟨hcl.steps, hcl.features, ?_, ?_⟩, hrange⟩
  · intro t ht f hf
    exact le_trans (hcl.close t ht f hf).2 hee
  · intro t ht f hf
    have h1 := (hcl.close t ht f hf).1
    have h2 := h.zeroPoints r.zIn (by simp)
    rw [h.amp, abs_le]
    unfold Code at h1 h2
    omega

/-- All recurrent layers. -/
theorem stack (ext : Ext) {ops : List OpJ} {rs : List RecLayer} (h : List.Forall₂ (LstmMeans ext) ops rs) :
    ∀ (p : ℚ × ℤ) (n : ℕ), recFits p n rs →
      ∃ layers, ops.mapM Fmt.f64.buildLayer = some layers ∧ Code (-128) 127 (recLast rs).1.2 ∧
        ∀ (X : List (List (List ℚ))) (Q : List (List (List ℤ))) (T : ℕ), Batch X T n → Q.length = X.length →
          (∀ (i : ℕ) x q, X[i]? = some x → Q[i]? = some q → ∃ e, SeqClose p.1 p.2 e T n x q ∧ recInRange ext e rs x) →
          ∃ Y rec, Fmt.f64.runLayers ext layers (.int (.cube Q)) = some (.int (.mat Y), rec) ∧
            List.Forall₂ (fun y x => (recExact ext rs x).length = (recLast rs).2 ∧
              Close (recLast rs).1.1 (recLast rs).1.2 y (recExact ext rs x) (recBound x.length rs)) Y X := by
  induction h with
  | nil => intro p n hf; exact absurd hf (by simp [recFits])
  | @cons op r ops rs hm hrest ih =>
    intro p n hf
    obtain ⟨L', hb, hn⟩ := build ext hm
    cases hrest with
    | nil =>
      obtain ⟨hp, hk, hseq⟩ := hf
      subst hk
      subst hp
      refine ⟨[.lstm L'], by rw [List.mapM_cons, hb]; rfl, hm.zeroPoints r.L.hiddenZp (by simp), ?_⟩
      intro X Q T hX hlen hall
      obtain ⟨out, hinf, hres⟩ := run ext hm hn hX hlen (fun i x q hx hq => by
        obtain ⟨e, h1, h2, h3, -⟩ := hall i x q hx hq
        exact ⟨e, h1, h2, h3⟩)
      rw [hseq, if_neg (by simp)] at hres
      obtain ⟨Y, rfl, hYl, hY⟩ := hres
      refine ⟨Y, [.int (.mat Y)], ?_, ?_⟩
      · simp only [Fmt.runLayers, Fmt.inferLayer, Layer.infer, hinf, Option.map_some, Option.bind_eq_bind, Option.bind_some]
      · refine List.forall₂_iff_get.mpr ⟨hYl, ?_⟩
        intro i h1 h2
        have hx : X[i]? = some X[i] := List.getElem?_eq_getElem h2
        have hy : Y[i]? = some Y[i] := List.getElem?_eq_getElem h1
        obtain ⟨y1, y2⟩ := hY i _ _ hx hy
        have hxl := (hX.2.2 _ (List.mem_of_getElem? hx)).1
        simp only [List.get_eq_getElem]
        generalize Y[i] = y at *
        generalize X[i] = x at *
        refine ⟨by simp [recExact, recLast, lastHidden], by simp [recExact, recBound, lastHidden], ?_⟩
        refine List.forall₂_iff_get.mpr ⟨by simp [recExact, recBound, lastHidden, y1], ?_⟩
        intro j j1 j2
        obtain ⟨c1, c2⟩ := y2 j (by omega)
        rw [List.getD_eq_getElem?_getD, List.getElem?_eq_getElem j1, Option.getD_some] at c1 c2
        simp only [List.get_eq_getElem, List.getElem_zip, recExact, recBound, recLast, lastHidden, List.getElem_map,
          List.getElem_range, List.getElem_replicate, hxl]
        exact ⟨c1, c2⟩
    | @cons op2 r2 ops2 rs2 hm2 hrest2 =>
      obtain ⟨hp, hk, hseq, hfits⟩ := hf
      subst hk
      subst hp
      obtain ⟨layers, hls, hz, hrun⟩ := ih _ _ hfits
      refine ⟨.lstm L' :: layers, by rw [List.mapM_cons, hb, hls]; rfl, hz, ?_⟩
      intro X Q T hX hlen hall
      obtain ⟨out, hinf, hres⟩ := run ext hm hn hX hlen (fun i x q hx hq => by
        obtain ⟨e, h1, h2, h3, -⟩ := hall i x q hx hq
        exact ⟨e, h1, h2, h3⟩)
      rw [hseq, if_pos rfl] at hres
      obtain ⟨Y, rfl, hYl, hY⟩ := hres
      obtain ⟨hne, hT, hrect⟩ := hX
      have hB : Batch (X.map (hiddenSeq ext r.l)) T r.l.units := by
        refine ⟨by simpa using hne, hT, ?_⟩
        intro x' hx'
        obtain ⟨x, hx, rfl⟩ := List.mem_map.mp hx'
        refine ⟨by simp [hiddenSeq, (hrect x hx).1], ?_⟩
        intro r' hr'
        unfold hiddenSeq at hr'
        obtain ⟨t, -, rfl⟩ := List.mem_map.mp hr'
        simp
      obtain ⟨Y', rec, a3, a5⟩ := hrun (X.map (hiddenSeq ext r.l)) Y T hB (by simpa using hYl) (by
        intro i x' y hx' hy
        rw [List.getElem?_map, Option.map_eq_some_iff] at hx'
        obtain ⟨x, hx, rfl⟩ := hx'
        have hxl := (hrect x (List.mem_of_getElem? hx)).1
        obtain ⟨q, hq⟩ : ∃ q, Q[i]? = some q := by
          obtain ⟨hi, -⟩ := List.getElem?_eq_some_iff.mp hx
          exact ⟨_, List.getElem?_eq_getElem (by omega)⟩
        obtain ⟨e, hcl, -, -, e', he', hb'⟩ := hall i x q hx hq
        obtain ⟨y1, y2⟩ := hY i x y hx hy
        refine ⟨e', ⟨y1, ?_, ?_⟩, hb'⟩
        · intro r' hr'
          obtain ⟨t, ht, rfl⟩ := List.mem_iff_getElem.mp hr'
          have := (y2 t (by omega)).1
          rwa [List.getD_eq_getElem?_getD, List.getElem?_eq_getElem ht, Option.getD_some] at this
        · intro t ht u hu
          obtain ⟨c1, c2⟩ := (y2 t ht).2 u hu
          refine ⟨c1, ?_⟩
          rw [hiddenSeq_getD ext r.l x (by omega), RecAcc.getD_range _ _ _ hu]
          exact le_trans c2 (he' (t + 1) (by omega)))
      refine ⟨Y', .int (.cube Y) :: rec, ?_, ?_⟩
      · simp only [Fmt.runLayers, Fmt.inferLayer, Layer.infer, hinf, Option.map_some, Option.bind_eq_bind, Option.bind_some, a3]
      · rw [List.forall₂_map_right_iff] at a5
        refine a5.imp (fun y x h => ?_)
        have e : (hiddenSeq ext r.l x).length = x.length := by simp [hiddenSeq]
        rw [e] at h
        exact h

end LstmF64

open LstmF64 FloatEngine Accuracy

/-- C96.  Any int8 network file with a quantize operator, LSTM operators, fully connected and look-up table operators that fit
together and a dequantize operator loads in the engine with float64 arithmetic, and for every non-empty batch of sequences
on which the recurrent layers stay in their calibrated ranges every output is within the accumulated bound of what the file
stands for in real arithmetic. -/
theorem C96_accuracy (ext : Ext) (net : NetJ) (s : ℚ) (z : ℤ) (rs : List RecLayer) (fs : List FileOp)
    (h : SeqNetMeans ext net s z rs fs) (hs : 0 < s) (hz : Code (-128) 127 z) (n : ℕ) (hrec : recFits (s, z) n rs)
    (hfit : fileFits (recLast rs).1 fs (recLast rs).2) 
    (hlast : IsFloat 53 (-1074) (fileLast (recLast rs).1 fs).1 ∨ (2 : ℚ) ^ (-1022 : ℤ) ≤ (fileLast (recLast rs).1 fs).1) :
    ∃ N, Fmt.f64.load net = some N ∧
      ∀ (X : List (List (List ℚ))) (T : ℕ), X ≠ [] → 0 < T →
        (∀ x ∈ X, x.length = T ∧ (∀ r ∈ x, r.length = n) ∧
          ∃ e, (∀ r ∈ x, ∀ v ∈ inputBound s z r, v ≤ e) ∧ recInRange ext e rs x) →
        ∃ Y rec, Fmt.f64.infer ext N (.flt (.cube X)) = some (.flt (.mat Y), rec) ∧
          List.Forall₂ (fun y x => Within y (fileExact fs (recExact ext rs x))
            (outputBound (fileExact fs (recExact ext rs x)) (fileBound fs (recExact ext rs x) (recBound T rs)))) Y X := by
  obtain ⟨heng, ⟨inp, hinp⟩, ⟨outp, hout⟩, q, lops, ops, d, hg, ⟨hq1, hq2, qo, qrest, hq3, hq4, hq5⟩, hlops, hops, hd1, di,
    drest, hd2, hd3, hd4⟩ := h
  obtain ⟨rlayers, hrl, hzr, hrun⟩ := stack ext hlops (s, z) n hrec
  obtain ⟨layers, hls, hzl, -, hm⟩ := ops_close ext hops (recLast rs).1 (recLast rs).2 hfit hzr
  obtain ⟨qt, hqt, hqd⟩ := names_int8 hq5
  obtain ⟨dt, hdt, hdd⟩ := names_int8 hd4
  have hbq : Fmt.f64.buildLayer q = some (.quantize (intDtype 7) z s) := by
    have hk : layerKind q.opType = some .quantize := by rw [hq1]; decide +kernel
    unfold Fmt.buildLayer Verif.buildLayer
    rw [hk]
    simp only
    unfold quantizeFromModel
    rw [hq3]
    simp only [List.getElem?_cons_zero, Option.bind_eq_bind, Option.bind_some, hqt, hqd, hq4.1, hq4.2]
  obtain ⟨so, zo, hlp⟩ : ∃ so zo, fileLast (recLast rs).1 fs = (so, zo) := ⟨_, _, rfl⟩
  rw [hlp] at hlast hzl hd3
  have hbd : Fmt.f64.buildLayer d = some (.dequantize zo so) := by
    have hk : layerKind d.opType = some .dequantize := by rw [hd1]; decide +kernel
    unfold Fmt.buildLayer Verif.buildLayer
    rw [hk]
    simp only
    unfold dequantizeFromModel
    rw [hd2]
    simp only [List.getElem?_cons_zero, Option.bind_eq_bind, Option.bind_some, hdt, hdd, hd3.1, hd3.2]
  have hall : net.graph.mapM Fmt.f64.buildLayer =
      some ((Layer.quantize (intDtype 7) z s :: (rlayers ++ layers)) ++ [.dequantize zo so]) := by
    rw [hg, List.mapM_append, List.mapM_cons, hbq, List.mapM_append, hrl, hls, List.mapM_cons, hbd]
    rfl
  obtain ⟨sc, hsc⟩ : ∃ sc : ℚ, sc = match inp.scale with
      | none => 1
      | some s => if s = 0 then 1 else s := ⟨_, rfl⟩
  refine ⟨⟨true, inp.zeroPoint.getD 0, sc,
    (Layer.quantize (intDtype 7) z s :: (rlayers ++ layers)) ++ [.dequantize zo so]⟩, ?_, ?_⟩
  · unfold Fmt.load
    rw [if_pos heng.symm]
    unfold Fmt.loadWith
    rw [hall]
    have hfirst : net.graph[0]? = some q := by rw [hg]; rfl
    rw [hfirst, hinp, hout]
    simp only [Option.bind_eq_bind, Option.bind_some, hq2]
    rw [hsc]
    rfl
  · intro X T hne hT hX
    obtain ⟨Q, hQ⟩ : ∃ Q, Q = X.map (fun x => x.map (fun r => r.map (fun v => Fmt.f64.quantize (intDtype 7) v z s))) := ⟨_, rfl⟩
    obtain ⟨Y1, rec1, e1, c1⟩ := hrun X Q T ⟨hne, hT, fun x hx => ⟨(hX x hx).1, (hX x hx).2.1⟩⟩ (by rw [hQ]; simp) (by
      intro i x q hx hq
      obtain ⟨hl, hr, e, he, hin⟩ := hX x (List.mem_of_getElem? hx)
      refine ⟨e, ?_, hin⟩
      have : q = x.map (fun r => r.map (fun v => Fmt.f64.quantize (intDtype 7) v z s)) := by
        rw [hQ, List.getElem?_map, hx] at hq
        simpa using hq.symm
      subst this
      refine ⟨by simp [hl], ?_, ?_⟩
      · intro r' hr'
        obtain ⟨r, hr0, rfl⟩ := List.mem_map.mp hr'
        rw [List.length_map]; exact hr r hr0
      · intro t ht f hf
        have htx : t < x.length := by omega
        have hfx : f < x[t].length := by rw [hr _ (List.getElem_mem htx)]; exact hf
        have e1 : (x.getD t []).getD f 0 = x[t][f] := by
          simp [List.getD_eq_getElem?_getD, htx, hfx]
        have e2 : ((x.map (fun r => r.map (fun v => Fmt.f64.quantize (intDtype 7) v z s))).getD t []).getD f 0 =
            Fmt.f64.quantize (intDtype 7) x[t][f] z s := by
          simp [List.getD_eq_getElem?_getD, htx, hfx]
        rw [e1, e2]
        obtain ⟨h1, h2⟩ := quant_near hs hz x[t][f]
        refine ⟨h1, le_trans h2 (he _ (List.getElem_mem htx) _ ?_)⟩
        exact List.mem_map.mpr ⟨_, List.getElem_mem hfx, rfl⟩)
    have hY1 : Y1 ≠ [] := by
      rintro rfl
      exact hne (List.length_eq_zero_iff.mp c1.length_eq.symm)
    obtain ⟨O, rec2, e2, c2⟩ := hm Y1 (X.map (fun x => (recExact ext rs x, recBound x.length rs))) hY1
      (List.forall₂_map_right_iff.mpr c1)
    refine ⟨O.map (fun o => o.map (fun q => Fmt.f64.dequantize q zo so)),
      .int (.cube Q) :: (rec1 ++ rec2) ++ [.flt (.mat (O.map (fun o => o.map (fun q => Fmt.f64.dequantize q zo so))))], ?_, ?_⟩
    · unfold Fmt.infer Fmt.prepare
      rw [if_pos rfl, runLayers_append]
      simp only [Fmt.runLayers, Fmt.inferLayer, Tensor.toFlt, Arr.map, Option.bind_eq_bind, Option.bind_some, ← hQ]
      rw [runLayers_append, e1]
      simp only [Option.bind_some, e2, Option.map_some, Fmt.runLayers, Fmt.inferLayer, Tensor.toInt, Arr.map,
        Option.bind_eq_bind, List.cons_append]
    · rw [List.forall₂_map_left_iff]
      rw [List.forall₂_map_right_iff, hlp] at c2
      refine Accuracy.forall₂_mem c2 (fun x hx => (hX x hx).1) (fun o x h hxl => ?_)
      rw [hxl] at h
      exact deq_near hlast hzl h

namespace Spec

/-- The gates of a loaded layer, in the order of the columns of Keras' weight matrices. -/
def fileGate (L : LSTM) : ℕ → LSTMGate
  | 0 => L.gi
  | 1 => L.gf
  | 2 => L.gc
  | _ => L.go

/-- The real layer whose weights are the dequantized weights of the file. -/
def fileLayer (L : LSTM) (b : LstmBudget) : KLSTM :=
  ⟨"", L.nCells,
    (List.range L.nFeatures).map (fun f => (List.range (4 * L.nCells)).map (fun j =>
      b.sK (j / L.nCells) * (((fileGate L (j / L.nCells)).kernel.getD f []).getD (j % L.nCells) 0 : ℤ))),
    (List.range L.nCells).map (fun f => (List.range (4 * L.nCells)).map (fun j =>
      b.sU (j / L.nCells) * (((fileGate L (j / L.nCells)).recurrent.getD f []).getD (j % L.nCells) 0 : ℤ))),
    (List.range (4 * L.nCells)).map (fun j =>
      b.sIn * b.sK (j / L.nCells) * ((fileGate L (j / L.nCells)).bias.getD (j % L.nCells) 0 : ℤ)),
    L.returnSequences⟩

/-- Entry for entry, the table `t` is the function `fn` from codes with parameters `(z, s)` to codes with parameters
`(zo, so)`, up to half a step and `τ`. -/
def TableMeans (fn : ℚ → ℚ) (τ : ℚ) (t : LutLayer) (s : ℚ) (z : ℤ) (so : ℚ) (zo : ℤ) : Prop :=
  ∀ q, Code (-128) 127 q → ∃ a, t.look q = some a ∧ |real zo so a - saturate so zo (fn (real z s q))| ≤ so / 2 + τ

/-- A usable int8 LSTM operator: matrices of the sizes of the layer, weights at most 255 and biases at most 2^31 after
the zero point is subtracted, int8 zero points and types, tables of sigmoid and tanh. -/
structure LstmFile (ext : Ext) (L : LSTM) (b : LstmBudget) : Prop where
  cells : 0 < L.nCells
  features : 0 < L.nFeatures
  kernel : ∀ g < 4, (fileGate L g).kernel.length = L.nFeatures ∧ ∀ r ∈ (fileGate L g).kernel, r.length = L.nCells
  recurrent : ∀ g < 4, (fileGate L g).recurrent.length = L.nCells ∧ ∀ r ∈ (fileGate L g).recurrent, r.length = L.nCells
  bias : ∀ g < 4, (fileGate L g).bias.length = L.nCells ∧ ∀ q ∈ (fileGate L g).bias, |q| ≤ 2 ^ 31
  codes : ∀ g < 4, ∀ r ∈ (fileGate L g).kernel ++ (fileGate L g).recurrent, ∀ q ∈ r, |q| ≤ 255
  zeroPoints : ∀ z ∈ [L.inputZp, L.gi.raZp, L.gf.raZp, L.gc.raZp, L.go.raZp, L.hiddenZp], Code (-128) 127 z
  cellZp : L.cellZp = 0
  dtypes : L.raDtype = intDtype 7 ∧ L.cellDtype = intDtype 7 ∧ L.hiddenDtype = intDtype 7
  input : TableMeans ext.sigmoid b.tab L.inputLut (b.sA 0) L.gi.raZp (b.sT 0) L.inputGateZp
  forget : TableMeans ext.sigmoid b.tab L.forgetLut (b.sA 1) L.gf.raZp (b.sT 1) L.forgetGateZp
  candidate : TableMeans ext.tanh b.tab L.cellLut (b.sA 2) L.gc.raZp (b.sT 2) L.cellGateZp
  output : TableMeans ext.sigmoid b.tab L.outputLut (b.sA 3) L.go.raZp (b.sT 3) L.outputGateZp
  state : TableMeans ext.tanh b.tab L.stateLut b.sC L.cellZp b.sS L.cellActZp

end Spec

namespace LstmF64

theorem getD_rng {n i : ℕ} {f : ℕ → ℚ} (h : i < n) : ((List.range n).map f)[i]? = some (f i) := by
  rw [List.getElem?_map, List.getElem?_range h]; rfl

theorem mat_entry {m n f c : ℕ} {F : ℕ → ℕ → ℚ} (hc : c < n) {v : ℚ}
    (h : (((List.range m).map (fun i => (List.range n).map (F i)))[f]?.bind (fun r => r[c]?)) = some v) :
    f < m ∧ v = F f c := by
  by_cases hf : f < m
  · rw [List.getElem?_map, List.getElem?_range hf] at h
    simp only [Option.map_some, Option.bind_some, getD_rng hc, Option.some.injEq] at h
    exact ⟨hf, h.symm⟩
  · rw [List.getElem?_map, List.getElem?_eq_none (by simpa using hf)] at h
    cases h

theorem code_entry {M : List (List ℤ)} {m n f c : ℕ} (hm : M.length = m) (hn : ∀ r ∈ M, r.length = n) (hf : f < m) (hc : c < n) :
    (M[f]?.bind (fun r => r[c]?)) = some ((M.getD f []).getD c 0) := by
  have hfM : f < M.length := by omega
  have hr := hn _ (List.getElem_mem hfM)
  have hc' : c < M[f].length := by rw [hr]; exact hc
  have h1 : M.getD f [] = M[f] := by rw [List.getD_eq_getElem?_getD, List.getElem?_eq_getElem hfM]; rfl
  have h2 : M[f].getD c 0 = M[f][c] := by rw [List.getD_eq_getElem?_getD, List.getElem?_eq_getElem hc']; rfl
  rw [h1, h2, List.getElem?_eq_getElem hfM, Option.bind_some, List.getElem?_eq_getElem hc']

theorem col_div {n g c : ℕ} (hc : c < n) : (g * n + c) / n = g ∧ (g * n + c) % n = c := by
  have h0 : 0 < n := by omega
  constructor
  · rw [Nat.mul_comm, Nat.mul_add_div h0, Nat.div_eq_of_lt hc, Nat.add_zero]
  · rw [Nat.mul_comm, Nat.mul_add_mod, Nat.mod_eq_of_lt hc]

theorem file_gate {ext : Ext} {L : LSTM} {b : LstmBudget} (h : LstmFile ext L b) {g : ℕ} (hg : g < 4) (hI : 0 < b.sIn)
    (hK : 0 < b.sK g) (hU : 0 < b.sU g) (hA : 0 < b.sA g) (hT : 0 < b.sT g)
    (htol : 0 ≤ b.tolK g ∧ 0 ≤ b.tolU g ∧ 0 ≤ b.tolB g) {fn : ℚ → ℚ} {t : LutLayer} {zo : ℤ}
    (ht : TableMeans fn b.tab t (b.sA g) (fileGate L g).raZp (b.sT g) zo)
    (hm : (fileGate L g).m1 = b.sK g * b.sIn / (b.sH * b.sU g) ∧ (fileGate L g).m2 = b.sU g * b.sH / b.sA g) :
    GateCodes (fileLayer L b) g fn b.tab (b.tolK g) (b.tolU g) (b.tolB g) b.sIn b.sH (b.sK g) (b.sU g) (b.sA g) (fileGate L g) t (b.sT g) zo := by
  have hlt : ∀ {c : ℕ}, c < L.nCells → g * L.nCells + c < 4 * L.nCells := by intro c hc; nlinarith
  have ek : (fileLayer L b).kernel = (List.range L.nFeatures).map (fun f => (List.range (4 * L.nCells)).map (fun j =>
      b.sK (j / L.nCells) * (((fileGate L (j / L.nCells)).kernel.getD f []).getD (j % L.nCells) 0 : ℤ))) := rfl
  have eu : (fileLayer L b).recurrent = (List.range L.nCells).map (fun f => (List.range (4 * L.nCells)).map (fun j =>
      b.sU (j / L.nCells) * (((fileGate L (j / L.nCells)).recurrent.getD f []).getD (j % L.nCells) 0 : ℤ))) := rfl
  have eb : (fileLayer L b).bias = (List.range (4 * L.nCells)).map (fun j =>
      b.sIn * b.sK (j / L.nCells) * ((fileGate L (j / L.nCells)).bias.getD (j % L.nCells) 0 : ℤ)) := rfl
  have en : (fileLayer L b).units = L.nCells := rfl
  refine ⟨hK, hU, hA, hT, ?_, ?_, ?_, ?_, (h.bias g hg).1, ?_, hm.1, hm.2, ht⟩
  · rw [ek, List.length_map, List.length_range, en]; exact h.kernel g hg
  · intro f c v hc hv
    rw [en] at hc hv
    rw [ek] at hv
    obtain ⟨hf, rfl⟩ := mat_entry (F := fun f j =>
      b.sK (j / L.nCells) * (((fileGate L (j / L.nCells)).kernel.getD f []).getD (j % L.nCells) 0 : ℤ)) (hlt hc) hv
    obtain ⟨c1, c2⟩ := col_div (g := g) hc
    refine ⟨_, code_entry (h.kernel g hg).1 (h.kernel g hg).2 hf hc, ?_⟩
    simp only [c1, c2, sub_self, abs_zero]
    linarith [htol.1, htol.2.1]
  · rw [en]; exact h.recurrent g hg
  · intro f c v hc hv
    rw [en] at hc hv
    rw [eu] at hv
    obtain ⟨hf, rfl⟩ := mat_entry (F := fun f j =>
      b.sU (j / L.nCells) * (((fileGate L (j / L.nCells)).recurrent.getD f []).getD (j % L.nCells) 0 : ℤ)) (hlt hc) hv
    obtain ⟨c1, c2⟩ := col_div (g := g) hc
    refine ⟨_, code_entry (h.recurrent g hg).1 (h.recurrent g hg).2 hf hc, ?_⟩
    simp only [c1, c2, sub_self, abs_zero]
    linarith [htol.1, htol.2.1]
  · intro c v hc hv
    rw [en] at hc hv
    rw [eb, getD_rng (hlt hc), Option.some.injEq] at hv
    subst hv
    obtain ⟨c1, c2⟩ := col_div (g := g) hc
    have hcb : c < (fileGate L g).bias.length := by rw [(h.bias g hg).1]; exact hc
    have e : (fileGate L g).bias[c]? = some ((fileGate L g).bias.getD c 0) := by
      rw [List.getD_eq_getElem?_getD, List.getElem?_eq_getElem hcb]; rfl
    refine ⟨_, e, (h.bias g hg).2 _ (List.mem_of_getElem? e), ?_⟩
    simp only [c1, c2, sub_self, abs_zero]
    have := mul_pos hI hK
    linarith [htol.2.2]

end LstmF64

/-- C96 (every LSTM operator).  A usable int8 LSTM operator stands for the real LSTM layer with its dequantized weights. -/
theorem C96_file {ext : Ext} {op : OpJ} {L : LSTM} {b : LstmBudget} (hk : op.opType = "LSTM") (hL : LSTM.fromModel op = some L)
    (h : LstmFile ext L b) (hs : LstmScales op b.sIn b.sK b.sU b.sA b.sH b.sC (b.sT 0) (b.sT 1) (b.sT 2) (b.sT 3) b.sS)
    (hb : b.Ok) (hz : b.zH = L.hiddenZp) (ha : b.amp = 255) (he : b.eps = 1 / 2 ^ 49) (hf : LstmFactors b)
    (hh : b.Holds ext (fileLayer L b)) : LstmMeans ext op ⟨fileLayer L b, L.inputZp, L, b⟩ := by
  obtain ⟨fg, f3, f4, f5, -, -⟩ := fromModel_factors hL hs
  refine ⟨hk, hL, ?_, hs, ?_, hb.sIn, h.zeroPoints, hz, ha, he, hf, hh⟩
  · have e : ∀ n, ((List.range n).map (fun _ => ())).length = n := by simp
    refine ⟨h.cells, by simp [fileLayer, h.features], ?_, by simp [fileLayer], ?_, by simp [fileLayer]⟩
    · intro r hr
      obtain ⟨f, -, rfl⟩ := List.mem_map.mp hr
      simp [fileLayer]
    · intro r hr
      obtain ⟨f, -, rfl⟩ := List.mem_map.mp hr
      simp [fileLayer]
  · have G : ∀ g (hg : g < 4) {fn : ℚ → ℚ} {t : LutLayer} {zo : ℤ}, _ := fun g hg {fn t zo} =>
      file_gate (fn := fn) (t := t) (zo := zo) h hg hb.sIn (hb.sK g hg) (hb.sU g hg) (hb.sA g hg) (hb.sT g hg) (hb.tol g hg)
    refine ⟨hb.sH, hb.sC, hb.sS, by simp [fileLayer], rfl, G 0 (by omega) h.input (fg (0, L.gi) (by simp)),
      G 1 (by omega) h.forget (fg (1, L.gf) (by simp)), G 2 (by omega) h.candidate (fg (2, L.gc) (by simp)),
      G 3 (by omega) h.output (fg (3, L.go) (by simp)), h.state, f3, f4, f5, rfl, h.cellZp, h.dtypes, rfl, ?_⟩
    intro g hg
    simp only [List.mem_cons, List.not_mem_nil, or_false] at hg
    rcases hg with rfl | rfl | rfl | rfl
    exacts [h.codes 0 (by omega), h.codes 1 (by omega), h.codes 2 (by omega), h.codes 3 (by omega)]

/-- C96 (exported layers).  What the quantizer of an LSTM layer exports stands for that layer, for every budget with the
scales of the export, whatever the rest of the network. -/
theorem C96_exported {ext : Ext} {w w' v : World} {l : KLSTM} {prev r : QRes} (hl : LstmShape l)
    (h : l.quantize ext w prev = some (w', r)) (hv : ∀ j < w'.next, v.nodes j = w'.nodes j) {input : Ref}
    (hp : prev.out = some input) (hin : input.id < w.next) (hs : 0 < (w.nodes input.id).scale)
    (hz : Code (-128) 127 (w.nodes input.id).zp) :
    ∃ op, r.ops = [op] ∧ ∀ L, LSTM.fromModel (opJson v op) = some L →
      ∀ b : LstmBudget, LstmScales (opJson v op) b.sIn b.sK b.sU b.sA b.sH b.sC (b.sT 0) (b.sT 1) (b.sT 2) (b.sT 3) b.sS →
        b.zH = L.hiddenZp → b.amp = 255 → b.eps = 1 / 2 ^ 49 → LstmFactors b → b.Holds ext l →
        LstmMeans ext (opJson v op) ⟨l, (w.nodes input.id).zp, L, b⟩ := by
  obtain ⟨input', X, sK, sU, sA, zK, zU, zA, st, sH, sC, zH, zC, sT, zT, hp', hX, hst, hf, hops, hnext, hframe⟩ :=
    lstm_facts h hv
  rw [hp, Option.some.injEq] at hp'
  subst hp'
  obtain ⟨op, X', st', hop, -, -, hall⟩ := C52_layout hl h hv hp hin hs
  have hopeq : op = l.op input w.next (KLSTM.refs (w.next + 22) 10 true) := by
    rw [hop] at hops
    exact List.head_eq_of_cons_eq hops
  refine ⟨op, hop, fun L hL b hb hz' ha he hf' hh => ?_⟩
  obtain ⟨sK', sU', sA', sH', sC', sI', sF', sG', sO', sS', hsc, hr⟩ := hall L hL
  have hpos : 0 < b.sIn := by
    have := hb.input.symm.trans hsc.input
    rw [this]; exact hs
  refine ⟨by show (opJson v op).opType = "LSTM"; rw [hopeq]; rfl, hL, hl, hb,
    LstmAcc.reads_codes hl hpos (LstmAcc.reads_congr hsc hr hb) hh, hpos, ?_, hz', ha, he, hf', hh⟩
  have hvin : v.nodes input.id = w.nodes input.id := by rw [hv _ (by omega), hframe _ hin]
  rw [hopeq, lstm_load hl (by rw [hvin]; exact hf)] at hL
  simp only [Option.bind_eq_some_iff, Option.some.injEq] at hL
  obtain ⟨-, -, -, -, -, -, rfl⟩ := hL
  intro z hzm
  simp only [loadedLSTM, loadedGate, List.mem_cons, List.not_mem_nil, or_false] at hzm
  rcases hzm with rfl | rfl | rfl | rfl | rfl | rfl
  exacts [hz, (cal_pos (hf.calA 0 (by omega))).2, (cal_pos (hf.calA 1 (by omega))).2, (cal_pos (hf.calA 2 (by omega))).2,
    (cal_pos (hf.calA 3 (by omega))).2, (cal_pos hf.calH).2]

/-- C96 (a recurrent model, end to end).  The file exported for a model with one LSTM layer loads in the engine with float64
arithmetic, and its answer to every batch of sequences on which the layer stays in its calibrated ranges is within the
accumulated error of the last hidden states of the Keras layer. -/
theorem C96_network {ext : Ext} {cfg : Cfg} {X : Arr ℚ} {l : KLSTM} (hl : LstmShape l) (hseq : l.returnSequences = false)
    {w : World} {rs : List QRes} (h : quantizeModel ext cfg X [.lstm l] = some (w, rs))
    (hin : NamesType cfg.quantizeDtype "int" 8) {net : SeqNet} (hnet : asSequential w rs = some net) :
    ∃ (op : Op) (L : LSTM) (zIn : ℤ), (networkOps rs)[1]? = some op ∧ LSTM.fromModel (opJson w op) = some L ∧
      Code (-128) 127 zIn ∧ (∀ v ∈ X.flat, Covered zIn (inScale (opJson w op) 0) v) ∧
      ∀ b : LstmBudget, LstmScales (opJson w op) b.sIn b.sK b.sU b.sA b.sH b.sC (b.sT 0) (b.sT 1) (b.sT 2) (b.sT 3) b.sS →
        b.zH = L.hiddenZp → b.amp = 255 → b.eps = 1 / 2 ^ 49 → LstmFactors b → b.Holds ext l → (2 : ℚ) ^ (-1022 : ℤ) ≤ b.sH →
        ∃ N, Fmt.f64.load (networkJson w rs) = some N ∧
          ∀ (Xs : List (List (List ℚ))) (T : ℕ), Xs ≠ [] → 0 < T →
            (∀ x ∈ Xs, x.length = T ∧ (∀ r ∈ x, r.length = l.kernel.length) ∧
              (∀ r ∈ x, ∀ v ∈ inputBound b.sIn zIn r, v ≤ b.eIn) ∧ LstmInRange ext l L b x T) →
            ∃ Y rec, Fmt.f64.infer ext N (.flt (.cube Xs)) = some (.flt (.mat Y), rec) ∧
              List.Forall₂ (fun y x => Within y (lastHidden ext l x)
                (outputBound (lastHidden ext l x) (List.replicate l.units (b.error T).1))) Y Xs := by
  obtain ⟨op, L, zIn, M, st, hop, hL, hM, hst, hpos, hzI, hzH, hcov, hq, hlayers, hkind, hgates, ⟨o, i, hgraph, o1, o2, ⟨ot, o3, o4⟩,
    i1, i2, it, i3, i4⟩, sK, sU, sA, sH, sC, sI, sF, sG, sO, sS, hsc, hr⟩ := LstmAcc.network hl h hin hnet
  refine ⟨op, L, zIn, hop, hL, hzI, hcov, ?_⟩
  intro b hbs hz hamp heps hfac hb hlast
  have hIn : inScale (opJson w op) 0 = b.sIn := hbs.input
  have hOut : outScale (opJson w op) = b.sH := hbs.hidden
  rw [hIn] at o1 hpos
  rw [hOut] at i1
  have hm : LstmMeans ext (opJson w op) ⟨l, zIn, L, b⟩ := by
    refine ⟨hkind, hL, hl, hbs, LstmAcc.reads_codes hl hpos (LstmAcc.reads_congr hsc hr hbs) hb, hpos, ?_, hz, hamp, heps, hfac, hb⟩
    · intro z hzm
      simp only [List.mem_cons, List.not_mem_nil, or_false] at hzm hgates
      rcases hzm with rfl | rfl | rfl | rfl | rfl | rfl
      exacts [hzI, hgates _ (by simp), hgates _ (by simp), hgates _ (by simp), hgates _ (by simp), hzH]
  have h8 : NamesType (intDtype 7).repr "int" 8 := by unfold NamesType; decide +kernel
  have hsm : SeqNetMeans ext (networkJson w rs) b.sIn zIn [⟨l, zIn, L, b⟩] [] := by
    refine ⟨by show upper "tflite" = _; decide +kernel, ⟨_, rfl⟩, ⟨_, rfl⟩, _, [opJson w op], [], _, hgraph, ?_, .cons hm .nil, .nil, ?_⟩
    · exact ⟨rfl, (by decide +kernel : contains "QUANT" (upper "QUANTIZE") = true), o, [], rfl, ⟨o1, o2⟩, ot, o3, by rw [o4]; exact h8⟩
    · exact ⟨rfl, i, [], rfl, ⟨i1, i2⟩, it, i3, by rw [i4]; exact h8⟩
  obtain ⟨N, hN, hrun⟩ := C96_accuracy ext (networkJson w rs) b.sIn zIn [⟨l, zIn, L, b⟩] [] hsm hpos hzI l.kernel.length
    ⟨rfl, rfl, hseq⟩ trivial (.inr hlast)
  refine ⟨N, hN, fun Xs T hne hT hX => ?_⟩
  refine hrun Xs T hne hT (fun x hx => ?_)
  obtain ⟨x1, x2, x3, x4⟩ := hX x hx
  refine ⟨x1, x2, b.eIn, x3, le_rfl, by rw [x1]; exact x4, ?_⟩
  obtain ⟨e', he'⟩ : ∃ e', ∀ t ≤ x.length, (b.error t).1 ≤ e' := by
    refine ⟨((List.range (x.length + 1)).map (fun t => |(b.error t).1|)).sum, fun t ht => ?_⟩
    refine le_trans (le_abs_self _) (List.single_le_sum ?_ _ (List.mem_map.mpr ⟨t, List.mem_range.mpr (by omega), rfl⟩))
    intro v hv
    obtain ⟨t, -, rfl⟩ := List.mem_map.mp hv
    exact abs_nonneg _
  exact ⟨e', he', trivial⟩

namespace C96Case

open C52Case (ext lstm shape)
open C83Case (X)

/-- The budget of `C83Case` with float64 errors: inputs are off by at most a little more than one step. -/
def budget : LstmBudget :=
  { C83Case.budget with eIn := 1 / 100, eps := 1 / 2 ^ 49 }

theorem holds : budget.Holds ext lstm := by
  obtain ⟨h1, h2, h3, h4, h5, h6, h7, h8, h9, h9', h10, h11, h12, h13, h14, h15, h16, h17, h18⟩ := C83Case.holds
  refine ⟨h1, h2, h3, ?_, ?_, ?_, h7, ?_, h9, h9', h10, h11, h12, h13, h14, h15, h16, h17, ?_⟩ <;> decide +kernel

theorem tiny {k : ℤ} (hk : k ≤ -40) {x : ℚ} (h : (2 : ℚ) ^ (-40 : ℤ) ≤ x) : (2 : ℚ) ^ k ≤ x :=
  (zpow_le_zpow_right₀ (by norm_num) hk).trans h

theorem factors : LstmFactors budget := by
  refine ⟨fun g hg => tiny (by norm_num) ?_, fun g hg => tiny (by norm_num) ?_, fun g hg => tiny (by norm_num) ?_,
    fun g hg => tiny (by norm_num) ?_, ⟨tiny (by norm_num) ?_, ?_⟩, tiny (by norm_num) ?_, ⟨tiny (by norm_num) ?_, ?_⟩,
    tiny (by norm_num) ?_, ⟨tiny (by norm_num) ?_, ?_⟩⟩ <;> (try revert g) <;> decide +kernel

/-- A covered number is not far from its code. -/
theorem input_bound {s : ℚ} (hs : 0 < s) {z : ℤ} (hz : Code (-128) 127 z) {u : ℚ} (h : Covered z s u) :
    s * (1 / 2 + (4 * |u / s| + 4 * |(z : ℚ)| + 1) / 2 ^ 53) + |saturate s z u - u| ≤ s * (1 + 2048 / 2 ^ 53) := by
  obtain ⟨q, hq, he⟩ := h
  have h1 : |u / s| ≤ 256 := by
    have e : u / s = (q - z : ℤ) - (real z s q - u) / s := by unfold real; push_cast; field_simp; ring
    have h2 : |(real z s q - u) / s| ≤ 1 / 2 := by
      rw [abs_div, abs_of_pos hs, div_le_iff₀ hs]; linarith
    have h3 : |((q - z : ℤ) : ℚ)| ≤ 255 := by
      have : |q - z| ≤ 255 := by unfold Code at hq hz; rw [abs_le]; omega
      exact_mod_cast this
    rw [e]
    refine le_trans (abs_sub _ _) ?_
    linarith
  have h2 : |(z : ℚ)| ≤ 128 := by
    have : |z| ≤ 128 := by unfold Code at hz; rw [abs_le]; omega
    exact_mod_cast this
  have h3 : |saturate s z u - u| ≤ s / 2 := by
    refine le_trans ?_ he
    have a1 : real z s (-128) ≤ real z s q := by
      unfold real; unfold Code at hq
      exact mul_le_mul_of_nonneg_left (by have : (-128 : ℚ) ≤ q := by exact_mod_cast hq.1
                                          push_cast; linarith) hs.le
    have a2 : real z s q ≤ real z s 127 := by
      unfold real; unfold Code at hq
      exact mul_le_mul_of_nonneg_left (by have : (q : ℚ) ≤ 127 := by exact_mod_cast hq.2
                                          push_cast; linarith) hs.le
    unfold saturate
    rcases le_total u (real z s (-128)) with c | c
    · rw [min_eq_right (by linarith), max_eq_left c, abs_of_nonneg (by linarith), abs_of_nonneg (by linarith)]; linarith
    · rcases le_total u (real z s 127) with d | d
      · rw [min_eq_right d, max_eq_right c, sub_self, abs_zero]; exact abs_nonneg _
      · rw [min_eq_left d, max_eq_right (by linarith), abs_of_nonpos (by linarith), abs_of_nonpos (by linarith)]; linarith
  have h4 : s * ((4 * |u / s| + 4 * |(z : ℚ)| + 1) / 2 ^ 53) ≤ s * (2048 / 2 ^ 53) :=
    mul_le_mul_of_nonneg_left (div_le_div_of_nonneg_right (by linarith) (by norm_num)) hs.le
  rw [mul_add]
  linarith

/-- So the file of the quantized layer, run in float64 on its calibration data, is within 0.05 of the Keras layer. -/
theorem answer : ∃ w rs N, quantizeModel ext {} (.cube X) [.lstm lstm] = some (w, rs) ∧
    Fmt.f64.load (networkJson w rs) = some N ∧
    ∃ Y rec, Fmt.f64.infer ext N (.flt (.cube X)) = some (.flt (.mat Y), rec) ∧
      List.Forall₂ (fun y x => ∃ v, y = [v] ∧ |v - (lstmState ext lstm x 1).1 0| ≤ 1 / 20) Y X := by
  have hc := C83Case.check
  cases hq : quantizeModel ext {} (.cube X) [.lstm lstm] with
  | none => rw [hq] at hc; cases hc
  | some p =>
    obtain ⟨w, rs⟩ := p
    rw [hq] at hc
    simp only [Bool.and_eq_true] at hc
    obtain ⟨hn, hc⟩ := hc
    obtain ⟨net, hnet⟩ := Option.isSome_iff_exists.mp hn
    have hB : Batch X 1 lstm.kernel.length := by refine ⟨by decide, by decide, ?_⟩; decide +kernel
    obtain ⟨op, L, zIn, hop, hL, hzI, hcov, hall⟩ := C96_network shape rfl hq (by unfold NamesType; decide +kernel) hnet
    obtain ⟨op', L', zIn', M, st, hop', hL', hM, hst, -, hz', -, -, -, -, -, -, -, sK, sU, sA, sH, sC, sI, sF, sG, sO, sS,
      hsc, hr⟩ := LstmAcc.network shape hq (by unfold NamesType; decide +kernel) hnet
    rw [hop, Option.some.injEq] at hop'
    subst hop'
    rw [hL, Option.some.injEq] at hL'
    subst hL'
    have hM' : M = X := (Arr.cube.inj hM).symm
    subst hM'
    rw [hop] at hc
    simp only [hL, Bool.and_eq_true, decide_eq_true_eq, List.all_eq_true, List.mem_range] at hc
    obtain ⟨hz, ⟨⟨⟨⟨⟨⟨⟨⟨⟨⟨c0, c1⟩, c2⟩, c3⟩, c4⟩, c5⟩, c6⟩, c7⟩, c8⟩, c9⟩, c10⟩⟩ := hc
    have hs : LstmScales (opJson w op) budget.sIn budget.sK budget.sU budget.sA budget.sH budget.sC (budget.sT 0) (budget.sT 1)
      (budget.sT 2) (budget.sT 3) budget.sS := ⟨c0, c1, c2, c3, c4, c5, c6, c7, c8, c9, c10⟩
    obtain ⟨N, hN, hrun⟩ := hall budget hs hz rfl rfl factors holds (tiny (by norm_num) (by decide +kernel))
    rw [hs.input] at hcov
    obtain ⟨Y, rec, h1, h2⟩ := hrun X 1 (by decide) (by decide) (by
      intro x hx
      refine ⟨(hB.2.2 x hx).1, (hB.2.2 x hx).2, ?_,
        C83_calibrated_in_range shape (LstmAcc.reads_congr hsc hr hs) holds (by decide +kernel) hB hst (Or.inl (by decide)) x hx⟩
      intro r hr' v hv
      obtain ⟨u, hu, rfl⟩ := List.mem_map.mp hv
      have hcv := hcov u (List.mem_flatten.mpr ⟨r, List.mem_flatten.mpr ⟨x, hx, hr'⟩, hu⟩)
      have hb := input_bound (show 0 < budget.sIn by decide +kernel) hzI hcv
      exact le_trans hb (by decide +kernel))
    refine ⟨w, rs, N, rfl, hN, Y, rec, h1, ?_⟩
    refine Accuracy.forall₂_mem h2 (show ∀ x ∈ X, |(lstmState ext lstm x 1).1 0| ≤ 1 ∧ x.length = 1 by decide +kernel)
      (fun y x h hx => ?_)
    obtain ⟨-, h⟩ := h
    simp only [lastHidden, show lstm.units = 1 from rfl, List.range_one, List.map_cons, List.map_nil, List.replicate_one,
      outputBound, List.zipWith_cons_cons, List.zipWith_nil_left, List.zip_cons_cons, List.zip_nil_left, hx.2] at h
    cases h with
    | cons h1 h2 =>
      cases h2
      refine ⟨_, rfl, le_trans h1 ?_⟩
      have e : (budget.error 1).1 ≤ 1 / 21 := by decide +kernel
      have a := hx.1
      show (budget.error 1).1 + (|(lstmState ext lstm x 1).1 0| + (budget.error 1).1) / 2 ^ 53 ≤ 1 / 20
      have e2 : (|(lstmState ext lstm x 1).1 0| + (budget.error 1).1) / 2 ^ 53 ≤ 2 / 2 ^ 53 :=
        div_le_div_of_nonneg_right (by linarith) (by norm_num)
      norm_num at e2
      linarith

/-- Every entry of the table, as a check. -/
def tableCheck (fn : ℚ → ℚ) (t : LutLayer) (s : ℚ) (z : ℤ) (so : ℚ) (zo : ℤ) : Bool :=
  (List.range 256).all (fun i => match t.look ((i : ℤ) - 128) with
    | none => false
    | some a => decide (|real zo so a - saturate so zo (fn (real z s ((i : ℤ) - 128)))| ≤ so / 2))

theorem tableCheck_means {fn : ℚ → ℚ} {t : LutLayer} {s : ℚ} {z : ℤ} {so : ℚ} {zo : ℤ} (h : tableCheck fn t s z so zo = true) :
    TableMeans fn 0 t s z so zo := by
  intro q hq
  unfold Code at hq
  have hi : (q + 128).toNat ∈ List.range 256 := by rw [List.mem_range]; omega
  have h1 := List.all_eq_true.mp h _ hi
  rw [show (((q + 128).toNat : ℕ) : ℤ) - 128 = q by omega] at h1
  cases ha : t.look q with
  | none => rw [ha] at h1; cases h1
  | some a =>
    rw [ha] at h1
    exact ⟨a, rfl, by rw [add_zero]; exact of_decide_eq_true h1⟩

/-- The dequantized weights have slightly larger column sums. -/
def fbudget : LstmBudget := { budget with colK := fun _ => 129 / 255 }

/-- The file of `C83Case` is a usable operator in the sense of `C96_file`, and its dequantized weights keep the fbudget. -/
def fileCheck : Bool :=
  match quantizeModel ext {} (.cube X) [.lstm lstm] with
  | none => false
  | some (w, rs) =>
    match (networkOps rs)[1]? with
    | none => false
    | some op =>
      match LSTM.fromModel (opJson w op) with
      | none => false
      | some L =>
        let l := fileLayer L fbudget
        decide (0 < L.nCells) && decide (0 < L.nFeatures) &&
        (List.range 4).all (fun g => decide ((fileGate L g).kernel.length = L.nFeatures) && (fileGate L g).kernel.all (fun r => decide (r.length = L.nCells))) &&
        (List.range 4).all (fun g => decide ((fileGate L g).recurrent.length = L.nCells) && (fileGate L g).recurrent.all (fun r => decide (r.length = L.nCells))) &&
        decide (∀ g < 4, (fileGate L g).bias.length = L.nCells ∧ ∀ q ∈ (fileGate L g).bias, |q| ≤ 2 ^ 31) &&
        decide (∀ g < 4, ∀ r ∈ (fileGate L g).kernel ++ (fileGate L g).recurrent, ∀ q ∈ r, |q| ≤ 255) &&
        decide (∀ z ∈ [L.inputZp, L.gi.raZp, L.gf.raZp, L.gc.raZp, L.go.raZp, L.hiddenZp], -128 ≤ z ∧ z ≤ 127) &&
        decide (L.cellZp = 0) && decide (L.raDtype = intDtype 7 ∧ L.cellDtype = intDtype 7 ∧ L.hiddenDtype = intDtype 7) &&
        tableCheck ext.sigmoid L.inputLut (fbudget.sA 0) L.gi.raZp (fbudget.sT 0) L.inputGateZp &&
        tableCheck ext.sigmoid L.forgetLut (fbudget.sA 1) L.gf.raZp (fbudget.sT 1) L.forgetGateZp &&
        tableCheck ext.tanh L.cellLut (fbudget.sA 2) L.gc.raZp (fbudget.sT 2) L.cellGateZp &&
        tableCheck ext.sigmoid L.outputLut (fbudget.sA 3) L.go.raZp (fbudget.sT 3) L.outputGateZp &&
        tableCheck ext.tanh L.stateLut fbudget.sC L.cellZp fbudget.sS L.cellActZp &&
        decide (fbudget.features = l.kernel.length) && decide (fbudget.units = l.units) &&
        (List.range 4).all (fun g => (List.range l.units).all (fun u => decide (
          ((List.range l.kernel.length).map (fun f => |weight l.kernel f (g * l.units + u)|)).sum ≤ fbudget.colK g))) &&
        (List.range 4).all (fun g => (List.range l.units).all (fun u => decide (
          ((List.range l.units).map (fun k => |weight l.recurrent k (g * l.units + u)|)).sum ≤ fbudget.colU g))) &&
        decide (∀ g < 4, ∀ u < l.units, |l.bias.getD (g * l.units + u) 0| ≤ fbudget.sIn * fbudget.sK g * (2 ^ 31 - 1))

theorem fileCheck_true : fileCheck = true := by decide +kernel

/-- So `C96_file` applies to it. -/
theorem file : ∃ op L, op.opType = "LSTM" ∧ LSTM.fromModel op = some L ∧
    LstmMeans ext op ⟨fileLayer L fbudget, L.inputZp, L, fbudget⟩ := by
  have hc := C83Case.check
  have hd := fileCheck_true
  unfold fileCheck at hd
  cases hq : quantizeModel ext {} (.cube X) [.lstm lstm] with
  | none => rw [hq] at hc; cases hc
  | some p =>
    obtain ⟨w, rs⟩ := p
    rw [hq] at hc hd
    simp only [Bool.and_eq_true] at hc hd
    obtain ⟨hn, hc⟩ := hc
    obtain ⟨net, hnet⟩ := Option.isSome_iff_exists.mp hn
    obtain ⟨op, L, zIn, M, st, hop, hL, hM, hst, -, -, -, -, -, -, htype, -⟩ :=
      LstmAcc.network shape hq (by unfold NamesType; decide +kernel) hnet
    rw [hop] at hc hd
    simp only [hL, Bool.and_eq_true, decide_eq_true_eq, List.all_eq_true, List.mem_range] at hc hd
    obtain ⟨hz, ⟨⟨⟨⟨⟨⟨⟨⟨⟨⟨c0, c1⟩, c2⟩, c3⟩, c4⟩, c5⟩, c6⟩, c7⟩, c8⟩, c9⟩, c10⟩⟩ := hc
    obtain ⟨⟨⟨⟨⟨⟨⟨⟨⟨⟨⟨⟨⟨⟨⟨⟨⟨⟨d0, d1⟩, d2⟩, d3⟩, d4⟩, d5⟩, d6⟩, d7⟩, d8⟩, d9⟩, d10⟩, d11⟩, d12⟩, d13⟩, d14⟩, d15⟩, d16⟩, d17⟩,
      d18⟩ := hd
    have hs : LstmScales (opJson w op) fbudget.sIn fbudget.sK fbudget.sU fbudget.sA fbudget.sH fbudget.sC (fbudget.sT 0) (fbudget.sT 1)
      (fbudget.sT 2) (fbudget.sT 3) fbudget.sS := ⟨c0, c1, c2, c3, c4, c5, c6, c7, c8, c9, c10⟩
    have hh := holds
    have hf := factors
    refine ⟨_, L, htype, hL, C96_file htype hL
      ⟨d0, d1, d2, d3, d4, d5, d6, d7, d8, tableCheck_means d9, tableCheck_means d10, tableCheck_means d11,
        tableCheck_means d12, tableCheck_means d13⟩ hs ?_ hz rfl rfl
      ⟨hf.kernel, hf.recurrent, hf.first, hf.second, hf.forget, hf.gates, hf.cell, hf.output, hf.hidden⟩
      ⟨d14, d15, hh.amp, hh.eIn, hh.lipSigmoid, hh.lipTanh, hh.forget, hh.eps, hh.tab, hh.tol, hh.sigmoid, hh.tanh, hh.sigmoidLip,
        hh.tanhLip, d16, d17, d18, hh.first, hh.second⟩⟩
    refine ⟨?_, ?_, ?_, ?_, ?_, ?_, ?_, ?_, ?_, ?_, ?_, ?_, ?_, ?_, ?_, ?_, ?_, ?_⟩ <;> decide +kernel

end C96Case

end Verif
