import Verif.Lemmas.LstmExport
import Verif.Props.Floating
import Verif.Props.Pipeline

/-!
# C52: the LSTM quantizer and the LSTM of the inference engine agree on the node layout
-/

namespace Verif
open Spec Keras

namespace Keras

/-- The gate the inference engine reads from the exported nodes. -/
def loadedGate (l : KLSTM) (i : ℕ) (inS sH : ℚ) (sK sU sA : ℕ → ℚ) (zK zU zA : ℕ → ℤ) (R : Option Fmt := none) : LSTMGate :=
  { kernel := (KLSTM.cols l.units i l.kernel).map (fun r =>
      r.map (fun x => Quantization.quantize (intDtype 7) x (zK i) (sK i) - zK i))
    recurrent := (KLSTM.cols l.units i l.recurrent).map (fun r =>
      r.map (fun x => Quantization.quantize (intDtype 7) x (zU i) (sU i) - zU i))
    bias := ((l.bias.drop (i * l.units)).take l.units).map (fun x =>
      Quantization.quantize (intDtype 31) x 0 (inS * sK i) - 0)
    m1 := Fmt.opt R (Fmt.opt R (sK i * inS) / Fmt.opt R (sH * sU i))
    m2 := Fmt.opt R (Fmt.opt R (sU i * sH) / sA i)
    raZp := zA i }

/-- The table the inference engine reads from a node to which a table was attached. -/
def loadedLut (fn : ℚ → ℚ) (s : ℚ) (z : ℤ) (so : ℚ) (zo : ℤ) : LutLayer :=
  ⟨.plain (NodeLUT.init (intDtype 7) fn s z so zo).lut, (NodeLUT.init (intDtype 7) fn s z so zo).offset⟩

/-- The layer the inference engine reads from the exported nodes. -/
def loadedLSTM (ext : Ext) (l : KLSTM) (inS : ℚ) (inZ : ℤ) (sK sU sA : ℕ → ℚ) (zK zU zA : ℕ → ℤ)
    (sH sC : ℚ) (zH zC : ℤ) (sT : ℕ → ℚ) (zT : ℕ → ℤ) (R : Option Fmt := none) : LSTM :=
  { nFeatures := l.kernel.length
    nCells := l.units
    gi := loadedGate l 0 inS sH sK sU sA zK zU zA R
    gf := loadedGate l 1 inS sH sK sU sA zK zU zA R
    gc := loadedGate l 2 inS sH sK sU sA zK zU zA R
    go := loadedGate l 3 inS sH sK sU sA zK zU zA R
    m3 := sT 1
    m4 := Fmt.opt R (Fmt.opt R (sT 0 * sT 2) / sC)
    m5 := Fmt.opt R (Fmt.opt R (sT 3 * sT 4) / sH)
    inputLut := loadedLut ext.sigmoid (sA 0) (zA 0) (sT 0) (zT 0)
    forgetLut := loadedLut ext.sigmoid (sA 1) (zA 1) (sT 1) (zT 1)
    cellLut := loadedLut ext.tanh (sA 2) (zA 2) (sT 2) (zT 2)
    outputLut := loadedLut ext.sigmoid (sA 3) (zA 3) (sT 3) (zT 3)
    stateLut := loadedLut ext.tanh sC zC (sT 4) (zT 4)
    inputZp := inZ
    hiddenZp := zH
    inputGateZp := zT 0
    forgetGateZp := zT 1
    cellGateZp := zT 2
    outputGateZp := zT 3
    cellZp := zC
    cellActZp := zT 4
    raDtype := intDtype 7
    cellDtype := intDtype 7
    hiddenDtype := intDtype 7
    returnSequences := l.returnSequences
    rnd := R }

end Keras

/-- A Keras LSTM layer with consistent weight shapes. -/
structure Spec.LstmShape (l : KLSTM) : Prop where
  units : 0 < l.units
  features : 0 < l.kernel.length
  kernel : ∀ r ∈ l.kernel, r.length = 4 * l.units
  cells : l.recurrent.length = l.units
  recurrent : ∀ r ∈ l.recurrent, r.length = 4 * l.units
  bias : l.bias.length = 4 * l.units

namespace Keras

theorem cols_length (n i : ℕ) (M : List (List ℚ)) : (KLSTM.cols n i M).length = M.length := by simp [KLSTM.cols]

theorem cols_row {n i : ℕ} (hi : i < 4) {M : List (List ℚ)} (h : ∀ r ∈ M, r.length = 4 * n) :
    ∀ r ∈ KLSTM.cols n i M, r.length = n := by
  intro r hr
  obtain ⟨r', hr', rfl⟩ := List.mem_map.mp hr
  rw [List.length_take, List.length_drop, h r' hr']
  have : i * n + n ≤ 4 * n := by nlinarith
  omega

theorem cols_ne {n i : ℕ} {M : List (List ℚ)} (h : 0 < M.length) : KLSTM.cols n i M ≠ [] := by
  intro hc
  have := congrArg List.length hc
  rw [cols_length] at this
  simp at this; simp [this] at h

theorem int8_repr : (GDtype.ofString (intDtype 7).repr.toList).toOption = some (intDtype 7) := by decide +kernel

theorem int32_repr : (GDtype.ofString (intDtype 31).repr.toList).toOption = some (intDtype 31) := by decide +kernel

theorem bind_of {α β : Type} {x : Option α} {a : α} (h : x = some a) {f : α → Option β} {y : Option β}
    (hy : f a = y) : (x >>= f) = y := by subst h; exact hy

theorem bind_congr' {α β : Type} {x : Option α} {f g : α → Option β} (h : ∀ a, f a = g a) : (x >>= f) = x.bind g := by
  cases x with
  | none => rfl
  | some a => exact h a

theorem fromModel_of (R : Option Fmt) (op : OpJ) (n0 n1 n2 n3 n4 n5 n6 n7 n8 n9 n10 n11 n12 n13 n14 n15 n16 n17 n18 n19 n20 n21 n22 n23 n24 n25 n26 n27 n28 n29 n30 n31 o : NodeJ)
    (hin : op.inputs = [n0, n1, n2, n3, n4, n5, n6, n7, n8, n9, n10, n11, n12, n13, n14, n15, n16, n17, n18, n19, n20, n21, n22, n23, n24, n25, n26, n27, n28, n29, n30, n31])
    (hout : op.outputs = [o]) (rs : Bool) (hret : op.returnSequences = some rs) (g0 g1 g2 g3 : LSTMGate)
    (h0 : LSTM.buildGate n0 o n1 n5 n9 n17 R = some g0) (h1 : LSTM.buildGate n0 o n2 n6 n10 n18 R = some g1)
    (h2 : LSTM.buildGate n0 o n3 n7 n11 n19 R = some g2) (h3 : LSTM.buildGate n0 o n4 n8 n12 n20 R = some g3)
    (sI sF sG sO sS sC sH : ℚ) (c23 : n23.scale = some sI) (c25 : n25.scale = some sF) (c27 : n27.scale = some sG)
    (c29 : n29.scale = some sO) (c31 : n31.scale = some sS) (c21 : n21.scale = some sC) (co : o.scale = some sH)
    (d13 dA dS dH : GDtype) (e13 : LSTM.nodeDtype n13 = some d13) (e17 : LSTM.nodeDtype n17 = some dA)
    (e31 : LSTM.nodeDtype n31 = some dS) (eo : LSTM.nodeDtype o = some dH) (t0 t1 t2 t3 t4 : LutLayer)
    (u0 : LutLayer.ofNode n22 = some t0) (u1 : LutLayer.ofNode n24 = some t1) (u2 : LutLayer.ofNode n26 = some t2)
    (u3 : LutLayer.ofNode n28 = some t3) (u4 : LutLayer.ofNode n30 = some t4) :
    LSTM.fromModel op R =
      (floatingApprox sF).bind (fun _ => (floatingApprox (Fmt.opt R (Fmt.opt R (sI * sG) / sC))).bind (fun _ =>
        (floatingApprox (Fmt.opt R (Fmt.opt R (sO * sS) / sH))).bind (fun _ => some
          ⟨g0.kernel.length, (g0.kernel.getD 0 []).length, g0, g1, g2, g3, sF, Fmt.opt R (Fmt.opt R (sI * sG) / sC),
            Fmt.opt R (Fmt.opt R (sO * sS) / sH),
            t0, t1, t2, t3, t4, n0.zeroPoint.getD 0, o.zeroPoint.getD 0, n23.zeroPoint.getD 0, n25.zeroPoint.getD 0,
            n27.zeroPoint.getD 0, n29.zeroPoint.getD 0, n21.zeroPoint.getD 0, n31.zeroPoint.getD 0, dA, dS, dH, rs, R⟩))) := by
  have q : ∀ (i : ℕ) (n : NodeJ), ([n0, n1, n2, n3, n4, n5, n6, n7, n8, n9, n10, n11, n12, n13, n14, n15, n16, n17, n18, n19, n20, n21, n22, n23, n24, n25, n26, n27, n28, n29, n30, n31] : List NodeJ)[i]? = some n →
      op.inputs[i]? = some n := by intro i n h; rw [hin]; exact h
  unfold LSTM.fromModel
  have q0 := q 0 n0 rfl
  have q1 := q 1 n1 rfl
  have q5 := q 5 n5 rfl
  have q9 := q 9 n9 rfl
  have q17 := q 17 n17 rfl
  have q2 := q 2 n2 rfl
  have q6 := q 6 n6 rfl
  have q10 := q 10 n10 rfl
  have q18 := q 18 n18 rfl
  have q3 := q 3 n3 rfl
  have q7 := q 7 n7 rfl
  have q11 := q 11 n11 rfl
  have q19 := q 19 n19 rfl
  have q4 := q 4 n4 rfl
  have q8 := q 8 n8 rfl
  have q12 := q 12 n12 rfl
  have q20 := q 20 n20 rfl
  have q21 := q 21 n21 rfl
  have q22 := q 22 n22 rfl
  have q23 := q 23 n23 rfl
  have q24 := q 24 n24 rfl
  have q25 := q 25 n25 rfl
  have q26 := q 26 n26 rfl
  have q27 := q 27 n27 rfl
  have q28 := q 28 n28 rfl
  have q29 := q 29 n29 rfl
  have q30 := q 30 n30 rfl
  have q31 := q 31 n31 rfl
  have q13 := q 13 n13 rfl
  refine bind_of q0 ?_
  refine bind_of (by rw [hout]; rfl : op.outputs.head? = some o) ?_
  refine bind_of hret ?_
  refine bind_of q1 ?_
  refine bind_of q5 ?_
  refine bind_of q9 ?_
  refine bind_of q17 ?_
  refine bind_of h0 ?_
  refine bind_of q2 ?_
  refine bind_of q6 ?_
  refine bind_of q10 ?_
  refine bind_of q18 ?_
  refine bind_of h1 ?_
  refine bind_of q3 ?_
  refine bind_of q7 ?_
  refine bind_of q11 ?_
  refine bind_of q19 ?_
  refine bind_of h2 ?_
  refine bind_of q4 ?_
  refine bind_of q8 ?_
  refine bind_of q12 ?_
  refine bind_of q20 ?_
  refine bind_of h3 ?_
  refine bind_of q21 ?_
  refine bind_of q22 ?_
  refine bind_of q23 ?_
  refine bind_of q24 ?_
  refine bind_of q25 ?_
  refine bind_of q26 ?_
  refine bind_of q27 ?_
  refine bind_of q28 ?_
  refine bind_of q29 ?_
  refine bind_of q30 ?_
  refine bind_of q31 ?_
  refine bind_of c25 ?_
  refine bind_of c23 ?_
  refine bind_of c27 ?_
  refine bind_of c21 ?_
  refine bind_of c29 ?_
  refine bind_of c31 ?_
  refine bind_of co ?_
  refine bind_congr' (fun _ => ?_)
  refine bind_congr' (fun _ => ?_)
  refine bind_congr' (fun _ => ?_)
  refine bind_of q13 ?_
  refine bind_of e13 ?_
  refine bind_of u0 ?_
  refine bind_of u1 ?_
  refine bind_of u2 ?_
  refine bind_of u3 ?_
  refine bind_of u4 ?_
  refine bind_of q17 ?_
  refine bind_of e17 ?_
  refine bind_of e31 ?_
  refine bind_of eo ?_
  rfl

section
variable {ext : Ext} {l : KLSTM} {v : World} {k0 : ℕ} {sK sU sA : ℕ → ℚ} {zK zU zA : ℕ → ℤ}
  {st : KLSTM.Steps} {sH sC : ℚ} {zH zC : ℤ} {sT : ℕ → ℚ} {zT : ℕ → ℤ} {input : Ref}

theorem gate_load (R : Option Fmt) (hl : Spec.LstmShape l)
    (hf : LstmFacts ext l v k0 (v.nodes input.id).scale sK sU sA zK zU zA st sH sC zH zC sT zT) (i : ℕ) (hi : i < 4) :
    LSTM.buildGate (nodeJson (v.nodes input.id) input.exclude) (nodeJson (v.nodes (k0 + 12)) true)
      (nodeJson (v.nodes (k0 + i)) false) (nodeJson (v.nodes (k0 + 4 + i)) false)
      (nodeJson (v.nodes (k0 + 8 + i)) false) (nodeJson (v.nodes (k0 + 17 + i)) true) R =
    some (loadedGate l i (v.nodes input.id).scale sH sK sU sA zK zU zA R) := by
  have e1 := mat_json (sK i) (zK i) (KLSTM.cols l.units i l.kernel) l.units (cols_ne hl.features) (cols_row hi hl.kernel)
  have e2 := mat_json (sU i) (zU i) (KLSTM.cols l.units i l.recurrent) l.units
    (cols_ne (by rw [hl.cells]; exact hl.units)) (cols_row hi hl.recurrent)
  rw [← hf.nodeK i hi] at e1
  rw [← hf.nodeU i hi] at e2
  rw [e1, e2]
  have s1 : (nodeJson (v.nodes input.id) input.exclude).scale = some (v.nodes input.id).scale := rfl
  have s2 : (nodeJson (v.nodes (k0 + 12)) true).scale = some sH := by rw [hf.nodeH]; rfl
  have s3 : (nodeJson (v.nodes (k0 + 17 + i)) true).scale = some (sA i) := by rw [hf.nodeA i hi]; rfl
  have s4 : (nodeJson (v.nodes (k0 + 17 + i)) true).zeroPoint = some (zA i) := by rw [hf.nodeA i hi]; rfl
  have s5 : LSTM.nodeVec (nodeJson (v.nodes (k0 + 8 + i)) false) =
      some (((l.bias.drop (i * l.units)).take l.units).map (fun x =>
        Quantization.quantize (intDtype 31) x 0 ((v.nodes input.id).scale * sK i) - 0)) := by
    rw [hf.nodeB i hi]
    simp only [LSTM.nodeVec, nodeJson, Node.withTensor, Node.base, Option.map_some, Option.bind_eq_bind,
      Option.bind_some, Bool.false_eq_true, if_false, Arr.toFArr, Arr.shape, Arr.ofShape, quantizeArray_eq, Arr.flat,
      List.map_map]
    rfl
  unfold LSTM.buildGate
  rw [s1, s2, s3, s4, s5]
  simp only [LSTM.nodeMat, Option.bind_eq_bind, Option.bind_some, Option.getD_some, List.map_map, Function.comp_def,
    loadedGate]

theorem lut_load (fn : ℚ → ℚ) (n : Node) (s : ℚ) (z : ℤ) (b : FArr)
    (hn : n = (Node.base s z (intDtype 7)).withTensor b) (so : ℚ) (zo : ℤ) :
    LutLayer.ofNode (nodeJson (n.withLut fn so zo) true) = some (loadedLut fn s z so zo) := by
  subst hn; rfl

theorem dtype_load (s : ℚ) (z : ℤ) (b : FArr) (e : Bool) :
    LSTM.nodeDtype (nodeJson ((Node.base s z (intDtype 7)).withTensor b) e) = some (intDtype 7) := by
  simp only [LSTM.nodeDtype, nodeJson, Node.withTensor, Node.base, Option.map_some, Option.bind_eq_bind,
    Option.bind_some]
  exact int8_repr

theorem dtype_load32 (s : ℚ) (z : ℤ) (b : FArr) (e : Bool) :
    LSTM.nodeDtype (nodeJson ((Node.base s z (intDtype 31)).withTensor b) e) = some (intDtype 31) := by
  simp only [LSTM.nodeDtype, nodeJson, Node.withTensor, Node.base, Option.map_some, Option.bind_eq_bind,
    Option.bind_some]
  exact int32_repr

theorem lstm_load_in (R : Option Fmt) (hl : Spec.LstmShape l)
    (hf : LstmFacts ext l v k0 (v.nodes input.id).scale sK sU sA zK zU zA st sH sC zH zC sT zT) :
    LSTM.fromModel (opJson v (l.op input k0 (KLSTM.refs (k0 + 22) 10 true))) R =
      (floatingApprox (sT 1)).bind (fun _ => (floatingApprox (Fmt.opt R (Fmt.opt R (sT 0 * sT 2) / sC))).bind (fun _ =>
        (floatingApprox (Fmt.opt R (Fmt.opt R (sT 3 * sT 4) / sH))).bind (fun _ =>
          some (loadedLSTM ext l (v.nodes input.id).scale (v.nodes input.id).zp sK sU sA zK zU zA sH sC zH zC sT zT R)))) := by
  have hin : (opJson v (l.op input k0 (KLSTM.refs (k0 + 22) 10 true))).inputs =
      [nodeJson (v.nodes input.id) input.exclude,
       nodeJson (v.nodes (k0 + 0)) false, nodeJson (v.nodes (k0 + 1)) false,
       nodeJson (v.nodes (k0 + 2)) false, nodeJson (v.nodes (k0 + 3)) false,
       nodeJson (v.nodes (k0 + 4 + 0)) false, nodeJson (v.nodes (k0 + 4 + 1)) false,
       nodeJson (v.nodes (k0 + 4 + 2)) false, nodeJson (v.nodes (k0 + 4 + 3)) false,
       nodeJson (v.nodes (k0 + 8 + 0)) false, nodeJson (v.nodes (k0 + 8 + 1)) false,
       nodeJson (v.nodes (k0 + 8 + 2)) false, nodeJson (v.nodes (k0 + 8 + 3)) false,
       nodeJson (v.nodes (k0 + 13)) true, nodeJson (v.nodes (k0 + 14)) true,
       nodeJson (v.nodes (k0 + 15)) true, nodeJson (v.nodes (k0 + 16)) true,
       nodeJson (v.nodes (k0 + 17 + 0)) true, nodeJson (v.nodes (k0 + 17 + 1)) true,
       nodeJson (v.nodes (k0 + 17 + 2)) true, nodeJson (v.nodes (k0 + 17 + 3)) true,
       nodeJson (v.nodes (k0 + 21)) true,
       nodeJson (v.nodes (k0 + 22)) true, nodeJson (v.nodes (k0 + 23 + 2 * 0)) true,
       nodeJson (v.nodes (k0 + 24)) true, nodeJson (v.nodes (k0 + 23 + 2 * 1)) true,
       nodeJson (v.nodes (k0 + 26)) true, nodeJson (v.nodes (k0 + 23 + 2 * 2)) true,
       nodeJson (v.nodes (k0 + 28)) true, nodeJson (v.nodes (k0 + 23 + 2 * 3)) true,
       nodeJson (v.nodes (k0 + 30)) true, nodeJson (v.nodes (k0 + 23 + 2 * 4)) true] := rfl
  have hout : (opJson v (l.op input k0 (KLSTM.refs (k0 + 22) 10 true))).outputs =
      [nodeJson (v.nodes (k0 + 12)) true] := rfl
  have hret : (opJson v (l.op input k0 (KLSTM.refs (k0 + 22) 10 true))).returnSequences = some l.returnSequences := rfl
  obtain ⟨b0, t0⟩ := hf.nodeT 0 (by omega)
  obtain ⟨b1, t1⟩ := hf.nodeT 1 (by omega)
  obtain ⟨b2, t2⟩ := hf.nodeT 2 (by omega)
  obtain ⟨b3, t3⟩ := hf.nodeT 3 (by omega)
  obtain ⟨b4, t4⟩ := hf.nodeT 4 (by omega)
  have hba := hf.nodeBA 0 (by omega)
  have d13 : LSTM.nodeDtype (nodeJson (v.nodes (k0 + 13)) true) = some (intDtype 31) := by
    rw [hba]; exact dtype_load32 _ _ _ _
  have d17 : LSTM.nodeDtype (nodeJson (v.nodes (k0 + 17 + 0)) true) = some (intDtype 7) := by
    rw [hf.nodeA 0 (by omega)]; exact dtype_load _ _ _ _
  have d12 : LSTM.nodeDtype (nodeJson (v.nodes (k0 + 12)) true) = some (intDtype 7) := by
    rw [hf.nodeH]; exact dtype_load _ _ _ _
  have d31 : LSTM.nodeDtype (nodeJson (v.nodes (k0 + 23 + 2 * 4)) true) = some (intDtype 7) := by
    rw [t4]; exact dtype_load _ _ _ _
  have l0 := lut_load ext.sigmoid _ _ _ _ (hf.nodeA 0 (by omega)) (sT 0) (zT 0)
  have l1 := lut_load ext.sigmoid _ _ _ _ (hf.nodeA 1 (by omega)) (sT 1) (zT 1)
  have l2 := lut_load ext.tanh _ _ _ _ (hf.nodeA 2 (by omega)) (sT 2) (zT 2)
  have l3 := lut_load ext.sigmoid _ _ _ _ (hf.nodeA 3 (by omega)) (sT 3) (zT 3)
  have l4 := lut_load ext.tanh _ _ _ _ hf.nodeC (sT 4) (zT 4)
  rw [← hf.nodeI] at l0
  rw [← hf.nodeF] at l1
  rw [← hf.nodeG] at l2
  rw [← hf.nodeO] at l3
  rw [← hf.nodeS] at l4
  have scH : (nodeJson (v.nodes (k0 + 12)) true).scale = some sH := by rw [hf.nodeH]; rfl
  have zpH : (nodeJson (v.nodes (k0 + 12)) true).zeroPoint = some zH := by rw [hf.nodeH]; rfl
  have scC : (nodeJson (v.nodes (k0 + 21)) true).scale = some sC := by rw [hf.nodeC]; rfl
  have zpC : (nodeJson (v.nodes (k0 + 21)) true).zeroPoint = some zC := by rw [hf.nodeC]; rfl
  have sc0 : (nodeJson (v.nodes (k0 + 23 + 2 * 0)) true).scale = some (sT 0) := by rw [t0]; rfl
  have sc1 : (nodeJson (v.nodes (k0 + 23 + 2 * 1)) true).scale = some (sT 1) := by rw [t1]; rfl
  have sc2 : (nodeJson (v.nodes (k0 + 23 + 2 * 2)) true).scale = some (sT 2) := by rw [t2]; rfl
  have sc3 : (nodeJson (v.nodes (k0 + 23 + 2 * 3)) true).scale = some (sT 3) := by rw [t3]; rfl
  have sc4 : (nodeJson (v.nodes (k0 + 23 + 2 * 4)) true).scale = some (sT 4) := by rw [t4]; rfl
  have zp0 : (nodeJson (v.nodes (k0 + 23 + 2 * 0)) true).zeroPoint = some (zT 0) := by rw [t0]; rfl
  have zp1 : (nodeJson (v.nodes (k0 + 23 + 2 * 1)) true).zeroPoint = some (zT 1) := by rw [t1]; rfl
  have zp2 : (nodeJson (v.nodes (k0 + 23 + 2 * 2)) true).zeroPoint = some (zT 2) := by rw [t2]; rfl
  have zp3 : (nodeJson (v.nodes (k0 + 23 + 2 * 3)) true).zeroPoint = some (zT 3) := by rw [t3]; rfl
  have zp4 : (nodeJson (v.nodes (k0 + 23 + 2 * 4)) true).zeroPoint = some (zT 4) := by rw [t4]; rfl
  have zpI : (nodeJson (v.nodes input.id) input.exclude).zeroPoint = some (v.nodes input.id).zp := rfl
  have g0 := gate_load R hl hf 0 (by omega)
  have g1 := gate_load R hl hf 1 (by omega)
  have g2 := gate_load R hl hf 2 (by omega)
  have g3 := gate_load R hl hf 3 (by omega)
  have hk : (loadedGate l 0 (v.nodes input.id).scale sH sK sU sA zK zU zA R).kernel.length = l.kernel.length := by
    simp [loadedGate, cols_length]
  have hn : ((loadedGate l 0 (v.nodes input.id).scale sH sK sU sA zK zU zA R).kernel.getD 0 []).length = l.units := by
    obtain ⟨r, rest, hr⟩ := List.exists_cons_of_ne_nil (cols_ne (n := l.units) (i := 0) hl.features)
    have := cols_row (n := l.units) (i := 0) (by omega) hl.kernel r (by rw [hr]; simp)
    simp [loadedGate, hr, this]
  rw [fromModel_of R _ _ _ _ _ _ _ _ _ _ _ _ _ _ _ _ _ _ _ _ _ _ _ _ _ _ _ _ _ _ _ _ _ _ hin hout _ hret _ _ _ _ g0 g1 g2 g3
    _ _ _ _ _ _ _ sc0 sc1 sc2 sc3 sc4 scC scH _ _ _ _ d13 d17 d31 d12 _ _ _ _ _ l0 l1 l2 l3 l4, hk, hn, zp0, zp1, zp2, zp3, zp4,
    zpC, zpH, zpI]
  rfl

theorem lstm_load (hl : Spec.LstmShape l)
    (hf : LstmFacts ext l v k0 (v.nodes input.id).scale sK sU sA zK zU zA st sH sC zH zC sT zT) :
    LSTM.fromModel (opJson v (l.op input k0 (KLSTM.refs (k0 + 22) 10 true))) =
      (floatingApprox (sT 1)).bind (fun _ => (floatingApprox (sT 0 * sT 2 / sC)).bind (fun _ =>
        (floatingApprox (sT 3 * sT 4 / sH)).bind (fun _ =>
          some (loadedLSTM ext l (v.nodes input.id).scale (v.nodes input.id).zp sK sU sA zK zU zA sH sC zH zC sT zT)))) :=
  lstm_load_in none hl hf

end
end Keras

/-! ## Specification -/

/-- The scale of the exported node at position `i` of the operator's inputs. -/
def Spec.inScale (op : OpJ) (i : ℕ) : ℚ := ((op.inputs[i]?).bind (fun n => n.scale)).getD 0

/-- The scale of the operator's first output. -/
def Spec.outScale (op : OpJ) : ℚ := ((op.outputs[0]?).bind (fun n => n.scale)).getD 0

/-- The scales of the nodes of an exported LSTM operator, in the node layout of the export: kernels 1–4, recurrent kernels
5–8, recurrent sums 17–20, cell state 21, gate outputs 23, 25, 27, 29, squashed cell state 31, hidden state (output). -/
structure Spec.LstmScales (op : OpJ) (sIn : ℚ) (sK sU sA : ℕ → ℚ) (sH sC sI sF sG sO sS : ℚ) : Prop where
  input : inScale op 0 = sIn
  kernel : ∀ g < 4, inScale op (1 + g) = sK g
  recurrent : ∀ g < 4, inScale op (5 + g) = sU g
  sum : ∀ g < 4, inScale op (17 + g) = sA g
  cell : inScale op 21 = sC
  inputGate : inScale op 23 = sI
  forgetGate : inScale op 25 = sF
  candidate : inScale op 27 = sG
  outputGate : inScale op 29 = sO
  squashed : inScale op 31 = sS
  hidden : outScale op = sH

/-- What the inference engine's gate number `gate` (0 input, 1 forget, 2 cell candidate, 3 output) must hold for the
Keras layer `l`: its own columns of kernel, recurrent kernel and bias under scales `sK`, `sU` and `sIn·sK`, rescaling
factors made of these scales, and a table that maps every code of its recurrent sum to the nearest code of the
activation of the real number the code stands for. -/
structure Spec.GateReads (l : KLSTM) (gate : ℕ) (fn : ℚ → ℚ) (sums : List (List (List ℚ))) (sIn sH sK sU sA : ℚ)
    (g : LSTMGate) (t : LutLayer) (sOut : ℚ) (zOut : ℤ) : Prop where
  posK : 0 < sK
  posU : 0 < sU
  posA : 0 < sA
  posOut : 0 < sOut
  kernelShape : g.kernel.length = l.kernel.length ∧ ∀ r ∈ g.kernel, r.length = l.units
  kernel : ∀ (f c : ℕ) (v : ℚ), c < l.units → (l.kernel[f]?.bind (fun r => r[gate * l.units + c]?)) = some v →
    ∃ q : ℤ, (g.kernel[f]?.bind (fun r => r[c]?)) = some q ∧ |sK * q - v| ≤ sK / 2
  recurrentShape : g.recurrent.length = l.units ∧ ∀ r ∈ g.recurrent, r.length = l.units
  recurrent : ∀ (f c : ℕ) (v : ℚ), c < l.units → (l.recurrent[f]?.bind (fun r => r[gate * l.units + c]?)) = some v →
    ∃ q : ℤ, (g.recurrent[f]?.bind (fun r => r[c]?)) = some q ∧ |sU * q - v| ≤ sU / 2
  biasShape : g.bias.length = l.units
  bias : ∀ (c : ℕ) (v : ℚ), c < l.units → l.bias[gate * l.units + c]? = some v →
    ∃ q : ℤ, g.bias[c]? = some q ∧ Nearest (-(2 ^ 31)) (2 ^ 31 - 1) 0 (sIn * sK) v q
  m1 : g.m1 = sK * sIn / (sH * sU)
  m2 : g.m2 = sU * sH / sA
  table : ∀ q, Code (-128) 127 q → ∃ a, t.look q = some a ∧ Nearest (-128) 127 zOut sOut (fn (real g.raZp sA q)) a
  covers : ∀ step ∈ sums, ∀ row ∈ step, ∀ (c : ℕ) (y : ℚ), c < l.units → row[gate * l.units + c]? = some y →
    ∃ q, Code (-128) 127 q ∧ |real g.raZp sA q - y| ≤ sA / 2

/-- What the inference engine's LSTM layer must hold for the Keras layer `l` whose calibration run went through the
recorded steps `st`, fed by a node with scale `sIn` and zero point `zIn`, if the engine computed exactly. -/
structure Spec.LstmReads (ext : Ext) (l : KLSTM) (st : KLSTM.Steps) (sIn : ℚ) (zIn : ℤ) (L : LSTM)
    (sK sU sA : ℕ → ℚ) (sH sC sI sF sG sO sS : ℚ) : Prop where
  posH : 0 < sH
  posC : 0 < sC
  posS : 0 < sS
  features : L.nFeatures = l.kernel.length
  cells : L.nCells = l.units
  input : GateReads l 0 ext.sigmoid (st.map (fun s => s.1)) sIn sH (sK 0) (sU 0) (sA 0) L.gi L.inputLut sI L.inputGateZp
  forget : GateReads l 1 ext.sigmoid (st.map (fun s => s.1)) sIn sH (sK 1) (sU 1) (sA 1) L.gf L.forgetLut sF
    L.forgetGateZp
  candidate : GateReads l 2 ext.tanh (st.map (fun s => s.1)) sIn sH (sK 2) (sU 2) (sA 2) L.gc L.cellLut sG L.cellGateZp
  output : GateReads l 3 ext.sigmoid (st.map (fun s => s.1)) sIn sH (sK 3) (sU 3) (sA 3) L.go L.outputLut sO
    L.outputGateZp
  state : ∀ q, Code (-128) 127 q →
    ∃ a, L.stateLut.look q = some a ∧ Nearest (-128) 127 L.cellActZp sS (ext.tanh (real L.cellZp sC q)) a
  m3 : L.m3 = sF
  m4 : L.m4 = sI * sG / sC
  m5 : L.m5 = sO * sS / sH
  inputZp : L.inputZp = zIn
  cellZp : L.cellZp = 0
  dtypes : L.raDtype = intDtype 7 ∧ L.cellDtype = intDtype 7 ∧ L.hiddenDtype = intDtype 7
  sequences : L.returnSequences = l.returnSequences
  exact : L.rnd = none
  coversH : ∀ s ∈ st, ∀ row ∈ s.2.2, ∀ y ∈ row, ∃ q, Code (-128) 127 q ∧ |real L.hiddenZp sH q - y| ≤ sH / 2
  coversC : ∀ s ∈ st, ∀ row ∈ s.2.1, ∀ y ∈ row, ∃ q, Code (-128) 127 q ∧ |real L.cellZp sC q - y| ≤ sC / 2
  codes : ∀ g ∈ [L.gi, L.gf, L.gc, L.go], ∀ r ∈ g.kernel ++ g.recurrent, ∀ q ∈ r, |q| ≤ 255
  /-- the range of the input gate is calibrated on the first `units` time steps only -/
  coversI : ∀ s ∈ st.take l.units, ∀ row ∈ s.1, ∀ (c : ℕ) (y : ℚ), c < l.units → row[c]? = some y →
    ∃ q, Code (-128) 127 q ∧ |real L.inputGateZp sI q - ext.sigmoid y| ≤ sI / 2
  coversF : ∀ s ∈ st, ∀ row ∈ s.1, ∀ (c : ℕ) (y : ℚ), c < l.units → row[l.units + c]? = some y →
    ∃ q, Code (-128) 127 q ∧ |real L.forgetGateZp sF q - ext.sigmoid y| ≤ sF / 2
  coversG : ∀ s ∈ st, ∀ row ∈ s.1, ∀ (c : ℕ) (y : ℚ), c < l.units → row[2 * l.units + c]? = some y →
    ∃ q, Code (-128) 127 q ∧ |real L.cellGateZp sG q - ext.tanh y| ≤ sG / 2
  coversO : ∀ s ∈ st, ∀ row ∈ s.1, ∀ (c : ℕ) (y : ℚ), c < l.units → row[3 * l.units + c]? = some y →
    ∃ q, Code (-128) 127 q ∧ |real L.outputGateZp sO q - ext.sigmoid y| ≤ sO / 2
  coversS : ∀ s ∈ st, ∀ row ∈ s.2.1, ∀ y ∈ row,
    ∃ q, Code (-128) 127 q ∧ |real L.cellActZp sS q - ext.tanh y| ≤ sS / 2

namespace Keras

theorem build_nil : Dist.build [] 512 true = ⟨[], Dist.linEdges 0 1 512, List.replicate 512 0, true⟩ := by
  unfold Dist.build
  rw [List.mergeSort_nil]
  simp only [Dist.outer, List.min?_nil, List.max?_nil, Dist.mk.injEq, true_and, and_true]
  simp [Dist.counts, Dist.linEdges]

theorem nil_min_max : (Dist.build [] 512 true).getMin = some 0 ∧ (Dist.build [] 512 true).getMax = some 1 := by
  rw [build_nil]
  constructor <;> decide +kernel

theorem min_max (a : List ℚ) : ∃ m M, (Dist.build a).getMin = some m ∧ (Dist.build a).getMax = some M ∧
    min m 0 < max M 0 := by
  by_cases ha : a = []
  · subst ha
    exact ⟨0, 1, nil_min_max.1, nil_min_max.2, by norm_num⟩
  · obtain ⟨m, M, hm, hM, hlt, -⟩ := Dist.min_lt_max a ha 512 (by omega) true
    exact ⟨m, M, hm, hM, lt_of_le_of_lt (min_le_left _ _) (lt_of_lt_of_le hlt (le_max_left _ _))⟩

theorem int8_fits : Fits32 (intDtype 7).min (intDtype 7).max := by unfold Fits32; decide +kernel

theorem int8_range : (intDtype 7).min = -128 ∧ (intDtype 7).max = 127 := by decide +kernel

theorem int32_range : (intDtype 31).min = -(2 ^ 31) ∧ (intDtype 31).max = 2 ^ 31 - 1 := by decide +kernel

theorem int32_fits : Fits32 (intDtype 31).min (intDtype 31).max := by unfold Fits32; decide +kernel

/-- Calibration on any data gives a positive scale and a zero point of the dtype. -/
theorem cal_pos {a : List ℚ} {s : ℚ} {z : ℤ} (h : (Dist.build a).quantize (intDtype 7) = some (s, z)) :
    0 < s ∧ Code (-128) 127 z := by
  obtain ⟨m, M, hm, hM, hlt⟩ := min_max a
  have hq : calLo (intDtype 7) false < (intDtype 7).max := by decide +kernel
  rw [Dist.quantize_eq _ (intDtype 7) false m M hm hM hlt hq] at h
  obtain ⟨c1, c2, c3, -⟩ := cal_core (min m 0) (max M 0) (min_le_right _ _) (le_max_right _ _) hlt _ _ hq
  simp only [Option.some.injEq, Prod.mk.injEq] at h
  obtain ⟨rfl, rfl⟩ := h
  refine ⟨c1, ?_⟩
  have e1 := roundHalfEven_mono c2
  have e2 := roundHalfEven_mono c3
  rw [roundHalfEven_int] at e1 e2
  exact ⟨e1, e2⟩

theorem cal_sym_pos {a : List ℚ} {s : ℚ} {z : ℤ}
    (h : (Dist.build a).quantize (intDtype 7) (some 0) none true = some (s, z)) : 0 < s ∧ z = 0 := by
  obtain ⟨m, M, hm, hM, hlt⟩ := min_max a
  rw [Dist.quantize_forced _ (intDtype 7) true 0 m M hm hM hlt (by decide +kernel) (by decide +kernel)] at h
  simp only [Option.some.injEq, Prod.mk.injEq, if_true] at h
  obtain ⟨rfl, rfl⟩ := h
  refine ⟨div_pos ?_ (by decide +kernel), rfl⟩
  rcases lt_or_ge (min m 0) 0 with h | h
  · exact lt_of_lt_of_le (abs_pos.mpr (ne_of_lt h)) (le_max_left _ _)
  · exact lt_of_lt_of_le (abs_pos.mpr (ne_of_gt (lt_of_le_of_lt h hlt))) (le_max_right _ _)

theorem cal_half {a : List ℚ} {s : ℚ} {z : ℤ} (h : (Dist.build a).quantize (intDtype 7) = some (s, z)) {x : ℚ}
    (hx : x ∈ a) : Code (-128) 127 (Quantization.quantize (intDtype 7) x z s) ∧
      |real z s (Quantization.quantize (intDtype 7) x z s) - x| ≤ s / 2 := by
  refine ⟨?_, C30_half_step a 512 (by omega) true (intDtype 7) int8_fits false (by decide +kernel) (by decide +kernel)
    s z h x hx⟩
  have := (C04_quantize_nearest (intDtype 7) int8_fits z s (cal_pos h).1 x).1
  exact this

theorem cal_sym_half {a : List ℚ} {s : ℚ} {z : ℤ}
    (h : (Dist.build a).quantize (intDtype 7) (some 0) none true = some (s, z)) {x : ℚ} (hx : x ∈ a) :
    Code (-128) 127 (Quantization.quantize (intDtype 7) x z s) ∧
      |real z s (Quantization.quantize (intDtype 7) x z s) - x| ≤ s / 2 := by
  obtain ⟨hs, rfl⟩ := cal_sym_pos h
  obtain ⟨s', h', -, hall⟩ := C31_symmetric a (List.ne_nil_of_mem hx) 512 (by omega) true (intDtype 7) int8_fits
    (by decide +kernel) (by decide +kernel)
  have e : s' = s := by
    have := h'.symm.trans h
    simp only [Option.some.injEq, Prod.mk.injEq, and_true] at this
    exact this
  subst e
  exact ⟨(C04_quantize_nearest (intDtype 7) int8_fits 0 s' hs x).1, (hall x hx).1⟩

theorem lut_reads {fn : ℚ → ℚ} {s : ℚ} {z : ℤ} (hz : Code (-128) 127 z) {so : ℚ} {zo : ℤ} (hso : 0 < so) :
    ∀ q, Code (-128) 127 q → ∃ a, (loadedLut fn s z so zo).look q = some a ∧
      Nearest (-128) 127 zo so (fn (real z s q)) a := by
  intro q hq
  have hn := C04_quantize_nearest (intDtype 7) int8_fits zo so hso (fn (real z s q))
  rw [int8_range.1, int8_range.2] at hn
  obtain ⟨lut, h1, h2, h3⟩ := C36_after_construction (Node.base s z (intDtype 7)) int8_fits fn so zo
  have h1' : NodeLUT.init (intDtype 7) fn s z so zo = lut := by
    simpa [Node.withLut, Node.base] using h1
  refine ⟨_, ?_, hn⟩
  have := h3 q (by rw [show (Node.base s z (intDtype 7)).quant = intDtype 7 from rfl, int8_range.1, int8_range.2]; exact hq)
    (by show IsInt32 (q - z); unfold IsInt32; unfold Code at hz hq; omega)
  rw [← h1'] at this
  exact this

theorem cols_get {n i f c : ℕ} {M : List (List ℚ)} {v : ℚ} (hc : c < n)
    (h : (M[f]?.bind (fun r => r[i * n + c]?)) = some v) :
    ((KLSTM.cols n i M)[f]?.bind (fun r => r[c]?)) = some v := by
  rw [Option.bind_eq_some_iff] at h ⊢
  obtain ⟨r, hr, h⟩ := h
  refine ⟨(r.drop (i * n)).take n, ?_, ?_⟩
  · simp [KLSTM.cols, hr]
  · rw [List.getElem?_take_of_lt hc, List.getElem?_drop]; exact h

theorem mem_flatten_of_get {M : List (List ℚ)} {f c : ℕ} {v : ℚ} (h : (M[f]?.bind (fun r => r[c]?)) = some v) :
    v ∈ M.flatten := by
  rw [Option.bind_eq_some_iff] at h
  obtain ⟨r, hr, h⟩ := h
  exact List.mem_flatten.mpr ⟨r, List.mem_of_getElem? hr, List.mem_of_getElem? h⟩

theorem map_get {M : List (List ℚ)} (g : ℚ → ℤ) {f c : ℕ} {v : ℚ} (h : (M[f]?.bind (fun r => r[c]?)) = some v) :
    ((M.map (fun r => r.map g))[f]?.bind (fun r => r[c]?)) = some (g v) := by
  rw [Option.bind_eq_some_iff] at h ⊢
  obtain ⟨r, hr, h⟩ := h
  exact ⟨r.map g, by simp [hr], by simp [h]⟩

/-- One calibrated matrix, read back gate by gate. -/
theorem matrix_reads {n i : ℕ} {M : List (List ℚ)} {s : ℚ} {z : ℤ}
    (h : KLSTM.scaleZp (Arr.mat (KLSTM.cols n i M)).flat (intDtype 7) = some (s, z)) (f c : ℕ) (v : ℚ) (hc : c < n)
    (hv : (M[f]?.bind (fun r => r[i * n + c]?)) = some v) :
    ∃ q : ℤ, (((KLSTM.cols n i M).map (fun r => r.map (fun x => Quantization.quantize (intDtype 7) x z s - z)))[f]?.bind
      (fun r => r[c]?)) = some q ∧ |s * q - v| ≤ s / 2 := by
  have hg := cols_get hc hv
  refine ⟨_, map_get _ hg, ?_⟩
  have := (cal_half (a := (Arr.mat (KLSTM.cols n i M)).flat) h (mem_flatten_of_get hg)).2
  unfold real at this
  push_cast
  exact this

theorem code_sub {s : ℚ} (hs : 0 < s) {z : ℤ} (hz : Code (-128) 127 z) (x : ℚ) :
    |Quantization.quantize (intDtype 7) x z s - z| ≤ 255 := by
  have h := (C04_quantize_nearest (intDtype 7) int8_fits z s hs x).1
  rw [int8_range.1, int8_range.2] at h
  unfold Code at h hz
  rw [abs_le]
  constructor <;> omega

theorem gateCols_map_mem {fn : ℚ → ℚ} {l : KLSTM} {st : KLSTM.Steps} {s : List (List ℚ) × List (List ℚ) × List (List ℚ)}
    (hs : s ∈ st) {row : List ℚ} (hrow : row ∈ s.1) {i c : ℕ} {y : ℚ} (hc : c < l.units)
    (hy : row[i * l.units + c]? = some y) : fn y ∈ ((l.gateCols st i).map fn).flat := by
  show fn y ∈ (((st.map (fun s => KLSTM.cols l.units i s.1)).map (fun m => m.map (fun r => r.map fn))).flatten).flatten
  refine List.mem_flatten.mpr ⟨((row.drop (i * l.units)).take l.units).map fn, List.mem_flatten.mpr
    ⟨(KLSTM.cols l.units i s.1).map (fun r => r.map fn), List.mem_map.mpr ⟨_, List.mem_map.mpr ⟨s, hs, rfl⟩, rfl⟩,
      List.mem_map.mpr ⟨_, List.mem_map.mpr ⟨row, hrow, rfl⟩, rfl⟩⟩, ?_⟩
  refine List.mem_map.mpr ⟨y, List.mem_of_getElem? (i := c) ?_, rfl⟩
  rw [List.getElem?_take_of_lt hc, List.getElem?_drop]; exact hy

theorem gate_reads {ext : Ext} {l : KLSTM} {v : World} {k0 : ℕ} {inS : ℚ} (hinS : 0 < inS) {sK sU sA : ℕ → ℚ}
    {zK zU zA : ℕ → ℤ} {st : KLSTM.Steps} {sH sC : ℚ} {zH zC : ℤ} {sT : ℕ → ℚ} {zT : ℕ → ℤ} (hl : Spec.LstmShape l)
    (hf : LstmFacts ext l v k0 inS sK sU sA zK zU zA st sH sC zH zC sT zT) (i : ℕ) (hi : i < 4) (fn : ℚ → ℚ) :
    GateReads l i fn (st.map (fun s => s.1)) inS sH (sK i) (sU i) (sA i) (loadedGate l i inS sH sK sU sA zK zU zA)
      (loadedLut fn (sA i) (zA i) (sT i) (zT i)) (sT i) (zT i) := by
  have pK := cal_pos (hf.calK i hi)
  have pU := cal_pos (hf.calU i hi)
  have pA := cal_pos (hf.calA i hi)
  have hdata := hf.calT i (by omega)
  have pT := cal_pos hdata
  refine ⟨pK.1, pU.1, pA.1, pT.1, ⟨?_, ?_⟩, ?_, ⟨?_, ?_⟩, ?_, ?_, ?_, rfl, rfl, lut_reads pA.2 pT.1, ?_⟩
  · simp [loadedGate, cols_length]
  · intro r hr
    obtain ⟨r', hr', rfl⟩ := List.mem_map.mp hr
    rw [List.length_map]; exact cols_row hi hl.kernel r' hr'
  · exact matrix_reads (hf.calK i hi)
  · simp [loadedGate, cols_length, hl.cells]
  · intro r hr
    obtain ⟨r', hr', rfl⟩ := List.mem_map.mp hr
    rw [List.length_map]; exact cols_row hi hl.recurrent r' hr'
  · exact matrix_reads (hf.calU i hi)
  · have : i * l.units + l.units ≤ 4 * l.units := by nlinarith [hl.units]
    simp only [loadedGate, List.length_map, List.length_take, List.length_drop, hl.bias]
    omega
  · intro c b hc hb
    refine ⟨Quantization.quantize (intDtype 31) b 0 (inS * sK i) - 0, ?_, ?_⟩
    · simp only [loadedGate, List.getElem?_map]
      rw [List.getElem?_take_of_lt hc, List.getElem?_drop, hb, Option.map_some]
    · have := C04_quantize_nearest (intDtype 31) int32_fits 0 (inS * sK i) (mul_pos hinS pK.1) b
      rw [int32_range.1, int32_range.2] at this
      rw [sub_zero]; exact this
  · intro step hstep row hrow c y hc hy
    obtain ⟨s, hs, rfl⟩ := List.mem_map.mp hstep
    have hmem : y ∈ (l.gateCols st i).flat := by
      show y ∈ ((st.map (fun s => KLSTM.cols l.units i s.1)).flatten).flatten
      refine List.mem_flatten.mpr ⟨(row.drop (i * l.units)).take l.units, ?_, ?_⟩
      · refine List.mem_flatten.mpr ⟨KLSTM.cols l.units i s.1, List.mem_map.mpr ⟨s, hs, rfl⟩, ?_⟩
        exact List.mem_map.mpr ⟨row, hrow, rfl⟩
      · refine List.mem_of_getElem? (i := c) ?_
        rw [List.getElem?_take_of_lt hc, List.getElem?_drop]; exact hy
    exact ⟨_, cal_half (hf.calA i hi) hmem⟩

theorem lstm_scales {ext : Ext} {l : KLSTM} {v : World} {k0 : ℕ} {sK sU sA : ℕ → ℚ} {zK zU zA : ℕ → ℤ}
    {st : KLSTM.Steps} {sH sC : ℚ} {zH zC : ℤ} {sT : ℕ → ℚ} {zT : ℕ → ℤ} {input : Ref}
    (hf : LstmFacts ext l v k0 (v.nodes input.id).scale sK sU sA zK zU zA st sH sC zH zC sT zT) :
    LstmScales (opJson v (l.op input k0 (KLSTM.refs (k0 + 22) 10 true))) (v.nodes input.id).scale sK sU sA sH sC
      (sT 0) (sT 1) (sT 2) (sT 3) (sT 4) := by
  have four : ∀ {P : ℕ → Prop}, P 0 → P 1 → P 2 → P 3 → ∀ i < 4, P i := by
    intro P p0 p1 p2 p3 i hi
    match i, hi with
    | 0, _ => exact p0
    | 1, _ => exact p1
    | 2, _ => exact p2
    | 3, _ => exact p3
  have e : ∀ (i : ℕ) (r : Ref),
      ((opJson v (l.op input k0 (KLSTM.refs (k0 + 22) 10 true))).inputs[i]?) = some (nodeJson (v.nodes r.id) r.exclude) →
      inScale (opJson v (l.op input k0 (KLSTM.refs (k0 + 22) 10 true))) i = (v.nodes r.id).scale := by
    intro i r h
    unfold inScale; rw [h]; rfl
  have hK : ∀ i < 4, (v.nodes (k0 + i)).scale = sK i := fun i hi => by rw [hf.nodeK i hi]; rfl
  have hU : ∀ i < 4, (v.nodes (k0 + 4 + i)).scale = sU i := fun i hi => by rw [hf.nodeU i hi]; rfl
  have hA : ∀ i < 4, (v.nodes (k0 + 17 + i)).scale = sA i := fun i hi => by rw [hf.nodeA i hi]; rfl
  have hT : ∀ i < 5, (v.nodes (k0 + 23 + 2 * i)).scale = sT i := fun i hi => by
    obtain ⟨b, hb⟩ := hf.nodeT i hi
    rw [hb]; rfl
  constructor
  · exact e 0 input rfl
  · exact four ((e _ ⟨k0 + 0, false⟩ rfl).trans (hK 0 (by omega))) ((e _ ⟨k0 + 1, false⟩ rfl).trans (hK 1 (by omega)))
      ((e _ ⟨k0 + 2, false⟩ rfl).trans (hK 2 (by omega))) ((e _ ⟨k0 + 3, false⟩ rfl).trans (hK 3 (by omega)))
  · exact four ((e _ ⟨k0 + 4 + 0, false⟩ rfl).trans (hU 0 (by omega)))
      ((e _ ⟨k0 + 4 + 1, false⟩ rfl).trans (hU 1 (by omega))) ((e _ ⟨k0 + 4 + 2, false⟩ rfl).trans (hU 2 (by omega)))
      ((e _ ⟨k0 + 4 + 3, false⟩ rfl).trans (hU 3 (by omega)))
  · exact four ((e _ ⟨k0 + 17 + 0, true⟩ rfl).trans (hA 0 (by omega)))
      ((e _ ⟨k0 + 17 + 1, true⟩ rfl).trans (hA 1 (by omega))) ((e _ ⟨k0 + 17 + 2, true⟩ rfl).trans (hA 2 (by omega)))
      ((e _ ⟨k0 + 17 + 3, true⟩ rfl).trans (hA 3 (by omega)))
  · exact (e 21 ⟨k0 + 21, true⟩ rfl).trans (by rw [hf.nodeC]; rfl)
  · exact (e 23 ⟨k0 + 23 + 2 * 0, true⟩ rfl).trans (hT 0 (by omega))
  · exact (e 25 ⟨k0 + 23 + 2 * 1, true⟩ rfl).trans (hT 1 (by omega))
  · exact (e 27 ⟨k0 + 23 + 2 * 2, true⟩ rfl).trans (hT 2 (by omega))
  · exact (e 29 ⟨k0 + 23 + 2 * 3, true⟩ rfl).trans (hT 3 (by omega))
  · exact (e 31 ⟨k0 + 23 + 2 * 4, true⟩ rfl).trans (hT 4 (by omega))
  · have : outScale (opJson v (l.op input k0 (KLSTM.refs (k0 + 22) 10 true))) = (v.nodes (k0 + 12)).scale := rfl
    rw [this, hf.nodeH]; rfl

end Keras

/-- **C52.**  After quantizing an LSTM layer (and anything else behind it), whatever the inference engine loads from
the exported operator is the quantized form of that layer: for each gate the engine's kernel, recurrent kernel, bias,
rescaling factors and table are those of that gate, the state table is the tanh of the cell state, and the parameters
cover everything recorded in the calibration run. -/
theorem C52_layout {ext : Ext} {w w' v : World} {l : KLSTM} {prev r : QRes} (hl : LstmShape l)
    (h : l.quantize ext w prev = some (w', r)) (hv : ∀ j < w'.next, v.nodes j = w'.nodes j) {input : Ref}
    (hp : prev.out = some input) (hin : input.id < w.next) (hs : 0 < (w.nodes input.id).scale) :
    ∃ op X st, r.ops = [op] ∧ prev.data = .cube X ∧ l.call ext X = some st ∧
      ∀ L, LSTM.fromModel (opJson v op) = some L →
        ∃ sK sU sA sH sC sI sF sG sO sS,
          LstmScales (opJson v op) (w.nodes input.id).scale sK sU sA sH sC sI sF sG sO sS ∧
          LstmReads ext l st (w.nodes input.id).scale (w.nodes input.id).zp L sK sU sA sH sC sI sF sG sO sS := by
  obtain ⟨input', X, sK, sU, sA, zK, zU, zA, st, sH, sC, zH, zC, sT, zT, hp', hX, hst, hf, hops, hnext, hframe⟩ :=
    lstm_facts h hv
  rw [hp, Option.some.injEq] at hp'
  subst hp'
  have hvin : v.nodes input.id = w.nodes input.id := by rw [hv _ (by omega), hframe _ hin]
  refine ⟨_, X, st, hops, hX, hst, ?_⟩
  rw [← hvin] at hf hs ⊢
  intro L hL
  rw [lstm_load hl hf] at hL
  simp only [Option.bind_eq_some_iff, Option.some.injEq] at hL
  obtain ⟨-, -, -, -, -, -, rfl⟩ := hL
  have hd4 := hf.calT 4 (by omega)
  obtain ⟨pC, zC0⟩ := cal_sym_pos hf.calC
  have pH := cal_pos hf.calH
  refine ⟨sK, sU, sA, sH, sC, sT 0, sT 1, sT 2, sT 3, sT 4, lstm_scales hf, ?_⟩
  refine ⟨pH.1, pC, (cal_pos hd4).1, rfl, rfl, gate_reads hs hl hf 0 (by omega) ext.sigmoid,
    gate_reads hs hl hf 1 (by omega) ext.sigmoid, gate_reads hs hl hf 2 (by omega) ext.tanh,
    gate_reads hs hl hf 3 (by omega) ext.sigmoid, lut_reads (by rw [zC0]; unfold Code; omega) (cal_pos hd4).1, rfl, rfl,
    rfl, rfl, zC0, ⟨rfl, rfl, rfl⟩, rfl, rfl, ?_, ?_, ?_, ?_, ?_, ?_, ?_, ?_⟩
  · intro s hs row hrow y hy
    exact ⟨_, cal_half hf.calH (x := y) (List.mem_flatten.mpr ⟨row, List.mem_flatten.mpr
      ⟨s.2.2, List.mem_map.mpr ⟨s, hs, rfl⟩, hrow⟩, hy⟩)⟩
  · intro s hs row hrow y hy
    exact ⟨_, cal_sym_half hf.calC (x := y) (List.mem_flatten.mpr ⟨row, List.mem_flatten.mpr
      ⟨s.2.1, List.mem_map.mpr ⟨s, hs, rfl⟩, hrow⟩, hy⟩)⟩
  · intro g hg r hr q hq
    obtain ⟨i, hi, rfl⟩ : ∃ i < 4, g = loadedGate l i (v.nodes input.id).scale sH sK sU sA zK zU zA := by
      simp only [loadedLSTM, List.mem_cons, List.not_mem_nil, or_false] at hg
      rcases hg with rfl | rfl | rfl | rfl
      exacts [⟨0, by omega, rfl⟩, ⟨1, by omega, rfl⟩, ⟨2, by omega, rfl⟩, ⟨3, by omega, rfl⟩]
    rw [List.mem_append] at hr
    rcases hr with hr | hr
    · obtain ⟨r', -, rfl⟩ := List.mem_map.mp hr
      obtain ⟨x, -, rfl⟩ := List.mem_map.mp hq
      exact code_sub (cal_pos (hf.calK i hi)).1 (cal_pos (hf.calK i hi)).2 x
    · obtain ⟨r', -, rfl⟩ := List.mem_map.mp hr
      obtain ⟨x, -, rfl⟩ := List.mem_map.mp hq
      exact code_sub (cal_pos (hf.calU i hi)).1 (cal_pos (hf.calU i hi)).2 x
  · intro s hs row hrow c y hc hy
    refine ⟨_, cal_half (hf.calT 0 (by omega)) (x := ext.sigmoid y) ?_⟩
    show _ ∈ ((((st.map (fun s => s.1)).take l.units).map (fun m => m.map (fun r => r.map ext.sigmoid))).flatten).flatten
    rw [← List.map_take]
    refine List.mem_flatten.mpr ⟨row.map ext.sigmoid, List.mem_flatten.mpr ⟨s.1.map (fun r => r.map ext.sigmoid),
      List.mem_map.mpr ⟨s.1, List.mem_map.mpr ⟨s, hs, rfl⟩, rfl⟩, List.mem_map.mpr ⟨row, hrow, rfl⟩⟩, ?_⟩
    exact List.mem_map.mpr ⟨y, List.mem_of_getElem? hy, rfl⟩
  · intro s hs row hrow c y hc hy
    exact ⟨_, cal_half (hf.calT 1 (by omega)) (x := ext.sigmoid y)
      (gateCols_map_mem hs hrow hc (by rw [one_mul]; exact hy))⟩
  · intro s hs row hrow c y hc hy
    exact ⟨_, cal_half (hf.calT 2 (by omega)) (x := ext.tanh y) (gateCols_map_mem hs hrow hc hy)⟩
  · intro s hs row hrow c y hc hy
    refine ⟨_, cal_half (hf.calT 3 (by omega)) (x := ext.sigmoid y) ?_⟩
    show _ ∈ (((st.map (fun s => s.1.map (fun r => r.drop (3 * l.units)))).map
      (fun m => m.map (fun r => r.map ext.sigmoid))).flatten).flatten
    refine List.mem_flatten.mpr ⟨(row.drop (3 * l.units)).map ext.sigmoid, List.mem_flatten.mpr
      ⟨(s.1.map (fun r => r.drop (3 * l.units))).map (fun r => r.map ext.sigmoid),
        List.mem_map.mpr ⟨_, List.mem_map.mpr ⟨s, hs, rfl⟩, rfl⟩,
        List.mem_map.mpr ⟨_, List.mem_map.mpr ⟨row, hrow, rfl⟩, rfl⟩⟩, ?_⟩
    refine List.mem_map.mpr ⟨y, List.mem_of_getElem? (i := c) ?_, rfl⟩
    rw [List.getElem?_drop]; exact hy
  · intro s hs row hrow y hy
    refine ⟨_, cal_half (hf.calT 4 (by omega)) (x := ext.tanh y) ?_⟩
    show _ ∈ (((KLSTM.cells st).map (fun m => m.map (fun r => r.map ext.tanh))).flatten).flatten
    exact List.mem_flatten.mpr ⟨row.map ext.tanh, List.mem_flatten.mpr ⟨s.2.1.map (fun r => r.map ext.tanh),
      List.mem_map.mpr ⟨s.2.1, List.mem_map.mpr ⟨s, hs, rfl⟩, rfl⟩, List.mem_map.mpr ⟨row, hrow, rfl⟩⟩,
      List.mem_map.mpr ⟨y, hy, rfl⟩⟩

/-! ## Loading, running, and whole models -/

/-- The largest rescaling factor the engine can represent (C68). -/
def Spec.factorLimit : ℚ := 2 ^ 30 * (1 - 1 / 2 ^ 32)

/-- The three rescaling factors of the cell update, in the node layout of the export: the scale of the forget gate
(25); the scales of input gate (23) and cell candidate (27) over that of the cell state (21); the scales of the output
gate (29) and the squashed cell state (31) over that of the layer's output. -/
def Spec.FactorsOk (op : OpJ) : Prop :=
  inScale op 25 < factorLimit ∧ inScale op 23 * inScale op 27 / inScale op 21 < factorLimit ∧
    inScale op 29 * inScale op 31 / outScale op < factorLimit

/-- **C52.**  The exported LSTM operator loads exactly if its three rescaling factors fit the engine's multiplier. -/
theorem C52_loads {ext : Ext} {w w' v : World} {l : KLSTM} {prev r : QRes} (hl : LstmShape l)
    (h : l.quantize ext w prev = some (w', r)) (hv : ∀ j < w'.next, v.nodes j = w'.nodes j) {input : Ref}
    (hp : prev.out = some input) (hin : input.id < w.next) :
    ∃ op, r.ops = [op] ∧ ((LSTM.fromModel (opJson v op)).isSome ↔ FactorsOk (opJson v op)) := by
  obtain ⟨input', X, sK, sU, sA, zK, zU, zA, st, sH, sC, zH, zC, sT, zT, hp', hX, hst, hf, hops, hnext, hframe⟩ :=
    lstm_facts h hv
  rw [hp, Option.some.injEq] at hp'
  subst hp'
  have hvin : v.nodes input.id = w.nodes input.id := by rw [hv _ (by omega), hframe _ hin]
  rw [← hvin] at hf
  refine ⟨_, hops, ?_⟩
  have pT : ∀ i < 5, 0 < sT i := fun i hi => by
    have hd := hf.calT i hi
    exact (cal_pos hd).1
  have pC := (cal_sym_pos hf.calC).1
  have pH := (cal_pos hf.calH).1
  have sc : ∀ i < 5, (nodeJson (v.nodes (w.next + 23 + 2 * i)) true).scale = some (sT i) := fun i hi => by
    obtain ⟨b, hb⟩ := hf.nodeT i hi
    rw [hb]; rfl
  have eT : ∀ (i : ℕ) (hi : i < 5),
      inScale (opJson v (l.op input w.next (KLSTM.refs (w.next + 22) 10 true))) (23 + 2 * i) = sT i := fun i hi => by
    have e : inScale (opJson v (l.op input w.next (KLSTM.refs (w.next + 22) 10 true))) (23 + 2 * i) =
        (nodeJson (v.nodes (w.next + 23 + 2 * i)) true).scale.getD 0 := by
      obtain rfl | rfl | rfl | rfl | rfl : i = 0 ∨ i = 1 ∨ i = 2 ∨ i = 3 ∨ i = 4 := by omega
      all_goals rfl
    rw [e, sc i hi]; rfl
  have e21 : inScale (opJson v (l.op input w.next (KLSTM.refs (w.next + 22) 10 true))) 21 = sC := by
    have e : inScale (opJson v (l.op input w.next (KLSTM.refs (w.next + 22) 10 true))) 21 =
        (nodeJson (v.nodes (w.next + 21)) true).scale.getD 0 := rfl
    rw [e, hf.nodeC]; rfl
  have eo : outScale (opJson v (l.op input w.next (KLSTM.refs (w.next + 22) 10 true))) = sH := by
    have e : outScale (opJson v (l.op input w.next (KLSTM.refs (w.next + 22) 10 true))) =
        (nodeJson (v.nodes (w.next + 12)) true).scale.getD 0 := rfl
    rw [e, hf.nodeH]; rfl
  unfold FactorsOk
  rw [show 25 = 23 + 2 * 1 from rfl, show 27 = 23 + 2 * 2 from rfl, show 29 = 23 + 2 * 3 from rfl,
    show 31 = 23 + 2 * 4 from rfl, eT 1 (by omega), eT 2 (by omega), eT 3 (by omega), eT 4 (by omega), e21, eo,
    show (23 : ℕ) = 23 + 2 * 0 from rfl, eT 0 (by omega), lstm_load hl hf]
  have b1 := C68_build_iff (pT 1 (by omega))
  have b2 := C68_build_iff (div_pos (mul_pos (pT 0 (by omega)) (pT 2 (by omega))) pC)
  have b3 := C68_build_iff (div_pos (mul_pos (pT 3 (by omega)) (pT 4 (by omega))) pH)
  unfold factorLimit
  rw [← b1, ← b2, ← b3]
  cases floatingApprox (sT 1) <;> cases floatingApprox (sT 0 * sT 2 / sC) <;> cases floatingApprox (sT 3 * sT 4 / sH) <;>
    simp

/-- **C52.**  A layer read from the export answers every sequence of the right shape, with codes of the int8 range. -/
theorem C52_runs {ext : Ext} {l : KLSTM} {st : KLSTM.Steps} {sIn : ℚ} {zIn : ℤ} {L : LSTM} {sK sU sA : ℕ → ℚ}
    {sH sC sI sF sG sO sS : ℚ} (hl : LstmShape l)
    (hr : LstmReads ext l st sIn zIn L sK sU sA sH sC sI sF sG sO sS) (X : List (List (List ℤ))) (T : ℕ) (hX : X ≠ [])
    (hT : 0 < T) (hs : ∀ s ∈ X, s.length = T ∧ ∀ row ∈ s, row.length = l.kernel.length) :
    ∃ out, L.infer (.cube X) = some out ∧ ∀ q ∈ out.flat, Code (-128) 127 q := by
  obtain ⟨d1, d2, d3⟩ := hr.dtypes
  have r := int8_range
  have hsh : L.Shaped := ⟨by rw [hr.cells]; exact hl.units, by rw [hr.cells]; exact hr.input.biasShape,
    by rw [hr.cells]; exact hr.forget.biasShape, by rw [hr.cells]; exact hr.candidate.biasShape,
    by rw [hr.cells]; exact hr.output.biasShape⟩
  have ans : ∀ (t : LutLayer) (P : ℤ → ℤ → Prop), (∀ q, Code (-128) 127 q → ∃ a, t.look q = some a ∧ P q a) →
      Answers t (intDtype 7) := by
    intro t P ht q hq
    rw [r.1, r.2] at hq
    obtain ⟨a, ha, -⟩ := ht q hq
    exact ⟨a, ha⟩
  have ht : TablesComplete L := by
    constructor
    · rw [d1]; exact ans _ _ hr.input.table
    · rw [d1]; exact ans _ _ hr.forget.table
    · rw [d1]; exact ans _ _ hr.candidate.table
    · rw [d1]; exact ans _ _ hr.output.table
    · rw [d2]; exact ans _ _ hr.state
  obtain ⟨out, h1, h2⟩ := C26_never_raises L hsh (by rw [d1]; decide +kernel) (by rw [d2]; decide +kernel)
    (by rw [d3]; decide +kernel) ht X T ⟨hX, hT, by rw [hr.features]; exact hs⟩
  rw [d3, r.1, r.2] at h2
  exact ⟨out, h1, h2⟩

namespace Keras

/-- A number format that could be parsed has more than one code. -/
theorem quantization_lt {s : String} {q : GDtype} (h : quantization s = some q) : q.min < q.max := by
  have hq := h
  unfold quantization at hq
  cases hg : GDtype.ofString s.toList with
  | error e => rw [hg] at hq; simp [Except.toOption] at hq
  | ok d =>
    obtain ⟨q', hq', hlt⟩ := quantization_of_isType ((C08_accepts_iff s).mp ⟨d, hg⟩)
    rw [h, Option.some.injEq] at hq'
    subst hq'
    exact hlt

/-- Whatever distribution is calibrated, in whatever format: a positive scale. -/
theorem any_scale_pos {d : Dist} {q : GDtype} (hq : q.min < q.max) {s : ℚ} {z : ℤ} (h : d.quantize q = some (s, z)) :
    0 < s := by
  have h' := h
  unfold Dist.quantize at h'
  simp only [Option.bind_eq_bind, Option.bind_eq_some_iff] at h'
  obtain ⟨m, hm, M, hM, h'⟩ := h'
  have hlt : min m 0 < max M 0 := by
    refine lt_of_le_of_ne (le_trans (min_le_right _ _) (le_max_right _ _)) (fun e => ?_)
    simp [e] at h'
  have hlt2 : calLo q false < q.max := hq
  rw [Dist.quantize_eq _ q false m M hm hM hlt hlt2] at h
  obtain ⟨c1, -⟩ := cal_core (min m 0) (max M 0) (min_le_right _ _) (le_max_right _ _) hlt _ _ hlt2
  rw [Option.some.injEq, Prod.mk.injEq] at h
  rw [← h.1]; exact c1

/-- The node a quantized layer hands on has a positive scale. -/
theorem layer_scale_pos {ext : Ext} {cfg : Cfg} {w w' : World} {prev x : QRes} {l : KLayer} {r : Ref}
    (h : layerStep ext cfg w prev l = some (w', some x)) (hr : prev.out = some r) (hid : r.id < w.next) :
    ∃ o, x.out = some o ∧ 0 < (w'.nodes o.id).scale := by
  cases l with
  | dense l =>
    simp only [layerStep, Option.bind_eq_bind, Option.bind_eq_some_iff, Option.some.injEq, Prod.mk.injEq] at h
    obtain ⟨c, hc, ⟨w1, r1⟩, hq, rfl, rfl⟩ := h
    obtain ⟨qk, qa, qba, qb, input, kn, pre, d, p, -, e2, e3, -, hin, -, -, -, e8, -, hq⟩ := l.quantize_spec hq
    rw [hr] at hin
    injection hin with hin
    subst hin
    have hfc := fcWorld_nodes w l r kn qb qba p prev.data hid
    have hfn := fcWorld_next w l r kn qb qba p prev.data
    rcases hq with ⟨-, rfl, rfl⟩ | ⟨-, o, ho, rfl, rfl⟩
    · refine ⟨_, rfl, ?_⟩
      show 0 < ((fcWorld w l r kn qb qba p prev.data).nodes (w.next + 2)).scale
      rw [hfc, if_pos rfl]
      exact any_scale_pos (s := p.1) (z := p.2) (quantization_lt e3) e8
    · have hn : ∀ b : Bool, (if b = true then (fcWorld w l r kn qb qba p prev.data).setNode (w.next + 2)
          (((fcWorld w l r kn qb qba p prev.data).nodes (w.next + 2)).withLut l.act o.1 o.2)
          else fcWorld w l r kn qb qba p prev.data).next = w.next + 3 := by
        intro b; cases b <;> simp [hfn]
      refine ⟨_, rfl, ?_⟩
      rw [World.alloc_nodes, if_pos (by rw [hn])]
      exact any_scale_pos (s := o.1) (z := o.2) (quantization_lt e2) ho
  | lstm l =>
    simp only [layerStep, Option.bind_eq_bind, Option.bind_eq_some_iff, Option.some.injEq, Prod.mk.injEq] at h
    obtain ⟨⟨w1, r1⟩, hq, rfl, rfl⟩ := h
    obtain ⟨input', X, sK, sU, sA, zK, zU, zA, st, sH, sC, zH, zC, sT, zT, -, -, -, hf, -, -, -⟩ :=
      lstm_facts hq (fun _ _ => rfl)
    unfold KLSTM.quantize at hq
    simp only [Option.bind_eq_bind, Option.bind_eq_some_iff, Option.some.injEq, Prod.mk.injEq] at hq
    obtain ⟨input, -, X, -, st, -, ns, hns, a, ha, res, -, rfl, rfl⟩ := hq
    refine ⟨_, rfl, ?_⟩
    show 0 < (a.1.nodes (w.next + 12)).scale
    have := hf.nodeH
    rw [this]
    exact (cal_pos hf.calH).1
  | dropout => simp [layerStep] at h
  | input => simp [layerStep] at h
  | other => simp [layerStep] at h

/-- Every LSTM layer of a model goes through the LSTM quantizer, and its nodes are never touched again. -/
theorem layers_lstm {ext : Ext} {cfg : Cfg} {l : KLSTM} {post : List KLayer} (pre : List KLayer) :
    ∀ {w w' : World} {prev last : QRes} {rs : List QRes} {r : Ref},
    quantizeLayers ext cfg w prev (pre ++ .lstm l :: post) = some (w', last, rs) → prev.out = some r → r.id < w.next →
    0 < (w.nodes r.id).scale →
    ∃ w1 w2 p1 r2 input, l.quantize ext w1 p1 = some (w2, r2) ∧ p1.out = some input ∧ input.id < w1.next ∧ r2 ∈ rs ∧
      (∀ j < w2.next, w'.nodes j = w2.nodes j) ∧ w1.next ≤ w2.next ∧ w2.nodes input.id = w1.nodes input.id ∧
      0 < (w1.nodes input.id).scale := by
  induction pre with
  | nil =>
    intro w w' prev last rs r h hr hid hpos
    simp only [List.nil_append, quantizeLayers, Option.bind_eq_bind, Option.bind_eq_some_iff] at h
    obtain ⟨⟨w1, q⟩, hs, h⟩ := h
    obtain ⟨f1, f2, f3⟩ := layer_frame hs hr hid
    simp only [layerStep, Option.bind_eq_bind, Option.bind_eq_some_iff, Option.some.injEq, Prod.mk.injEq] at hs
    obtain ⟨⟨w1', r1⟩, hq, rfl, rfl⟩ := hs
    simp only [Option.bind_eq_some_iff, Option.some.injEq, Prod.mk.injEq] at h
    obtain ⟨⟨w2, last', rs'⟩, h2, rfl, rfl, rfl⟩ := h
    obtain ⟨o, ho, hoid⟩ := f3 _ rfl
    obtain ⟨g1, g2⟩ := layers_frame post h2 ho hoid
    exact ⟨w, w1', prev, r1, r, hq, hr, hid, by simp, g2, f1, f2 _ hid, hpos⟩
  | cons x pre ih =>
    intro w w' prev last rs r h hr hid hpos
    simp only [List.cons_append, quantizeLayers, Option.bind_eq_bind, Option.bind_eq_some_iff] at h
    obtain ⟨⟨w1, q⟩, hs, h⟩ := h
    obtain ⟨f1, f2, f3⟩ := layer_frame hs hr hid
    cases q with
    | none => exact ih h hr (by simp only; omega) (by rw [f2 _ hid]; exact hpos)
    | some q =>
      simp only [Option.bind_eq_some_iff, Option.some.injEq, Prod.mk.injEq] at h
      obtain ⟨⟨w2, last', rs'⟩, h2, rfl, rfl, rfl⟩ := h
      obtain ⟨o, ho, hoid⟩ := f3 q rfl
      obtain ⟨o', ho', hop⟩ := layer_scale_pos hs hr hid
      rw [ho, Option.some.injEq] at ho'
      subst ho'
      obtain ⟨w3, w4, p1, r2, input, a1, a2, a3, a4, a5⟩ := ih h2 ho hoid hop
      exact ⟨w3, w4, p1, r2, input, a1, a2, a3, List.mem_cons_of_mem _ a4, a5⟩

end Keras

/-- **C52 for whole models.**  Quantize a model with an LSTM layer anywhere in it.  The exported network has an
operator for that layer; the operator loads exactly if its factors fit the multiplier, and then the loaded layer is the quantized form of
the Keras layer and answers every well-shaped sequence. -/
theorem C52_model {ext : Ext} {cfg : Cfg} {x : Arr ℚ} {pre post : List KLayer} {l : KLSTM} (hl : LstmShape l) {w : World}
    {rs : List QRes} (h : quantizeModel ext cfg x (pre ++ .lstm l :: post) = some (w, rs)) :
    ∃ op ∈ networkOps rs, op.opType = "LSTM" ∧ op.name = "lstm_quant " ++ l.name ∧ 0 < inScale (opJson w op) 0 ∧
      ((LSTM.fromModel (opJson w op)).isSome ↔ FactorsOk (opJson w op)) ∧
      ∀ L, LSTM.fromModel (opJson w op) = some L →
        (∃ X st, l.call ext X = some st ∧ ∃ zIn sK sU sA sH sC sI sF sG sO sS,
          LstmScales (opJson w op) (inScale (opJson w op) 0) sK sU sA sH sC sI sF sG sO sS ∧
          LstmReads ext l st (inScale (opJson w op) 0) zIn L sK sU sA sH sC sI sF sG sO sS) ∧
        ∀ (X : List (List (List ℤ))) (T : ℕ), X ≠ [] → 0 < T →
          (∀ s ∈ X, s.length = T ∧ ∀ row ∈ s, row.length = l.kernel.length) →
          ∃ out, L.infer (.cube X) = some out ∧ ∀ q ∈ out.flat, Code (-128) 127 q := by
  unfold quantizeModel at h
  simp only [Option.bind_eq_bind, Option.bind_eq_some_iff, Option.some.injEq, Prod.mk.injEq] at h
  obtain ⟨⟨w0, i0⟩, hi, ⟨w', last, rs'⟩, hls, d, hd, rfl, rfl⟩ := h
  unfold inputQuantize at hi
  simp only [Option.bind_eq_bind, Option.bind_eq_some_iff, Option.some.injEq, Prod.mk.injEq] at hi
  obtain ⟨q, hq, p, hp, rfl, rfl⟩ := hi
  obtain ⟨w1, w2, p1, r2, input, hlq, hin, hid, hmem, hfr, hle, hkeep, hpos⟩ :=
    layers_lstm pre hls rfl (by rw [World.alloc_next]; show 0 < 0 + 1; omega)
      (by rw [World.alloc_nodes, if_pos rfl]; exact any_scale_pos (s := p.1) (z := p.2) (quantization_lt hq) hp)
  obtain ⟨op, hop, hload⟩ := C52_loads hl hlq hfr hin hid
  have hnode : (opJson w' op).inputs[0]? = some (nodeJson (w'.nodes input.id) input.exclude) ∧ op.opType = "LSTM" ∧
      op.name = "lstm_quant " ++ l.name := by
    obtain ⟨input', X, sK, sU, sA, zK, zU, zA, st, sH, sC, zH, zC, sT, zT, hp', -, -, -, hops, -⟩ := lstm_facts hlq hfr
    rw [hin, Option.some.injEq] at hp'
    subst hp'
    rw [hop] at hops
    injection hops with hops _
    rw [hops]
    exact ⟨rfl, rfl, rfl⟩
  refine ⟨op, ?_, hnode.2.1, hnode.2.2, ?_⟩
  · simp only [networkOps, List.flatMap_append, List.mem_append, List.mem_flatMap]
    exact .inl (.inr ⟨r2, hmem, by rw [hop]; simp⟩)
  have hsc : inScale (opJson w' op) 0 = (w1.nodes input.id).scale := by
    have e : (nodeJson (w'.nodes input.id) input.exclude).scale = some (w'.nodes input.id).scale := rfl
    unfold inScale
    rw [hnode.1, Option.bind_some, e, Option.getD_some, hfr _ (by omega), hkeep]
  rw [hsc]
  refine ⟨hpos, hload, ?_⟩
  intro L hL
  obtain ⟨op', X, st, hop', hX, hst, hall⟩ := C52_layout hl hlq hfr hin hid hpos
  have : op' = op := by rw [hop] at hop'; exact (List.head_eq_of_cons_eq hop').symm
  subst this
  obtain ⟨sK, sU, sA, sH, sC, sI, sF, sG, sO, sS, hsc', hr⟩ := hall L hL
  refine ⟨⟨X, st, hst, _, sK, sU, sA, sH, sC, sI, sF, sG, sO, sS, hsc', hr⟩, ?_⟩
  intro X T hX hT hs
  exact C52_runs hl hr X T hX hT hs

/-- **C52.**  For a model that starts with its LSTM layer the calibration sequences are the data themselves. -/
theorem C52_first_layer {ext : Ext} {cfg : Cfg} {x : Arr ℚ} {post : List KLayer} {l : KLSTM} (hl : LstmShape l) {w : World}
    {rs : List QRes} (h : quantizeModel ext cfg x (.lstm l :: post) = some (w, rs)) :
    ∃ op, (networkOps rs)[1]? = some op ∧ op.opType = "LSTM" ∧ 0 < inScale (opJson w op) 0 ∧
      ((LSTM.fromModel (opJson w op)).isSome ↔ FactorsOk (opJson w op)) ∧
      ∀ L, LSTM.fromModel (opJson w op) = some L → ∃ X st, x = .cube X ∧ l.call ext X = some st ∧
        ∃ zIn sK sU sA sH sC sI sF sG sO sS,
          LstmScales (opJson w op) (inScale (opJson w op) 0) sK sU sA sH sC sI sF sG sO sS ∧
          LstmReads ext l st (inScale (opJson w op) 0) zIn L sK sU sA sH sC sI sF sG sO sS := by
  unfold quantizeModel at h
  simp only [Option.bind_eq_bind, Option.bind_eq_some_iff, Option.some.injEq, Prod.mk.injEq] at h
  obtain ⟨⟨w0, i0⟩, hi, ⟨w', last, rs'⟩, hls, d, hd, rfl, rfl⟩ := h
  unfold inputQuantize at hi
  simp only [Option.bind_eq_bind, Option.bind_eq_some_iff, Option.some.injEq, Prod.mk.injEq] at hi
  obtain ⟨q, hq, p, hp, rfl, rfl⟩ := hi
  have hlt := quantization_lt hq
  simp only [quantizeLayers, layerStep, Option.bind_eq_bind, Option.bind_eq_some_iff] at hls
  obtain ⟨⟨w1, q1⟩, ⟨⟨w2, r2⟩, hlq, he⟩, hls⟩ := hls
  simp only [Option.some.injEq, Prod.mk.injEq] at he
  obtain ⟨rfl, rfl⟩ := he
  simp only [Option.bind_eq_some_iff, Option.some.injEq, Prod.mk.injEq] at hls
  obtain ⟨⟨w3, last', rs''⟩, h2, rfl, rfl, rfl⟩ := hls
  set w0 := (World.empty (Node.base 0 0 (intDtype 7))).alloc ((Node.base p.1 p.2 q).withTensor x.toFArr) with hw0
  have hn0 : w0.next = 1 := by rw [hw0, World.alloc_next]; rfl
  have hs0 : (w0.nodes 0).scale = p.1 := by rw [hw0, World.alloc_nodes]; rfl
  have hid : (⟨(World.empty (Node.base 0 0 (intDtype 7))).next, true⟩ : Ref).id < w0.next := by rw [hn0]; show 0 < 1; omega
  have hfr : ∀ j < w2.next, w3.nodes j = w2.nodes j := by
    have hstep : layerStep ext cfg w0 ⟨x, some ⟨0, true⟩, [⟨"QUANTIZE", "QUANTIZE", [], [⟨0, true⟩], none⟩]⟩ (.lstm l) = some (w2, some r2) := by
      simp only [layerStep]; exact bind_of hlq rfl
    obtain ⟨f1, f2, f3⟩ := layer_frame hstep rfl hid
    obtain ⟨o, ho, hoid⟩ := f3 _ rfl
    exact (layers_frame post h2 ho hoid).2
  have hpos : 0 < (w0.nodes (⟨(World.empty (Node.base 0 0 (intDtype 7))).next, true⟩ : Ref).id).scale := by
    show 0 < (w0.nodes 0).scale
    rw [hs0]
    obtain ⟨m, M, hm, hM, hlt'⟩ := min_max x.flat
    have hlt2 : calLo q false < q.max := hlt
    rw [Dist.quantize_eq _ q false m M hm hM hlt' hlt2] at hp
    obtain ⟨c1, -⟩ := cal_core (min m 0) (max M 0) (min_le_right _ _) (le_max_right _ _) hlt' _ _ hlt2
    rw [Option.some.injEq] at hp
    rw [← hp]; exact c1
  obtain ⟨op, hop, hload⟩ := C52_loads hl hlq hfr rfl hid
  obtain ⟨op', X, st, hop', hX, hst, hall⟩ := C52_layout hl hlq hfr rfl hid hpos
  have : op' = op := by rw [hop] at hop'; exact (List.head_eq_of_cons_eq hop').symm
  subst this
  obtain ⟨input', X', sK, sU, sA, zK, zU, zA, st', sH, sC, zH, zC, sT, zT, hp', -, -, -, hops, -, hkeep⟩ := lstm_facts hlq hfr
  simp only [Option.some.injEq] at hp'
  subst hp'
  rw [hop] at hops
  injection hops with hops _
  have hsc : inScale (opJson w3 op') 0 = (w0.nodes 0).scale := by
    have hnode : (opJson w3 op').inputs[0]? = some (nodeJson (w3.nodes 0) true) := by rw [hops]; rfl
    have e : (nodeJson (w3.nodes 0) true).scale = some (w3.nodes 0).scale := rfl
    have hle : w0.next ≤ w2.next := by
      have hstep : layerStep ext cfg w0 ⟨x, some ⟨0, true⟩, [⟨"QUANTIZE", "QUANTIZE", [], [⟨0, true⟩], none⟩]⟩ (.lstm l) = some (w2, some r2) := by
        simp only [layerStep]; exact bind_of hlq rfl
      exact (layer_frame hstep rfl hid).1
    unfold inScale
    rw [hnode, Option.bind_some, e, Option.getD_some, hfr _ (by omega), hkeep _ (by omega)]
  refine ⟨op', ?_, by rw [hops]; rfl, by rw [hsc]; exact hpos, hload, ?_⟩
  · simp [networkOps, hop]
  intro L hL
  obtain ⟨sK, sU, sA, sH, sC, sI, sF, sG, sO, sS, hsc', hr⟩ := hall L hL
  rw [hsc]
  exact ⟨X, st, hX, hst, _, sK, sU, sA, sH, sC, sI, sF, sG, sO, sS, hsc', hr⟩

namespace C52Case

/-- Stand-ins for the external functions. -/
def ext : Ext := ⟨fun x => clip (-1) 1 x, fun x => clip 0 1 (x / 4 + 1 / 2), fun x => 1 + x⟩

/-- One feature, one cell. -/
def lstm : KLSTM := ⟨"l", 1, [[1 / 2, -1 / 2, 1 / 4, 1 / 3]], [[1 / 2, 1 / 4, -1 / 2, 1]], [0, 1 / 8, 0, 1 / 4], false⟩

theorem shape : LstmShape lstm := by
  constructor <;> simp [lstm]

/-- Quantization of a model that starts with this layer succeeds, and the engine loads the result. -/
example : (quantizeModel ext {} (.cube [[[1], [-1]], [[2], [1 / 2]]]) [.lstm lstm]).isSome := by decide +kernel

example : ((quantizeModel ext {} (.cube [[[1], [-1]], [[2], [1 / 2]]]) [.lstm lstm]).bind
    (fun p => ((networkOps p.2)[1]?).bind (fun op => LSTM.fromModel (opJson p.1 op)))).isSome := by decide +kernel

end C52Case

end Verif
