import Verif.Props.Dispatch
import Verif.Props.Relu
import Verif.Props.Quant

/-!
# C69: activation operators of the engine compute their function element by element

Also the general form of the deviations of the ReLU layer (C22).
-/

namespace Verif
open Spec

/-! ## Specification -/

/-- Two arrays have the same shape and corresponding elements are related. -/
def Spec.PointwiseRel {α β : Type} (R : α → β → Prop) : Arr α → Arr β → Prop
  | .vec x, .vec y => List.Forall₂ R x y
  | .mat x, .mat y => List.Forall₂ (List.Forall₂ R) x y
  | .cube x, .cube y => List.Forall₂ (List.Forall₂ (List.Forall₂ R)) x y
  | _, _ => False

/-- The operator's first input node has these parameters. -/
def Spec.FirstInput (op : OpJ) (s : ℚ) (z : ℤ) : Prop :=
  ∃ n, op.inputs[0]? = some n ∧ n.scale = some s ∧ n.zeroPoint = some z

/-- The operator's first output node has these parameters. -/
def Spec.FirstOutput (op : OpJ) (s : ℚ) (z : ℤ) : Prop :=
  ∃ n, op.outputs[0]? = some n ∧ n.scale = some s ∧ n.zeroPoint = some z

/-! ## Proofs -/

theorem forall₂_map {α β : Type} {R : α → β → Prop} {f : α → β} : ∀ {x : List α}, (∀ v ∈ x, R v (f v)) →
    List.Forall₂ R x (x.map f) := by
  intro x
  induction x with
  | nil => intro _; exact .nil
  | cons a x ih => intro h; exact .cons (h a (by simp)) (ih (fun v hv => h v (by simp [hv])))

theorem elementwise_map {α β : Type} {R : α → β → Prop} {f : α → β} (x : Arr α) (h : ∀ v ∈ x.flat, R v (f v)) :
    PointwiseRel R x (x.map f) := by
  cases x with
  | vec x => exact forall₂_map h
  | mat x =>
    refine forall₂_map (fun r hr => forall₂_map (fun v hv => h v ?_))
    exact List.mem_flatten.mpr ⟨r, hr, hv⟩
  | cube x =>
    refine forall₂_map (fun m hm => forall₂_map (fun r hr => forall₂_map (fun v hv => h v ?_)))
    exact List.mem_flatten.mpr ⟨r, List.mem_flatten.mpr ⟨m, hm, hr⟩, hv⟩

theorem int8_dequantize {q z : ℤ} (hq : Code (-128) 127 q) (hz : Code (-128) 127 z) (s : ℚ) :
    Quantization.dequantize q z s = real z s q := by
  unfold Code at hq hz
  exact dequantize_eq (by unfold IsInt32; omega) (by unfold IsInt32; omega) s

theorem int8_nearest (z : ℤ) (s : ℚ) (hs : 0 < s) (x : ℚ) :
    Nearest (-128) 127 z s x (Quantization.quantize (intDtype 7) x z s) := by
  have := C04_quantize_nearest (intDtype 7) (by unfold Fits32; decide +kernel) z s hs x
  rwa [show (intDtype 7).min = -128 by decide +kernel, show (intDtype 7).max = 127 by decide +kernel] at this

theorem uint8_nearest (z : ℤ) (s : ℚ) (hs : 0 < s) (x : ℚ) :
    Nearest 0 255 z s x (Quantization.quantize (uintDtype 8) x z s) := by
  have := C04_quantize_nearest (uintDtype 8) (by unfold Fits32; decide +kernel) z s hs x
  rwa [show (uintDtype 8).min = 0 by decide +kernel, show (uintDtype 8).max = 255 by decide +kernel] at this

theorem firstInput {op : OpJ} {s : ℚ} {z : ℤ} (h : FirstInput op s z) : firstInputParams op = some (z, s) := by
  obtain ⟨n, h1, h2, h3⟩ := h
  unfold firstInputParams
  rw [h1]; simp [h2, h3]

/-! ## The property -/

/-- **C69 (TANH).**  A `TANH` operator answers every int8 array with, element by element, the int8 code nearest to the
tanh of the real number the input code stands for, on the fixed output grid with scale 1/128 and zero point 0. -/
theorem C69_tanh (op : OpJ) (hop : upper op.opType = "TANH".toList) {s : ℚ} {z : ℤ} (hi : FirstInput op s z)
    (hz : Code (-128) 127 z) : ∃ L, buildLayer op = some L ∧ ∀ (ext : Ext) (x : Arr ℤ), (∀ q ∈ x.flat, Code (-128) 127 q) →
      ∃ y, L.infer ext (.int x) = some (.int y) ∧
        PointwiseRel (fun q a => Nearest (-128) 127 0 (1 / 128) (ext.tanh (real z s q)) a) x y := by
  refine ⟨.tanh z s, ?_, ?_⟩
  · unfold buildLayer
    rw [C23_documented "TANH" .tanh (by simp [documentedNames]) _ hop]
    simp only [firstInput hi, Option.map_some]
  · intro ext x hx
    refine ⟨_, rfl, elementwise_map x (fun q hq => ?_)⟩
    rw [int8_dequantize (hx q hq) hz]
    exact int8_nearest _ _ (by norm_num) _

/-- **C69 (LOGISTIC).**  The same for the logistic function, on the grid with scale 1/256 and zero point −128. -/
theorem C69_logistic (op : OpJ) (hop : upper op.opType = "LOGISTIC".toList) {s : ℚ} {z : ℤ} (hi : FirstInput op s z)
    (hz : Code (-128) 127 z) : ∃ L, buildLayer op = some L ∧ ∀ (ext : Ext) (x : Arr ℤ), (∀ q ∈ x.flat, Code (-128) 127 q) →
      ∃ y, L.infer ext (.int x) = some (.int y) ∧
        PointwiseRel (fun q a => Nearest (-128) 127 (-128) (1 / 256) (ext.sigmoid (real z s q)) a) x y := by
  refine ⟨.sigmoid z s, ?_, ?_⟩
  · unfold buildLayer
    rw [C23_documented "LOGISTIC" .sigmoid (by simp [documentedNames]) _ hop]
    simp only [firstInput hi, Option.map_some]
  · intro ext x hx
    refine ⟨_, rfl, elementwise_map x (fun q hq => ?_)⟩
    rw [int8_dequantize (hx q hq) hz]
    exact int8_nearest _ _ (by norm_num) _

/-- The values of the logistic function, between 0 and 1, never saturate on that grid by more than half a step, except
for the top half step. -/
theorem C69_logistic_error (y : ℚ) (h0 : 0 ≤ y) (h1 : y ≤ 1 - 1 / 512) (a : ℤ)
    (h : Nearest (-128) 127 (-128) (1 / 256) y a) : |real (-128) (1 / 256) a - y| ≤ 1 / 512 := by
  set q : ℤ := roundHalfUp (256 * y) - 128 with hq
  have hr := abs_roundHalfUp_sub_le (256 * y)
  have hlo : (0 : ℤ) ≤ roundHalfUp (256 * y) := by
    have := roundHalfUp_mono (show ((0 : ℤ) : ℚ) ≤ 256 * y by push_cast; linarith)
    rwa [roundHalfUp_int] at this
  have hhi : roundHalfUp (256 * y) ≤ 255 ∨ 256 * y = 255 + 1 / 2 := by
    rcases eq_or_lt_of_le h1 with e | e
    · right; rw [e]; norm_num
    · left
      have hb := abs_le.mp hr
      by_contra hc
      have : (256 : ℤ) ≤ roundHalfUp (256 * y) := by omega
      have : (256 : ℚ) ≤ roundHalfUp (256 * y) := by exact_mod_cast this
      linarith [hb.2]
  have best : ∃ q', Code (-128) 127 q' ∧ |real (-128) (1 / 256) q' - y| ≤ 1 / 512 := by
    rcases hhi with hhi | he
    · refine ⟨q, ⟨by omega, by omega⟩, ?_⟩
      unfold real
      have e : (1 / 256 : ℚ) * ((q : ℚ) - ((-128 : ℤ) : ℚ)) - y = (1 / 256) * ((roundHalfUp (256 * y) : ℚ) - 256 * y) := by
        rw [hq]; push_cast; ring
      rw [e, abs_mul, abs_of_pos (by norm_num)]
      linarith
    · refine ⟨127, ⟨by omega, by omega⟩, ?_⟩
      unfold real
      have : y = 511 / 512 := by linarith
      rw [this]; norm_num
  obtain ⟨q', hc, hb⟩ := best
  exact le_trans (h.2 q' hc) hb

/-- **C69 (RELU).**  A `RELU` operator whose input and output share scale and zero point computes exactly
`max(0, ·)`; with a common zero point only, it is less than one output step away wherever the rescaled code fits. -/
theorem C69_relu (op : OpJ) (hop : upper op.opType = "RELU".toList) {iS oS : ℚ} {z : ℤ} (hi : FirstInput op iS z)
    (ho : FirstOutput op oS z) (hz : Code (-128) 127 z) (hiS : 0 < iS) (hoS : 0 < oS) :
    ∃ L, buildLayer op = some L ∧ ∀ (ext : Ext) (x : Arr ℤ), (∀ q ∈ x.flat, Code (-128) 127 q) →
      ∃ y, L.infer ext (.int x) = some (.int y) ∧
        PointwiseRel (fun q a =>
          (iS = oS → real z oS a = max 0 (real z iS q)) ∧
          (z + iS / oS * ((max q z : ℤ) - z) ≤ 127 → |real z oS a - max 0 (real z iS q)| < oS)) x y := by
  refine ⟨.relu (Relu.ofParams iS z oS z), ?_, ?_⟩
  · obtain ⟨n, h1, h2, h3⟩ := hi
    obtain ⟨m, g1, g2, g3⟩ := ho
    unfold buildLayer
    rw [C23_documented "RELU" .relu (by simp [documentedNames]) _ hop]
    simp only [reluFromModel, h1, h2, h3, g1, g2, g3, Option.bind_eq_bind, Option.bind_some]
    rfl
  · intro ext x hx
    refine ⟨_, rfl, elementwise_map x (fun q hq => ⟨?_, ?_⟩)⟩
    · rintro rfl
      exact (C22_relu_same_params iS hiS z q (hx q hq) hz).2
    · exact C22_relu_rescale_error iS oS hiS hoS z q (hx q hq) hz

/-- **C69 (QUANTIZE, DEQUANTIZE).**  A `QUANTIZE` operator maps every number to a nearest code under the parameters of
its output node; a `DEQUANTIZE` operator maps every int8 code to its real number under the parameters of its input. -/
theorem C69_quantize (op : OpJ) (hop : upper op.opType = "QUANTIZE".toList) {n : NodeJ} {t : TensorJ} {d : GDtype} {s : ℚ}
    {z : ℤ} (hn : op.outputs[0]? = some n) (ht : n.tensor = some t) (hd : (GDtype.ofString t.dtype.toList).toOption = some d)
    (hs : n.scale = some s) (hz : n.zeroPoint = some z) (hfit : Fits32 d.min d.max) (hpos : 0 < s) :
    ∃ L, buildLayer op = some L ∧ ∀ (ext : Ext) (x : Arr ℚ), ∃ y, L.infer ext (.flt x) = some (.int y) ∧
      PointwiseRel (fun v a => Nearest d.min d.max z s v a) x y := by
  refine ⟨.quantize d z s, ?_, ?_⟩
  · unfold buildLayer
    rw [C23_documented "QUANTIZE" .quantize (by simp [documentedNames]) _ hop]
    simp only [quantizeFromModel, hn, ht, hd, hs, hz, Option.bind_eq_bind, Option.bind_some]
  · intro ext x
    exact ⟨_, rfl, elementwise_map x (fun v _ => C04_quantize_nearest d hfit z s hpos v)⟩

theorem C69_dequantize (op : OpJ) (hop : upper op.opType = "DEQUANTIZE".toList) {n : NodeJ} {t : TensorJ} {d : GDtype} {s : ℚ}
    {z : ℤ} (hn : op.inputs[0]? = some n) (ht : n.tensor = some t) (hd : (GDtype.ofString t.dtype.toList).toOption = some d)
    (hs : n.scale = some s) (hz : n.zeroPoint = some z) (hz8 : Code (-128) 127 z) :
    ∃ L, buildLayer op = some L ∧ ∀ (ext : Ext) (x : Arr ℤ), (∀ q ∈ x.flat, Code (-128) 127 q) →
      ∃ y, L.infer ext (.int x) = some (.flt y) ∧ PointwiseRel (fun q v => v = real z s q) x y := by
  refine ⟨.dequantize z s, ?_, ?_⟩
  · unfold buildLayer
    rw [C23_documented "DEQUANTIZE" .dequantize (by simp [documentedNames]) _ hop]
    simp only [dequantizeFromModel, hn, ht, hd, hs, hz, Option.bind_eq_bind, Option.bind_some]
  · intro ext x hx
    exact ⟨_, rfl, elementwise_map x (fun q hq => int8_dequantize (hx q hq) hz8 s)⟩

/-- **C69 (QLinearSigmoid).**  The ONNX operator reads the parameters of its result from its *second input* node and
answers every uint8 array with the nearest uint8 codes of the logistic function. -/
theorem C69_qlinear_sigmoid (op : OpJ) (hop : op.opType = "QLinearSigmoid") {s oS : ℚ} {z oZ : ℤ}
    (hi : FirstInput op s z) (hz : Code 0 255 z) {n : NodeJ} (hn : op.inputs[1]? = some n) (hs : n.scale = some oS)
    (hzp : n.zeroPoint = some oZ) (hpos : 0 < oS) :
    ∃ L, buildOperator op = some L ∧ ∀ (ext : Ext) (x : Arr ℤ), (∀ q ∈ x.flat, Code 0 255 q) →
      ∃ y, L.infer ext (.int x) = some (.int y) ∧
        PointwiseRel (fun q a => Nearest 0 255 oZ oS (ext.sigmoid (real z s q)) a) x y := by
  refine ⟨.qsigmoid s z oS oZ, ?_, ?_⟩
  · obtain ⟨m, h1, h2, h3⟩ := hi
    unfold buildOperator
    rw [show onnxKind op.opType = some .qsigmoid from (C23_onnx _ _).mpr hop]
    simp only [qsigmoidFromModel, h1, h2, h3, hn, hs, hzp, Option.bind_eq_bind, Option.bind_some]
  · intro ext x hx
    refine ⟨_, rfl, elementwise_map x (fun q hq => ?_)⟩
    have hq' := hx q hq
    unfold Code at hq' hz
    rw [dequantize_eq (by unfold IsInt32; omega) (by unfold IsInt32; omega)]
    exact uint8_nearest _ _ hpos _

/-! ## C22 in general: where the ReLU layer deviates -/

/-- **C22 (deviation).**  Whenever the zero points differ by at least one output step, every negative input, whose ReLU
is 0, is answered with a code that does not stand for 0. -/
theorem C22_zero_points_differ (iS oS : ℚ) (iZp oZp x : ℤ) (hiS : 0 < iS) (hoS : 0 < oS) (hx : Code (-128) 127 x)
    (hi : Code (-128) 127 iZp) (hneg : real iZp iS x ≤ 0) (hd : 1 ≤ |iS / oS * (iZp - oZp)|)
    (hfit : |oZp + iS / oS * (iZp - oZp)| ≤ 127) :
    real oZp oS ((Relu.ofParams iS iZp oS oZp).elem x) ≠ 0 := by
  have hle : x ≤ iZp := by
    unfold real at hneg
    by_contra hc
    have : (iZp : ℚ) < x := by exact_mod_cast (not_le.mp hc)
    nlinarith
  have hw : wrapS 16 x = x := wrapS_of_mem (b := 15) (by have := hx.1; omega) (by have := hx.2; omega)
  have he : (Relu.ofParams iS iZp oS oZp).elem x = trunc (oZp + iS / oS * (iZp - oZp)) := by
    unfold Relu.elem Relu.ofParams
    simp only
    rw [hw, max_eq_right hle]
    set t : ℚ := oZp + iS / oS * (iZp - oZp) with ht
    obtain ⟨t1, t2⟩ := abs_le.mp hfit
    have h1 := trunc_mono (show ((-127 : ℤ) : ℚ) ≤ t by push_cast; exact t1)
    have h2 := trunc_mono (show t ≤ ((127 : ℤ) : ℚ) by push_cast; exact t2)
    rw [trunc_int] at h1 h2
    exact wrapS_of_mem (b := 7) (by omega) (by omega)
  rw [he]
  unfold real
  intro h
  have hz : ((trunc (oZp + iS / oS * (iZp - oZp)) : ℤ) : ℚ) = oZp := by
    rcases mul_eq_zero.mp h with h | h
    · exact absurd h hoS.ne'
    · linarith
  have h3 := abs_trunc_sub_lt (oZp + iS / oS * (iZp - oZp))
  rw [hz] at h3
  have e : (oZp : ℚ) - (oZp + iS / oS * (iZp - oZp)) = -(iS / oS * (iZp - oZp)) := by ring
  rw [e, abs_neg] at h3
  linarith

/-- **C22 (deviation).**  Whenever the rescaled code is between 128 and 255, the layer wraps around to a code below
its zero point: an activation that is clearly positive comes out negative (if the zero point is not negative). -/
theorem C22_overflow_wraps (iS oS : ℚ) (zp x : ℤ) (hoS : 0 < oS) (hx : Code (-128) 127 x) (hz : 0 ≤ zp)
    (hz' : zp ≤ 127) (hlo : 128 ≤ zp + iS / oS * ((max x zp : ℤ) - zp)) (hhi : zp + iS / oS * ((max x zp : ℤ) - zp) < 256) :
    real zp oS ((Relu.ofParams iS zp oS zp).elem x) < 0 := by
  rw [relu_elem_eq iS oS zp x hx ⟨by omega, hz'⟩]
  set t : ℚ := zp + iS / oS * ((max x zp : ℤ) - zp) with ht
  have h1 := trunc_mono (show ((128 : ℤ) : ℚ) ≤ t by push_cast; exact hlo)
  rw [trunc_int] at h1
  have h2 : trunc t < 256 := by
    by_contra hc
    have : (256 : ℚ) ≤ (trunc t : ℚ) := by exact_mod_cast (not_lt.mp hc)
    have h3 : ((trunc t : ℤ) : ℚ) ≤ t := by
      unfold trunc
      rw [if_pos (by linarith)]
      exact Int.floor_le t
    linarith
  have hw : wrapS 8 (trunc t) = trunc t - 256 := by
    unfold wrapS
    rw [Int.bmod_def]
    norm_num
    omega
  rw [hw]
  unfold real
  have : ((trunc t - 256 : ℤ) : ℚ) < zp := by
    have : trunc t - 256 < zp := by omega
    exact_mod_cast this
  nlinarith

/-- The hypotheses of both hold for ordinary parameters. -/
example : real 0 1 ((Relu.ofParams 1 10 1 0).elem (-5)) ≠ 0 :=
  C22_zero_points_differ 1 1 10 0 (-5) (by norm_num) (by norm_num) (by decide) (by decide) (by unfold real; norm_num)
    (by norm_num) (by norm_num)

example : real 0 (1 / 2) ((Relu.ofParams 1 0 (1 / 2) 0).elem 100) < 0 :=
  C22_overflow_wraps 1 (1 / 2) 0 100 (by norm_num) (by decide) (by omega) (by omega) (by norm_num) (by norm_num)

namespace C69Case

def ext : Ext := ⟨fun x => clip (-1) 1 x, fun x => clip 0 1 (x / 4 + 1 / 2), fun x => 1 + x⟩

def node (s : ℚ) (z : ℤ) : NodeJ := ⟨some s, some z, some ⟨none, [2], "INT8"⟩, none⟩

def op (t : String) : OpJ := ⟨t, "x", [node (1 / 64) 3, node (1 / 256) 0], [node (1 / 64) 3], none⟩

/-- Operators that meet the hypotheses, and what they compute. -/
example : (buildLayer (op "Tanh")).bind (fun L => L.infer ext (.int (.vec [3, 67, 100]))) = some (.int (.vec [0, 127, 127])) := by
  decide +kernel

example : (buildLayer (op "logistic")).bind (fun L => L.infer ext (.int (.mat [[3], [67]]))) = some (.int (.mat [[0], [64]])) := by
  decide +kernel

example : (buildLayer (op "RELU")).bind (fun L => L.infer ext (.int (.vec [-7, 50]))) = some (.int (.vec [3, 50])) := by
  decide +kernel

example : (buildOperator (op "QLinearSigmoid")).bind (fun L => L.infer ext (.int (.vec [3, 67]))) =
    some (.int (.vec [128, 192])) := by
  decide +kernel

example : FirstInput (op "Tanh") (1 / 64) 3 ∧ FirstOutput (op "RELU") (1 / 64) 3 := ⟨⟨_, rfl, rfl, rfl⟩, ⟨_, rfl, rfl, rfl⟩⟩

example : (GDtype.ofString "INT8".toList).toOption = some (intDtype 7) := by decide +kernel

end C69Case

end Verif
