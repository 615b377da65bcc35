import Verif.Props.TfliteRun
import Verif.Props.OnnxFloat

/-!
# Property C100: accuracy of converted TFLite networks in float64
-/

namespace Verif
open Spec Tflite2Json

namespace Spec

/-- An int8 tensor of a TFLite model: its step is a positive float32 number and its zero point an int8 code. -/
def Int8Tensor (en : Enums) (m : TModel) (i : ℕ) (s : ℚ) (z : ℤ) : Prop :=
  Quantized en m i "int" 8 s z ∧ IsFloat 24 (-149) s ∧ Code (-128) 127 z

/-- The function a fused activation stands for. -/
def fusedFn : Tflite2Json.Fused → ℚ → ℚ
  | .none => id
  | .relu => fun y => max 0 y
  | .relu6 => fun y => min 6 (max 0 y)

/-- An operator of a TFLite model that reads the int8 tensor `i`, writes the int8 tensor `o`, and what it stands for: a
fully connected operator with int8 weights, the bias counted in units of input step times weight step, and its fused
activation; or tanh or logistic; or a ReLU operator with the same zero point on both sides and an output step that is not
smaller (nor larger by more than 2¹⁰⁰).  The functions the converter uses are within `δ` of `ideal`, whose Lipschitz constants
are `lt` and `ls`; an entry of a table is then within half an output step (plus rounding errors) of the ideal value. -/
inductive TfliteMeans (en : Enums) (ip : Interp) (m : TModel) (ideal : Ext) (ls lt δ : ℚ) : TOp → ℕ → ℕ → FileOp → Prop
  | dense {op : TOp} {i w b o : ℕ} {sx sw so : ℚ} {zx zw zo : ℤ} {W : List (List ℤ)} {B : List ℤ}
      (hop : IsOp en m op "FULLY_CONNECTED") (hin : op.inputs = [i, w, b]) (hout : op.outputs = [o])
      (hx : Int8Tensor en m i sx zx) (hw : Int8Tensor en m w sw zw) (ho : Int8Tensor en m o so zo)
      (hW : Constant ip m w (.mat W)) (hB : Constant ip m b (.vec B)) :
      TfliteMeans en ip m ideal ls lt δ op i o (.dense sx zx sw zw W B so zo (fusedFn op.fused))
  | tanh {op : TOp} {i o : ℕ} {sx so : ℚ} {zx zo : ℤ} (hop : IsOp en m op "TANH") (hin : op.inputs = [i])
      (hout : op.outputs = [o]) (hx : Int8Tensor en m i sx zx) (ho : Int8Tensor en m o so zo) :
      TfliteMeans en ip m ideal ls lt δ op i o
        (.act ideal.tanh lt (so * (1 / 2 + 1 / 2 ^ 40) + (lt * (sx / 2 ^ 40) + δ)) sx zx so zo)
  | logistic {op : TOp} {i o : ℕ} {sx so : ℚ} {zx zo : ℤ} (hop : IsOp en m op "LOGISTIC") (hin : op.inputs = [i])
      (hout : op.outputs = [o]) (hx : Int8Tensor en m i sx zx) (ho : Int8Tensor en m o so zo) :
      TfliteMeans en ip m ideal ls lt δ op i o
        (.act ideal.sigmoid ls (so * (1 / 2 + 1 / 2 ^ 40) + (ls * (sx / 2 ^ 40) + δ)) sx zx so zo)
  | relu {op : TOp} {i o : ℕ} {sx so : ℚ} {z : ℤ} (hop : IsOp en m op "RELU") (hin : op.inputs = [i]) (hout : op.outputs = [o])
      (hx : Int8Tensor en m i sx z) (ho : Int8Tensor en m o so z) (hle : sx ≤ so) (hge : so ≤ 2 ^ 100 * sx) :
      TfliteMeans en ip m ideal ls lt δ op i o (.act (fun v => max 0 v) 1 (so * (1 + 1 / 2 ^ 40)) sx z so z)

/-- Operators in sequence, each reading what the previous one wrote, from tensor `i` to tensor `o`. -/
inductive TfliteChain (en : Enums) (ip : Interp) (m : TModel) (ideal : Ext) (ls lt δ : ℚ) :
    List TOp → ℕ → ℕ → List FileOp → Prop
  | nil (i : ℕ) : TfliteChain en ip m ideal ls lt δ [] i i []
  | cons {op : TOp} {ops : List TOp} {i k o : ℕ} {f : FileOp} {fs : List FileOp}
      (h : TfliteMeans en ip m ideal ls lt δ op i k f) (t : TfliteChain en ip m ideal ls lt δ ops k o fs) :
      TfliteChain en ip m ideal ls lt δ (op :: ops) i o (f :: fs)

/-- A fully quantized TFLite model: its input is quantized to an int8 tensor with step `s` and zero point `z`, operators
follow in sequence, and the last result is dequantized. -/
structure TfliteNet (en : Enums) (ip : Interp) (m : TModel) (ideal : Ext) (ls lt δ s : ℚ) (z : ℤ) (fs : List FileOp) :
    Prop where
  input : m.inputs ≠ []
  output : m.outputs ≠ []
  ops : ∃ q ops d i o, m.operators = q :: ops ++ [d] ∧ IsOp en m q "QUANTIZE" ∧ q.outputs = [i] ∧ Int8Tensor en m i s z ∧
    TfliteChain en ip m ideal ls lt δ ops i o fs ∧ IsOp en m d "DEQUANTIZE" ∧ d.inputs = [o]

end Spec

namespace TfliteF64
open FloatEngine Accuracy Keras

theorem float_of_float32 {s : ℚ} (h : IsFloat 24 (-149) s) : IsFloat 53 (-1074) s := by
  obtain ⟨a, e, h1, h2, h3⟩ := h
  refine ⟨a, e, h1.trans (by norm_num), by omega, h3⟩

theorem params_unique {en : Enums} {m : TModel} {i : ℕ} {s s' : ℚ} {z z' : ℤ} (h : Int8Tensor en m i s z)
    (h' : Int8Tensor en m i s' z') : s = s' ∧ z = z' := by
  obtain ⟨⟨t, _, h1, h2, -⟩, -⟩ := h
  obtain ⟨⟨t', _, g1, g2, -⟩, -⟩ := h'
  rw [h1, Option.some.injEq] at g1
  subst g1
  rw [h2] at g2
  simp only [Option.some.injEq, Prod.mk.injEq, List.cons.injEq, and_true] at g2
  exact g2

theorem quant8 {S : ℚ} (hS : 0 < S) {Z : ℤ} (hZ : Code (-128) 127 Z) (x : ℚ) :
    Code (-128) 127 (Fmt.f64.quantize (intDtype 7) x Z S) ∧
      |real Z S (Fmt.f64.quantize (intDtype 7) x Z S) - saturate S Z x| ≤ S * (1 / 2 + 1 / 2 ^ 40) := by
  have hr := (C72_float_range (intDtype 7) Keras.int8_fits x Z S 0 hS.ne').1
  rw [int8_range.1, int8_range.2] at hr
  refine ⟨hr, ?_⟩
  obtain ⟨a1, a2, a3⟩ := C72_float_accuracy (intDtype 7) Keras.int8_fits x Z (code_int32 hZ) S hS
  rw [int8_range.1, int8_range.2] at a1
  rw [int8_range.2] at a2
  rw [int8_range.1] at a3
  obtain ⟨z0, z1⟩ := hZ
  have z0' : (-128 : ℚ) ≤ Z := by exact_mod_cast z0
  have z1' : (Z : ℚ) ≤ 127 := by exact_mod_cast z1
  have hpos : (0 : ℚ) ≤ S * (1 / 2 + 1 / 2 ^ 40) := by positivity
  have hmm : real Z S (-128) ≤ real Z S 127 := real_mono hS Z (by norm_num)
  rcases le_total (real Z S (-128)) x with h1 | h1
  · rcases le_total x (real Z S 127) with h2 | h2
    · have e : saturate S Z x = x := by unfold saturate; rw [min_eq_right h2, max_eq_right h1]
      rw [e]
      refine (a1 h1 h2).trans (mul_le_mul_of_nonneg_left ?_ hS.le)
      have hx : |x / S| ≤ 255 := by
        rw [abs_le, le_div_iff₀ hS, div_le_iff₀ hS]
        unfold real at h1 h2
        push_cast at h1 h2
        constructor <;> nlinarith
      have hz : |(Z : ℚ)| ≤ 128 := by rw [abs_le]; constructor <;> linarith
      have : (4 * |x / S| + 4 * |(Z : ℚ)| + 1) / 2 ^ 53 ≤ 2041 / 2 ^ 53 :=
        div_le_div_of_nonneg_right (by linarith) (by positivity)
      have h3 : (2041 : ℚ) / 2 ^ 53 ≤ 1 / 2 ^ 40 := by norm_num
      linarith
    · rw [a2 h2]
      have : saturate S Z x = real Z S 127 := by unfold saturate; rw [min_eq_left h2, max_eq_right hmm]
      rw [this, sub_self, abs_zero]; exact hpos
  · rw [a3 h1]
    have : saturate S Z x = real Z S (-128) := by
      unfold saturate; rw [max_eq_left (le_trans (min_le_right _ _) h1)]
    rw [this, sub_self, abs_zero]; exact hpos

theorem deq8 {S : ℚ} (hS : 0 < S) (hf : IsFloat 53 (-1074) S) {Z q : ℤ} (hZ : Code (-128) 127 Z) (hq : Code (-128) 127 q) :
    |Fmt.f64.dequantize q Z S - real Z S q| ≤ S / 2 ^ 40 := by
  obtain ⟨z0, z1⟩ := hZ
  obtain ⟨q0, q1⟩ := hq
  have h := FloatEngine.deq_err (.inl hf) q Z (by unfold IsInt32; omega) (by unfold IsInt32; omega)
  refine h.trans ?_
  have h1 : |real Z S q| ≤ 255 * S := by
    unfold real
    rw [abs_mul, abs_of_pos hS, mul_comm]
    refine mul_le_mul_of_nonneg_right ?_ hS.le
    have : |q - Z| ≤ 255 := by rw [abs_le]; constructor <;> omega
    exact_mod_cast this
  refine (div_le_div_of_nonneg_right h1 (by positivity)).trans ?_
  rw [div_le_div_iff₀ (by positivity) (by positivity)]
  nlinarith

/-- An entry of the converter's table. -/
theorem entry_near {f ideal : ℚ → ℚ} {L δ : ℚ} (hL : 0 ≤ L) (hl : ∀ a b, |ideal a - ideal b| ≤ L * |a - b|)
    (hf : ∀ a, |f a - ideal a| ≤ δ) {sx so : ℚ} {zx zo : ℤ} (hx : 0 < sx) (hx' : IsFloat 53 (-1074) sx) (ho : 0 < so)
    (hzx : Code (-128) 127 zx) (hzo : Code (-128) 127 zo) {q : ℤ} (hq : Code (-128) 127 q) :
    Code (-128) 127 (Fmt.f64.quantize (intDtype 7) (f (Fmt.f64.dequantize q zx sx)) zo so) ∧
      |real zo so (Fmt.f64.quantize (intDtype 7) (f (Fmt.f64.dequantize q zx sx)) zo so) -
        saturate so zo (ideal (real zx sx q))| ≤ so * (1 / 2 + 1 / 2 ^ 40) + (L * (sx / 2 ^ 40) + δ) := by
  obtain ⟨v, hv⟩ : ∃ v, v = f (Fmt.f64.dequantize q zx sx) := ⟨_, rfl⟩
  rw [← hv]
  obtain ⟨h1, h2⟩ := quant8 ho hzo v
  refine ⟨h1, ?_⟩
  have h3 := mul_le_mul_of_nonneg_left (deq8 hx hx' hzx hq) hL
  have h4 := hl (Fmt.f64.dequantize q zx sx) (real zx sx q)
  have h5 := hf (Fmt.f64.dequantize q zx sx)
  rw [← hv] at h5
  have h6 := abs_sub_le v (ideal (Fmt.f64.dequantize q zx sx)) (ideal (real zx sx q))
  have h7 := rat_clip_sub_le (real zo so (-128)) (real zo so 127) v (ideal (real zx sx q))
  change |saturate so zo v - saturate so zo (ideal (real zx sx q))| ≤ _ at h7
  have h8 := abs_sub_le (real zo so (Fmt.f64.quantize (intDtype 7) v zo so)) (saturate so zo v)
    (saturate so zo (ideal (real zx sx q)))
  linarith

/-- Reading the table. -/
theorem look_table (g : ℤ → ℤ) {q : ℤ} (hq : Code (-128) 127 q) :
    (⟨.reduced (ReducedLUT.deserialize (ReducedLUT.mk' ((Quantization.codes (intDtype 7)).map g) 3 0).serialize), 128⟩ :
      LutLayer).look q = some (g q) := by
  obtain ⟨h1, h2⟩ := hq
  obtain ⟨k, hk⟩ : ∃ k : ℕ, q + 128 = k := ⟨(q + 128).toNat, by omega⟩
  have hlt : k < ((Quantization.codes (intDtype 7)).map g).length := by
    show k < ((((List.range 256).map _)).map g).length
    simp only [List.length_map, List.length_range]
    omega
  show ReducedLUT.get _ (q + 128) = _
  rw [hk, C12_deserialized_correct _ _ _ k hlt]
  congr 1
  rw [List.getElem_map]
  congr 1
  have e : (intDtype 7).min = -128 := by rfl
  simp only [Quantization.codes, List.getElem_map, List.getElem_range, e]
  omega

theorem table_len (f : ℚ → ℚ) (si : ℚ) (zi : ℤ) (so : ℚ) (zo : ℤ) : (Fmt.f64.int8Table f si zi so zo).length = 256 := by
  show ((((List.range 256).map _)).map _).length = 256
  simp only [List.length_map, List.length_range]

/-- What a table operator of the model converts to. -/
theorem lut_op {f : ℚ → ℚ} {name : String} {en : Enums} {ip : Interp} {m : TModel} (hi : Interprets ip m) {op : TOp} {j : OpJ}
    (h : lutOp f name en ip m op Fmt.f64.int8Table = some j) {i o : ℕ} (hin : op.inputs = [i]) (hout : op.outputs = [o])
    {sx so : ℚ} {zx zo : ℤ} (hx : Int8Tensor en m i sx zx) (ho : Int8Tensor en m o so zo) :
    j.opType = name ∧ LutLayer.fromModel j = some ⟨.reduced (ReducedLUT.deserialize (ReducedLUT.mk' ((Quantization.codes
      (intDtype 7)).map (fun c => Fmt.f64.quantize (intDtype 7) (f (Fmt.f64.dequantize c zx sx)) zo so)) 3 0).serialize), 128⟩ := by
  unfold lutOp at h
  simp only [Option.bind_eq_bind, Option.bind_eq_some_iff] at h
  obtain ⟨b, hb, h⟩ := h
  obtain ⟨code, hc, -, -, k1, k2⟩ := baseOp_spec hb
  have f1 := forall₂_nodes hi k1
  have f2 := forall₂_nodes hi k2
  rw [hin] at f1
  rw [hout] at f2
  obtain ⟨ni, e1, g1⟩ := forall₂_one f1
  obtain ⟨no, e2, g2⟩ := forall₂_one f2
  obtain ⟨a1, a2, -⟩ := node_quant g1 hx.1
  obtain ⟨b1, b2, -⟩ := node_quant g2 ho.1
  rw [e1, e2] at h
  simp only at h
  obtain ⟨_, _, _, _, p1, _⟩ := hx.1
  obtain ⟨_, _, _, _, p2, _⟩ := ho.1
  rw [a1, a2, b1, b2, Onnx2Json.orElse_zero, Onnx2Json.orElse_zero, Onnx2Json.orElse_ne _ p1.ne', Onnx2Json.orElse_ne _ p2.ne',
    if_pos (table_len _ _ _ _ _), Option.some.injEq] at h
  subst h
  exact ⟨rfl, rfl⟩

theorem node8 {en : Enums} {ip : Interp} {m : TModel} {i : ℕ} {n : NodeJ} (h : NodeOf en ip m i n) {s : ℚ} {z : ℤ}
    (hq : Int8Tensor en m i s z) : HasParams n s z ∧ IsInt8 n := by
  obtain ⟨h1, h2, d, sh, dt, h3, h4⟩ := node_quant h hq.1
  exact ⟨⟨h1, h2⟩, _, h3, h4⟩

theorem op_means {cext ideal : Ext} {en : Enums} {ip : Interp} {m : TModel} {ls lt δ : ℚ} (hls : 0 ≤ ls) (hlt : 0 ≤ lt)
    (hs : ∀ a b, |ideal.sigmoid a - ideal.sigmoid b| ≤ ls * |a - b|) (ht : ∀ a b, |ideal.tanh a - ideal.tanh b| ≤ lt * |a - b|)
    (hce : Approximates δ cext ideal) (hi : Interprets ip m) {op : TOp} {i o : ℕ} {f : FileOp}
    (h : TfliteMeans en ip m ideal ls lt δ op i o f) {j : OpJ} (hj : buildOp cext en ip m op Fmt.f64.int8Table = some j) :
    FileMeans j f := by
  cases h with
  | dense hop hin hout hx hw ho hW hB =>
    obtain ⟨e1, -, f1, f2⟩ := plain_op hi hop (by decide) (by decide) hj
    rw [hin] at f1
    rw [hout] at f2
    obtain ⟨nx, nw, nb, g1, r1, r2, r3⟩ := forall₂_three f1
    obtain ⟨no, g2, r4⟩ := forall₂_one f2
    obtain ⟨tw, w1, w2, -⟩ := node_const r2 hW
    obtain ⟨tb, b1, b2, -⟩ := node_const r3 hB
    exact .dense e1 g1 g2 (node8 r1 hx).1 (node8 r2 hw).1 w1 w2 b1 b2 (node8 r4 ho).1 (node8 r4 ho).2
  | tanh hop hin hout hx ho =>
    rw [buildOp_is hop, if_pos rfl] at hj
    obtain ⟨e1, e2⟩ := lut_op hi hj hin hout hx ho
    obtain ⟨_, _, _, _, p1, _⟩ := hx.1
    obtain ⟨_, _, _, _, p2, _⟩ := ho.1
    exact .act (.inl e1) e2 (fun q hq => ⟨_, look_table _ hq,
      entry_near hlt ht (fun a => (hce a).2) p1 (float_of_float32 hx.2.1) p2 hx.2.2 ho.2.2 hq⟩)
  | logistic hop hin hout hx ho =>
    rw [buildOp_is hop, if_neg (by decide), if_pos rfl] at hj
    obtain ⟨e1, e2⟩ := lut_op hi hj hin hout hx ho
    obtain ⟨_, _, _, _, p1, _⟩ := hx.1
    obtain ⟨_, _, _, _, p2, _⟩ := ho.1
    exact .act (.inr e1) e2 (fun q hq => ⟨_, look_table _ hq,
      entry_near hls hs (fun a => (hce a).1) p1 (float_of_float32 hx.2.1) p2 hx.2.2 ho.2.2 hq⟩)
  | @relu _ sx so z hop hin hout hx ho hle hge =>
    obtain ⟨e1, -, f1, f2⟩ := plain_op hi hop (by decide) (by decide) hj
    rw [hin] at f1
    rw [hout] at f2
    obtain ⟨nx, g1, r1⟩ := forall₂_one f1
    obtain ⟨no, g2, r2⟩ := forall₂_one f2
    obtain ⟨_, _, _, _, p1, _⟩ := hx.1
    obtain ⟨_, _, _, _, p2, _⟩ := ho.1
    have hz : (z : ℚ) ≤ 127 := by exact_mod_cast hx.2.2.2
    have hz' : (-128 : ℚ) ≤ z := by exact_mod_cast hx.2.2.1
    have hκ : sx / so ≤ 1 := (div_le_one p2).mpr hle
    have h := FileMeans.relu e1 g1 g2 (node8 r1 hx).1 (node8 r2 ho).1 p2 (by
        refine le_trans (zpow_le_zpow_right₀ (by norm_num) (show (-1022 : ℤ) ≤ -100 by norm_num)) ?_
        rw [zpow_neg, le_div_iff₀ p2, ← div_eq_inv_mul, div_le_iff₀ (by positivity), mul_comm]
        exact hge) hx.2.2 (by rw [sub_self, mul_zero, add_zero]; exact hz') (by nlinarith)
    have e : (fun v : ℚ => max 0 v + sx * ((z : ℚ) - z)) = fun v => max 0 v := by funext v; rw [sub_self, mul_zero, add_zero]
    rw [e] at h
    exact h

theorem chain_means {cext ideal : Ext} {en : Enums} {ip : Interp} {m : TModel} {ls lt δ : ℚ} (hls : 0 ≤ ls) (hlt : 0 ≤ lt)
    (hs : ∀ a b, |ideal.sigmoid a - ideal.sigmoid b| ≤ ls * |a - b|) (ht : ∀ a b, |ideal.tanh a - ideal.tanh b| ≤ lt * |a - b|)
    (hce : Approximates δ cext ideal) (hi : Interprets ip m) {ops : List TOp} {i o : ℕ} {fs : List FileOp}
    (h : TfliteChain en ip m ideal ls lt δ ops i o fs) {js : List OpJ}
    (hj : ops.mapM (fun op => buildOp cext en ip m op Fmt.f64.int8Table) = some js) {s : ℚ} {z : ℤ} (hx : Int8Tensor en m i s z) :
    List.Forall₂ FileMeans js fs ∧ Int8Tensor en m o (fileLast (s, z) fs).1 (fileLast (s, z) fs).2 := by
  induction h generalizing js s z with
  | nil i =>
    simp only [List.mapM_nil, Option.pure_def, Option.some.injEq] at hj
    subst hj
    exact ⟨.nil, hx⟩
  | @cons op ops i k o f fs h _ ih =>
    rw [List.mapM_cons] at hj
    simp only [Option.bind_eq_bind, Option.bind_eq_some_iff, Option.pure_def, Option.some.injEq] at hj
    obtain ⟨j, hj1, js', hj2, rfl⟩ := hj
    have hw : Int8Tensor en m k f.writes.1 f.writes.2 := by cases h <;> assumption
    obtain ⟨a, b⟩ := ih hj2 hw
    exact ⟨.cons (op_means hls hlt hs ht hce hi h hj1) a, b⟩

end TfliteF64

open TfliteF64 in
/-- **C100.**  A fully quantized TFLite model – quantize, then fully connected, tanh and logistic operators in sequence,
then dequantize – whenever the converter converts it (its tables computed in float64 with functions within `δ` of the
ideal ones), loads in the engine, and in float64 arithmetic every output for every sample and every non-empty batch is within the
accumulated bound of what the model means in real arithmetic: exact layers with their fused activations. -/
theorem C100_accuracy (ext cext ideal : Ext) (ls lt δ : ℚ) (hls : 0 ≤ ls) (hlt : 0 ≤ lt)
    (hsig : ∀ a b, |ideal.sigmoid a - ideal.sigmoid b| ≤ ls * |a - b|)
    (htanh : ∀ a b, |ideal.tanh a - ideal.tanh b| ≤ lt * |a - b|) (hce : Approximates δ cext ideal)
    (en : Enums) (ip : Interp) (m : TModel) (hi : Interprets ip m) (s : ℚ) (z : ℤ) (fs : List FileOp)
    (hm : TfliteNet en ip m ideal ls lt δ s z fs) (n : ℕ) (hfit : fileFits (s, z) fs n) (net : NetJ)
    (h : convert cext en ip m Fmt.f64.int8Table = some net) :
    ∃ N, Fmt.f64.load net = some N ∧
      (∀ x : List ℚ, x.length = n → ∃ y rec, Fmt.f64.infer ext N (.flt (.vec x)) = some (.flt (.vec y), rec) ∧
        Within y (fileExact fs x) (outputBound (fileExact fs x) (fileBound fs x (inputBound s z x)))) ∧
      ∀ X : List (List ℚ), X ≠ [] → (∀ x ∈ X, x.length = n) →
        ∃ Y rec, Fmt.f64.infer ext N (.flt (.mat X)) = some (.flt (.mat Y), rec) ∧
          List.Forall₂ (fun y x =>
            Within y (fileExact fs x) (outputBound (fileExact fs x) (fileBound fs x (inputBound s z x)))) Y X := by
  obtain ⟨hin, hout, q, ops, d, i, o, hops, hq, hq1, hq2, hc, hd, hd1⟩ := hm
  unfold convert at h
  simp only [Option.bind_eq_bind, Option.bind_eq_some_iff, Option.some.injEq] at h
  obtain ⟨is, his, os, hos, g, hg, rfl⟩ := h
  rw [hops, List.mapM_append, List.mapM_cons, List.mapM_cons, List.mapM_nil] at hg
  simp only [Option.bind_eq_bind, Option.bind_eq_some_iff, Option.pure_def, Option.some.injEq] at hg
  obtain ⟨_, ⟨jq, hjq, js, hjs, rfl⟩, _, ⟨jd, hjd, _, rfl, rfl⟩, rfl⟩ := hg
  obtain ⟨a1, a2⟩ := chain_means hls hlt hsig htanh hce hi hc hjs hq2
  obtain ⟨q1, q2, -, q4⟩ := plain_op hi hq (by decide) (by decide) hjq
  obtain ⟨d1, -, d3, -⟩ := plain_op hi hd (by decide) (by decide) hjd
  rw [hq1] at q4
  rw [hd1] at d3
  obtain ⟨nq, q5, q6⟩ := forall₂_one q4
  obtain ⟨nd, d5, d6⟩ := forall₂_one d3
  have hpos : 0 < s := by obtain ⟨_, _, _, _, p, _⟩ := hq2.1; exact p
  refine C92_accuracy ext _ s z fs ⟨?_, ?_, ?_, jq, js, jd, rfl, ⟨q1, by rw [q2]; decide +kernel, nq, [], q5, node8 q6 hq2⟩, a1,
    d1, nd, [], d5, (node8 d6 a2)⟩ hpos hq2.2.2 n hfit (float_of_float32 a2.2.1)
  · show upper "TFLITE" = _
    decide +kernel
  · cases is with
    | nil => exact absurd ((mapM_nil_iff his).mp rfl) hin
    | cons a is => exact ⟨a, rfl⟩
  · cases os with
    | nil => exact absurd ((mapM_nil_iff hos).mp rfl) hout
    | cons a os => exact ⟨a, rfl⟩

/-! ## A concrete model -/

namespace C100Case
open C71Case (en members types)

/-- quantize → fully connected with a fused rectifier → logistic → dequantize, two features, two units. -/
def m : TModel :=
  { opcodes := [114, 9, 14, 6]
    buffers := [false, true, true]
    tensors := [⟨"in", 0, 0, some [1, 2], none⟩, ⟨"q", 0, 9, some [1, 2], some ([1/64], [3])⟩,
      ⟨"w", 1, 9, some [2, 2], some ([1/128], [0])⟩, ⟨"b", 2, 2, some [2], some ([1/8192], [0])⟩,
      ⟨"fc", 0, 9, some [1, 2], some ([1/64], [-128])⟩, ⟨"sig", 0, 9, some [1, 2], some ([1/256], [-128])⟩,
      ⟨"out", 0, 0, some [1, 2], some ([], [])⟩]
    operators := [⟨0, [0], [1], .none⟩, ⟨1, [1, 2, 3], [4], .relu⟩, ⟨2, [4], [5], .none⟩, ⟨3, [5], [6], .none⟩]
    inputs := [0]
    outputs := [6] }

def ip : Interp :=
  { details := [("in", 0), ("q", 1), ("w", 2), ("b", 3), ("fc", 4), ("sig", 5), ("out", 6)]
    content := fun i => if i = 2 then some (.mat [[100, -7], [-90, 20]]) else if i = 3 then some (.vec [4000, -2000]) else none }

/-- Functions to be computed, and a library that is slightly off. -/
def ideal : Ext := ⟨fun x => x / 16, fun x => 1 / 2 + x / 4, fun x => x + 1⟩

def lib : Ext := ⟨fun x => x / 16, fun x => 1 / 2 + x / 4 + 1 / 2 ^ 50, fun x => x + 1⟩

theorem interprets : Interprets ip m where
  named := by decide +kernel
  distinct := by
    intro i j t u h1 h2 h3
    have hi : i < 7 := (List.getElem?_eq_some_iff.mp h1).1
    have hj : j < 7 := (List.getElem?_eq_some_iff.mp h2).1
    have key : ∀ a < 7, ∀ b < 7, (m.tensors[a]?.map TTensor.name) = (m.tensors[b]?.map TTensor.name) → a = b := by
      decide +kernel
    exact key i hi j hj (by rw [h1, h2]; simp [h3])
  details := by
    intro nm i
    constructor
    · intro h
      have key : ∀ p ∈ ip.details, m.tensors[p.2]?.map TTensor.name = some p.1 := by decide +kernel
      have := key _ h
      rw [Option.map_eq_some_iff] at this
      exact this
    · rintro ⟨t, h1, h2⟩
      have hi : i < 7 := (List.getElem?_eq_some_iff.mp h1).1
      have key : ∀ a < 7, ∀ t ∈ m.tensors[a]?, (t.name, a) ∈ ip.details := by decide +kernel
      rw [← h2]
      exact key i hi t h1

theorem int8 (i : ℕ) (t : TTensor) (ht : m.tensors[i]? = some t) (hty : t.type = 9) (e : ℕ) (he : e < 100) (z : ℤ)
    (hq : t.quant = some ([1 / 2 ^ e], [z])) (hz : Code (-128) 127 z) : Int8Tensor en m i (1 / 2 ^ e) z :=
  ⟨⟨t, "INT8", ht, hq, by positivity, by rw [hty]; exact types.1, by unfold NamesType; decide +kernel⟩,
    ⟨1, -(e : ℤ), by norm_num, by omega, by rw [zpow_neg, zpow_natCast]; simp⟩, hz⟩

def ops : List FileOp :=
  [.dense (1 / 2 ^ 6) 3 (1 / 2 ^ 7) 0 [[100, -7], [-90, 20]] [4000, -2000] (1 / 2 ^ 6) (-128) (fun y => max 0 y),
   .act ideal.sigmoid (1 / 4) (1 / 2 ^ 8 * (1 / 2 + 1 / 2 ^ 40) + (1 / 4 * ((1 / 2 ^ 6) / 2 ^ 40) + 1 / 2 ^ 50)) (1 / 2 ^ 6) (-128)
    (1 / 2 ^ 8) (-128)]

theorem net : TfliteNet en ip m ideal (1 / 4) (1 / 16) (1 / 2 ^ 50) (1 / 2 ^ 6) 3 ops where
  input := by decide
  output := by decide
  ops := by
    have h1 : Int8Tensor en m 1 (1 / 2 ^ 6) 3 := int8 1 _ rfl rfl 6 (by norm_num) 3 (by norm_num) (by unfold Code; norm_num)
    have h2 : Int8Tensor en m 2 (1 / 2 ^ 7) 0 := int8 2 _ rfl rfl 7 (by norm_num) 0 (by norm_num) (by unfold Code; norm_num)
    have h4 : Int8Tensor en m 4 (1 / 2 ^ 6) (-128) :=
      int8 4 _ rfl rfl 6 (by norm_num) (-128) (by norm_num) (by unfold Code; norm_num)
    have h5 : Int8Tensor en m 5 (1 / 2 ^ 8) (-128) :=
      int8 5 _ rfl rfl 8 (by norm_num) (-128) (by norm_num) (by unfold Code; norm_num)
    refine ⟨_, [_, _], _, 1, 5, rfl, ⟨114, rfl, members (114, "QUANTIZE") (by simp)⟩, rfl, h1, ?_,
      ⟨6, rfl, members (6, "DEQUANTIZE") (by simp)⟩, rfl⟩
    refine .cons (.dense ⟨9, rfl, members (9, "FULLY_CONNECTED") (by simp)⟩ rfl rfl h1 h2 h4 ⟨_, rfl, rfl, rfl⟩ ⟨_, rfl, rfl, rfl⟩)
      (.cons (.logistic ⟨14, rfl, ?_⟩ rfl rfl h4 h5) (.nil 5))
    unfold Spec.Member
    decide +kernel

theorem fits : fileFits (1 / 2 ^ 6, 3) ops 2 := by
  refine ⟨rfl, ⟨?_, by norm_num, by norm_num, by norm_num, by unfold Code; norm_num, by unfold Code; norm_num,
    by unfold Code; norm_num, by norm_num, by simp, rfl, by decide +kernel, by decide +kernel⟩, rfl,
    ⟨by decide, by norm_num, ?_, by unfold Code; norm_num⟩, trivial⟩
  · refine le_trans (zpow_le_zpow_right₀ (by norm_num) (show (-1022 : ℤ) ≤ -20 by norm_num)) ?_
    rw [zpow_neg]; norm_num
  · intro a b
    have e : ideal.sigmoid a - ideal.sigmoid b = 1 / 4 * (a - b) := by simp only [ideal]; ring
    rw [e, abs_mul, abs_of_pos (by norm_num)]

theorem lipschitz : (∀ a b, |ideal.sigmoid a - ideal.sigmoid b| ≤ 1 / 4 * |a - b|) ∧
    (∀ a b, |ideal.tanh a - ideal.tanh b| ≤ 1 / 16 * |a - b|) ∧ Approximates (1 / 2 ^ 50) lib ideal := by
  refine ⟨fun a b => ?_, fun a b => ?_, fun a => ⟨?_, ?_⟩⟩
  · have e : ideal.sigmoid a - ideal.sigmoid b = 1 / 4 * (a - b) := by simp only [ideal]; ring
    rw [e, abs_mul, abs_of_pos (by norm_num)]
  · have e : ideal.tanh a - ideal.tanh b = 1 / 16 * (a - b) := by simp only [ideal]; ring
    rw [e, abs_mul, abs_of_pos (by norm_num)]
  · have e : lib.sigmoid a - ideal.sigmoid a = 1 / 2 ^ 50 := by simp only [ideal, lib]; ring
    rw [e, abs_of_pos (by norm_num)]
  · simp [ideal, lib]

/-- The model converts, so `C100_accuracy` applies to it. -/
example : ∃ j N, convert lib en ip m Fmt.f64.int8Table = some j ∧ Fmt.f64.load j = some N ∧
    ∀ x : List ℚ, x.length = 2 → ∃ y rec, Fmt.f64.infer lib N (.flt (.vec x)) = some (.flt (.vec y), rec) ∧
      Within y (fileExact ops x) (outputBound (fileExact ops x) (fileBound ops x (inputBound (1 / 2 ^ 6) 3 x))) := by
  have hc : (convert lib en ip m Fmt.f64.int8Table).isSome := by decide +kernel
  obtain ⟨j, hj⟩ := Option.isSome_iff_exists.mp hc
  obtain ⟨N, h1, h2, -⟩ := C100_accuracy lib lib ideal (1 / 4) (1 / 16) (1 / 2 ^ 50) (by norm_num) (by norm_num) lipschitz.1
    lipschitz.2.1 lipschitz.2.2 en ip m interprets (1 / 2 ^ 6) 3 ops net 2 fits j hj
  exact ⟨j, N, hj, h1, h2⟩

/-- What it computes for one sample, next to the exact result and the bound. -/
example : (((convert lib en ip m Fmt.f64.int8Table).bind Fmt.f64.load).bind (fun N =>
      Fmt.f64.infer lib N (.flt (.vec [Fmt.f64.fl (3 / 10), -1])))).map Prod.fst = some (.flt (.vec [89 / 128, 1 / 2])) ∧
    fileExact ops [3 / 10, -1] = [711 / 1024, 1 / 2] := by
  decide +kernel

/-- The bound at this sample is below one and a half output steps. -/
example : ∀ e ∈ outputBound (fileExact ops [3 / 10, -1]) (fileBound ops [3 / 10, -1] (inputBound (1 / 2 ^ 6) 3 [3 / 10, -1])),
    e ≤ 3 / 2 * (1 / 256) := by
  decide +kernel

end C100Case

end Verif
