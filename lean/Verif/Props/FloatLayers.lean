import Verif.Props.FloatEngine
import Verif.Props.Elementwise

/-!
# Property C92, continued: the remaining operators of the engine in IEEE binary64 arithmetic
-/

namespace Verif
open Spec

open FloatEngine Keras Accuracy

/-- C92 (ReLU with different parameters).  If the exact code fits int8, the float64 ReLU is within one output step (and
2⁻⁴⁰ of it) of `max(0, x)` moved by `iS·(zi - zo)` (the offset of C22: nothing if the zero points agree). -/
theorem C92_relu_rescale (ext : Ext) (op : OpJ) (hop : upper op.opType = "RELU".toList) {iS oS : ℚ} {zi zo : ℤ}
    (hi : FirstInput op iS zi) (ho : FirstOutput op oS zo) (hk : (2 : ℚ) ^ (-1022 : ℤ) ≤ iS / oS) (hoS : 0 < oS)
    (hzo : Code (-128) 127 zo) :
    ∃ L, Fmt.f64.buildLayer op = some L ∧ ∀ x : Arr ℤ, (∀ q ∈ x.flat, Code (-128) 127 q ∧
        -128 ≤ zo + iS / oS * ((max q zi : ℤ) - zo) ∧ zo + iS / oS * ((max q zi : ℤ) - zo) ≤ 127) →
      ∃ y, Fmt.f64.inferLayer ext L (.int x) = some (.int y) ∧
        PointwiseRel (fun q a => Code (-128) 127 a ∧
          |real zo oS a - (max 0 (real zi iS q) + iS * (zi - zo))| ≤ oS * (1 + 1 / 2 ^ 40)) x y := by
  refine ⟨.relu ⟨Fmt.f64.fl (iS / oS), zi, zo⟩, ?_, ?_⟩
  · obtain ⟨n, h1, h2, h3⟩ := hi
    obtain ⟨m, g1, g2, g3⟩ := ho
    unfold Fmt.buildLayer
    rw [C23_documented "RELU" .relu (by simp [documentedNames]) _ hop]
    simp only [Fmt.reluFromModel, h1, h2, h3, g1, g2, g3, Option.bind_eq_bind, Option.bind_some]
  · intro x hx
    refine ⟨_, rfl, elementwise_map x (fun q hq => ?_)⟩
    obtain ⟨a, b, c⟩ := hx q hq
    exact relu_float hk hoS a hzo b c

/-- C92 (TANH, LOGISTIC).  The operators without table compute their function element by element: with float64 rounding,
and for any function `f` that changes no faster than its argument and that the engine evaluates with an error of at most
`δ`, the result is within half a step (plus rounding errors) of the saturated function value. -/
theorem C92_functions (ext : Ext) (op : OpJ) (name : String) (g : ℚ → ℚ) (so : ℚ) (zo : ℤ)
    (hop : upper op.opType = name.toList)
    (hn : (name = "TANH" ∧ g = ext.tanh ∧ so = 1 / 128 ∧ zo = 0) ∨
      (name = "LOGISTIC" ∧ g = ext.sigmoid ∧ so = 1 / 256 ∧ zo = -128))
    (f : ℚ → ℚ) (hf : ∀ a b, |f a - f b| ≤ |a - b|) (δ : ℚ) (hg : ∀ a, |g a - f a| ≤ δ) {s : ℚ} {z : ℤ}
    (hi : FirstInput op s z) (hs : IsFloat 53 (-1074) s) (hz : Code (-128) 127 z) :
    ∃ L, Fmt.f64.buildLayer op = some L ∧ ∀ x : Arr ℤ, (∀ q ∈ x.flat, Code (-128) 127 q) →
      ∃ y, Fmt.f64.inferLayer ext L (.int x) = some (.int y) ∧
        PointwiseRel (fun q a => Code (-128) 127 a ∧
          |real zo so a - saturate so zo (f (real z s q))| ≤
            so * (1 / 2 + (4 * |g (Fmt.f64.dequantize q z s) / so| + 4 * |(zo : ℚ)| + 1) / 2 ^ 53) + δ +
              |real z s q| / 2 ^ 53) x y := by
  have hso : 0 < so := by rcases hn with ⟨-, -, rfl, -⟩ | ⟨-, -, rfl, -⟩ <;> norm_num
  have hzo : Code (-128) 127 zo := by rcases hn with ⟨-, -, -, rfl⟩ | ⟨-, -, -, rfl⟩ <;> (unfold Code; norm_num)
  have key : ∀ q, Code (-128) 127 q → Code (-128) 127 (Fmt.f64.quantize (intDtype 7) (g (Fmt.f64.dequantize q z s)) zo so) ∧
      |real zo so (Fmt.f64.quantize (intDtype 7) (g (Fmt.f64.dequantize q z s)) zo so) - saturate so zo (f (real z s q))| ≤
        so * (1 / 2 + (4 * |g (Fmt.f64.dequantize q z s) / so| + 4 * |(zo : ℚ)| + 1) / 2 ^ 53) + δ + |real z s q| / 2 ^ 53 := by
    intro q hq
    obtain ⟨v, hv⟩ : ∃ v, v = g (Fmt.f64.dequantize q z s) := ⟨_, rfl⟩
    rw [← hv]
    obtain ⟨h1, h2⟩ := quant_sat hso hzo v
    refine ⟨h1, ?_⟩
    have hd := C72_float_dequantize q z (code_int32 hq) (by unfold Code at hz hq; unfold IsInt32; omega) s hs
    have h3 := hf (Fmt.f64.dequantize q z s) (real z s q)
    have h4 := hg (Fmt.f64.dequantize q z s)
    rw [← hv] at h4
    have h5 := rat_clip_sub_le (real zo so (-128)) (real zo so 127) v (f (real z s q))
    change |saturate so zo v - saturate so zo (f (real z s q))| ≤ _ at h5
    have h6 := abs_sub_le v (f (Fmt.f64.dequantize q z s)) (f (real z s q))
    have h7 := abs_sub_le (real zo so (Fmt.f64.quantize (intDtype 7) v zo so)) (saturate so zo v) (saturate so zo (f (real z s q)))
    linarith
  rcases hn with ⟨rfl, rfl, rfl, rfl⟩ | ⟨rfl, rfl, rfl, rfl⟩
  · refine ⟨.tanh z s, ?_, ?_⟩
    · unfold Fmt.buildLayer Verif.buildLayer
      rw [C23_documented "TANH" .tanh (by simp [documentedNames]) _ hop]
      simp only [firstInput hi, Option.map_some]
    · intro x hx
      exact ⟨_, rfl, elementwise_map x (fun q hq => key q (hx q hq))⟩
  · refine ⟨.sigmoid z s, ?_, ?_⟩
    · unfold Fmt.buildLayer Verif.buildLayer
      rw [C23_documented "LOGISTIC" .sigmoid (by simp [documentedNames]) _ hop]
      simp only [firstInput hi, Option.map_some]
    · intro x hx
      exact ⟨_, rfl, elementwise_map x (fun q hq => key q (hx q hq))⟩

/-- C92 (loading and running).  The engine in floating point is a chain of its layers, too: a file loads if and only if its
engine is TFLite or ONNX, it has an input, an output and an operator, and all its operators can be built by that engine; inference feeds each layer
with the result of the previous one and returns all results in order.  If the name of the first operator does not contain
"QUANT", the input is first quantized to int8 with the parameters of the input node (scale 1 and zero point 0 if missing). -/
theorem C92_load (F : Fmt) (net : NetJ) (N : SeqNet) :
    F.load net = some N ↔ ∃ build, (upper net.engine = "TFLITE".toList ∧ build = F.buildLayer ∨
        upper net.engine = "ONNX".toList ∧ build = F.buildOperator) ∧ ∃ i o first, net.input[0]? = some (some i) ∧
      net.output[0]? = some (some o) ∧ net.graph[0]? = some first ∧
      List.Forall₂ (fun op L => build op = some L) net.graph N.layers ∧
      N.hasQuantLayers = contains "QUANT" (upper first.name) ∧ N.inputZp = i.zeroPoint.getD 0 ∧
      N.inputScale = if i.scale.getD 1 = 0 then 1 else i.scale.getD 1 := by
  have hm : ∀ (build : OpJ → Option Layer) (g : List OpJ) (ls : List Layer), g.mapM build = some ls ↔
      List.Forall₂ (fun op L => build op = some L) g ls := by
    intro build g
    induction g with
    | nil => intro ls; cases ls <;> simp
    | cons a g ih =>
      intro ls
      rw [List.mapM_cons]
      cases ha : build a with
      | none => cases ls <;> simp [ha]
      | some b =>
        cases ls with
        | nil => cases h : g.mapM build <;> simp
        | cons c ls =>
          have := ih ls
          cases h : g.mapM build with
          | none =>
            rw [h] at this
            simp only [reduceCtorEq, false_iff] at this
            simp [ha, this]
          | some m =>
            rw [h, Option.some.injEq] at this
            simp [ha, ← this]
  have hsc : ∀ i : NodeJ, (match i.scale with
      | none => (1 : ℚ)
      | some s => if s = 0 then 1 else s) = if i.scale.getD 1 = 0 then 1 else i.scale.getD 1 := by
    intro i
    cases i.scale with
    | none => simp
    | some s => rfl
  have key : ∀ build, Fmt.loadWith build net = some N ↔ ∃ i o first, net.input[0]? = some (some i) ∧
      net.output[0]? = some (some o) ∧ net.graph[0]? = some first ∧
      List.Forall₂ (fun op L => build op = some L) net.graph N.layers ∧
      N.hasQuantLayers = contains "QUANT" (upper first.name) ∧ N.inputZp = i.zeroPoint.getD 0 ∧
      N.inputScale = if i.scale.getD 1 = 0 then 1 else i.scale.getD 1 := by
    intro build
    unfold Fmt.loadWith
    constructor
    · intro h
      simp only [Option.bind_eq_bind, Option.bind_eq_some_iff, Option.some.injEq] at h
      obtain ⟨i', hi', i, rfl, o', ho', o, rfl, first, hfirst, ls, hls, rfl⟩ := h
      exact ⟨i, o, first, hi', ho', hfirst, (hm _ _ _).mp hls, rfl, rfl, hsc i⟩
    · rintro ⟨i, o, first, hi, ho, hf, hls, hq, hz, hs⟩
      simp only [Option.bind_eq_bind, hi, ho, hf, Option.bind_some, (hm _ _ _).mpr hls]
      rw [← hq, ← hz]
      have e := hsc i
      rw [← hs] at e
      obtain ⟨q, z, s, l⟩ := N
      simp only at e ⊢
      rw [← e]
      rfl
  have hne : ("TFLITE".toList : List Char) ≠ "ONNX".toList := by decide +kernel
  unfold Fmt.load
  constructor
  · intro h
    by_cases he : "TFLITE".toList = upper net.engine
    · rw [if_pos he] at h
      exact ⟨_, .inl ⟨he.symm, rfl⟩, (key _).mp h⟩
    · rw [if_neg he] at h
      by_cases ho : "ONNX".toList = upper net.engine
      · rw [if_pos ho] at h
        exact ⟨_, .inr ⟨ho.symm, rfl⟩, (key _).mp h⟩
      · rw [if_neg ho] at h; cases h
  · rintro ⟨build, ⟨he, rfl⟩ | ⟨he, rfl⟩, h⟩
    · rw [if_pos he.symm]; exact (key _).mpr h
    · rw [if_neg (by rw [he]; exact hne), if_pos he.symm]; exact (key _).mpr h

/-- C92 (running). -/
theorem C92_infer (F : Fmt) (ext : Ext) (N : SeqNet) (x y : Tensor) (rec : List Tensor) :
    F.infer ext N x = some (y, rec) ↔
      rec.length = N.layers.length ∧ (∀ (i : ℕ) (L : Layer), N.layers[i]? = some L →
        (((if N.hasQuantLayers then x else
          .int (x.toFlt.map (fun v => F.quantize (intDtype 7) v N.inputZp N.inputScale))) :: rec)[i]?).bind (F.inferLayer ext L) =
            rec[i]?) ∧
      y = rec.getLast?.getD (if N.hasQuantLayers then x else
          .int (x.toFlt.map (fun v => F.quantize (intDtype 7) v N.inputZp N.inputScale))) := by
  unfold Fmt.infer Fmt.prepare
  generalize (if N.hasQuantLayers = true then x
    else .int (x.toFlt.map (fun v => F.quantize (intDtype 7) v N.inputZp N.inputScale))) = x0
  generalize N.layers = ls
  induction ls generalizing x0 rec y with
  | nil =>
    simp only [Fmt.runLayers, Option.some.injEq, Prod.mk.injEq, List.length_nil, List.length_eq_zero_iff]
    constructor
    · rintro ⟨rfl, rfl⟩; simp
    · rintro ⟨rfl, -, rfl⟩; simp
  | cons l ls ih =>
    simp only [Fmt.runLayers, Option.bind_eq_bind, Option.bind_eq_some_iff, Option.some.injEq, Prod.mk.injEq]
    constructor
    · rintro ⟨z, hz, ⟨o, r⟩, hr, rfl, rfl⟩
      obtain ⟨h1, h2, h3⟩ := (ih _ _ _).mp hr
      refine ⟨by simp [h1], ?_, ?_⟩
      · intro i L hL
        cases i with
        | zero =>
          simp only [List.getElem?_cons_zero, Option.some.injEq] at hL
          subst hL
          simp [hz]
        | succ i => simpa using h2 i L (by simpa using hL)
      · simp only at h3 ⊢
        rw [h3]
        cases r <;> simp [List.getLast?_eq_some_getLast]
    · rintro ⟨h1, h2, h3⟩
      cases rec with
      | nil => simp at h1
      | cons z r =>
        have h0 := h2 0 l rfl
        simp only [List.getElem?_cons_zero, Option.bind_some] at h0
        refine ⟨z, h0, ⟨y, r⟩, ?_, rfl, rfl⟩
        refine (ih _ _ _).mpr ⟨by simpa using h1, ?_, ?_⟩
        · intro i L hL
          simpa using h2 (i + 1) L (by simpa using hL)
        · rw [h3]
          cases r <;> simp [List.getLast?_eq_some_getLast]

/-- A ReLU with different scales, and a network whose input node has no parameters. -/
example : (2 : ℚ) ^ (-1022 : ℤ) ≤ (1 / 10) / (1 / 4) ∧
    Fmt.f64.reluElem ⟨Fmt.f64.fl ((1 / 10) / (1 / 4)), -5, -5⟩ 50 = 17 ∧
    (-128 : ℚ) ≤ (-5 : ℤ) + (1 / 10) / (1 / 4) * ((max 50 (-5) : ℤ) - (-5 : ℤ)) ∧
    ((-5 : ℤ) : ℚ) + (1 / 10) / (1 / 4) * ((max 50 (-5) : ℤ) - (-5 : ℤ)) ≤ 127 ∧
    (Fmt.f64.load ⟨"TFLITE", 1, [⟨"TANH", "Tanh", [⟨some (1 / 64), some 0, none, none⟩], [], none⟩],
      [some ⟨none, none, none, none⟩], [some ⟨none, none, none, none⟩]⟩).isSome = true ∧
    ((Fmt.f64.load ⟨"TFLITE", 1, [⟨"TANH", "Tanh", [⟨some (1 / 64), some 0, none, none⟩], [], none⟩],
      [some ⟨none, none, none, none⟩], [some ⟨none, none, none, none⟩]⟩).bind
        (fun N => Fmt.f64.infer ⟨clip (-1) 1, id, id⟩ N (.flt (.vec [32, 100])))).map Prod.fst =
      some (.int (.vec [64, 127])) := by
  refine ⟨le_trans (zpow_le_zpow_right₀ (by norm_num) (show (-1022 : ℤ) ≤ -20 by norm_num)) (by rw [zpow_neg]; norm_num), ?_⟩
  decide +kernel

end Verif
