import Verif.Props.TfliteFloat
import Verif.Props.FloatExport
import Verif.Props.LstmFloatExport

/-!
# Property C101: the predicted class survives quantization
-/

namespace Verif
open Spec Keras

namespace Spec

/-- The class `c` has a strictly larger score than every other one: it is what `argmax` answers. -/
def Predicts (y : List ℚ) (c : ℕ) : Prop := ∃ a, y[c]? = some a ∧ ∀ (j : ℕ) (b : ℚ), j ≠ c → y[j]? = some b → b < a

/-- Given errors `E` of the scores `t`, the class `c` wins by more than its own and the other class's error. -/
def Decisive (t E : List ℚ) (c : ℕ) : Prop :=
  ∃ a e, t[c]? = some a ∧ E[c]? = some e ∧
    ∀ (j : ℕ) (b e' : ℚ), j ≠ c → t[j]? = some b → E[j]? = some e' → b + e' + e < a

/-- The same with one error for all classes. -/
def DecisiveBy (t : List ℚ) (e : ℚ) (c : ℕ) : Prop :=
  ∃ a, t[c]? = some a ∧ ∀ (j : ℕ) (b : ℚ), j ≠ c → t[j]? = some b → b + 2 * e < a

end Spec

namespace Classes

theorem predicts {y t E : List ℚ} {c : ℕ} (h : Within y t E) (hd : Decisive t E c) : Predicts y c := by
  obtain ⟨hl, h⟩ := h
  obtain ⟨a, e, ha, he, hall⟩ := hd
  have hlen : y.length = t.length := by rw [h.length_eq, List.length_zip, hl, min_self]
  have key : ∀ (j : ℕ) (v b e' : ℚ), y[j]? = some v → t[j]? = some b → E[j]? = some e' → |v - b| ≤ e' := by
    intro j v b e' h1 h2 h3
    obtain ⟨i1, rfl⟩ := List.getElem?_eq_some_iff.mp h1
    obtain ⟨i2, rfl⟩ := List.getElem?_eq_some_iff.mp h2
    obtain ⟨i3, rfl⟩ := List.getElem?_eq_some_iff.mp h3
    have := (List.forall₂_iff_get.mp h).2 j i1 (by rw [List.length_zip]; exact lt_min i2 i3)
    simpa using this
  have hc : c < y.length := by rw [hlen]; exact (List.getElem?_eq_some_iff.mp ha).1
  refine ⟨y[c], List.getElem?_eq_getElem hc, fun j b hj hb => ?_⟩
  have hj' : j < y.length := (List.getElem?_eq_some_iff.mp hb).1
  have h1 := key c _ a e (List.getElem?_eq_getElem hc) ha he
  have hjt : t[j]? = some (t[j]'(by omega)) := List.getElem?_eq_getElem _
  have hjE : E[j]? = some (E[j]'(by omega)) := List.getElem?_eq_getElem _
  have h2 := key j b _ _ hb hjt hjE
  have h3 := hall j _ _ hj hjt hjE
  obtain ⟨h1, -⟩ := abs_le.mp h1
  obtain ⟨-, h2⟩ := abs_le.mp h2
  linarith

theorem predicts_by {y t : List ℚ} {e : ℚ} {c : ℕ} (h : List.Forall₂ (fun a b => |a - b| ≤ e) y t) (hd : DecisiveBy t e c) :
    Predicts y c := by
  obtain ⟨a, ha, hall⟩ := hd
  have hlen := h.length_eq
  have key : ∀ (j : ℕ) (v b : ℚ), y[j]? = some v → t[j]? = some b → |v - b| ≤ e := by
    intro j v b h1 h2
    obtain ⟨i1, rfl⟩ := List.getElem?_eq_some_iff.mp h1
    obtain ⟨i2, rfl⟩ := List.getElem?_eq_some_iff.mp h2
    exact (List.forall₂_iff_get.mp h).2 j i1 i2
  have hc : c < y.length := by rw [hlen]; exact (List.getElem?_eq_some_iff.mp ha).1
  refine ⟨y[c], List.getElem?_eq_getElem hc, fun j b hj hb => ?_⟩
  have hj' : j < y.length := (List.getElem?_eq_some_iff.mp hb).1
  have h1 := key c _ a (List.getElem?_eq_getElem hc) ha
  have hjt : t[j]? = some (t[j]'(by omega)) := List.getElem?_eq_getElem _
  have h2 := key j b _ hb hjt
  have h3 := hall j _ hj hjt
  obtain ⟨h1, -⟩ := abs_le.mp h1
  obtain ⟨-, h2⟩ := abs_le.mp h2
  linarith

end Classes

open Classes

/-- **C101 (Keras).**  A dense model, quantized and exported in floating point and run by the engine in float64, predicts for
every sample of a batch the class the float model predicts, if that class wins by more than the error bounds of C95. -/
theorem C101_dense (ext : Ext) (F : Formats) (h1 : ∀ d, Ieee (F.data d)) (h2 : ∀ d, Ieee (F.weight d)) (h3 : Ieee F.product)
    (K : FloatKeras) (cfg : Cfg) (X : Arr ℚ) (ls : List KLayer) (n : ℕ)
    (h8 : Int8Layers cfg n ls) (hq : NamesType cfg.quantizeDtype "int" 8) (δ : ℚ) (ha : ActsOk K.act δ ls)
    (hlip : ∀ l, KLayer.dense l ∈ ls → ∀ a b, |target l a - target l b| ≤ |a - b|) (g : List OpJ)
    (h : (Arith.float F K).graph cfg X ls = some g) (hg : FileFactors g) :
    ∃ s z fs, NetMeans (exportJson g) s z fs ∧ ExportedFile F.product.fl δ (s, z) (denseLayers ls) fs ∧
      ∃ N, Fmt.f64.load (exportJson g) = some N ∧
        ∀ B : List (List ℚ), B ≠ [] → (∀ x ∈ B, x.length = n) →
          ∃ Y rec, Fmt.f64.infer ext N (.flt (.mat B)) = some (.flt (.mat Y), rec) ∧
            List.Forall₂ (fun y x => ∀ c, Decisive (forward ls x) (List.zipWith (· + ·)
              (outputBound (fileExact fs x) (fileBound fs x (inputBound s z x)))
              (drift F.product.fl fs (denseLayers ls) x (x.map (fun _ => 0)))) c → Predicts y c) Y B := by
  obtain ⟨s, z, fs, hm, he, N, n1, -, n3⟩ := C95_accuracy ext F h1 h2 h3 K cfg X ls n h8 hq δ ha hlip g h hg
  refine ⟨s, z, fs, hm, he, N, n1, fun B hB hn => ?_⟩
  obtain ⟨Y, rec, e1, e2⟩ := n3 B hB hn
  exact ⟨Y, rec, e1, e2.imp (fun y x hw c hc => predicts hw hc)⟩

/-- **C101 (recurrent Keras models).**  The same for sequences and LSTM layers, with the error bounds of C97. -/
theorem C101_recurrent (ext : Ext) (F : Formats) (h1 : ∀ d, Ieee (F.data d)) (h2 : ∀ d, Ieee (F.weight d)) (h3 : Ieee F.product)
    (K : FloatKeras) (cfg : Cfg) (X : Arr ℚ) (ls : List KLayer) (n : ℕ)
    (hm : RecurrentModel cfg n ls) (hq : NamesType cfg.quantizeDtype "int" 8) (δ : ℚ) (ha : ActsOk K.act δ ls)
    (hs : ∀ a, |K.sigmoid a - ext.sigmoid a| ≤ δ) (ht : ∀ a, |K.tanh a - ext.tanh a| ≤ δ)
    (hsl : ∀ a b, |ext.sigmoid a - ext.sigmoid b| ≤ |a - b|) (htl : ∀ a b, |ext.tanh a - ext.tanh b| ≤ |a - b|)
    (hlip : ∀ l, KLayer.dense l ∈ ls → ∀ a b, |target l a - target l b| ≤ |a - b|) (g : List OpJ)
    (h : (Arith.float F K).graph cfg X ls = some g) (hg : FileFactors g) (bs : List LstmBudget)
    (hbs : LstmPlans ext F.product.fl δ ls g bs) :
    ∃ s z rs fs, SeqNetMeans ext (exportJson g) s z rs fs ∧ rs.map (·.l) = lstmLayers ls ∧ rs.map (·.b) = bs ∧
      ExportedFile F.product.fl δ (recLast rs).1 (denseLayers ls) fs ∧
      ∃ N, Fmt.f64.load (exportJson g) = some N ∧
        ∀ (B : List (List (List ℚ))) (T : ℕ), B ≠ [] → 0 < T →
          (∀ x ∈ B, x.length = T ∧ (∀ r ∈ x, r.length = n) ∧
            ∃ e, (∀ r ∈ x, ∀ v ∈ inputBound s z r, v ≤ e) ∧ recInRange ext e rs x) →
          ∃ Y rec, Fmt.f64.infer ext N (.flt (.cube B)) = some (.flt (.mat Y), rec) ∧
            List.Forall₂ (fun y x => ∀ c, Decisive (seqForward ext ls x) (List.zipWith (· + ·)
              (outputBound (fileExact fs (recExact ext rs x)) (fileBound fs (recExact ext rs x) (recBound T rs)))
              (drift F.product.fl fs (denseLayers ls) (recExact ext rs x) ((recExact ext rs x).map (fun _ => 0)))) c →
              Predicts y c) Y B := by
  obtain ⟨s, z, rs, fs, a1, -, a3, a4, a5, N, n1, n2⟩ :=
    C97_accuracy ext F h1 h2 h3 K cfg X ls n hm hq δ ha hs ht hsl htl hlip g h hg bs hbs
  refine ⟨s, z, rs, fs, a1, a3, a4, a5, N, n1, fun B T hB hT hx => ?_⟩
  obtain ⟨Y, rec, e1, e2⟩ := n2 B T hB hT hx
  exact ⟨Y, rec, e1, e2.imp (fun y x hw c hc => predicts hw hc)⟩

/-- **C101 (TFLite).**  A fully quantized TFLite model, converted and run by the engine in float64, predicts for every sample
of a batch the class the model predicts in real arithmetic, if that class wins by more than the error bounds of C100. -/
theorem C101_tflite (ext cext ideal : Ext) (ls lt δ : ℚ) (hls : 0 ≤ ls) (hlt : 0 ≤ lt)
    (hsig : ∀ a b, |ideal.sigmoid a - ideal.sigmoid b| ≤ ls * |a - b|)
    (htanh : ∀ a b, |ideal.tanh a - ideal.tanh b| ≤ lt * |a - b|) (hce : Approximates δ cext ideal)
    (en : Tflite2Json.Enums) (ip : Tflite2Json.Interp) (m : Tflite2Json.TModel) (hi : Interprets ip m) (s : ℚ) (z : ℤ)
    (fs : List FileOp) (hm : TfliteNet en ip m ideal ls lt δ s z fs) (n : ℕ) (hfit : fileFits (s, z) fs n) (net : NetJ)
    (h : Tflite2Json.convert cext en ip m Fmt.f64.int8Table = some net) :
    ∃ N, Fmt.f64.load net = some N ∧ ∀ B : List (List ℚ), B ≠ [] → (∀ x ∈ B, x.length = n) →
      ∃ Y rec, Fmt.f64.infer ext N (.flt (.mat B)) = some (.flt (.mat Y), rec) ∧
        List.Forall₂ (fun y x => ∀ c,
          Decisive (fileExact fs x) (outputBound (fileExact fs x) (fileBound fs x (inputBound s z x))) c → Predicts y c) Y B := by
  obtain ⟨N, n1, -, n3⟩ :=
    C100_accuracy ext cext ideal ls lt δ hls hlt hsig htanh hce en ip m hi s z fs hm n hfit net h
  refine ⟨N, n1, fun B hB hn => ?_⟩
  obtain ⟨Y, rec, e1, e2⟩ := n3 B hB hn
  exact ⟨Y, rec, e1, e2.imp (fun y x hw c hc => predicts hw hc)⟩

/-- **C101 (ONNX).**  An ONNX model whose result is dequantized, converted and run by the engine in float64, predicts for
every sample of a batch the class the model predicts in real arithmetic, if that class wins by more than twice the error
bound of C98. -/
theorem C101_onnx (ext cext ideal : Ext) (ls lt δ : ℚ) (hls : 0 ≤ ls) (hlt : 0 ≤ lt)
    (hs : ∀ a b, |ideal.sigmoid a - ideal.sigmoid b| ≤ ls * |a - b|)
    (ht : ∀ a b, |ideal.tanh a - ideal.tanh b| ≤ lt * |a - b|) (he : Approximates δ ext ideal)
    (hce : Approximates δ cext ideal)
    (m : Onnx2Json.OModel) (S : ℚ) (Z : ℤ) (ops : List OnnxOp)
    (hm : List.Forall₂ (NodeMeans m) m.nodes (.quantize S Z :: ops))
    (hin : m.inputs ≠ []) (n : ℕ) (hn : 0 < n) (hf : onnxFits (.quantize S Z :: ops) none n)
    (hN : NormalScales (.quantize S Z :: ops)) (hr : onnxAfter ops (some (S, Z)) = none) :
    ∃ net s, Onnx2Json.model2json cext m Fmt.f64.uint8Table = some net ∧ Fmt.f64.load net = some s ∧
      ∀ X : List (List ℚ), X ≠ [] → (∀ x ∈ X, x.length = n) →
        ∃ Y mids, Fmt.f64.infer ext s (.flt (.mat X)) = some (.flt (.mat Y), mids) ∧
          List.Forall₂ (fun y x => ∀ c, DecisiveBy (onnxExact ideal (.quantize S Z :: ops) x)
            (onnxBound64 ideal ls lt δ (.quantize S Z :: ops) x 0) c → Predicts y c) Y X := by
  obtain ⟨net, s, h1, h2, h3⟩ := C98_accuracy ext cext ideal ls lt δ hls hlt hs ht he hce m S Z ops hm hin n hn hf hN
  refine ⟨net, s, h1, h2, fun X hX hx => ?_⟩
  obtain ⟨out, mids, e1, e2⟩ := h3 X hX hx
  rw [hr] at e2
  obtain ⟨Y, rfl, hY⟩ := e2
  exact ⟨Y, mids, e1, hY.imp (fun y x hw c hc => predicts_by hw hc)⟩

/-! ## Concrete cases

The hypotheses of `C101_dense` and `C101_recurrent` are those of `C95_accuracy` and `C97_accuracy` (see `C95Case`, `C97Case`). -/

namespace C101Case

theorem lead2 {t E : List ℚ} {a b e f : ℚ} (ht : t = [a, b]) (hE : E = [e, f]) (h : b + f + e < a) : Decisive t E 0 := by
  subst ht hE
  refine ⟨a, e, rfl, rfl, fun j b' e' hj h1 h2 => ?_⟩
  match j, hj with
  | 1, _ =>
    simp only [List.getElem?_cons_succ, List.getElem?_cons_zero, Option.some.injEq] at h1 h2
    subst h1 h2
    exact h
  | j + 2, _ => simp at h1

open C100Case in
/-- The TFLite model of C100: class 0 wins decisively at this sample, and the engine predicts it. -/
example : ∃ j N y mids, Tflite2Json.convert lib C71Case.en ip m Fmt.f64.int8Table = some j ∧ Fmt.f64.load j = some N ∧
    Fmt.f64.infer lib N (.flt (.mat [[3 / 10, -1]])) = some (.flt (.mat [y]), mids) ∧ Predicts y 0 := by
  have hc : (Tflite2Json.convert lib C71Case.en ip m Fmt.f64.int8Table).isSome := by decide +kernel
  obtain ⟨j, hj⟩ := Option.isSome_iff_exists.mp hc
  obtain ⟨N, h1, h2⟩ := C101_tflite lib lib ideal (1 / 4) (1 / 16) (1 / 2 ^ 50) (by norm_num) (by norm_num) lipschitz.1
    lipschitz.2.1 lipschitz.2.2 C71Case.en ip m interprets (1 / 2 ^ 6) 3 ops net 2 fits j hj
  obtain ⟨Y, mids, h3, h4⟩ := h2 [[3 / 10, -1]] (by simp) (by simp)
  obtain ⟨y, ys, hy, hys, rfl⟩ := List.forall₂_cons_right_iff.mp h4
  cases hys
  refine ⟨j, N, y, mids, hj, h1, h3, hy 0 ?_⟩
  have hlen : (outputBound (fileExact ops [3 / 10, -1]) (fileBound ops [3 / 10, -1] (inputBound (1 / 2 ^ 6) 3 [3 / 10, -1]))).length = 2 := by
    decide +kernel
  have hsmall : ∀ e ∈ outputBound (fileExact ops [3 / 10, -1]) (fileBound ops [3 / 10, -1] (inputBound (1 / 2 ^ 6) 3 [3 / 10, -1])),
      e ≤ 3 / 2 * (1 / 256) := by decide +kernel
  obtain ⟨e, f, hE⟩ := List.length_eq_two.mp hlen
  rw [hE] at hsmall ⊢
  have h5 := hsmall e (by simp)
  have h6 := hsmall f (by simp)
  exact lead2 (by decide +kernel) rfl (show (1 / 2 : ℚ) + f + e < 711 / 1024 by linarith)

open C98Case in
/-- The ONNX model of C98: class 1 wins decisively at (2, 2) and class 0 at (-2, 1). -/
example : ∃ net s Y mids, Onnx2Json.model2json lib C48Case.model Fmt.f64.uint8Table = some net ∧ Fmt.f64.load net = some s ∧
    Fmt.f64.infer lib s (.flt (.mat [[2, 2], [-2, 1]])) = some (.flt (.mat Y), mids) ∧
    List.Forall₂ Predicts Y [1, 0] := by
  have hl : ∀ a b : ℚ, |a / 2 - b / 2| ≤ 1 / 2 * |a - b| := by
    intro a b
    rw [show a / 2 - b / 2 = 1 / 2 * (a - b) by ring, abs_mul]
    norm_num
  obtain ⟨net, s, h1, h2, h3⟩ := C101_onnx lib lib C48Case.ext (1 / 2) (1 / 2) (1 / 2 ^ 50) (by norm_num) (by norm_num)
    (fun a b => by have := hl a b; show |a / 2 + 1 - (b / 2 + 1)| ≤ _; rwa [add_sub_add_right_eq_sub]) hl approx approx
    C48Case.model (1 / 16) 128 C85Case.ops C85Case.means (by decide) 2 (by decide) C85Case.fits normal rfl
  obtain ⟨Y, mids, h4, h5⟩ := h3 [[2, 2], [-2, 1]] (by simp) (by simp)
  have key : ∀ (t : List ℚ) (a b e : ℚ), t = [a, b] → (a + 2 * e < b → DecisiveBy t e 1) ∧ (b + 2 * e < a → DecisiveBy t e 0) := by
    rintro _ a b e rfl
    refine ⟨fun h => ⟨b, rfl, fun j c hj hc => ?_⟩, fun h => ⟨a, rfl, fun j c hj hc => ?_⟩⟩
    · match j, hj with
      | 0, _ => simp only [List.getElem?_cons_zero, Option.some.injEq] at hc; subst hc; exact h
      | j + 2, _ => simp at hc
    · match j, hj with
      | 1, _ =>
        simp only [List.getElem?_cons_succ, List.getElem?_cons_zero, Option.some.injEq] at hc
        subst hc; exact h
      | j + 2, _ => simp at hc
  refine ⟨net, s, Y, mids, h1, h2, h4, ?_⟩
  cases h5 with
  | cons a b =>
    cases b with
    | cons b c =>
      cases c
      refine .cons (a 1 ((key _ (1 / 2) (25 / 16) _ (by decide +kernel)).1 (by decide +kernel)))
        (.cons (b 0 ((key _ (3 / 4) (17 / 32) _ (by decide +kernel)).2 (by decide +kernel))) .nil)

end C101Case

end Verif
