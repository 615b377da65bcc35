import Verif.Props.RealLstm
import Verif.Props.RealTflite
import Verif.Props.RealEnds

/-!
# Property C112: decisions of quantized networks are those of the real networks
-/

namespace Verif
open Spec Keras

namespace Spec

noncomputable section

/-- Given errors `E` of the real scores `t`, the class `c` wins by more than its own and the other class's error. -/
def RealDecisive (t E : List ℝ) (c : ℕ) : Prop :=
  ∃ a e, t[c]? = some a ∧ E[c]? = some e ∧
    ∀ (j : ℕ) (b e' : ℝ), j ≠ c → t[j]? = some b → E[j]? = some e' → b + e' + e < a

/-- The scores `y` decide as the real scores `t`, wherever these are clear up to the errors `E`: the class with the largest real
score has the largest score, and a score is above (below) every threshold the real score is above (below). -/
def Decides (y : List ℚ) (t E : List ℝ) : Prop :=
  y.length = t.length ∧ (∀ c, RealDecisive t E c → Predicts y c) ∧
    ∀ (j : ℕ) (v : ℚ) (a e : ℝ), y[j]? = some v → t[j]? = some a → E[j]? = some e →
      ∀ θ : ℚ, ((θ : ℝ) + e < a → θ < v) ∧ (a + e < θ → v < θ)

/-- The class with the largest real score has the largest code. -/
def CodesDecide (q : List ℤ) (t E : List ℝ) : Prop :=
  q.length = t.length ∧
    ∀ c, RealDecisive t E c → ∃ a, q[c]? = some a ∧ ∀ (j : ℕ) (b : ℤ), j ≠ c → q[j]? = some b → b < a

end

end Spec

namespace RealClasses

theorem decides {y : List ℚ} {t E : List ℝ} (h : WithinReal y t E) : Decides y t E := by
  obtain ⟨hl, h⟩ := h
  have hlen : y.length = t.length := by rw [h.length_eq, List.length_zip, hl, min_self]
  have key : ∀ (j : ℕ) (v : ℚ) (b e' : ℝ), y[j]? = some v → t[j]? = some b → E[j]? = some e' → |(v : ℝ) - b| ≤ e' := by
    intro j v b e' h1 h2 h3
    obtain ⟨i1, rfl⟩ := List.getElem?_eq_some_iff.mp h1
    obtain ⟨i2, rfl⟩ := List.getElem?_eq_some_iff.mp h2
    obtain ⟨i3, rfl⟩ := List.getElem?_eq_some_iff.mp h3
    have := (List.forall₂_iff_get.mp h).2 j i1 (by rw [List.length_zip]; exact lt_min i2 i3)
    simpa using this
  refine ⟨hlen, ?_, ?_⟩
  · rintro c ⟨a, e, ha, he, hall⟩
    have hc : c < y.length := by rw [hlen]; exact (List.getElem?_eq_some_iff.mp ha).1
    refine ⟨y[c], List.getElem?_eq_getElem hc, fun j b hj hb => ?_⟩
    have hj' : j < y.length := (List.getElem?_eq_some_iff.mp hb).1
    have h1 := key c _ a e (List.getElem?_eq_getElem hc) ha he
    have hjt : t[j]? = some (t[j]'(by omega)) := List.getElem?_eq_getElem _
    have hjE : E[j]? = some (E[j]'(by omega)) := List.getElem?_eq_getElem _
    have h2 := key j b _ _ hb hjt hjE
    have h3 := hall j _ _ hj hjt hjE
    obtain ⟨h1, -⟩ := abs_le.mp h1
    obtain ⟨-, h2⟩ := abs_le.mp h2
    have : (b : ℝ) < (y[c] : ℚ) := by linarith
    exact_mod_cast this
  · intro j v a e h1 h2 h3 θ
    obtain ⟨k1, k2⟩ := abs_le.mp (key j v a e h1 h2 h3)
    refine ⟨fun h => ?_, fun h => ?_⟩
    · have : (θ : ℝ) < v := by linarith
      exact_mod_cast this
    · have : (v : ℝ) < θ := by linarith
      exact_mod_cast this

theorem codes_decide {p : ℚ × ℤ} (hp : 0 < p.1) {q : List ℤ} {t E : List ℝ} (h : RealCodes p q t E) : CodesDecide q t E := by
  obtain ⟨hl, hc, -⟩ := decides h.2
  rw [List.length_map] at hl
  refine ⟨hl, fun c hd => ?_⟩
  obtain ⟨a, ha, hall⟩ := hc c hd
  rw [List.getElem?_map, Option.map_eq_some_iff] at ha
  obtain ⟨a, ha, rfl⟩ := ha
  refine ⟨a, ha, fun j b hj hb => ?_⟩
  have := hall j (real p.2 p.1 b) hj (by rw [List.getElem?_map, hb]; rfl)
  unfold real at this
  have := lt_of_mul_lt_mul_left this hp.le
  have : (b : ℚ) < a := by linarith
  exact_mod_cast this

theorem last_pos {rs : List RealOp} {p : ℚ × ℤ} (hp : 0 < p.1) {n : ℕ} (hf : realFits p rs n)
    (hs : ∀ f L τ sx zx so zo, RealOp.act f L τ sx zx so zo ∈ rs → 0 < so) : 0 < (realLast p rs).1 := by
  induction rs generalizing p n with
  | nil => exact hp
  | cons o os ih =>
    obtain ⟨-, h2, h3⟩ := hf
    refine ih (p := o.writes) ?_ h3 (fun f L τ sx zx so zo h => hs f L τ sx zx so zo (List.mem_cons_of_mem _ h))
    cases o with
    | dense => exact h2.2.1
    | act f L τ sx zx so zo => exact hs f L τ sx zx so zo List.mem_cons_self

end RealClasses

open RealClasses

/-- **C112 (dense Keras models).**  The quantized network decides as the Keras model over the real numbers. -/
theorem C112_dense (ext : Ext) (F : Formats) (h1 : ∀ d, Ieee (F.data d)) (h2 : ∀ d, Ieee (F.weight d)) (h3 : Ieee F.product)
    (K : FloatKeras) (cfg : Cfg) (X : Arr ℚ) (ls : List KLayer) (n : ℕ)
    (h8 : RealLayers cfg n ls) (hq : NamesType cfg.quantizeDtype "int" 8) (δ : ℚ) (ha : RealActs K.act δ ls) (g : List OpJ)
    (h : (Arith.float F K).graph cfg X ls = some g) (hg : FileFactors g) :
    ∃ s z rs, NetReal (exportJson g) s z rs ∧ ExportedReal F.product.fl δ (s, z) (denseLayers ls) rs ∧
      ∃ N, Fmt.f64.load (exportJson g) = some N ∧
        (∀ x : List ℚ, x.length = n → ∃ y rec, Fmt.f64.infer ext N (.flt (.vec x)) = some (.flt (.vec y), rec) ∧
          Decides y (realForward ls (x.map (↑))) (List.zipWith (· + ·)
            (realOutputBound (realFile rs (x.map (↑))) (realBound rs (x.map (↑)) ((inputBound s z x).map (↑))))
            (realDrift F.product.fl rs (denseLayers ls) (x.map (↑)) (x.map (fun _ => 0))))) ∧
        ∀ B : List (List ℚ), B ≠ [] → (∀ x ∈ B, x.length = n) →
          ∃ Y rec, Fmt.f64.infer ext N (.flt (.mat B)) = some (.flt (.mat Y), rec) ∧
            List.Forall₂ (fun (y x : List ℚ) => Decides y (realForward ls (x.map (↑))) (List.zipWith (· + ·)
              (realOutputBound (realFile rs (x.map (↑))) (realBound rs (x.map (↑)) ((inputBound s z x).map (↑))))
              (realDrift F.product.fl rs (denseLayers ls) (x.map (↑)) (x.map (fun _ => 0))))) Y B := by
  obtain ⟨s, z, rs, m, e, N, n1, n2, n3⟩ := C109_accuracy ext F h1 h2 h3 K cfg X ls n h8 hq δ ha g h hg
  refine ⟨s, z, rs, m, e, N, n1, fun x hx => ?_, fun B hB hB' => ?_⟩
  · obtain ⟨y, rec, a, b⟩ := n2 x hx
    exact ⟨y, rec, a, decides b⟩
  · obtain ⟨Y, rec, a, b⟩ := n3 B hB hB'
    exact ⟨Y, rec, a, b.imp (fun _ _ h => decides h)⟩

/-- **C112 (recurrent Keras models).** -/
theorem C112_recurrent (ext : Ext) (η : ℝ) (hext : ExtClose ext η) (F : Formats) (h1 : ∀ d, Ieee (F.data d))
    (h2 : ∀ d, Ieee (F.weight d)) (h3 : Ieee F.product) (K : FloatKeras) (cfg : Cfg) (X : Arr ℚ) (ls : List KLayer) (n : ℕ)
    (hm : RecurrentModel cfg n ls) (hq : NamesType cfg.quantizeDtype "int" 8) (δ : ℚ) (ha : ActsOk K.act δ ls)
    (hr : TargetsClose η ls)
    (hs : ∀ a, |K.sigmoid a - ext.sigmoid a| ≤ δ) (ht : ∀ a, |K.tanh a - ext.tanh a| ≤ δ)
    (hsl : ∀ a b, |ext.sigmoid a - ext.sigmoid b| ≤ |a - b|) (htl : ∀ a b, |ext.tanh a - ext.tanh b| ≤ |a - b|)
    (hlip : ∀ l, KLayer.dense l ∈ ls → ∀ a b, |target l a - target l b| ≤ |a - b|) (g : List OpJ)
    (h : (Arith.float F K).graph cfg X ls = some g) (hg : FileFactors g) (bs : List LstmBudget)
    (hbs : LstmPlans ext F.product.fl δ ls g bs) :
    ∃ s z rs fs, SeqNetMeans ext (exportJson g) s z rs fs ∧ rs.map (·.l) = lstmLayers ls ∧ rs.map (·.b) = bs ∧
      ∃ N, Fmt.f64.load (exportJson g) = some N ∧
        ∀ (B : List (List (List ℚ))) (T : ℕ), B ≠ [] → 0 < T →
          (∀ x ∈ B, x.length = T ∧ (∀ r ∈ x, r.length = n) ∧
            ∃ e, (∀ r ∈ x, ∀ v ∈ inputBound s z r, v ≤ e) ∧ recInRange ext e rs x) →
          ∃ Y rec, Fmt.f64.infer ext N (.flt (.cube B)) = some (.flt (.mat Y), rec) ∧
            List.Forall₂ (fun (y : List ℚ) (x : List (List ℚ)) => Decides y (realSeqForward ls (x.map (fun r => r.map (↑))))
              (List.zipWith (· + ·) ((List.zipWith (· + ·)
                (outputBound (fileExact fs (recExact ext rs x)) (fileBound fs (recExact ext rs x) (recBound T rs)))
                (drift F.product.fl fs (denseLayers ls) (recExact ext rs x) ((recExact ext rs x).map (fun _ => 0)))).map (↑))
                (seqDrift η ls x.length 0))) Y B := by
  obtain ⟨s, z, rs, fs, c1, -, c3, c4, -, N, n1, n2⟩ :=
    C110_accuracy ext η hext F h1 h2 h3 K cfg X ls n hm hq δ ha hr hs ht hsl htl hlip g h hg bs hbs
  refine ⟨s, z, rs, fs, c1, c3, c4, N, n1, fun B T hB hT hx => ?_⟩
  obtain ⟨Y, rec, a, b⟩ := n2 B T hB hT hx
  exact ⟨Y, rec, a, b.imp (fun _ _ h => decides h)⟩

/-- **C112 (network files).** -/
theorem C112_numbers (ext : Ext) (δ : ℚ) (net : NetJ) (s : ℚ) (z : ℤ) (ops : List OpJ) (d : OpJ) (rs : List RealOp)
    (heng : upper net.engine = "TFLITE".toList) (hout : ∃ o, net.output[0]? = some (some o))
    (hopen : Opens net s z (ops ++ [d])) (hops : List.Forall₂ (RealEngineMeans ext δ) ops rs) (hG : Steady rs)
    (hd : IsDequantize d (realLast (s, z) rs)) (hs : 0 < s) (hz : Code (-128) 127 z) (n : ℕ) (hfit : realFits (s, z) rs n)
    (hlast : IsFloat 53 (-1074) (realLast (s, z) rs).1) :
    ∃ N, Fmt.f64.load net = some N ∧
      (∀ x : List ℚ, x.length = n → ∃ y rec, Fmt.f64.infer ext N (.flt (.vec x)) = some (.flt (.vec y), rec) ∧
        Decides y (realFile rs (x.map (↑)))
          (realOutputBound (realFile rs (x.map (↑))) (realBound rs (x.map (↑)) ((inputBound s z x).map (↑))))) ∧
      ∀ X : List (List ℚ), X ≠ [] → (∀ x ∈ X, x.length = n) →
        ∃ Y rec, Fmt.f64.infer ext N (.flt (.mat X)) = some (.flt (.mat Y), rec) ∧
          List.Forall₂ (fun (y x : List ℚ) => Decides y (realFile rs (x.map (↑)))
            (realOutputBound (realFile rs (x.map (↑))) (realBound rs (x.map (↑)) ((inputBound s z x).map (↑))))) Y X := by
  obtain ⟨N, h1, h2, h3⟩ := C111_numbers ext δ net s z ops d rs heng hout hopen hops hG hd hs hz n hfit hlast
  refine ⟨N, h1, fun x hx => ?_, fun X hX hX' => ?_⟩
  · obtain ⟨y, rec, a, b⟩ := h2 x hx
    exact ⟨y, rec, a, decides b⟩
  · obtain ⟨Y, rec, a, b⟩ := h3 X hX hX'
    exact ⟨Y, rec, a, b.imp (fun _ _ h => decides h)⟩

/-- **C112 (codes).**  The class of the largest code is that of the largest real output. -/
theorem C112_codes (ext : Ext) (δ : ℚ) (net : NetJ) (s : ℚ) (z : ℤ) (ops : List OpJ) (rs : List RealOp)
    (heng : upper net.engine = "TFLITE".toList) (hout : ∃ o, net.output[0]? = some (some o)) (hopen : Opens net s z ops)
    (hops : List.Forall₂ (RealEngineMeans ext δ) ops rs) (hG : Steady rs) (hs : 0 < s) (hz : Code (-128) 127 z) (n : ℕ)
    (hfit : realFits (s, z) rs n) (hsteps : ∀ f L τ sx zx so zo, RealOp.act f L τ sx zx so zo ∈ rs → 0 < so) :
    ∃ N, Fmt.f64.load net = some N ∧
      (∀ x : List ℚ, x.length = n → ∃ y rec, Fmt.f64.infer ext N (.flt (.vec x)) = some (.int (.vec y), rec) ∧
        CodesDecide y (realFile rs (x.map (↑))) (realBound rs (x.map (↑)) ((inputBound s z x).map (↑)))) ∧
      ∀ X : List (List ℚ), X ≠ [] → (∀ x ∈ X, x.length = n) →
        ∃ Y rec, Fmt.f64.infer ext N (.flt (.mat X)) = some (.int (.mat Y), rec) ∧
          List.Forall₂ (fun (y : List ℤ) (x : List ℚ) => CodesDecide y (realFile rs (x.map (↑)))
            (realBound rs (x.map (↑)) ((inputBound s z x).map (↑)))) Y X := by
  have hp := last_pos hs hfit hsteps
  obtain ⟨N, h1, h2, h3⟩ := C111_codes ext δ net s z ops rs heng hout hopen hops hG hs hz n hfit
  refine ⟨N, h1, fun x hx => ?_, fun X hX hX' => ?_⟩
  · obtain ⟨y, rec, a, b⟩ := h2 x hx
    exact ⟨y, rec, a, codes_decide hp b⟩
  · obtain ⟨Y, rec, a, b⟩ := h3 X hX hX'
    exact ⟨Y, rec, a, b.imp (fun _ _ h => codes_decide hp h)⟩

open Tflite2Json in
/-- **C112 (TFLite models).** -/
theorem C112_tflite (ext cext : Ext) (δ : ℚ) (hce : Accurate δ cext)
    (en : Enums) (ip : Interp) (m : TModel) (hi : Interprets ip m) (s : ℚ) (z : ℤ) (rs : List RealOp)
    (hm : TfliteRealNet en ip m δ s z rs) (n : ℕ) (hfit : realFits (s, z) rs n) (net : NetJ)
    (h : convert cext en ip m Fmt.f64.int8Table = some net) :
    ∃ N, Fmt.f64.load net = some N ∧
      (∀ x : List ℚ, x.length = n → ∃ y rec, Fmt.f64.infer ext N (.flt (.vec x)) = some (.flt (.vec y), rec) ∧
        Decides y (realFile rs (x.map (↑)))
          (realOutputBound (realFile rs (x.map (↑))) (realBound rs (x.map (↑)) ((inputBound s z x).map (↑))))) ∧
      ∀ X : List (List ℚ), X ≠ [] → (∀ x ∈ X, x.length = n) →
        ∃ Y rec, Fmt.f64.infer ext N (.flt (.mat X)) = some (.flt (.mat Y), rec) ∧
          List.Forall₂ (fun (y x : List ℚ) => Decides y (realFile rs (x.map (↑)))
            (realOutputBound (realFile rs (x.map (↑))) (realBound rs (x.map (↑)) ((inputBound s z x).map (↑))))) Y X := by
  obtain ⟨N, h1, h2, h3⟩ := C108_tflite ext cext δ hce en ip m hi s z rs hm n hfit net h
  refine ⟨N, h1, fun x hx => ?_, fun X hX hX' => ?_⟩
  · obtain ⟨y, rec, a, b⟩ := h2 x hx
    exact ⟨y, rec, a, decides b⟩
  · obtain ⟨Y, rec, a, b⟩ := h3 X hX hX'
    exact ⟨Y, rec, a, b.imp (fun _ _ h => decides h)⟩

namespace RealClasses

theorem within_const {y : List ℚ} {t : List ℝ} {E : ℝ} (h : List.Forall₂ (fun (a : ℚ) (b : ℝ) => |(a : ℝ) - b| ≤ E) y t) :
    WithinReal y t (t.map (fun _ => E)) := by
  refine ⟨by simp, ?_⟩
  induction h with
  | nil => exact .nil
  | cons h _ ih => exact .cons h ih

end RealClasses

open Onnx2Json in
/-- **C112 (ONNX models)** that end with a dequantization: one bound for all outputs. -/
theorem C112_onnx (ext cext : Ext) (δ : ℚ) (he : Accurate δ ext) (hce : Accurate δ cext)
    (m : OModel) (S : ℚ) (Z : ℤ) (ops : List OnnxOp) (hm : List.Forall₂ (NodeMeans m) m.nodes (.quantize S Z :: ops))
    (hin : m.inputs ≠ []) (n : ℕ) (hn : 0 < n) (hf : onnxFits (.quantize S Z :: ops) none n)
    (hN : NormalScales (.quantize S Z :: ops)) (hlast : onnxAfter ops (some (S, Z)) = none) :
    ∃ net s, model2json cext m Fmt.f64.uint8Table = some net ∧ Fmt.f64.load net = some s ∧
      ∀ X : List (List ℚ), X ≠ [] → (∀ x ∈ X, x.length = n) →
        ∃ Y mids, Fmt.f64.infer ext s (.flt (.mat X)) = some (.flt (.mat Y), mids) ∧
          List.Forall₂ (fun (y x : List ℚ) => Decides y (onnxReal (.quantize S Z :: ops) (x.map (↑)))
            ((onnxReal (.quantize S Z :: ops) (x.map (↑))).map (fun _ => onnxRealBound δ (.quantize S Z :: ops) (x.map (↑)) 0))) Y X := by
  obtain ⟨net, s, h1, h2, h3⟩ := C108_onnx ext cext δ he hce m S Z ops hm hin n hn hf hN
  refine ⟨net, s, h1, h2, fun X hX hX' => ?_⟩
  obtain ⟨out, mids, h4, h5⟩ := h3 X hX hX'
  rw [hlast] at h5
  obtain ⟨Y, rfl, h5⟩ := h5
  exact ⟨Y, mids, h4, h5.imp (fun y x h => decides (within_const h))⟩

namespace C112Case
open C111Case (net bare tOp lOp dOp qOp rs means steady)
open C92Case (node int8)

theorem fits2 : realFits (1 / 64, 0) rs 2 :=
  ⟨rfl, ⟨by decide, by unfold Code; norm_num⟩, rfl, ⟨by decide, by unfold Code; norm_num⟩, trivial⟩

/-- The error at the end of one number, for an input off by `e`. -/
noncomputable def err (e : ℚ) (v : ℝ) : ℝ :=
  (((1 / 4 : ℚ)) : ℝ) * (((1 : ℚ) : ℝ) * (e : ℝ) + ((1 / 128 * (1 / 2 + 1 / 2 ^ 40) + ((1 / 64) / 2 ^ 40 + 1 / 2 ^ 50) : ℚ) : ℝ) +
      |realSaturate (1 / 128) 0 (Real.tanh v) - Real.tanh v|) +
    ((1 / 256 * (1 / 2 + 1 / 2 ^ 40) + (1 / 4 * ((1 / 128) / 2 ^ 40) + 1 / 2 ^ 50) : ℚ) : ℝ) +
    |realSaturate (1 / 256) (-128) (Real.sigmoid (Real.tanh v)) - Real.sigmoid (Real.tanh v)|

theorem err_le {e : ℚ} (he : e ≤ 8 / 1000) (v : ℝ) : err e v ≤ 1 / 50 - 1 / 1000 := by
  have he' : (e : ℝ) ≤ 8 / 1000 := by
    refine ((Rat.cast_le (K := ℝ)).mpr he).trans ?_
    norm_num
  have t0 := Real.neg_one_lt_tanh v
  have t1 := Real.tanh_lt_one v
  unfold err
  generalize Real.tanh v = t at *
  have s0 := Real.sigmoid_pos t
  have s1 := Real.sigmoid_lt_one t
  generalize Real.sigmoid t = w at *
  have c1 : |realSaturate (1 / 128) 0 t - t| ≤ 1 / 128 := by
    have e1 : real 0 (1 / 128) (-128) = -1 := by decide +kernel
    have e2 : real 0 (1 / 128) 127 = 127 / 128 := by decide +kernel
    refine C111Case.cut ?_ ?_ (by norm_num) ?_ <;> (try rw [e1]) <;> (try rw [e2])
    all_goals push_cast; linarith
  have c2 : |realSaturate (1 / 256) (-128) w - w| ≤ 1 / 256 := by
    have e1 : real (-128) (1 / 256) (-128) = 0 := by decide +kernel
    have e2 : real (-128) (1 / 256) 127 = 255 / 256 := by decide +kernel
    refine C111Case.cut ?_ ?_ (by norm_num) ?_ <;> (try rw [e1]) <;> (try rw [e2])
    all_goals push_cast; linarith
  generalize |realSaturate (1 / 128) 0 t - t| = u1 at *
  generalize |realSaturate (1 / 256) (-128) w - w| = u2 at *
  push_cast
  linarith

/-- With library functions accurate to 2⁻⁵⁰ the file of `C111Case` gives the first of two numbers the larger score whenever the real
function, sigmoid of tanh, separates them by 1/25. -/
example (lib : Ext) (hlib : Accurate (1 / 2 ^ 50) lib) : ∃ N, Fmt.f64.load net = some N ∧
    ∀ v w : ℚ, -19 / 10 ≤ v → v ≤ 19 / 10 → -19 / 10 ≤ w → w ≤ 19 / 10 →
      Real.sigmoid (Real.tanh w) + 1 / 25 < Real.sigmoid (Real.tanh v) →
      ∃ a b rec, Fmt.f64.infer lib N (.flt (.vec [v, w])) = some (.flt (.vec [a, b]), rec) ∧ b < a := by
  obtain ⟨N, h1, h2, -⟩ := C112_numbers lib (1 / 2 ^ 50) net (1 / 64) 0 [tOp, lOp] dOp rs
    (by decide +kernel) ⟨_, rfl⟩
    (.inl ⟨qOp, node (1 / 64) 0, [], rfl, rfl, by decide +kernel, rfl, ⟨rfl, rfl⟩, int8 _ _, _, rfl⟩) (means lib hlib) steady
    ⟨rfl, _, _, rfl, ⟨rfl, rfl⟩, int8 _ _⟩ (by norm_num) (by unfold Code; norm_num) 2 fits2
    ⟨1, -8, by norm_num, by norm_num, by show (1 / 256 : ℚ) = _; norm_num⟩
  refine ⟨N, h1, fun v w hv hv' hw hw' hvw => ?_⟩
  obtain ⟨y, rec, hy, hlen, hc, -⟩ := h2 [v, w] rfl
  obtain ⟨a, b, rfl⟩ : ∃ a b, y = [a, b] := by
    have : y.length = 2 := by rw [hlen]; rfl
    exact List.length_eq_two.mp this
  refine ⟨a, b, rec, hy, ?_⟩
  obtain ⟨i1, i2⟩ := C111Case.input hv hv'
  obtain ⟨j1, j2⟩ := C111Case.input hw hw'
  have hin : inputBound (1 / 64) 0 [v, w] =
      [(1 / 64) * (1 / 2 + (4 * |v / (1 / 64)| + 1) / 2 ^ 53), (1 / 64) * (1 / 2 + (4 * |w / (1 / 64)| + 1) / 2 ^ 53)] := by
    show inputBound (1 / 64) 0 [v] ++ inputBound (1 / 64) 0 [w] = _
    rw [i1, j1]; rfl
  have k1 : (1 / 64) * (1 / 2 + (4 * |v / (1 / 64)| + 1) / 2 ^ 53) ≤ 8 / 1000 := by linarith
  have k2 : (1 / 64) * (1 / 2 + (4 * |w / (1 / 64)| + 1) / 2 ^ 53) ≤ 8 / 1000 := by linarith
  rw [hin] at hc
  generalize (1 / 64) * (1 / 2 + (4 * |v / (1 / 64)| + 1) / 2 ^ 53) = e at *
  generalize (1 / 64) * (1 / 2 + (4 * |w / (1 / 64)| + 1) / 2 ^ 53) = e' at *
  have b1 := err_le k1 v
  have b2 := err_le k2 w
  have p1 := Real.sigmoid_pos (Real.tanh v)
  have p2 := Real.sigmoid_pos (Real.tanh w)
  have l1 := Real.sigmoid_lt_one (Real.tanh v)
  have l2 := Real.sigmoid_lt_one (Real.tanh w)
  obtain ⟨a', ha, hall⟩ := hc 0 ⟨Real.sigmoid (Real.tanh v), err e v + (|Real.sigmoid (Real.tanh v)| + err e v) / 2 ^ 53, rfl, rfl, by
    intro j c f hj hc hf
    match j, hj with
    | 1, _ =>
      have hc : Real.sigmoid (Real.tanh w) = c := by simpa [rs, realFile, RealOp.exact] using hc
      have hf : err e' w + (|Real.sigmoid (Real.tanh w)| + err e' w) / 2 ^ 53 = f := Option.some.inj hf
      rw [← hc, ← hf, abs_of_pos p1, abs_of_pos p2]
      linarith
    | j + 2, _ => cases hc⟩
  have h0 : a' = a := by simpa using ha.symm
  exact h0 ▸ hall 1 b (by decide) rfl

/-- `C112_codes` applies to the file without ends. -/
example (lib : Ext) (hlib : Accurate (1 / 2 ^ 50) lib) : ∃ N, Fmt.f64.load bare = some N ∧
    ∀ x : List ℚ, x.length = 2 → ∃ y rec, Fmt.f64.infer lib N (.flt (.vec x)) = some (.int (.vec y), rec) ∧
      CodesDecide y (realFile rs (x.map (↑))) (realBound rs (x.map (↑)) ((inputBound (1 / 64) 0 x).map (↑))) := by
  obtain ⟨N, h1, h2, -⟩ := C112_codes lib (1 / 2 ^ 50) bare (1 / 64) 0 [tOp, lOp] rs
    (by decide +kernel) ⟨_, rfl⟩ (.inr ⟨rfl, ⟨tOp, rfl, by decide +kernel⟩, node (1 / 64) 0, rfl, rfl, .inl rfl⟩)
    (means lib hlib) steady (by norm_num) (by unfold Code; norm_num) 2 fits2 (fun f L τ sx zx so zo h => by
      simp only [rs, List.mem_cons, RealOp.act.injEq, List.not_mem_nil, or_false] at h
      rcases h with ⟨-, -, -, -, -, rfl, -⟩ | ⟨-, -, -, -, -, rfl, -⟩ <;> norm_num)
  exact ⟨N, h1, h2⟩

end C112Case

end Verif
