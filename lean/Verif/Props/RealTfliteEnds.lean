import Verif.Props.RealSoftmax

/-!
# Properties C111 and C112 for TFLite models with int8 inputs or outputs
-/

namespace Verif
open Spec Keras

open RealFiles RealClasses RealSoftmax RealOnnx FloatEnds Losses Accuracy Tflite2Json RealTflite

/-- **C111 (TFLite models with int8 outputs).**  A TFLite model of fully connected, tanh, logistic and ReLU operators, behind a
quantize operator or an int8 input: the network answers with codes that stand for the real outputs up to the bound. -/
theorem C111_tflite_codes (ext cext : Ext) (δ : ℚ) (hce : Accurate δ cext)
    (en : Enums) (ip : Interp) (m : TModel) (hi : Interprets ip m) (hout : m.outputs ≠ []) (i o : ℕ) (s : ℚ) (z : ℤ)
    (ops : List TOp) (hne : ops ≠ []) (rs : List RealOp) (hb : TfliteBegins en m i ops) (hx : Int8Tensor en m i s z)
    (hc : TfliteRealChain en ip m δ ops i o rs) (n : ℕ) (hfit : realFits (s, z) rs n) (net : NetJ)
    (h : convert cext en ip m Fmt.f64.int8Table = some net) :
    ∃ N, Fmt.f64.load net = some N ∧
      (∀ x : List ℚ, x.length = n → ∃ y rec, Fmt.f64.infer ext N (.flt (.vec x)) = some (.int (.vec y), rec) ∧
        RealAnswer s z rs y x) ∧
      ∀ X : List (List ℚ), X ≠ [] → (∀ x ∈ X, x.length = n) →
        ∃ Y rec, Fmt.f64.infer ext N (.flt (.mat X)) = some (.int (.mat Y), rec) ∧
          List.Forall₂ (fun y x => RealAnswer s z rs y x) Y X := by
  have hl := chain_lip hc
  obtain ⟨N, hN, hv, hb⟩ := collect (ext := ext) (net := net) (n := n)
    (K := fun η fs (y : List ℤ) x => List.Forall₂ (OpClose η) fs rs ∧
      CodesFor (fileLast (s, z) fs) y (fileExact fs x) (fileBound fs x (inputBound s z x)))
    (fun y => .int (.vec y)) (fun Y => .int (.mat Y)) (fun a b e => by injection e with e; injection e)
    (fun a b e => by injection e with e; injection e) (fun η hη => by
      obtain ⟨ideal, i1, i2, i3⟩ := exists_ideal η hη
      obtain ⟨fs, c1, c2⟩ := chain_close hη.le i1 i2 i3 hc
      obtain ⟨N, h1, h2, h3⟩ := C103_tflite_codes ext cext ideal (1 / 4) 1 (δ + η) (by norm_num) (by norm_num) i2 i3
        (approximates hce i1) en ip m hi hout i o s z ops hne fs hb hx c1 n (fits_of_close c2 hl _ _ hfit) net h
      exact ⟨fs, N, h1, fun x hx => by obtain ⟨y, rec, a, b⟩ := h2 x hx; exact ⟨y, rec, a, c2, b⟩,
        fun X hX hX' => by obtain ⟨Y, rec, a, b⟩ := h3 X hX hX'; exact ⟨Y, rec, a, b.imp (fun _ _ h => ⟨c2, h⟩)⟩⟩)
  refine ⟨N, hN, fun x hx => ?_, fun X hX hX' => ?_⟩
  · obtain ⟨y, rec, a, b⟩ := hv x hx
    exact ⟨y, rec, a, codes_limit rs hl s z x y b⟩
  · obtain ⟨Y, rec, a, b⟩ := hb X hX hX'
    exact ⟨Y, rec, a, b.imp (fun y x h => codes_limit rs hl s z x y h)⟩

/-- **C111 (TFLite models with dequantized outputs).**  The same if the model ends with a dequantize operator: numbers within the
bound of the real outputs. -/
theorem C111_tflite_numbers (ext cext : Ext) (δ : ℚ) (hce : Accurate δ cext)
    (en : Enums) (ip : Interp) (m : TModel) (hi : Interprets ip m) (hout : m.outputs ≠ []) (i o : ℕ) (s : ℚ) (z : ℤ)
    (ops : List TOp) (hne : ops ≠ []) (d : TOp) (rs : List RealOp) (hb : TfliteBegins en m i (ops ++ [d]))
    (hx : Int8Tensor en m i s z) (hc : TfliteRealChain en ip m δ ops i o rs) (hd : IsOp en m d "DEQUANTIZE")
    (hdi : d.inputs = [o]) (n : ℕ) (hfit : realFits (s, z) rs n) (net : NetJ)
    (h : convert cext en ip m Fmt.f64.int8Table = some net) :
    ∃ N, Fmt.f64.load net = some N ∧
      (∀ x : List ℚ, x.length = n → ∃ y rec, Fmt.f64.infer ext N (.flt (.vec x)) = some (.flt (.vec y), rec) ∧
        RealNumbers s z rs y x) ∧
      ∀ X : List (List ℚ), X ≠ [] → (∀ x ∈ X, x.length = n) →
        ∃ Y rec, Fmt.f64.infer ext N (.flt (.mat X)) = some (.flt (.mat Y), rec) ∧
          List.Forall₂ (fun y x => RealNumbers s z rs y x) Y X := by
  have hl := chain_lip hc
  obtain ⟨N, hN, hv, hb⟩ := collect (ext := ext) (net := net) (n := n)
    (K := fun η fs (y : List ℚ) x => List.Forall₂ (OpClose η) fs rs ∧
      Within y (fileExact fs x) (outputBound (fileExact fs x) (fileBound fs x (inputBound s z x))))
    (fun y => .flt (.vec y)) (fun Y => .flt (.mat Y)) (fun a b e => by injection e with e; injection e)
    (fun a b e => by injection e with e; injection e) (fun η hη => by
      obtain ⟨ideal, i1, i2, i3⟩ := exists_ideal η hη
      obtain ⟨fs, c1, c2⟩ := chain_close hη.le i1 i2 i3 hc
      obtain ⟨N, h1, h2, h3⟩ := C103_tflite_numbers ext cext ideal (1 / 4) 1 (δ + η) (by norm_num) (by norm_num) i2 i3
        (approximates hce i1) en ip m hi hout i o s z ops hne d fs hb hx c1 hd hdi n (fits_of_close c2 hl _ _ hfit) net h
      exact ⟨fs, N, h1, fun x hx => by obtain ⟨y, rec, a, b⟩ := h2 x hx; exact ⟨y, rec, a, c2, b⟩,
        fun X hX hX' => by obtain ⟨Y, rec, a, b⟩ := h3 X hX hX'; exact ⟨Y, rec, a, b.imp (fun _ _ h => ⟨c2, h⟩)⟩⟩)
  refine ⟨N, hN, fun x hx => ?_, fun X hX hX' => ?_⟩
  · obtain ⟨y, rec, a, b⟩ := hv x hx
    exact ⟨y, rec, a, file_limit rs hl s z x y b⟩
  · obtain ⟨Y, rec, a, b⟩ := hb X hX hX'
    exact ⟨Y, rec, a, b.imp (fun y x h => file_limit rs hl s z x y h)⟩

/-- **C112 (TFLite models with int8 outputs).**  Where a class wins over the real numbers by more than the errors, its code is the
largest one. -/
theorem C112_tflite_codes (ext cext : Ext) (δ : ℚ) (hce : Accurate δ cext)
    (en : Enums) (ip : Interp) (m : TModel) (hi : Interprets ip m) (hout : m.outputs ≠ []) (i o : ℕ) (s : ℚ) (z : ℤ)
    (ops : List TOp) (hne : ops ≠ []) (rs : List RealOp) (hb : TfliteBegins en m i ops) (hx : Int8Tensor en m i s z)
    (hc : TfliteRealChain en ip m δ ops i o rs) (n : ℕ) (hfit : realFits (s, z) rs n) (net : NetJ)
    (h : convert cext en ip m Fmt.f64.int8Table = some net) :
    ∃ N, Fmt.f64.load net = some N ∧
      (∀ x : List ℚ, x.length = n → ∃ y rec, Fmt.f64.infer ext N (.flt (.vec x)) = some (.int (.vec y), rec) ∧
        CodesDecide y (realFile rs (x.map (↑))) (realBound rs (x.map (↑)) ((inputBound s z x).map (↑)))) ∧
      ∀ X : List (List ℚ), X ≠ [] → (∀ x ∈ X, x.length = n) →
        ∃ Y rec, Fmt.f64.infer ext N (.flt (.mat X)) = some (.int (.mat Y), rec) ∧
          List.Forall₂ (fun (y : List ℤ) (x : List ℚ) =>
            CodesDecide y (realFile rs (x.map (↑))) (realBound rs (x.map (↑)) ((inputBound s z x).map (↑)))) Y X := by
  have hs : 0 < s := by obtain ⟨_, _, _, _, p, _⟩ := hx.1; exact p
  have hp := last_pos (p := (s, z)) hs hfit (fun f L τ sx zx so zo hR => chain_steps hc hR)
  obtain ⟨N, h1, h2, h3⟩ := C111_tflite_codes ext cext δ hce en ip m hi hout i o s z ops hne rs hb hx hc n hfit net h
  refine ⟨N, h1, fun x hx => ?_, fun X hX hX' => ?_⟩
  · obtain ⟨y, rec, a, b⟩ := h2 x hx
    exact ⟨y, rec, a, codes_decide hp b⟩
  · obtain ⟨Y, rec, a, b⟩ := h3 X hX hX'
    exact ⟨Y, rec, a, b.imp (fun _ _ h => codes_decide hp h)⟩

/-- **C112 (TFLite models with dequantized outputs).** -/
theorem C112_tflite_numbers (ext cext : Ext) (δ : ℚ) (hce : Accurate δ cext)
    (en : Enums) (ip : Interp) (m : TModel) (hi : Interprets ip m) (hout : m.outputs ≠ []) (i o : ℕ) (s : ℚ) (z : ℤ)
    (ops : List TOp) (hne : ops ≠ []) (d : TOp) (rs : List RealOp) (hb : TfliteBegins en m i (ops ++ [d]))
    (hx : Int8Tensor en m i s z) (hc : TfliteRealChain en ip m δ ops i o rs) (hd : IsOp en m d "DEQUANTIZE")
    (hdi : d.inputs = [o]) (n : ℕ) (hfit : realFits (s, z) rs n) (net : NetJ)
    (h : convert cext en ip m Fmt.f64.int8Table = some net) :
    ∃ N, Fmt.f64.load net = some N ∧
      (∀ x : List ℚ, x.length = n → ∃ y rec, Fmt.f64.infer ext N (.flt (.vec x)) = some (.flt (.vec y), rec) ∧
        Decides y (realFile rs (x.map (↑)))
          (realOutputBound (realFile rs (x.map (↑))) (realBound rs (x.map (↑)) ((inputBound s z x).map (↑))))) ∧
      ∀ X : List (List ℚ), X ≠ [] → (∀ x ∈ X, x.length = n) →
        ∃ Y rec, Fmt.f64.infer ext N (.flt (.mat X)) = some (.flt (.mat Y), rec) ∧
          List.Forall₂ (fun (y x : List ℚ) => Decides y (realFile rs (x.map (↑)))
            (realOutputBound (realFile rs (x.map (↑))) (realBound rs (x.map (↑)) ((inputBound s z x).map (↑))))) Y X := by
  obtain ⟨N, h1, h2, h3⟩ := C111_tflite_numbers ext cext δ hce en ip m hi hout i o s z ops hne d rs hb hx hc hd hdi n hfit net h
  refine ⟨N, h1, fun x hx => ?_, fun X hX hX' => ?_⟩
  · obtain ⟨y, rec, a, b⟩ := h2 x hx
    exact ⟨y, rec, a, decides b⟩
  · obtain ⟨Y, rec, a, b⟩ := h3 X hX hX'
    exact ⟨Y, rec, a, b.imp (fun _ _ h => decides h)⟩

namespace RealTfliteEndsCase
open C108Case
open C71Case (en members types)

/-- The model of C108's example with an int8 input and an int8 output: a single logistic operator. -/
def bare : TModel := { m with operators := [⟨1, [1], [2], .none⟩], inputs := [1], outputs := [2] }

/-- The same model with a dequantize operator at its end. -/
def half : TModel := { m with operators := [⟨1, [1], [2], .none⟩, ⟨2, [2], [3], .none⟩], inputs := [1] }

theorem tensors : Int8Tensor en m 1 (1 / 2 ^ 6) 3 ∧ Int8Tensor en m 2 (1 / 2 ^ 8) (-128) :=
  ⟨int8 1 _ rfl rfl 6 (by norm_num) 3 (by norm_num) (by unfold Code; norm_num),
    int8 2 _ rfl rfl 8 (by norm_num) (-128) (by norm_num) (by unfold Code; norm_num)⟩

theorem bare_chain : TfliteBegins en bare 1 bare.operators ∧ Int8Tensor en bare 1 (1 / 2 ^ 6) 3 ∧
    TfliteRealChain en ip bare (1 / 2 ^ 50) bare.operators 1 2 rs := by
  have h1 : Int8Tensor en bare 1 (1 / 2 ^ 6) 3 := tensors.1
  have h2 : Int8Tensor en bare 2 (1 / 2 ^ 8) (-128) := tensors.2
  refine ⟨.inr ⟨rfl, rfl⟩, h1, .cons (.logistic ⟨14, rfl, ?_⟩ rfl rfl h1 h2) (.nil 2)⟩
  unfold Spec.Member
  decide +kernel

theorem half_chain : TfliteBegins en half 1 ([⟨1, [1], [2], .none⟩] ++ [⟨2, [2], [3], .none⟩]) ∧ Int8Tensor en half 1 (1 / 2 ^ 6) 3 ∧
    TfliteRealChain en ip half (1 / 2 ^ 50) [⟨1, [1], [2], .none⟩] 1 2 rs := by
  have h1 : Int8Tensor en half 1 (1 / 2 ^ 6) 3 := tensors.1
  have h2 : Int8Tensor en half 2 (1 / 2 ^ 8) (-128) := tensors.2
  refine ⟨.inr ⟨rfl, rfl⟩, h1, .cons (.logistic ⟨14, rfl, ?_⟩ rfl rfl h1 h2) (.nil 2)⟩
  unfold Spec.Member
  decide +kernel

theorem converts_of (M : TModel)
    (h : (convert ⟨fun _ => 0, fun _ => 0, fun _ => 0⟩ en ip M Fmt.f64.int8Table).isSome) (lib : Ext) :
    ∃ net, convert lib en ip M Fmt.f64.int8Table = some net := by
  rw [← Option.isSome_iff_exists, convert_isSome_of TfliteF64.table_len lib ⟨fun _ => 0, fun _ => 0, fun _ => 0⟩]
  exact h

/-- With int8 output the network answers with the code of a number within 1/100 of the sigmoid. -/
example (lib : Ext) (hlib : Accurate (1 / 2 ^ 50) lib) : ∃ j N, convert lib en ip bare Fmt.f64.int8Table = some j ∧
    Fmt.f64.load j = some N ∧ ∀ x : List ℚ, x.length = 1 → ∃ y rec,
      Fmt.f64.infer lib N (.flt (.vec x)) = some (.int (.vec y), rec) ∧ RealAnswer (1 / 2 ^ 6) 3 rs y x := by
  obtain ⟨j, hj⟩ := converts_of bare (by decide +kernel) lib
  obtain ⟨N, h1, h2, -⟩ := C111_tflite_codes lib lib (1 / 2 ^ 50) hlib en ip bare ⟨interprets.1, interprets.2, interprets.3⟩
    (by decide) 1 2 (1 / 2 ^ 6) 3 _ (by decide) rs bare_chain.1 bare_chain.2.1 bare_chain.2.2 1 fits j hj
  exact ⟨j, N, hj, h1, h2⟩

/-- With a dequantize operator the network answers with numbers. -/
example (lib : Ext) (hlib : Accurate (1 / 2 ^ 50) lib) : ∃ j N, convert lib en ip half Fmt.f64.int8Table = some j ∧
    Fmt.f64.load j = some N ∧ ∀ x : List ℚ, x.length = 1 → ∃ y rec,
      Fmt.f64.infer lib N (.flt (.vec x)) = some (.flt (.vec y), rec) ∧ RealNumbers (1 / 2 ^ 6) 3 rs y x := by
  obtain ⟨j, hj⟩ := converts_of half (by decide +kernel) lib
  obtain ⟨N, h1, h2, -⟩ := C111_tflite_numbers lib lib (1 / 2 ^ 50) hlib en ip half ⟨interprets.1, interprets.2, interprets.3⟩
    (by decide) 1 2 (1 / 2 ^ 6) 3 _ (by decide) _ rs half_chain.1 half_chain.2.1 half_chain.2.2
    ⟨6, rfl, members (6, "DEQUANTIZE") (by simp)⟩ rfl 1 fits j hj
  exact ⟨j, N, hj, h1, h2⟩

end RealTfliteEndsCase

end Verif
