import Verif.Props.SoftmaxHead

/-!
# Property C106: networks with TANH, LOGISTIC and RELU operators that have no table
-/

namespace Verif
open Spec Tflite2Json

namespace Spec

/-- What an operator of a file stands for in an engine whose functions are those of `ext`, within `δ` of `ideal`: the operators
of C92 (fully connected, tables, ReLU), and TANH and LOGISTIC operators without table.  The latter write codes with step 1/128
and zero point 0, and step 1/256 and zero point -128, whatever the file says. -/
inductive EngineMeans (ext ideal : Ext) (δ : ℚ) : OpJ → FileOp → Prop
  | file {op : OpJ} {f : FileOp} (h : FileMeans op f) : EngineMeans ext ideal δ op f
  | tanh {op : OpJ} {i : NodeJ} {rest : List NodeJ} {sx L : ℚ} {zx : ℤ} (ht : op.opType = "TANH") (hin : op.inputs = i :: rest)
      (hi : HasParams i sx zx) (hsx : 0 < sx) (hfl : IsFloat 53 (-1074) sx) (hzx : Code (-128) 127 zx)
      (happ : ∀ a, |ext.tanh a - ideal.tanh a| ≤ δ) :
      EngineMeans ext ideal δ op (.act ideal.tanh L (1 / 128 * (1 / 2 + 1 / 2 ^ 40) + (L * (sx / 2 ^ 40) + δ)) sx zx (1 / 128) 0)
  | logistic {op : OpJ} {i : NodeJ} {rest : List NodeJ} {sx L : ℚ} {zx : ℤ} (ht : op.opType = "LOGISTIC")
      (hin : op.inputs = i :: rest) (hi : HasParams i sx zx) (hsx : 0 < sx) (hfl : IsFloat 53 (-1074) sx) (hzx : Code (-128) 127 zx)
      (happ : ∀ a, |ext.sigmoid a - ideal.sigmoid a| ≤ δ) :
      EngineMeans ext ideal δ op
        (.act ideal.sigmoid L (1 / 256 * (1 / 2 + 1 / 2 ^ 40) + (L * (sx / 2 ^ 40) + δ)) sx zx (1 / 256) (-128))

end Spec

namespace FloatActs
open FloatEngine Accuracy FloatEnds TfliteF64

theorem step {ext ideal : Ext} {δ : ℚ} {op : OpJ} {f : FileOp} (h : EngineMeans ext ideal δ op f) (n : ℕ) (hf : f.Fits n) :
    StepOk ext op f n := by
  cases h with
  | file h => exact op_step ext h hf
  | @tanh i rest sx L zx ht hin hi hsx hfl hzx happ =>
    refine map_step ext (lay := .tanh zx sx) ?_ (fun x => rfl) hf (fun q hq => ?_)
    · have hk' : layerKind op.opType = some .tanh := by rw [ht]; decide +kernel
      unfold Fmt.buildLayer Verif.buildLayer
      rw [hk']
      simp only [firstInputParams, hin, List.getElem?_cons_zero, hi.1, hi.2, Option.bind_eq_bind, Option.bind_some, Option.map_some]
    · exact entry_near hf.2.1 hf.2.2.1 happ hsx hfl (by norm_num) hzx hf.2.2.2 hq
  | @logistic i rest sx L zx ht hin hi hsx hfl hzx happ =>
    refine map_step ext (lay := .sigmoid zx sx) ?_ (fun x => rfl) hf (fun q hq => ?_)
    · have hk' : layerKind op.opType = some .sigmoid := by rw [ht]; decide +kernel
      unfold Fmt.buildLayer Verif.buildLayer
      rw [hk']
      simp only [firstInputParams, hin, List.getElem?_cons_zero, hi.1, hi.2, Option.bind_eq_bind, Option.bind_some, Option.map_some]
    · exact entry_near hf.2.1 hf.2.2.1 happ hsx hfl (by norm_num) hzx hf.2.2.2 hq

end FloatActs

open FloatActs FloatEngine Accuracy FloatEnds

/-- **C106 (codes).**  A network file of fully connected, table, ReLU, TANH and LOGISTIC operators that fit together, with or
without a quantize operator in front, loads in the engine, and in float64 the codes it answers every sample and every non-empty
batch with stand for the exact outputs within the accumulated bound. -/
theorem C106_codes (ext ideal : Ext) (δ : ℚ) (net : NetJ) (s : ℚ) (z : ℤ) (ops : List OpJ) (fs : List FileOp)
    (heng : upper net.engine = "TFLITE".toList) (hout : ∃ o, net.output[0]? = some (some o)) (hopen : Opens net s z ops)
    (hops : List.Forall₂ (EngineMeans ext ideal δ) ops fs) (hs : 0 < s) (hz : Code (-128) 127 z) (n : ℕ)
    (hfit : fileFits (s, z) fs n) :
    ∃ N, Fmt.f64.load net = some N ∧
      (∀ x : List ℚ, x.length = n → ∃ y rec, Fmt.f64.infer ext N (.flt (.vec x)) = some (.int (.vec y), rec) ∧
        CodesFor (fileLast (s, z) fs) y (fileExact fs x) (fileBound fs x (inputBound s z x))) ∧
      ∀ X : List (List ℚ), X ≠ [] → (∀ x ∈ X, x.length = n) →
        ∃ Y rec, Fmt.f64.infer ext N (.flt (.mat X)) = some (.int (.mat Y), rec) ∧
          List.Forall₂ (fun y x =>
            CodesFor (fileLast (s, z) fs) y (fileExact fs x) (fileBound fs x (inputBound s z x))) Y X :=
  codes_of ext net s z ops fs heng hout hopen (hops.imp (fun _ _ h n hf => step h n hf)) hs hz n hfit

/-- **C106 (numbers).**  With a dequantize operator at the end the answers are numbers within the accumulated bound of the exact
outputs, and the class of the largest number is that of the largest exact output if it wins by more than the bounds. -/
theorem C106_numbers (ext ideal : Ext) (δ : ℚ) (net : NetJ) (s : ℚ) (z : ℤ) (ops : List OpJ) (d : OpJ) (fs : List FileOp)
    (heng : upper net.engine = "TFLITE".toList) (hout : ∃ o, net.output[0]? = some (some o))
    (hopen : Opens net s z (ops ++ [d])) (hops : List.Forall₂ (EngineMeans ext ideal δ) ops fs)
    (hd : IsDequantize d (fileLast (s, z) fs)) (hs : 0 < s) (hz : Code (-128) 127 z) (n : ℕ) (hfit : fileFits (s, z) fs n)
    (hlast : IsFloat 53 (-1074) (fileLast (s, z) fs).1) :
    ∃ N, Fmt.f64.load net = some N ∧
      (∀ x : List ℚ, x.length = n → ∃ y rec, Fmt.f64.infer ext N (.flt (.vec x)) = some (.flt (.vec y), rec) ∧
        Within y (fileExact fs x) (outputBound (fileExact fs x) (fileBound fs x (inputBound s z x))) ∧
        ∀ c, Decisive (fileExact fs x) (outputBound (fileExact fs x) (fileBound fs x (inputBound s z x))) c → Predicts y c) ∧
      ∀ X : List (List ℚ), X ≠ [] → (∀ x ∈ X, x.length = n) →
        ∃ Y rec, Fmt.f64.infer ext N (.flt (.mat X)) = some (.flt (.mat Y), rec) ∧
          List.Forall₂ (fun y x =>
            Within y (fileExact fs x) (outputBound (fileExact fs x) (fileBound fs x (inputBound s z x))) ∧
            ∀ c, Decisive (fileExact fs x) (outputBound (fileExact fs x) (fileBound fs x (inputBound s z x))) c → Predicts y c) Y X := by
  obtain ⟨hd1, i, rest, hdi, hi, hi8⟩ := hd
  obtain ⟨N, h1, h2, h3⟩ := numbers_of ext net s z ops d fs heng hout hopen (hops.imp (fun _ _ h n hf => step h n hf)) hd1 i rest hdi
    hi hi8 hs hz n hfit hlast
  refine ⟨N, h1, fun x hx => ?_, fun X hX hlen => ?_⟩
  · obtain ⟨y, rec, e1, e2⟩ := h2 x hx
    exact ⟨y, rec, e1, e2, fun c hc => Classes.predicts e2 hc⟩
  · obtain ⟨Y, rec, e1, e2⟩ := h3 X hX hlen
    exact ⟨Y, rec, e1, e2.imp (fun y x h => ⟨h, fun c hc => Classes.predicts h hc⟩)⟩

namespace C106Case
open C92Case (node qOp int8)

def fcOp : OpJ :=
  ⟨"FULLY_CONNECTED", "Dense",
    [node (1 / 64) 5, ⟨some (1 / 16), some 0, some ⟨some (.mat [[64, -128], [127, 3]]), [2, 2], "int8"⟩, none⟩,
      ⟨none, none, some ⟨some (.vec [100, -200]), [2], "int32"⟩, none⟩], [node (1 / 8) 0], none⟩

def reluOp : OpJ := ⟨"RELU", "Relu", [node (1 / 8) 0], [node (1 / 4) 0], none⟩

def tanhOp : OpJ := ⟨"TANH", "Tanh", [node (1 / 4) 0], [node (1 / 128) 0], none⟩

def logisticOp : OpJ := ⟨"LOGISTIC", "Logistic", [node (1 / 128) 0], [node (1 / 256) (-128)], none⟩

def dOp : OpJ := ⟨"DEQUANTIZE", "Dequantize", [node (1 / 256) (-128)], [node 1 0], none⟩

/-- quantize → dense → ReLU → tanh → logistic → dequantize. -/
def net : NetJ := ⟨"TFLITE", 6, [qOp, fcOp, reluOp, tanhOp, logisticOp, dOp], [some (node 1 0)], [some (node 1 0)]⟩

/-- Stand-ins for the functions, and an engine that is slightly off. -/
def ideal : Ext := ⟨fun x => x / 64, fun x => 1 / 2 + x / 4, id⟩

def lib : Ext := ⟨fun x => x / 64 + 1 / 2 ^ 50, fun x => 1 / 2 + x / 4, id⟩

def ops : List FileOp :=
  [.dense (1 / 64) 5 (1 / 16) 0 [[64, -128], [127, 3]] [100, -200] (1 / 8) 0 id,
   .act (fun v => max 0 v + 1 / 8 * ((0 : ℤ) - (0 : ℤ))) 1 (1 / 4 * (1 + 1 / 2 ^ 40)) (1 / 8) 0 (1 / 4) 0,
   .act ideal.tanh (1 / 64) (1 / 128 * (1 / 2 + 1 / 2 ^ 40) + (1 / 64 * ((1 / 4) / 2 ^ 40) + 1 / 2 ^ 50)) (1 / 4) 0 (1 / 128) 0,
   .act ideal.sigmoid (1 / 4) (1 / 256 * (1 / 2 + 1 / 2 ^ 40) + (1 / 4 * ((1 / 128) / 2 ^ 40) + 1 / 2 ^ 50)) (1 / 128) 0 (1 / 256) (-128)]

theorem tiny {q : ℚ} (h : 1 / 2 ^ 20 ≤ q) : (2 : ℚ) ^ (-1022 : ℤ) ≤ q := by
  refine le_trans (zpow_le_zpow_right₀ (by norm_num) (show (-1022 : ℤ) ≤ -20 by norm_num)) (le_trans (le_of_eq ?_) h)
  rw [zpow_neg]; norm_num

theorem means : List.Forall₂ (EngineMeans lib ideal (1 / 2 ^ 50)) [fcOp, reluOp, tanhOp, logisticOp] ops := by
  refine .cons (.file (.dense rfl rfl rfl ⟨rfl, rfl⟩ ⟨rfl, rfl⟩ rfl rfl rfl rfl ⟨rfl, rfl⟩ (int8 _ _)))
    (.cons (.file ?_) (.cons ?_ (.cons ?_ .nil)))
  · exact .relu rfl rfl rfl ⟨rfl, rfl⟩ ⟨rfl, rfl⟩ (by norm_num) (tiny (by norm_num)) (by unfold Code; norm_num) (by norm_num) (by norm_num)
  · refine .tanh rfl rfl ⟨rfl, rfl⟩ (by norm_num) ⟨1, -2, by norm_num, by norm_num, by norm_num⟩ (by unfold Code; norm_num) (fun a => ?_)
    have e : lib.tanh a - ideal.tanh a = 1 / 2 ^ 50 := by simp only [lib, ideal]; ring
    rw [e, abs_of_pos (by norm_num)]
  · refine .logistic rfl rfl ⟨rfl, rfl⟩ (by norm_num) ⟨1, -7, by norm_num, by norm_num, by norm_num⟩ (by unfold Code; norm_num)
      (fun a => ?_)
    have e : lib.sigmoid a - ideal.sigmoid a = 0 := by simp only [lib, ideal]; ring
    rw [e, abs_zero]
    norm_num

theorem fits : fileFits (1 / 64, 5) ops 2 := by
  refine ⟨rfl, ⟨tiny (by norm_num), by norm_num, by norm_num, by norm_num, by unfold Code; norm_num, by unfold Code; norm_num,
    by unfold Code; norm_num, by norm_num, by simp, rfl, by decide +kernel, by decide +kernel⟩, rfl,
    ⟨by decide, by norm_num, fun a b => ?_, by unfold Code; norm_num⟩, rfl,
    ⟨by decide, by norm_num, fun a b => ?_, by unfold Code; norm_num⟩, rfl,
    ⟨by decide, by norm_num, fun a b => ?_, by unfold Code; norm_num⟩, trivial⟩
  · rw [one_mul, add_sub_add_right_eq_sub]
    refine (abs_max_sub_max_le_max _ _ _ _).trans ?_
    rw [sub_self, abs_zero]
    exact max_le (abs_nonneg _) le_rfl
  · have e : ideal.tanh a - ideal.tanh b = 1 / 64 * (a - b) := by simp only [ideal]; ring
    rw [e, abs_mul, abs_of_pos (by norm_num)]
  · have e : ideal.sigmoid a - ideal.sigmoid b = 1 / 4 * (a - b) := by simp only [ideal]; ring
    rw [e, abs_mul, abs_of_pos (by norm_num)]

/-- `C106_numbers` applies. -/
example : ∃ N, Fmt.f64.load net = some N ∧
    ∀ x : List ℚ, x.length = 2 → ∃ y rec, Fmt.f64.infer lib N (.flt (.vec x)) = some (.flt (.vec y), rec) ∧
      Within y (fileExact ops x) (outputBound (fileExact ops x) (fileBound ops x (inputBound (1 / 64) 5 x))) := by
  obtain ⟨N, h1, h2, -⟩ := C106_numbers lib ideal (1 / 2 ^ 50) net (1 / 64) 5 [fcOp, reluOp, tanhOp, logisticOp] dOp ops
    (by decide +kernel) ⟨_, rfl⟩
    (.inl ⟨qOp, node (1 / 64) 5, [], rfl, rfl, by decide +kernel, rfl, ⟨rfl, rfl⟩, int8 _ _, _, rfl⟩) means
    ⟨rfl, _, _, rfl, ⟨rfl, rfl⟩, int8 _ _⟩ (by norm_num) (by unfold Code; norm_num) 2 fits
    ⟨1, -8, by norm_num, by norm_num, by decide +kernel⟩
  exact ⟨N, h1, fun x hx => by obtain ⟨y, rec, e1, e2, -⟩ := h2 x hx; exact ⟨y, rec, e1, e2⟩⟩

/-- What it answers for two samples, next to the exact results. -/
example : ((Fmt.f64.load net).bind (fun N => Fmt.f64.infer lib N (.flt (.mat [[3 / 4, 1], [1, -1 / 4]])))).map Prod.fst =
      some (.flt (.mat [[1 / 2, 67 / 128], [67 / 128, 17 / 32]])) ∧
    [[3 / 4, 1], [1, -1 / 4]].map (fileExact ops) = [[1 / 2, 17145 / 32768], [34329 / 65536, 17369 / 32768]] := by
  decide +kernel

/-- The file without its ends. -/
def bare : NetJ := ⟨"TFLITE", 4, [fcOp, reluOp, tanhOp, logisticOp], [some (node (1 / 64) 5)], [some (node 1 0)]⟩

/-- `C106_codes` applies. -/
example : ∃ N, Fmt.f64.load bare = some N ∧
    ∀ x : List ℚ, x.length = 2 → ∃ y rec, Fmt.f64.infer lib N (.flt (.vec x)) = some (.int (.vec y), rec) ∧
      CodesFor (fileLast (1 / 64, 5) ops) y (fileExact ops x) (fileBound ops x (inputBound (1 / 64) 5 x)) := by
  obtain ⟨N, h1, h2, -⟩ := C106_codes lib ideal (1 / 2 ^ 50) bare (1 / 64) 5 _ ops (by decide +kernel) ⟨_, rfl⟩
    (.inr ⟨rfl, ⟨fcOp, rfl, by decide +kernel⟩, node (1 / 64) 5, rfl, rfl, .inl rfl⟩) means (by norm_num) (by unfold Code; norm_num) 2 fits
  exact ⟨N, h1, h2⟩

section
open C105Case (interprets)

/-- The enumerations of C71 with the ReLU. -/
def en : Enums := ⟨("RELU", 19) :: C71Case.en.ops, C71Case.en.types⟩

/-- quantize → fully connected → ReLU → dequantize, two features, two classes. -/
def m : TModel :=
  { C105Case.m with
    opcodes := [114, 9, 19, 6]
    tensors := [⟨"in", 0, 0, some [1, 2], none⟩, ⟨"q", 0, 9, some [1, 2], some ([1/64], [3])⟩,
      ⟨"w", 1, 9, some [2, 2], some ([1/128], [0])⟩, ⟨"b", 2, 2, some [2], some ([1/8192], [0])⟩,
      ⟨"fc", 0, 9, some [1, 2], some ([1/64], [5])⟩, ⟨"sm", 0, 9, some [1, 2], some ([1/32], [5])⟩,
      ⟨"out", 0, 0, some [1, 2], some ([], [])⟩] }

def fileOps : List FileOp :=
  [.dense (1 / 2 ^ 6) 3 (1 / 2 ^ 7) 0 [[100, -7], [-90, 20]] [4000, -2000] (1 / 2 ^ 6) 5 id,
   .act (fun v => max 0 v) 1 (1 / 2 ^ 5 * (1 + 1 / 2 ^ 40)) (1 / 2 ^ 6) 5 (1 / 2 ^ 5) 5]

theorem named (i : ℕ) : (m.tensors[i]?).map TTensor.name = (C105Case.m.tensors[i]?).map TTensor.name := by
  match i with
  | 0 | 1 | 2 | 3 | 4 | 5 | 6 => rfl
  | i + 7 => rfl

theorem interpreted : Interprets C105Case.ip m where
  named := by decide +kernel
  distinct := by
    intro i j t u h1 h2 h3
    have hi : i < 7 := (List.getElem?_eq_some_iff.mp h1).1
    have hj : j < 7 := (List.getElem?_eq_some_iff.mp h2).1
    have key : ∀ a < 7, ∀ b < 7, (m.tensors[a]?.map TTensor.name) = (m.tensors[b]?.map TTensor.name) → a = b := by
      decide +kernel
    exact key i hi j hj (by rw [h1, h2]; simp [h3])
  details := by
    intro nm i
    rw [interprets.details nm i]
    have := named i
    constructor
    · rintro ⟨t, h1, h2⟩
      rw [h1, Option.map_some, Option.map_eq_some_iff] at this
      obtain ⟨u, h3, h4⟩ := this
      exact ⟨u, h3, by rw [h4, h2]⟩
    · rintro ⟨t, h1, h2⟩
      rw [h1, Option.map_some] at this
      obtain ⟨u, h3, h4⟩ := Option.map_eq_some_iff.mp this.symm
      exact ⟨u, h3, by rw [h4, h2]⟩

theorem tensor8 (i : ℕ) (t : TTensor) (ht : m.tensors[i]? = some t) (hty : t.type = 9) (e : ℕ) (he : e < 100) (z : ℤ)
    (hq : t.quant = some ([1 / 2 ^ e], [z])) (hz : Code (-128) 127 z) : Int8Tensor en m i (1 / 2 ^ e) z :=
  ⟨⟨t, "INT8", ht, hq, by positivity, by rw [hty]; exact C71Case.types.1, by unfold NamesType; decide +kernel⟩,
    ⟨1, -(e : ℤ), by norm_num, by omega, by rw [zpow_neg, zpow_natCast]; simp⟩, hz⟩

theorem members : ∀ p ∈ [(114, "QUANTIZE"), (9, "FULLY_CONNECTED"), (19, "RELU"), (6, "DEQUANTIZE")], Member en.ops p.1 p.2 := by
  unfold Spec.Member
  decide +kernel

theorem tflite : TfliteNet en C105Case.ip m C100Case.ideal (1 / 4) (1 / 16) (1 / 2 ^ 50) (1 / 2 ^ 6) 3 fileOps where
  input := by decide
  output := by decide
  ops := by
    have h1 : Int8Tensor en m 1 (1 / 2 ^ 6) 3 := tensor8 1 _ rfl rfl 6 (by norm_num) 3 (by norm_num) (by unfold Code; norm_num)
    have h2 : Int8Tensor en m 2 (1 / 2 ^ 7) 0 := tensor8 2 _ rfl rfl 7 (by norm_num) 0 (by norm_num) (by unfold Code; norm_num)
    have h4 : Int8Tensor en m 4 (1 / 2 ^ 6) 5 := tensor8 4 _ rfl rfl 6 (by norm_num) 5 (by norm_num) (by unfold Code; norm_num)
    have h5 : Int8Tensor en m 5 (1 / 2 ^ 5) 5 := tensor8 5 _ rfl rfl 5 (by norm_num) 5 (by norm_num) (by unfold Code; norm_num)
    refine ⟨_, [_, _], _, 1, 5, rfl, ⟨114, rfl, members (114, "QUANTIZE") (by simp)⟩, rfl, h1, ?_,
      ⟨6, rfl, members (6, "DEQUANTIZE") (by simp)⟩, rfl⟩
    exact .cons (.dense ⟨9, rfl, members (9, "FULLY_CONNECTED") (by simp)⟩ rfl rfl h1 h2 h4 ⟨_, rfl, rfl, rfl⟩ ⟨_, rfl, rfl, rfl⟩)
      (.cons (.relu ⟨19, rfl, members (19, "RELU") (by simp)⟩ rfl rfl h4 h5 (by norm_num) (by norm_num)) (.nil 5))

theorem fileFit : fileFits (1 / 2 ^ 6, 3) fileOps 2 := by
  refine ⟨rfl, ⟨tiny (by norm_num), by norm_num, by norm_num, by norm_num, by unfold Code; norm_num, by unfold Code; norm_num,
    by unfold Code; norm_num, by norm_num, by simp, rfl, by decide +kernel, by decide +kernel⟩, rfl,
    ⟨by decide, by norm_num, fun a b => ?_, by unfold Code; norm_num⟩, trivial⟩
  rw [one_mul]
  refine (abs_max_sub_max_le_max _ _ _ _).trans ?_
  rw [sub_self, abs_zero]
  exact max_le (abs_nonneg _) le_rfl

/-- `C100_accuracy` covers a TFLite model with a ReLU operator. -/
example : ∃ j N, convert C100Case.lib en C105Case.ip m Fmt.f64.int8Table = some j ∧ Fmt.f64.load j = some N ∧
    ∀ x : List ℚ, x.length = 2 → ∃ y rec, Fmt.f64.infer C100Case.lib N (.flt (.vec x)) = some (.flt (.vec y), rec) ∧
      Within y (fileExact fileOps x) (outputBound (fileExact fileOps x) (fileBound fileOps x (inputBound (1 / 2 ^ 6) 3 x))) := by
  have hc : (convert C100Case.lib en C105Case.ip m Fmt.f64.int8Table).isSome := by decide +kernel
  obtain ⟨j, hj⟩ := Option.isSome_iff_exists.mp hc
  obtain ⟨N, h1, h2, -⟩ := C100_accuracy C100Case.lib C100Case.lib C100Case.ideal (1 / 4) (1 / 16) (1 / 2 ^ 50) (by norm_num)
    (by norm_num) C100Case.lipschitz.1 C100Case.lipschitz.2.1 C100Case.lipschitz.2.2 en C105Case.ip m interpreted (1 / 2 ^ 6) 3 fileOps
    tflite 2 fileFit j hj
  exact ⟨j, N, hj, h1, h2⟩

end

end C106Case

end Verif
