import Verif.Props.RealFile
import Verif.Props.FloatActs

/-!
# Property C111: every way a network file begins, ends and computes its activations, against the real functions
-/

namespace Verif
open Spec

namespace Spec

noncomputable section

/-- What an operator of a file stands for over the real numbers in an engine whose library functions are within `δ` of the real
hyperbolic tangent and sigmoid: the operators of C108 (dense, tables, ReLU), and TANH and LOGISTIC operators without table. -/
inductive RealEngineMeans (ext : Ext) (δ : ℚ) : OpJ → RealOp → Prop
  | file {op : OpJ} {R : RealOp} (h : RealMeans op R) : RealEngineMeans ext δ op R
  | tanh {op : OpJ} {i : NodeJ} {rest : List NodeJ} {sx : ℚ} {zx : ℤ} (ht : op.opType = "TANH") (hin : op.inputs = i :: rest)
      (hi : HasParams i sx zx) (hsx : 0 < sx) (hfl : IsFloat 53 (-1074) sx) (hzx : Code (-128) 127 zx)
      (happ : ∀ a : ℚ, |(ext.tanh a : ℝ) - Real.tanh a| ≤ δ) :
      RealEngineMeans ext δ op (.act Real.tanh 1 (1 / 128 * (1 / 2 + 1 / 2 ^ 40) + (sx / 2 ^ 40 + δ)) sx zx (1 / 128) 0)
  | logistic {op : OpJ} {i : NodeJ} {rest : List NodeJ} {sx : ℚ} {zx : ℤ} (ht : op.opType = "LOGISTIC")
      (hin : op.inputs = i :: rest) (hi : HasParams i sx zx) (hsx : 0 < sx) (hfl : IsFloat 53 (-1074) sx) (hzx : Code (-128) 127 zx)
      (happ : ∀ a : ℚ, |(ext.sigmoid a : ℝ) - Real.sigmoid a| ≤ δ) :
      RealEngineMeans ext δ op
        (.act Real.sigmoid (1 / 4) (1 / 256 * (1 / 2 + 1 / 2 ^ 40) + (1 / 4 * (sx / 2 ^ 40) + δ)) sx zx (1 / 256) (-128))

/-- Int8 codes that stand for the numbers `t` within `E`, for step and zero point `p`. -/
def RealCodes (p : ℚ × ℤ) (c : List ℤ) (t E : List ℝ) : Prop :=
  (∀ q ∈ c, Code (-128) 127 q) ∧ WithinReal (c.map (real p.2 p.1)) t E

/-- The codes, and what they stand for: the real function of the operators, within the accumulated bound. -/
def RealAnswer (s : ℚ) (z : ℤ) (rs : List RealOp) (c : List ℤ) (x : List ℚ) : Prop :=
  RealCodes (realLast (s, z) rs) c (realFile rs (x.map (↑))) (realBound rs (x.map (↑)) ((inputBound s z x).map (↑)))

/-- Numbers, one rounding later. -/
def RealNumbers (s : ℚ) (z : ℤ) (rs : List RealOp) (y x : List ℚ) : Prop :=
  WithinReal y (realFile rs (x.map (↑)))
    (realOutputBound (realFile rs (x.map (↑))) (realBound rs (x.map (↑)) ((inputBound s z x).map (↑))))

end

end Spec

namespace RealFiles
open RealOnnx

theorem engine_of_real {ext : Ext} {δ : ℚ} {op : OpJ} {R : RealOp} (h : RealEngineMeans ext δ op R) (η : ℚ) (hη : 0 < η) :
    ∃ ideal f, EngineMeans ext ideal (δ + η) op f ∧ OpClose η f R := by
  have shift : ∀ τ σ : ℚ, σ = τ + η → |σ - τ| ≤ η := fun τ σ e => by rw [e, add_sub_cancel_left, abs_of_pos hη]
  have near : ∀ {f g : ℚ → ℚ} {F : ℝ → ℝ}, (∀ a : ℚ, |(f a : ℝ) - F a| ≤ δ) → (∀ a : ℚ, |(g a : ℝ) - F a| ≤ η) →
      ∀ a, |f a - g a| ≤ δ + η := fun {f g F} h1 h2 a => by
    have h3 := abs_sub_le (f a : ℝ) (F a) (g a)
    rw [abs_sub_comm (F a)] at h3
    have : |(f a : ℝ) - g a| ≤ ((δ + η : ℚ) : ℝ) := by push_cast; linarith [h1 a, h2 a]
    exact_mod_cast this
  cases h with
  | file h =>
    obtain ⟨f, a, b⟩ := means_of_real h η hη
    exact ⟨ext, f, .file a, b⟩
  | tanh ht hin hi hsx hfl hzx happ =>
    obtain ⟨ideal, hi', hs', ht'⟩ := exists_ideal η hη
    exact ⟨ideal, _, .tanh (L := 1) ht hin hi hsx hfl hzx (near happ (fun a => (hi' a).2)),
      .act _ _ _ _ _ _ _ _ _ (fun a => (hi' a).2) (shift _ _ (by ring)) ht'⟩
  | logistic ht hin hi hsx hfl hzx happ =>
    obtain ⟨ideal, hi', hs', ht'⟩ := exists_ideal η hη
    exact ⟨ideal, _, .logistic (L := 1 / 4) ht hin hi hsx hfl hzx (near happ (fun a => (hi' a).1)),
      .act _ _ _ _ _ _ _ _ _ (fun a => (hi' a).1) (shift _ _ (by ring)) hs'⟩

theorem engine_lip {ext : Ext} {δ : ℚ} {op : OpJ} {R : RealOp} (h : RealEngineMeans ext δ op R)
    (hG : ∀ sx zx sw zw W b so zo G, R = .dense sx zx sw zw W b so zo G → ∀ u v, |G u - G v| ≤ |u - v|) : Lip R := by
  cases h with
  | file h => exact lip_of_real h hG
  | tanh => exact ⟨by norm_num, fun a b => by have := RealFn.tanh_lip a b; push_cast; linarith⟩
  | logistic => exact ⟨by norm_num, fun a b => by have := RealFn.sigmoid_lip a b; push_cast; exact this⟩

theorem engine_lips {ext : Ext} {δ : ℚ} {ops : List OpJ} {rs : List RealOp}
    (h : List.Forall₂ (RealEngineMeans ext δ) ops rs) (hG : Steady rs) : ∀ R ∈ rs, Lip R := by
  intro R hR
  obtain ⟨op, -, h⟩ : ∃ op ∈ ops, RealEngineMeans ext δ op R := by
    clear hG
    induction h with
    | nil => cases hR
    | cons ho _ ih =>
      rcases List.mem_cons.mp hR with rfl | hR
      · exact ⟨_, List.mem_cons_self, ho⟩
      · obtain ⟨op, a, b⟩ := ih hR; exact ⟨op, List.mem_cons_of_mem _ a, b⟩
  refine engine_lip h (fun sx zx sw zw W b so zo G e => ?_)
  subst e
  exact hG _ _ _ _ _ _ _ _ _ hR

/-- Each operator has its own approximation of the real functions. -/
theorem engine_approx {ext : Ext} {δ : ℚ} {ops : List OpJ} {rs : List RealOp}
    (h : List.Forall₂ (RealEngineMeans ext δ) ops rs) (η : ℚ) (hη : 0 < η) :
    ∃ fs, List.Forall₂ (fun op f => ∀ n, f.Fits n → FloatEngine.StepOk ext op f n) ops fs ∧ List.Forall₂ (OpClose η) fs rs := by
  induction h with
  | nil => exact ⟨[], .nil, .nil⟩
  | cons ho _ ih =>
    obtain ⟨ideal, f, a, b⟩ := engine_of_real ho η hη
    obtain ⟨fs, a', b'⟩ := ih
    exact ⟨f :: fs, .cons (fun n hf => FloatActs.step a n hf) a', .cons b b'⟩

theorem codes_within {p : ℚ × ℤ} {c : List ℤ} {t E : List ℚ} (h : CodesFor p c t E) :
    (∀ q ∈ c, Code (-128) 127 q) ∧ Within (c.map (real p.2 p.1)) t E := by
  obtain ⟨h1, h2⟩ := h
  refine ⟨?_, h1, ?_⟩
  · intro q hq
    clear h1
    obtain ⟨i, hi, rfl⟩ := List.mem_iff_getElem.mp hq
    exact ((List.forall₂_iff_get.mp h2).2 i hi (by rw [← h2.length_eq]; exact hi)).1
  · rw [List.forall₂_map_left_iff]
    exact h2.imp (fun _ _ h => h.2)

theorem codes_limit (rs : List RealOp) (hl : ∀ R ∈ rs, Lip R) (s : ℚ) (z : ℤ) (x : List ℚ) (c : List ℤ)
    (h : ∀ η : ℚ, 0 < η → ∃ fs, List.Forall₂ (OpClose η) fs rs ∧
      CodesFor (fileLast (s, z) fs) c (fileExact fs x) (fileBound fs x (inputBound s z x))) : RealAnswer s z rs c x := by
  obtain ⟨C, hC, hs⟩ := steps rs hl
  constructor
  · obtain ⟨fs, -, hw⟩ := h 1 one_pos
    exact (codes_within hw).1
  · refine within_limit _ _ _ C hC (fun η hη => ?_)
    obtain ⟨fs, hfs, hw⟩ := h η hη
    obtain ⟨a1, a2⟩ := hs η 0 fs hη.le (le_refl _) hfs x _ _ _ (close_cast x) (close_cast (inputBound s z x))
    rw [zero_add] at a1 a2
    rw [last_close hfs] at hw
    exact ⟨_, _, (codes_within hw).2, a1, a2⟩

/-- Approximations for every `η` give a common network and common answers. -/
theorem collect {ext : Ext} {net : NetJ} {n : ℕ} {A : Type} {K : ℚ → List FileOp → A → List ℚ → Prop}
    (tv : A → Tensor) (tm : List A → Tensor) (hvi : ∀ a b, tv a = tv b → a = b) (hmi : ∀ a b, tm a = tm b → a = b)
    (main : ∀ η : ℚ, 0 < η → ∃ fs, ∃ N, Fmt.f64.load net = some N ∧
      (∀ x : List ℚ, x.length = n → ∃ y rec, Fmt.f64.infer ext N (.flt (.vec x)) = some (tv y, rec) ∧ K η fs y x) ∧
      ∀ X : List (List ℚ), X ≠ [] → (∀ x ∈ X, x.length = n) →
        ∃ Y rec, Fmt.f64.infer ext N (.flt (.mat X)) = some (tm Y, rec) ∧ List.Forall₂ (K η fs) Y X) :
    ∃ N, Fmt.f64.load net = some N ∧
      (∀ x : List ℚ, x.length = n → ∃ y rec, Fmt.f64.infer ext N (.flt (.vec x)) = some (tv y, rec) ∧
        ∀ η : ℚ, 0 < η → ∃ fs, K η fs y x) ∧
      ∀ X : List (List ℚ), X ≠ [] → (∀ x ∈ X, x.length = n) →
        ∃ Y rec, Fmt.f64.infer ext N (.flt (.mat X)) = some (tm Y, rec) ∧
          List.Forall₂ (fun y x => ∀ η : ℚ, 0 < η → ∃ fs, K η fs y x) Y X := by
  obtain ⟨f1, N, hN, hv, hb⟩ := main 1 one_pos
  refine ⟨N, hN, fun x hx => ?_, fun X hX hX' => ?_⟩
  · obtain ⟨y, rec, hy, -⟩ := hv x hx
    refine ⟨y, rec, hy, fun η hη => ?_⟩
    obtain ⟨fs, N', hN', hv', -⟩ := main η hη
    rw [hN, Option.some.injEq] at hN'
    subst hN'
    obtain ⟨y', rec', hy', hw⟩ := hv' x hx
    rw [hy, Option.some.injEq, Prod.mk.injEq] at hy'
    rw [hvi _ _ hy'.1]
    exact ⟨fs, hw⟩
  · obtain ⟨Y, rec, hY, hw1⟩ := hb X hX hX'
    refine ⟨Y, rec, hY, List.forall₂_iff_get.mpr ⟨hw1.length_eq, fun k hk hk' η hη => ?_⟩⟩
    obtain ⟨fs, N', hN', -, hb'⟩ := main η hη
    rw [hN, Option.some.injEq] at hN'
    subst hN'
    obtain ⟨Y', rec', hY', hw⟩ := hb' X hX hX'
    rw [hY, Option.some.injEq, Prod.mk.injEq] at hY'
    obtain rfl := hmi _ _ hY'.1
    exact ⟨fs, (List.forall₂_iff_get.mp hw).2 k hk hk'⟩

end RealFiles

open RealFiles

/-- **C111 (codes).**  A network file whose operators stand for the real functions `rs`, with or without a quantize operator in
front: the codes the engine answers in float64 stand for the real outputs within the accumulated bound. -/
theorem C111_codes (ext : Ext) (δ : ℚ) (net : NetJ) (s : ℚ) (z : ℤ) (ops : List OpJ) (rs : List RealOp)
    (heng : upper net.engine = "TFLITE".toList) (hout : ∃ o, net.output[0]? = some (some o)) (hopen : Opens net s z ops)
    (hops : List.Forall₂ (RealEngineMeans ext δ) ops rs) (hG : Steady rs) (hs : 0 < s) (hz : Code (-128) 127 z) (n : ℕ)
    (hfit : realFits (s, z) rs n) :
    ∃ N, Fmt.f64.load net = some N ∧
      (∀ x : List ℚ, x.length = n → ∃ y rec, Fmt.f64.infer ext N (.flt (.vec x)) = some (.int (.vec y), rec) ∧
        RealAnswer s z rs y x) ∧
      ∀ X : List (List ℚ), X ≠ [] → (∀ x ∈ X, x.length = n) →
        ∃ Y rec, Fmt.f64.infer ext N (.flt (.mat X)) = some (.int (.mat Y), rec) ∧
          List.Forall₂ (fun y x => RealAnswer s z rs y x) Y X := by
  have hl := engine_lips hops hG
  obtain ⟨N, hN, hv, hb⟩ := collect (ext := ext) (net := net) (n := n)
    (K := fun η fs (y : List ℤ) x => List.Forall₂ (OpClose η) fs rs ∧
      CodesFor (fileLast (s, z) fs) y (fileExact fs x) (fileBound fs x (inputBound s z x)))
    (fun y => .int (.vec y)) (fun Y => .int (.mat Y)) (fun a b e => by injection e with e; injection e)
    (fun a b e => by injection e with e; injection e) (fun η hη => by
      obtain ⟨fs, hm, hc⟩ := engine_approx hops η hη
      obtain ⟨N, h1, h2, h3⟩ := FloatEnds.codes_of ext net s z ops fs heng hout hopen hm hs hz n (fits_of_close hc hl _ _ hfit)
      exact ⟨fs, N, h1, fun x hx => by obtain ⟨y, rec, a, b⟩ := h2 x hx; exact ⟨y, rec, a, hc, b⟩,
        fun X hX hX' => by obtain ⟨Y, rec, a, b⟩ := h3 X hX hX'; exact ⟨Y, rec, a, b.imp (fun _ _ h => ⟨hc, h⟩)⟩⟩)
  refine ⟨N, hN, fun x hx => ?_, fun X hX hX' => ?_⟩
  · obtain ⟨y, rec, a, b⟩ := hv x hx
    exact ⟨y, rec, a, codes_limit rs hl s z x y b⟩
  · obtain ⟨Y, rec, a, b⟩ := hb X hX hX'
    exact ⟨Y, rec, a, b.imp (fun y x h => codes_limit rs hl s z x y h)⟩

/-- **C111 (numbers).**  With a dequantize operator at the end the answers are numbers within the bound of the real outputs. -/
theorem C111_numbers (ext : Ext) (δ : ℚ) (net : NetJ) (s : ℚ) (z : ℤ) (ops : List OpJ) (d : OpJ) (rs : List RealOp)
    (heng : upper net.engine = "TFLITE".toList) (hout : ∃ o, net.output[0]? = some (some o))
    (hopen : Opens net s z (ops ++ [d])) (hops : List.Forall₂ (RealEngineMeans ext δ) ops rs) (hG : Steady rs)
    (hd : IsDequantize d (realLast (s, z) rs)) (hs : 0 < s) (hz : Code (-128) 127 z) (n : ℕ) (hfit : realFits (s, z) rs n)
    (hlast : IsFloat 53 (-1074) (realLast (s, z) rs).1) :
    ∃ N, Fmt.f64.load net = some N ∧
      (∀ x : List ℚ, x.length = n → ∃ y rec, Fmt.f64.infer ext N (.flt (.vec x)) = some (.flt (.vec y), rec) ∧
        RealNumbers s z rs y x) ∧
      ∀ X : List (List ℚ), X ≠ [] → (∀ x ∈ X, x.length = n) →
        ∃ Y rec, Fmt.f64.infer ext N (.flt (.mat X)) = some (.flt (.mat Y), rec) ∧
          List.Forall₂ (fun y x => RealNumbers s z rs y x) Y X := by
  have hl := engine_lips hops hG
  obtain ⟨N, hN, hv, hb⟩ := collect (ext := ext) (net := net) (n := n)
    (K := fun η fs (y : List ℚ) x => List.Forall₂ (OpClose η) fs rs ∧
      Within y (fileExact fs x) (outputBound (fileExact fs x) (fileBound fs x (inputBound s z x))))
    (fun y => .flt (.vec y)) (fun Y => .flt (.mat Y)) (fun a b e => by injection e with e; injection e)
    (fun a b e => by injection e with e; injection e) (fun η hη => by
      obtain ⟨fs, hm, hc⟩ := engine_approx hops η hη
      obtain ⟨hd1, i, rest, hdi, hi, hi8⟩ := hd
      rw [← last_close hc] at hi hlast
      obtain ⟨N, h1, h2, h3⟩ := FloatEnds.numbers_of ext net s z ops d fs heng hout hopen hm hd1 i rest hdi hi hi8 hs hz n
        (fits_of_close hc hl _ _ hfit) hlast
      exact ⟨fs, N, h1, fun x hx => by obtain ⟨y, rec, a, b⟩ := h2 x hx; exact ⟨y, rec, a, hc, b⟩,
        fun X hX hX' => by obtain ⟨Y, rec, a, b⟩ := h3 X hX hX'; exact ⟨Y, rec, a, b.imp (fun _ _ h => ⟨hc, h⟩)⟩⟩)
  refine ⟨N, hN, fun x hx => ?_, fun X hX hX' => ?_⟩
  · obtain ⟨y, rec, a, b⟩ := hv x hx
    exact ⟨y, rec, a, file_limit rs hl s z x y b⟩
  · obtain ⟨Y, rec, a, b⟩ := hb X hX hX'
    exact ⟨Y, rec, a, b.imp (fun y x h => file_limit rs hl s z x y h)⟩

namespace C111Case
open C92Case (node int8)
open C106Case (tanhOp)

def qOp : OpJ := ⟨"QUANTIZE", "Quantize", [node 1 0], [node (1 / 64) 0], none⟩

def tOp : OpJ := ⟨"TANH", "Tanh", [node (1 / 64) 0], [node (1 / 128) 0], none⟩

def lOp : OpJ := ⟨"LOGISTIC", "Logistic", [node (1 / 128) 0], [node (1 / 256) (-128)], none⟩

def dOp : OpJ := ⟨"DEQUANTIZE", "Dequantize", [node (1 / 256) (-128)], [node 1 0], none⟩

/-- quantize → tanh → logistic → dequantize, and the same file without its ends. -/
def net : NetJ := ⟨"TFLITE", 4, [qOp, tOp, lOp, dOp], [some (node 1 0)], [some (node 1 0)]⟩

def bare : NetJ := ⟨"TFLITE", 2, [tOp, lOp], [some (node (1 / 64) 0)], [some (node 1 0)]⟩

noncomputable def rs : List RealOp :=
  [.act Real.tanh 1 (1 / 128 * (1 / 2 + 1 / 2 ^ 40) + ((1 / 64) / 2 ^ 40 + 1 / 2 ^ 50)) (1 / 64) 0 (1 / 128) 0,
   .act Real.sigmoid (1 / 4) (1 / 256 * (1 / 2 + 1 / 2 ^ 40) + (1 / 4 * ((1 / 128) / 2 ^ 40) + 1 / 2 ^ 50)) (1 / 128) 0 (1 / 256) (-128)]

theorem means (lib : Ext) (hlib : Accurate (1 / 2 ^ 50) lib) : List.Forall₂ (RealEngineMeans lib (1 / 2 ^ 50)) [tOp, lOp] rs :=
  .cons (.tanh rfl rfl ⟨rfl, rfl⟩ (by norm_num) ⟨1, -6, by norm_num, by norm_num, by norm_num⟩ (by unfold Code; norm_num)
      (fun a => (hlib a).2))
    (.cons (.logistic rfl rfl ⟨rfl, rfl⟩ (by norm_num) ⟨1, -7, by norm_num, by norm_num, by norm_num⟩ (by unfold Code; norm_num)
      (fun a => (hlib a).1)) .nil)

theorem steady : Steady rs := by
  intro sx zx sw zw W b so zo G h
  simp [rs] at h

theorem fits : realFits (1 / 64, 0) rs 1 :=
  ⟨rfl, ⟨by decide, by unfold Code; norm_num⟩, rfl, ⟨by decide, by unfold Code; norm_num⟩, trivial⟩

theorem cut {s : ℚ} {z : ℤ} {y d : ℝ} (hlo : ((real z s (-128) : ℚ) : ℝ) ≤ y) (hhi : y ≤ ((real z s 127 : ℚ) : ℝ) + d) (hd : 0 ≤ d)
    (hr : ((real z s (-128) : ℚ) : ℝ) ≤ ((real z s 127 : ℚ) : ℝ)) : |realSaturate s z y - y| ≤ d := by
  unfold realSaturate
  rw [abs_le]
  rcases le_total (((real z s 127 : ℚ)) : ℝ) y with h | h
  · rw [min_eq_left h, max_eq_right hr]; constructor <;> linarith
  · rw [min_eq_right h, max_eq_right hlo]; constructor <;> linarith

theorem input {v : ℚ} (hv : -19 / 10 ≤ v) (hv' : v ≤ 19 / 10) : inputBound (1 / 64) 0 [v] = [(1 / 64) * (1 / 2 + (4 * |v / (1 / 64)| + 1) / 2 ^ 53)] ∧
    |v / (1 / 64)| ≤ 122 := by
  have hsat : saturate (1 / 64) 0 v = v := by
    have e1 : real 0 (1 / 64) (-128) = -128 / 64 := by decide +kernel
    have e2 : real 0 (1 / 64) 127 = 127 / 64 := by decide +kernel
    unfold saturate
    rw [e1, e2, min_eq_right (by linarith), max_eq_right (by linarith)]
  have hv2 : |v / (1 / 64)| ≤ 122 := by
    rw [abs_le]
    constructor
    · rw [le_div_iff₀ (by norm_num)]; linarith
    · rw [div_le_iff₀ (by norm_num)]; linarith
  refine ⟨?_, hv2⟩
  simp only [inputBound, List.map_cons, List.map_nil, hsat, sub_self, abs_zero, add_zero, Int.cast_zero, mul_zero]

/-- The bound at the end for numbers between -1.9 and 1.9. -/
theorem close {v y : ℚ} (hv : -19 / 10 ≤ v) (hv' : v ≤ 19 / 10) (h : RealNumbers (1 / 64) 0 rs [y] [v] ∨ WithinReal [y] (realFile rs ([v].map (↑)))
    (realBound rs ([v].map (↑)) ((inputBound (1 / 64) 0 [v]).map (↑)))) : |(y : ℝ) - (1 + Real.exp (-Real.tanh v))⁻¹| ≤ 1 / 50 := by
  obtain ⟨hin, hv2⟩ := input hv hv'
  unfold RealNumbers at h
  rw [hin] at h
  have he : ((1 / 64 * (1 / 2 + (4 * |v / (1 / 64)| + 1) / 2 ^ 53) : ℚ) : ℝ) ≤ 8 / 1000 := by
    have : (1 / 64 * (1 / 2 + (4 * |v / (1 / 64)| + 1) / 2 ^ 53) : ℚ) ≤ 8 / 1000 := by linarith
    refine ((Rat.cast_le (K := ℝ)).mpr this).trans ?_
    norm_num
  have he0 : (0 : ℝ) ≤ ((1 / 64 * (1 / 2 + (4 * |v / (1 / 64)| + 1) / 2 ^ 53) : ℚ) : ℝ) := by
    have : (0 : ℚ) ≤ (1 / 64 * (1 / 2 + (4 * |v / (1 / 64)| + 1) / 2 ^ 53) : ℚ) := by positivity
    exact_mod_cast this
  simp only [rs, realFile, realBound, realOutputBound, RealOp.exact, RealOp.bound, List.map_cons, List.map_nil,
    List.zipWith_cons_cons, List.zipWith_nil_left] at h
  generalize (1 / 64 * (1 / 2 + (4 * |v / (1 / 64)| + 1) / 2 ^ 53) : ℚ) = e at *
  have t0 := Real.neg_one_lt_tanh (v : ℝ)
  have t1 := Real.tanh_lt_one (v : ℝ)
  generalize Real.tanh (v : ℝ) = t at *
  have s0 := Real.sigmoid_pos t
  have s1 := Real.sigmoid_lt_one t
  rw [← Real.sigmoid_def]
  generalize Real.sigmoid t = w at *
  have c1 : |realSaturate (1 / 128) 0 t - t| ≤ 1 / 128 := by
    have e1 : real 0 (1 / 128) (-128) = -1 := by decide +kernel
    have e2 : real 0 (1 / 128) 127 = 127 / 128 := by decide +kernel
    refine cut ?_ ?_ (by norm_num) ?_ <;> (try rw [e1]) <;> (try rw [e2])
    all_goals push_cast; linarith
  have c2 : |realSaturate (1 / 256) (-128) w - w| ≤ 1 / 256 := by
    have e1 : real (-128) (1 / 256) (-128) = 0 := by decide +kernel
    have e2 : real (-128) (1 / 256) 127 = 255 / 256 := by decide +kernel
    refine cut ?_ ?_ (by norm_num) ?_ <;> (try rw [e1]) <;> (try rw [e2])
    all_goals push_cast; linarith
  generalize |realSaturate (1 / 128) 0 t - t| = u1 at *
  generalize |realSaturate (1 / 256) (-128) w - w| = u2 at *
  rcases h with ⟨-, h⟩ | ⟨-, h⟩
  · cases h with
    | cons hab _ =>
      refine hab.trans ?_
      dsimp only
      rw [abs_of_pos s0]
      push_cast
      linarith
  · cases h with
    | cons hab _ =>
      refine hab.trans ?_
      dsimp only
      push_cast
      linarith

/-- With library functions accurate to 2⁻⁵⁰ both files load; the numbers the first answers for `v`, and the numbers the codes of the
second stand for, are within 1/50 of `1 / (1 + exp (-tanh v))`. -/
example : (∃ lib, Accurate (1 / 2 ^ 50) lib) ∧ ∀ lib, Accurate (1 / 2 ^ 50) lib →
    (∃ N, Fmt.f64.load net = some N ∧ ∀ v : ℚ, -19 / 10 ≤ v → v ≤ 19 / 10 → ∃ y rec,
      Fmt.f64.infer lib N (.flt (.vec [v])) = some (.flt (.vec [y]), rec) ∧ |(y : ℝ) - (1 + Real.exp (-Real.tanh v))⁻¹| ≤ 1 / 50) ∧
    ∃ N, Fmt.f64.load bare = some N ∧ ∀ v : ℚ, -19 / 10 ≤ v → v ≤ 19 / 10 → ∃ (q : ℤ) (rec : List Tensor),
      Fmt.f64.infer lib N (.flt (.vec [v])) = some (.int (.vec [q]), rec) ∧
        |(((1 / 256 : ℚ) * (q + 128) : ℚ) : ℝ) - (1 + Real.exp (-Real.tanh v))⁻¹| ≤ 1 / 50 := by
  refine ⟨(RealOnnx.exists_ideal (1 / 2 ^ 50) (by norm_num)).imp (fun _ h => h.1), fun lib hlib => ⟨?_, ?_⟩⟩
  · obtain ⟨N, h1, h2, -⟩ := C111_numbers lib (1 / 2 ^ 50) net (1 / 64) 0 [tOp, lOp] dOp rs
      (by decide +kernel) ⟨_, rfl⟩
      (.inl ⟨qOp, node (1 / 64) 0, [], rfl, rfl, by decide +kernel, rfl, ⟨rfl, rfl⟩, int8 _ _, _, rfl⟩) (means lib hlib) steady
      ⟨rfl, _, _, rfl, ⟨rfl, rfl⟩, int8 _ _⟩ (by norm_num) (by unfold Code; norm_num) 1 fits
      ⟨1, -8, by norm_num, by norm_num, by show (1 / 256 : ℚ) = _; norm_num⟩
    refine ⟨N, h1, fun v hv hv' => ?_⟩
    obtain ⟨y, rec, hy, hw⟩ := h2 [v] rfl
    obtain ⟨y, rfl⟩ : ∃ y', y = [y'] := by
      have := hw.2.length_eq
      simp [rs, realFile, realOutputBound, realBound, inputBound, RealOp.exact, RealOp.bound] at this
      exact List.length_eq_one_iff.mp this
    exact ⟨y, rec, hy, close hv hv' (.inl hw)⟩
  · obtain ⟨N, h1, h2, -⟩ := C111_codes lib (1 / 2 ^ 50) bare (1 / 64) 0 [tOp, lOp] rs
      (by decide +kernel) ⟨_, rfl⟩ (.inr ⟨rfl, ⟨tOp, rfl, by decide +kernel⟩, node (1 / 64) 0, rfl, rfl, .inl rfl⟩)
      (means lib hlib) steady (by norm_num) (by unfold Code; norm_num) 1 fits
    refine ⟨N, h1, fun v hv hv' => ?_⟩
    obtain ⟨y, rec, hy, hw⟩ := h2 [v] rfl
    obtain ⟨-, hw⟩ := hw
    obtain ⟨q, rfl⟩ : ∃ y', y = [y'] := by
      have := hw.2.length_eq
      simp [rs, realFile, realBound, inputBound, RealOp.exact, RealOp.bound] at this
      exact List.length_eq_one_iff.mp this
    refine ⟨q, rec, hy, ?_⟩
    have := close hv hv' (.inr hw)
    have e : real (realLast (1 / 64, 0) rs).2 (realLast (1 / 64, 0) rs).1 q = 1 / 256 * (q + 128) := by
      simp [rs, realLast, RealOp.writes, real]
    rw [e] at this
    exact this

end C111Case

end Verif
