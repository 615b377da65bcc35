import Verif.Lemmas.RealFiles

/-!
# C108: network files whose tables hold values of the real sigmoid and tanh
-/

namespace Verif

open Spec

namespace Spec

noncomputable section

/-- What an operator of an int8 network file stands for, as `FileMeans`, with functions of real analysis: a dense operator
followed by any function `G` that is left to saturation, a table with values of the hyperbolic tangent or of the sigmoid
`1 / (1 + exp (-x))`, accurate to `τ`, a ReLU. -/
inductive RealMeans : OpJ → RealOp → Prop
  | dense {op : OpJ} {i k c o : NodeJ} {rest : List NodeJ} {kt ct : TensorJ} {sx : ℚ} {zx : ℤ} {sw : ℚ} {zw : ℤ}
      {W : List (List ℤ)} {b : List ℤ} {so : ℚ} {zo : ℤ} {G : ℝ → ℝ} (ht : op.opType = "FULLY_CONNECTED")
      (hin : op.inputs = [i, k, c]) (hout : op.outputs = o :: rest) (hi : HasParams i sx zx) (hk : HasParams k sw zw)
      (hkt : k.tensor = some kt) (hW : kt.data = some (.mat W)) (hct : c.tensor = some ct) (hb : ct.data = some (.vec b))
      (ho : HasParams o so zo) (ho8 : IsInt8 o) : RealMeans op (.dense sx zx sw zw W b so zo G)
  | tanh {op : OpJ} {τ sx : ℚ} {zx : ℤ} {so : ℚ} {zo : ℤ} {l : LutLayer}
      (ht : op.opType = "TANHLUT" ∨ op.opType = "SIGMOIDLUT") (hl : LutLayer.fromModel op = some l)
      (hq : ∀ q, Code (-128) 127 q → ∃ q', l.look q = some q' ∧ Code (-128) 127 q' ∧
        |((real zo so q' : ℚ) : ℝ) - realSaturate so zo (Real.tanh ((real zx sx q : ℚ) : ℝ))| ≤ τ) :
      RealMeans op (.act Real.tanh 1 τ sx zx so zo)
  | sigmoid {op : OpJ} {τ sx : ℚ} {zx : ℤ} {so : ℚ} {zo : ℤ} {l : LutLayer}
      (ht : op.opType = "TANHLUT" ∨ op.opType = "SIGMOIDLUT") (hl : LutLayer.fromModel op = some l)
      (hq : ∀ q, Code (-128) 127 q → ∃ q', l.look q = some q' ∧ Code (-128) 127 q' ∧
        |((real zo so q' : ℚ) : ℝ) - realSaturate so zo (Real.sigmoid ((real zx sx q : ℚ) : ℝ))| ≤ τ) :
      RealMeans op (.act Real.sigmoid (1 / 4) τ sx zx so zo)
  | relu {op : OpJ} {i o : NodeJ} {ri ro : List NodeJ} {sx : ℚ} {zx : ℤ} {so : ℚ} {zo : ℤ} (ht : op.opType = "RELU")
      (hin : op.inputs = i :: ri) (hout : op.outputs = o :: ro) (hi : HasParams i sx zx) (ho : HasParams o so zo)
      (hso : 0 < so) (hk : (2 : ℚ) ^ (-1022 : ℤ) ≤ sx / so) (hzx : Code (-128) 127 zx)
      (hlo : -128 ≤ zo + sx / so * ((zx : ℚ) - zo)) (hhi : zo + sx / so * (127 - (zo : ℚ)) ≤ 127) :
      RealMeans op (.act (fun v => max 0 v + ((sx * (zx - zo) : ℚ) : ℝ)) 1 (so * (1 + 1 / 2 ^ 40)) sx zx so zo)

/-- Parameters of the last codes. -/
def realLast : ℚ × ℤ → List RealOp → ℚ × ℤ
  | p, [] => p
  | _, o :: os => realLast o.writes os

/-- A network file: a quantize operator to int8 codes with parameters `(s, z)`, operators, and a dequantize operator. -/
structure NetReal (net : NetJ) (s : ℚ) (z : ℤ) (rs : List RealOp) : Prop where
  engine : upper net.engine = "TFLITE".toList
  input : ∃ i, net.input[0]? = some (some i)
  output : ∃ o, net.output[0]? = some (some o)
  graph : ∃ q ops d, net.graph = q :: ops ++ [d] ∧
    (q.opType = "QUANTIZE" ∧ contains "QUANT" (upper q.name) = true ∧ ∃ o rest, q.outputs = o :: rest ∧ HasParams o s z ∧ IsInt8 o) ∧
    List.Forall₂ RealMeans ops rs ∧
    (d.opType = "DEQUANTIZE" ∧ ∃ i rest, d.inputs = i :: rest ∧
      HasParams i (realLast (s, z) rs).1 (realLast (s, z) rs).2 ∧ IsInt8 i)

/-- Functions left to saturation move apart no faster than their arguments. -/
def Steady (rs : List RealOp) : Prop :=
  ∀ sx zx sw zw W b so zo G, RealOp.dense sx zx sw zw W b so zo G ∈ rs → ∀ u v, |G u - G v| ≤ |u - v|

end

end Spec

namespace RealFiles

open RealOnnx

theorem lip_of_real {op : OpJ} {R : RealOp} (h : RealMeans op R)
    (hG : ∀ sx zx sw zw W b so zo G, R = .dense sx zx sw zw W b so zo G → ∀ u v, |G u - G v| ≤ |u - v|) : Lip R := by
  cases h with
  | dense => exact hG _ _ _ _ _ _ _ _ _ rfl
  | tanh => exact ⟨by norm_num, fun a b => by have := RealFn.tanh_lip a b; push_cast; linarith⟩
  | sigmoid => exact ⟨by norm_num, fun a b => by have := RealFn.sigmoid_lip a b; push_cast; exact this⟩
  | relu =>
    refine ⟨by norm_num, fun a b => ?_⟩
    rw [add_sub_add_right_eq_sub]
    have := (abs_max_sub_max_le_max 0 a 0 b).trans (max_le (by simp) (le_refl _))
    push_cast
    linarith

/-- Table entries for a real function are as good for a function close to it. -/
theorem table_close {F : ℝ → ℝ} {f : ℚ → ℚ} {η τ : ℚ} (hf : ∀ a : ℚ, |(f a : ℝ) - F a| ≤ η) {y so r : ℚ} {zo : ℤ}
    (h : |(y : ℝ) - realSaturate so zo (F r)| ≤ τ) : |y - saturate so zo (f r)| ≤ τ + η := by
  have h1 := saturate_close so zo (f r) (F r)
  have h2 := abs_sub_le (y : ℝ) (realSaturate so zo (F r)) ((saturate so zo (f r) : ℚ) : ℝ)
  rw [abs_sub_comm (realSaturate so zo (F r))] at h2
  have h3 := hf r
  have : |(y : ℝ) - ((saturate so zo (f r) : ℚ) : ℝ)| ≤ ((τ + η : ℚ) : ℝ) := by push_cast; linarith
  exact_mod_cast this

theorem means_of_real {op : OpJ} {R : RealOp} (h : RealMeans op R) (η : ℚ) (hη : 0 < η) :
    ∃ f, FileMeans op f ∧ OpClose η f R := by
  have hη' : (0 : ℝ) < η := by exact_mod_cast hη
  obtain ⟨ideal, hi, hs, ht⟩ := exists_ideal η hη
  have shift : ∀ τ : ℚ, |τ + η - τ| ≤ η := fun τ => by rw [add_sub_cancel_left, abs_of_pos hη]
  cases h with
  | @dense i k c o rest kt ct sx zx sw zw W b so zo G ht hin hout hi hk hkt hW hct hb ho ho8 =>
    have : ∀ a : ℚ, ∃ v : ℚ, |(v : ℝ) - G a| ≤ η := fun a => by
      obtain ⟨v, v1, v2⟩ := exists_rat_btwn (show G a < G a + η by linarith)
      exact ⟨v, by rw [abs_le]; constructor <;> linarith⟩
    choose g hg using this
    exact ⟨.dense sx zx sw zw W b so zo g, .dense ht hin hout hi hk hkt hW hct hb ho ho8, .dense _ _ _ _ _ _ _ _ _ _ hg⟩
  | @tanh τ sx zx so zo l hty hl hq =>
    refine ⟨.act ideal.tanh 1 (τ + η) sx zx so zo, .act hty hl (fun q hq' => ?_),
      .act _ _ _ _ _ _ _ _ _ (fun a => (hi a).2) (shift τ) ht⟩
    obtain ⟨q', a, b, c⟩ := hq q hq'
    exact ⟨q', a, b, table_close (fun a => (hi a).2) c⟩
  | @sigmoid τ sx zx so zo l hty hl hq =>
    refine ⟨.act ideal.sigmoid (1 / 4) (τ + η) sx zx so zo, .act hty hl (fun q hq' => ?_),
      .act _ _ _ _ _ _ _ _ _ (fun a => (hi a).1) (shift τ) hs⟩
    obtain ⟨q', a, b, c⟩ := hq q hq'
    exact ⟨q', a, b, table_close (fun a => (hi a).1) c⟩
  | relu hty hin hout hi' ho hso hk hzx hlo hhi =>
    refine ⟨_, .relu hty hin hout hi' ho hso hk hzx hlo hhi, .act _ _ _ _ _ _ _ _ _ (fun a => ?_)
      (by rw [sub_self, abs_zero]; exact hη.le) (fun a b => ?_)⟩
    · push_cast
      rw [sub_self, abs_zero]; exact hη'.le
    · rw [one_mul, add_sub_add_right_eq_sub]
      exact (abs_max_sub_max_le_max 0 a 0 b).trans (max_le (by simp) (le_refl _))

theorem last_close {η : ℚ} {fs : List FileOp} {rs : List RealOp} (h : List.Forall₂ (OpClose η) fs rs) (p : ℚ × ℤ) :
    fileLast p fs = realLast p rs := by
  induction h generalizing p with
  | nil => rfl
  | @cons o R fs rs ho _ ih =>
    have : o.writes = R.writes := by cases ho <;> rfl
    show fileLast o.writes fs = realLast R.writes rs
    rw [this]
    exact ih _

theorem net_of_real {net : NetJ} {s : ℚ} {z : ℤ} {rs : List RealOp} (h : NetReal net s z rs) (η : ℚ) (hη : 0 < η) :
    ∃ fs, NetMeans net s z fs ∧ List.Forall₂ (OpClose η) fs rs := by
  obtain ⟨h1, h2, h3, q, ops, d, hg, hq, hops, hd, i, rest, hd1, hd2, hd3⟩ := h
  obtain ⟨fs, hm, hc⟩ : ∃ fs, List.Forall₂ FileMeans ops fs ∧ List.Forall₂ (OpClose η) fs rs := by
    clear hg hd2
    induction hops with
    | nil => exact ⟨[], .nil, .nil⟩
    | cons ho _ ih =>
      obtain ⟨f, a, b⟩ := means_of_real ho η hη
      obtain ⟨fs, a', b'⟩ := ih
      exact ⟨f :: fs, .cons a a', .cons b b'⟩
  refine ⟨fs, ⟨h1, h2, h3, q, ops, d, hg, hq, hm, hd, i, rest, hd1, ?_, hd3⟩, hc⟩
  rw [last_close hc]
  exact hd2

theorem net_lip {net : NetJ} {s : ℚ} {z : ℤ} {rs : List RealOp} (h : NetReal net s z rs) (hG : Steady rs) : ∀ R ∈ rs, Lip R := by
  obtain ⟨-, -, -, q, ops, d, -, -, hops, -⟩ := h
  intro R hR
  obtain ⟨op, -, h⟩ : ∃ op ∈ ops, RealMeans op R := by
    clear hG
    induction hops with
    | nil => cases hR
    | cons ho _ ih =>
      rcases List.mem_cons.mp hR with rfl | hR
      · exact ⟨_, List.mem_cons_self, ho⟩
      · obtain ⟨op, a, b⟩ := ih hR; exact ⟨op, List.mem_cons_of_mem _ a, b⟩
  refine lip_of_real h (fun sx zx sw zw W b so zo G e => ?_)
  subst e
  exact hG _ _ _ _ _ _ _ _ _ hR

end RealFiles

open RealFiles in
/-- **C108** (files): the engine in float64 against what a network file stands for over the real numbers. -/
theorem C108_file (ext : Ext) (net : NetJ) (s : ℚ) (z : ℤ) (rs : List RealOp) (h : NetReal net s z rs) (hG : Steady rs) (hs : 0 < s)
    (hz : Code (-128) 127 z) (n : ℕ) (hfit : realFits (s, z) rs n) (hlast : IsFloat 53 (-1074) (realLast (s, z) rs).1) :
    ∃ N, Fmt.f64.load net = some N ∧
      (∀ x : List ℚ, x.length = n → ∃ y rec, Fmt.f64.infer ext N (.flt (.vec x)) = some (.flt (.vec y), rec) ∧
        WithinReal y (realFile rs (x.map (↑)))
          (realOutputBound (realFile rs (x.map (↑))) (realBound rs (x.map (↑)) ((inputBound s z x).map (↑))))) ∧
      ∀ X : List (List ℚ), X ≠ [] → (∀ x ∈ X, x.length = n) →
        ∃ Y rec, Fmt.f64.infer ext N (.flt (.mat X)) = some (.flt (.mat Y), rec) ∧
          List.Forall₂ (fun (y x : List ℚ) => WithinReal y (realFile rs (x.map (↑)))
            (realOutputBound (realFile rs (x.map (↑))) (realBound rs (x.map (↑)) ((inputBound s z x).map (↑))))) Y X := by
  have hl := net_lip h hG
  have main : ∀ η : ℚ, 0 < η → ∃ fs, List.Forall₂ (OpClose η) fs rs ∧ ∃ N, Fmt.f64.load net = some N ∧
      (∀ x : List ℚ, x.length = n → ∃ y rec, Fmt.f64.infer ext N (.flt (.vec x)) = some (.flt (.vec y), rec) ∧
        Within y (fileExact fs x) (outputBound (fileExact fs x) (fileBound fs x (inputBound s z x)))) ∧
      ∀ X : List (List ℚ), X ≠ [] → (∀ x ∈ X, x.length = n) →
        ∃ Y rec, Fmt.f64.infer ext N (.flt (.mat X)) = some (.flt (.mat Y), rec) ∧
          List.Forall₂ (fun y x =>
            Within y (fileExact fs x) (outputBound (fileExact fs x) (fileBound fs x (inputBound s z x)))) Y X := by
    intro η hη
    obtain ⟨fs, hm, hc⟩ := net_of_real h η hη
    exact ⟨fs, hc, C92_accuracy ext net s z fs hm hs hz n (fits_of_close hc hl _ _ hfit) (by rw [last_close hc]; exact hlast)⟩
  obtain ⟨f1, -, N, hN, hv, hb⟩ := main 1 one_pos
  have main' : ∀ η : ℚ, 0 < η → ∃ fs, List.Forall₂ (OpClose η) fs rs ∧
      (∀ x : List ℚ, x.length = n → ∃ y rec, Fmt.f64.infer ext N (.flt (.vec x)) = some (.flt (.vec y), rec) ∧
        Within y (fileExact fs x) (outputBound (fileExact fs x) (fileBound fs x (inputBound s z x)))) ∧
      ∀ X : List (List ℚ), X ≠ [] → (∀ x ∈ X, x.length = n) →
        ∃ Y rec, Fmt.f64.infer ext N (.flt (.mat X)) = some (.flt (.mat Y), rec) ∧
          List.Forall₂ (fun y x =>
            Within y (fileExact fs x) (outputBound (fileExact fs x) (fileBound fs x (inputBound s z x)))) Y X := by
    intro η hη
    obtain ⟨fs, c, N', hN', h8⟩ := main η hη
    rw [hN, Option.some.injEq] at hN'
    subst hN'
    exact ⟨fs, c, h8⟩
  refine ⟨N, hN, fun x hx => ?_, fun X hX hX' => ?_⟩
  · obtain ⟨y, rec, hy, -⟩ := hv x hx
    refine ⟨y, rec, hy, file_limit rs hl s z x y (fun η hη => ?_)⟩
    obtain ⟨fs, c, hv', -⟩ := main' η hη
    obtain ⟨y', rec', hy', hw⟩ := hv' x hx
    rw [hy] at hy'
    simp only [Option.some.injEq, Prod.mk.injEq, Tensor.flt.injEq, Arr.vec.injEq] at hy'
    rw [hy'.1]
    exact ⟨fs, c, hw⟩
  · obtain ⟨Y, rec, hY, hw1⟩ := hb X hX hX'
    refine ⟨Y, rec, hY, List.forall₂_iff_get.mpr ⟨hw1.length_eq, fun k hk hk' => ?_⟩⟩
    refine file_limit rs hl s z _ _ (fun η hη => ?_)
    obtain ⟨fs, c, -, hb'⟩ := main' η hη
    obtain ⟨Y', rec', hY', hw⟩ := hb' X hX hX'
    rw [hY] at hY'
    simp only [Option.some.injEq, Prod.mk.injEq, Tensor.flt.injEq, Arr.mat.injEq] at hY'
    obtain ⟨rfl, -⟩ := hY'
    exact ⟨fs, c, (List.forall₂_iff_get.mp hw).2 k hk hk'⟩

end Verif
