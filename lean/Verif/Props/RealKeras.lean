import Verif.Props.FloatExport
import Verif.Props.RealFile
import Mathlib.Analysis.Complex.ExponentialBounds

/-!
# C109: quantized Keras models against the real sigmoid and tanh
-/

namespace Verif

open Spec Keras

namespace Spec

noncomputable section

/-- The function a Keras activation name stands for (a softmax layer is exported as its logits). -/
def realAct (name : String) : ℝ → ℝ :=
  if upper name = "TANH".toList then Real.tanh
  else if upper name = "SIGMOID".toList then Real.sigmoid
  else if upper name = "RELU".toList then fun y => max 0 y
  else if upper name = "RELU6".toList then fun y => min 6 (max 0 y)
  else id

/-- A dense layer before its activation, over the real numbers. -/
def realRow (l : KDense) (x : List ℝ) : List ℝ :=
  (List.range l.units).map (fun j =>
    realDot (l.kernel.map (fun r => r.getD j 0)) x + (((l.bias.getD (List.replicate l.units 0)).getD j 0 : ℚ) : ℝ))

/-- The model over the real numbers (dropout and input layers do nothing at inference time). -/
def realForward : List KLayer → List ℝ → List ℝ
  | [], x => x
  | .dense l :: ls, x => realForward ls ((realRow l x).map (realAct l.actName))
  | _ :: ls, x => realForward ls x

/-- As `Int8Layers`, without assumptions about the activation functions. -/
def RealLayers (cfg : Cfg) : ℕ → List KLayer → Prop
  | _, [] => True
  | n, .dense l :: ls => ShapeOk l n ∧ n ≤ 2 ^ 14 ∧ (∀ c, cfg.denseFor l.name = some c → Int8Cfg c) ∧
      upper l.actName ∈ supportedActivations ∧ RealLayers cfg l.units ls
  | n, .dropout :: ls => RealLayers cfg n ls
  | n, .input :: ls => RealLayers cfg n ls
  | _, .lstm _ :: _ => False
  | _, .other :: _ => False

/-- The exporter evaluates tanh and sigmoid with an error of at most `δ`. -/
def RealActs (act : KDense → ℚ → ℚ) (δ : ℚ) (ls : List KLayer) : Prop :=
  ∀ l, KLayer.dense l ∈ ls → upper l.actName ∈ ["TANH".toList, "SIGMOID".toList] →
    ∀ a : ℚ, |(act l a : ℝ) - realAct l.actName a| ≤ δ

/-- The operators of the file are those of the layers, one after the other, as in `ExportedFile`. -/
inductive ExportedReal (M : ℚ → ℚ) (δ : ℚ) : ℚ × ℤ → List KDense → List RealOp → Prop
  | nil (p : ℚ × ℤ) : ExportedReal M δ p [] []
  | plain {l : KDense} {ls : List KDense} {rs : List RealOp} {sx : ℚ} {zx : ℤ} {sw so : ℚ} {zo : ℤ} {W : List (List ℤ)}
      {b : List ℤ} (hact : upper l.actName ∈ ["LINEAR".toList, "SOFTMAX".toList, "RELU".toList, "RELU6".toList])
      (hst : Stores l sx sw (M (sx * sw)) W b) (hsw : 0 < sw) (hso : 0 < so) (hzo : Code (-128) 127 zo)
      (hrest : ExportedReal M δ (so, zo) ls rs) :
      ExportedReal M δ (sx, zx) (l :: ls) (.dense sx zx sw 0 W b so zo (realAct l.actName) :: rs)
  | tanh {l : KDense} {ls : List KDense} {rs : List RealOp} {sx : ℚ} {zx : ℤ} {sw so : ℚ} {zo : ℤ} {sa : ℚ} {za : ℤ}
      {W : List (List ℤ)} {b : List ℤ} (hact : upper l.actName = "TANH".toList)
      (hst : Stores l sx sw (M (sx * sw)) W b) (hsw : 0 < sw) (hso : 0 < so) (hzo : Code (-128) 127 zo)
      (hsa : 0 < sa) (hza : Code (-128) 127 za) (hrest : ExportedReal M δ (sa, za) ls rs) :
      ExportedReal M δ (sx, zx) (l :: ls)
        (.dense sx zx sw 0 W b so zo id :: .act Real.tanh 1 (tableErr δ so sa) so zo sa za :: rs)
  | sigmoid {l : KDense} {ls : List KDense} {rs : List RealOp} {sx : ℚ} {zx : ℤ} {sw so : ℚ} {zo : ℤ} {sa : ℚ} {za : ℤ}
      {W : List (List ℤ)} {b : List ℤ} (hact : upper l.actName = "SIGMOID".toList)
      (hst : Stores l sx sw (M (sx * sw)) W b) (hsw : 0 < sw) (hso : 0 < so) (hzo : Code (-128) 127 zo)
      (hsa : 0 < sa) (hza : Code (-128) 127 za) (hrest : ExportedReal M δ (sa, za) ls rs) :
      ExportedReal M δ (sx, zx) (l :: ls)
        (.dense sx zx sw 0 W b so zo id :: .act Real.sigmoid (1 / 4) (tableErr δ so sa) so zo sa za :: rs)

/-- How far the pre-activation of one neuron with stored weights is from that of the model, if the inputs (`t` in the model) are
off by at most `d`. -/
def realNeuronDrift (sw S : ℚ) (row : List ℚ) (v : ℚ) (t d : List ℝ) : ℝ :=
  (List.zipWith (fun (w : ℚ) (p : ℝ × ℝ) => ((|w| + codeErr sw 0 w : ℚ) : ℝ) * p.2 + ((codeErr sw 0 w : ℚ) : ℝ) * |p.1|) row
    (List.zip t d)).sum + ((biasErr S v : ℚ) : ℝ)

/-- The factor by which an activation can enlarge errors. -/
def actLip (name : String) : ℝ := if upper name = "SIGMOID".toList then 1 / 4 else 1

/-- How far what the file means is from the model. -/
def realDrift (M : ℚ → ℚ) : List RealOp → List KDense → List ℝ → List ℝ → List ℝ
  | .dense sx _ sw _ _ _ _ _ _ :: rs, l :: ls, t, d =>
    realDrift M rs ls ((realRow l t).map (realAct l.actName))
      (List.zipWith (fun row v => actLip l.actName * realNeuronDrift sw (M (sx * sw)) row v t d) l.kernelT l.biasV)
  | .act .. :: rs, ls, t, d => realDrift M rs ls t d
  | _, _, _, d => d

/-- Elementwise: `y` is within `E` of `t`. -/
def WithinR (y t E : List ℝ) : Prop :=
  E.length = t.length ∧ List.Forall₂ (fun (a : ℝ) (p : ℝ × ℝ) => |a - p.1| ≤ p.2) y (t.zip E)

end

end Spec

namespace RealKeras

open Accuracy FloatEngine FloatExport RealOnnx RealFiles

/-- A rational approximation of a function with values in [-1, 1] that has such values itself. -/
theorem bounded_ideal (F : ℝ → ℝ) (hF : ∀ x y, |F x - F y| ≤ |x - y|) (hb : ∀ x, |F x| ≤ 1) (η : ℚ) (hη : 0 < η) :
    ∃ f : ℚ → ℚ, (∀ a b, |f a - f b| ≤ 1 * |a - b|) ∧ (∀ a, |f a| ≤ 1) ∧ ∀ a : ℚ, |(f a : ℝ) - F a| ≤ η := by
  obtain ⟨g, g1, g2⟩ := RealFn.exists_rat F 1 (by norm_num) (fun x y => by have := hF x y; push_cast; linarith) hb η hη
  refine ⟨fun a => max (-1) (min 1 (g a)), fun a b => ?_, fun a => ?_, fun a => ?_⟩
  · refine ((abs_max_sub_max_le_max _ _ _ _).trans (max_le (by simp) ?_)).trans (g1 a b)
    exact (abs_min_sub_min_le_max _ _ _ _).trans (max_le (by simp) (le_refl _))
  · rw [abs_le]
    exact ⟨le_max_left _ _, max_le (by norm_num) (min_le_left _ _)⟩
  · obtain ⟨b1, b2⟩ := abs_le.mp (hb a)
    have e : F a = max (-1) (min 1 (F a)) := by rw [min_eq_right b2, max_eq_right b1]
    rw [e]
    push_cast
    refine ((abs_max_sub_max_le_max _ _ _ _).trans (max_le (by simp) ?_)).trans (g2 a)
    exact (abs_min_sub_min_le_max _ _ _ _).trans (max_le (by simp) (le_refl _))

/-- An entry of a table of a real function. -/
theorem entry_real {F : ℝ → ℝ} {g : ℚ → ℚ} {δ : ℚ} (hF : ∀ x y, |F x - F y| ≤ |x - y|) (hb : ∀ x, |F x| ≤ 1)
    (hg : ∀ a : ℚ, |(g a : ℝ) - F a| ≤ δ) {si : ℚ} (hsi : 0 < si) (hfi : IsFloat 53 (-1074) si) {zi : ℤ} (hzi : Code (-128) 127 zi)
    {so : ℚ} (hso : 0 < so) {zo : ℤ} (hzo : Code (-128) 127 zo) (G : Fmt) (q : ℤ) (hq : Code (-128) 127 q) (v : ℚ)
    (hv : v = g (Fmt.f64.dequantize q zi si)) :
    Code (-128) 127 (Fmt.f64.quantizePolicy (intDtype 7) v zo so (G.baseRounding v so)) ∧
      |((real zo so (Fmt.f64.quantizePolicy (intDtype 7) v zo so (G.baseRounding v so)) : ℚ) : ℝ) -
        realSaturate so zo (F ((real zi si q : ℚ) : ℝ))| ≤ ((tableErr δ si so : ℚ) : ℝ) := by
  have main : ∀ η : ℚ, 0 < η → ∃ f : ℚ → ℚ, (∀ a : ℚ, |(f a : ℝ) - F a| ≤ η) ∧
      Code (-128) 127 (Fmt.f64.quantizePolicy (intDtype 7) v zo so (G.baseRounding v so)) ∧
      |real zo so (Fmt.f64.quantizePolicy (intDtype 7) v zo so (G.baseRounding v so)) - saturate so zo (f (real zi si q))| ≤
        tableErr (δ + η) si so := by
    intro η hη
    obtain ⟨f, f1, f2, f3⟩ := bounded_ideal F hF hb η hη
    refine ⟨f, f3, entry_near f1 f2 (fun a => ?_) hsi hfi hzi hso hzo G q hq v hv⟩
    have h1 := abs_sub_le (g a : ℝ) (F a) (f a)
    rw [abs_sub_comm (F a)] at h1
    have h2 := hg a
    have h3 := f3 a
    have : |(g a : ℝ) - f a| ≤ ((δ + η : ℚ) : ℝ) := by push_cast; linarith
    exact_mod_cast this
  obtain ⟨-, -, hcode, -⟩ := main 1 one_pos
  refine ⟨hcode, limit (C := 3) (by norm_num) (fun η hη => ?_)⟩
  obtain ⟨f, f1, -, f2⟩ := main η hη
  have h1 := saturate_close so zo (f (real zi si q)) (F ((real zi si q : ℚ) : ℝ))
  have h2 : |((real zo so (Fmt.f64.quantizePolicy (intDtype 7) v zo so (G.baseRounding v so)) : ℚ) : ℝ) -
      ((saturate so zo (f (real zi si q)) : ℚ) : ℝ)| ≤ ((tableErr (δ + η) si so : ℚ) : ℝ) := by exact_mod_cast f2
  have h3 := f1 (real zi si q)
  have h4 : tableErr (δ + η) si so ≤ tableErr δ si so + 2 * η := by
    unfold tableErr
    have : (8 * (1 + (δ + η)) + 255 * si) / 2 ^ 53 = (8 * (1 + δ) + 255 * si) / 2 ^ 53 + η * (8 / 2 ^ 53) := by ring
    rw [this]
    have : η * (8 / 2 ^ 53) ≤ η * 1 := mul_le_mul_of_nonneg_left (by norm_num) hη.le
    linarith
  have h5 : ((tableErr (δ + η) si so : ℚ) : ℝ) ≤ ((tableErr δ si so : ℚ) : ℝ) + 2 * η := by exact_mod_cast h4
  have h6 := abs_sub_le ((real zo so (Fmt.f64.quantizePolicy (intDtype 7) v zo so (G.baseRounding v so)) : ℚ) : ℝ)
    ((saturate so zo (f (real zi si q)) : ℚ) : ℝ) (realSaturate so zo (F ((real zi si q : ℚ) : ℝ)))
  linarith

/-- One dense layer. -/
theorem dense_export {F : Formats} (h1 : ∀ d, Ieee (F.data d)) (h2 : ∀ d, Ieee (F.weight d)) (h3 : Ieee F.product)
    {K : FloatKeras} {c : DenseCfg} (hc : Int8Cfg c) {l : KDense} {n : ℕ}
    (hsh : ShapeOk l n) (hsup : upper l.actName ∈ supportedActivations) {δ : ℚ}
    (hδ : upper l.actName ∈ ["TANH".toList, "SIGMOID".toList] → ∀ a : ℚ, |(K.act l a : ℝ) - realAct l.actName a| ≤ δ)
    {t t' : Tip} (ht : TipOk t) {ops : List OpJ} (h : (Arith.float F K).dense c l t = some (ops, t')) :
    TipOk t' ∧ ∃ rs, List.Forall₂ RealMeans ops rs ∧ (∀ p, realLast p rs = (t'.scale, t'.zp)) ∧
      ∀ ls rest, ExportedReal F.product.fl δ (t'.scale, t'.zp) ls rest →
        ExportedReal F.product.fl δ (t.scale, t.zp) (l :: ls) (rs ++ rest) := by
  have hk : 0 < l.kernel.length := by rw [hsh.inputs]; exact hsh.pos
  unfold Arith.dense at h
  rw [int8_of_names hc.kernel, int8_of_names hc.activation, int8_of_names hc.biasAdd, int32_of_names hc.bias] at h
  simp only [Option.bind_eq_bind, Option.bind_some, Option.bind_eq_some_iff] at h
  obtain ⟨k, hkn, pr, -, d, -, o, ho, h⟩ := h
  cases had : c.adaround with
  | true => rw [had] at h; simp at h
  | false =>
  rw [had] at h
  simp only [Bool.false_eq_true, if_false] at h
  obtain ⟨ho1, ho2, ho3⟩ := cal_float h1 ho
  obtain ⟨⟨sw, zw⟩, data⟩ := k
  obtain ⟨hk1, hk2, hk3⟩ := kernel_float h2 hsh.units hk hkn
  simp only at hk1 hk2 hk3 h
  subst hk2 hk3
  obtain ⟨so, zo⟩ := o
  simp only at ho1 ho2 ho3
  obtain ⟨W, hW⟩ : ∃ W, W = l.kernelT.map (fun r => r.map (fun x => Fmt.f64.quantize (intDtype 7) x 0 sw)) := ⟨_, rfl⟩
  obtain ⟨b, hb⟩ : ∃ b, b = l.biasV.map (fun x => Fmt.f64.quantize (intDtype 31) x 0 (F.product.fl (t.scale * sw))) := ⟨_, rfl⟩
  have hst : Stores l t.scale sw (F.product.fl (t.scale * sw)) W b := by rw [hW, hb]; exact stores h3 hk1
  have eK : (Arith.float F K).stored sw 0 (intDtype 7) [l.units, l.kernel.length] l.kernelT.flatten =
      ⟨some sw, some 0, some ⟨some (.mat W), [l.units, l.kernel.length], (intDtype 7).repr⟩, none⟩ := by
    have := Arr.chunks_flatten (fun x => Fmt.f64.quantize (intDtype 7) x 0 sw) l.kernel.length l.kernelT
      (fun r hr => kernelT_row hr)
    rw [kernelT_length] at this
    rw [hW, ← this]
    rfl
  have eB : (Arith.float F K).stored ((Arith.float F K).mul t.scale sw) 0 (intDtype 31) [l.biasV.length] l.biasV =
      ⟨some (F.product.fl (t.scale * sw)), some 0, some ⟨some (.vec b), [l.biasV.length], (intDtype 31).repr⟩, none⟩ := by
    rw [hb]; rfl
  rw [eK, eB] at h
  have means : ∀ (out : NodeJ) (g : ℝ → ℝ), HasParams out so zo → IsInt8 out →
      RealMeans (fcJson l.name t.node
        ⟨some sw, some 0, some ⟨some (.mat W), [l.units, l.kernel.length], (intDtype 7).repr⟩, none⟩
        ⟨some (F.product.fl (t.scale * sw)), some 0, some ⟨some (.vec b), [l.biasV.length], (intDtype 31).repr⟩, none⟩ out)
        (.dense t.scale t.zp sw 0 W b so zo g) := fun out g hp h8 =>
    .dense rfl rfl rfl ht.params ⟨rfl, rfl⟩ rfl rfl rfl rfl hp h8
  obtain ⟨dp, d8⟩ := declared_ok so zo t.data.shape
  unfold Arith.activation at h
  rcases act_names hsup with hs | ⟨hs, hl, hop⟩
  · rw [if_pos hs, Option.some.injEq, Prod.mk.injEq] at h
    obtain ⟨rfl, rfl⟩ := h
    refine ⟨⟨dp, d8, ho2, ho3⟩, [.dense t.scale t.zp sw 0 W b so zo (realAct l.actName)], .cons (means _ _ dp d8) .nil, fun p => rfl, ?_⟩
    intro ls rest hrest
    exact .plain hs hst hk1 ho1 ho2 hrest
  · rw [if_neg hs, Option.map_eq_some_iff] at h
    obtain ⟨⟨sa, za⟩, ha, h⟩ := h
    obtain ⟨ha1, ha2, ha3⟩ := cal_float h1 ha
    simp only at ha1 ha2 ha3
    rw [Prod.mk.injEq] at h
    obtain ⟨rfl, rfl⟩ := h
    obtain ⟨ap, a8⟩ := declared_ok sa za (pr.map ((Arith.float F K).act l)).shape
    have hδ' := hδ hl
    have hin : decide (upper l.actName ∈ lutFunctions) = true := decide_eq_true hl
    obtain ⟨T, hT⟩ : ∃ T, T = (Arith.float F K).table (intDtype 7) (K.act l) so zo sa za := ⟨_, rfl⟩
    have eT : (Arith.float F K).tabled l (intDtype 7) (so, zo) (sa, za) (declared so zo (intDtype 7) t.data.shape) =
        ⟨some so, some zo, some ⟨none, t.data.shape.drop 1, (intDtype 7).repr⟩, some ⟨some T, some (-(intDtype 7).min), none⟩⟩ := by
      unfold Arith.tabled
      rw [if_pos hin, hT]
      rfl
    rw [eT]
    have look : ∀ q, Code (-128) 127 q → ReducedLUT.pyIndex T (q + -(intDtype 7).min) = some
        (Fmt.f64.quantizePolicy (intDtype 7) (K.act l (Fmt.f64.dequantize q zo so)) za sa
          (F.policy.baseRounding (K.act l (Fmt.f64.dequantize q zo so)) sa)) := by
      intro q hq
      have hq' : Code (intDtype 7).min (intDtype 7).max q := by rw [int8_range.1, int8_range.2]; exact hq
      have hidx : q + -(intDtype 7).min = ((q - (intDtype 7).min).toNat : ℤ) := by unfold Code at hq'; omega
      rw [hidx, hT]
      simp only [ReducedLUT.pyIndex, Int.natCast_nonneg, if_true, Int.toNat_natCast, Arith.float, List.getElem?_map,
        codes_get hq', Option.map_some]
    rw [List.mem_cons, List.mem_singleton] at hl
    rcases hl with hl | hl
    · have hR : realAct l.actName = Real.tanh := by unfold realAct; rw [if_pos hl]
      rw [hR] at hδ'
      refine ⟨⟨ap, a8, ha2, ha3⟩, [.dense t.scale t.zp sw 0 W b so zo id, .act Real.tanh 1 (tableErr δ so sa) so zo sa za],
        .cons (means _ _ ⟨rfl, rfl⟩ ⟨_, rfl, int8_repr⟩) (.cons ?_ .nil), fun p => rfl, ?_⟩
      · refine .tanh (l := ⟨.plain T, -(intDtype 7).min⟩) (hop _ _) rfl ?_
        intro q hq
        exact ⟨_, look q hq, entry_real RealFn.tanh_lip RealFn.abs_tanh_le hδ' ho1 ho3 ho2 ha1 ha2 F.policy q hq _ rfl⟩
      · intro ls rest hrest
        exact .tanh hl hst hk1 ho1 ho2 ha1 ha2 hrest
    · have hR : realAct l.actName = Real.sigmoid := by
        unfold realAct
        rw [if_neg (by rw [hl]; decide), if_pos hl]
      rw [hR] at hδ'
      refine ⟨⟨ap, a8, ha2, ha3⟩, [.dense t.scale t.zp sw 0 W b so zo id, .act Real.sigmoid (1 / 4) (tableErr δ so sa) so zo sa za],
        .cons (means _ _ ⟨rfl, rfl⟩ ⟨_, rfl, int8_repr⟩) (.cons ?_ .nil), fun p => rfl, ?_⟩
      · refine .sigmoid (l := ⟨.plain T, -(intDtype 7).min⟩) (hop _ _) rfl ?_
        intro q hq
        exact ⟨_, look q hq, entry_real (fun x y => (RealFn.sigmoid_lip x y).trans (by linarith [abs_nonneg (x - y)]))
          RealFn.abs_sigmoid_le hδ' ho1 ho3 ho2 ha1 ha2 F.policy q hq _ rfl⟩
      · intro ls rest hrest
        exact .sigmoid hl hst hk1 ho1 ho2 ha1 ha2 hrest

theorem last_append (p : ℚ × ℤ) (a b : List RealOp) : realLast p (a ++ b) = realLast (realLast p a) b := by
  induction a generalizing p with
  | nil => rfl
  | cons x a ih => exact ih _

/-- All layers. -/
theorem layers_export {F : Formats} (h1 : ∀ d, Ieee (F.data d)) (h2 : ∀ d, Ieee (F.weight d)) (h3 : Ieee F.product)
    {K : FloatKeras} {cfg : Cfg} {δ : ℚ} (ls : List KLayer) :
    ∀ {n : ℕ}, RealLayers cfg n ls → RealActs K.act δ ls → ∀ {t t' : Tip}, TipOk t → ∀ {ops : List OpJ},
      (Arith.float F K).layers cfg t ls = some (ops, t') →
      TipOk t' ∧ ∃ rs, List.Forall₂ RealMeans ops rs ∧ realLast (t.scale, t.zp) rs = (t'.scale, t'.zp) ∧
        ExportedReal F.product.fl δ (t.scale, t.zp) (denseLayers ls) rs := by
  induction ls with
  | nil =>
    intro n _ _ t t' ht ops h
    simp only [Arith.layers, Option.some.injEq, Prod.mk.injEq] at h
    obtain ⟨rfl, rfl⟩ := h
    exact ⟨ht, [], .nil, rfl, .nil _⟩
  | cons l ls ih =>
    intro n h8 ha t t' ht ops h
    have ha' : RealActs K.act δ ls := fun l hl => ha l (List.mem_cons_of_mem _ hl)
    cases l with
    | lstm l => exact absurd h8 id
    | other => exact absurd h8 id
    | dropout => exact ih (n := n) h8 ha' ht h
    | input => exact ih (n := n) h8 ha' ht h
    | dense l =>
      obtain ⟨hsh, hn, hcfg, hsup, h8⟩ := h8
      simp only [Arith.layers, Option.bind_eq_bind, Option.bind_eq_some_iff, Option.some.injEq, Prod.mk.injEq] at h
      obtain ⟨c, hc, ⟨ops1, t1⟩, hd, ⟨ops2, t2⟩, hl, rfl, rfl⟩ := h
      obtain ⟨ht1, rs1, m1, l1, e1⟩ := dense_export h1 h2 h3 (hcfg c hc) hsh hsup (ha l List.mem_cons_self) ht hd
      obtain ⟨ht2, rs2, m2, l2, e2⟩ := ih h8 ha' ht1 hl
      exact ⟨ht2, rs1 ++ rs2, List.rel_append m1 m2, by rw [last_append, l1, l2], e1 _ _ e2⟩

/-! ### The stored weights against the model's -/

theorem realRow_eq {l : KDense} {n : ℕ} (h : ShapeOk l n) (x : List ℝ) : realRow l x = realDense l.kernelT l.biasV x := by
  have hb : l.biasV.length = l.units := FloatExport.biasV_length h
  apply List.ext_getElem
  · simp [realRow, realDense, KDense.kernelT, hb]
  · intro i h1 h2
    simp only [realRow, List.length_map, List.length_range] at h1
    simp only [realRow, realDense, KDense.kernelT, List.getElem_zipWith, List.getElem_map, List.getElem_range,
      List.getD_eq_getElem?_getD]
    congr 1
    change (((l.biasV[i]?).getD 0 : ℚ) : ℝ) = _
    rw [List.getElem?_eq_getElem (by omega)]; rfl

theorem neuron_drift {sw : ℚ} {c : List ℤ} {row : List ℚ}
    (h : List.Forall₂ (fun c w => Code (-128) 127 c ∧ |real 0 sw c - w| ≤ codeErr sw 0 w) c row) :
    ∀ {u t d : List ℝ}, WithinR u t d →
      |realDot (c.map (real 0 sw)) u - realDot row t| ≤
        (List.zipWith (fun (w : ℚ) (p : ℝ × ℝ) => ((|w| + codeErr sw 0 w : ℚ) : ℝ) * p.2 + ((codeErr sw 0 w : ℚ) : ℝ) * |p.1|) row
          (List.zip t d)).sum := by
  induction h with
  | nil => intro u t d _; simp [realDot]
  | @cons a w c row h1 _ ih =>
    intro u t d hw
    obtain ⟨hl, hw⟩ := hw
    cases t with
    | nil => cases hw; simp [realDot]
    | cons y t =>
      cases d with
      | nil => simp at hl
      | cons e d =>
        cases hw with
        | @cons x _ u _ h2 h3 =>
          have i := ih (u := u) (t := t) (d := d) ⟨by simpa using hl, h3⟩
          simp only [realDot, List.map_cons, List.zipWith_cons_cons, List.sum_cons, List.zip_cons_cons] at i ⊢
          generalize (List.zipWith (fun (w : ℚ) (v : ℝ) => (w : ℝ) * v) (c.map (real 0 sw)) u).sum = A at i ⊢
          generalize (List.zipWith (fun (w : ℚ) (v : ℝ) => (w : ℝ) * v) row t).sum = B at i ⊢
          have h4 : |((real 0 sw a : ℚ) : ℝ) - (w : ℝ)| ≤ ((codeErr sw 0 w : ℚ) : ℝ) := by exact_mod_cast h1.2
          have h5 : |((real 0 sw a : ℚ) : ℝ)| ≤ ((|w| + codeErr sw 0 w : ℚ) : ℝ) := by
            have := abs_sub_abs_le_abs_sub ((real 0 sw a : ℚ) : ℝ) (w : ℝ)
            push_cast
            linarith
          generalize ((real 0 sw a : ℚ) : ℝ) = r at h4 h5 ⊢
          generalize ((codeErr sw 0 w : ℚ) : ℝ) = ce at h4 ⊢
          have e1 : r * x + A - (w * y + B) = (r * (x - y) + (r - w) * y) + (A - B) := by ring
          rw [e1]
          refine (abs_add_le _ _).trans (add_le_add ?_ i)
          refine (abs_add_le _ _).trans ?_
          rw [abs_mul, abs_mul]
          simp only at h2
          exact add_le_add (mul_le_mul h5 h2 (abs_nonneg _) (le_trans (abs_nonneg _) h5))
            (mul_le_mul_of_nonneg_right h4 (abs_nonneg _))

/-- One dense layer with stored weights, with its activation. -/
theorem dense_drift {l : KDense} {n : ℕ} (hsh : ShapeOk l n) {sx sw S : ℚ} {W : List (List ℤ)} {b : List ℤ}
    (hst : Stores l sx sw S W b) (hP : (2 : ℚ) ^ (-126 : ℤ) ≤ sx * sw) {k : ℝ} (hk : 0 ≤ k) {F : ℝ → ℝ}
    (hF : ∀ x y, |F x - F y| ≤ k * |x - y|) {u t d : List ℝ} (hw : WithinR u t d) :
    WithinR ((realDense (realMatrix 0 sw W) (b.map (real 0 (sx * sw))) u).map F) ((realRow l t).map F)
      (List.zipWith (fun row v => k * realNeuronDrift sw S row v t d) l.kernelT l.biasV) := by
  rw [realRow_eq hsh]
  obtain ⟨hkr, hb⟩ := hst
  unfold realDense realMatrix
  generalize l.kernelT = K at hkr
  generalize l.biasV = B at hb
  refine ⟨by simp, ?_⟩
  induction hkr generalizing b B with
  | nil => simp
  | @cons c row W K h1 _ ih =>
    cases hb with
    | nil => simp
    | @cons a v b B h2 h3 =>
      simp only [List.map_cons, List.zipWith_cons_cons, List.zip_cons_cons]
      refine .cons ?_ (ih _ h3)
      have i1 := neuron_drift h1 hw
      have i2 : |((real 0 (sx * sw) a : ℚ) : ℝ) - (v : ℝ)| ≤ ((biasErr S v : ℚ) : ℝ) := by exact_mod_cast h2.2 hP
      refine (hF _ _).trans (mul_le_mul_of_nonneg_left ?_ hk)
      unfold realNeuronDrift
      have e : realDot (c.map (real 0 sw)) u + ((real 0 (sx * sw) a : ℚ) : ℝ) - (realDot row t + (v : ℝ)) =
          (realDot (c.map (real 0 sw)) u - realDot row t) + (((real 0 (sx * sw) a : ℚ) : ℝ) - (v : ℝ)) := by ring
      rw [e]
      refine (abs_add_le _ _).trans ?_
      linarith

theorem actLip_pos (name : String) : 0 ≤ actLip name := by unfold actLip; split_ifs <;> norm_num

theorem realAct_lip (name : String) (x y : ℝ) : |realAct name x - realAct name y| ≤ actLip name * |x - y| := by
  have m0 : ∀ a b : ℝ, |max 0 a - max 0 b| ≤ |a - b| := fun a b =>
    (abs_max_sub_max_le_max 0 a 0 b).trans (max_le (by simp) (le_refl _))
  unfold realAct actLip
  by_cases h1 : upper name = "TANH".toList
  · rw [if_pos h1, if_neg (by rw [h1]; decide), one_mul]; exact RealFn.tanh_lip x y
  · by_cases h2 : upper name = "SIGMOID".toList
    · rw [if_neg h1, if_pos h2, if_pos h2]; exact RealFn.sigmoid_lip x y
    · rw [if_neg h1, if_neg h2, if_neg h2, one_mul]
      split_ifs
      · exact m0 x y
      · exact (abs_min_sub_min_le_max 6 _ 6 _).trans (max_le (by simp) (m0 x y))
      · exact le_refl _

/-- Shapes of dense layers. -/
def Shapes : ℕ → List KDense → Prop
  | _, [] => True
  | n, l :: ls => ShapeOk l n ∧ n ≤ 2 ^ 14 ∧ Shapes l.units ls

theorem shapes {cfg : Cfg} (ls : List KLayer) : ∀ {n : ℕ}, RealLayers cfg n ls → Shapes n (denseLayers ls) := by
  induction ls with
  | nil => intro n _; trivial
  | cons l ls ih =>
    intro n h
    cases l with
    | lstm l => exact absurd h id
    | other => exact absurd h id
    | dropout => exact ih (n := n) h
    | input => exact ih (n := n) h
    | dense l =>
      obtain ⟨h1, h2, -, -, h4⟩ := h
      exact ⟨h1, h2, ih h4⟩

/-- The factors of the file's dense operators are neither tiny nor huge. -/
def RealFactors : List RealOp → Prop
  | [] => True
  | .dense sx _ sw _ _ _ so _ _ :: fs =>
    (2 : ℚ) ^ (-126 : ℤ) ≤ sx * sw ∧ 1 / 999999 ≤ sx * sw / so ∧ sx * sw / so ≤ 2 ^ 29 ∧ RealFactors fs
  | .act .. :: fs => RealFactors fs

theorem factors {ops : List OpJ} {rs : List RealOp} (h : List.Forall₂ RealMeans ops rs) (hf : FileFactors ops) : RealFactors rs := by
  induction h with
  | nil => trivial
  | @cons op f ops fs h1 _ ih =>
    have ih := ih (fun o ho => hf o (List.mem_cons_of_mem _ ho))
    cases h1 with
    | @dense i k c o rest kt ct sx zx sw zw W b so zo g ht hin hout hi hk hkt hW hct hb ho ho8 =>
      obtain ⟨a, b, c⟩ := hf op List.mem_cons_self sx sw so zo ht (by
        unfold fcParams
        rw [hin, hout]
        simp only [List.getElem?_cons_zero, List.getElem?_cons_succ, Option.bind_eq_bind, Option.bind_some, hi.1, hk.1, ho.1,
          ho.2])
      exact ⟨a, b, c, ih⟩
    | tanh => exact ih
    | sigmoid => exact ih
    | relu => exact ih

theorem real_fits {l : KDense} {n : ℕ} (hsh : ShapeOk l n) (hn : n ≤ 2 ^ 14) {sx sw S so : ℚ} {zx zo : ℤ}
    {W : List (List ℤ)} {b : List ℤ} (hst : Stores l sx sw S W b) (hso : 0 < so) (hzo : Code (-128) 127 zo)
    (hzx : Code (-128) 127 zx) (f1 : (2 : ℚ) ^ (-126 : ℤ) ≤ sx * sw) (f2 : 1 / 999999 ≤ sx * sw / so)
    (f3 : sx * sw / so ≤ 2 ^ 29) (G : ℝ → ℝ) :
    (RealOp.dense sx zx sw 0 W b so zo G).Fits n ∧ W.length = l.units :=
  FloatExport.dense_fits hsh hn hst hso hzo hzx f1 f2 f3 id

theorem exported_fits {M : ℚ → ℚ} {δ : ℚ} {p : ℚ × ℤ} {ls : List KDense} {rs : List RealOp} (h : ExportedReal M δ p ls rs) :
    ∀ {n : ℕ}, Shapes n ls → RealFactors rs → Code (-128) 127 p.2 → realFits p rs n := by
  induction h with
  | nil p => intro n _ _ _; trivial
  | plain hact hst hsw hso hzo hrest ih =>
    intro n hs hf hz
    obtain ⟨hsh, hn, hs⟩ := hs
    obtain ⟨f1, f2, f3, hf⟩ := hf
    obtain ⟨d1, d2⟩ := real_fits hsh hn hst hso hzo hz f1 f2 f3 _
    refine ⟨rfl, d1, ?_⟩
    simp only [RealOp.writes, RealOp.size, d2]
    exact ih hs hf hzo
  | tanh hact hst hsw hso hzo hsa hza hrest ih =>
    intro n hs hf hz
    obtain ⟨hsh, hn, hs⟩ := hs
    obtain ⟨f1, f2, f3, hf⟩ := hf
    obtain ⟨d1, d2⟩ := real_fits hsh hn hst hso hzo hz f1 f2 f3 _
    refine ⟨rfl, d1, rfl, ⟨?_, hza⟩, ?_⟩
    · simp only [RealOp.size, d2]; exact hsh.units
    · simp only [RealOp.writes, RealOp.size, d2]
      exact ih hs hf hza
  | sigmoid hact hst hsw hso hzo hsa hza hrest ih =>
    intro n hs hf hz
    obtain ⟨hsh, hn, hs⟩ := hs
    obtain ⟨f1, f2, f3, hf⟩ := hf
    obtain ⟨d1, d2⟩ := real_fits hsh hn hst hso hzo hz f1 f2 f3 _
    refine ⟨rfl, d1, rfl, ⟨?_, hza⟩, ?_⟩
    · simp only [RealOp.size, d2]; exact hsh.units
    · simp only [RealOp.writes, RealOp.size, d2]
      exact ih hs hf hza

theorem steady {M : ℚ → ℚ} {δ : ℚ} {p : ℚ × ℤ} {ls : List KDense} {rs : List RealOp} (h : ExportedReal M δ p ls rs) : Steady rs := by
  intro sx zx sw zw W b so zo G hm
  induction h with
  | nil => cases hm
  | plain hact hst hsw hso hzo hrest ih =>
    rename_i l _ _ _ _ _ _ _ _ _
    rcases List.mem_cons.mp hm with hm | hm
    · cases hm
      intro u v
      refine (realAct_lip l.actName u v).trans ?_
      have : actLip l.actName ≤ 1 := by unfold actLip; split_ifs <;> norm_num
      nlinarith [abs_nonneg (u - v)]
    · exact ih hm
  | tanh hact hst hsw hso hzo hsa hza hrest ih =>
    rcases List.mem_cons.mp hm with hm | hm
    · cases hm; intro u v; exact le_refl _
    · rcases List.mem_cons.mp hm with hm | hm
      · cases hm
      · exact ih hm
  | sigmoid hact hst hsw hso hzo hsa hza hrest ih =>
    rcases List.mem_cons.mp hm with hm | hm
    · cases hm; intro u v; exact le_refl _
    · rcases List.mem_cons.mp hm with hm | hm
      · cases hm
      · exact ih hm

/-- The model, layer by layer. -/
noncomputable def foldReal (ls : List KDense) (t : List ℝ) : List ℝ :=
  ls.foldl (fun x l => (realRow l x).map (realAct l.actName)) t

/-- What the stored network means against the model. -/
theorem drift_within {M : ℚ → ℚ} {δ : ℚ} {p : ℚ × ℤ} {ls : List KDense} {rs : List RealOp} (h : ExportedReal M δ p ls rs) :
    ∀ {n : ℕ}, Shapes n ls → RealFactors rs → ∀ {u t d : List ℝ}, WithinR u t d →
        WithinR (realFile rs u) (foldReal ls t) (realDrift M rs ls t d) := by
  induction h with
  | nil p => intro n _ _ u t d hw; exact hw
  | @plain l ls rs sx zx sw so zo W b hact hst hsw hso hzo hrest ih =>
    intro n hs hf u t d hw
    obtain ⟨hsh, hn, hs⟩ := hs
    obtain ⟨f1, f2, f3, hf⟩ := hf
    exact ih hs hf (dense_drift hsh hst f1 (actLip_pos _) (realAct_lip l.actName) hw)
  | @tanh l ls rs sx zx sw so zo sa za W b hact hst hsw hso hzo hsa hza hrest ih =>
    intro n hs hf u t d hw
    obtain ⟨hsh, hn, hs⟩ := hs
    obtain ⟨f1, f2, f3, hf⟩ := hf
    have h2 := ih hs hf (dense_drift hsh hst f1 (actLip_pos _) (realAct_lip l.actName) hw)
    have e : realAct l.actName = Real.tanh := by unfold realAct; rw [if_pos hact]
    rw [e] at h2
    simp only [realFile, RealOp.exact, List.map_id, realDrift, foldReal, List.foldl_cons, e]
    exact h2
  | @sigmoid l ls rs sx zx sw so zo sa za W b hact hst hsw hso hzo hsa hza hrest ih =>
    intro n hs hf u t d hw
    obtain ⟨hsh, hn, hs⟩ := hs
    obtain ⟨f1, f2, f3, hf⟩ := hf
    have h2 := ih hs hf (dense_drift hsh hst f1 (actLip_pos _) (realAct_lip l.actName) hw)
    have e : realAct l.actName = Real.sigmoid := by
      unfold realAct; rw [if_neg (by rw [hact]; decide), if_pos hact]
    rw [e] at h2
    simp only [realFile, RealOp.exact, List.map_id, realDrift, foldReal, List.foldl_cons, e]
    exact h2

theorem forward_fold (ls : List KLayer) : ∀ x, realForward ls x = foldReal (denseLayers ls) x := by
  induction ls with
  | nil => intro x; rfl
  | cons l ls ih =>
    intro x
    cases l with
    | dense l => exact ih _
    | lstm l => exact ih _
    | other => exact ih _
    | dropout => exact ih _
    | input => exact ih _

theorem within_trans {y : List ℚ} {t x E D : List ℝ} (h1 : WithinReal y t E) (h2 : WithinR t x D) :
    WithinReal y x (List.zipWith (· + ·) E D) := by
  obtain ⟨a, b⟩ := h1
  obtain ⟨c, d⟩ := h2
  have hlen : t.length = x.length := by rw [d.length_eq, List.length_zip, c, min_self]
  refine ⟨by simp [a, c, hlen], ?_⟩
  induction y generalizing t x E D with
  | nil =>
    cases t with
    | nil =>
      cases x with
      | nil => simp
      | cons u x => simp at hlen
    | cons u t =>
      cases E with
      | nil => simp at a
      | cons e E => cases b
  | cons v y ih =>
    cases t with
    | nil => cases b
    | cons u t =>
      cases E with
      | nil => simp at a
      | cons e E =>
        cases x with
        | nil => simp at hlen
        | cons w x =>
          cases D with
          | nil => simp at c
          | cons f D =>
            cases b with
            | cons b1 b2 =>
              cases d with
              | cons d1 d2 =>
                simp only [List.zipWith_cons_cons, List.zip_cons_cons]
                refine .cons ?_ (ih (by simpa using a) b2 (by simpa using c) d2 (by simpa using hlen))
                have := abs_sub_le (v : ℝ) u w
                simp only at b1 d1 ⊢
                linarith

theorem within_refl (x : List ℝ) : WithinR x x (x.map (fun _ => 0)) := by
  refine ⟨by simp, ?_⟩
  induction x with
  | nil => exact .nil
  | cons y x ih => exact .cons (by simp) ih

end RealKeras

open RealKeras Accuracy FloatEngine FloatExport in
/-- **C109** (the file): what the exporter writes in floating point arithmetic, over the real numbers. -/
theorem C109_file (F : Formats) (h1 : ∀ d, Ieee (F.data d)) (h2 : ∀ d, Ieee (F.weight d)) (h3 : Ieee F.product)
    (K : FloatKeras) (cfg : Cfg) (X : Arr ℚ) (ls : List KLayer) (n : ℕ)
    (h8 : RealLayers cfg n ls) (hq : NamesType cfg.quantizeDtype "int" 8) (δ : ℚ) (ha : RealActs K.act δ ls) (g : List OpJ)
    (h : (Arith.float F K).graph cfg X ls = some g) :
    ∃ s z rs, NetReal (exportJson g) s z rs ∧ 0 < s ∧ Code (-128) 127 z ∧ IsFloat 53 (-1074) (realLast (s, z) rs).1 ∧
      ExportedReal F.product.fl δ (s, z) (denseLayers ls) rs := by
  unfold Arith.graph at h
  rw [Accuracy.int8_of_names hq] at h
  simp only [Option.bind_eq_bind, Option.bind_some, Option.bind_eq_some_iff, Option.some.injEq] at h
  obtain ⟨p, hp, ⟨ops, t'⟩, hl, rfl⟩ := h
  obtain ⟨p1, p2, p3⟩ := cal_float h1 hp
  obtain ⟨dp, d8⟩ := declared_ok p.1 p.2 X.shape
  obtain ⟨ht', rs, m, l, e⟩ := RealKeras.layers_export h1 h2 h3 ls h8 ha
    (t := ⟨declared p.1 p.2 (intDtype 7) X.shape, p.1, p.2, X⟩) ⟨dp, d8, p2, p3⟩ hl
  simp only at l e
  refine ⟨p.1, p.2, rs, ⟨(by decide : upper "tflite" = "TFLITE".toList), ⟨_, rfl⟩, ⟨_, rfl⟩, ?_⟩, p1, p2, by rw [l]; exact ht'.float, e⟩
  refine ⟨_, ops, _, rfl, ⟨rfl, (by decide : contains "QUANT" (upper "QUANTIZE") = true), _, [], rfl, dp, d8⟩, m, rfl, _, [], rfl, ?_, ht'.int8⟩
  rw [l]; exact ht'.params

open RealKeras in
/-- **C109**: the quantized network in float64 against the Keras model over the real numbers. -/
theorem C109_accuracy (ext : Ext) (F : Formats) (h1 : ∀ d, Ieee (F.data d)) (h2 : ∀ d, Ieee (F.weight d)) (h3 : Ieee F.product)
    (K : FloatKeras) (cfg : Cfg) (X : Arr ℚ) (ls : List KLayer) (n : ℕ)
    (h8 : RealLayers cfg n ls) (hq : NamesType cfg.quantizeDtype "int" 8) (δ : ℚ) (ha : RealActs K.act δ ls) (g : List OpJ)
    (h : (Arith.float F K).graph cfg X ls = some g) (hg : FileFactors g) :
    ∃ s z rs, NetReal (exportJson g) s z rs ∧ ExportedReal F.product.fl δ (s, z) (denseLayers ls) rs ∧
      ∃ N, Fmt.f64.load (exportJson g) = some N ∧
        (∀ x : List ℚ, x.length = n → ∃ y rec, Fmt.f64.infer ext N (.flt (.vec x)) = some (.flt (.vec y), rec) ∧
          WithinReal y (realForward ls (x.map (↑))) (List.zipWith (· + ·)
            (realOutputBound (realFile rs (x.map (↑))) (realBound rs (x.map (↑)) ((inputBound s z x).map (↑))))
            (realDrift F.product.fl rs (denseLayers ls) (x.map (↑)) (x.map (fun _ => 0))))) ∧
        ∀ B : List (List ℚ), B ≠ [] → (∀ x ∈ B, x.length = n) →
          ∃ Y rec, Fmt.f64.infer ext N (.flt (.mat B)) = some (.flt (.mat Y), rec) ∧
            List.Forall₂ (fun (y x : List ℚ) => WithinReal y (realForward ls (x.map (↑))) (List.zipWith (· + ·)
              (realOutputBound (realFile rs (x.map (↑))) (realBound rs (x.map (↑)) ((inputBound s z x).map (↑))))
              (realDrift F.product.fl rs (denseLayers ls) (x.map (↑)) (x.map (fun _ => 0))))) Y B := by
  obtain ⟨s, z, rs, hm, hs, hz, hlast, he⟩ := C109_file F h1 h2 h3 K cfg X ls n h8 hq δ ha g h
  have hf : RealFactors rs := by
    obtain ⟨-, -, -, q, ops, d, hgr, -, hops, -⟩ := hm
    refine factors hops (fun op hop => hg op ?_)
    change g = _ at hgr
    rw [hgr]; simp [hop]
  refine ⟨s, z, rs, hm, he, ?_⟩
  obtain ⟨N, n1, n2, n3⟩ := C108_file ext (exportJson g) s z rs hm (steady he) hs hz n
    (exported_fits he (shapes ls h8) hf hz) hlast
  have hd : ∀ x : List ℚ, WithinR (realFile rs (x.map (↑))) (realForward ls (x.map (↑)))
      (realDrift F.product.fl rs (denseLayers ls) (x.map (↑)) (x.map (fun _ => 0))) := fun x => by
    rw [forward_fold]
    refine drift_within he (shapes ls h8) hf ?_
    have := within_refl (x.map (fun q : ℚ => (q : ℝ)))
    rw [List.map_map] at this
    exact this
  refine ⟨N, n1, ?_, ?_⟩
  · intro x hx
    obtain ⟨y, rec, e1, e2⟩ := n2 x hx
    exact ⟨y, rec, e1, RealKeras.within_trans e2 (hd x)⟩
  · intro B hB hx
    obtain ⟨Y, rec, e1, e2⟩ := n3 B hB hx
    exact ⟨Y, rec, e1, e2.imp (fun y x h => RealKeras.within_trans h (hd x))⟩

/-! ## A concrete model -/

namespace C109Case
open C95Case (layers formats keras)

theorem tanh_one : 3 / 4 ≤ Real.tanh 1 := by
  rw [RealFn.tanh_eq]
  have h : 7 / 8 ≤ Real.sigmoid (2 * 1) := by
    rw [Real.sigmoid_def, le_inv_comm₀ (by norm_num) (by positivity)]
    have e : Real.exp (-(2 * 1)) * (Real.exp 1 * Real.exp 1) = 1 := by rw [← Real.exp_add, ← Real.exp_add]; norm_num
    have h1 := Real.exp_one_gt_d9
    have h2 := Real.exp_pos (-(2 * 1))
    have h3 : 7 ≤ Real.exp 1 * Real.exp 1 := by nlinarith
    have h4 : Real.exp (-(2 * 1)) * 7 ≤ 1 := (mul_le_mul_of_nonneg_left h3 h2.le).trans e.le
    norm_num at h4 ⊢
    linarith
  linarith

/-- The hard tanh of the model of `C95Case` is a tanh up to 1/4. -/
theorem hard (a : ℚ) : |((clip (-1) 1 a : ℚ) : ℝ) - Real.tanh a| ≤ 1 / 4 := by
  have hc : ((clip (-1) 1 a : ℚ) : ℝ) = min (max (a : ℝ) (-1)) 1 := by
    unfold clip
    push_cast
    rw [min_comm, max_comm]
  have z : Real.tanh 0 = 0 := Real.tanh_zero
  have o := tanh_one
  have o' : Real.tanh (-1) = -Real.tanh 1 := Real.tanh_neg 1
  have l0 := abs_le.mp (RealFn.tanh_lip a 0)
  have l1 := abs_le.mp (RealFn.tanh_lip a 1)
  have l2 := abs_le.mp (RealFn.tanh_lip a (-1))
  have b1 := Real.neg_one_lt_tanh (a : ℝ)
  have b2 := Real.tanh_lt_one (a : ℝ)
  rw [hc]
  generalize (a : ℝ) = r at *
  rw [z] at l0
  rw [o'] at l2
  have mono : ∀ x y : ℝ, x ≤ y → Real.tanh x ≤ Real.tanh y := fun x y h => by
    rw [RealFn.tanh_eq, RealFn.tanh_eq]
    have := Real.sigmoid_monotone (show 2 * x ≤ 2 * y by linarith)
    linarith
  rcases le_total r (-1) with h | h
  · rw [max_eq_right h, min_eq_left (by norm_num)]
    have := mono r (-1) h
    rw [o'] at this
    rw [abs_le]; constructor <;> linarith
  · rw [max_eq_left h]
    rcases le_total r 1 with h' | h'
    · rw [min_eq_left h']
      rw [abs_of_nonpos (by linarith : r - 1 ≤ 0)] at l1
      rw [abs_of_nonneg (by linarith : 0 ≤ r - -1)] at l2
      rcases le_total r 0 with h0 | h0
      · rw [sub_zero, abs_of_nonpos h0] at l0
        rw [abs_le]; constructor <;> linarith
      · rw [sub_zero, abs_of_nonneg h0] at l0
        rw [abs_le]; constructor <;> linarith
    · rw [min_eq_right h']
      have := mono 1 r h'
      rw [abs_le]; constructor <;> linarith

theorem int8 : RealLayers {} 2 layers := by
  have hc : ∀ c, Cfg.denseFor {} "a" = some c → Int8Cfg c := by
    intro c hc
    rw [show Cfg.denseFor {} "a" = some {} from rfl, Option.some.injEq] at hc
    subst hc
    refine ⟨?_, ?_, ?_, ?_⟩ <;> (unfold NamesType; decide +kernel)
  exact ⟨⟨rfl, by norm_num, by norm_num, by simp⟩, by norm_num, hc, by decide,
    ⟨rfl, by norm_num, by norm_num, by simp⟩, by norm_num, hc, by decide, trivial⟩

/-- All hypotheses of `C109_accuracy` hold. -/
example (ext : Ext) : ∃ g, (Arith.float formats keras).graph {} (.mat [[1, -1/2]]) layers = some g ∧
    ∃ s z rs, NetReal (exportJson g) s z rs ∧ ExportedReal Fmt.f32.fl (1 / 4) (s, z) (denseLayers layers) rs ∧
      ∃ N, Fmt.f64.load (exportJson g) = some N ∧
        ∀ x : List ℚ, x.length = 2 → ∃ y rec, Fmt.f64.infer ext N (.flt (.vec x)) = some (.flt (.vec y), rec) ∧
          WithinReal y (realForward layers (x.map (↑))) (List.zipWith (· + ·)
            (realOutputBound (realFile rs (x.map (↑))) (realBound rs (x.map (↑)) ((inputBound s z x).map (↑))))
            (realDrift Fmt.f32.fl rs (denseLayers layers) (x.map (↑)) (x.map (fun _ => 0)))) := by
  obtain ⟨g, hg, hsc⟩ := C95Case.exported
  refine ⟨g, hg, ?_⟩
  have hff : FileFactors g := by
    intro op hop sx sw so zo ht hp
    have hm : (sx, sw, so, zo) ∈ g.filterMap (fun op => if op.opType = "FULLY_CONNECTED" then fcParams op else none) :=
      List.mem_filterMap.mpr ⟨op, hop, by rw [if_pos ht, hp]⟩
    rw [hsc] at hm
    simp only [List.mem_cons, List.not_mem_nil, or_false, Prod.mk.injEq] at hm
    have h126 : (2 : ℚ) ^ (-126 : ℤ) ≤ 2 ^ (-40 : ℤ) := zpow_le_zpow_right₀ (by norm_num) (by norm_num)
    have h40 : (2 : ℚ) ^ (-40 : ℤ) = 1 / 2 ^ 40 := by rw [zpow_neg]; norm_num
    rw [h40] at h126
    rcases hm with ⟨rfl, rfl, rfl, -⟩ | ⟨rfl, rfl, rfl, -⟩ <;>
      exact ⟨h126.trans (by norm_num), by norm_num, by norm_num⟩
  have hact : RealActs keras.act (1 / 4) layers := by
    intro l hl hu a
    simp only [layers, List.mem_cons, KLayer.dense.injEq, reduceCtorEq, false_or, List.not_mem_nil, or_false] at hl
    rcases hl with rfl | rfl
    · have e : realAct "tanh" = Real.tanh := by unfold realAct; exact if_pos (by decide)
      show |((clip (-1) 1 a : ℚ) : ℝ) - realAct "tanh" a| ≤ _
      rw [e]
      push_cast
      exact hard a
    · exact absurd hu (by decide)
  obtain ⟨s, z, rs, m, e, N, n1, n2, -⟩ := C109_accuracy ext formats (fun _ => .inl rfl) (fun _ => .inl rfl) (.inl rfl) keras {} _ layers 2 int8
    (by unfold NamesType; decide +kernel) (1 / 4) hact g hg hff
  exact ⟨s, z, rs, m, e, N, n1, n2⟩

end C109Case

end Verif
