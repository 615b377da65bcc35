import Verif.Model.FloatEngine
import Verif.Props.FloatDense
import Verif.Props.Accuracy
import Verif.Props.Sequential

/-!
# Property C92: the inference engine in IEEE binary64 arithmetic, on any int8 network file
-/

namespace Verif
open Spec

namespace Spec

/-- What an operator between the quantize and the dequantize operator of an int8 network file stands for: a dense layer
with integer weights `W` (scale `sw`, zero point `zw`) and biases `b`, from codes with parameters `(sx, zx)` to codes with
parameters `(so, zo)`, followed by a function `g` that is left to saturation (the identity, or a rectifier); or a function `f` applied by a look-up table. -/
inductive FileOp
  | dense (sx : ℚ) (zx : ℤ) (sw : ℚ) (zw : ℤ) (W : List (List ℤ)) (b : List ℤ) (so : ℚ) (zo : ℤ)
    (g : ℚ → ℚ)
  | act (f : ℚ → ℚ) (L τ : ℚ) (sx : ℚ) (zx : ℤ) (so : ℚ) (zo : ℤ)

/-- The real matrix the integers `W` stand for. -/
def realMatrix (z : ℤ) (s : ℚ) (W : List (List ℤ)) : List (List ℚ) := W.map (fun r => r.map (real z s))

/-- In real arithmetic. -/
def FileOp.exact : FileOp → List ℚ → List ℚ
  | .dense sx _ sw zw W b _ _ g, t => (denseQ (realMatrix zw sw W) (b.map (real 0 (sx * sw))) t).map g
  | .act f _ _ _ _ _ _, t => t.map f

/-- Error of the operator's output, if its real input is `t` and the codes it gets are off by at most `ε`:
the errors of the inputs times the weights, half an output step, the relative error of the multiplier (its 31 bits, and
float64), and what saturation cuts off. -/
def FileOp.bound : FileOp → List ℚ → List ℚ → List ℚ
  | .dense sx _ sw zw W b so zo g, t, ε =>
    List.zipWith (fun row y =>
        let e := (List.zipWith (fun w e => |w| * e) row ε).sum
        so / 2 + e + (|y| + e) * (1 / 2 ^ 31 + 1 / 2 ^ 51) + |saturate so zo y - g y|)
      (realMatrix zw sw W) (denseQ (realMatrix zw sw W) (b.map (real 0 (sx * sw))) t)
  | .act f L τ _ _ so zo, t, ε => List.zipWith (fun y e => L * e + τ + |saturate so zo (f y) - f y|) t ε

/-- Parameters of the codes an operator reads and writes. -/
def FileOp.reads : FileOp → ℚ × ℤ
  | .dense sx zx _ _ _ _ _ _ _ => (sx, zx)
  | .act _ _ _ sx zx _ _ => (sx, zx)

def FileOp.writes : FileOp → ℚ × ℤ
  | .dense _ _ _ _ _ _ so zo _ => (so, zo)
  | .act _ _ _ _ _ so zo => (so, zo)

/-- How many numbers it writes if it reads `n`. -/
def FileOp.size : FileOp → ℕ → ℕ
  | .dense _ _ _ _ W _ _ _ _, _ => W.length
  | .act .., n => n

/-- An operator that can read `n` codes: the matrix has `n` columns of int8 numbers, the biases are int32 numbers, and the
factor `sx·sw/so` is neither tiny nor huge; a function is Lipschitz. -/
def FileOp.Fits : FileOp → ℕ → Prop
  | .dense sx zx sw zw W b so zo _, n =>
    (2 : ℚ) ^ (-1022 : ℤ) ≤ sx * sw ∧ 0 < so ∧ 1 / 999999 ≤ sx * sw / so ∧ sx * sw / so ≤ 2 ^ 29 ∧
    Code (-128) 127 zx ∧ Code (-128) 127 zw ∧ Code (-128) 127 zo ∧ n ≤ 2 ^ 14 ∧ W ≠ [] ∧ b.length = W.length ∧
    (∀ r ∈ W, r.length = n ∧ ∀ w ∈ r, Code (-128) 127 w) ∧ ∀ v ∈ b, IsInt32 v
  | .act f L _ _ _ _ zo, n => 0 < n ∧ 0 ≤ L ∧ (∀ a b, |f a - f b| ≤ L * |a - b|) ∧ Code (-128) 127 zo

/-- A node with these quantization parameters. -/
def HasParams (n : NodeJ) (s : ℚ) (z : ℤ) : Prop := n.scale = some s ∧ n.zeroPoint = some z

/-- A node whose tensor is declared as int8. -/
def IsInt8 (n : NodeJ) : Prop := ∃ t, n.tensor = some t ∧ NamesType t.dtype "int" 8

/-- The operator of the file stands for `f`.  A ReLU operator whose results all are int8 codes moves the result by
`sx·(zx - zo)` (nothing if the zero points agree, C22) and is precise to one output step. -/
inductive FileMeans : OpJ → FileOp → Prop
  | dense {op : OpJ} {i k c o : NodeJ} {rest : List NodeJ} {kt ct : TensorJ} {sx : ℚ} {zx : ℤ} {sw : ℚ} {zw : ℤ}
      {W : List (List ℤ)} {b : List ℤ} {so : ℚ} {zo : ℤ} {g : ℚ → ℚ} (ht : op.opType = "FULLY_CONNECTED")
      (hin : op.inputs = [i, k, c]) (hout : op.outputs = o :: rest) (hi : HasParams i sx zx) (hk : HasParams k sw zw)
      (hkt : k.tensor = some kt) (hW : kt.data = some (.mat W)) (hct : c.tensor = some ct) (hb : ct.data = some (.vec b))
      (ho : HasParams o so zo) (ho8 : IsInt8 o) : FileMeans op (.dense sx zx sw zw W b so zo g)
  | act {op : OpJ} {f : ℚ → ℚ} {L τ sx : ℚ} {zx : ℤ} {so : ℚ} {zo : ℤ} {l : LutLayer}
      (ht : op.opType = "TANHLUT" ∨ op.opType = "SIGMOIDLUT") (hl : LutLayer.fromModel op = some l)
      (hq : ∀ q, Code (-128) 127 q → ∃ q', l.look q = some q' ∧ Code (-128) 127 q' ∧
        |real zo so q' - saturate so zo (f (real zx sx q))| ≤ τ) : FileMeans op (.act f L τ sx zx so zo)
  | relu {op : OpJ} {i o : NodeJ} {ri ro : List NodeJ} {sx : ℚ} {zx : ℤ} {so : ℚ} {zo : ℤ} (ht : op.opType = "RELU")
      (hin : op.inputs = i :: ri) (hout : op.outputs = o :: ro) (hi : HasParams i sx zx) (ho : HasParams o so zo)
      (hso : 0 < so) (hk : (2 : ℚ) ^ (-1022 : ℤ) ≤ sx / so) (hzx : Code (-128) 127 zx)
      (hlo : -128 ≤ zo + sx / so * ((zx : ℚ) - zo)) (hhi : zo + sx / so * (127 - (zo : ℚ)) ≤ 127) :
      FileMeans op (.act (fun v => max 0 v + sx * (zx - zo)) 1 (so * (1 + 1 / 2 ^ 40)) sx zx so zo)

/-- The real function of the operators, and the error at the end. -/
def fileExact : List FileOp → List ℚ → List ℚ
  | [], t => t
  | o :: os, t => fileExact os (o.exact t)

def fileBound : List FileOp → List ℚ → List ℚ → List ℚ
  | [], _, ε => ε
  | o :: os, t, ε => fileBound os (o.exact t) (o.bound t ε)

/-- Every operator reads the codes the previous one writes. -/
def fileFits : ℚ × ℤ → List FileOp → ℕ → Prop
  | _, [], _ => True
  | p, o :: os, n => o.reads = p ∧ o.Fits n ∧ fileFits o.writes os (o.size n)

/-- Parameters of the last codes. -/
def fileLast : ℚ × ℤ → List FileOp → ℚ × ℤ
  | p, [] => p
  | _, o :: os => fileLast o.writes os

/-- A network file: a quantize operator to int8 codes with parameters `(s, z)`, operators, and a dequantize operator. -/
structure NetMeans (net : NetJ) (s : ℚ) (z : ℤ) (fs : List FileOp) : Prop where
  engine : upper net.engine = "TFLITE".toList
  input : ∃ i, net.input[0]? = some (some i)
  output : ∃ o, net.output[0]? = some (some o)
  graph : ∃ q ops d, net.graph = q :: ops ++ [d] ∧
    (q.opType = "QUANTIZE" ∧ contains "QUANT" (upper q.name) = true ∧ ∃ o rest, q.outputs = o :: rest ∧ HasParams o s z ∧ IsInt8 o) ∧
    List.Forall₂ FileMeans ops fs ∧
    (d.opType = "DEQUANTIZE" ∧ ∃ i rest, d.inputs = i :: rest ∧
      HasParams i (fileLast (s, z) fs).1 (fileLast (s, z) fs).2 ∧ IsInt8 i)

/-- Error of the codes for the input numbers `x`: half a step, the rounding errors of three float64 operations, and what
saturation cuts off. -/
def inputBound (s : ℚ) (z : ℤ) (x : List ℚ) : List ℚ :=
  x.map (fun v => s * (1 / 2 + (4 * |v / s| + 4 * |(z : ℚ)| + 1) / 2 ^ 53) + |saturate s z v - v|)

/-- One more rounding when the result is dequantized. -/
def outputBound (t ε : List ℚ) : List ℚ := List.zipWith (fun y e => e + (|y| + e) / 2 ^ 53) t ε

/-- Elementwise: `y` is within `E` of `t`. -/
def Within (y t E : List ℚ) : Prop :=
  E.length = t.length ∧ List.Forall₂ (fun (a : ℚ) (p : ℚ × ℚ) => |a - p.1| ≤ p.2) y (t.zip E)

end Spec

namespace FloatEngine
open Accuracy Keras

theorem code_int32 {z : ℤ} (h : Code (-128) 127 z) : IsInt32 z := by unfold IsInt32; unfold Code at h; omega

theorem quant_sat {s : ℚ} (hs : 0 < s) {z : ℤ} (hz : Code (-128) 127 z) (x : ℚ) :
    Code (-128) 127 (Fmt.f64.quantize (intDtype 7) x z s) ∧
      |real z s (Fmt.f64.quantize (intDtype 7) x z s) - saturate s z x| ≤
        s * (1 / 2 + (4 * |x / s| + 4 * |(z : ℚ)| + 1) / 2 ^ 53) := by
  have hr := (C72_float_range (intDtype 7) int8_fits x z s 0 hs.ne').1
  rw [int8_range.1, int8_range.2] at hr
  refine ⟨hr, ?_⟩
  obtain ⟨a1, a2, a3⟩ := C72_float_accuracy (intDtype 7) int8_fits x z (code_int32 hz) s hs
  rw [int8_range.1, int8_range.2] at a1
  rw [int8_range.2] at a2
  rw [int8_range.1] at a3
  have hpos : 0 ≤ s * (1 / 2 + (4 * |x / s| + 4 * |(z : ℚ)| + 1) / 2 ^ 53) := by positivity
  have hmm : real z s (-128) ≤ real z s 127 := real_mono hs z (by norm_num)
  rcases le_total (real z s (-128)) x with h1 | h1
  · rcases le_total x (real z s 127) with h2 | h2
    · have e : saturate s z x = x := by unfold saturate; rw [min_eq_right h2, max_eq_right h1]
      rw [e]
      exact a1 h1 h2
    · rw [a2 h2]
      have : saturate s z x = real z s 127 := by unfold saturate; rw [min_eq_left h2, max_eq_right hmm]
      rw [this, sub_self, abs_zero]; exact hpos
  · rw [a3 h1]
    have : saturate s z x = real z s (-128) := by
      unfold saturate; rw [max_eq_left (le_trans (min_le_right _ _) h1)]
    rw [this, sub_self, abs_zero]; exact hpos

theorem quant_near {s : ℚ} (hs : 0 < s) {z : ℤ} (hz : Code (-128) 127 z) (x : ℚ) :
    Code (-128) 127 (Fmt.f64.quantize (intDtype 7) x z s) ∧
      |real z s (Fmt.f64.quantize (intDtype 7) x z s) - x| ≤
        s * (1 / 2 + (4 * |x / s| + 4 * |(z : ℚ)| + 1) / 2 ^ 53) + |saturate s z x - x| := by
  obtain ⟨h1, h2⟩ := quant_sat hs hz x
  refine ⟨h1, ?_⟩
  have := abs_add_le (real z s (Fmt.f64.quantize (intDtype 7) x z s) - saturate s z x) (saturate s z x - x)
  rw [sub_add_sub_cancel] at this
  linarith

theorem quant_close {s : ℚ} (hs : 0 < s) {z : ℤ} (hz : Code (-128) 127 z) (x : List ℚ) :
    Close s z (x.map (fun v => Fmt.f64.quantize (intDtype 7) v z s)) x (inputBound s z x) := by
  unfold Close inputBound
  refine ⟨by simp, ?_⟩
  induction x with
  | nil => exact .nil
  | cons v x ih => exact .cons (quant_near hs hz v) ih

theorem dot_near {s : ℚ} {z : ℤ} {c : List ℤ} {t ε : List ℚ} (h : Close s z c t ε) (row : List ℚ) :
    |dotQ row (c.map (real z s)) - dotQ row t| ≤ (List.zipWith (fun w e => |w| * e) row ε).sum := by
  obtain ⟨hl, h⟩ := h
  induction row generalizing c t ε with
  | nil => simp [dotQ]
  | cons w row ih =>
    cases t with
    | nil =>
      cases h
      simp only [List.length_nil, List.length_eq_zero_iff] at hl
      subst hl
      simp [dotQ]
    | cons u t =>
      cases ε with
      | nil => simp at hl
      | cons e ε =>
        cases h with
        | @cons a _ c' _ h1 h2 =>
          have i := ih (by simpa using hl) h2
          simp only [dotQ, List.map_cons, List.zipWith_cons_cons, List.sum_cons] at i ⊢
          have e1 : w * real z s a + (List.zipWith (· * ·) row (c'.map (real z s))).sum - (w * u + (List.zipWith (· * ·) row t).sum)
              = w * (real z s a - u) + ((List.zipWith (· * ·) row (c'.map (real z s))).sum - (List.zipWith (· * ·) row t).sum) := by
            ring
          rw [e1]
          refine (abs_add_le _ _).trans (add_le_add ?_ i)
          rw [abs_mul]
          exact mul_le_mul_of_nonneg_left h1.2 (abs_nonneg _)

/-- The factor in float64, for a factor that is neither tiny nor huge. -/
theorem factor_near {sx sw so : ℚ} (h1 : (2 : ℚ) ^ (-1022 : ℤ) ≤ sx * sw) (hso : 0 < so) (hm : 1 / 999999 ≤ sx * sw / so)
    (hM : sx * sw / so ≤ 2 ^ 29) :
    1 / 1000000 ≤ Fmt.f64.multiplier sx sw so ∧ (Mult.build (Fmt.f64.multiplier sx sw so)).isSome := by
  have herr := Fmt.multiplier_err Fmt.f64 (by decide) (is := sx) (ws := sw) (os := so) (by
    have e : Fmt.f64.emin + (Fmt.f64.p : ℤ) - 1 = -1022 := by decide
    rw [e]; exact h1) hso (by
    refine le_trans ?_ hm
    have : (2 : ℚ) ^ (Fmt.f64.emin + Fmt.f64.p) ≤ 2 ^ (-(20 : ℤ)) := zpow_le_zpow_right₀ (by norm_num) (by decide)
    refine le_trans this ?_
    rw [zpow_neg]; norm_num)
  rw [show (2 : ℚ) ^ Fmt.f64.p = 2 ^ 53 from rfl] at herr
  obtain ⟨a, b⟩ := abs_le.mp herr
  constructor
  · have : (1 : ℚ) / 1000000 ≤ 1 / 999999 * (1 - 3 / 2 ^ 53) := by norm_num
    have h2 : 1 / 999999 * (1 - 3 / 2 ^ 53) ≤ sx * sw / so * (1 - 3 / 2 ^ 53) :=
      mul_le_mul_of_nonneg_right hm (by norm_num)
    linarith
  · rw [C16_build_iff]
    have h2 : sx * sw / so * (3 / 2 ^ 53) ≤ 2 ^ 29 * (3 / 2 ^ 53) := mul_le_mul_of_nonneg_right hM (by norm_num)
    have : (2 : ℚ) ^ 29 + 2 ^ 29 * (3 / 2 ^ 53) < 2 ^ 30 * (1 - 1 / 2 ^ 32) := by norm_num
    linarith

theorem dense_step {sx : ℚ} {zx : ℤ} {sw : ℚ} {zw : ℤ} {W : List (List ℤ)} {b : List ℤ} {so : ℚ} {zo : ℤ} {g : ℚ → ℚ} {n : ℕ}
    (hf : (FileOp.dense sx zx sw zw W b so zo g).Fits n) {l : FC}
    (hl : Fmt.f64.buildFC sx zx sw zw n W b so zo (intDtype 7) = some l) {c : List ℤ} {t ε : List ℚ} (ht : t.length = n)
    (hc : Close sx zx c t ε) :
    ∃ out, l.infer (.vec c) = some (.vec out) ∧
      Close so zo out ((FileOp.dense sx zx sw zw W b so zo g).exact t) ((FileOp.dense sx zx sw zw W b so zo g).bound t ε) ∧
      l.WF ∧ l.bias.length = l.weights.length := by
  obtain ⟨h1, hso, hm, hM, hzx, hzw, hzo, hn, hne, hbl, hW, hb⟩ := hf
  have hfac := factor_near h1 hso hm hM
  have hcl : c.length = n := by
    rw [hc.2.length_eq, List.length_zip, hc.1, min_self, ht]
  have hcode : ∀ v ∈ c, Code (-128) 127 v := by
    intro v hv
    obtain ⟨i, hi, rfl⟩ := List.mem_iff_getElem.mp hv
    exact ((List.forall₂_iff_get.mp hc.2).2 i hi (by rw [← hc.2.length_eq]; exact hi)).1
  have hbounds : l.Bounds c := by
    have hl' := hl
    unfold Fmt.buildFC at hl'
    split at hl'
    · cases hl'
    rename_i p hp
    injection hl' with hl'
    subst hl'
    constructor
    · intro r hr
      simp only [List.mem_map] at hr
      obtain ⟨r', hr', rfl⟩ := hr
      simpa using (hW r' hr').1
    · exact build_wf hp
    · exact hn
    · exact hcl
    · simpa using hbl
    · intro v hv
      have := hcode v hv
      unfold Code at this
      rw [abs_le]; omega
    · unfold Code at hzx
      rw [abs_le]; constructor <;> simp only <;> omega
    · intro v hv
      have := hcode v hv
      unfold Code at this hzx
      rw [abs_le]; constructor <;> simp only <;> omega
    · intro r hr w hw
      simp only [List.mem_map] at hr
      obtain ⟨r', hr', rfl⟩ := hr
      simp only [List.mem_map] at hw
      obtain ⟨w', hw', rfl⟩ := hw
      have := (hW r' hr').2 w' hw'
      unfold Code at this hzw
      rw [abs_le]; omega
    · intro v hv
      have := hb v hv
      unfold IsInt32 at this
      rw [abs_le]; omega
    · unfold Code at hzo
      rw [abs_le]; constructor <;> simp only <;> omega
  obtain ⟨out, ho1, ho2, ho3⟩ := C75_float_dense_saturation sx zx sw zw n W b so zo (intDtype 7) l hl hso
    int8_fits.2.1 h1 hfac.1 c hbounds
  refine ⟨out, ho1, ?_, hbounds.wf, hbounds.biasLen⟩
  have hlen : (denseQ (realMatrix zw sw W) (b.map (real 0 (sx * sw))) t).length = W.length := by
    simp [denseQ, realMatrix, hbl]
  have hRl : (realMatrix zw sw W).length = W.length := by simp [realMatrix]
  have hBl : ((FileOp.dense sx zx sw zw W b so zo g).bound t ε).length = W.length := by
    simp only [FileOp.bound, List.length_zipWith, hRl, hlen, min_self]
  have hEl : ((FileOp.dense sx zx sw zw W b so zo g).exact t).length = W.length := by
    rw [← hlen]; exact List.length_map _
  refine ⟨by rw [hBl, hEl], ?_⟩
  rw [List.forall₂_iff_get]
  refine ⟨by rw [List.length_zip, hBl, hEl, min_self, ho2], ?_⟩
  intro j hj1 hj2
  have hjW : j < W.length := ho2 ▸ hj1
  have hjb : j < b.length := hbl ▸ hjW
  simp only [FileOp.bound, FileOp.exact, List.get_eq_getElem, List.getElem_zip, List.getElem_zipWith, List.getElem_map]
  obtain ⟨row, hrow⟩ : ∃ row, row = (realMatrix zw sw W)[j]'(by simpa [realMatrix] using hjW) := ⟨_, rfl⟩
  obtain ⟨β, hβ⟩ : ∃ β, β = (b.map (real 0 (sx * sw)))[j]'(by simpa using hjb) := ⟨_, rfl⟩
  have hY : (denseQ (realMatrix zw sw W) (b.map (real 0 (sx * sw))) t)[j]'(by rw [hlen]; exact hjW) = dotQ row t + β := by
    simp only [denseQ, List.getElem_zipWith, hrow, hβ]
  have hYa : (denseQ (realMatrix zw sw W) (b.map (real 0 (sx * sw))) (c.map (real zx sx)))[j]? =
      some (dotQ row (c.map (real zx sx)) + β) := by
    have hlen' : (denseQ (realMatrix zw sw W) (b.map (real 0 (sx * sw))) (c.map (real zx sx))).length = W.length := by
      simp [denseQ, realMatrix, hbl]
    rw [List.getElem?_eq_getElem (by rw [hlen']; exact hjW)]
    simp only [denseQ, List.getElem_zipWith, hrow, hβ]
  rw [hY, ← hrow]
  obtain ⟨hcd, hacc⟩ := ho3 j (out[j]) _ (List.getElem?_eq_getElem hj1) hYa
  rw [int8_range.1, int8_range.2] at hcd hacc
  refine ⟨hcd, ?_⟩
  have hdot := dot_near hc row
  obtain ⟨e, he⟩ : ∃ e, e = (List.zipWith (fun w e => |w| * e) row ε).sum := ⟨_, rfl⟩
  rw [← he] at hdot ⊢
  obtain ⟨Y, hYd⟩ : ∃ Y, Y = dotQ row t + β := ⟨_, rfl⟩
  obtain ⟨A, hAd⟩ : ∃ A, A = dotQ row (c.map (real zx sx)) + β := ⟨_, rfl⟩
  rw [← hYd]
  rw [← hAd] at hacc
  have hAY : |A - Y| ≤ e := by rw [hAd, hYd]; simpa using hdot
  have hsat : |saturate so zo A - saturate so zo Y| ≤ |A - Y| := rat_clip_sub_le _ _ _ _
  have hA : |A| ≤ |Y| + e := by
    have := abs_sub_abs_le_abs_sub A Y
    linarith
  have hacc' : |real zo so out[j] - saturate so zo A| ≤ so / 2 + (|Y| + e) * (1 / 2 ^ 31 + 1 / 2 ^ 51) :=
    le_trans hacc (by
      have := mul_le_mul_of_nonneg_right hA (show (0 : ℚ) ≤ 1 / 2 ^ 31 + 1 / 2 ^ 51 by norm_num)
      linarith)
  have tri : real zo so out[j] - g Y = (real zo so out[j] - saturate so zo A) + (saturate so zo A - saturate so zo Y) +
      (saturate so zo Y - g Y) := by ring
  rw [tri]
  refine (abs_add_le _ _).trans ?_
  have := abs_add_le (real zo so out[j] - saturate so zo A) (saturate so zo A - saturate so zo Y)
  linarith

/-- `zo + k·(y - zo)` of the ReLU layer, in float64. -/
theorem relu_near {iS oS : ℚ} (hk : (2 : ℚ) ^ (-1022 : ℤ) ≤ iS / oS) {zo y : ℤ} (hz : |zo| ≤ 128)
    (hfit : |(zo : ℚ) + iS / oS * ((y : ℚ) - zo)| ≤ 128) :
    |Fmt.f64.fl (zo + Fmt.f64.fl (Fmt.f64.fl (iS / oS) * ((y : ℚ) - zo))) - (zo + iS / oS * ((y : ℚ) - zo))| ≤ 1 / 2 ^ 40 := by
  obtain ⟨κ, hκ⟩ : ∃ κ, κ = iS / oS := ⟨_, rfl⟩
  rw [← hκ] at hk hfit ⊢
  have hκ0 : 0 < κ := lt_of_lt_of_le (by positivity) hk
  have hk1 := Fmt.fl_err_normal Fmt.f64 κ (by
    rw [abs_of_pos hκ0]
    exact le_trans (le_of_eq (by congr 1)) hk)
  rw [abs_of_pos hκ0, show (2 : ℚ) ^ Fmt.f64.p = 2 ^ 53 from rfl] at hk1
  obtain ⟨k, hkd⟩ : ∃ k, k = Fmt.f64.fl κ := ⟨_, rfl⟩
  rw [← hkd] at hk1 ⊢
  obtain ⟨D, hD⟩ : ∃ D : ℚ, D = (y : ℚ) - zo := ⟨_, rfl⟩
  rw [← hD] at hfit ⊢
  have hzq : |(zo : ℚ)| ≤ 128 := by exact_mod_cast hz
  have hκD : |κ * D| ≤ 256 := by
    have := abs_sub_abs_le_abs_sub (κ * D) (-(zo : ℚ))
    rw [abs_neg, sub_neg_eq_add, add_comm (κ * D)] at this
    linarith
  have hkD : |k * D - κ * D| ≤ 256 / 2 ^ 53 := by
    rw [← sub_mul, abs_mul]
    calc |k - κ| * |D| ≤ κ / 2 ^ 53 * |D| := mul_le_mul_of_nonneg_right hk1 (abs_nonneg _)
      _ = |κ * D| / 2 ^ 53 := by rw [abs_mul, abs_of_pos hκ0]; ring
      _ ≤ 256 / 2 ^ 53 := div_le_div_of_nonneg_right hκD (by norm_num)
  have hδ : (2 : ℚ) ^ Fmt.f64.emin / 2 ≤ 1 / 2 ^ 53 := by
    have : (2 : ℚ) ^ Fmt.f64.emin ≤ 2 ^ (-(53 : ℤ)) := zpow_le_zpow_right₀ (by norm_num) (by decide)
    have e : (2 : ℚ) ^ (-(53 : ℤ)) = 1 / 2 ^ 53 := by rw [zpow_neg]; norm_num
    rw [e] at this
    have h0 : (0 : ℚ) < 1 / 2 ^ 53 := by norm_num
    linarith
  have ha := Fmt.fl_err Fmt.f64 (k * D)
  obtain ⟨a, had⟩ : ∃ a, a = Fmt.f64.fl (k * D) := ⟨_, rfl⟩
  rw [← had] at ha ⊢
  have hkD' : |k * D| ≤ 257 := by
    have := abs_sub_abs_le_abs_sub (k * D) (κ * D)
    have : (256 : ℚ) / 2 ^ 53 ≤ 1 := by norm_num
    linarith
  have ha' : |a - k * D| ≤ 257 / 2 ^ 53 := by
    refine ha.trans (max_le ?_ ?_)
    · exact div_le_div_of_nonneg_right hkD' (by norm_num)
    · exact hδ.trans (by norm_num)
  have hb := Fmt.fl_err Fmt.f64 ((zo : ℚ) + a)
  obtain ⟨b, hbd⟩ : ∃ b, b = Fmt.f64.fl ((zo : ℚ) + a) := ⟨_, rfl⟩
  rw [← hbd] at hb ⊢
  have hs : |(zo : ℚ) + a - (zo + κ * D)| ≤ 513 / 2 ^ 53 := by
    have e : (zo : ℚ) + a - (zo + κ * D) = (a - k * D) + (k * D - κ * D) := by ring
    rw [e]
    refine (abs_add_le _ _).trans ?_
    have : (257 : ℚ) / 2 ^ 53 + 256 / 2 ^ 53 = 513 / 2 ^ 53 := by norm_num
    linarith
  have hsa : |(zo : ℚ) + a| ≤ 129 := by
    have := abs_sub_abs_le_abs_sub ((zo : ℚ) + a) (zo + κ * D)
    have : (513 : ℚ) / 2 ^ 53 ≤ 1 := by norm_num
    linarith
  have hb' : |b - (zo + a)| ≤ 129 / 2 ^ 53 := by
    refine hb.trans (max_le ?_ ?_)
    · exact div_le_div_of_nonneg_right hsa (by norm_num)
    · exact hδ.trans (by norm_num)
  have e : b - (zo + κ * D) = (b - (zo + a)) + ((zo : ℚ) + a - (zo + κ * D)) := by ring
  rw [e]
  refine (abs_add_le _ _).trans ?_
  have : (129 : ℚ) / 2 ^ 53 + 513 / 2 ^ 53 ≤ 1 / 2 ^ 40 := by norm_num
  linarith

theorem relu_float {iS oS : ℚ} (hk : (2 : ℚ) ^ (-1022 : ℤ) ≤ iS / oS) (ho : 0 < oS) {zi zo x : ℤ} (hx : Code (-128) 127 x)
    (hzo : Code (-128) 127 zo) (hlo : -128 ≤ zo + iS / oS * ((max x zi : ℤ) - zo))
    (hhi : zo + iS / oS * ((max x zi : ℤ) - zo) ≤ 127) :
    Code (-128) 127 (Fmt.f64.reluElem ⟨Fmt.f64.fl (iS / oS), zi, zo⟩ x) ∧
      |real zo oS (Fmt.f64.reluElem ⟨Fmt.f64.fl (iS / oS), zi, zo⟩ x) - (max 0 (real zi iS x) + iS * (zi - zo))| ≤
        oS * (1 + 1 / 2 ^ 40) := by
  have hκ0 : 0 < iS / oS := lt_of_lt_of_le (by positivity) hk
  have hi : 0 < iS := by
    have := mul_pos hκ0 ho
    rwa [div_mul_cancel₀ _ ho.ne'] at this
  unfold Fmt.reluElem
  simp only
  have hw : wrapS 16 x = x := wrapS_of_mem (b := 15) (by have := hx.1; omega) (by have := hx.2; omega)
  rw [hw]
  obtain ⟨y, hy⟩ : ∃ y, y = max x zi := ⟨_, rfl⟩
  rw [← hy] at hlo hhi ⊢
  unfold Code at hx hzo
  have hn := relu_near hk (y := y) (zo := zo) (by rw [abs_le]; omega) (by rw [abs_le]; constructor <;> linarith)
  obtain ⟨t, ht⟩ : ∃ t, t = (zo : ℚ) + iS / oS * ((y : ℚ) - zo) := ⟨_, rfl⟩
  obtain ⟨b, hb⟩ : ∃ b, b = Fmt.f64.fl (zo + Fmt.f64.fl (Fmt.f64.fl (iS / oS) * ((y : ℚ) - zo))) := ⟨_, rfl⟩
  rw [← ht] at hlo hhi hn
  rw [← hb] at hn ⊢
  obtain ⟨n1, n2⟩ := abs_le.mp hn
  have htr := abs_trunc_sub_lt b
  obtain ⟨r1, r2⟩ := abs_lt.mp htr
  have h40 : (1 : ℚ) / 2 ^ 40 < 1 / 2 := by norm_num
  have g1 : (-128 : ℤ) ≤ trunc b := by
    by_contra hc
    have hc' : trunc b ≤ -129 := by omega
    have hneg : ¬ (0 : ℚ) ≤ b := by
      intro h0
      have := trunc_mono h0
      rw [show trunc 0 = 0 by decide +kernel] at this
      omega
    have : trunc b = ⌈b⌉ := by unfold trunc; rw [if_neg hneg]
    rw [this] at hc'
    have h5 : (⌈b⌉ : ℚ) ≤ -129 := by exact_mod_cast hc'
    have := Int.le_ceil b
    linarith
  have g2 : trunc b ≤ 127 := by
    by_contra hc
    have hc' : 128 ≤ trunc b := by omega
    have hpos : (0 : ℚ) ≤ b := by
      by_contra h0
      have := trunc_mono (le_of_lt (not_le.mp h0))
      rw [show trunc 0 = 0 by decide +kernel] at this
      omega
    have : trunc b = ⌊b⌋ := by unfold trunc; rw [if_pos hpos]
    rw [this] at hc'
    have h5 : (128 : ℚ) ≤ ⌊b⌋ := by exact_mod_cast hc'
    have := Int.floor_le b
    linarith
  rw [wrapS_of_mem (b := 7) (by omega) (by omega)]
  refine ⟨⟨g1, g2⟩, ?_⟩
  have hmax : max 0 (real zi iS x) + iS * (zi - zo) = oS * (t - zo) := by
    have e : oS * (t - zo) = iS * (((y : ℤ) : ℚ) - zo) := by
      rw [ht]; field_simp; ring
    rw [e, hy]
    unfold real
    rcases le_total x zi with h | h
    · rw [max_eq_right h]
      have : (x : ℚ) ≤ zi := by exact_mod_cast h
      rw [max_eq_left (by nlinarith)]; ring
    · rw [max_eq_left h]
      have : (zi : ℚ) ≤ x := by exact_mod_cast h
      rw [max_eq_right (by nlinarith)]; ring
  rw [hmax]
  unfold real
  rw [← mul_sub, abs_mul, abs_of_pos ho]
  refine mul_le_mul_of_nonneg_left ?_ ho.le
  rw [abs_le]
  constructor <;> linarith

theorem act_step {f : ℚ → ℚ} {L τ sx : ℚ} {zx : ℤ} {so : ℚ} {zo : ℤ} {look : ℤ → Option ℤ} (hL : 0 ≤ L)
    (hf : ∀ a b, |f a - f b| ≤ L * |a - b|)
    (hq : ∀ q, Code (-128) 127 q → ∃ q', look q = some q' ∧ Code (-128) 127 q' ∧
      |real zo so q' - saturate so zo (f (real zx sx q))| ≤ τ) {c : List ℤ} {t ε : List ℚ} (hc : Close sx zx c t ε) :
    ∃ out, c.mapM look = some out ∧
      Close so zo out ((FileOp.act f L τ sx zx so zo).exact t) ((FileOp.act f L τ sx zx so zo).bound t ε) := by
  obtain ⟨hl, h⟩ := hc
  simp only [FileOp.exact, FileOp.bound]
  unfold Close
  simp only [List.length_map, List.length_zipWith]
  induction c generalizing t ε with
  | nil =>
    refine ⟨[], rfl, by rw [hl, min_self], ?_⟩
    cases t with
    | nil => exact .nil
    | cons u t =>
      cases ε with
      | nil => simp at hl
      | cons e ε => cases h
  | cons a c ih =>
    cases t with
    | nil => cases h
    | cons u t =>
      cases ε with
      | nil => simp at hl
      | cons e ε =>
        cases h with
        | cons h1 h2 =>
          obtain ⟨out, o1, o2, o3⟩ := ih (by simpa using hl) h2
          obtain ⟨q', q1, q2, q3⟩ := hq a h1.1
          refine ⟨q' :: out, by simp [List.mapM_cons, q1, o1], by rw [hl, min_self], .cons ⟨q2, ?_⟩ o3⟩
          have := hf (real zx sx a) u
          have := mul_le_mul_of_nonneg_left h1.2 hL
          have h3 := rat_clip_sub_le (real zo so (-128)) (real zo so 127) (f (real zx sx a)) (f u)
          change |saturate so zo (f (real zx sx a)) - saturate so zo (f u)| ≤ _ at h3
          have e1 : real zo so q' - f u = (real zo so q' - saturate so zo (f (real zx sx a))) +
            ((saturate so zo (f (real zx sx a)) - saturate so zo (f u)) + (saturate so zo (f u) - f u)) := by ring
          simp only
          rw [e1]
          refine (abs_add_le _ _).trans ?_
          refine (add_le_add_right (abs_add_le _ _) _).trans ?_
          simp only at this
          linarith

theorem exact_length {f : FileOp} {n : ℕ} (hf : f.Fits n) {t : List ℚ} (ht : t.length = n) :
    (f.exact t).length = f.size n := by
  cases f with
  | dense sx zx sw zw W b so zo g =>
    obtain ⟨-, -, -, -, -, -, -, -, -, hbl, -⟩ := hf
    simp [FileOp.exact, FileOp.size, denseQ, realMatrix, hbl]
  | act f L τ sx zx so zo => simpa [FileOp.exact, FileOp.size] using ht

theorem names_int8 {n : NodeJ} (h : IsInt8 n) :
    ∃ t, n.tensor = some t ∧ (GDtype.ofString t.dtype.toList).toOption = some (intDtype 7) := by
  obtain ⟨t, h1, h2⟩ := h
  exact ⟨t, h1, int8_of_names h2⟩

/-- The engine builds a layer for the operator, and on codes that stand for `t` within `ε` it writes codes that stand for
`f.exact t` within `f.bound t ε`: for one sample and for a batch. -/
def StepOk (ext : Ext) (op : OpJ) (f : FileOp) (n : ℕ) : Prop :=
    ∃ L, Fmt.f64.buildLayer op = some L ∧
      (∀ c t ε, t.length = n → Close f.reads.1 f.reads.2 c t ε →
        ∃ out, Fmt.f64.inferLayer ext L (.int (.vec c)) = some (.int (.vec out)) ∧
          Close f.writes.1 f.writes.2 out (f.exact t) (f.bound t ε)) ∧
      (∀ (C : List (List ℤ)) (T : List (List ℚ × List ℚ)), C ≠ [] →
        List.Forall₂ (fun c p => p.1.length = n ∧ Close f.reads.1 f.reads.2 c p.1 p.2) C T →
        ∃ O, Fmt.f64.inferLayer ext L (.int (.mat C)) = some (.int (.mat O)) ∧
          List.Forall₂ (fun o p => Close f.writes.1 f.writes.2 o (f.exact p.1) (f.bound p.1 p.2)) O T)

/-- A layer that applies `g` to every code. -/
theorem map_step (ext : Ext) {op : OpJ} {lay : Layer} (hb : Fmt.f64.buildLayer op = some lay) {g : ℤ → ℤ}
    (hg : ∀ x : Arr ℤ, Fmt.f64.inferLayer ext lay (.int x) = some (.int (x.map g))) {f : ℚ → ℚ} {L τ sx : ℚ} {zx : ℤ} {so : ℚ}
    {zo : ℤ} {n : ℕ} (hf : (FileOp.act f L τ sx zx so zo).Fits n)
    (hq : ∀ q, Code (-128) 127 q → Code (-128) 127 (g q) ∧ |real zo so (g q) - saturate so zo (f (real zx sx q))| ≤ τ) :
    StepOk ext op (.act f L τ sx zx so zo) n := by
  obtain ⟨hn, hL, hlip, hzo⟩ := hf
  have hstep : ∀ {c : List ℤ} {t ε : List ℚ}, Close sx zx c t ε → Close so zo (c.map g)
      ((FileOp.act f L τ sx zx so zo).exact t) ((FileOp.act f L τ sx zx so zo).bound t ε) := by
    intro c t ε hc
    obtain ⟨out, e1, e2⟩ := act_step (look := fun q => some (g q)) hL hlip (fun q h => ⟨g q, rfl, hq q h⟩) hc
    rw [mapM_eq_map _ g c (fun _ _ => rfl)] at e1
    rw [Option.some.injEq] at e1
    subst e1
    exact e2
  refine ⟨lay, hb, fun c t ε _ hc => ⟨_, hg _, hstep hc⟩, fun C T _ hT => ⟨C.map (fun r => r.map g), hg _, ?_⟩⟩
  rw [List.forall₂_map_left_iff]
  exact hT.imp (fun c p h => hstep h.2)

/-- One operator of the file, on one sample and on a batch. -/
theorem op_step (ext : Ext) {op : OpJ} {f : FileOp} (h : FileMeans op f) {n : ℕ} (hf : f.Fits n) : StepOk ext op f n := by
  cases h with
  | @dense i k c o rest kt ct sx zx sw zw W b so zo g ht hin hout hi hk hkt hW hct hb ho ho8 =>
    obtain ⟨ot, ho1, ho2⟩ := names_int8 ho8
    have hfit := hf
    obtain ⟨h1, hso, hm, hM, hzx, hzw, hzo, hn, hne, hbl, hWs, hbs⟩ := hf
    have hfac := factor_near h1 hso hm hM
    obtain ⟨p, hp⟩ := Option.isSome_iff_exists.mp hfac.2
    have hnW : (W.getD 0 []).length = n := by
      cases W with
      | nil => exact absurd rfl hne
      | cons r W => exact (hWs r (by simp)).1
    obtain ⟨l, hl⟩ : ∃ l, Fmt.f64.buildFC sx zx sw zw n W b so zo (intDtype 7) = some l := by
      unfold Fmt.buildFC; rw [hp]; exact ⟨_, rfl⟩
    have hbuild : Fmt.f64.buildLayer op = some (.fc l) := by
      have hk' : layerKind op.opType = some .fullyConnected := by rw [ht]; decide +kernel
      unfold Fmt.buildLayer
      rw [hk']
      simp only
      unfold Fmt.fcFromModel
      rw [hin, hout]
      simp only [List.getElem?_cons_zero, List.getElem?_cons_succ, Option.bind_eq_bind, Option.bind_some, hkt, hct, ho1,
        ho2, hW, hb, hi.1, hi.2, hk.1, hk.2, ho.1, ho.2, hnW, hl, Option.map_some]
    have hvec : ∀ c t ε, t.length = n → Close sx zx c t ε → ∃ out, l.infer (.vec c) = some (.vec out) ∧
        Close so zo out ((FileOp.dense sx zx sw zw W b so zo g).exact t) ((FileOp.dense sx zx sw zw W b so zo g).bound t ε) ∧
        l.WF ∧ l.bias.length = l.weights.length := fun c t ε ht hc => dense_step hfit hl ht hc
    refine ⟨.fc l, hbuild, ?_, ?_⟩
    · intro c t ε ht hc
      obtain ⟨out, e1, e2, -⟩ := hvec c t ε ht hc
      exact ⟨out, by simp [Fmt.inferLayer, Layer.infer, Tensor.toInt, e1], e2⟩
    · intro C T hC hT
      have hrows : ∃ O, List.Forall₂ (fun c o => l.infer (.vec c) = some (.vec o)) C O ∧
          List.Forall₂ (fun o (p : List ℚ × List ℚ) => Close so zo o ((FileOp.dense sx zx sw zw W b so zo g).exact p.1)
            ((FileOp.dense sx zx sw zw W b so zo g).bound p.1 p.2)) O T := by
        clear hC
        induction hT with
        | nil => exact ⟨[], .nil, .nil⟩
        | cons h _ ih =>
          obtain ⟨O, a, b'⟩ := ih
          obtain ⟨out, e1, e2, -⟩ := hvec _ _ _ h.1 h.2
          exact ⟨out :: O, .cons e1 a, .cons e2 b'⟩
      obtain ⟨O, a, b'⟩ := hrows
      refine ⟨O, ?_, b'⟩
      have hwf : l.WF ∧ l.bias.length = l.weights.length := by
        cases hT with
        | nil => exact absurd rfl hC
        | cons h _ => obtain ⟨_, -, -, e3, e4⟩ := hvec _ _ _ h.1 h.2; exact ⟨e3, e4⟩
      have := (C20_fc_batch l hwf.1 hwf.2 C O).mpr ⟨a.length_eq, fun j x y hx hy => by
        obtain ⟨hj, rfl⟩ := List.getElem?_eq_some_iff.mp hx
        obtain ⟨hj', rfl⟩ := List.getElem?_eq_some_iff.mp hy
        exact (List.forall₂_iff_get.mp a).2 j hj hj'⟩
      simp [Fmt.inferLayer, Layer.infer, Tensor.toInt, this]
  | @act f L τ sx zx so zo l ht hl hq =>
    obtain ⟨hn, hL, hlip, hzo⟩ := hf
    have hbuild : Fmt.f64.buildLayer op = some (.lut l) := by
      rcases ht with ht | ht
      · have hk' : layerKind op.opType = some .tanhLUT := by rw [ht]; decide +kernel
        unfold Fmt.buildLayer Verif.buildLayer
        rw [hk']
        simp only [hl, Option.map_some]
      · have hk' : layerKind op.opType = some .sigmoidLUT := by rw [ht]; decide +kernel
        unfold Fmt.buildLayer Verif.buildLayer
        rw [hk']
        simp only [hl, Option.map_some]
    have hcl : ∀ {c : List ℤ} {t ε : List ℚ}, t.length = n → Close sx zx c t ε → c ≠ [] := by
      intro c t ε ht hc h0
      have := hc.2.length_eq
      rw [h0, List.length_zip, hc.1, min_self, ht] at this
      simp at this; omega
    refine ⟨.lut l, hbuild, ?_, ?_⟩
    · intro c t ε ht hc
      obtain ⟨out, e1, e2⟩ := act_step hL hlip hq hc
      refine ⟨out, ?_, e2⟩
      simp only [Fmt.inferLayer, Layer.infer]
      rw [LutLayer.infer_vec, if_neg (hcl ht hc), e1]
      rfl
    · intro C T hC hT
      have hrows : ∃ O, C.mapM (fun (r : List ℤ) => r.mapM l.look) = some O ∧
          List.Forall₂ (fun o (p : List ℚ × List ℚ) => Close so zo o ((FileOp.act f L τ sx zx so zo).exact p.1)
            ((FileOp.act f L τ sx zx so zo).bound p.1 p.2)) O T := by
        clear hC
        induction hT with
        | nil => exact ⟨[], rfl, .nil⟩
        | cons h _ ih =>
          obtain ⟨O, a, b'⟩ := ih
          obtain ⟨out, e1, e2⟩ := act_step hL hlip hq h.2
          exact ⟨out :: O, by rw [List.mapM_cons, e1, a]; rfl, .cons e2 b'⟩
      obtain ⟨O, a, b'⟩ := hrows
      refine ⟨O, ?_, b'⟩
      simp only [Fmt.inferLayer, Layer.infer]
      rw [LutLayer.infer_mat, if_neg, a]
      · rfl
      · cases hT with
        | nil => exact absurd rfl hC
        | @cons c p C T h _ =>
          have := hcl h.1 h.2
          simp [this]
  | @relu i o ri ro sx zx so zo ht hin hout hi ho hso hk hzx hlo hhi =>
    have hzo := hf.2.2.2
    have hκ0 : 0 < sx / so := lt_of_lt_of_le (by positivity) hk
    refine map_step ext (lay := .relu ⟨Fmt.f64.fl (sx / so), zx, zo⟩) ?_ (fun x => rfl) hf (fun q hq => ?_)
    · have hk' : layerKind op.opType = some .relu := by rw [ht]; decide +kernel
      unfold Fmt.buildLayer
      rw [hk']
      simp only [Fmt.reluFromModel, hin, hout, List.getElem?_cons_zero, hi.1, hi.2, ho.1, ho.2, Option.bind_eq_bind, Option.bind_some]
    · have h1 : (zx : ℚ) ≤ ((max q zx : ℤ) : ℚ) := by exact_mod_cast le_max_right q zx
      have h2 : ((max q zx : ℤ) : ℚ) ≤ 127 := by exact_mod_cast max_le hq.2 hzx.2
      obtain ⟨c1, c2⟩ := relu_float hk hso hq hzo
        (hlo.trans (by nlinarith)) (le_trans (by nlinarith) hhi)
      refine ⟨c1, le_trans ?_ c2⟩
      have h5 := rat_clip_sub_le (real zo so (-128)) (real zo so 127)
        (real zo so (Fmt.f64.reluElem ⟨Fmt.f64.fl (sx / so), zx, zo⟩ q)) (max 0 (real zx sx q) + sx * (zx - zo))
      have e : max (real zo so (-128)) (min (real zo so 127) (real zo so (Fmt.f64.reluElem ⟨Fmt.f64.fl (sx / so), zx, zo⟩ q))) =
          real zo so (Fmt.f64.reluElem ⟨Fmt.f64.fl (sx / so), zx, zo⟩ q) := by
        rw [min_eq_right (real_mono hso zo c1.2), max_eq_right (real_mono hso zo c1.1)]
      rw [e] at h5
      exact h5

theorem runLayers_append (F : Fmt) (ext : Ext) (a b : List Layer) (x : Tensor) :
    F.runLayers ext (a ++ b) x = (F.runLayers ext a x).bind (fun p => (F.runLayers ext b p.1).map (fun r => (r.1, p.2 ++ r.2))) := by
  induction a generalizing x with
  | nil =>
    simp only [List.nil_append, Fmt.runLayers, Option.bind_some]
    cases F.runLayers ext b x <;> rfl
  | cons l a ih =>
    simp only [List.cons_append, Fmt.runLayers, Option.bind_eq_bind]
    cases F.inferLayer ext l x with
    | none => rfl
    | some y =>
      simp only [Option.bind_some, ih]
      cases F.runLayers ext a y with
      | none => rfl
      | some r =>
        simp only [Option.bind_some]
        cases F.runLayers ext b r.1 <;> rfl

/-- All operators of the file. -/
theorem ops_close_of (ext : Ext) {ops : List OpJ} {fs : List FileOp}
    (h : List.Forall₂ (fun op f => ∀ n, f.Fits n → StepOk ext op f n) ops fs) :
    ∀ (p : ℚ × ℤ) (n : ℕ), fileFits p fs n → Code (-128) 127 p.2 →
      ∃ layers, ops.mapM Fmt.f64.buildLayer = some layers ∧ Code (-128) 127 (fileLast p fs).2 ∧
        (∀ c t ε, t.length = n → Close p.1 p.2 c t ε →
          ∃ out rec, Fmt.f64.runLayers ext layers (.int (.vec c)) = some (.int (.vec out), rec) ∧
            Close (fileLast p fs).1 (fileLast p fs).2 out (fileExact fs t) (fileBound fs t ε)) ∧
        (∀ (C : List (List ℤ)) (T : List (List ℚ × List ℚ)), C ≠ [] →
          List.Forall₂ (fun c q => q.1.length = n ∧ Close p.1 p.2 c q.1 q.2) C T →
          ∃ O rec, Fmt.f64.runLayers ext layers (.int (.mat C)) = some (.int (.mat O), rec) ∧
            List.Forall₂ (fun o q => Close (fileLast p fs).1 (fileLast p fs).2 o (fileExact fs q.1) (fileBound fs q.1 q.2)) O T) := by
  induction h with
  | nil =>
    intro p n _ hz
    refine ⟨[], rfl, hz, fun c t ε _ hc => ⟨c, [], rfl, hc⟩, fun C T _ hT => ⟨C, [], rfl, ?_⟩⟩
    exact hT.imp (fun _ _ h => h.2)
  | @cons op f ops fs h _ ih =>
    intro p n hfit hz
    obtain ⟨hr, hf, hrest⟩ := hfit
    obtain ⟨L, hL, hv, hm⟩ := h n hf
    have hw : Code (-128) 127 f.writes.2 := by
      cases f with
      | dense => obtain ⟨-, -, -, -, -, -, hzo, -⟩ := hf; exact hzo
      | act => obtain ⟨-, -, -, hzo⟩ := hf; exact hzo
    obtain ⟨layers, hls, hz', hv', hm'⟩ := ih f.writes (f.size n) hrest hw
    refine ⟨L :: layers, by rw [List.mapM_cons, hL, hls]; rfl, hz', ?_, ?_⟩
    · intro c t ε ht hc
      rw [← hr] at hc
      obtain ⟨o1, e1, c1⟩ := hv c t ε ht hc
      obtain ⟨out, rec, e2, c2⟩ := hv' o1 (f.exact t) (f.bound t ε) (exact_length hf ht) c1
      exact ⟨out, .int (.vec o1) :: rec, by simp [Fmt.runLayers, e1, e2], c2⟩
    · intro C T hC hT
      rw [← hr] at hT
      obtain ⟨O1, e1, c1⟩ := hm C T hC hT
      have hlen : List.Forall₂ (fun o (q : List ℚ × List ℚ) => (f.exact q.1).length = f.size n ∧
          Close f.writes.1 f.writes.2 o (f.exact q.1) (f.bound q.1 q.2)) O1 T := by
        have hT' : ∀ q ∈ T, q.1.length = n := by
          intro q hq
          obtain ⟨i, hi, rfl⟩ := List.mem_iff_getElem.mp hq
          exact ((List.forall₂_iff_get.mp hT).2 i (by rw [hT.length_eq]; exact hi) hi).1
        exact Accuracy.forall₂_mem c1 hT' (fun a b h hb => ⟨exact_length hf hb, h⟩)
      have hO : O1 ≠ [] := by
        rintro rfl
        have := c1.length_eq
        rw [← hT.length_eq] at this
        exact hC (List.length_eq_zero_iff.mp (by simpa using this.symm))
      obtain ⟨O, rec, e2, c2⟩ := hm' O1 (T.map (fun q => (f.exact q.1, f.bound q.1 q.2))) hO
        (List.forall₂_map_right_iff.mpr hlen)
      exact ⟨O, .int (.mat O1) :: rec, by simp [Fmt.runLayers, e1, e2], List.forall₂_map_right_iff.mp c2⟩

theorem ops_close (ext : Ext) {ops : List OpJ} {fs : List FileOp} (h : List.Forall₂ FileMeans ops fs) :
    ∀ (p : ℚ × ℤ) (n : ℕ), fileFits p fs n → Code (-128) 127 p.2 →
      ∃ layers, ops.mapM Fmt.f64.buildLayer = some layers ∧ Code (-128) 127 (fileLast p fs).2 ∧
        (∀ c t ε, t.length = n → Close p.1 p.2 c t ε →
          ∃ out rec, Fmt.f64.runLayers ext layers (.int (.vec c)) = some (.int (.vec out), rec) ∧
            Close (fileLast p fs).1 (fileLast p fs).2 out (fileExact fs t) (fileBound fs t ε)) ∧
        (∀ (C : List (List ℤ)) (T : List (List ℚ × List ℚ)), C ≠ [] →
          List.Forall₂ (fun c q => q.1.length = n ∧ Close p.1 p.2 c q.1 q.2) C T →
          ∃ O rec, Fmt.f64.runLayers ext layers (.int (.mat C)) = some (.int (.mat O), rec) ∧
            List.Forall₂ (fun o q => Close (fileLast p fs).1 (fileLast p fs).2 o (fileExact fs q.1) (fileBound fs q.1 q.2)) O T) :=
  ops_close_of ext (h.imp (fun _ _ h _ hf => op_step ext h hf))

theorem deq_err {s : ℚ} (hs : IsFloat 53 (-1074) s ∨ (2 : ℚ) ^ (-1022 : ℤ) ≤ s) (q z : ℤ) (hq : IsInt32 q)
    (hz : IsInt32 (q - z)) : |Fmt.f64.dequantize q z s - real z s q| ≤ |real z s q| / 2 ^ 53 := by
  rcases hs with hs | hs
  · exact C72_float_dequantize q z hq hz s hs
  · have hs0 : 0 < s := lt_of_lt_of_le (by positivity) hs
    unfold Fmt.dequantize
    rw [wrap32_of hq, wrap32_of hz]
    have e : ((q - z : ℤ) : ℚ) * s = real z s q := by unfold real; push_cast; ring
    rw [e]
    by_cases h0 : q - z = 0
    · have : real z s q = 0 := by rw [← e, h0]; simp
      rw [this, Fmt.fl_zero]; simp
    · refine Fmt.fl_err_normal Fmt.f64 _ ?_
      have h1 : (1 : ℚ) ≤ |((q - z : ℤ) : ℚ)| := by exact_mod_cast Int.one_le_abs h0
      rw [← e, abs_mul, abs_of_pos hs0]
      refine le_trans (show (2 : ℚ) ^ (Fmt.f64.emin + Fmt.f64.p - 1) ≤ s from hs) ?_
      nlinarith

theorem deq_near {s : ℚ} (hs : IsFloat 53 (-1074) s ∨ (2 : ℚ) ^ (-1022 : ℤ) ≤ s) {z : ℤ} (hz : Code (-128) 127 z)
    {c : List ℤ} {t ε : List ℚ}
    (h : Close s z c t ε) : Within (c.map (fun q => Fmt.f64.dequantize q z s)) t (outputBound t ε) := by
  obtain ⟨hl, h⟩ := h
  unfold Within outputBound
  refine ⟨by simp [hl], ?_⟩
  induction c generalizing t ε with
  | nil =>
    cases t with
    | nil => exact .nil
    | cons u t =>
      cases ε with
      | nil => simp at hl
      | cons e ε => cases h
  | cons a c ih =>
    cases t with
    | nil => cases h
    | cons u t =>
      cases ε with
      | nil => simp at hl
      | cons e ε =>
        cases h with
        | cons h1 h2 =>
          refine .cons ?_ (ih (by simpa using hl) h2)
          have hq := h1.1
          have hd := deq_err hs a z (code_int32 hq) (by unfold Code at hz hq; unfold IsInt32; omega)
          have h3 := h1.2
          simp only at h3 ⊢
          have h4 : |real z s a| ≤ |u| + e := by
            have := abs_sub_abs_le_abs_sub (real z s a) u
            linarith
          have h5 : |real z s a| / 2 ^ 53 ≤ (|u| + e) / 2 ^ 53 := div_le_div_of_nonneg_right h4 (by norm_num)
          have e1 : Fmt.f64.dequantize a z s - u = (Fmt.f64.dequantize a z s - real z s a) + (real z s a - u) := by ring
          rw [e1]
          refine (abs_add_le _ _).trans ?_
          linarith

end FloatEngine

open FloatEngine Keras Accuracy

/-- C92.  Any int8 network file (a quantize operator, fully connected and look-up table operators that fit together, a
dequantize operator) loads in the engine with float64 arithmetic, and for every sample and every non-empty batch of samples
every output is within the accumulated bound of what the file means in real arithmetic. -/
theorem C92_accuracy (ext : Ext) (net : NetJ) (s : ℚ) (z : ℤ) (fs : List FileOp) (h : NetMeans net s z fs) (hs : 0 < s)
    (hz : Code (-128) 127 z) (n : ℕ) (hfit : fileFits (s, z) fs n)
    (hlast : IsFloat 53 (-1074) (fileLast (s, z) fs).1) :
    ∃ N, Fmt.f64.load net = some N ∧
      (∀ x : List ℚ, x.length = n → ∃ y rec, Fmt.f64.infer ext N (.flt (.vec x)) = some (.flt (.vec y), rec) ∧
        Within y (fileExact fs x) (outputBound (fileExact fs x) (fileBound fs x (inputBound s z x)))) ∧
      ∀ X : List (List ℚ), X ≠ [] → (∀ x ∈ X, x.length = n) →
        ∃ Y rec, Fmt.f64.infer ext N (.flt (.mat X)) = some (.flt (.mat Y), rec) ∧
          List.Forall₂ (fun y x =>
            Within y (fileExact fs x) (outputBound (fileExact fs x) (fileBound fs x (inputBound s z x)))) Y X := by
  obtain ⟨heng, ⟨inp, hinp⟩, ⟨outp, hout⟩, q, ops, d, hg, ⟨hq1, hq2, qo, qrest, hq3, hq4, hq5⟩, hops, hd1, di, drest, hd2, hd3, hd4⟩ := h
  obtain ⟨layers, hls, hzl, hv, hm⟩ := ops_close ext hops (s, z) n hfit hz
  obtain ⟨qt, hqt, hqd⟩ := names_int8 hq5
  obtain ⟨dt, hdt, hdd⟩ := names_int8 hd4
  have hbq : Fmt.f64.buildLayer q = some (.quantize (intDtype 7) z s) := by
    have hk : layerKind q.opType = some .quantize := by rw [hq1]; decide +kernel
    unfold Fmt.buildLayer Verif.buildLayer
    rw [hk]
    simp only
    unfold quantizeFromModel
    rw [hq3]
    simp only [List.getElem?_cons_zero, Option.bind_eq_bind, Option.bind_some, hqt, hqd, hq4.1, hq4.2]
  have hbd : Fmt.f64.buildLayer d = some (.dequantize (fileLast (s, z) fs).2 (fileLast (s, z) fs).1) := by
    have hk : layerKind d.opType = some .dequantize := by rw [hd1]; decide +kernel
    unfold Fmt.buildLayer Verif.buildLayer
    rw [hk]
    simp only
    unfold dequantizeFromModel
    rw [hd2]
    simp only [List.getElem?_cons_zero, Option.bind_eq_bind, Option.bind_some, hdt, hdd, hd3.1, hd3.2]
  have hall : net.graph.mapM Fmt.f64.buildLayer =
      some ((Layer.quantize (intDtype 7) z s :: layers) ++ [.dequantize (fileLast (s, z) fs).2 (fileLast (s, z) fs).1]) := by
    rw [hg, List.mapM_append, List.mapM_cons, hbq, hls, List.mapM_cons, hbd]
    rfl
  obtain ⟨sc, hsc⟩ : ∃ sc : ℚ, sc = match inp.scale with
      | none => 1
      | some s => if s = 0 then 1 else s := ⟨_, rfl⟩
  refine ⟨⟨true, inp.zeroPoint.getD 0, sc,
    (Layer.quantize (intDtype 7) z s :: layers) ++ [.dequantize (fileLast (s, z) fs).2 (fileLast (s, z) fs).1]⟩, ?_, ?_, ?_⟩
  · unfold Fmt.load
    rw [if_pos heng.symm]
    unfold Fmt.loadWith
    rw [hall]
    have hfirst : net.graph[0]? = some q := by rw [hg]; rfl
    rw [hfirst, hinp, hout]
    simp only [Option.bind_eq_bind, Option.bind_some, hq2]
    rw [hsc]
    rfl
  · intro x hx
    have hc := quant_close hs hz x
    obtain ⟨out, rec, e1, c1⟩ := hv _ _ _ hx hc
    refine ⟨out.map (fun q => Fmt.f64.dequantize q (fileLast (s, z) fs).2 (fileLast (s, z) fs).1), ?_⟩
    refine ⟨.int (.vec (x.map (fun v => Fmt.f64.quantize (intDtype 7) v z s))) :: rec ++
      [.flt (.vec (out.map (fun q => Fmt.f64.dequantize q (fileLast (s, z) fs).2 (fileLast (s, z) fs).1)))], ?_,
      deq_near (.inl hlast) hzl c1⟩
    unfold Fmt.infer Fmt.prepare
    rw [if_pos rfl, runLayers_append]
    simp only [Fmt.runLayers, Fmt.inferLayer, Tensor.toFlt, Arr.map, Option.bind_eq_bind, Option.bind_some, e1, Tensor.toInt,
      Option.map_some]
  · intro X hX hlen
    have hc : List.Forall₂ (fun c (p : List ℚ × List ℚ) => p.1.length = n ∧ Close s z c p.1 p.2)
        (X.map (fun x => x.map (fun v => Fmt.f64.quantize (intDtype 7) v z s)))
        (X.map (fun x => (x, inputBound s z x))) := by
      rw [List.forall₂_map_left_iff, List.forall₂_map_right_iff, List.forall₂_same]
      exact fun x hx => ⟨hlen x hx, quant_close hs hz x⟩
    obtain ⟨O, rec, e1, c1⟩ := hm _ _ (by simpa using hX) hc
    refine ⟨O.map (fun o => o.map (fun q => Fmt.f64.dequantize q (fileLast (s, z) fs).2 (fileLast (s, z) fs).1)),
      .int (.mat (X.map (fun x => x.map (fun v => Fmt.f64.quantize (intDtype 7) v z s)))) :: rec ++
      [.flt (.mat (O.map (fun o => o.map (fun q => Fmt.f64.dequantize q (fileLast (s, z) fs).2 (fileLast (s, z) fs).1))))],
      ?_, ?_⟩
    · unfold Fmt.infer Fmt.prepare
      rw [if_pos rfl, runLayers_append]
      simp only [Fmt.runLayers, Fmt.inferLayer, Tensor.toFlt, Arr.map, Option.bind_eq_bind, Option.bind_some, e1,
        Tensor.toInt, Option.map_some]
    · rw [List.forall₂_map_left_iff]
      rw [List.forall₂_map_right_iff] at c1
      exact c1.imp (fun o x h => deq_near (.inl hlast) hzl h)

/-- C92 (tables).  An entry of a look-up table that the exporter computed in float64 — the function of the dequantized
code, quantized — is as accurate as `C92_accuracy` needs: half a step and the rounding errors of the output, and the
function's change over the rounding error of the dequantized code. -/
theorem C92_table (f : ℚ → ℚ) (L : ℚ) (hL : 0 ≤ L) (hf : ∀ a b, |f a - f b| ≤ L * |a - b|) (sx : ℚ) (zx : ℤ)
    (hsx : IsFloat 53 (-1074) sx) (hzx : Code (-128) 127 zx) (so : ℚ) (hso : 0 < so) (zo : ℤ) (hzo : Code (-128) 127 zo)
    (q : ℤ) (hq : Code (-128) 127 q) (v : ℚ) (hv : v = f (Fmt.f64.dequantize q zx sx)) :
    Code (-128) 127 (Fmt.f64.quantize (intDtype 7) v zo so) ∧
      |real zo so (Fmt.f64.quantize (intDtype 7) v zo so) - saturate so zo (f (real zx sx q))| ≤
        so * (1 / 2 + (4 * |v / so| + 4 * |(zo : ℚ)| + 1) / 2 ^ 53) + L * |real zx sx q| / 2 ^ 53 := by
  obtain ⟨h1, h2⟩ := quant_sat hso hzo v
  refine ⟨h1, ?_⟩
  have hd := C72_float_dequantize q zx (code_int32 hq) (by unfold Code at hzx hq; unfold IsInt32; omega) sx hsx
  have h3 := hf (Fmt.f64.dequantize q zx sx) (real zx sx q)
  rw [← hv] at h3
  have h4 := mul_le_mul_of_nonneg_left hd hL
  have h5 := rat_clip_sub_le (real zo so (-128)) (real zo so 127) v (f (real zx sx q))
  change |saturate so zo v - saturate so zo (f (real zx sx q))| ≤ _ at h5
  have e : real zo so (Fmt.f64.quantize (intDtype 7) v zo so) - saturate so zo (f (real zx sx q)) =
      (real zo so (Fmt.f64.quantize (intDtype 7) v zo so) - saturate so zo v) +
        (saturate so zo v - saturate so zo (f (real zx sx q))) := by ring
  rw [e]
  refine (abs_add_le _ _).trans ?_
  rw [mul_div_assoc]
  linarith

/-- C92 (ReLU).  With equal parameters on both sides the float64 ReLU is the exact one. -/
theorem C92_relu (ext : Ext) (op : OpJ) (i o : NodeJ) (ri ro : List NodeJ) (hin : op.inputs = i :: ri)
    (hout : op.outputs = o :: ro) (ht : op.opType = "RELU") (s : ℚ) (hs : s ≠ 0) (z : ℤ) (hz : Code (-128) 127 z)
    (hi : HasParams i s z) (ho : HasParams o s z) :
    ∃ L, Fmt.f64.buildLayer op = some L ∧ buildLayer op = some L ∧
      ∀ x : Arr ℤ, Fmt.f64.inferLayer ext L (.int x) = L.infer ext (.int x) := by
  have hk : layerKind op.opType = some .relu := by rw [ht]; decide +kernel
  have h1 : Fmt.f64.fl 1 = 1 := Fmt.fl_rep (by decide) (by exact_mod_cast Fmt.rep_int (F := Fmt.f64) 1 (by decide) (by decide))
  refine ⟨.relu ⟨1, z, z⟩, ?_, ?_, ?_⟩
  · unfold Fmt.buildLayer
    rw [hk]
    simp only
    unfold Fmt.reluFromModel
    rw [hin, hout]
    simp only [List.getElem?_cons_zero, Option.bind_eq_bind, Option.bind_some, hi.1, hi.2, ho.1, ho.2, div_self hs, h1]
  · unfold buildLayer
    rw [hk]
    simp only
    unfold reluFromModel
    rw [hin, hout]
    simp only [List.getElem?_cons_zero, Option.bind_eq_bind, Option.bind_some, hi.1, hi.2, ho.1, ho.2, div_self hs]
  · intro x
    simp only [Fmt.inferLayer, Layer.infer]
    have : Fmt.f64.reluElem ⟨1, z, z⟩ = Relu.elem ⟨1, z, z⟩ := by
      funext v
      unfold Fmt.reluElem Relu.elem
      simp only
      obtain ⟨y, hy⟩ : ∃ y, y = max (wrapS 16 v) z := ⟨_, rfl⟩
      rw [← hy]
      have hw := wrapS_range 15 v
      norm_num only at hw
      have hb : |y - z| ≤ 2 ^ 53 ∧ |z + (y - z)| ≤ 2 ^ 53 := by
        unfold Code at hz
        rw [abs_le, abs_le]; omega
      have e1 : Fmt.f64.fl (1 * ((y : ℚ) - z)) = (y : ℚ) - z := by
        rw [one_mul]
        have := Fmt.fl_rep (F := Fmt.f64) (by decide) (Fmt.rep_int (F := Fmt.f64) (y - z) hb.1 (by decide))
        push_cast at this
        exact this
      have e2 : Fmt.f64.fl ((z : ℚ) + (y - z)) = (z : ℚ) + (y - z) := by
        have := Fmt.fl_rep (F := Fmt.f64) (by decide) (Fmt.rep_int (F := Fmt.f64) (z + (y - z)) hb.2 (by decide))
        push_cast at this
        exact this
      rw [e1, e2, one_mul]
    rw [this]

namespace C92Case

def node (s : ℚ) (z : ℤ) : NodeJ := ⟨some s, some z, some ⟨none, [], "int8"⟩, none⟩

/-- A table that replaces negative codes by zero. -/
def table : List ℤ := (List.range 256).map (fun (i : ℕ) => max ((i : ℤ) - 128) 0)

def qOp : OpJ := ⟨"QUANTIZE", "Quantize", [node 1 0], [node (1 / 64) 5], none⟩

def fcOp : OpJ :=
  ⟨"FULLY_CONNECTED", "Dense",
    [node (1 / 64) 5, ⟨some (Fmt.f64.fl (1 / 10)), some 0, some ⟨some (.mat [[64, -128], [127, 3]]), [2, 2], "int8"⟩, none⟩,
      ⟨none, none, some ⟨some (.vec [100, -200]), [2], "int32"⟩, none⟩], [node (1 / 8) 0], none⟩

def actOp : OpJ :=
  ⟨"TANHLUT", "Act", [⟨some (1 / 8), some 0, none, some ⟨some table, some 128, none⟩⟩], [node (1 / 8) 0], none⟩

def dOp : OpJ := ⟨"DEQUANTIZE", "Dequantize", [node (1 / 8) 0], [node 1 0], none⟩

/-- A file with a dense layer (scale 0.1 as a float64 number on the weights) and a table. -/
def net : NetJ := ⟨"TFLITE", 4, [qOp, fcOp, actOp, dOp], [some (node 1 0)], [some (node 1 0)]⟩

def ops : List FileOp :=
  [.dense (1 / 64) 5 (Fmt.f64.fl (1 / 10)) 0 [[64, -128], [127, 3]] [100, -200] (1 / 8) 0 id,
   .act (fun v => max v 0) 1 0 (1 / 8) 0 (1 / 8) 0]

theorem entries : ∀ i < 256, (⟨.plain table, 128⟩ : LutLayer).look ((i : ℕ) - 128 : ℤ) = some (max ((i : ℤ) - 128) 0) := by
  decide +kernel

theorem entry' (q : ℤ) (hq : Code (-128) 127 q) : (⟨.plain table, 128⟩ : LutLayer).look q = some (max q 0) := by
  unfold Code at hq
  have h := entries (q + 128).toNat (by omega)
  have e : (((q + 128).toNat : ℕ) : ℤ) - 128 = q := by omega
  rw [e] at h
  exact h

theorem int8 (s : ℚ) (z : ℤ) : IsInt8 (node s z) := ⟨_, rfl, by unfold NamesType; decide +kernel⟩

theorem means : NetMeans net (1 / 64) 5 ops where
  engine := by decide +kernel
  input := ⟨_, rfl⟩
  output := ⟨_, rfl⟩
  graph := by
    refine ⟨qOp, [fcOp, actOp], dOp, rfl, ⟨rfl, by decide +kernel, node (1 / 64) 5, [], rfl, ⟨rfl, rfl⟩, int8 _ _⟩, ?_, rfl,
      node (1 / 8) 0, [], rfl, ⟨rfl, rfl⟩, int8 _ _⟩
    refine .cons (.dense rfl rfl rfl ⟨rfl, rfl⟩ ⟨rfl, rfl⟩ rfl rfl rfl rfl ⟨rfl, rfl⟩ (int8 _ _)) (.cons ?_ .nil)
    refine .act (l := ⟨.plain table, 128⟩) (.inl rfl) rfl ?_
    intro q hq
    refine ⟨max q 0, entry' q hq, ?_, ?_⟩
    · unfold Code at hq ⊢; omega
    · have e : saturate (1 / 8) 0 (max (real 0 (1 / 8) q) 0) = max (real 0 (1 / 8) q) 0 := by
        have h' : (q : ℚ) ≤ 127 := by exact_mod_cast hq.2
        unfold saturate real
        rw [min_eq_right (max_le (by push_cast; linarith) (by norm_num)), max_eq_right (le_max_of_le_right (by norm_num))]
      rw [e]
      unfold real
      rcases le_total q 0 with h | h
      · have h' : (q : ℚ) ≤ 0 := by exact_mod_cast h
        rw [max_eq_right h, max_eq_right (by push_cast; linarith)]
        norm_num
      · have h' : (0 : ℚ) ≤ q := by exact_mod_cast h
        rw [max_eq_left h, max_eq_left (by push_cast; linarith)]
        norm_num

theorem fits : fileFits (1 / 64, 5) ops 2 := by
  have h0 : Fmt.f64.fl (1 / 10) = 3602879701896397 / 36028797018963968 := by decide +kernel
  refine ⟨rfl, ?_, rfl, ⟨by decide, by norm_num, ?_, by unfold Code; norm_num⟩, trivial⟩
  · refine ⟨?_, by norm_num, ?_, ?_, ?_, ?_, ?_, by norm_num, by simp, rfl, ?_, ?_⟩
    · refine le_trans (zpow_le_zpow_right₀ (by norm_num) (show (-1022 : ℤ) ≤ -20 by norm_num)) ?_
      rw [h0, zpow_neg]; norm_num
    · rw [h0]; norm_num
    · rw [h0]; norm_num
    · unfold Code; norm_num
    · unfold Code; norm_num
    · unfold Code; norm_num
    · decide +kernel
    · decide +kernel
  · intro a b
    rw [one_mul]
    refine (abs_max_sub_max_le_max _ _ _ _).trans ?_
    simp

/-- The hypotheses of `C92_accuracy` hold of this file. -/
theorem accurate : ∃ N, Fmt.f64.load net = some N ∧
    ∀ x : List ℚ, x.length = 2 → ∃ y rec, Fmt.f64.infer ⟨id, id, id⟩ N (.flt (.vec x)) = some (.flt (.vec y), rec) ∧
      Within y (fileExact ops x) (outputBound (fileExact ops x) (fileBound ops x (inputBound (1 / 64) 5 x))) := by
  obtain ⟨N, h1, h2, -⟩ := C92_accuracy ⟨id, id, id⟩ net (1 / 64) 5 ops means (by norm_num) (by unfold Code; norm_num) 2 fits
    ⟨1, -3, by norm_num, by norm_num, by simp only [ops, fileLast, FileOp.writes]; norm_num⟩
  exact ⟨N, h1, h2⟩

/-- The network computes, and is as accurate as promised. -/
theorem runs : ((Fmt.f64.load net).bind (fun N => Fmt.f64.infer ⟨id, id, id⟩ N (.flt (.mat [[Fmt.f64.fl (3 / 10), 1], [-1, 1 / 2]])))).map
      Prod.fst = some (.flt (.mat [[0, 15 / 4], [0, 0]])) ∧
    fileExact ops [Fmt.f64.fl (3 / 10), 1] = [0, 2464718415035751035224282227623849 / 649037107316853453566312041152512] := by
  decide +kernel

end C92Case

end Verif
