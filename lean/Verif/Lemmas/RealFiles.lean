import Verif.Props.FloatEngine
import Verif.Props.RealOnnx

/-!
# Network files with functions of real analysis
-/

namespace Verif

open Spec

namespace Spec

noncomputable section

/-- What an operator of an int8 network file stands for when its function is one of real analysis: a dense layer followed by
a function `g` that is left to saturation, or a function `f` (Lipschitz constant `L`) applied by a look-up table whose entries are
accurate to `τ`. -/
inductive RealOp
  | dense (sx : ℚ) (zx : ℤ) (sw : ℚ) (zw : ℤ) (W : List (List ℤ)) (b : List ℤ) (so : ℚ) (zo : ℤ) (g : ℝ → ℝ)
  | act (f : ℝ → ℝ) (L τ : ℚ) (sx : ℚ) (zx : ℤ) (so : ℚ) (zo : ℤ)

/-- Inner product of weights with real numbers. -/
def realDot (ws : List ℚ) (x : List ℝ) : ℝ := (List.zipWith (fun (w : ℚ) (v : ℝ) => (w : ℝ) * v) ws x).sum

/-- A dense layer on real numbers. -/
def realDense (W : List (List ℚ)) (b : List ℚ) (x : List ℝ) : List ℝ :=
  List.zipWith (fun row (v : ℚ) => realDot row x + (v : ℝ)) W b

/-- The number nearest to `y` between the smallest and the largest number an int8 code can stand for. -/
def realSaturate (s : ℚ) (z : ℤ) (y : ℝ) : ℝ := max ((real z s (-128) : ℚ) : ℝ) (min ((real z s 127 : ℚ) : ℝ) y)

/-- In real arithmetic. -/
def RealOp.exact : RealOp → List ℝ → List ℝ
  | .dense sx _ sw zw W b _ _ g, t => (realDense (realMatrix zw sw W) (b.map (real 0 (sx * sw))) t).map g
  | .act f _ _ _ _ _ _, t => t.map f

/-- Error of the operator's output in float64, if its real input is `t` and the codes it gets are off by at most `ε` (as in C92). -/
def RealOp.bound : RealOp → List ℝ → List ℝ → List ℝ
  | .dense sx _ sw zw W b so zo g, t, ε =>
    List.zipWith (fun row y =>
        so / 2 + realDot (row.map (fun w => |w|)) ε + (|y| + realDot (row.map (fun w => |w|)) ε) * (1 / 2 ^ 31 + 1 / 2 ^ 51) +
          |realSaturate so zo y - g y|)
      (realMatrix zw sw W) (realDense (realMatrix zw sw W) (b.map (real 0 (sx * sw))) t)
  | .act f L τ _ _ so zo, t, ε => List.zipWith (fun y e => L * e + τ + |realSaturate so zo (f y) - f y|) t ε

def RealOp.reads : RealOp → ℚ × ℤ
  | .dense sx zx _ _ _ _ _ _ _ => (sx, zx)
  | .act _ _ _ sx zx _ _ => (sx, zx)

def RealOp.writes : RealOp → ℚ × ℤ
  | .dense _ _ _ _ _ _ so zo _ => (so, zo)
  | .act _ _ _ _ _ so zo => (so, zo)

def RealOp.size : RealOp → ℕ → ℕ
  | .dense _ _ _ _ W _ _ _ _, _ => W.length
  | .act .., n => n

/-- Sizes, codes and factors are those of C92. -/
def RealOp.Fits : RealOp → ℕ → Prop
  | .dense sx zx sw zw W b so zo _, n =>
    (2 : ℚ) ^ (-1022 : ℤ) ≤ sx * sw ∧ 0 < so ∧ 1 / 999999 ≤ sx * sw / so ∧ sx * sw / so ≤ 2 ^ 29 ∧
    Code (-128) 127 zx ∧ Code (-128) 127 zw ∧ Code (-128) 127 zo ∧ n ≤ 2 ^ 14 ∧ W ≠ [] ∧ b.length = W.length ∧
    (∀ r ∈ W, r.length = n ∧ ∀ w ∈ r, Code (-128) 127 w) ∧ ∀ v ∈ b, IsInt32 v
  | .act _ _ _ _ _ _ zo, n => 0 < n ∧ Code (-128) 127 zo

/-- The real function of the operators, and the error at the end. -/
def realFile : List RealOp → List ℝ → List ℝ
  | [], t => t
  | o :: os, t => realFile os (o.exact t)

def realBound : List RealOp → List ℝ → List ℝ → List ℝ
  | [], _, ε => ε
  | o :: os, t, ε => realBound os (o.exact t) (o.bound t ε)

/-- Every operator reads the codes the previous one writes. -/
def realFits : ℚ × ℤ → List RealOp → ℕ → Prop
  | _, [], _ => True
  | p, o :: os, n => o.reads = p ∧ o.Fits n ∧ realFits o.writes os (o.size n)

/-- One more rounding when the result is dequantized. -/
def realOutputBound (t ε : List ℝ) : List ℝ := List.zipWith (fun y e => e + (|y| + e) / 2 ^ 53) t ε

/-- Elementwise: `y` is within `E` of `t`. -/
def WithinReal (y : List ℚ) (t E : List ℝ) : Prop :=
  E.length = t.length ∧ List.Forall₂ (fun (a : ℚ) (p : ℝ × ℝ) => |(a : ℝ) - p.1| ≤ p.2) y (t.zip E)

end

end Spec

namespace RealFiles

open RealOnnx

/-- A rational-valued operator next to a real one. -/
inductive OpClose (η : ℚ) : FileOp → RealOp → Prop
  | dense (sx : ℚ) (zx : ℤ) (sw : ℚ) (zw : ℤ) (W : List (List ℤ)) (b : List ℤ) (so : ℚ) (zo : ℤ) (g : ℚ → ℚ) (G : ℝ → ℝ)
      (h : ∀ a : ℚ, |(g a : ℝ) - G a| ≤ η) : OpClose η (.dense sx zx sw zw W b so zo g) (.dense sx zx sw zw W b so zo G)
  | act (f : ℚ → ℚ) (F : ℝ → ℝ) (L τ τ' : ℚ) (sx : ℚ) (zx : ℤ) (so : ℚ) (zo : ℤ) (h : ∀ a : ℚ, |(f a : ℝ) - F a| ≤ η)
      (ht : |τ' - τ| ≤ η) (hf : ∀ a b, |f a - f b| ≤ L * |a - b|) :
      OpClose η (.act f L τ' sx zx so zo) (.act F L τ sx zx so zo)

/-- The real functions are Lipschitz: those left to saturation with constant 1. -/
def Lip : RealOp → Prop
  | .dense _ _ _ _ _ _ _ _ G => ∀ a b, |G a - G b| ≤ |a - b|
  | .act F L _ _ _ _ _ => 0 ≤ L ∧ ∀ a b, |F a - F b| ≤ L * |a - b|

theorem close_zip {α : Type} (ws : List α) {d d' : ℝ} {f : α → ℚ → ℚ} {g : α → ℝ → ℝ} {xs : List ℚ} {ys : List ℝ}
    (hc : Close d xs ys) (h : ∀ w ∈ ws, ∀ (a : ℚ) (b : ℝ), |(a : ℝ) - b| ≤ d → |(f w a : ℝ) - g w b| ≤ d') :
    Close d' (List.zipWith f ws xs) (List.zipWith g ws ys) := by
  induction ws generalizing xs ys with
  | nil => exact .nil
  | cons w ws ih =>
    cases hc with
    | nil => exact .nil
    | cons hab hc => exact .cons (h w List.mem_cons_self _ _ hab) (ih hc (fun w' hw' => h w' (List.mem_cons_of_mem _ hw')))

theorem close_zip₂ {d d' d'' : ℝ} {f : ℚ → ℚ → ℚ} {g : ℝ → ℝ → ℝ} {xs : List ℚ} {ys : List ℝ} (hc : Close d xs ys)
    {us : List ℚ} {vs : List ℝ} (hu : Close d'' us vs)
    (h : ∀ (a u : ℚ) (b v : ℝ), |(a : ℝ) - b| ≤ d → |(u : ℝ) - v| ≤ d'' → |(f a u : ℝ) - g b v| ≤ d') :
    Close d' (List.zipWith f xs us) (List.zipWith g ys vs) := by
  induction hc generalizing us vs with
  | nil => exact .nil
  | cons hab hc ih =>
    cases hu with
    | nil => exact .nil
    | cons huv hu => exact .cons (h _ _ _ _ hab huv) (ih hu)

theorem zipWith_left_congr {α β γ : Type} {ws : List α} {vs : List β} {f g : α → β → γ} (h : ∀ w ∈ ws, ∀ v, f w v = g w v) :
    List.zipWith f ws vs = List.zipWith g ws vs := by
  induction ws generalizing vs with
  | nil => rfl
  | cons w ws ih =>
    cases vs with
    | nil => rfl
    | cons v vs => rw [List.zipWith_cons_cons, List.zipWith_cons_cons, h w List.mem_cons_self,
        ih (fun w' hw' => h w' (List.mem_cons_of_mem _ hw'))]

theorem close_dense (W : List (List ℚ)) (b : List ℚ) (K : ℚ) (hK : ∀ r ∈ W, (r.map (fun w => |w|)).sum ≤ K) {d : ℝ}
    (hd : 0 ≤ d) {xs : List ℚ} {ys : List ℝ} (hc : Close d xs ys) :
    Close (K * d) (denseQ W b xs) (realDense W b ys) := by
  induction W generalizing b with
  | nil => exact .nil
  | cons r W ih =>
    cases b with
    | nil => exact .nil
    | cons v b =>
      refine .cons ?_ (ih b (fun r' hr' => hK r' (List.mem_cons_of_mem _ hr')))
      have h1 := dot_close r hd hc
      have h2 : (((r.map (fun w => |w|)).sum : ℚ) : ℝ) ≤ K := by exact_mod_cast hK r List.mem_cons_self
      push_cast
      rw [show (dotQ r xs : ℝ) + v - (realDot r ys + v) = dotQ r xs - realDot r ys by ring]
      exact h1.trans (mul_le_mul_of_nonneg_right h2 hd)

theorem row_le (W : List (List ℚ)) : ∃ K : ℚ, 0 ≤ K ∧ ∀ r ∈ W, (r.map (fun w => |w|)).sum ≤ K := by
  induction W with
  | nil => exact ⟨0, le_refl _, by simp⟩
  | cons r W ih =>
    obtain ⟨K, hK, h⟩ := ih
    refine ⟨max ((r.map (fun w => |w|)).sum) K, le_max_of_le_right hK, fun r' hr' => ?_⟩
    rcases List.mem_cons.mp hr' with rfl | hr'
    · exact le_max_left _ _
    · exact (h r' hr').trans (le_max_right _ _)

theorem saturate_close (s : ℚ) (z : ℤ) (a : ℚ) (b : ℝ) : |((saturate s z a : ℚ) : ℝ) - realSaturate s z b| ≤ |(a : ℝ) - b| := by
  unfold saturate realSaturate
  rw [Rat.cast_max, Rat.cast_min]
  exact (abs_max_sub_max_le_max _ _ _ _).trans (max_le (by simp) ((abs_min_sub_min_le_max _ _ _ _).trans (max_le (by simp) (le_refl _))))

/-- The part saturation does differently. -/
theorem cut_close (s : ℚ) (z : ℤ) (a u : ℚ) (b v : ℝ) :
    abs (((abs (saturate s z a - u) : ℚ) : ℝ) - abs (realSaturate s z b - v)) ≤ abs ((a : ℝ) - b) + abs ((u : ℝ) - v) := by
  rw [Rat.cast_abs, Rat.cast_sub]
  refine (abs_abs_sub_abs_le_abs_sub _ _).trans ?_
  rw [show ((saturate s z a : ℚ) : ℝ) - u - (realSaturate s z b - v) = (saturate s z a : ℚ) - realSaturate s z b - (u - v) by ring]
  exact (abs_sub _ _).trans (add_le_add (saturate_close s z a b) (le_refl _))

theorem step (R : RealOp) (hR : Lip R) :
    ∃ C : ℝ, 0 ≤ C ∧ ∀ (η : ℚ) (d : ℝ) (o : FileOp), 0 ≤ η → 0 ≤ d → OpClose η o R →
      ∀ (x ε : List ℚ) (y ε' : List ℝ), Close d x y → Close d ε ε' →
        Close (C * (d + η)) (o.exact x) (R.exact y) ∧ Close (C * (d + η)) (o.bound x ε) (R.bound y ε') := by
  cases R with
  | dense sx zx sw zw W b so zo G =>
    obtain ⟨K, hK, hrow⟩ := row_le (realMatrix zw sw W)
    have hK' : (0 : ℝ) ≤ K := by exact_mod_cast hK
    refine ⟨5 * K + 1, by positivity, fun η d o hη hd ho x ε y ε' hx he => ?_⟩
    have hη' : (0 : ℝ) ≤ η := by exact_mod_cast hη
    cases ho with
    | dense _ _ _ _ _ _ _ _ g _ h =>
    have hden := close_dense (realMatrix zw sw W) (b.map (real 0 (sx * sw))) K hrow hd hx
    have hKd : 0 ≤ K * d := by positivity
    have hKη : 0 ≤ K * (η : ℝ) := by positivity
    have hg : ∀ (u : ℚ) (v : ℝ), |(u : ℝ) - v| ≤ K * d → |(g u : ℝ) - G v| ≤ K * d + η := by
      intro u v huv
      have h1 := abs_sub_le (g u : ℝ) (G u) (G v)
      have h2 := hR u v
      have h3 := h u
      linarith
    constructor
    · exact close_map (fun u v huv => (hg u v huv).trans (by nlinarith)) hden
    · refine close_zip (realMatrix zw sw W) hden (fun row hr u v huv => ?_)
      have h1 : |(((List.zipWith (fun w e => |w| * e) row ε).sum : ℚ) : ℝ) - realDot (row.map (fun w => |w|)) ε'| ≤ K * d := by
        have h2 := dot_close (row.map (fun w => |w|)) hd he
        have e1 : dotQ (row.map (fun w => |w|)) ε = (List.zipWith (fun w e => |w| * e) row ε).sum := by
          unfold dotQ; rw [List.zipWith_map_left]
        rw [e1, List.map_map] at h2
        have e2 : ((fun w : ℚ => |w|) ∘ fun w => |w|) = fun w => |w| := by funext w; simp
        rw [e2] at h2
        have h3 : (((row.map (fun w => |w|)).sum : ℚ) : ℝ) ≤ K := by exact_mod_cast hrow row hr
        exact h2.trans (mul_le_mul_of_nonneg_right h3 hd)
      have h2 := cut_close so zo u (g u) v (G v)
      have h3 := hg u v huv
      have h4 : abs (((abs u : ℚ) : ℝ) - abs v) ≤ K * d := by
        rw [Rat.cast_abs]; exact (abs_abs_sub_abs_le_abs_sub _ _).trans huv
      dsimp only
      generalize (List.zipWith (fun w e => |w| * e) row ε).sum = E at *
      generalize realDot (row.map (fun w => |w|)) ε' = E' at *
      generalize |saturate so zo u - g u| = A at *
      generalize |realSaturate so zo v - G v| = A' at *
      generalize |u| = B at *
      generalize |v| = B' at *
      push_cast
      rw [show (so : ℝ) / 2 + E + (B + E) * (1 / 2 ^ 31 + 1 / 2 ^ 51) + A - (so / 2 + E' + (B' + E') * (1 / 2 ^ 31 + 1 / 2 ^ 51) + A') =
        (E - E') * (1 + 1 / 2 ^ 31 + 1 / 2 ^ 51) + (B - B') * (1 / 2 ^ 31 + 1 / 2 ^ 51) + (A - A') by ring]
      refine (abs_add_three _ _ _).trans ?_
      rw [abs_mul, abs_mul, abs_of_pos (by norm_num : (0 : ℝ) < 1 + 1 / 2 ^ 31 + 1 / 2 ^ 51),
        abs_of_pos (by norm_num : (0 : ℝ) < 1 / 2 ^ 31 + 1 / 2 ^ 51)]
      have h5 : |(E : ℝ) - E'| * (1 + 1 / 2 ^ 31 + 1 / 2 ^ 51) ≤ K * d * (1 + 1 / 2) := by
        refine mul_le_mul h1 (by norm_num) (by norm_num) hKd
      have h6 : |(B : ℝ) - B'| * (1 / 2 ^ 31 + 1 / 2 ^ 51) ≤ K * d * (1 / 2) := by
        refine mul_le_mul h4 (by norm_num) (by norm_num) hKd
      nlinarith
  | act F L τ sx zx so zo =>
    obtain ⟨hL, hF⟩ := hR
    have hL' : (0 : ℝ) ≤ L := by exact_mod_cast hL
    refine ⟨3 * L + 3, by positivity, fun η d o hη hd ho x ε y ε' hx he => ?_⟩
    have hη' : (0 : ℝ) ≤ η := by exact_mod_cast hη
    have hLd : (0 : ℝ) ≤ L * d := by positivity
    have hLη : (0 : ℝ) ≤ L * η := by positivity
    cases ho with
    | act f _ _ _ τ' _ _ _ _ h ht hf =>
    have hg : ∀ (u : ℚ) (v : ℝ), |(u : ℝ) - v| ≤ d → |(f u : ℝ) - F v| ≤ L * d + η := by
      intro u v huv
      have h1 := abs_sub_le (f u : ℝ) (F u) (F v)
      have h2 := (hF u v).trans (mul_le_mul_of_nonneg_left huv hL')
      have h3 := h u
      linarith
    have ht' : |(τ' : ℝ) - τ| ≤ η := by exact_mod_cast ht
    constructor
    · exact close_map (fun u v huv => (hg u v huv).trans (by nlinarith)) hx
    · refine close_zip₂ hx he (fun u e v e' huv hee => ?_)
      have h2 := cut_close so zo (f u) (f u) (F v) (F v)
      have h3 := hg u v huv
      generalize |saturate so zo (f u) - f u| = A at *
      generalize |realSaturate so zo (F v) - F v| = A' at *
      push_cast
      rw [show (L : ℝ) * e + τ' + A - (L * e' + τ + A') = L * (e - e') + (τ' - τ) + (A - A') by ring]
      refine (abs_add_three _ _ _).trans ?_
      rw [abs_mul, abs_of_nonneg hL']
      have h4 := mul_le_mul_of_nonneg_left hee hL'
      nlinarith

theorem steps (rs : List RealOp) (hl : ∀ R ∈ rs, Lip R) :
    ∃ C : ℝ, 0 ≤ C ∧ ∀ (η : ℚ) (d : ℝ) (fs : List FileOp), 0 ≤ η → 0 ≤ d → List.Forall₂ (OpClose η) fs rs →
      ∀ (x ε : List ℚ) (y ε' : List ℝ), Close d x y → Close d ε ε' →
        Close (C * (d + η)) (fileExact fs x) (realFile rs y) ∧ Close (C * (d + η)) (fileBound fs x ε) (realBound rs y ε') := by
  induction rs with
  | nil =>
    refine ⟨1, by norm_num, fun η d fs hη hd hc x ε y ε' hx he => ?_⟩
    have hη' : (0 : ℝ) ≤ η := by exact_mod_cast hη
    cases hc
    exact ⟨hx.mono (by linarith), he.mono (by linarith)⟩
  | cons R rs ih =>
    obtain ⟨C1, hC1, h1⟩ := step R (hl R List.mem_cons_self)
    obtain ⟨C2, hC2, h2⟩ := ih (fun R' hR' => hl R' (List.mem_cons_of_mem _ hR'))
    refine ⟨C2 * (C1 + 1), by positivity, fun η d fs hη hd hc x ε y ε' hx he => ?_⟩
    have hη' : (0 : ℝ) ≤ η := by exact_mod_cast hη
    cases hc with
    | cons hab hc =>
    obtain ⟨a1, a2⟩ := h1 η d _ hη hd hab x ε y ε' hx he
    obtain ⟨b1, b2⟩ := h2 η (C1 * (d + η)) _ hη (by positivity) hc _ _ _ _ a1 a2
    have hle : C2 * (C1 * (d + η) + η) ≤ C2 * (C1 + 1) * (d + η) := by
      rw [mul_assoc]
      exact mul_le_mul_of_nonneg_left (by linarith) hC2
    exact ⟨b1.mono hle, b2.mono hle⟩

/-- A result that is within the bounds of every approximation of the real functions is within the real bound. -/
theorem within_limit (y : List ℚ) (t E : List ℝ) (C : ℝ) (hC : 0 ≤ C)
    (h : ∀ η : ℚ, 0 < η → ∃ t' E' : List ℚ, Within y t' E' ∧ Close (C * η) t' t ∧ Close (C * η) E' E) : WithinReal y t E := by
  obtain ⟨t1, E1, ⟨l1, w1⟩, c1, c2⟩ := h 1 one_pos
  have hlen : E.length = t.length := by rw [← c1.length_eq, ← c2.length_eq, l1]
  have hy := w1.length_eq
  rw [List.length_zip, l1, min_self, c1.length_eq] at hy
  refine ⟨hlen, List.forall₂_iff_get.mpr ⟨by rw [hy, List.length_zip, hlen, min_self], fun i hi hi' => ?_⟩⟩
  refine limit (C := 2 * C) (by positivity) (fun η hη => ?_)
  obtain ⟨t2, E2, ⟨l2, w2⟩, d1, d2⟩ := h η hη
  have i1 : i < t2.length := by rw [d1.length_eq, ← hy]; exact hi
  have i2 : i < E2.length := by rw [l2]; exact i1
  have i3 : i < t.length := by rw [← hy]; exact hi
  have i4 : i < E.length := by rw [hlen]; exact i3
  have k1 := (List.forall₂_iff_get.mp w2).2 i hi (by rw [List.length_zip, l2, min_self]; exact i1)
  have k2 := (List.forall₂_iff_get.mp d1).2 i i1 i3
  have k3 := (List.forall₂_iff_get.mp d2).2 i i2 i4
  simp only [List.get_eq_getElem, List.getElem_zip] at k1 k2 k3 ⊢
  have k1' : |(y[i] : ℝ) - t2[i]| ≤ E2[i] := by exact_mod_cast k1
  have k4 := abs_sub_le (y[i] : ℝ) t2[i] t[i]
  obtain ⟨-, k5⟩ := abs_le.mp k3
  linarith

theorem close_output {d : ℝ} (hd : 0 ≤ d) {t ε : List ℚ} {t' ε' : List ℝ} (ht : Close d t t') (he : Close d ε ε') :
    Close (2 * d) (outputBound t ε) (realOutputBound t' ε') := by
  refine close_zip₂ ht he (fun a u b v hab huv => ?_)
  have h4 : abs (((abs a : ℚ) : ℝ) - abs b) ≤ d := by
    rw [Rat.cast_abs]; exact (abs_abs_sub_abs_le_abs_sub _ _).trans hab
  generalize |a| = A at *
  generalize |b| = B at *
  push_cast
  rw [show (u : ℝ) + (A + u) / 2 ^ 53 - (v + (B + v) / 2 ^ 53) = (u - v) * (1 + 1 / 2 ^ 53) + (A - B) * (1 / 2 ^ 53) by ring]
  refine (abs_add_le _ _).trans ?_
  rw [abs_mul, abs_mul, abs_of_pos (by norm_num : (0 : ℝ) < 1 + 1 / 2 ^ 53), abs_of_pos (by norm_num : (0 : ℝ) < 1 / 2 ^ 53)]
  have h5 : |(u : ℝ) - v| * (1 + 1 / 2 ^ 53) ≤ d * (3 / 2) := mul_le_mul huv (by norm_num) (by norm_num) hd
  have h6 : |(A : ℝ) - B| * (1 / 2 ^ 53) ≤ d * (1 / 2) := mul_le_mul h4 (by norm_num) (by norm_num) hd
  linarith

/-- The engine's answer, within the bounds of all approximations, is within the bound for the real functions. -/
theorem file_limit (rs : List RealOp) (hl : ∀ R ∈ rs, Lip R) (s : ℚ) (z : ℤ) (x y : List ℚ)
    (h : ∀ η : ℚ, 0 < η → ∃ fs, List.Forall₂ (OpClose η) fs rs ∧
      Within y (fileExact fs x) (outputBound (fileExact fs x) (fileBound fs x (inputBound s z x)))) :
    WithinReal y (realFile rs (x.map (↑)))
      (realOutputBound (realFile rs (x.map (↑))) (realBound rs (x.map (↑)) ((inputBound s z x).map (↑)))) := by
  obtain ⟨C, hC, hs⟩ := steps rs hl
  refine within_limit y _ _ (2 * C) (by positivity) (fun η hη => ?_)
  obtain ⟨fs, hfs, hw⟩ := h η hη
  have hη' : (0 : ℝ) < η := by exact_mod_cast hη
  obtain ⟨a1, a2⟩ := hs η 0 fs hη.le (le_refl _) hfs x _ _ _ (close_cast x) (close_cast (inputBound s z x))
  rw [zero_add] at a1 a2
  have hp : 0 ≤ C * (η : ℝ) := by positivity
  refine ⟨_, _, hw, a1.mono (by linarith), ?_⟩
  have := close_output hp a1 a2
  rw [← mul_assoc] at this
  exact this

theorem opClose_fits {η : ℚ} {o : FileOp} {R : RealOp} (h : OpClose η o R) (hl : Lip R) :
    o.reads = R.reads ∧ o.writes = R.writes ∧ (∀ n, o.size n = R.size n) ∧ ∀ n, R.Fits n → o.Fits n := by
  cases h with
  | dense => exact ⟨rfl, rfl, fun _ => rfl, fun _ h => h⟩
  | act f F L τ τ' sx zx so zo h ht hf => exact ⟨rfl, rfl, fun _ => rfl, fun _ h => ⟨h.1, hl.1, hf, h.2⟩⟩

theorem fits_of_close {η : ℚ} {fs : List FileOp} {rs : List RealOp} (h : List.Forall₂ (OpClose η) fs rs)
    (hl : ∀ R ∈ rs, Lip R) (p : ℚ × ℤ) (n : ℕ) (hf : realFits p rs n) : fileFits p fs n := by
  induction h generalizing p n with
  | nil => trivial
  | @cons o R fs rs ho _ ih =>
    obtain ⟨h1, h2, h3⟩ := hf
    obtain ⟨a1, a2, a3, a4⟩ := opClose_fits ho (hl R List.mem_cons_self)
    refine ⟨a1.trans h1, a4 n h2, ?_⟩
    rw [a2, a3]
    exact ih (fun R' hR' => hl R' (List.mem_cons_of_mem _ hR')) _ _ h3

end RealFiles

end Verif
