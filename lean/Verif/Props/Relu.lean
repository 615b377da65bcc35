import Verif.Model.Layers
import Verif.Lemmas.Quant

/-!
# Property C22: the quantized ReLU layer
-/

namespace Verif
open Spec

/-- The layer for given input and output parameters (relu.py:9-16: `k = input_scale / output_scale`). -/
def Relu.ofParams (iS : ℚ) (iZp : ℤ) (oS : ℚ) (oZp : ℤ) : Relu := ⟨iS / oS, iZp, oZp⟩

theorem relu_elem_eq (iS oS : ℚ) (zp x : ℤ) (hx : Code (-128) 127 x)
    (hzp : Code (-128) 127 zp) :
    (Relu.ofParams iS zp oS zp).elem x = wrapS 8 (trunc (zp + iS / oS * ((max x zp : ℤ) - zp))) := by
  unfold Relu.elem Relu.ofParams
  simp only
  have : wrapS 16 x = x := wrapS_of_mem (b := 15) (by have := hx.1; omega) (by have := hx.2; omega)
  rw [this]

/-- C22.  When input and output share scale and zero point, the layer returns exactly the int8 code of
`max(0, real value)`, for every int8 input and int8 zero point. -/
theorem C22_relu_same_params (s : ℚ) (hs : 0 < s) (zp x : ℤ) (hx : Code (-128) 127 x)
    (hzp : Code (-128) 127 zp) :
    (Relu.ofParams s zp s zp).elem x = Quantization.quantize (intDtype 7) (max 0 (real zp s x)) zp s ∧
    real zp s ((Relu.ofParams s zp s zp).elem x) = max 0 (real zp s x) := by
  have he : (Relu.ofParams s zp s zp).elem x = max x zp := by
    rw [relu_elem_eq s s zp x hx hzp, div_self hs.ne']
    have : ((zp : ℚ) + 1 * (((max x zp : ℤ) : ℚ) - zp)) = ((max x zp : ℤ) : ℚ) := by ring
    rw [this, trunc_int]
    have h1 := hx.1; have h2 := hx.2; have h3 := hzp.1; have h4 := hzp.2
    exact wrapS_of_mem (b := 7) (by omega) (by omega)
  have hr : real zp s (max x zp) = max 0 (real zp s x) := by
    unfold real
    rcases le_total x zp with h | h
    · rw [max_eq_right h]
      have : (x : ℚ) ≤ zp := by exact_mod_cast h
      rw [max_eq_left (by nlinarith)]; ring
    · rw [max_eq_left h]
      have : (zp : ℚ) ≤ x := by exact_mod_cast h
      rw [max_eq_right (by nlinarith)]
  rw [he]
  refine ⟨?_, hr⟩
  have hfit : Fits32 (intDtype 7).min (intDtype 7).max := by decide
  rw [quantize_eq hfit, ← hr]
  have : real zp s (max x zp) / s + zp = ((max x zp : ℤ) : ℚ) := by unfold real; field_simp; ring
  rw [this, roundHalfUp_int]
  have h1 := hx.1; have h2 := hx.2; have h3 := hzp.1; have h4 := hzp.2
  exact (clip_of_mem (show (-128 : ℤ) ≤ _ by omega) (show _ ≤ (127 : ℤ) by omega)).symm

/-- C22, rescaling with a common zero point: as long as the exact rescaled code fits int8 the result is less than
one output step away from `max(0, real value)` — truncation, not rounding to nearest. -/
theorem C22_relu_rescale_error (iS oS : ℚ) (hi : 0 < iS) (ho : 0 < oS) (zp x : ℤ) (hx : Code (-128) 127 x)
    (hzp : Code (-128) 127 zp) (hfit : zp + iS / oS * ((max x zp : ℤ) - zp) ≤ 127) :
    |real zp oS ((Relu.ofParams iS zp oS zp).elem x) - max 0 (real zp iS x)| < oS := by
  rw [relu_elem_eq iS oS zp x hx hzp]
  set t : ℚ := zp + iS / oS * ((max x zp : ℤ) - zp) with ht
  have hk : 0 < iS / oS := div_pos hi ho
  have hm : (zp : ℚ) ≤ ((max x zp : ℤ) : ℚ) := by exact_mod_cast le_max_right x zp
  have htl : (zp : ℚ) ≤ t := by rw [ht]; nlinarith
  have hlo : ((-128 : ℤ) : ℚ) ≤ t := le_trans (by exact_mod_cast hzp.1) htl
  have h1 := trunc_mono hlo
  have h2 := trunc_mono (show t ≤ ((127 : ℤ) : ℚ) by exact_mod_cast hfit)
  rw [trunc_int] at h1 h2
  rw [wrapS_of_mem (b := 7) (by omega) (by omega)]
  have hmax : max 0 (real zp iS x) = oS * (t - zp) := by
    have e : oS * (t - zp) = iS * (((max x zp : ℤ) : ℚ) - zp) := by
      rw [ht]; field_simp; ring
    rw [e]
    unfold real
    rcases le_total x zp with h | h
    · rw [max_eq_right h]
      have : (x : ℚ) ≤ zp := by exact_mod_cast h
      rw [max_eq_left (by nlinarith)]; ring
    · rw [max_eq_left h]
      have : (zp : ℚ) ≤ x := by exact_mod_cast h
      rw [max_eq_right (by nlinarith)]
  rw [hmax]
  unfold real
  rw [← mul_sub, abs_mul, abs_of_pos ho]
  have h3 := abs_trunc_sub_lt t
  have : (trunc t : ℚ) - zp - (t - zp) = trunc t - t := by ring
  rw [this]
  nlinarith

/-- Non-trivial instances of both theorems. -/
example : (Relu.ofParams (1/10) 3 (1/10) 3).elem 50 = 50 ∧ (Relu.ofParams (1/10) 3 (1/10) 3).elem (-7) = 3 ∧
    (Relu.ofParams (1/10) (-5) (1/4) (-5)).elem 50 = 17 ∧
    ((-5 : ℤ) : ℚ) + (1/10) / (1/4) * ((max 50 (-5) : ℤ) - (-5 : ℤ)) ≤ 127 := by
  decide +kernel

end Verif
