import Verif.Model.Quant
import Verif.Spec.Quant
import Verif.Lemmas.Num

namespace Verif
open Spec

theorem castInt32_of {x : ℤ} (h : IsInt32 x) : castInt32 x = x := by
  unfold castInt32; exact if_pos h

theorem castInt32_clip {d : GDtype} (h : Fits32 d.min d.max) (x : ℤ) :
    castInt32 (clip d.min d.max x) = clip d.min d.max x := by
  obtain ⟨h1, h2, h3⟩ := h
  have := clip_ge (x := x) h2
  have := clip_le (lo := d.min) (hi := d.max) (x := x)
  exact castInt32_of ⟨by omega, by omega⟩

theorem quantize_eq {d : GDtype} (h : Fits32 d.min d.max) (x : ℚ) (zp : ℤ) (s : ℚ) :
    Quantization.quantize d x zp s = clip d.min d.max (roundHalfUp (x / s + zp)) := by
  unfold Quantization.quantize Quantization.round Quantization.floatRes roundHalfUp
  rw [castInt32_clip h]

theorem round_mem {d : GDtype} (h : Fits32 d.min d.max) (x e : ℚ) :
    Code d.min d.max (Quantization.round d x e) := by
  unfold Quantization.round
  rw [castInt32_clip h]
  exact ⟨clip_ge h.2.1, clip_le⟩

theorem wrap32_of {x : ℤ} (h : IsInt32 x) : wrapS 32 x = x := wrapS_of_mem (b := 31) h.1 h.2

theorem dequantize_eq {q zp : ℤ} (hq : IsInt32 q) (h : IsInt32 (q - zp)) (s : ℚ) :
    Quantization.dequantize q zp s = real zp s q := by
  unfold Quantization.dequantize real
  rw [wrap32_of hq, wrap32_of h]; push_cast; ring

/-- Rounding to nearest and clipping gives a nearest code. -/
theorem nearest_clip_round {lo hi : ℤ} (hlh : lo ≤ hi) (zp : ℤ) {s : ℚ} (hs : 0 < s) (x : ℚ) (r : ℤ)
    (hr : |(r : ℚ) - (x / s + zp)| ≤ 1 / 2) : Nearest lo hi zp s x (clip lo hi r) := by
  refine ⟨⟨clip_ge hlh, clip_le⟩, ?_⟩
  intro q' hq'
  -- reduce to code units
  have key : ∀ q : ℤ, |real zp s q - x| = s * |(q : ℚ) - (x / s + zp)| := by
    intro q
    rw [← abs_of_pos hs, ← abs_mul, abs_of_pos hs]
    congr 1
    unfold real
    field_simp
    ring
  rw [key, key]
  apply mul_le_mul_of_nonneg_left _ hs.le
  set t := x / s + zp with ht
  obtain ⟨hq1, hq2⟩ := hq'
  obtain ⟨hr1, hr2⟩ := abs_le.mp hr
  rcases lt_or_ge r lo with h1 | h1
  · rw [clip_of_le hlh h1.le]
    have a1 : (r : ℚ) + 1 ≤ lo := by exact_mod_cast h1
    have a2 : (lo : ℚ) ≤ q' := by exact_mod_cast hq1
    rw [abs_of_nonneg (by linarith), abs_of_nonneg (by linarith)]
    linarith
  · rcases lt_or_ge hi r with h2 | h2
    · rw [clip_of_ge h2.le]
      have a1 : (hi : ℚ) + 1 ≤ r := by exact_mod_cast h2
      have a2 : (q' : ℚ) ≤ hi := by exact_mod_cast hq2
      rw [abs_of_nonpos (by linarith), abs_of_nonpos (by linarith)]
      linarith
    · rw [clip_of_mem h1 h2]
      rcases lt_trichotomy q' r with h3 | h3 | h3
      · have a : (q' : ℚ) + 1 ≤ r := by exact_mod_cast h3
        rw [abs_of_nonpos (a := (q' : ℚ) - t) (by linarith)]
        exact abs_le.mpr ⟨by linarith, by linarith⟩
      · rw [h3]
      · have a : (r : ℚ) + 1 ≤ q' := by exact_mod_cast h3
        rw [abs_of_nonneg (a := (q' : ℚ) - t) (by linarith)]
        exact abs_le.mpr ⟨by linarith, by linarith⟩

/-- A nearest code is within half a step when `x` is in the representable interval. -/
theorem nearest_err {lo hi zp : ℤ} {s x : ℚ} {q : ℤ} (hs : 0 < s) (h : Nearest lo hi zp s x q)
    (h1 : real zp s lo ≤ x) (h2 : x ≤ real zp s hi) : |real zp s q - x| ≤ s / 2 := by
  set r := roundHalfUp (x / s + zp) with hr
  have hr' := abs_roundHalfUp_sub_le (x / s + zp)
  have hlo : (lo : ℚ) ≤ x / s + zp := by
    unfold real at h1
    have : (lo : ℚ) - zp ≤ x / s := by rw [le_div_iff₀ hs]; linarith
    linarith
  have hhi : x / s + zp ≤ (hi : ℚ) := by
    unfold real at h2
    have : x / s ≤ (hi : ℚ) - zp := by rw [div_le_iff₀ hs]; linarith
    linarith
  have hcode : Code lo hi r := by
    constructor
    · have := roundHalfUp_mono hlo; rwa [roundHalfUp_int] at this
    · have := roundHalfUp_mono hhi; rwa [roundHalfUp_int] at this
  refine le_trans (h.2 r hcode) ?_
  have : real zp s r - x = s * ((r : ℚ) - (x / s + zp)) := by unfold real; field_simp; ring
  rw [this, abs_mul, abs_of_pos hs]
  nlinarith

theorem mem_codes {d : GDtype} {q : ℤ} : q ∈ Quantization.codes d ↔ Code d.min d.max q := by
  unfold Quantization.codes Code
  simp only [List.mem_map, List.mem_range]
  constructor
  · rintro ⟨i, hi, rfl⟩; omega
  · rintro ⟨h1, h2⟩
    exact ⟨(q - d.min).toNat, by omega, by omega⟩

theorem codes_length (d : GDtype) : (Quantization.codes d).length = (d.max - d.min + 1).toNat := by
  unfold Quantization.codes; simp

theorem codes_get {d : GDtype} {q : ℤ} (h : Code d.min d.max q) :
    (Quantization.codes d)[(q - d.min).toNat]? = some q := by
  unfold Quantization.codes Code at *
  rw [List.getElem?_map, List.getElem?_range (by omega)]
  simp; omega

end Verif
