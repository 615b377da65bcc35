import Verif.Lemmas.Quant

/-!
# Properties C01–C06: `Quantization.quantize` / `dequantize`

Vocabulary: `Verif.Spec.Quant`.  `Fits32 d.min d.max` says that the dtype fits the int32 container in which
the code stores every quantized array (true of int8..int32, uint1..uint31).
-/

namespace Verif
open Spec

/-! ## C01 -/

/-- C01.  Every element of the quantized array is a code of the dtype: for every data, non-zero scale,
zero point and policy (absent, matching, broadcast or incompatible). -/
theorem C01_quantize_in_range (d : GDtype) (hd : Fits32 d.min d.max) (xs : List ℚ) (zp : ℤ) (s : ℚ)
    (_hs : s ≠ 0) (policy : Option (List ℚ)) :
    ∀ q ∈ Quantization.quantizeArray d xs zp s policy, Code d.min d.max q := by
  intro q hq
  unfold Quantization.quantizeArray at hq
  simp only at hq
  split at hq
  · obtain ⟨y, _, rfl⟩ := List.mem_map.mp hq; exact round_mem hd _ _
  · split at hq
    · obtain ⟨y, _, rfl⟩ := List.mem_map.mp hq; exact round_mem hd _ _
    · obtain ⟨y, _, rfl⟩ := List.mem_map.mp hq; exact round_mem hd _ _

/-- int8 meets the hypotheses, and all three policy branches are reachable. -/
example : Fits32 (intDtype 7).min (intDtype 7).max ∧
    Quantization.quantizeArray (intDtype 7) [1000, -1/3, 2] 3 (1/2) (some [1, 0, 1]) = [127, 2, 8] ∧
    Quantization.quantizeArray (intDtype 7) [1000, -1/3, 2] 3 (1/2) (some [1, 0]) = [127, 2, 7] := by
  decide +kernel

/-- C01, other half: for a dtype that does not fit int32 (`uint32`) saturated values leave the range. -/
theorem C01_uint32_counterexample :
    ∃ x : ℚ, ∃ q ∈ Quantization.quantizeArray (uintDtype 32) [x] 0 1, 
      ¬ Code (uintDtype 32).min (uintDtype 32).max q :=
  ⟨5000000000, -(2 ^ 31), by decide +kernel, by decide +kernel⟩

/-- C01, shape: quantizing keeps the number of elements, with no policy, an equally shaped one or an
incompatible one. -/
theorem C01_quantize_length (d : GDtype) (xs : List ℚ) (zp : ℤ) (s : ℚ) (policy : Option (List ℚ))
    (hp : ∀ ps, policy = some ps → ps.length = xs.length ∨ (ps.length ≠ 1 ∧ xs.length ≠ 1)) :
    (Quantization.quantizeArray d xs zp s policy).length = xs.length := by
  unfold Quantization.quantizeArray
  simp only
  cases policy with
  | none => simp
  | some ps =>
    have := hp ps rfl
    unfold Quantization.broadcastAdd
    simp only [List.length_map]
    by_cases h : xs.length = ps.length
    · simp [h]
    · rw [if_neg h]
      have h1 : ps.length ≠ 1 ∧ xs.length ≠ 1 := by omega
      split
      · rename_i ys heq
        split at heq
        · simp at h1
        · rename_i x hx
          have := congrArg List.length hx
          simp at this; omega
        · simp at heq
      · simp

/-! ## C02 -/

/-- C02.  Quantization preserves order. -/
theorem C02_quantize_monotone (d : GDtype) (hd : Fits32 d.min d.max) (zp : ℤ) (s : ℚ) (hs : 0 < s)
    (x y : ℚ) (hxy : x ≤ y) : Quantization.quantize d x zp s ≤ Quantization.quantize d y zp s := by
  rw [quantize_eq hd, quantize_eq hd]
  exact clip_mono (roundHalfUp_mono (by have := div_le_div_of_nonneg_right hxy hs.le; linarith))

example : Quantization.quantize (intDtype 7) (-1/3) 3 (1/2) = 2 ∧
    Quantization.quantize (intDtype 7) (1/3) 3 (1/2) = 4 := by decide +kernel

/-! ## C03 -/

/-- C03.  Dequantizing a code and quantizing it again gives the code back, provided `q - zp` fits the int32
arithmetic of `dequantize` (automatic for dtypes of at most 31 bits with the zero point in range). -/
theorem C03_quantize_dequantize (d : GDtype) (hd : Fits32 d.min d.max) (zp : ℤ) (s : ℚ) (hs : 0 < s)
    (q : ℤ) (hq : Code d.min d.max q) (hz : IsInt32 (q - zp)) :
    Quantization.quantize d (Quantization.dequantize q zp s) zp s = q := by
  have hq32 : IsInt32 q := ⟨by have := hd.1; have := hq.1; omega, by have := hd.2.2; have := hq.2; omega⟩
  rw [dequantize_eq hq32 hz, quantize_eq hd]
  have : real zp s q / s + zp = (q : ℚ) := by unfold real; field_simp; ring
  rw [this, roundHalfUp_int, clip_of_mem hq.1 hq.2]

/-- C03 for whole arrays, for every signed dtype of at most 31 bits and zero point in range. -/
theorem C03_array_roundtrip (k : ℕ) (hk : k ≤ 30) (zp : ℤ) (hzp : Code (intDtype k).min (intDtype k).max zp)
    (s : ℚ) (hs : 0 < s) (qs : List ℤ) (hqs : ∀ q ∈ qs, Code (intDtype k).min (intDtype k).max q) :
    Quantization.quantizeArray (intDtype k) (Quantization.dequantizeArray qs zp s) zp s = qs := by
  have hpow : (2 : ℤ) ^ k ≤ 2 ^ 30 := pow_le_pow_right₀ (by norm_num) hk
  have hpos : (0 : ℤ) < 2 ^ k := by positivity
  have hd : Fits32 (intDtype k).min (intDtype k).max := by
    unfold Fits32 intDtype; simp only; refine ⟨by omega, by omega, by omega⟩
  unfold Quantization.quantizeArray Quantization.dequantizeArray
  simp only [List.map_map]
  conv_rhs => rw [← List.map_id qs]
  apply List.map_congr_left
  intro q hq
  have hc := hqs q hq
  have := C03_quantize_dequantize (intDtype k) hd zp s hs q hc (by
    unfold Code intDtype at hc hzp; simp only at hc hzp; unfold IsInt32; constructor <;> omega)
  simpa [Quantization.quantize] using this

example : Code (intDtype 7).min (intDtype 7).max (-128) ∧ IsInt32 (-128 - 127) ∧
    Quantization.dequantize (-128) 127 (1/3) = -85 := by
  refine ⟨by decide +kernel, ⟨by norm_num, by norm_num⟩, by decide +kernel⟩

/-! ## C04 -/

/-- C04.  The quantized code is a nearest representable one: no other code of the dtype denotes a real value
closer to `x`.  (Covers rounding and saturation at once.) -/
theorem C04_quantize_nearest (d : GDtype) (hd : Fits32 d.min d.max) (zp : ℤ) (s : ℚ) (hs : 0 < s) (x : ℚ) :
    Nearest d.min d.max zp s x (Quantization.quantize d x zp s) := by
  rw [quantize_eq hd]
  exact nearest_clip_round hd.2.1 zp hs x _ (abs_roundHalfUp_sub_le _)

/-- C04.  Inside the representable interval the round trip error is at most half a step. -/
theorem C04_error_half_step (d : GDtype) (hd : Fits32 d.min d.max) (zp : ℤ) (s : ℚ) (hs : 0 < s) (x : ℚ)
    (h1 : real zp s d.min ≤ x) (h2 : x ≤ real zp s d.max)
    (hz : IsInt32 (Quantization.quantize d x zp s - zp)) :
    |Quantization.dequantize (Quantization.quantize d x zp s) zp s - x| ≤ s / 2 := by
  have hn := C04_quantize_nearest d hd zp s hs x
  have hq : IsInt32 (Quantization.quantize d x zp s) :=
    ⟨by have := hd.1; have := hn.1.1; omega, by have := hd.2.2; have := hn.1.2; omega⟩
  rw [dequantize_eq hq hz]
  exact nearest_err hs hn h1 h2

/-- C04.  Above / below the representable interval the result saturates. -/
theorem C04_saturates (d : GDtype) (hd : Fits32 d.min d.max) (zp : ℤ) (s : ℚ) (hs : 0 < s) (x : ℚ) :
    (real zp s d.max ≤ x → Quantization.quantize d x zp s = d.max) ∧
    (x ≤ real zp s d.min → Quantization.quantize d x zp s = d.min) := by
  rw [quantize_eq hd]
  unfold real
  constructor
  · intro h
    apply clip_of_ge
    have : (d.max : ℚ) ≤ x / s + zp := by
      have : (d.max : ℚ) - zp ≤ x / s := by rw [le_div_iff₀ hs]; linarith
      linarith
    have := roundHalfUp_mono this
    rwa [roundHalfUp_int] at this
  · intro h
    apply clip_of_le hd.2.1
    have : x / s + zp ≤ (d.min : ℚ) := by
      have : x / s ≤ (d.min : ℚ) - zp := by rw [div_le_iff₀ hs]; linarith
      linarith
    have := roundHalfUp_mono this
    rwa [roundHalfUp_int] at this

example : real 3 (1/2) (intDtype 7).min ≤ (10/3 : ℚ) ∧ (10/3 : ℚ) ≤ real 3 (1/2) (intDtype 7).max ∧
    Quantization.quantize (intDtype 7) (10/3) 3 (1/2) = 10 := by decide +kernel

/-! ## C05 -/

/-- C05.  Real zero is exactly representable: it quantizes to the zero point and the zero point dequantizes to
exactly zero. -/
theorem C05_zero_exact (d : GDtype) (hd : Fits32 d.min d.max) (zp : ℤ) (hzp : Code d.min d.max zp) (s : ℚ)
    (_hs : s ≠ 0) : Quantization.quantize d 0 zp s = zp ∧ Quantization.dequantize zp zp s = 0 := by
  constructor
  · rw [quantize_eq hd, zero_div, zero_add, roundHalfUp_int, clip_of_mem hzp.1 hzp.2]
  · have : IsInt32 zp := ⟨by have := hd.1; have := hzp.1; omega, by have := hd.2.2; have := hzp.2; omega⟩
    rw [dequantize_eq this (by unfold IsInt32; simp)]
    unfold real; simp

/-- C05 fails for a zero point outside the dtype: it is clipped. -/
example : Quantization.quantize (intDtype 7) 0 200 1 = 127 := by decide +kernel

/-! ## C06 -/

/-- C06.  With a 0/1 policy of the data's shape each element becomes the floor of `x/s + zp` or the next
integer — which one is exactly the policy bit — clipped to the dtype. -/
theorem C06_policy_neighbours (d : GDtype) (hd : Fits32 d.min d.max) (xs : List ℚ) (zp : ℤ) (s : ℚ)
    (_hs : s ≠ 0) (bits : List ℤ) (hlen : bits.length = xs.length) :
    Quantization.quantizeArray d xs zp s (some (bits.map (fun (b : ℤ) => (b : ℚ)))) =
      List.zipWith (fun x b => clip d.min d.max (⌊x / s + zp⌋ + b)) xs bits := by
  unfold Quantization.quantizeArray Quantization.broadcastAdd
  simp only [List.length_map, hlen, if_true]
  clear hlen
  induction xs generalizing bits with
  | nil => simp
  | cons x xs ih =>
    cases bits with
    | nil => simp
    | cons b bs =>
      simp only [List.map_cons, List.zipWith_cons_cons]
      rw [ih bs]
      congr 1
      unfold Quantization.round Quantization.floatRes
      rw [castInt32_clip hd, add_zero, Int.floor_add_intCast]

/-- C06.  The base policy of the AdaRound code is round-to-nearest: quantizing with it equals quantizing
without any policy (for every integer zero point). -/
theorem C06_base_policy_is_nearest (d : GDtype) (xs : List ℚ) (zp : ℤ) (s : ℚ) :
    Quantization.quantizeArray d xs zp s (some (xs.map (fun x => (baseRounding x s : ℚ)))) =
      Quantization.quantizeArray d xs zp s none := by
  unfold Quantization.quantizeArray Quantization.broadcastAdd
  simp only [List.length_map, if_true]
  induction xs with
  | nil => simp
  | cons x xs ih =>
    simp only [List.map_cons, List.zipWith_cons_cons]
    rw [ih]
    congr 1
    unfold Quantization.round Quantization.floatRes baseRounding
    congr 2
    set t := x / s
    have h1 := Int.floor_le t
    have h2 := Int.lt_floor_add_one t
    have h3 := Int.floor_le (t + 1 / 2)
    have h4 := Int.lt_floor_add_one (t + 1 / 2)
    rw [show t + (zp : ℚ) + 1 / 2 = t + 1 / 2 + (zp : ℚ) by ring, Int.floor_add_intCast]
    rw [add_zero, show ∀ b : ℤ, t + (zp : ℚ) + (b : ℚ) = t + ((zp + b : ℤ) : ℚ) by intro b; push_cast; ring,
      Int.floor_add_intCast]
    split_ifs with h
    · have a : (⌊t⌋ : ℚ) < ⌊t + 1 / 2⌋ := by linarith
      have b : (⌊t + 1 / 2⌋ : ℚ) < ⌊t⌋ + 2 := by linarith
      have a' : ⌊t⌋ < ⌊t + 1 / 2⌋ := by exact_mod_cast a
      have b' : ⌊t + 1 / 2⌋ < ⌊t⌋ + 2 := by exact_mod_cast b
      omega
    · have a : ⌊t + 1 / 2⌋ ≤ ⌊t⌋ := Int.le_floor.mpr (not_lt.mp h)
      have b : ⌊t⌋ ≤ ⌊t + 1 / 2⌋ := Int.floor_mono (by linarith)
      omega

/-- C06.  A policy that cannot be broadcast is ignored. -/
theorem C06_bad_shape_ignored (d : GDtype) (xs ps : List ℚ) (zp : ℤ) (s : ℚ)
    (h : ps.length ≠ xs.length) (h1 : ps.length ≠ 1) (h2 : xs.length ≠ 1) :
    Quantization.quantizeArray d xs zp s (some ps) = Quantization.quantizeArray d xs zp s none := by
  unfold Quantization.quantizeArray Quantization.broadcastAdd
  simp only [List.length_map, Ne.symm h, if_false]
  split
  · rename_i ys heq
    split at heq
    · simp at h1
    · rename_i x hx
      have := congrArg List.length hx
      simp at this; omega
    · simp at heq
  · rfl

/-- C06, broadcasting: a policy of one entry applies to every element. -/
theorem C06_scalar_policy (d : GDtype) (hd : Fits32 d.min d.max) (xs : List ℚ) (zp : ℤ) (s : ℚ) (_hs : s ≠ 0) (b : ℤ) :
    Quantization.quantizeArray d xs zp s (some [(b : ℚ)]) =
      xs.map (fun x => clip d.min d.max (⌊x / s + zp⌋ + b)) := by
  have key : ∀ y : ℚ, Quantization.round d (y + b) 0 = clip d.min d.max (⌊y⌋ + b) := by
    intro y
    unfold Quantization.round
    rw [castInt32_clip hd, add_zero, Int.floor_add_intCast]
  unfold Quantization.quantizeArray Quantization.broadcastAdd
  by_cases h : (xs.map (fun x => Quantization.floatRes x zp s)).length = [(b : ℚ)].length
  · simp only [h, if_true]
    match xs, h with
    | [x], _ =>
      simp only [List.map_cons, List.map_nil, List.zipWith_cons_cons, List.zipWith_nil_left, key]
      rfl
  · simp only [if_neg h, List.map_map]
    refine List.map_congr_left (fun x _ => ?_)
    simp only [Function.comp_apply, key]
    rfl

/-- C06, broadcasting: a single value is quantized once with every entry of the policy, so the result has the length of
the policy. -/
theorem C06_policy_widens (d : GDtype) (hd : Fits32 d.min d.max) (x : ℚ) (zp : ℤ) (s : ℚ) (_hs : s ≠ 0)
    (bits : List ℤ) :
    Quantization.quantizeArray d [x] zp s (some (bits.map (fun (b : ℤ) => (b : ℚ)))) =
      bits.map (fun b => clip d.min d.max (⌊x / s + zp⌋ + b)) := by
  match bits with
  | [b] => exact C06_scalar_policy d hd [x] zp s _hs b
  | [] => rfl
  | b :: c :: bits =>
    unfold Quantization.quantizeArray Quantization.broadcastAdd
    have hne : ¬ [Quantization.floatRes x zp s].length =
        ((b : ℚ) :: (c : ℚ) :: bits.map (fun (b : ℤ) => (b : ℚ))).length := by simp
    simp only [List.map_cons, List.map_nil]
    rw [if_neg hne]
    simp only [List.map_cons, List.map_map]
    have key : ∀ b : ℤ, Quantization.round d (Quantization.floatRes x zp s + b) 0 =
        clip d.min d.max (⌊x / s + zp⌋ + b) := by
      intro b
      unfold Quantization.round Quantization.floatRes
      rw [castInt32_clip hd, add_zero, Int.floor_add_intCast]
    rw [key, key]
    congr 2
    exact List.map_congr_left (fun b _ => key b)

example : Quantization.quantizeArray (intDtype 7) [3 / 2, 7 / 4] 1 1 (some [1]) = [3, 3] ∧
    Quantization.quantizeArray (intDtype 7) [3 / 2] 1 1 (some [1, 0, 1]) = [3, 2, 3] := by
  decide +kernel

/-- C06.  Rounding down everywhere never exceeds the input, rounding up never falls below it: the unclipped
error of a 0/1 policy is at most one step (compare C04's half step). -/
theorem C06_policy_error_le_step (d : GDtype) (hd : Fits32 d.min d.max) (x : ℚ) (zp : ℤ) (s : ℚ) (hs : 0 < s)
    (b : ℤ) (hb : b = 0 ∨ b = 1) (hin : d.min ≤ ⌊x / s + zp⌋ ∧ ⌊x / s + zp⌋ + 1 ≤ d.max) :
    |real zp s (Quantization.quantizePolicy d x zp s b) - x| ≤ s ∧
      (b = 0 → real zp s (Quantization.quantizePolicy d x zp s b) ≤ x) ∧
      (b = 1 → x < real zp s (Quantization.quantizePolicy d x zp s b)) := by
  have hq : Quantization.quantizePolicy d x zp s b = ⌊x / s + zp⌋ + b := by
    unfold Quantization.quantizePolicy Quantization.round Quantization.floatRes
    rw [castInt32_clip hd, add_zero, Int.floor_add_intCast, clip_of_mem] <;> omega
  rw [hq]
  have h1 := Int.floor_le (x / s + zp)
  have h2 := Int.lt_floor_add_one (x / s + zp)
  have e : real zp s (⌊x / s + zp⌋ + b) - x = s * ((⌊x / s + zp⌋ : ℚ) + b - (x / s + zp)) := by
    unfold real; push_cast; field_simp; ring
  refine ⟨?_, ?_, ?_⟩
  · rw [e, abs_mul, abs_of_pos hs]
    have : |(⌊x / s + zp⌋ : ℚ) + b - (x / s + zp)| ≤ 1 := by
      rcases hb with rfl | rfl <;> push_cast <;> rw [abs_le] <;> constructor <;> linarith
    nlinarith
  · rintro rfl
    have : s * ((⌊x / s + zp⌋ : ℚ) + (0 : ℤ) - (x / s + zp)) ≤ 0 :=
      mul_nonpos_of_nonneg_of_nonpos hs.le (by push_cast; linarith)
    linarith
  · rintro rfl
    have : 0 < s * ((⌊x / s + zp⌋ : ℚ) + (1 : ℤ) - (x / s + zp)) := mul_pos hs (by push_cast; linarith)
    linarith

example : Quantization.quantizeArray (intDtype 7) [5/2, -5/4, 3] 0 1 (some [1, 0, 0]) = [3, -2, 3] ∧
    ([5/2, -5/4, 3].map (fun x => baseRounding x 1)) = [1, 1, 0] := by decide +kernel

end Verif
