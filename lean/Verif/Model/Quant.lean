import Verif.Model.Num

/-!
# Model of `core/itcl_quantization/quantization/operators.py`, class `Quantization`
-/

namespace Verif

/-- `GenericDtype` (core/itcl_quantization/quantization/operators.py:32-76): a range of integer codes and the
printed name.  (Parsing of dtype names is modelled in `Verif.Model.GenericDtype`.) -/
structure GDtype where
  min : ℤ
  max : ℤ
  repr : String
deriving DecidableEq, Repr

/-- `GenericDtype("int<b>")` / `np.iinfo(np.int<b>)` for `b = k+1` bits (operators.py:43-64). -/
def intDtype (k : ℕ) : GDtype := ⟨-(2 ^ k), 2 ^ k - 1, "int" ++ toString (k + 1)⟩

/-- `GenericDtype("uint<b>")` (operators.py:43-64). -/
def uintDtype (b : ℕ) : GDtype := ⟨0, 2 ^ b - 1, "uint" ++ toString b⟩

/-- numpy cast `float64 -> int32` (`.astype("int32")`, operators.py:162) of an integral float.  Out of range
the C cast is undefined; on x86 it yields the "integer indefinite" value `-2^31`, which is what we model. -/
def castInt32 (x : ℤ) : ℤ := if -(2 ^ 31) ≤ x ∧ x < 2 ^ 31 then x else -(2 ^ 31)

namespace Quantization

/-- `Quantization.round(data, extra)` on one element (operators.py:154-162):
`np.floor(data + extra).clip(min, max).astype("int32")`. -/
def round (d : GDtype) (x : ℚ) (extra : ℚ := 1 / 2) : ℤ :=
  castInt32 (clip d.min d.max ⌊x + extra⌋)

/-- The pre-rounding value `data / scale + zero_point` (operators.py:130). -/
def floatRes (x : ℚ) (zp : ℤ) (s : ℚ) : ℚ := x / s + zp

/-- `Quantization.quantize` of one element without rounding policy (operators.py:112-139). -/
def quantize (d : GDtype) (x : ℚ) (zp : ℤ) (s : ℚ) : ℤ := round d (floatRes x zp s)

/-- `Quantization.quantize` of one element with its rounding-policy entry `p`
(operators.py:132-134: `self.round(float_res + rounding_policy, extra=0)`). -/
def quantizePolicy (d : GDtype) (x : ℚ) (zp : ℤ) (s p : ℚ) : ℤ := round d (floatRes x zp s + p) 0

/-- numpy broadcasting of a 1-D `+`: equal lengths, or one side of length 1; otherwise `ValueError`
(here `none`).  N-dimensional arrays are modelled by their flattened data. -/
def broadcastAdd (xs ps : List ℚ) : Option (List ℚ) :=
  if xs.length = ps.length then some (List.zipWith (· + ·) xs ps)
  else match ps, xs with
    | [p], _ => some (xs.map (· + p))
    | _, [x] => some (ps.map (x + ·))
    | _, _ => none

/-- `Quantization.quantize(data, zero_point, scale, rounding_policy)` on an array (operators.py:112-139).
`ValueError` from an incompatible policy is caught and falls back to round-to-nearest. -/
def quantizeArray (d : GDtype) (xs : List ℚ) (zp : ℤ) (s : ℚ) (policy : Option (List ℚ) := none) :
    List ℤ :=
  let fr := xs.map (fun x => floatRes x zp s)
  match policy with
  | none => fr.map (fun y => round d y)
  | some ps =>
    match broadcastAdd fr ps with
    | some ys => ys.map (fun y => round d y 0)
    | none => fr.map (fun y => round d y)

/-- `Quantization.dequantize` of one element (operators.py:141-152):
`(np.array(q, dtype=np.int32) - zero_point) * scale`; the subtraction is int32 arithmetic. -/
def dequantize (q zp : ℤ) (s : ℚ) : ℚ := (wrapS 32 (wrapS 32 q - zp) : ℤ) * s

/-- `dequantize` of an array (operators.py:141-152). -/
def dequantizeArray (qs : List ℤ) (zp : ℤ) (s : ℚ) : List ℚ := qs.map (fun q => dequantize q zp s)

/-- `range(int(min), int(max) + 1)` (operators.py:170-172). -/
def codes (d : GDtype) : List ℤ := (List.range (d.max - d.min + 1).toNat).map (fun (i : ℕ) => d.min + (i : ℤ))

/-- `Quantization.float_activation` (operators.py:164-177). -/
def floatActivation (d : GDtype) (f : ℚ → ℚ) (is : ℚ) (izp : ℤ) : List ℚ :=
  (dequantizeArray (codes d) izp is).map f

/-- `Quantization.create_LUT` (operators.py:179-193). -/
def createLUT (d : GDtype) (f : ℚ → ℚ) (is : ℚ) (izp : ℤ) (os : ℚ) (ozp : ℤ)
    (policy : Option (List ℚ) := none) : List ℤ :=
  quantizeArray d (floatActivation d f is izp) ozp os policy

end Quantization

/-- `IRoundingPolicy.get_base_rounding` on one element
(quantizer/itcl_quantizer/equalizers/adaround/irounding_policy.py:23-33):
`np.where(np.floor(t + 0.5) > t, 1, 0)` with `t = tensor / scale`. -/
def baseRounding (x s : ℚ) : ℤ := if ((⌊x / s + 1 / 2⌋ : ℤ) : ℚ) > x / s then 1 else 0

end Verif
