import Verif.Model.Distribution
import Verif.Model.FullyConnected
import Mathlib.Data.Int.Log

/-!
# The floating point arithmetic behind `quantize`, `dequantize`, calibration and the multiplier

Everywhere else in the model floats are exact rationals.  Here the same lines of code are modelled with the
rounding that binary floating point performs after every operation, so that the theorems of `Verif.Props.Float`
can say which of the exact properties survive and by how much the others are off.

Not modelled: overflow to infinity (in `quantize` an infinite quotient saturates exactly like a large finite one),
NaN and signed zeros.
-/

namespace Verif

/-- A binary floating point format: `p` significant bits, and `2^emin` the smallest positive number.
(A Python/numpy primitive, not repository code.) -/
structure Fmt where
  p : ℕ
  emin : ℤ
deriving DecidableEq, Repr

/-- IEEE binary64: Python `float`, `np.float64`. -/
def Fmt.f64 : Fmt := ⟨53, -1074⟩

/-- IEEE binary32: `np.float32`. -/
def Fmt.f32 : Fmt := ⟨24, -149⟩

namespace Fmt

/-- The exponent of the grid on which numbers of the magnitude of `x` lie. -/
def grid (F : Fmt) (x : ℚ) : ℤ := max (Int.log 2 |x| + 1 - F.p) F.emin

/-- Round to nearest, ties to even: what the processor does with the exact result of one operation. -/
def fl (F : Fmt) (x : ℚ) : ℚ := (roundHalfEven (x / 2 ^ F.grid x) : ℤ) * 2 ^ F.grid x

/-- `np.array(data).astype(np.float64) / scale + zero_point` on one element, with rounding
(operators.py:130). -/
def floatRes (F : Fmt) (x : ℚ) (zp : ℤ) (s : ℚ) : ℚ := F.fl (F.fl (x / s) + zp)

/-- `Quantization.round(data, extra)` on one element, with rounding (operators.py:154-162). -/
def round (F : Fmt) (d : GDtype) (x : ℚ) (extra : ℚ := 1 / 2) : ℤ :=
  castInt32 (clip d.min d.max ⌊F.fl (x + extra)⌋)

/-- `Quantization.quantize` of one element without policy, with rounding (operators.py:112-139). -/
def quantize (F : Fmt) (d : GDtype) (x : ℚ) (zp : ℤ) (s : ℚ) : ℤ := F.round d (F.floatRes x zp s)

/-- `Quantization.quantize` of one element with its policy entry, with rounding (operators.py:132-134). -/
def quantizePolicy (F : Fmt) (d : GDtype) (x : ℚ) (zp : ℤ) (s p : ℚ) : ℤ :=
  F.round d (F.fl (F.floatRes x zp s + p)) 0

/-- `Quantization.dequantize` of one element, with rounding (operators.py:141-152). -/
def dequantize (F : Fmt) (q zp : ℤ) (s : ℚ) : ℚ := F.fl ((wrapS 32 (wrapS 32 q - zp) : ℤ) * s)

/-- `get_base_rounding` on one element
(quantizer/itcl_quantizer/equalizers/adaround/irounding_policy.py:23-33), with rounding.  numpy evaluates
`tensor / scale` in the tensor's own format, to which the scalar `scale` is converted first. -/
def baseRounding (F : Fmt) (x s : ℚ) : ℤ :=
  let t := F.fl (x / F.fl s)
  if ((⌊F.fl (t + 1 / 2)⌋ : ℤ) : ℚ) > t then 1 else 0

/-- Scale and zero point of `Distribution.quantize` without forced values
(quantizer/itcl_quantizer/quantizer/distributions/distribution.py:140-171), with rounding, for a minimum `m` and a
maximum `M` of the data.  (`none` where the exact model `Dist.quantize` says `none`.) -/
def calibrate (F : Fmt) (m M : ℚ) (q : GDtype) (symmetric : Bool) : Option (ℚ × ℤ) :=
  let mn := min m 0
  let mx := max M 0
  let qmin := if symmetric then -q.max else q.min
  if q.max - qmin = 0 ∨ mn - mx = 0 then none
  else
    let scale := F.fl (F.fl (mx - mn) / (q.max - qmin))
    let zp := roundHalfEven (F.fl (F.fl (F.fl (mn * q.max) - F.fl (mx * qmin)) / F.fl (mn - mx)))
    if scale = 0 then some (1, 0) else some (scale, zp)

/-- Scale of `Distribution.quantize` with a forced zero point (distribution.py:151-159), with rounding; the zero
point is the forced one. -/
def forcedScale (F : Fmt) (m M : ℚ) (q : GDtype) (symmetric : Bool) : Option ℚ :=
  let mn := min m 0
  let mx := max M 0
  let denom := if symmetric then q.max else |q.min|
  if mn - mx = 0 ∨ denom = 0 then none
  else
    let scale := F.fl (max |mn| |mx| / denom)
    if scale = 0 then some 1 else some scale

/-- `input_scale * weight_scale / output_scale` with rounding
(inference_engine/.../fullyconnected.py:337).  What follows (`math.frexp`, `q * (1 << 31)`, `round`) is exact. -/
def multiplier (F : Fmt) (is ws os : ℚ) : ℚ := F.fl (F.fl (is * ws) / os)

/-- `FullyConnected.build` (fullyconnected.py:82-124) as in `FC.build`, with the multiplier computed in floating
point.  (The literal `1e-6`, to which the multiplier is compared, is still the exact 10⁻⁶.) -/
def buildFC (F : Fmt) (inputS : ℚ) (inputZp : ℤ) (weightS : ℚ) (weightZp : ℤ) (nIn : ℕ) (weights : List (List ℤ))
    (bias : List ℤ) (outputS : ℚ) (outputZp : ℤ) (outDtype : GDtype) : Option FC :=
  match Mult.build (F.multiplier inputS weightS outputS) with
  | none => none
  | some p => some
      { inputZp := inputZp, nIn := nIn, weights := weights.map (fun r => r.map (fun w => w - weightZp)),
        bias := bias, mult := p, outputZp := outputZp, outDtype := outDtype }

end Fmt
end Verif
