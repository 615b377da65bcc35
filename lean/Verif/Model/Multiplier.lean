import Verif.Model.Num

/-!
# Model of the fixed-point multipliers

`inference_engine/itcl_inference_engine/layers/tflite/fullyconnected.py:283-356`
(`FullyConnectedQuantizedMultiplier`) and
`inference_engine/itcl_inference_engine/util/floating.py` (`FloatingIntegerApprox`).
-/

namespace Verif

/-- `math.frexp(m)` for `m > 0`: the exponent `e` with `2^(e-1) ≤ m < 2^e`. -/
def frexpExp (m : ℚ) : ℤ := Int.log 2 m + 1

/-- `math.frexp(m)` for `m > 0`: the mantissa `m / 2^e ∈ [1/2, 1)`. -/
def frexpMant (m : ℚ) : ℚ := m / 2 ^ frexpExp m

/-- `quantized_multiplier`, `shift`, `round` of a `FullyConnectedQuantizedMultiplier`
(fullyconnected.py:299-303). -/
structure Mult where
  qm : ℤ
  shift : ℕ
  round : ℤ
deriving DecidableEq, Repr

namespace Mult

/-- `__adjust_mult` (fullyconnected.py:305-322).  A failing `assert` is `none`. -/
def adjust (qm shift : ℤ) : Option Mult :=
  if ¬ (0 ≤ qm) then none
  else if ¬ (-31 ≤ shift ∧ shift ≤ 30) then none
  else
    let sh := 31 + -shift
    some ⟨qm, sh.toNat, 2 ^ (sh.toNat - 1)⟩

/-- `__build` (fullyconnected.py:324-356), as a function of
`float_multiplier = input_scale * weight_scale / output_scale`.  `max_int32 = 2^32 - 1` is the repository's own
constant (util/quantization.py:6). -/
def build (m : ℚ) : Option Mult :=
  if m < 1 / 1000000 then adjust 0 0
  else
    let shift := frexpExp m
    let qm := roundHalfEven (frexpMant m * 2 ^ 31)
    if ¬ (qm ≤ 2 ^ 31) then none
    else
      let qs := if qm = 2 ^ 31 then (qm / 2, shift + 1) else (qm, shift)
      if ¬ (qs.1 ≤ 2 ^ 32 - 1) then none
      else
        let qs := if qs.2 < -31 then (0, 0) else qs
        adjust qs.1 qs.2

/-- `__multiply_by_quantized_multiplier` on one accumulator (fullyconnected.py:218-232), in int64 arithmetic. -/
def rescale (p : Mult) (acc : ℤ) : ℤ :=
  shiftRight (wrapS 64 (wrapS 64 (wrapS 64 acc * p.qm) + p.round)) p.shift

end Mult

/-- `FloatingIntegerApprox` (inference_engine/.../util/floating.py:9-30): `_q`, `_shift`, `_round`.
`none` if the constructor raises (`1 << negative` is a `ValueError`; `assert`). -/
def floatingApprox (m : ℚ) : Option Mult :=
  let shift := frexpExp m
  let qm := roundHalfEven (frexpMant m * 2 ^ 31)
  if ¬ (qm ≤ 2 ^ 31) then none
  else
    let qs := if qm = 2 ^ 31 then (qm / 2, shift + 1) else (qm, shift)
    let q := if qs.2 < -31 then 0 else qs.1
    let sh := 31 - qs.2
    if sh - 1 < 0 then none else some ⟨q, sh.toNat, 2 ^ (sh.toNat - 1)⟩

/-- `FloatingIntegerApprox.__mul__` with `integer_only=True` on a Python int (floating.py:32-37). -/
def Mult.mulInt (p : Mult) (x : ℤ) : ℤ := shiftRight (x * p.qm + p.round) p.shift

end Verif
