import Verif.Model.Quant

/-!
# Model of dtype-name parsing and of the widening `Dtype` arithmetic
(`core/itcl_quantization/quantization/operators.py`)

Strings are lists of characters.  `re`'s `\d` also matches non-ASCII decimal digits and `str.lower` also maps
non-ASCII letters; the model uses the ASCII versions.  This changes no accept/reject decision (an accepted
text must equal an ASCII text after lower-casing), only which exception a rejected non-ASCII text raises.
-/

namespace Verif

/-- The exceptions `GenericDtype(text)` can raise. -/
inductive DtypeError
  /-- `re.findall(...)[0]` on an empty list. -/
  | indexError
  /-- The explicit `raise TypeError(...)`s. -/
  | typeError
deriving DecidableEq, Repr

/-- `re.findall(r"[p]+", s)[0]` as an option: the first maximal run of characters satisfying `p`
(operators.py:50-51). -/
def firstRun (p : Char → Bool) (s : List Char) : Option (List Char) :=
  match (s.dropWhile (fun c => !p c)).takeWhile p with
  | [] => none
  | r => some r

/-- `str.lower()`, ASCII part (operators.py:51, 63). -/
def lower (s : List Char) : List Char := s.map Char.toLower

/-- `ALLOWED_STR_TYPES` (operators.py:33). -/
def allowedTypes : List (List Char) := ["int".toList, "float".toList, "uint".toList]

/-- `GenericDtype.__build_str_dtype` (operators.py:49-64), statement by statement.  (`int(text)` on a run of
digits is `Nat.ofDigitChars`; `f"{bits}"` is the decimal representation.) -/
def GDtype.ofString (dtype : List Char) : Except DtypeError GDtype :=
  match firstRun Char.isDigit dtype with
  | none => .error .indexError
  | some ds =>
    let bits := Nat.ofDigitChars 10 ds 0
    match firstRun Char.isAlpha dtype with
    | none => .error .indexError
    | some ty =>
      let type := lower ty
      let signed := decide (type = "int".toList)
      if type ∉ allowedTypes then .error .typeError
      else if bits = 0 then .error .typeError
      else
        let mn : ℤ := if signed then -(2 ^ (bits - 1)) else 0
        let mx : ℤ := if signed then 2 ^ (bits - 1) - 1 else 2 ^ bits - 1
        let repr := type ++ Nat.toDigits 10 bits
        if repr ≠ lower dtype then .error .typeError
        else .ok ⟨mn, mx, String.ofList repr⟩

/-! ## `Dtype`: integers that remember their numpy dtype -/

/-- A numpy integer dtype: signedness and number of bits (`Dtype.type` and `Dtype.bits`,
operators.py:224-225).  Float dtypes are not modelled (`np.iinfo` rejects them, operators.py:235-238). -/
structure NDtype where
  signed : Bool
  bits : ℕ
deriving DecidableEq, Repr

namespace NDtype

/-- `np.iinfo(dtype).min` (operators.py:234-235). -/
def min (d : NDtype) : ℤ := if d.signed then -(2 ^ (d.bits - 1)) else 0

/-- `np.iinfo(dtype).max` (operators.py:237-238). -/
def max (d : NDtype) : ℤ := if d.signed then 2 ^ (d.bits - 1) - 1 else 2 ^ d.bits - 1

/-- numpy conversion to the dtype with wrap-around. -/
def wrap (d : NDtype) (x : ℤ) : ℤ := if d.signed then wrapS d.bits x else wrapU d.bits x

/-- `Dtype.__double_dtype` (operators.py:240-241). -/
def double (d : NDtype) : NDtype := ⟨d.signed, Nat.min 64 (d.bits * 2)⟩

/-- `Dtype.get_larger_dtype` (operators.py:243-248): the second on ties. -/
def larger (a b : NDtype) : NDtype := if a.bits > b.bits then a else b

end NDtype

/-- A `Dtype` object (operators.py:211-225): a scalar (one element) or 1-D array of integers with a numpy dtype.
Arrays with more dimensions are not modelled (`any(...)` raises on them). -/
structure DVal where
  vals : List ℤ
  dt : NDtype
deriving DecidableEq, Repr

/-- Right operand of `+`, `-`, `*`: another `Dtype` or a plain number/array. -/
inductive DOperand
  | dtype (v : DVal)
  | literal (xs : List ℤ)

/-- numpy broadcasting of 1-D operands; `none` is the `ValueError`. -/
def bcastPairs (xs ys : List ℤ) : Option (List (ℤ × ℤ)) :=
  if xs.length = ys.length then some (List.zip xs ys)
  else match ys, xs with
    | [y], _ => some (xs.map (fun x => (x, y)))
    | _, [x] => some (ys.map (fun y => (x, y)))
    | _, _ => none

/-- The arithmetic shared by `__add__`, `__sub__` and `__mul__` (operators.py:252-262, 265-281, 292-306):
convert both to the doubled larger dtype, operate there (with wrap-around), clip to its range, and label the
result with the larger dtype unless some element overflows the range of `self`. -/
def DVal.arith (op : ℤ → ℤ → ℤ) (self other : DVal) : Option DVal :=
  let lg := self.dt.larger other.dt
  let next := lg.double
  match bcastPairs (self.vals.map next.wrap) (other.vals.map next.wrap) with
  | none => none
  | some ps =>
    let res := ps.map (fun p => clip next.min next.max (next.wrap (op p.1 p.2)))
    let overflow := res.any (fun v => decide (v > self.dt.max)) || res.any (fun v => decide (v < self.dt.min))
    some ⟨res, if overflow then next else lg⟩

/-- `Dtype.__add__` (operators.py:250-262); `__adjust_other` (308-313) gives literals the dtype of `self`. -/
def DVal.add (self : DVal) : DOperand → Option DVal
  | .dtype v => DVal.arith (· + ·) self v
  | .literal xs => DVal.arith (· + ·) self ⟨xs, self.dt⟩

/-- `Dtype.__sub__` (operators.py:264-281); a literal has no `.bits`: `AttributeError`. -/
def DVal.sub (self : DVal) : DOperand → Option DVal
  | .dtype v => DVal.arith (· - ·) self v
  | .literal _ => none

/-- `Dtype.__mul__` (operators.py:291-306); a literal has no `.bits`: `AttributeError`. -/
def DVal.mul (self : DVal) : DOperand → Option DVal
  | .dtype v => DVal.arith (· * ·) self v
  | .literal _ => none

/-- `int8_multiplication` (operators.py:330). -/
def int8Mul (x y : ℤ) : ℤ := wrapS 16 (wrapS 16 x * wrapS 16 y)
/-- `int8_addition` (operators.py:331). -/
def int8Add (x y : ℤ) : ℤ := wrapS 16 (wrapS 16 x + wrapS 16 y)
/-- `int16_multiplication` (operators.py:332). -/
def int16Mul (x y : ℤ) : ℤ := wrapS 32 (wrapS 32 x * wrapS 32 y)
/-- `int16_addition` (operators.py:333). -/
def int16Add (x y : ℤ) : ℤ := wrapS 32 (wrapS 32 x + wrapS 32 y)
/-- `int32_multiplication` (operators.py:334). -/
def int32Mul (x y : ℤ) : ℤ := wrapS 64 (wrapS 64 x * wrapS 64 y)
/-- `int32_addition` (operators.py:335). -/
def int32Add (x y : ℤ) : ℤ := wrapS 64 (wrapS 64 x + wrapS 64 y)

end Verif
