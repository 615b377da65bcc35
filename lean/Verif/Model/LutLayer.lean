import Verif.Model.Json

/-!
# Model of `inference_engine/itcl_inference_engine/layers/common/lut.py`, class `LUTActivation`
-/

namespace Verif

/-- The table a LUT layer indexes: a Python list or a `ReducedLUT` (lut.py:15). -/
inductive LutTable
  | plain (l : List ℤ)
  | reduced (r : ReducedLUT)
deriving DecidableEq, Repr

/-- `table[i]`; `none` is `IndexError`. -/
def LutTable.get : LutTable → ℤ → Option ℤ
  | .plain l, i => ReducedLUT.pyIndex l i
  | .reduced r, i => r.get i

/-- Fields of a `LUTActivation` (lut.py:15-21). -/
structure LutLayer where
  table : LutTable
  offset : ℤ
deriving DecidableEq, Repr

namespace LutLayer

/-- `LUTActivation.from_node` (lut.py:23-39): the reduced table is preferred; a missing offset is 0. -/
def ofNode (n : NodeJ) : Option LutLayer :=
  match n.lut with
  | none => none
  | some lut =>
    let table := match lut.reduced with
      | some j => LutTable.reduced (ReducedLUT.deserialize j)
      | none => LutTable.plain (lut.lut.getD [])
    some ⟨table, lut.offset.getD 0⟩

/-- `LUTActivation.from_model` (lut.py:41-57): the table of the first input node. -/
def fromModel (op : OpJ) : Option LutLayer :=
  match op.inputs with
  | [] => none
  | n :: _ => ofNode n

/-- The look-up of one element (lut.py:19, 68). -/
def look (l : LutLayer) (x : ℤ) : Option ℤ := l.table.get (x + l.offset)

/-- `LUTActivation.infer` (lut.py:59-68).  `np.vectorize` raises on empty arrays. -/
def infer (l : LutLayer) (x : Arr ℤ) : Option (Arr ℤ) :=
  if x.flat = [] then none else x.mapM l.look

end LutLayer
end Verif
