import Verif.Model.FullyConnected
import Verif.Model.ReducedLUT
import Verif.Model.GenericDtype

/-!
# The JSON network format
(`core/itcl_quantization/json/specification.py`)

Simplifications: tensors hold integers (the networks the engine runs are quantized), per-channel
(list-valued) scales and zero points are not modelled, and of the free-form attributes only
`return_sequences` (the only one the engine reads) is kept.  Descriptions, names of tensors and dates are dropped.
-/

namespace Verif

/-- `Tensor` (specification.py:32-38). -/
structure TensorJ where
  data : Option (Arr ℤ)
  shape : List ℕ
  dtype : String
deriving DecidableEq, Repr

/-- `LUT` (specification.py:25-30). -/
structure LutJ where
  lut : Option (List ℤ)
  offset : Option ℤ
  reduced : Option ReducedLUT.Json
deriving DecidableEq, Repr

/-- `Node` (specification.py:40-49). -/
structure NodeJ where
  scale : Option ℚ
  zeroPoint : Option ℤ
  tensor : Option TensorJ
  lut : Option LutJ
deriving DecidableEq, Repr

/-- `Operator` (specification.py:57-67). -/
structure OpJ where
  opType : String
  name : String
  inputs : List NodeJ
  outputs : List NodeJ
  returnSequences : Option Bool := none
deriving DecidableEq, Repr

/-- `JsonNetwork` (specification.py:69-81). -/
structure NetJ where
  engine : String
  operators : ℕ
  graph : List OpJ
  input : List (Option NodeJ)
  output : List (Option NodeJ)
deriving DecidableEq, Repr

/-- `str.upper()`, ASCII part. -/
def upper (s : String) : List Char := s.toList.map Char.toUpper

/-- Python `pat in text`. -/
def contains (pat : String) (text : List Char) : Bool := decide (pat.toList <:+: text)

namespace Arr

/-- Element-wise application of a function (numpy ufunc). -/
def map {α β : Type} (f : α → β) : Arr α → Arr β
  | vec x => vec (x.map f)
  | mat x => mat (x.map (fun r => r.map f))
  | cube x => cube (x.map (fun m => m.map (fun r => r.map f)))

/-- Element-wise application of a function that may raise (`np.vectorize`). -/
def mapM {α β : Type} (f : α → Option β) : Arr α → Option (Arr β)
  | vec x => (x.mapM f).map vec
  | mat x => (x.mapM (fun (r : List α) => r.mapM f)).map mat
  | cube x => (x.mapM (fun (m : List (List α)) => m.mapM (fun (r : List α) => r.mapM f))).map cube

/-- All elements, in order. -/
def flat {α : Type} : Arr α → List α
  | vec x => x
  | mat x => x.flatten
  | cube x => x.flatten.flatten

end Arr

end Verif
