import Verif.Model.Qubo

/-!
# Model of the rest of the QUBO code

`equalizers/adaround/Calculationsint.py` (the class `ADAInt`, run first by `_qubo_dense`), the matrix files written for
every layer and the QAOA route.  Arrays are functions of in-range indices, floats are exact rationals, as in
`Verif.Model.Qubo`.
-/

namespace Verif

/-! ## `ADAInt` (Calculationsint.py:26-339): every method recomputes what it needs from the constructor's arguments -/

namespace ADAInt

/-- `input_round_calculation` (Calculationsint.py:48-59). -/
def inputRound (p : QuboIn) (s i : ℕ) : ℚ := (roundHalfEven (p.input s i / p.sx) : ℤ)

/-- `dterm_calculation` (Calculationsint.py:60-76). -/
def dterm (p : QuboIn) (s l : ℕ) : ℚ :=
  p.output s l / (p.sw * p.sx) - (p.sb / (p.sw * p.sx)) * (⌊p.bias l / (p.sw * p.sx)⌋ : ℤ)
    - ∑ i ∈ Finset.range p.D, ((⌊p.kernel l i / p.sw⌋ : ℤ) : ℚ) * inputRound p s i

/-- `bterm1_calculation_subespacio` (Calculationsint.py:77-101). -/
def bterm1 (p : QuboIn) (d : QDict) (l : ℕ) : QDict :=
  (List.range p.D).foldl (fun d i => Dict.set d (l * p.D + i + 1, l * p.D + i + 1)
    (∑ s ∈ Finset.range p.N,
      (p.sw * p.sx) ^ 2 * (1 / p.N) * inputRound p s i * (inputRound p s i - 2 * dterm p s l))) d

/-- `Bt2` as computed by `bterm2_calculation_subespacio` (Calculationsint.py:120-128); the value of the last iteration. -/
def bt2 (p : QuboIn) : List ℚ :=
  (List.range (p.D * p.D)).map (fun k =>
    (p.sw * p.sx) ^ 2 * (1 / p.N) *
      ∑ s ∈ Finset.range p.N, if k / p.D = k % p.D then 0 else inputRound p s (k / p.D) * inputRound p s (k % p.D))

/-- `bterm2_calculation_repeticion` (Calculationsint.py:138-145). -/
def bterm2Rep (p : QuboIn) (Bt2 : List ℚ) (d : QDict) (l : ℕ) : QDict :=
  (List.range p.D).foldl (fun d i =>
    (List.range p.D).foldl (fun d j =>
      if Bt2.getD (j + i * p.D) 0 = 0 then d
      else Dict.set d (p.D * l + i + 1, p.D * l + j + 1) (Bt2.getD (j + i * p.D) 0)) d) d

/-- `bterm2_calculation_subespacio` (Calculationsint.py:103-136): the dictionary (same loop) and `Bt2`. -/
def bterm2 (p : QuboIn) (d : QDict) (l : ℕ) : QDict × List ℚ := (bterm2Rep p (bt2 p) d l, bt2 p)

/-- `bterm3_calculation_subespacio` (Calculationsint.py:147-169). -/
def bterm3 (p : QuboIn) (d : QDict) (l : ℕ) : QDict :=
  Dict.set d (p.D * p.O + 1 + l, p.D * p.O + 1 + l)
    (∑ s ∈ Finset.range p.N,
      (p.sx * p.sw) ^ 2 * (1 / p.N) * (p.sb / (p.sx * p.sw)) * (p.sb / (p.sx * p.sw) - 2 * dterm p s l))

/-- `Bt4` of `bterm4_calculation_subespacio` (Calculationsint.py:171-175). -/
def bt4 (p : QuboIn) : List ℚ :=
  (List.range p.D).map (fun i =>
    ∑ s ∈ Finset.range p.N, (p.sw * p.sx) ^ 2 * (1 / p.N) * (p.sb / (p.sw * p.sx)) * inputRound p s i)

/-- `bterm4_calculation_repeticion` (Calculationsint.py:185-192). -/
def bterm4Rep (p : QuboIn) (d : QDict) (Bt4 : List ℚ) (l : ℕ) : QDict :=
  (List.range p.D).foldl (fun d i =>
    if Bt4.getD i 0 = 0 then d
    else
      let d := Dict.set d (l * p.D + i + 1, p.D * p.O + 1 + l) (Bt4.getD i 0)
      Dict.set d (p.D * p.O + 1 + l, l * p.D + i + 1) (Bt4.getD i 0)) d

/-- `bterm4_calculation_subespacio` (Calculationsint.py:171-183). -/
def bterm4 (p : QuboIn) (d : QDict) (l : ℕ) : QDict × List ℚ := (bterm4Rep p d (bt4 p) l, bt4 p)

/-- The four dictionaries of one iteration of the first loop of `_qubo_dense` (qubo.py:172-177). -/
def dicts (p : QuboIn) (l : ℕ) : QDict × QDict × QDict × QDict :=
  let d1 := bterm1 p [] l
  let r2 := bterm2 p [] l
  let d2 := bterm2Rep p r2.2 r2.1 l
  let d3 := bterm3 p [] l
  let r4 := bterm4 p [] l
  let d4 := bterm4Rep p r4.1 r4.2 l
  (d1, d2, d3, d4)

/-- `diccionario_unido` of neuron `l` (qubo.py:178; `unir_diccionarios`, Calculationsint.py:234-250). -/
def qubo (p : QuboIn) (l : ℕ) : QDict :=
  let d := dicts p l
  Dict.update (Dict.update (Dict.update (Dict.update [] d.1) d.2.1) d.2.2.1) d.2.2.2

end ADAInt

/-- All of `_qubo_dense` (qubo.py:158-255): both loops ask the sampler once per neuron; `ask k` is the sampler's answer to
the `k`-th question, which may differ from call to call.  The tensors of the first loop (`ADAInt`) are replaced by those of
the second (qubo.py:184, 197-198, 244); they are returned here as the first component. -/
def quboDenseBoth (ask : ℕ → QDict → ℕ → ℚ) (p : QuboIn) :
    Option ((List (List ℚ) × List ℚ) × List (List ℚ) × List ℚ) := do
  let r1 ← (List.range p.O).mapM (fun l => tensorRedondeo p.D (sampleRow (ask l) (ADAInt.qubo p l)))
  let r2 ← ((p.qubos.zipIdx).mapM (fun e => tensorRedondeo p.D (sampleRow (ask (p.O + e.2)) e.1)))
  some ((r1.map Prod.fst, r1.map Prod.snd), r2.map Prod.fst, r2.map Prod.snd)

/-! ## The matrix files -/

/-- The four assignments of `Matrix_Calculation` / `matrix_calculation` to one cell (qubocalculation.py:249-256,
Calculationsint.py:261-268); `m` is the cell's previous value. -/
def matrixCell (d1 d2 d3 d4 : QDict) (i j : ℕ) (m : ℚ) : ℚ :=
  let m := if i = j ∧ Dict.has d1 (i + 1, j + 1) = true then (Dict.get? d1 (i + 1, j + 1)).getD 0 else m
  let m := if Dict.has d2 (i + 1, j + 1) = true then (Dict.get? d2 (i + 1, j + 1)).getD 0 else m
  let m := if i = j ∧ Dict.has d3 (i + 1, j + 1) = true then (Dict.get? d3 (i + 1, j + 1)).getD 0 else m
  if Dict.has d4 (i + 1, j + 1) = true then (Dict.get? d4 (i + 1, j + 1)).getD 0 else m

/-- `Matrix_Calculation` (qubocalculation.py:246-257, Calculationsint.py:258-269): the matrix updated in place, cell by
cell (each cell depends on itself only, so the two loops are a pointwise update below `n`). -/
def matrixStep (n : ℕ) (d1 d2 d3 d4 : QDict) (M : ℕ → ℕ → ℚ) : ℕ → ℕ → ℚ :=
  fun i j => if i < n ∧ j < n then matrixCell d1 d2 d3 d4 i j (M i j) else M i j

namespace QuboIn

/-- Number of rows of `M` (qubo.py:160, 201). -/
def size (p : QuboIn) : ℕ := p.O * p.D + p.O

/-- `M` after the second loop (qubo.py:201, 234): the dictionaries of each neuron, in order, on a zero matrix. -/
def matrix (p : QuboIn) : ℕ → ℕ → ℚ :=
  (List.range p.O).foldl (fun M l =>
    matrixStep p.size (p.dict1 l) (p.fill2 p.bt2 l []) (p.dict3 l) (p.fill4 p.bt4 l []) M) (fun _ _ => 0)

/-- `M` after the first loop (qubo.py:160, 179). -/
def matrixInt (p : QuboIn) : ℕ → ℕ → ℚ :=
  (List.range p.O).foldl (fun M l =>
    let d := ADAInt.dicts p l
    matrixStep p.size d.1 d.2.1 d.2.2.1 d.2.2.2 M) (fun _ _ => 0)

end QuboIn

/-- `%.8f` (qubocalculation.py:257): the decimal nearest to the value with eight digits, as a number. -/
def fmt8 (x : ℚ) : ℚ := (roundHalfEven (x * 10 ^ 8) : ℤ) / 10 ^ 8

/-! ## The QAOA route -/

/-- `max(max(key) for key in Diccionario)` (qubocalculation.py:299); the `ValueError` of an empty dictionary is 0 here. -/
def indiceMaximo (J : QDict) : ℕ := J.foldl (fun m e => max m (max e.1.1 e.1.2)) 0

/-- `Diccionario_Primado` (qubocalculation.py:300-304): the entries in index order.  The labels `f'{i}'` are kept as
numbers. -/
def primado (J : QDict) : QDict :=
  (List.range (indiceMaximo J + 1)).foldl (fun d i =>
    (List.range (indiceMaximo J + 1)).foldl (fun d j =>
      if Dict.has J (i, j) = true then Dict.set d (i, j) ((Dict.get? J (i, j)).getD 0) else d) d) []

/-- The declared binary variables, in order (qubocalculation.py:308-311). -/
def qpVars (J : QDict) : List ℕ :=
  ((List.range' 1 (indiceMaximo J - 1)).filter (fun i => Dict.has J (i, i))) ++ [indiceMaximo J]

/-- `QAOA_Solution2` and `ADAInt.qaoa_solution` (qubocalculation.py:298-357): `qp.minimize` rejects an entry whose variable
is not declared (qiskit raises); the result `x` has one value per declared variable.  `solver` is the optimizer's answer to
the program. -/
def qaoaSolution (solver : QDict → ℕ → ℚ) (J : QDict) : Option (List ℚ) :=
  if J ≠ [] ∧ ∀ e ∈ primado J, e.1.1 ∈ qpVars J ∧ e.1.2 ∈ qpVars J then
    some ((qpVars J).map (solver (primado J)))
  else none

/-- `Tensor_Redondeo2` (qubocalculation.py:292-296). -/
def tensorRedondeo2 (D : ℕ) (x : List ℚ) : Option (List ℚ × ℚ) :=
  if (x.take D).length = D then (x[D]?).map (fun b => (x.take D, b)) else none

end Verif
