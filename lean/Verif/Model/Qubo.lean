import Verif.Model.Num
import Mathlib.Algebra.BigOperators.Group.Finset.Basic

/-!
# Model of the QUBO formulation of AdaRound

`quantizer/itcl_quantizer/equalizers/adaround/qubocalculation.py` and `qubo.py`.  Arrays are functions of in-range
indices (all loops of the code stay inside `0..N`, `0..D`, `0..O`); floats are exact rationals.
-/

namespace Verif

/-- A Python dictionary with its insertion order: an association list. -/
abbrev Dict (κ ν : Type) := List (κ × ν)

namespace Dict
variable {κ ν : Type} [DecidableEq κ]

/-- `d[k] = v`: an existing key keeps its place, a new one goes to the end (Python language reference). -/
def set : Dict κ ν → κ → ν → Dict κ ν
  | [], k, v => [(k, v)]
  | (k', v') :: d, k, v => if k' = k then (k, v) :: d else (k', v') :: set d k v

/-- `d.update(e)`. -/
def update (d e : Dict κ ν) : Dict κ ν := e.foldl (fun acc p => set acc p.1 p.2) d

/-- `k in d`. -/
def has (d : Dict κ ν) (k : κ) : Bool := d.any (fun p => p.1 = k)

/-- `d.get(k)`. -/
def get? (d : Dict κ ν) (k : κ) : Option ν := (d.find? (fun p => p.1 = k)).map Prod.snd

end Dict

/-- A QUBO: coefficients by pairs of variable labels. -/
abbrev QDict := Dict (ℕ × ℕ) ℚ

/-- The data `_qubo_dense` works on (qubo.py:65-86, 170-176): `N` samples, `D` inputs, `O` outputs. -/
structure QuboIn where
  N : ℕ
  D : ℕ
  O : ℕ
  /-- `input_f[s][i]` -/
  input : ℕ → ℕ → ℚ
  /-- `output_f[s][l]` -/
  output : ℕ → ℕ → ℚ
  /-- `kernel[l][i]` -/
  kernel : ℕ → ℕ → ℚ
  /-- `bias[l]` -/
  bias : ℕ → ℚ
  /-- `input_s` -/
  sx : ℚ
  /-- `kernel_s` -/
  sw : ℚ
  /-- `bias_s` -/
  sb : ℚ

namespace QuboIn

/-- `Input_Round_Calculation` (qubocalculation.py:31-42): `np.round(Input / scale)`. -/
def X (p : QuboIn) (s i : ℕ) : ℚ := (roundHalfEven (p.input s i / p.sx) : ℤ)

/-- `dterm_Calculation` (qubocalculation.py:44-60). -/
def dterm (p : QuboIn) (s l : ℕ) : ℚ :=
  p.output s l / (p.sw * p.sx) - (p.sb / (p.sw * p.sx)) * (⌊p.bias l / (p.sw * p.sx)⌋ : ℤ)
    - ∑ i ∈ Finset.range p.D, ((⌊p.kernel l i / p.sw⌋ : ℤ) : ℚ) * p.X s i

/-- Label of the rounding bit of weight `(l, i)` (qubocalculation.py:84). -/
def kVar (p : QuboIn) (l i : ℕ) : ℕ := l * p.D + i + 1

/-- Label of the rounding bit of bias `l` (qubocalculation.py:150). -/
def bVar (p : QuboIn) (l : ℕ) : ℕ := p.D * p.O + 1 + l

/-- `Suma[i]` of `Bterm1_Calculation_Subespacio` (qubocalculation.py:80-82). -/
def bt1 (p : QuboIn) (l i : ℕ) : ℚ :=
  ∑ s ∈ Finset.range p.N, (p.sw * p.sx) ^ 2 * (1 / p.N) * p.X s i * (p.X s i - 2 * p.dterm s l)

/-- `Bterm1_Calculation_Subespacio` (qubocalculation.py:62-85). -/
def dict1 (p : QuboIn) (l : ℕ) : QDict :=
  (List.range p.D).foldl (fun d i => Dict.set d (l * p.D + i + 1, l * p.D + i + 1) (p.bt1 l i)) []

/-- `Bt2` of `Bterm2_Calculation_Subespacio` (qubocalculation.py:105-110): the flattened outer products with zeroed
diagonal, summed over the samples.  (The code recomputes it for every sample; the last value, modelled here, is the one
with all samples.) -/
def bt2 (p : QuboIn) : List ℚ :=
  (List.range (p.D * p.D)).map (fun k =>
    (p.sw * p.sx) ^ 2 * (1 / p.N) *
      ∑ s ∈ Finset.range p.N, if k / p.D = k % p.D then 0 else p.X s (k / p.D) * p.X s (k % p.D))

/-- The double loop shared by `Bterm2_Calculation_Subespacio` and `Bterm_Calculation_Vuelta`
(qubocalculation.py:113-119 and 121-128): zero coefficients are skipped. -/
def fill2 (p : QuboIn) (Bt2 : List ℚ) (l : ℕ) (d : QDict) : QDict :=
  (List.range p.D).foldl (fun d i =>
    (List.range p.D).foldl (fun d j =>
      if Bt2.getD (j + i * p.D) 0 = 0 then d
      else Dict.set d (p.D * l + i + 1, p.D * l + j + 1) (Bt2.getD (j + i * p.D) 0)) d) d

/-- `Bterm3_Calculation_Subespacio` (qubocalculation.py:130-151). -/
def bt3 (p : QuboIn) (l : ℕ) : ℚ :=
  ∑ s ∈ Finset.range p.N,
    (p.sx * p.sw) ^ 2 * (1 / p.N) * (p.sb / (p.sx * p.sw)) * (p.sb / (p.sx * p.sw) - 2 * p.dterm s l)

/-- The dictionary of `Bterm3_Calculation_Subespacio` (qubocalculation.py:150). -/
def dict3 (p : QuboIn) (l : ℕ) : QDict :=
  Dict.set [] (p.D * p.O + 1 + l, p.D * p.O + 1 + l) (p.bt3 l)

/-- `Bt4` of `Bterm4_Calculation_Subespacio` (qubocalculation.py:154-156). -/
def bt4 (p : QuboIn) : List ℚ :=
  (List.range p.D).map (fun i =>
    ∑ s ∈ Finset.range p.N, (p.sw * p.sx) ^ 2 * (1 / p.N) * (p.sb / (p.sx * p.sw)) * p.X s i)

/-- The loop shared by `Bterm4_Calculation_Subespacio` and `Bterm_Calculation_Vuelta4`
(qubocalculation.py:158-164 and 166-173). -/
def fill4 (p : QuboIn) (Bt4 : List ℚ) (l : ℕ) (d : QDict) : QDict :=
  (List.range p.D).foldl (fun d i =>
    if Bt4.getD i 0 = 0 then d
    else
      let d := Dict.set d (l * p.D + i + 1, p.D * p.O + 1 + l) (Bt4.getD i 0)
      Dict.set d (p.D * p.O + 1 + l, l * p.D + i + 1) (Bt4.getD i 0)) d

/-- `Unir_Diccionarios` (qubocalculation.py:222-238). -/
def unir (d1 d2 d3 d4 d : QDict) : QDict :=
  Dict.update (Dict.update (Dict.update (Dict.update d d1) d2) d3) d4

/-- What the loop body keeps between neurons: `Bt2`, `Bt4`, `DiccionarioT` and the per-neuron `diccionarioM` (collected
here in a list, in the code handed to the sampler at once). -/
structure St where
  Bt2 : List ℚ
  Bt4 : List ℚ
  total : QDict
  qubos : List QDict

/-- One iteration of the neuron loop (qubo.py:195-224): `Bt2`/`Bt4` are computed for neuron 0 and reused. -/
def neuron (p : QuboIn) (st : St) (l : ℕ) : St :=
  let d1 := p.dict1 l
  let Bt2 := if l = 0 then p.bt2 else st.Bt2
  let d2 := p.fill2 Bt2 l []
  let d3 := p.dict3 l
  let Bt4 := if l = 0 then p.bt4 else st.Bt4
  let d4 := p.fill4 Bt4 l []
  { Bt2 := Bt2, Bt4 := Bt4, total := unir d1 d2 d3 d4 st.total, qubos := st.qubos ++ [unir d1 d2 d3 d4 []] }

/-- The whole neuron loop (qubo.py:195-224). -/
def loop (p : QuboIn) : St := (List.range p.O).foldl p.neuron ⟨[], [], [], []⟩

/-- The per-neuron QUBOs handed to the sampler, in order (qubo.py:217-221). -/
def qubos (p : QuboIn) : List QDict := p.loop.qubos

/-- `DiccionarioT`: the QUBO of the whole layer (qubo.py:219). -/
def total (p : QuboIn) : QDict := p.loop.total

end QuboIn

/-- Energy of a `dimod.BinaryQuadraticModel({}, J, 0.0, BINARY)` (qubocalculation.py:178-181) at an assignment: dimod
adds every entry `J[u, v] * x_u * x_v` (`u = v` being a linear bias, both orders adding up). -/
def bqmEnergy (J : QDict) (x : ℕ → ℚ) : ℚ := (J.map (fun e => e.2 * x e.1.1 * x e.1.2)).sum

/-- Variables of the model, in the order dimod meets them. -/
def bqmVars (J : QDict) : List ℕ := (J.flatMap (fun e => [e.1.1, e.1.2])).reverse.dedup.reverse

/-- `result.record.sample[0]`: the sampled values, one column per variable (qubocalculation.py:240-241).  The sampler is
an arbitrary function from QUBOs to assignments. -/
def sampleRow (sampler : QDict → ℕ → ℚ) (J : QDict) : List ℚ := (bqmVars J).map (sampler J)

/-- `Tensor_Redondeo` (qubocalculation.py:240-244): kernel row and bias entry of one neuron; `none` is `IndexError`,
or the `ValueError` of assigning a row of the wrong length. -/
def tensorRedondeo (D : ℕ) (row : List ℚ) : Option (List ℚ × ℚ) :=
  if (row.take D).length = D then (row[D]?).map (fun b => (row.take D, b)) else none

/-- `_qubo_dense` (qubo.py:55-255): the returned `[Redondeo_Kernel, Redondeo_Bias]`.  (The first loop, over `ADAInt`,
computes tensors that are overwritten.) -/
def quboDense (sampler : QDict → ℕ → ℚ) (p : QuboIn) : Option (List (List ℚ) × List ℚ) :=
  (p.qubos.mapM (fun J => tensorRedondeo p.D (sampleRow sampler J))).map
    (fun rows => (rows.map Prod.fst, rows.map Prod.snd))

end Verif
