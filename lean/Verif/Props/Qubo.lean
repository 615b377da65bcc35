import Verif.Lemmas.Qubo
import Verif.Lemmas.Quant
import Verif.Props.Node

/-!
# Properties C37–C39: the QUBO formulation of AdaRound

Vocabulary: `Verif.Spec.Qubo`.  `p.qubos[l]` is the QUBO handed to the sampler for output neuron `l`, `p.total` the one
of the whole layer; `p.kVar l i` and `p.bVar l` are the variable labels of weight `(l, i)` and bias `l`.
-/

namespace Verif
open Spec QuboIn

/-! ## C37 -/

/-- The real weight and bias after rounding with the bits of `x`: floor plus bit. -/
def Spec.roundedError (p : QuboIn) (l : ℕ) (b : ℕ → ℚ) (β : ℚ) : ℚ :=
  mse p.N p.D (fun s => p.output s l) (fun s i => p.sx * (roundHalfEven (p.input s i / p.sx) : ℤ))
    (fun i => p.sw * ((⌊p.kernel l i / p.sw⌋ : ℤ) + b i)) (p.sb * ((⌊p.bias l / (p.sw * p.sx)⌋ : ℤ) + β))

/-- C37.  For every output neuron and every 0/1 assignment the QUBO energy is the mean squared error of the neuron whose
weights and bias are rounded by those bits, minus the error of the all-floor rounding. -/
theorem C37_energy_is_error (p : QuboIn) (hw : p.sw ≠ 0) (hx : p.sx ≠ 0) (l : ℕ) (hl : l < p.O) (x : ℕ → ℚ)
    (hb : Binary x) :
    ∃ J, p.qubos[l]? = some J ∧
      bqmEnergy J x =
        roundedError p l (fun i => x (p.kVar l i)) (x (p.bVar l)) - roundedError p l (fun _ => 0) 0 := by
  refine ⟨p.ent l, by rw [p.qubos_eq, List.getElem?_map, List.getElem?_range hl]; rfl, ?_⟩
  have e1 := p.mse_eq l hw hx (fun i => x (p.kVar l i)) (x (p.bVar l))
  have e2 := p.mse_eq l hw hx (fun _ => 0) 0
  unfold roundedError
  unfold X at e1 e2
  rw [e1, e2, p.energy_samples l x hb, ← Finset.sum_sub_distrib]
  apply Finset.sum_congr rfl
  intro s _
  unfold X
  simp only [zero_mul, Finset.sum_const_zero, mul_zero, add_zero, sub_zero]
  ring

/-- A layer with two inputs, two neurons and two samples. -/
def exQubo : QuboIn where
  N := 2
  D := 2
  O := 2
  input := fun s i => (s : ℚ) + 2 * i + 1 / 3
  output := fun s l => 3 * (s : ℚ) - l
  kernel := fun l i => (l : ℚ) / 3 - i / 2 + 1 / 5
  bias := fun l => (l : ℚ) + 1 / 7
  sx := 1 / 4
  sw := 1 / 8
  sb := 1 / 32

/-- Its second QUBO has 2 kernel variables (3, 4) and bias variable 6, and its energy is not trivial. -/
example : exQubo.kVar 1 0 = 3 ∧ exQubo.kVar 1 1 = 4 ∧ exQubo.bVar 1 = 6 ∧
    exQubo.qubos[1]?.map (fun J => bqmEnergy J (fun v => if v = 3 ∨ v = 6 then 1 else 0)) = some (29 / 256) := by
  decide +kernel

/-- C37.  An assignment minimises the QUBO of a neuron iff it minimises the squared error of that neuron over all
roundings. -/
theorem C37_minimiser_iff (p : QuboIn) (hw : p.sw ≠ 0) (hx : p.sx ≠ 0) (l : ℕ) (hl : l < p.O) (x : ℕ → ℚ)
    (hb : Binary x) :
    ∃ J, p.qubos[l]? = some J ∧
      (Minimises (bqmEnergy J) x ↔
        ∀ (b : ℕ → ℚ) (β : ℚ), Binary b → (β = 0 ∨ β = 1) →
          roundedError p l (fun i => x (p.kVar l i)) (x (p.bVar l)) ≤ roundedError p l b β) := by
  obtain ⟨J, hJ, e⟩ := C37_energy_is_error p hw hx l hl x hb
  refine ⟨J, hJ, ?_⟩
  have key : ∀ y, Binary y → bqmEnergy J y =
      roundedError p l (fun i => y (p.kVar l i)) (y (p.bVar l)) - roundedError p l (fun _ => 0) 0 := by
    intro y hy
    obtain ⟨J', hJ', e'⟩ := C37_energy_is_error p hw hx l hl y hy
    rw [hJ] at hJ'
    cases hJ'
    exact e'
  constructor
  · rintro ⟨-, hmin⟩ b β hbb hβ
    -- realise the bits (b, β) by an assignment of the variables
    let y : ℕ → ℚ := fun v => if v = p.bVar l then β else b (v - (l * p.D + 1))
    have hy : Binary y := by
      intro v
      simp only [y]
      split_ifs
      · exact hβ
      · exact hbb _
    have h := hmin y hy
    rw [key x hb, key y hy] at h
    have hyb : y (p.bVar l) = β := by simp [y]
    have hyk : ∀ i < p.D, y (p.kVar l i) = b i := by
      intro i hi
      simp only [y, if_neg (p.kVar_ne_bVar l l i hl hi)]
      congr 1
      unfold kVar; omega
    have : roundedError p l (fun i => y (p.kVar l i)) (y (p.bVar l)) = roundedError p l b β := by
      unfold roundedError mse
      rw [hyb]
      congr 1
      apply Finset.sum_congr rfl
      intro s _
      congr 3
      apply Finset.sum_congr rfl
      intro i hi
      simp only [hyk i (Finset.mem_range.mp hi)]
    linarith
  · intro h
    refine ⟨hb, fun y hy => ?_⟩
    rw [key x hb, key y hy]
    have := h (fun i => y (p.kVar l i)) (y (p.bVar l)) (fun i => hy _) (hy _)
    linarith

/-- With a 0/1 policy entry and no saturation, the quantizer stores floor plus bit (plus zero point). -/
theorem policy_real (d : GDtype) (hd : Fits32 d.min d.max) (x s : ℚ) (zp : ℤ) (b : ℤ)
    (h : Code d.min d.max (⌊x / s⌋ + zp + b)) :
    real zp s (Quantization.quantizePolicy d x zp s b) = s * ((⌊x / s⌋ : ℤ) + b) := by
  unfold Quantization.quantizePolicy Quantization.round Quantization.floatRes
  have : ⌊x / s + (zp : ℚ) + (b : ℚ) + 0⌋ = ⌊x / s⌋ + zp + b := by
    rw [add_zero, Int.floor_add_intCast, Int.floor_add_intCast]
  rw [castInt32_clip hd, this, clip_of_mem h.1 h.2]
  unfold real
  push_cast
  ring

/-- Away from ties and saturation the QUBO's input code is the quantizer's. -/
theorem input_real (d : GDtype) (hd : Fits32 d.min d.max) (x s : ℚ) (zp : ℤ)
    (htie : x / s - (⌊x / s⌋ : ℤ) ≠ 1 / 2)
    (h : Code d.min d.max (roundHalfUp (x / s) + zp)) :
    real zp s (Quantization.quantize d x zp s) = s * (roundHalfEven (x / s) : ℤ) := by
  have e : roundHalfEven (x / s) = roundHalfUp (x / s) := by
    unfold roundHalfEven roundHalfUp
    simp only
    have h1 := Int.floor_le (x / s)
    have h2 := Int.lt_floor_add_one (x / s)
    split_ifs with a b c
    · symm; rw [Int.floor_eq_iff]; constructor <;> linarith
    · symm; rw [Int.floor_eq_iff]; push_cast; constructor <;> linarith
    · exact absurd (le_antisymm (not_lt.mp b) (not_lt.mp a)) htie
    · exact absurd (le_antisymm (not_lt.mp b) (not_lt.mp a)) htie
  rw [quantize_eq hd, roundHalfUp_add_int, clip_of_mem h.1 h.2, e]
  unfold real
  push_cast
  ring

/-- C37 in terms of the integers the layer really stores.  Let the bias scale be the product of the input and kernel
scales (C33), the kernel, bias and input be quantized by the quantizer with dtypes `dk`, `db`, `dx` and any zero points,
and let nothing saturate and no input be a tie.  Then the energy at bits `x` is the mean squared error of the dequantized
layer with rounding policy `x` minus that with the all-zero policy. -/
theorem C37_quantized_layer (p : QuboIn) (hw : p.sw ≠ 0) (hx : p.sx ≠ 0) (hs : p.sb = p.sw * p.sx)
    (dk db dx : GDtype) (hk : Fits32 dk.min dk.max) (hbd : Fits32 db.min db.max) (hdx : Fits32 dx.min dx.max)
    (zk zb zx : ℤ) (l : ℕ) (hl : l < p.O)
    (ck : ∀ i < p.D, ∀ b : ℤ, (b = 0 ∨ b = 1) → Code dk.min dk.max (⌊p.kernel l i / p.sw⌋ + zk + b))
    (cb : ∀ b : ℤ, (b = 0 ∨ b = 1) → Code db.min db.max (⌊p.bias l / p.sb⌋ + zb + b))
    (cx : ∀ s < p.N, ∀ i < p.D, Code dx.min dx.max (roundHalfUp (p.input s i / p.sx) + zx) ∧
      p.input s i / p.sx - (⌊p.input s i / p.sx⌋ : ℤ) ≠ 1 / 2)
    (x : ℕ → ℤ) (hb : ∀ v, x v = 0 ∨ x v = 1) :
    ∃ J, p.qubos[l]? = some J ∧
      bqmEnergy J (fun v => (x v : ℚ)) =
        mse p.N p.D (fun s => p.output s l) (fun s i => real zx p.sx (Quantization.quantize dx (p.input s i) zx p.sx))
          (fun i => real zk p.sw (Quantization.quantizePolicy dk (p.kernel l i) zk p.sw (x (p.kVar l i) : ℤ)))
          (real zb p.sb (Quantization.quantizePolicy db (p.bias l) zb p.sb (x (p.bVar l) : ℤ)))
        - mse p.N p.D (fun s => p.output s l) (fun s i => real zx p.sx (Quantization.quantize dx (p.input s i) zx p.sx))
          (fun i => real zk p.sw (Quantization.quantizePolicy dk (p.kernel l i) zk p.sw (0 : ℤ)))
          (real zb p.sb (Quantization.quantizePolicy db (p.bias l) zb p.sb (0 : ℤ))) := by
  have hbin : Binary (fun v => (x v : ℚ)) := by
    intro v
    rcases hb v with h | h
    · left; simp [h]
    · right; simp [h]
  obtain ⟨J, hJ, e⟩ := C37_energy_is_error p hw hx l hl _ hbin
  refine ⟨J, hJ, ?_⟩
  have gen : ∀ (b : ℕ → ℤ) (β : ℤ), (∀ i, b i = 0 ∨ b i = 1) → (β = 0 ∨ β = 1) →
      mse p.N p.D (fun s => p.output s l) (fun s i => real zx p.sx (Quantization.quantize dx (p.input s i) zx p.sx))
          (fun i => real zk p.sw (Quantization.quantizePolicy dk (p.kernel l i) zk p.sw (b i : ℤ)))
          (real zb p.sb (Quantization.quantizePolicy db (p.bias l) zb p.sb (β : ℤ))) =
        roundedError p l (fun i => (b i : ℚ)) (β : ℚ) := by
    intro b β hb' hβ
    unfold roundedError mse
    congr 1
    apply Finset.sum_congr rfl
    intro s hs'
    rw [policy_real db hbd _ _ _ _ (cb β hβ), ← hs]
    congr 3
    apply Finset.sum_congr rfl
    intro i hi
    obtain ⟨c1, c2⟩ := cx s (Finset.mem_range.mp hs') i (Finset.mem_range.mp hi)
    beta_reduce
    rw [policy_real dk hk _ _ _ _ (ck i (Finset.mem_range.mp hi) _ (hb' i)), input_real dx hdx _ _ _ c2 c1]
  have g0 := gen (fun _ => 0) 0 (fun _ => .inl rfl) (.inl rfl)
  have g1 := gen (fun i => x (p.kVar l i)) (x (p.bVar l)) (fun i => hb _) (hb _)
  simp only [Int.cast_zero] at g0 ⊢
  rw [e, g1, g0]

/-- The hypotheses are met by the example layer with int8 codes. -/
example : exQubo.sb = exQubo.sw * exQubo.sx ∧
    (∀ l < 2, ∀ i < 2, Code (-128) 127 (⌊exQubo.kernel l i / exQubo.sw⌋ + 3) ∧
      Code (-128) 127 (⌊exQubo.kernel l i / exQubo.sw⌋ + 3 + 1)) ∧
    (∀ s < 2, ∀ i < 2, Code (-128) 127 (roundHalfUp (exQubo.input s i / exQubo.sx) + 5) ∧
      exQubo.input s i / exQubo.sx - (⌊exQubo.input s i / exQubo.sx⌋ : ℤ) ≠ 1 / 2) := by
  decide +kernel

/-- C37, what is missing: at the saturation boundary the QUBO counts a bit that the quantizer clips away.  One weight
`127` (int8, scale 1, zero point 0): the stored code is 127 whatever the bit, but the QUBO sees an energy difference. -/
theorem C37_saturation :
    ∃ p : QuboIn, p.sw ≠ 0 ∧ p.sx ≠ 0 ∧ p.sb = p.sw * p.sx ∧
      Quantization.quantizePolicy (intDtype 7) (p.kernel 0 0) 0 p.sw (1 : ℤ) =
        Quantization.quantizePolicy (intDtype 7) (p.kernel 0 0) 0 p.sw (0 : ℤ) ∧
      p.qubos[0]?.map (fun J => bqmEnergy J (fun v => if v = p.kVar 0 0 then 1 else 0)) = some 1 := by
  refine ⟨⟨1, 1, 1, fun _ _ => 1, fun _ _ => 127, fun _ _ => 127, fun _ => 0, 1, 1, 1⟩, ?_⟩
  decide +kernel

/-- C37, what is missing: an input exactly between two codes is rounded half-to-even by the QUBO and half-up by the
quantizer, so the QUBO optimises for an input code the quantized network never sees. -/
theorem C37_tie :
    ∃ p : QuboIn, p.sx = 1 ∧ Quantization.quantize (intDtype 7) (p.input 0 0) 0 p.sx = 1 ∧
      roundHalfEven (p.input 0 0 / p.sx) = 0 ∧
      p.qubos[0]?.map (fun J => bqmEnergy J (fun v => if v = p.kVar 0 0 then 1 else 0)) = some 0 ∧
      mse p.N p.D (fun s => p.output s 0) (fun s i => real 0 p.sx (Quantization.quantize (intDtype 7) (p.input s i) 0 p.sx))
        (fun _ => 1) 0 = 0 ∧
      mse p.N p.D (fun s => p.output s 0) (fun s i => real 0 p.sx (Quantization.quantize (intDtype 7) (p.input s i) 0 p.sx))
        (fun _ => 0) 0 = 1 := by
  refine ⟨⟨1, 1, 1, fun _ _ => 1 / 2, fun _ _ => 1, fun _ _ => 1 / 3, fun _ => 0, 1, 1, 1⟩, ?_⟩
  decide +kernel

/-! ## C38 -/

/-- C38.  The variable numbering is injective over all neurons and inputs, and kernel and bias bits never share a
variable. -/
theorem C38_labels_injective (p : QuboIn) (l l' : ℕ) (hl : l < p.O) (hl' : l' < p.O) :
    (∀ i < p.D, ∀ i' < p.D, p.kVar l i = p.kVar l' i' → l = l' ∧ i = i') ∧
    (∀ i < p.D, p.kVar l i ≠ p.bVar l') ∧ (p.bVar l = p.bVar l' → l = l') ∧
    (∀ i < p.D, 1 ≤ p.kVar l i ∧ p.kVar l i ≤ p.D * p.O) ∧
    (p.D * p.O < p.bVar l ∧ p.bVar l ≤ p.D * p.O + p.O) := by
  refine ⟨fun i hi i' hi' => p.kVar_inj l l' i i' hi hi', fun i hi => p.kVar_ne_bVar l l' i hl hi, ?_, ?_, ?_⟩
  · unfold bVar; omega
  · intro i hi
    exact ⟨by unfold kVar; omega, p.kVar_le l i hl hi⟩
  · unfold bVar; omega

/-- C38.  No coefficient couples two different neurons: every coefficient of the layer's QUBO involves only variables of
one neuron. -/
theorem C38_no_coupling (p : QuboIn) (l l' : ℕ) (hl : l < p.O) (hl' : l' < p.O) (u v : ℕ) (c : ℚ)
    (h : ((u, v), c) ∈ p.total) (hu : (∃ i < p.D, u = p.kVar l i) ∨ u = p.bVar l)
    (hv : (∃ i < p.D, v = p.kVar l' i) ∨ v = p.bVar l') : l = l' := by
  rw [p.total_eq, List.mem_flatMap] at h
  obtain ⟨m, hm, he⟩ := h
  have hm := List.mem_range.mp hm
  have hb := p.mem_ent_block (List.mem_map.mpr ⟨_, he, rfl⟩)
  rw [p.block_disjoint hl hm hu hb.1, p.block_disjoint hl' hm hv hb.2]

/-- C38.  Merging loses nothing: in the QUBO of a neuron and in the QUBO of the layer all keys are different, and every
coefficient computed for the neuron - linear and quadratic ones of the weights, linear one of the bias, couplings of bias
and weights in both orders - is stored under its key (zero couplings are left out). -/
theorem C38_nothing_overwritten (p : QuboIn) (l : ℕ) (hl : l < p.O) :
    ∃ J, p.qubos[l]? = some J ∧ (J.map Prod.fst).Nodup ∧ (p.total.map Prod.fst).Nodup ∧ J ⊆ p.total ∧
      (∀ i < p.D, ((p.kVar l i, p.kVar l i), p.bt1 l i) ∈ J) ∧
      ((p.bVar l, p.bVar l), p.bt3 l) ∈ J ∧
      (∀ i < p.D, ∀ j < p.D, i ≠ j → ∀ c, c = (p.sw * p.sx) ^ 2 * (1 / p.N) * ∑ s ∈ Finset.range p.N, p.X s i * p.X s j →
        c ≠ 0 → ((p.kVar l i, p.kVar l j), c) ∈ J) ∧
      (∀ i < p.D, ∀ c, c = (∑ s ∈ Finset.range p.N, (p.sw * p.sx) ^ 2 * (1 / p.N) * (p.sb / (p.sx * p.sw)) * p.X s i) →
        c ≠ 0 → ((p.kVar l i, p.bVar l), c) ∈ J ∧ ((p.bVar l, p.kVar l i), c) ∈ J) := by
  have nd : ∀ m < p.O, (Dict.keys (p.ent m)).Nodup := by
    intro m hm
    unfold ent
    rw [keys_append, keys_append, keys_append]
    refine List.nodup_append'.mpr ⟨List.nodup_append'.mpr ⟨List.nodup_append'.mpr ⟨p.nodup1 m, p.nodup2 m, ?_⟩,
      by simp [Dict.keys, ent3], ?_⟩, p.nodup4 m hm, ?_⟩
    · exact fun k h1 h2 => p.disj12 h1 h2
    · exact fun k h1 h2 => p.disj13 hm (List.mem_append.mp h1) h2
    · intro k h1 h2
      simp only [List.mem_append] at h1
      exact p.disj4 hm (by tauto) h2
  refine ⟨p.ent l, by rw [p.qubos_eq, List.getElem?_map, List.getElem?_range hl]; rfl, nd l hl, ?_, ?_, ?_, ?_, ?_, ?_⟩
  · rw [p.total_eq, List.map_flatMap, List.nodup_flatMap]
    refine ⟨fun m hm => nd m (List.mem_range.mp hm), ?_⟩
    refine List.Nodup.pairwise_of_forall_ne List.nodup_range ?_
    intro a ha b hb hab
    simp only [Function.onFun]
    intro k h1 h2
    exact hab (p.block_disjoint (List.mem_range.mp ha) (List.mem_range.mp hb) (p.mem_ent_block h1).1 (p.mem_ent_block h2).1)
  · rw [p.total_eq]
    intro e he
    exact List.mem_flatMap.mpr ⟨l, List.mem_range.mpr hl, he⟩
  · intro i hi
    simp only [ent, List.mem_append]
    exact .inl (.inl (.inl (List.mem_map.mpr ⟨i, List.mem_range.mpr hi, rfl⟩)))
  · simp [ent, ent3]
  · intro i hi j hj hij c hc h0
    simp only [ent, List.mem_append]
    refine .inl (.inl (.inr ?_))
    refine List.mem_flatMap.mpr ⟨i, List.mem_range.mpr hi, List.mem_flatMap.mpr ⟨j, List.mem_range.mpr hj, ?_⟩⟩
    rw [p.bt2_get i j hi hj]
    simp only [if_neg hij, ← hc]
    rw [if_neg h0]; simp
  · intro i hi c hc h0
    simp only [ent, List.mem_append]
    constructor <;> refine .inr (List.mem_flatMap.mpr ⟨i, List.mem_range.mpr hi, ?_⟩) <;>
      rw [p.bt4_get i hi, ← hc, if_neg h0] <;> simp

/-- C38.  The layer's QUBO is the sum of the neurons' QUBOs, and an assignment minimises it iff it minimises each
neuron's QUBO separately. -/
theorem C38_joint_minimum (p : QuboIn) (x : ℕ → ℚ) :
    bqmEnergy p.total x = (p.qubos.map (fun J => bqmEnergy J x)).sum ∧
    (Binary x → (Minimises (bqmEnergy p.total) x ↔ ∀ J ∈ p.qubos, Minimises (bqmEnergy J) x)) := by
  have tot : ∀ y, bqmEnergy p.total y = ∑ l ∈ Finset.range p.O, bqmEnergy (p.ent l) y := by
    intro y; rw [p.total_eq, energy_flatMap]
  constructor
  · rw [tot, p.qubos_eq, List.map_map, ← sum_range_map]; rfl
  · intro hbx
    have hq : ∀ J, J ∈ p.qubos ↔ ∃ l < p.O, p.ent l = J := by
      intro J; rw [p.qubos_eq]; simp
    -- energies only depend on the block
    have loc : ∀ l, ∀ y z : ℕ → ℚ, (∀ v, p.InBlock l v → y v = z v) → bqmEnergy (p.ent l) y = bqmEnergy (p.ent l) z := by
      intro l y z hyz
      unfold bqmEnergy
      congr 1
      apply List.map_congr_left
      intro e he
      have := p.mem_ent_block (l := l) (k := e.1) (List.mem_map.mpr ⟨e, he, rfl⟩)
      rw [hyz _ this.1, hyz _ this.2]
    constructor
    · rintro ⟨-, hmin⟩ J hJ
      obtain ⟨l, hl, rfl⟩ := (hq J).mp hJ
      refine ⟨hbx, fun y hy => ?_⟩
      -- change only block l
      classical
      let z : ℕ → ℚ := fun v => if p.InBlock l v then y v else x v
      have hz : Binary z := by
        intro v; simp only [z]; split_ifs
        · exact hy v
        · exact hbx v
      have h := hmin z hz
      rw [tot, tot, ← Finset.add_sum_erase _ _ (Finset.mem_range.mpr hl),
        ← Finset.add_sum_erase _ (fun m => bqmEnergy (p.ent m) z) (Finset.mem_range.mpr hl)] at h
      have e1 : bqmEnergy (p.ent l) z = bqmEnergy (p.ent l) y := loc l _ _ (fun v hv => by simp [z, hv])
      have e2 : ∑ m ∈ (Finset.range p.O).erase l, bqmEnergy (p.ent m) z =
          ∑ m ∈ (Finset.range p.O).erase l, bqmEnergy (p.ent m) x := by
        apply Finset.sum_congr rfl
        intro m hm
        rw [Finset.mem_erase, Finset.mem_range] at hm
        refine loc m _ _ (fun v hv => ?_)
        simp only [z]
        rw [if_neg]
        intro hv'
        exact hm.1 (p.block_disjoint hm.2 hl hv hv')
      rw [e1, e2] at h
      linarith
    · intro h
      refine ⟨hbx, fun y hy => ?_⟩
      rw [tot, tot]
      apply Finset.sum_le_sum
      intro l hl
      exact (h (p.ent l) ((hq _).mpr ⟨l, Finset.mem_range.mp hl, rfl⟩)).2 y hy

/-- The example layer: 6 variables, two independent QUBOs of 9 coefficients each. -/
example : exQubo.total.length = 18 ∧ exQubo.qubos.map List.length = [9, 9] ∧
    exQubo.qubos.map bqmVars = [[1, 2, 5], [3, 4, 6]] := by
  decide +kernel

/-! ## C39 -/

theorem fdedup_append_mem (a b : List ℕ) (h : ∀ v ∈ b, v ∈ a) :
    (a ++ b).reverse.dedup = a.reverse.dedup := by
  rw [List.reverse_append, List.dedup_append]
  apply List.Subset.union_eq_right
  intro v hv
  rw [List.mem_dedup, List.mem_reverse]
  exact h v (List.mem_reverse.mp hv)

theorem fdedup_pairs (f : ℕ → ℕ) (n : ℕ) (hf : ∀ i < n, ∀ j < n, f i = f j → i = j) :
    ((List.range n).flatMap (fun i => [f i, f i])).reverse.dedup = ((List.range n).map f).reverse := by
  induction n with
  | zero => rfl
  | succ n ih =>
    rw [List.range_succ, List.flatMap_append, List.reverse_append, List.map_append, List.reverse_append]
    simp only [List.flatMap_cons, List.flatMap_nil, List.append_nil, List.reverse_cons, List.reverse_nil, List.nil_append,
      List.cons_append, List.map_cons, List.map_nil]
    rw [List.dedup_cons_of_mem (by simp), List.dedup_cons_of_notMem, ih (fun i hi j hj => hf i (by omega) j (by omega))]
    simp only [List.mem_reverse, List.mem_flatMap, List.mem_range, List.mem_cons, List.not_mem_nil, or_false, or_self,
      not_exists, not_and]
    intro i hi h
    have := hf n (by omega) i (by omega) h
    omega

/-- C39.  The columns of a sample are the weight bits of the neuron in input order, then the bias bit; this is also the
ascending order of the labels, so it does not matter whether the sampler sorts its variables. -/
theorem C39_columns (p : QuboIn) (l : ℕ) (hl : l < p.O) :
    ∃ J, p.qubos[l]? = some J ∧ bqmVars J = (List.range p.D).map (p.kVar l) ++ [p.bVar l] ∧
      (bqmVars J).Pairwise (· < ·) := by
  refine ⟨p.ent l, by rw [p.qubos_eq, List.getElem?_map, List.getElem?_range hl]; rfl, ?_⟩
  have hv : bqmVars (p.ent l) = (List.range p.D).map (p.kVar l) ++ [p.bVar l] := by
    unfold bqmVars ent
    simp only [List.flatMap_append]
    have m1 : ∀ i < p.D, p.kVar l i ∈ (p.ent1 l).flatMap (fun e => [e.1.1, e.1.2]) := by
      intro i hi
      refine List.mem_flatMap.mpr ⟨((p.kVar l i, p.kVar l i), p.bt1 l i), ?_, by simp⟩
      exact List.mem_map.mpr ⟨i, List.mem_range.mpr hi, rfl⟩
    rw [fdedup_append_mem _ ((p.ent4 l).flatMap _)]
    · have e3 : (p.ent3 l).flatMap (fun e => [e.1.1, e.1.2]) = [p.bVar l, p.bVar l] := rfl
      rw [e3, List.reverse_append]
      simp only [List.reverse_cons, List.reverse_nil, List.nil_append, List.cons_append]
      rw [List.dedup_cons_of_mem (by simp), List.dedup_cons_of_notMem, fdedup_append_mem]
      · have e1 : (p.ent1 l).flatMap (fun e => [e.1.1, e.1.2]) =
            (List.range p.D).flatMap (fun i => [p.kVar l i, p.kVar l i]) := by
          unfold ent1; rw [List.flatMap_map]
        rw [e1, fdedup_pairs _ _ (fun i hi j hj h => (p.kVar_inj l l i j hi hj h).2)]
        simp
      · intro v hv
        obtain ⟨e, he, hv⟩ := List.mem_flatMap.mp hv
        obtain ⟨i, hi, j, hj, -, hk⟩ := p.mem_ent2 (k := e.1) (List.mem_map.mpr ⟨e, he, rfl⟩)
        rw [hk] at hv
        simp only [List.mem_cons, List.not_mem_nil, or_false] at hv
        rcases hv with rfl | rfl
        · exact m1 i hi
        · exact m1 j hj
      · intro h
        rw [List.mem_reverse, List.mem_append] at h
        rcases h with h | h
        · obtain ⟨e, he, hv⟩ := List.mem_flatMap.mp h
          obtain ⟨i, hi, hk⟩ := p.mem_ent1 (k := e.1) (List.mem_map.mpr ⟨e, he, rfl⟩)
          rw [hk] at hv
          simp only [List.mem_cons, List.not_mem_nil, or_false, or_self] at hv
          exact p.kVar_ne_bVar l l i hl hi hv.symm
        · obtain ⟨e, he, hv⟩ := List.mem_flatMap.mp h
          obtain ⟨i, hi, j, hj, -, hk⟩ := p.mem_ent2 (k := e.1) (List.mem_map.mpr ⟨e, he, rfl⟩)
          rw [hk] at hv
          simp only [List.mem_cons, List.not_mem_nil, or_false] at hv
          rcases hv with hv | hv
          · exact p.kVar_ne_bVar l l i hl hi hv.symm
          · exact p.kVar_ne_bVar l l j hl hj hv.symm
    · intro v hv
      obtain ⟨e, he, hv⟩ := List.mem_flatMap.mp hv
      obtain ⟨i, hi, hk⟩ := p.mem_ent4 (k := e.1) (List.mem_map.mpr ⟨e, he, rfl⟩)
      simp only [List.mem_append]
      have mb : p.bVar l ∈ (p.ent3 l).flatMap (fun e => [e.1.1, e.1.2]) := by simp [ent3]
      simp only [List.mem_cons, List.not_mem_nil, or_false] at hv
      rcases hk with hk | hk <;> rw [hk] at hv <;> rcases hv with rfl | rfl
      · exact .inl (.inl (m1 i hi))
      · exact .inr mb
      · exact .inr mb
      · exact .inl (.inl (m1 i hi))
  refine ⟨hv, ?_⟩
  rw [hv, List.pairwise_append]
  refine ⟨?_, by simp, ?_⟩
  · rw [List.pairwise_map]
    refine List.pairwise_lt_range.imp ?_
    intro a b hab
    unfold kVar; omega
  · intro a ha b hb
    simp only [List.mem_map, List.mem_range] at ha
    obtain ⟨i, hi, rfl⟩ := ha
    simp only [List.mem_singleton] at hb
    subst hb
    have := p.kVar_le l i hl hi
    unfold bVar; omega

/-- C39.  Whatever the sampler answers, the optimizer returns a kernel policy with one row per neuron and one column per
input and a bias policy with one entry per neuron, and the value sampled for the variable of weight `(l, i)` (bias `l`)
lands at position `(l, i)` (`l`). -/
theorem C39_decode (sampler : QDict → ℕ → ℚ) (p : QuboIn) :
    ∃ K B, quboDense sampler p = some (K, B) ∧ K.length = p.O ∧ (∀ r ∈ K, r.length = p.D) ∧ B.length = p.O ∧
      ∀ (l : ℕ) (J : QDict), p.qubos[l]? = some J →
        (∀ i < p.D, (K[l]?.bind (fun r => r[i]?)) = some (sampler J (p.kVar l i))) ∧
        B[l]? = some (sampler J (p.bVar l)) := by
  have row : ∀ l < p.O, tensorRedondeo p.D (sampleRow sampler (p.ent l)) =
      some ((List.range p.D).map (fun i => sampler (p.ent l) (p.kVar l i)), sampler (p.ent l) (p.bVar l)) := by
    intro l hl
    obtain ⟨J, hJ, hv, -⟩ := C39_columns p l hl
    rw [p.qubos_eq, List.getElem?_map, List.getElem?_range hl] at hJ
    cases hJ
    unfold tensorRedondeo sampleRow
    rw [hv, List.map_append, List.map_map]
    have hlen : (List.map (sampler (p.ent l) ∘ p.kVar l) (List.range p.D)).length = p.D := by simp
    have ht : (List.map (sampler (p.ent l) ∘ p.kVar l) (List.range p.D) ++ List.map (sampler (p.ent l)) [p.bVar l]).take p.D
        = List.map (sampler (p.ent l) ∘ p.kVar l) (List.range p.D) := by
      exact List.take_left' hlen
    rw [ht, if_pos hlen, List.getElem?_append_right (by simp)]
    simp [Function.comp]
  have main : quboDense sampler p = some
      ((List.range p.O).map (fun l => (List.range p.D).map (fun i => sampler (p.ent l) (p.kVar l i))),
        (List.range p.O).map (fun l => sampler (p.ent l) (p.bVar l))) := by
    unfold quboDense
    have : p.qubos.mapM (fun J => tensorRedondeo p.D (sampleRow sampler J)) =
        some ((List.range p.O).map (fun l => ((List.range p.D).map (fun i => sampler (p.ent l) (p.kVar l i)),
          sampler (p.ent l) (p.bVar l)))) := by
      rw [p.qubos_eq]
      have gen : ∀ L : List ℕ, (∀ l ∈ L, l < p.O) →
          (L.map p.ent).mapM (fun J => tensorRedondeo p.D (sampleRow sampler J)) =
            some (L.map (fun l => ((List.range p.D).map (fun i => sampler (p.ent l) (p.kVar l i)),
              sampler (p.ent l) (p.bVar l)))) := by
        intro L hL
        induction L with
        | nil => rfl
        | cons l L ih =>
          rw [List.map_cons, List.mapM_cons, row l (hL l (by simp)), ih (fun m hm => hL m (by simp [hm]))]
          rfl
      exact gen _ (fun l hl => List.mem_range.mp hl)
    rw [this]
    simp [Function.comp]
  refine ⟨_, _, main, by simp, by simp, by simp, ?_⟩
  intro l J hJ
  rw [p.qubos_eq, List.getElem?_map] at hJ
  have hl : l < p.O := by
    by_contra h
    rw [List.getElem?_eq_none (by simp; omega)] at hJ
    simp at hJ
  rw [List.getElem?_range hl] at hJ
  cases hJ
  refine ⟨fun i hi => ?_, ?_⟩
  · rw [List.getElem?_map, List.getElem?_range hl]
    simp [List.getElem?_range hi]
  · rw [List.getElem?_map, List.getElem?_range hl]; rfl

/-- C37–C39 together: if the sampler returns minimisers, the returned policies are optimal roundings: no other 0/1
rounding of any neuron has a smaller mean squared error. -/
theorem C39_optimal_rounding (sampler : QDict → ℕ → ℚ) (p : QuboIn) (hw : p.sw ≠ 0) (hx : p.sx ≠ 0)
    (hopt : ∀ J ∈ p.qubos, Minimises (bqmEnergy J) (sampler J)) :
    ∃ K B, quboDense sampler p = some (K, B) ∧ ∀ l < p.O, ∀ (b : ℕ → ℚ) (β : ℚ), Binary b → (β = 0 ∨ β = 1) →
      roundedError p l (fun i => (K.getD l []).getD i 0) (B.getD l 0) ≤ roundedError p l b β := by
  obtain ⟨K, B, hKB, -, -, -, hdec⟩ := C39_decode sampler p
  refine ⟨K, B, hKB, fun l hl b β hb hβ => ?_⟩
  have hJ : p.qubos[l]? = some (p.ent l) := by rw [p.qubos_eq, List.getElem?_map, List.getElem?_range hl]; rfl
  have ho := hopt (p.ent l) (List.mem_of_getElem? hJ)
  obtain ⟨J, hJ', hiff⟩ := C37_minimiser_iff p hw hx l hl (sampler (p.ent l)) ho.1
  rw [hJ] at hJ'
  cases hJ'
  have h := hiff.mp ho b β hb hβ
  obtain ⟨hk, hbias⟩ := hdec l _ hJ
  have e : roundedError p l (fun i => (K.getD l []).getD i 0) (B.getD l 0) =
      roundedError p l (fun i => sampler (p.ent l) (p.kVar l i)) (sampler (p.ent l) (p.bVar l)) := by
    unfold roundedError mse
    have : B.getD l 0 = sampler (p.ent l) (p.bVar l) := by
      rw [List.getD_eq_getElem?_getD, hbias]; rfl
    rw [this]
    congr 1
    apply Finset.sum_congr rfl
    intro s _
    congr 3
    apply Finset.sum_congr rfl
    intro i hi
    have hki := hk i (Finset.mem_range.mp hi)
    have : (K.getD l []).getD i 0 = sampler (p.ent l) (p.kVar l i) := by
      rw [List.getD_eq_getElem?_getD, List.getD_eq_getElem?_getD]
      cases hKl : K[l]? with
      | none => rw [hKl] at hki; simp at hki
      | some r => rw [hKl] at hki; simp only [Option.bind_some] at hki; simp [hki]
    simp only [this]
  rw [e]
  exact h

end Verif
