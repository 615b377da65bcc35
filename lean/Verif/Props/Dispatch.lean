import Verif.Model.Layers

/-!
# Property C23: choosing the layer for an operator
-/

namespace Verif

/-- Specification: the names each layer class stands for, as documented by the engine — some names exactly,
some anywhere inside the (upper-cased) operator type. -/
def Names (u : List Char) : LayerKind → Prop
  | .tanh => u = "TANH".toList
  | .tanhLUT => u = "TANHLUT".toList
  | .quantize => u = "QUANTIZE".toList
  | .relu => u = "RELU".toList
  | .lstm => u = "LSTM".toList
  | .fullyConnected => "FULLY_CONN".toList <:+: u
  | .sigmoid => "LOGISTIC".toList <:+: u
  | .sigmoidLUT => "SIGMOIDLUT".toList <:+: u
  | .softmax => "SOFTMAX".toList <:+: u
  | .dequantize => "DEQUANTIZE".toList <:+: u

/-- C23.  Upper/lower case of the operator type does not matter. -/
theorem C23_case_insensitive (s t : String) (h : upper s = upper t) : layerKind s = layerKind t := by
  unfold layerKind; rw [h]

/-- C23.  A chosen layer is one the name stands for. -/
theorem C23_choice_matches (s : String) (k : LayerKind) (h : layerKind s = some k) : Names (upper s) k := by
  unfold layerKind contains at h
  simp only [decide_eq_true_eq] at h
  split_ifs at h <;> (injection h with h; subst h; simp only [Names]; first | assumption | (symm; assumption))

/-- C23.  `ValueError` exactly for names no layer stands for. -/
theorem C23_unknown_iff (s : String) : layerKind s = none ↔ ∀ k, ¬ Names (upper s) k := by
  constructor
  · intro h k hk
    unfold layerKind contains at h
    simp only [decide_eq_true_eq] at h
    split_ifs at h with h1 h2 h3 h4 h5 h6 h7 h8 h9 h10
    cases k <;> simp only [Names] at hk
    · exact h1 hk.symm
    · exact h2 hk.symm
    · exact h3 hk
    · exact h4 hk
    · exact h5 hk
    · exact h6 hk
    · exact h7 hk.symm
    · exact h8 hk
    · exact h9 hk.symm
    · exact h10 hk.symm
  · intro h
    cases hk : layerKind s with
    | none => rfl
    | some k => exact absurd (C23_choice_matches s k hk) (h k)

/-- C23.  When only one layer class fits the name, that one is chosen. -/
theorem C23_unique_match (s : String) (k : LayerKind) (hk : Names (upper s) k)
    (huniq : ∀ k', Names (upper s) k' → k' = k) : layerKind s = some k := by
  cases h : layerKind s with
  | none => exact absurd hk ((C23_unknown_iff s).mp h k)
  | some k' => rw [huniq k' (C23_choice_matches s k' h)]

/-- The operator types written by the exporters, with the layer each must become. -/
def documentedNames : List (String × LayerKind) :=
  [("TANH", .tanh), ("TANHLUT", .tanhLUT), ("FULLY_CONNECTED", .fullyConnected), ("LOGISTIC", .sigmoid),
   ("SIGMOIDLUT", .sigmoidLUT), ("SOFTMAX", .softmax), ("QUANTIZE", .quantize), ("DEQUANTIZE", .dequantize),
   ("RELU", .relu), ("LSTM", .lstm)]

/-- C23.  Every documented name, in any case, builds the documented layer. -/
theorem C23_documented (name : String) (k : LayerKind) (hm : (name, k) ∈ documentedNames) (s : String)
    (hs : upper s = name.toList) : layerKind s = some k := by
  have h : ∀ p ∈ documentedNames, layerKind p.1 = some p.2 ∧ upper p.1 = p.1.toList := by decide +kernel
  obtain ⟨h1, h2⟩ := h _ hm
  rw [← h1]
  exact C23_case_insensitive s name (by rw [hs, h2])

/-- C23.  TANH, TANHLUT, QUANTIZE, are chosen for exactly these names; in particular nothing containing
DEQUANTIZE becomes a Quantize layer and TANHLUT never becomes a Tanh layer. -/
theorem C23_exact_names (s : String) :
    (layerKind s = some .tanh ↔ upper s = "TANH".toList) ∧
    (layerKind s = some .tanhLUT ↔ upper s = "TANHLUT".toList) ∧
    (layerKind s = some .quantize ↔ upper s = "QUANTIZE".toList) ∧
    ("DEQUANTIZE".toList <:+: upper s → layerKind s ≠ some .quantize) := by
  have key : ∀ (name : String) (k : LayerKind), (name, k) ∈ documentedNames →
      (Names (upper s) k ↔ upper s = name.toList) → (layerKind s = some k ↔ upper s = name.toList) :=
    fun name k hm hn => ⟨fun h => hn.mp (C23_choice_matches s k h), fun h => C23_documented name k hm s h⟩
  have hq := key "QUANTIZE" .quantize (by simp [documentedNames]) Iff.rfl
  refine ⟨key "TANH" .tanh (by simp [documentedNames]) Iff.rfl,
    key "TANHLUT" .tanhLUT (by simp [documentedNames]) Iff.rfl, hq, ?_⟩
  intro h hk
  rw [hq.mp hk] at h
  have := h.length_le
  simp at this

/-- Mixed case, embedded names, precedence on ambiguous names, and rejection. -/
example : layerKind "tanhLut" = some .tanhLUT ∧ layerKind "MyFully_Connected_1" = some .fullyConnected ∧
    layerKind "softmax_dequantize" = some .softmax ∧ layerKind "SIGMOID" = none ∧ layerKind "TANH2" = none := by
  decide +kernel

/-- C23, TFLite engine: an unknown operator type is an error, a known one yields that class of layer. -/
theorem C23_build_layer (op : OpJ) :
    (layerKind op.opType = none → buildLayer op = none) ∧
    ∀ l, buildLayer op = some l → match layerKind op.opType with
      | some .fullyConnected => ∃ f, l = .fc f
      | some .tanhLUT => ∃ f, l = .lut f
      | some .sigmoidLUT => ∃ f, l = .lut f
      | some .tanh => ∃ z s, l = .tanh z s
      | some .sigmoid => ∃ z s, l = .sigmoid z s
      | some .softmax => l = .softmax
      | some .quantize => ∃ d z s, l = .quantize d z s
      | some .dequantize => ∃ z s, l = .dequantize z s
      | some .relu => ∃ f, l = .relu f
      | some .lstm => ∃ f, l = .lstm f
      | none => False := by
  constructor
  · intro h; unfold buildLayer; rw [h]
  · intro l hl
    unfold buildLayer at hl
    cases hk : layerKind op.opType with
    | none => rw [hk] at hl; simp at hl
    | some k =>
      rw [hk] at hl
      cases k <;> simp only [Option.map_eq_some_iff] at hl
      · obtain ⟨p, _, rfl⟩ := hl; exact ⟨_, _, rfl⟩
      · obtain ⟨p, _, rfl⟩ := hl; exact ⟨_, rfl⟩
      · obtain ⟨p, _, rfl⟩ := hl; exact ⟨_, rfl⟩
      · obtain ⟨p, _, rfl⟩ := hl; exact ⟨_, _, rfl⟩
      · obtain ⟨p, _, rfl⟩ := hl; exact ⟨_, rfl⟩
      · obtain ⟨p, _, rfl⟩ := hl; rfl
      · simp only [quantizeFromModel, Option.bind_eq_bind, Option.bind_eq_some_iff, Option.some.injEq] at hl
        obtain ⟨_, _, _, _, _, _, _, _, _, _, rfl⟩ := hl
        exact ⟨_, _, _, rfl⟩
      · simp only [dequantizeFromModel, Option.bind_eq_bind, Option.bind_eq_some_iff, Option.some.injEq] at hl
        obtain ⟨_, _, _, _, _, _, _, _, _, _, rfl⟩ := hl
        exact ⟨_, _, rfl⟩
      · simp only [reluFromModel, Option.bind_eq_bind, Option.bind_eq_some_iff, Option.some.injEq] at hl
        obtain ⟨_, _, _, _, _, _, _, _, _, _, _, _, rfl⟩ := hl
        exact ⟨_, rfl⟩
      · obtain ⟨p, _, rfl⟩ := hl; exact ⟨_, rfl⟩

/-- Specification: the exact operator type of each ONNX operator class. -/
def onnxName : OnnxKind → String
  | .qadd => "QLinearAdd"
  | .qmatmul => "QLinearMatMul"
  | .quantizeLinear => "QuantizeLinear"
  | .qsigmoid => "QLinearSigmoid"
  | .sigmoidLUT => "SigmoidLUT"
  | .dequantizeLinear => "DequantizeLinear"
  | .softmax => "Softmax"
  | .tanh => "Tanh"
  | .tanhLUT => "TanhLUT"

/-- C23, ONNX engine: an operator class is chosen exactly for its own name (case-sensitive). -/
theorem C23_onnx (s : String) (k : OnnxKind) : onnxKind s = some k ↔ s = onnxName k := by
  constructor
  · intro h
    unfold onnxKind at h
    split_ifs at h <;> (injection h with h; subst h; simp only [onnxName]; assumption)
  · rintro rfl
    cases k <;> decide +kernel

/-- C23, ONNX engine: any other name raises. -/
theorem C23_onnx_unknown (op : OpJ) (h : ∀ k, op.opType ≠ onnxName k) : buildOperator op = none := by
  have : onnxKind op.opType = none := by
    cases hk : onnxKind op.opType with
    | none => rfl
    | some k => exact absurd ((C23_onnx _ k).mp hk) (h k)
  unfold buildOperator; rw [this]

end Verif
