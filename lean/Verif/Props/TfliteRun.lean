import Verif.Props.Tflite2Json
import Verif.Props.Onnx2Json
import Verif.Props.FullyConnected
import Verif.Props.Quant
import Verif.Props.Dtype

/-!
# C71: what a converted TFLite model computes
-/

namespace Verif
open Spec Tflite2Json

/-! ## Specification -/

/-- Tensor number `i` of the model is quantized per tensor with step `s` and zero point `z`, and its type is called, for
instance, `INT8` (`ty = "int"`, `bits = 8`). -/
def Spec.Quantized (en : Enums) (m : TModel) (i : ℕ) (ty : String) (bits : ℕ) (s : ℚ) (z : ℤ) : Prop :=
  ∃ t name, m.tensors[i]? = some t ∧ t.quant = some ([s], [z]) ∧ 0 < s ∧ Member en.types t.type name ∧
    NamesType name ty bits

/-- Tensor number `i` is a constant with these contents. -/
def Spec.Constant (ip : Interp) (m : TModel) (i : ℕ) (a : Arr ℤ) : Prop :=
  ∃ t, m.tensors[i]? = some t ∧ m.buffers[t.buffer]? = some true ∧ ip.content i = some a

/-- The operator's type. -/
def Spec.IsOp (en : Enums) (m : TModel) (op : TOp) (name : String) : Prop :=
  ∃ code, m.opcodes[op.opcodeIndex]? = some code ∧ Member en.ops code name

/-! ## Proofs -/

namespace Tflite2Json

theorem node_quant {en : Enums} {ip : Interp} {m : TModel} {i : ℕ} {n : NodeJ} (h : NodeOf en ip m i n) {ty : String}
    {bits : ℕ} {s : ℚ} {z : ℤ} (hq : Quantized en m i ty bits s z) :
    n.scale = some s ∧ n.zeroPoint = some z ∧ ∃ d sh dt, n.tensor = some ⟨d, sh, dt⟩ ∧ NamesType dt ty bits := by
  obtain ⟨t, d, sh, dt, h1, h2, h3, h4, -, -⟩ := h
  obtain ⟨u, name, g1, g2, g3, g4, g5⟩ := hq
  rw [h1, Option.some.injEq] at g1
  subst g1
  have := h4.2 s z g2 (.inl g3.ne')
  rw [← h3 name g4] at g5
  exact ⟨this.1, this.2, d, sh, dt, h2, g5⟩

theorem node_const {en : Enums} {ip : Interp} {m : TModel} {i : ℕ} {n : NodeJ} (h : NodeOf en ip m i n) {a : Arr ℤ}
    (hc : Constant ip m i a) : ∃ x, n.tensor = some x ∧ x.data = some a ∧ x.shape = a.shape := by
  obtain ⟨t, d, sh, dt, h1, h2, -, -, h5, -⟩ := h
  obtain ⟨u, g1, g2, g3⟩ := hc
  rw [h1, Option.some.injEq] at g1
  subst g1
  obtain ⟨b, k1, k2, k3⟩ := h5 g2
  rw [g3, Option.some.injEq] at k1
  subst k1
  exact ⟨_, h2, k2, k3⟩

theorem int8_fits : Fits32 (intDtype 7).min (intDtype 7).max := by
  unfold Fits32 intDtype; norm_num

theorem int8_fits' : Fits32 (dtypeOf "int" 8).min (dtypeOf "int" 8).max := by
  unfold Fits32 dtypeOf
  rw [if_pos rfl]
  norm_num

theorem arr_map_congr {α β : Type} {f g : α → β} (x : Arr α) (h : ∀ v ∈ x.flat, f v = g v) : x.map f = x.map g := by
  have h1 := Onnx2Json.arr_mapM_eq (fun v => some (f v)) f x (fun v _ => rfl)
  have h2 := Onnx2Json.arr_mapM_eq (fun v => some (f v)) g x (fun v hv => by rw [h v hv])
  rw [h1, Option.some.injEq] at h2
  exact h2

theorem names_ofString {dt ty : String} {bits : ℕ} (hty : ty ∈ ["int", "uint", "float"]) (hb : 0 < bits)
    (h : NamesType dt ty bits) : (GDtype.ofString dt.toList).toOption = some (dtypeOf ty bits) := by
  rw [ofString_of_names dt ty bits hty hb h]; rfl

/-- The `k`-th converted operator is built from the `k`-th operator. -/
theorem graph_get {ext : Ext} {en : Enums} {ip : Interp} {m : TModel} {net : NetJ} (h : convert ext en ip m = some net)
    {k : ℕ} {op : TOp} {j : OpJ} (ho : m.operators[k]? = some op) (hj : net.graph[k]? = some j) :
    buildOp ext en ip m op = some j := by
  unfold convert at h
  simp only [Option.bind_eq_bind, Option.bind_eq_some_iff, Option.some.injEq] at h
  obtain ⟨is, his, os, hos, g, hg, rfl⟩ := h
  exact ((mapM_some_iff _ _ _).mp hg).2 k op j ho hj

theorem forall₂_one {α β : Type} {R : α → β → Prop} {a : α} {r : List β} (h : List.Forall₂ R [a] r) :
    ∃ b, r = [b] ∧ R a b := by
  cases h with
  | cons h1 h2 => cases h2; exact ⟨_, rfl, h1⟩

theorem forall₂_three {α β : Type} {R : α → β → Prop} {a b c : α} {r : List β} (h : List.Forall₂ R [a, b, c] r) :
    ∃ x y z, r = [x, y, z] ∧ R a x ∧ R b y ∧ R c z := by
  cases h with
  | cons h1 h =>
    cases h with
    | cons h2 h =>
      obtain ⟨z, rfl, h3⟩ := forall₂_one h
      exact ⟨_, _, _, rfl, h1, h2, h3⟩

/-- Table operators. -/
theorem lut_layer (f : ℚ → ℚ) (name : String) (hname : name = "TANHLUT" ∨ name = "SIGMOIDLUT") {en : Enums}
    {ip : Interp} {m : TModel} (hi : Interprets ip m) {op : TOp} {j : OpJ} (h : lutOp f name en ip m op = some j)
    {i o : ℕ} (hin : op.inputs = [i]) (hout : op.outputs = [o]) {ty ty' : String} {b b' : ℕ} {si so : ℚ} {zi zo : ℤ}
    (hqi : Quantized en m i ty b si zi) (hqo : Quantized en m o ty' b' so zo) :
    ∃ l, buildLayer j = some (.lut l) ∧ l.offset = 128 ∧
      l.table = .reduced (ReducedLUT.deserialize (ReducedLUT.mk' (Quantization.createLUT (intDtype 7) f si zi so zo) 3 0).serialize) := by
  obtain ⟨code, ni, is, no, os, hc, k1, k2, e1, e2, e3, e4⟩ := lutOp_spec h
  have f1 := forall₂_nodes hi k1
  have f2 := forall₂_nodes hi k2
  rw [hin] at f1
  rw [hout] at f2
  obtain ⟨_, hx, g1⟩ := forall₂_one f1
  obtain ⟨_, hy, g2⟩ := forall₂_one f2
  obtain ⟨rfl, rfl⟩ := List.cons.inj hx
  obtain ⟨rfl, rfl⟩ := List.cons.inj hy
  obtain ⟨a1, a2, -⟩ := node_quant g1 hqi
  obtain ⟨b1, b2, -⟩ := node_quant g2 hqo
  have ht : table f ni no = Quantization.createLUT (intDtype 7) f si zi so zo := by
    obtain ⟨_, _, _, _, p1, _⟩ := hqi
    obtain ⟨_, _, _, _, p2, _⟩ := hqo
    unfold table
    rw [a1, a2, b1, b2, Onnx2Json.orElse_zero, Onnx2Json.orElse_zero, Onnx2Json.orElse_ne _ p1.ne',
      Onnx2Json.orElse_ne _ p2.ne']
  refine ⟨⟨.reduced (ReducedLUT.deserialize (ReducedLUT.mk' (table f ni no) 3 0).serialize), 128⟩, ?_, rfl, ?_⟩
  · have hf : LutLayer.fromModel j = some ⟨.reduced (ReducedLUT.deserialize (ReducedLUT.mk' (table f ni no) 3 0).serialize), 128⟩ := by
      unfold LutLayer.fromModel
      rw [e4]; rfl
    unfold buildLayer
    rw [e1]
    rcases hname with rfl | rfl
    · have : layerKind "TANHLUT" = some .tanhLUT := by decide +kernel
      rw [this]; simp only [hf]; rfl
    · have : layerKind "SIGMOIDLUT" = some .sigmoidLUT := by decide +kernel
      rw [this]; simp only [hf]; rfl
  · rw [ht]

theorem buildOp_is {ext : Ext} {en : Enums} {ip : Interp} {m : TModel} {op : TOp} {name : String} (ho : IsOp en m op name)
    {T : Onnx2Json.Table} :
    buildOp ext en ip m op T = if name = "TANH" then lutOp ext.tanh "TANHLUT" en ip m op T
      else if name = "LOGISTIC" then lutOp ext.sigmoid "SIGMOIDLUT" en ip m op T else baseOp en ip m op := by
  obtain ⟨code, hc, hm⟩ := ho
  unfold buildOp
  rw [hc]
  simp only [Option.bind_eq_bind, Option.bind_some]
  rw [enum_member hm]

/-- An operator that is not a table operator. -/
theorem plain_op {ext : Ext} {en : Enums} {ip : Interp} {m : TModel} (hi : Interprets ip m) {op : TOp} {j : OpJ}
    {name : String} (ho : IsOp en m op name) (h1 : name ≠ "TANH") (h2 : name ≠ "LOGISTIC") {T : Onnx2Json.Table}
    (h : buildOp ext en ip m op T = some j) :
    j.opType = name ∧ j.name = name ∧ List.Forall₂ (NodeOf en ip m) op.inputs j.inputs ∧
      List.Forall₂ (NodeOf en ip m) op.outputs j.outputs := by
  rw [buildOp_is ho, if_neg h1, if_neg h2] at h
  obtain ⟨code, hc, e1, e2, k1, k2⟩ := baseOp_spec h
  obtain ⟨code', hc', hm⟩ := ho
  rw [hc, Option.some.injEq] at hc'
  subst hc'
  rw [enum_member hm] at e1 e2
  exact ⟨e1, e2, forall₂_nodes hi k1, forall₂_nodes hi k2⟩

end Tflite2Json

/-! ## The property -/

/-- **C71 (tanh, logistic).**  The table operator a converted tanh or logistic becomes loads, and answers every tensor of
int8 codes, element by element, with the int8 code whose real value (in the result tensor's quantization) is nearest to
the function of the operand's real value. -/
theorem C71_activation (ext : Ext) (en : Enums) (ip : Interp) (m : TModel) (hi : Interprets ip m) (net : NetJ)
    (h : convert ext en ip m = some net) (k : ℕ) (op : TOp) (j : OpJ) (ho : m.operators[k]? = some op)
    (hj : net.graph[k]? = some j) (name : String) (f : ℚ → ℚ)
    (hname : name = "TANH" ∧ f = ext.tanh ∨ name = "LOGISTIC" ∧ f = ext.sigmoid) (hop : IsOp en m op name) (i o : ℕ)
    (hin : op.inputs = [i]) (hout : op.outputs = [o]) (ty' : String) (b' : ℕ) (si so : ℚ) (zi zo : ℤ)
    (hqi : Quantized en m i "int" 8 si zi) (hqo : Quantized en m o ty' b' so zo) (hz : Code (-128) 127 zi) :
    ∃ l g, buildLayer j = some l ∧ (∀ x : Arr ℤ, x.flat ≠ [] → (∀ v ∈ x.flat, Code (-128) 127 v) →
        l.infer ext (.int x) = some (.int (x.map g))) ∧
      ∀ q, Code (-128) 127 q → Nearest (-128) 127 zo so (f (real zi si q)) (g q) := by
  have hb := graph_get h ho hj
  have hlut : ∃ l, buildLayer j = some (.lut l) ∧ l.offset = 128 ∧
      l.table = .reduced (ReducedLUT.deserialize (ReducedLUT.mk' (Quantization.createLUT (intDtype 7) f si zi so zo) 3 0).serialize) := by
    rw [buildOp_is hop] at hb
    rcases hname with ⟨rfl, rfl⟩ | ⟨rfl, rfl⟩
    · rw [if_pos rfl] at hb
      exact lut_layer _ _ (Or.inl rfl) hi hb hin hout hqi hqo
    · rw [if_neg (by decide), if_pos rfl] at hb
      exact lut_layer _ _ (Or.inr rfl) hi hb hin hout hqi hqo
  obtain ⟨l, hl, hoff, htab⟩ := hlut
  have hso : 0 < so := by obtain ⟨_, _, _, _, p, _⟩ := hqo; exact p
  have key : ∀ q, Code (-128) 127 q → IsInt32 (q - zi) := by
    intro q hq
    unfold Code at hq hz
    exact ⟨by omega, by omega⟩
  refine ⟨.lut l, fun q => Quantization.quantize (intDtype 7) (f (real zi si q)) zo so, hl, ?_, ?_⟩
  · intro x hne hx
    show (l.infer x).map Tensor.int = _
    have : l.infer x = some (x.map (fun q => Quantization.quantize (intDtype 7) (f (real zi si q)) zo so)) := by
      unfold LutLayer.infer
      rw [if_neg hne]
      refine Onnx2Json.arr_mapM_eq _ _ x (fun v hv => ?_)
      obtain ⟨l', h1, h2, -⟩ := C07_layer_reads_entry (intDtype 7) int8_fits f si zi so zo v (hx v hv) (key v (hx v hv))
        (some (3, 0))
      rw [← h2]
      have e : l' = l := by
        have h1 : some (⟨LutTable.reduced (ReducedLUT.deserialize
          (ReducedLUT.mk' (Quantization.createLUT (intDtype 7) f si zi so zo) 3 0).serialize), - (intDtype 7).min⟩ : LutLayer) = some l' := h1
        rw [Option.some.injEq] at h1
        rw [← h1]
        cases l
        simp only at hoff htab
        rw [hoff, htab]
        rfl
      rw [e]
    rw [this]; rfl
  · intro q hq
    exact C04_quantize_nearest (intDtype 7) int8_fits zo so hso _

/-- **C71 (defect).**  The tables are always int8 tables: if operand and result are uint8 tensors, every code above 127 –
half of them – is answered with one and the same number, the table's last entry. -/
theorem C71_uint8_activation (ext : Ext) (en : Enums) (ip : Interp) (m : TModel) (hi : Interprets ip m) (net : NetJ)
    (h : convert ext en ip m = some net) (k : ℕ) (op : TOp) (j : OpJ) (ho : m.operators[k]? = some op)
    (hj : net.graph[k]? = some j) (name : String) (hname : name = "TANH" ∨ name = "LOGISTIC") (hop : IsOp en m op name)
    (i o : ℕ) (hin : op.inputs = [i]) (hout : op.outputs = [o]) (si so : ℚ) (zi zo : ℤ)
    (hqi : Quantized en m i "uint" 8 si zi) (hqo : Quantized en m o "uint" 8 so zo) :
    ∃ l y, buildLayer j = some l ∧ ∀ q, Code 127 255 q → l.infer ext (.int (.vec [q])) = some (.int (.vec [y])) := by
  have hb := graph_get h ho hj
  have hlut : ∃ f l, buildLayer j = some (.lut l) ∧ l.offset = 128 ∧
      l.table = .reduced (ReducedLUT.deserialize (ReducedLUT.mk' (Quantization.createLUT (intDtype 7) f si zi so zo) 3 0).serialize) := by
    rw [buildOp_is hop] at hb
    rcases hname with rfl | rfl
    · rw [if_pos rfl] at hb
      exact ⟨_, lut_layer _ _ (Or.inl rfl) hi hb hin hout hqi hqo⟩
    · rw [if_neg (by decide), if_pos rfl] at hb
      exact ⟨_, lut_layer _ _ (Or.inr rfl) hi hb hin hout hqi hqo⟩
  obtain ⟨f, l, hl, hoff, htab⟩ := hlut
  obtain ⟨T, hT⟩ : ∃ T, T = Quantization.createLUT (intDtype 7) f si zi so zo := ⟨_, rfl⟩
  have hlen : T.length = 256 := by rw [hT, C07_one_entry_per_code]; decide
  have hne : T ≠ [] := by intro hc; rw [hc] at hlen; simp at hlen
  rw [← hT] at htab
  refine ⟨.lut l, T.getLast hne, hl, fun q hq => ?_⟩
  have hlook : l.look q = some (T.getLast hne) := by
    unfold LutLayer.look
    rw [htab, hoff]
    show (ReducedLUT.deserialize (ReducedLUT.mk' T 3 0).serialize).get (q + 128) = _
    obtain ⟨h1, h2⟩ := hq
    obtain ⟨n, hn⟩ : ∃ n : ℕ, q + 128 = n := ⟨(q + 128).toNat, by omega⟩
    rw [hn]
    have hg : ∀ i : ℤ, (ReducedLUT.deserialize (ReducedLUT.mk' T 3 0).serialize).get i = (ReducedLUT.mk' T 3 0).get i :=
      fun i => C12_roundtrip_lookup _ i
    rw [hg]
    by_cases hc : n = 255
    · subst hc
      rw [C11_reduced_lut_correct T 3 0 255 (by omega), List.getLast_eq_getElem]
      simp [hlen]
    · exact C11_index_past_end_returns_last T hne 3 0 n (by omega)
  show (l.infer (.vec [q])).map Tensor.int = _
  have : l.infer (.vec [q]) = some (.vec [T.getLast hne]) := by
    unfold LutLayer.infer
    rw [if_neg (by simp [Arr.flat])]
    simp [Arr.mapM, hlook]
  rw [this]; rfl

/-- **C71 (fully connected).**  A converted int8 fully connected operator (weights with zero point 0, bias in units of
input step times weight step, as TFLite stores them) loads exactly if the requantization factor is below
`2³⁰(1 − 2⁻³²)`; then it answers every vector of int8 codes, and each answer, as a real number, is within half an output
step (plus `2⁻³¹` of the value) of the exact real layer applied to the real values of the model's own tensors, saturated to
the values the output type can represent. -/
theorem C71_fully_connected (ext : Ext) (en : Enums) (ip : Interp) (m : TModel) (hi : Interprets ip m) (net : NetJ)
    (h : convert ext en ip m = some net) (k : ℕ) (op : TOp) (j : OpJ) (ho : m.operators[k]? = some op)
    (hj : net.graph[k]? = some j) (hop : IsOp en m op "FULLY_CONNECTED") (x w b o : ℕ)
    (hin : op.inputs = [x, w, b]) (hout : op.outputs = [o]) (sx sw so : ℚ) (zx zo : ℤ)
    (hqx : Quantized en m x "int" 8 sx zx) (hqw : Quantized en m w "int" 8 sw 0)
    (hqb : Quantized en m b "int" 32 (sx * sw) 0) (hqo : Quantized en m o "int" 8 so zo)
    (hzx : Code (-128) 127 zx) (hzo : Code (-128) 127 zo) (W : List (List ℤ)) (B : List ℤ)
    (hW : Constant ip m w (.mat W)) (hB : Constant ip m b (.vec B)) (n : ℕ) (hn : n ≤ 2 ^ 14) (hne : W ≠ [])
    (hrows : ∀ r ∈ W, r.length = n ∧ ∀ v ∈ r, Code (-128) 127 v) (hlen : B.length = W.length)
    (hbc : ∀ v ∈ B, IsInt32 v) :
    ((buildLayer j).isSome ↔ sx * sw / so < 2 ^ 30 * (1 - 1 / 2 ^ 32)) ∧
    ∀ l, buildLayer j = some l → ∀ X : List ℤ, X.length = n → (∀ v ∈ X, Code (-128) 127 v) →
      ∃ Y : List ℤ, l.infer ext (.int (.vec X)) = some (.int (.vec Y)) ∧ Y.length = W.length ∧
        (∀ q ∈ Y, Code (-128) 127 q) ∧ (1 / 1000000 ≤ sx * sw / so → ∀ (i : ℕ) q y, Y[i]? = some q →
          (denseQ (W.map (fun r => r.map (real 0 sw))) (B.map (real 0 (sx * sw))) (X.map (real zx sx)))[i]? = some y →
          |real zo so q - max (real zo so (-128)) (min (real zo so 127) y)| ≤ so / 2 + |y| / 2 ^ 31) := by
  obtain ⟨e1, -, f1, f2⟩ := plain_op hi hop (by decide) (by decide) (graph_get h ho hj)
  rw [hin] at f1
  rw [hout] at f2
  obtain ⟨nx, nw, nb, g1, r1, r2, r3⟩ := forall₂_three f1
  obtain ⟨no, g2, r4⟩ := forall₂_one f2
  obtain ⟨x1, x2, -⟩ := node_quant r1 hqx
  obtain ⟨w1, w2, -⟩ := node_quant r2 hqw
  obtain ⟨b1, b2, -⟩ := node_quant r3 hqb
  obtain ⟨o1, o2, od, osh, odt, o3, o4⟩ := node_quant r4 hqo
  obtain ⟨wt, w3, w4, -⟩ := node_const r2 hW
  obtain ⟨bt, b3, b4, -⟩ := node_const r3 hB
  obtain ⟨W0, Ws, hWs⟩ := List.exists_cons_of_ne_nil hne
  have hw0 : (W.getD 0 []).length = n := by rw [hWs]; exact (hrows W0 (by rw [hWs]; simp)).1
  have hk : layerKind "FULLY_CONNECTED" = some .fullyConnected := by decide +kernel
  have hd := names_ofString (by simp) (by norm_num) o4
  have hbuild : buildLayer j = (FC.build sx zx sw 0 n W (sx * sw) 0 B so zo (dtypeOf "int" 8)).map .fc := by
    unfold buildLayer
    rw [e1, hk]
    show (FC.fromModel j).map Layer.fc = _
    congr 1
    unfold FC.fromModel
    rw [g1, g2]
    simp only [List.getElem?_cons_zero, List.getElem?_cons_succ, Option.bind_eq_bind, Option.bind_some, w3, b3, o3, hd,
      w4, b4, x1, x2, w1, w2, b1, b2, o1, o2, Option.getD_some, hw0]
  have hso : 0 < so := by obtain ⟨_, _, _, _, p, _⟩ := hqo; exact p
  refine ⟨?_, ?_⟩
  · rw [hbuild, Option.isSome_map, ← C16_build_iff]
    unfold FC.build
    cases Mult.build (sx * sw / so) <;> simp
  · intro l hl X hX hXc
    rw [hbuild, Option.map_eq_some_iff] at hl
    obtain ⟨fc, hfc, rfl⟩ := hl
    have hbd := C18_bounds_of_int8 sx zx sw n W (sx * sw) 0 B so zo (dtypeOf "int" 8) fc hfc hn (fun r hr => (hrows r hr).1)
      hlen (fun r hr => (hrows r hr).2) hbc hzx hzo X hX hXc
    have hdd : fc.outDtype = dtypeOf "int" 8 := by
      unfold FC.build at hfc
      split at hfc
      · cases hfc
      · injection hfc with hfc; subst hfc; rfl
    obtain ⟨Y, hY⟩ : ∃ Y, fc.infer (.vec X) = some (.vec Y) := ⟨_, C18_no_overflow fc X hbd⟩
    obtain ⟨Y', hY', hlenY, hcode⟩ := C17_output_in_range fc (by rw [hdd]; exact int8_fits'.2.1) X _ hY
    injection hY' with hY'
    subst hY'
    have hwl : fc.weights.length = W.length := by
      unfold FC.build at hfc
      split at hfc
      · cases hfc
      · injection hfc with hfc; subst hfc; simp
    refine ⟨Y, by show (fc.infer (.vec X)).map Tensor.int = _; rw [hY]; rfl, by rw [hlenY, hwl], ?_, ?_⟩
    · intro q hq
      have := hcode q hq
      rw [hdd] at this
      exact this
    · intro hm i q y hq hy
      obtain ⟨out, ho, -, hacc⟩ := C21_saturation sx zx sw 0 n W (sx * sw) 0 B so zo (dtypeOf "int" 8) fc hfc hso
        int8_fits'.2.1 hm X hbd
      rw [hY] at ho
      injection ho with ho
      injection ho with ho
      subst ho
      simpa [dtypeOf] using hacc i q y hq hy

/-- **C71 (quantize).**  A converted quantize operator answers every tensor of real numbers with the nearest codes of the
result tensor's type and quantization. -/
theorem C71_quantize (ext : Ext) (en : Enums) (ip : Interp) (m : TModel) (hi : Interprets ip m) (net : NetJ)
    (h : convert ext en ip m = some net) (k : ℕ) (op : TOp) (j : OpJ) (ho : m.operators[k]? = some op)
    (hj : net.graph[k]? = some j) (hop : IsOp en m op "QUANTIZE") (o : ℕ) (hout : op.outputs = [o]) (so : ℚ) (zo : ℤ)
    (hqo : Quantized en m o "int" 8 so zo) :
    ∃ l g, buildLayer j = some l ∧ (∀ x : Arr ℚ, l.infer ext (.flt x) = some (.int (x.map g))) ∧
      ∀ v, Nearest (-128) 127 zo so v (g v) := by
  obtain ⟨e1, -, f1, f2⟩ := plain_op hi hop (by decide) (by decide) (graph_get h ho hj)
  rw [hout] at f2
  obtain ⟨no, g2, r4⟩ := forall₂_one f2
  obtain ⟨o1, o2, od, osh, odt, o3, o4⟩ := node_quant r4 hqo
  have hd := names_ofString (by simp) (by norm_num) o4
  have hk : layerKind "QUANTIZE" = some .quantize := by decide +kernel
  have hso : 0 < so := by obtain ⟨_, _, _, _, p, _⟩ := hqo; exact p
  refine ⟨.quantize (dtypeOf "int" 8) zo so, fun v => Quantization.quantize (dtypeOf "int" 8) v zo so, ?_, fun x => rfl, ?_⟩
  · unfold buildLayer
    rw [e1, hk]
    show quantizeFromModel j = _
    unfold quantizeFromModel
    rw [g2]
    simp only [List.getElem?_cons_zero, Option.bind_eq_bind, Option.bind_some, o3, hd, o1, o2]
  · intro v
    exact C04_quantize_nearest (dtypeOf "int" 8) int8_fits' zo so hso v

/-- **C71 (defect).**  TFLite also uses the quantize operator to change the quantization of an already quantized tensor.
The converted operator then takes the *codes* of the operand for real numbers: whatever the operand's step and zero
point, it answers code `q` with the code nearest to the number `q`. -/
theorem C71_requantize_wrong (ext : Ext) (en : Enums) (ip : Interp) (m : TModel) (hi : Interprets ip m) (net : NetJ)
    (h : convert ext en ip m = some net) (k : ℕ) (op : TOp) (j : OpJ) (ho : m.operators[k]? = some op)
    (hj : net.graph[k]? = some j) (hop : IsOp en m op "QUANTIZE") (o : ℕ) (hout : op.outputs = [o]) (so : ℚ) (zo : ℤ)
    (hqo : Quantized en m o "int" 8 so zo) :
    ∃ l g, buildLayer j = some l ∧ (∀ x : Arr ℤ, l.infer ext (.int x) = some (.int (x.map g))) ∧
      ∀ q : ℤ, Nearest (-128) 127 zo so q (g q) := by
  obtain ⟨e1, -, f1, f2⟩ := plain_op hi hop (by decide) (by decide) (graph_get h ho hj)
  rw [hout] at f2
  obtain ⟨no, g2, r4⟩ := forall₂_one f2
  obtain ⟨o1, o2, od, osh, odt, o3, o4⟩ := node_quant r4 hqo
  have hd := names_ofString (by simp) (by norm_num) o4
  have hk : layerKind "QUANTIZE" = some .quantize := by decide +kernel
  have hso : 0 < so := by obtain ⟨_, _, _, _, p, _⟩ := hqo; exact p
  refine ⟨.quantize (dtypeOf "int" 8) zo so, fun q => Quantization.quantize (dtypeOf "int" 8) (q : ℤ) zo so, ?_, fun x => ?_, ?_⟩
  · unfold buildLayer
    rw [e1, hk]
    show quantizeFromModel j = _
    unfold quantizeFromModel
    rw [g2]
    simp only [List.getElem?_cons_zero, Option.bind_eq_bind, Option.bind_some, o3, hd, o1, o2]
  · simp only [Layer.infer, Tensor.toFlt, Onnx2Json.arr_map_map]
  · intro v
    exact C04_quantize_nearest (dtypeOf "int" 8) int8_fits' zo so hso v

/-- **C71 (dequantize).**  A converted dequantize operator answers codes with their real values in the operand's
quantization. -/
theorem C71_dequantize (ext : Ext) (en : Enums) (ip : Interp) (m : TModel) (hi : Interprets ip m) (net : NetJ)
    (h : convert ext en ip m = some net) (k : ℕ) (op : TOp) (j : OpJ) (ho : m.operators[k]? = some op)
    (hj : net.graph[k]? = some j) (hop : IsOp en m op "DEQUANTIZE") (i : ℕ) (hin : op.inputs = [i]) (s : ℚ) (z : ℤ)
    (hqi : Quantized en m i "int" 8 s z) (hz : Code (-128) 127 z) :
    ∃ l, buildLayer j = some l ∧ ∀ x : Arr ℤ, (∀ v ∈ x.flat, Code (-128) 127 v) →
      l.infer ext (.int x) = some (.flt (x.map (real z s))) := by
  obtain ⟨e1, -, f1, f2⟩ := plain_op hi hop (by decide) (by decide) (graph_get h ho hj)
  rw [hin] at f1
  obtain ⟨ni, g1, r1⟩ := forall₂_one f1
  obtain ⟨i1, i2, od, osh, odt, i3, i4⟩ := node_quant r1 hqi
  have hd := names_ofString (by simp) (by norm_num) i4
  have hk : layerKind "DEQUANTIZE" = some .dequantize := by decide +kernel
  refine ⟨.dequantize z s, ?_, fun x hx => ?_⟩
  · unfold buildLayer
    rw [e1, hk]
    show dequantizeFromModel j = _
    unfold dequantizeFromModel
    rw [g1]
    simp only [List.getElem?_cons_zero, Option.bind_eq_bind, Option.bind_some, i3, hd, i1, i2]
  · show some (Tensor.flt (x.map (fun q => Quantization.dequantize q z s))) = _
    rw [arr_map_congr x (g := real z s)]
    intro v hv
    obtain ⟨h1, h2⟩ := hx v hv
    obtain ⟨h3, h4⟩ := hz
    have i1 : IsInt32 v := ⟨by omega, by omega⟩
    have i2 : IsInt32 (v - z) := ⟨by omega, by omega⟩
    rw [dequantize_eq i1 i2]

/-- **C71 (defect).**  A converted softmax operator hands its operand on unchanged, whatever the two tensors'
quantizations: the following operators read the operand's codes with the softmax result's step and zero point. -/
theorem C71_softmax_identity (ext : Ext) (en : Enums) (ip : Interp) (m : TModel) (hi : Interprets ip m) (net : NetJ)
    (h : convert ext en ip m = some net) (k : ℕ) (op : TOp) (j : OpJ) (ho : m.operators[k]? = some op)
    (hj : net.graph[k]? = some j) (hop : IsOp en m op "SOFTMAX") (i : ℕ) (hin : op.inputs = [i]) :
    ∃ l, buildLayer j = some l ∧ ∀ t, l.infer ext t = some t := by
  obtain ⟨e1, -, f1, f2⟩ := plain_op hi hop (by decide) (by decide) (graph_get h ho hj)
  rw [hin] at f1
  obtain ⟨ni, g1, r1⟩ := forall₂_one f1
  have hk : layerKind "SOFTMAX" = some .softmax := by decide +kernel
  refine ⟨.softmax, ?_, fun t => rfl⟩
  unfold buildLayer
  rw [e1, hk, g1]
  rfl

/-- **C71 (network).**  If the operators of the converted model load one by one as `ls`, the network loads, and inference
runs them in order – on the input itself if the first operator is a quantize operator, otherwise on the input quantized
to int8 with step and zero point of the model's first input tensor. -/
theorem C71_network (ext : Ext) (en : Enums) (ip : Interp) (m : TModel) (hi : Interprets ip m) (net : NetJ)
    (h : convert ext en ip m = some net) (ls : List Layer) (hls : net.graph.mapM buildLayer = some ls) (op : TOp)
    (hop : m.operators[0]? = some op) (hout : m.outputs ≠ []) (i : ℕ) (hin : m.inputs[0]? = some i) :
    ∃ s, SeqNet.load net = some s ∧
      (IsOp en m op "QUANTIZE" → ∀ x, (s.infer ext x).map Prod.fst = pipe ext ls x) ∧
      (∀ name, IsOp en m op name → ¬ "QUANT".toList <:+: upper name → ∀ sx zx, Quantized en m i "int" 8 sx zx →
        ∃ g, (∀ v, Nearest (-128) 127 zx sx v (g v)) ∧
          ∀ x, (s.infer ext x).map Prod.fst = pipe ext ls (.int (x.toFlt.map g))) := by
  have hc := h
  unfold convert at h
  simp only [Option.bind_eq_bind, Option.bind_eq_some_iff, Option.some.injEq] at h
  obtain ⟨is, his, os, hos, g, hg, rfl⟩ := h
  simp only at hls
  have k1 := forall₂_nodes hi his
  have k2 := forall₂_nodes hi hos
  obtain ⟨j, hj⟩ : ∃ j, g[0]? = some j := by
    have := ((mapM_some_iff _ _ _).mp hg).1
    have h0 := (List.getElem?_eq_some_iff.mp hop).1
    exact ⟨_, List.getElem?_eq_getElem (by omega)⟩
  have hbj := graph_get hc hop hj
  obtain ⟨n0, hn0, hnode⟩ : ∃ n0, is[0]? = some n0 ∧ NodeOf en ip m i n0 := by
    generalize m.inputs = l at hin k1
    cases k1 with
    | nil => simp at hin
    | cons a b =>
      simp only [List.getElem?_cons_zero, Option.some.injEq] at hin
      subst hin
      exact ⟨_, rfl, a⟩
  obtain ⟨o0, ho0⟩ : ∃ o0, os[0]? = some o0 := by
    generalize m.outputs = l at hout k2
    cases k2 with
    | nil => exact absurd rfl hout
    | cons a b => exact ⟨_, rfl⟩
  have he : SeqNet.engine { engine := "TFLITE", operators := m.operators.length, graph := g, input := is.map some, output := os.map some } = some buildLayer := by
    unfold SeqNet.engine
    exact if_pos (show "TFLITE".toList = upper "TFLITE" by decide +kernel)
  refine ⟨⟨contains "QUANT" (upper j.name), n0.zeroPoint.getD 0, (match n0.scale with
      | none => 1
      | some s => if s = 0 then 1 else s), ls⟩, ?_, ?_, ?_⟩
  · unfold SeqNet.load
    simp only [he, List.getElem?_map, hn0, ho0, Option.map_some, Option.bind_eq_bind, Option.bind_some, hj, hls]
    rfl
  · intro hq x
    obtain ⟨-, e2, -, -⟩ := plain_op hi hq (by decide) (by decide) hbj
    have hcont : contains "QUANT" (upper j.name) = true := by rw [e2]; decide +kernel
    unfold SeqNet.infer SeqNet.prepare
    simp only [hcont, if_true]
    exact C24_composition ext ls x
  · intro name hn hnq sx zx hqx
    obtain ⟨a1, a2, -⟩ := node_quant hnode hqx
    have hsx : 0 < sx := by obtain ⟨_, _, _, _, p, _⟩ := hqx; exact p
    have hname : j.name = exportName name := by
      obtain ⟨code, hcode, hmem, -, -⟩ := buildOp_spec hi hbj
      obtain ⟨code', hcode', hm'⟩ := hn
      rw [hcode, Option.some.injEq] at hcode'
      subst hcode'
      exact (hmem name hm').2.1
    have hcont : contains "QUANT" (upper j.name) = false := by
      rw [hname]
      unfold exportName
      by_cases h1 : name = "TANH"
      · rw [if_pos h1]; decide +kernel
      · rw [if_neg h1]
        by_cases h2 : name = "LOGISTIC"
        · rw [if_pos h2]; decide +kernel
        · rw [if_neg h2]
          have := Keras2Json.contains_iff' "QUANT" (upper name)
          cases hcc : contains "QUANT" (upper name) with
          | false => rfl
          | true => exact absurd (this.mp hcc) hnq
    refine ⟨fun v => Quantization.quantize (intDtype 7) v zx sx, fun v => C04_quantize_nearest (intDtype 7) int8_fits zx sx hsx v, ?_⟩
    intro x
    unfold SeqNet.infer SeqNet.prepare
    rw [C24_composition]
    simp only [hcont, Bool.false_eq_true, if_false, a1, a2, Option.getD_some]
    rw [if_neg hsx.ne']

/-! ## A concrete model -/

namespace C71Case

/-- An excerpt of the two enumerations, with private members as `getmembers` lists them. -/
def en : Enums :=
  ⟨[("DEQUANTIZE", 6), ("FULLY_CONNECTED", 9), ("LOGISTIC", 14), ("QUANTIZE", 114), ("TANH", 28), ("__weight__", 9)],
   [("FLOAT32", 0), ("INT32", 2), ("INT8", 9), ("__x__", 9)]⟩

/-- quantize → fully connected → tanh → dequantize, two features, two units. -/
def m : TModel :=
  { opcodes := [114, 9, 28, 6]
    buffers := [false, true, true]
    tensors := [⟨"in", 0, 0, some [1, 2], none⟩, ⟨"q", 0, 9, some [1, 2], some ([1/2], [3])⟩,
      ⟨"w", 1, 9, some [2, 2], some ([1/4], [0])⟩, ⟨"b", 2, 2, some [2], some ([1/8], [0])⟩,
      ⟨"fc", 0, 9, some [1, 2], some ([1/16], [-5])⟩, ⟨"tanh", 0, 9, some [1, 2], some ([1/128], [0])⟩,
      ⟨"out", 0, 0, some [1, 2], some ([], [])⟩]
    operators := [⟨0, [0], [1], .none⟩, ⟨1, [1, 2, 3], [4], .none⟩, ⟨2, [4], [5], .none⟩, ⟨3, [5], [6], .none⟩]
    inputs := [0]
    outputs := [6] }

def ip : Interp :=
  { details := [("in", 0), ("q", 1), ("w", 2), ("b", 3), ("fc", 4), ("tanh", 5), ("out", 6)]
    content := fun i => if i = 2 then some (.mat [[100, -7], [1, 2]]) else if i = 3 then some (.vec [40, -20]) else none }

def ext : Ext := ⟨fun x => x / 16, fun x => x / 4, fun x => x + 1⟩

theorem interprets : Interprets ip m where
  named := by decide +kernel
  distinct := by
    intro i j t u h1 h2 h3
    have hi : i < 7 := (List.getElem?_eq_some_iff.mp h1).1
    have hj : j < 7 := (List.getElem?_eq_some_iff.mp h2).1
    have key : ∀ a < 7, ∀ b < 7, (m.tensors[a]?.map TTensor.name) = (m.tensors[b]?.map TTensor.name) → a = b := by
      decide +kernel
    exact key i hi j hj (by rw [h1, h2]; simp [h3])
  details := by
    intro nm i
    constructor
    · intro h
      have key : ∀ p ∈ ip.details, m.tensors[p.2]?.map TTensor.name = some p.1 := by decide +kernel
      have := key _ h
      rw [Option.map_eq_some_iff] at this
      exact this
    · rintro ⟨t, h1, h2⟩
      have hi : i < 7 := (List.getElem?_eq_some_iff.mp h1).1
      have key : ∀ a < 7, ∀ t ∈ m.tensors[a]?, (t.name, a) ∈ ip.details := by decide +kernel
      rw [← h2]
      exact key i hi t h1

theorem members : ∀ p ∈ [(114, "QUANTIZE"), (9, "FULLY_CONNECTED"), (28, "TANH"), (6, "DEQUANTIZE")], Member en.ops p.1 p.2 := by
  unfold Spec.Member
  decide +kernel

theorem types : Member en.types 9 "INT8" ∧ Member en.types 2 "INT32" := by
  unfold Spec.Member
  decide +kernel

theorem int8 (i : ℕ) (t : TTensor) (ht : m.tensors[i]? = some t) (hty : t.type = 9) (s : ℚ) (z : ℤ) (hs : 0 < s)
    (hq : t.quant = some ([s], [z])) : Quantized en m i "int" 8 s z :=
  ⟨t, "INT8", ht, hq, hs, by rw [hty]; exact types.1, by unfold NamesType; decide +kernel⟩

/-- The hypotheses of the C66 and C71 theorems are met: the model converts … -/
example : (convert ext en ip m).isSome ∧ (∀ c ∈ m.opcodes, ∃ s, Member en.ops c s) := by
  refine ⟨by decide +kernel, ?_⟩
  intro c hc
  have : c ∈ [(114 : ℤ), 9, 28, 6] := hc
  simp only [List.mem_cons, List.not_mem_nil, or_false] at this
  rcases this with rfl | rfl | rfl | rfl
  · exact ⟨_, members (114, "QUANTIZE") (by simp)⟩
  · exact ⟨_, members (9, "FULLY_CONNECTED") (by simp)⟩
  · exact ⟨_, members (28, "TANH") (by simp)⟩
  · exact ⟨_, members (6, "DEQUANTIZE") (by simp)⟩

/-- … its operators and tensors are as the theorems require … -/
example : IsOp en m ⟨1, [1, 2, 3], [4], .none⟩ "FULLY_CONNECTED" ∧ IsOp en m ⟨2, [4], [5], .none⟩ "TANH" ∧
    Quantized en m 1 "int" 8 (1/2) 3 ∧ Quantized en m 2 "int" 8 (1/4) 0 ∧ Quantized en m 3 "int" 32 (1/2 * (1/4)) 0 ∧
    Quantized en m 4 "int" 8 (1/16) (-5) ∧ Quantized en m 5 "int" 8 (1/128) 0 ∧
    Constant ip m 2 (.mat [[100, -7], [1, 2]]) ∧ Constant ip m 3 (.vec [40, -20]) := by
  refine ⟨⟨9, rfl, members (9, "FULLY_CONNECTED") (by simp)⟩, ⟨28, rfl, members (28, "TANH") (by simp)⟩,
    int8 1 _ rfl rfl _ _ (by norm_num) rfl, int8 2 _ rfl rfl _ _ (by norm_num) rfl,
    ⟨_, "INT32", rfl, ?_, by norm_num, types.2, by unfold NamesType; decide +kernel⟩, int8 4 _ rfl rfl _ _ (by norm_num) rfl,
    int8 5 _ rfl rfl _ _ (by norm_num) rfl, ⟨_, rfl, rfl, rfl⟩, ⟨_, rfl, rfl, rfl⟩⟩
  norm_num

/-- … and the loaded network answers: the features (1/2, −1) give pre-activations 77/4 and −23/8; the first saturates at the
fully connected operator's largest representable value 33/4, and the (here linear) activation is a sixteenth of them. -/
example : ((convert ext en ip m).bind (fun net => (SeqNet.load net).bind (fun s =>
    (s.infer ext (.flt (.vec [1/2, -1]))).map Prod.fst))) = some (.flt (.vec [33 / 64, -23 / 128])) := by
  decide +kernel

end C71Case

end Verif
