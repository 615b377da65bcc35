import Verif.Props.Config
import Verif.Props.Pipeline

/-!
# C63, C64: number formats and shapes in the exported network
-/

namespace Verif
open Spec Keras Config

/-- Two dtype texts name the same number format (they may differ in letter case). -/
def Spec.SameType (a b : String) : Prop := ∃ ty ∈ ["int", "uint", "float"], ∃ n : ℕ, 0 < n ∧ NamesType a ty n ∧ NamesType b ty n

/-- A JSON node whose tensor has the given number format and shape, with (`stored`) or without its integers. -/
def Spec.TensorOf (n : NodeJ) (dtype : String) (shape : List ℕ) (stored : Bool) : Prop :=
  ∃ t, n.tensor = some t ∧ SameType t.dtype dtype ∧ t.shape = shape ∧ t.data.isSome = stored

/-- The dense configuration a layer is entitled to: its own entry if there is one, the default otherwise. -/
def Spec.Configured (c : QuantizerCfg) (name : String) (d : Config.DenseCfg) : Prop :=
  c.specificLayers.lookup name = some (.dense d) ∨ ((∀ e ∈ c.specificLayers, e.1 ≠ name) ∧ d = c.dense)

/-- Activations that get no operator of their own. -/
def Spec.Silent (l : KDense) : Prop :=
  upper l.actName ∈ ["LINEAR".toList, "SOFTMAX".toList, "RELU".toList, "RELU6".toList]

/-- What the operators `ops` of a network look like from the node `cur` on, when the layers `ls` are left to run on rows of
width `n`: one fully-connected operator per dense layer, one activation operator if it has one, a final dequantization;
each reading the node the one before wrote.  Every tensor has the format configured for it.  All shapes are the natural ones
without batch, *except* the output of a fully-connected operator, which carries the width of the layer's input. -/
def Spec.Layout (c : QuantizerCfg) : NodeJ → ℕ → List KLayer → List OpJ → Prop
  | cur, _, [], ops => ∃ op, ops = [op] ∧ op.opType = "DEQUANTIZE" ∧ op.inputs = [cur] ∧ op.outputs = []
  | cur, n, .dense l :: ls, ops => ∃ d fc kernel bias out rest, Configured c l.name d ∧ ops = fc :: rest ∧
      fc.opType = "FULLY_CONNECTED" ∧ fc.name = "fully_connected " ++ l.name ∧
      fc.inputs = [cur, kernel, bias] ∧ fc.outputs = [out] ∧
      TensorOf kernel d.kernelDtype [l.units, n] true ∧ TensorOf bias d.biasDtype [l.units] true ∧
      TensorOf out d.biasAddDtype [n] false ∧
      (Silent l → Layout c out l.units ls rest) ∧
      (¬ Silent l → ∃ a act rest', rest = a :: rest' ∧ a.inputs = [out] ∧ a.outputs = [act] ∧
        TensorOf act d.activationDtype [l.units] false ∧ Layout c act l.units ls rest')
  | cur, n, .dropout :: ls, ops => Layout c cur n ls ops
  | cur, n, .input :: ls, ops => Layout c cur n ls ops
  | _, _, _ :: _, _ => False

/-- Dense, dropout and input layers whose shapes fit rows of width `n`. -/
def Spec.Shaped : ℕ → List KLayer → Prop
  | _, [] => True
  | n, .dense l :: ls => ShapeOk l n ∧ Shaped l.units ls
  | n, .dropout :: ls => Shaped n ls
  | n, .input :: ls => Shaped n ls
  | _, _ :: _ => False

namespace Keras

theorem sameType_repr {s : String} {q : GDtype} (h : quantization s = some q) : SameType q.repr s := by
  unfold quantization at h
  cases hg : GDtype.ofString s.toList with
  | error e => rw [hg] at h; simp [Except.toOption] at h
  | ok d =>
    rw [hg] at h
    simp only [Except.toOption, Option.some.injEq] at h
    subst h
    obtain ⟨ty, hty, n, hn, hnm⟩ := (C08_accepts_iff s).mp ⟨d, hg⟩
    refine ⟨ty, hty, n, hn, ?_, hnm⟩
    obtain ⟨d', hd', hr, -⟩ := C08_range s ty n hty hn hnm
    rw [hg] at hd'
    injection hd' with hd'
    subst hd'
    unfold NamesType lowerText
    rw [hr]
    unfold NamesType lowerText at hnm
    unfold lowerText
    rw [List.map_map, ← hnm]
    apply List.map_congr_left
    intro c _
    exact toLower_toLower c

/-- The configuration the pipeline looks up, and the one the layer is entitled to. -/
theorem configured_of {c : QuantizerCfg} {name : String} {d : Keras.DenseCfg} (h : c.forKeras.denseFor name = some d) :
    ∃ e : Config.DenseCfg, Configured c name e ∧ d = e.forKeras := by
  have hd : c.forKeras.denseFor name = ((c.specificLayers.map (fun e => (e.1, e.2.forKeras))).lookup name).getD
    (some c.dense.forKeras) := rfl
  rw [hd] at h
  unfold Configured
  generalize c.specificLayers = sl at h ⊢
  induction sl with
  | nil =>
    simp only [List.map_nil, List.lookup_nil, Option.getD_none, Option.some.injEq] at h
    exact ⟨c.dense, Or.inr ⟨by simp, rfl⟩, h.symm⟩
  | cons e sl ih =>
    obtain ⟨k, v⟩ := e
    simp only [List.map_cons, List.lookup_cons] at h ⊢
    by_cases hk : name = k
    · subst hk
      simp only [beq_self_eq_true, Option.getD_some] at h ⊢
      cases v with
      | dense e =>
        simp only [LayerCfg.forKeras, Option.some.injEq] at h
        exact ⟨e, Or.inl rfl, h.symm⟩
      | quantize _ => simp [LayerCfg.forKeras] at h
      | dequantize _ => simp [LayerCfg.forKeras] at h
    · have hb : (name == k) = false := by simpa using hk
      rw [hb] at h ⊢
      obtain ⟨e, he, hd⟩ := ih h
      refine ⟨e, ?_, hd⟩
      rcases he with he | ⟨he, e2⟩
      · exact Or.inl he
      · refine Or.inr ⟨?_, e2⟩
        intro p hp
        rcases List.mem_cons.mp hp with rfl | hp
        · exact fun hc => hk hc.symm
        · exact he p hp

theorem biasV_length {l : KDense} {n : ℕ} (h : ShapeOk l n) : l.biasV.length = l.units := by
  unfold KDense.biasV
  cases hb : l.bias with
  | none => simp
  | some b => simpa using h.bias b hb

theorem shape_mat {X : List (List ℚ)} {n : ℕ} (hX : X ≠ []) (hn : ∀ x ∈ X, x.length = n) :
    (Arr.mat X).shape.drop 1 = [n] := by
  obtain ⟨x, t, rfl⟩ := List.exists_cons_of_ne_nil hX
  have := hn x (by simp)
  simp [Arr.shape, this]

/-- The JSON node of a node with tensor. -/
theorem tensorOf_node {n : Node} {q : GDtype} {dtype : String} {t : TensorPart} {sh : List ℕ} {ex : Bool}
    (hq : quantization dtype = some q) (hn : n.quant = q) (ht : n.tensor = some t)
    (hs : (if ex then t.fp.shape.drop 1 else t.fp.shape) = sh)
    (hd : ex = false → (Arr.ofShape t.fp.shape t.quantized).isSome) : TensorOf (nodeJson n ex) dtype sh (!ex) := by
  refine ⟨{ data := if ex then none else Arr.ofShape t.fp.shape t.quantized
            shape := if ex then t.fp.shape.drop 1 else t.fp.shape
            dtype := n.quant.repr }, ?_, ?_, hs, ?_⟩
  · simp [nodeJson, ht]
  · rw [hn]; exact sameType_repr hq
  · cases ex
    · simpa using hd rfl
    · simp

theorem layout_of_chain {W : World} {c : QuantizerCfg} {A : Arr ℚ} {r : Ref} {ls : List KLayer} {ops : List Keras.Op}
    {o : Ref} {Z : Arr ℚ} (h : Chain W c.forKeras A r ls ops o Z) : ∀ {X : List (List ℚ)} {n : ℕ}, A = .mat X → X ≠ [] →
    (∀ x ∈ X, x.length = n) → Shaped n ls →
    Layout c (nodeJson (W.nodes r.id) r.exclude) n ls ((ops ++ [dequantOp o]).map (opJson W)) := by
  induction h with
  | nil A r =>
    intro X n _ _ _ _
    exact ⟨_, rfl, rfl, rfl, rfl⟩
  | skip hk h ih =>
    intro X n hA hX hn hs
    rcases hk with rfl | rfl
    · exact ih hA hX hn hs
    · exact ih hA hX hn hs
  | @plain A r l ls ops o Z d qk qa qba qb kn pre dd p k hr hk hc hf hs hout h ih =>
    intro X n hA hX hn hsh
    subst hA
    obtain ⟨h1, h2⟩ := hsh
    obtain ⟨e, he, rfl⟩ := configured_of hc
    obtain ⟨t, ht, htsh⟩ := kernelNode_shape hf.kernelNode
    have hq : kn.quant = qk := by
      have := hf.kernelNode
      unfold KDense.kernelNode at this
      simp only [Option.bind_eq_bind, Option.bind_eq_some_iff, Option.some.injEq] at this
      obtain ⟨p, -, lo, -, hi, -, rfl⟩ := this
      rfl
    have hpre := hf.preEq
    rw [pre_eq h1 X hn, Option.some.injEq] at hpre
    refine ⟨e, opJson W (fcAt k l r), nodeJson (W.nodes k) false, nodeJson (W.nodes (k + 1)) false,
      nodeJson (W.nodes (k + 2)) true, _, he, rfl, rfl, rfl, rfl, rfl, ?_, ?_, ?_, ?_, ?_⟩
    · rw [hf.kernel]
      refine tensorOf_node hf.kernelDtype hq ht (by rw [htsh, h1.inputs]; rfl) ?_
      rw [htsh]; intro _; rfl
    · rw [hf.bias]
      exact tensorOf_node hf.biasDtype rfl rfl (by rw [biasV_length h1]; rfl) (fun _ => rfl)
    · rw [hout]
      exact tensorOf_node hf.biasAddDtype rfl rfl (shape_mat hX hn) (fun hc => by cases hc)
    · intro _
      refine ih hpre.symm ?_ ?_ h2
      · simpa [preActivations] using hX
      · intro y hy
        obtain ⟨x, -, rfl⟩ := List.mem_map.mp hy
        simp
    · intro hns
      exact absurd hs hns
  | @act A r l ls ops o Z d qk qa qba qb kn pre dd p a k hr hk hc hf hs ha hout hact h ih =>
    intro X n hA hX hn hsh
    subst hA
    obtain ⟨h1, h2⟩ := hsh
    obtain ⟨e, he, rfl⟩ := configured_of hc
    obtain ⟨t, ht, htsh⟩ := kernelNode_shape hf.kernelNode
    have hq : kn.quant = qk := by
      have := hf.kernelNode
      unfold KDense.kernelNode at this
      simp only [Option.bind_eq_bind, Option.bind_eq_some_iff, Option.some.injEq] at this
      obtain ⟨p, -, lo, -, hi, -, rfl⟩ := this
      rfl
    have hpre := hf.preEq
    rw [pre_eq h1 X hn, Option.some.injEq] at hpre
    subst hpre
    have g1 : (preActivations l X).map (fun r => r.map l.act) ≠ [] := by simpa [preActivations] using hX
    have g2 : ∀ y ∈ (preActivations l X).map (fun r => r.map l.act), y.length = l.units := by
      intro y hy
      obtain ⟨x, hx, rfl⟩ := List.mem_map.mp hy
      obtain ⟨x', -, rfl⟩ := List.mem_map.mp hx
      simp
    refine ⟨e, opJson W (fcAt k l r), nodeJson (W.nodes k) false, nodeJson (W.nodes (k + 1)) false,
      nodeJson (W.nodes (k + 2)) true, _, he, rfl, rfl, rfl, rfl, rfl, ?_, ?_, ?_, ?_, ?_⟩
    · rw [hf.kernel]
      refine tensorOf_node hf.kernelDtype hq ht (by rw [htsh, h1.inputs]; rfl) ?_
      rw [htsh]; intro _; rfl
    · rw [hf.bias]
      exact tensorOf_node hf.biasDtype rfl rfl (by rw [biasV_length h1]; rfl) (fun _ => rfl)
    · rw [hout]
      cases l.isLut
      · exact tensorOf_node hf.biasAddDtype rfl rfl (shape_mat hX hn) (fun hc => by cases hc)
      · exact tensorOf_node hf.biasAddDtype rfl rfl (shape_mat hX hn) (fun hc => by cases hc)
    · intro hns
      exact absurd hns hs
    · intro _
      refine ⟨opJson W (actAt k l), nodeJson (W.nodes (k + 3)) true, _, rfl, rfl, rfl, ?_, ?_⟩
      · rw [hact]
        exact tensorOf_node hf.activationDtype rfl rfl (shape_mat g1 g2) (fun hc => by cases hc)
      · exact ih rfl g1 g2 h2

end Keras

/-- C63, C64.  Quantizing a dense model on a nonempty calibration batch with rows of width `n` exports a network that starts
with a quantization to the configured input format and the shape of one row, and whose remaining operators are laid out as
`Layout` says: the kernel, bias, fully-connected output and activation output of every layer have exactly the formats
configured for that layer (its own entry, or else the default), and the shapes listed there. -/
theorem C63_layout (ext : Ext) (c : QuantizerCfg) (X : List (List ℚ)) (n : ℕ) (hX : X ≠ []) (hn : ∀ x ∈ X, x.length = n)
    (ls : List KLayer) (hls : Shaped n ls) (w : World) (rs : List QRes)
    (h : quantizeModel ext c.forKeras (.mat X) ls = some (w, rs)) :
    ∃ q rest node, (networkJson w rs).graph = q :: rest ∧ q.opType = "QUANTIZE" ∧ q.inputs = [] ∧ q.outputs = [node] ∧
      TensorOf node c.quantize.dtype [n] false ∧ Layout c node n ls rest := by
  have hnl : ∀ l, KLayer.lstm l ∉ ls := by
    intro l hl
    clear h hn
    induction ls generalizing n with
    | nil => simp at hl
    | cons a ls ih =>
      cases a with
      | dense d => exact ih _ hls.2 (by simpa using hl)
      | lstm d => exact hls
      | dropout => exact ih n hls (by simpa using hl)
      | input => exact ih n hls (by simpa using hl)
      | other => exact hls
  obtain ⟨-, q, p, ops, o, Z, hq, -, hnode, hc, hops⟩ := model_chain hnl h
  refine ⟨opJson w (quantOp ⟨0, true⟩), (ops ++ [dequantOp o]).map (opJson w), nodeJson (w.nodes 0) true, ?_, rfl, rfl, rfl,
    ?_, layout_of_chain hc rfl hX hn hls⟩
  · show (networkOps rs).map (opJson w) = _
    rw [hops]; rfl
  · rw [hnode]
    exact tensorOf_node hq rfl rfl (shape_mat hX hn) (fun hc => by cases hc)


/-- C63 (defaults).  Without any configuration every tensor of the exported network is `int8`, except the biases, which are
`int32`. -/
theorem C63_defaults (ext : Ext) (X : List (List ℚ)) (n : ℕ) (hX : X ≠ []) (hn : ∀ x ∈ X, x.length = n)
    (ls : List KLayer) (hls : Shaped n ls) (w : World) (rs : List QRes)
    (h : quantizeModel ext (QuantizerCfg.forKeras {}) (.mat X) ls = some (w, rs)) :
    ∀ op ∈ (networkJson w rs).graph, ∀ (i : ℕ) (x : NodeJ), (op.inputs ++ op.outputs)[i]? = some x →
      ∃ t, x.tensor = some t ∧ SameType t.dtype (if op.opType = "FULLY_CONNECTED" ∧ i = 2 then "int32" else "int8") := by
  obtain ⟨q, rest, node, hg, -, hqi, hqo, hnode, hL⟩ := C63_layout ext {} X n hX hn ls hls w rs h
  have conf : ∀ {name : String} {d : Config.DenseCfg}, Configured {} name d → d = {} := by
    rintro name d (hc | hc)
    · simp at hc
    · exact hc.2
  have key : ∀ (ls : List KLayer) (cur : NodeJ) (n : ℕ) (ops : List OpJ), Shaped n ls →
      (∃ t, cur.tensor = some t ∧ SameType t.dtype "int8") → Layout {} cur n ls ops →
      ∀ op ∈ ops, ∀ (i : ℕ) (x : NodeJ), (op.inputs ++ op.outputs)[i]? = some x →
      ∃ t, x.tensor = some t ∧ SameType t.dtype (if op.opType = "FULLY_CONNECTED" ∧ i = 2 then "int32" else "int8") := by
    intro ls
    induction ls with
    | nil =>
      rintro cur n ops - hcur ⟨op, rfl, ht, hi, ho⟩ op' hop i x hx
      obtain rfl := List.mem_singleton.mp hop
      rw [hi, ho] at hx
      rw [if_neg (by rw [ht]; intro hc; exact absurd hc.1 (by decide))]
      cases i with
      | zero => simp only [List.append_nil, List.getElem?_cons_zero, Option.some.injEq] at hx; subst hx; exact hcur
      | succ i => simp at hx
    | cons a ls ih =>
      intro cur n ops hs hcur hL
      cases a with
      | lstm _ => exact hs.elim
      | other => exact hs.elim
      | dropout => exact ih cur n ops hs hcur hL
      | input => exact ih cur n ops hs hcur hL
      | dense l =>
        obtain ⟨d, fc, kernel, bias, out, rest, hd, rfl, ht, -, hi, ho, hk, hb, hout, hsil, hact⟩ := hL
        obtain rfl := conf hd
        have hout' : ∃ t, out.tensor = some t ∧ SameType t.dtype "int8" := by
          obtain ⟨t, h1, h2, -⟩ := hout; exact ⟨t, h1, h2⟩
        have hfc : ∀ (i : ℕ) (x : NodeJ), (fc.inputs ++ fc.outputs)[i]? = some x →
            ∃ t, x.tensor = some t ∧ SameType t.dtype (if fc.opType = "FULLY_CONNECTED" ∧ i = 2 then "int32" else "int8") := by
          intro i x hx
          rw [hi, ho] at hx
          match i with
          | 0 =>
            simp only [List.cons_append, List.getElem?_cons_zero, Option.some.injEq] at hx
            subst hx
            rw [if_neg (by omega)]
            exact hcur
          | 1 =>
            simp only [List.cons_append, List.getElem?_cons_succ, List.getElem?_cons_zero, Option.some.injEq] at hx
            subst hx
            rw [if_neg (by omega)]
            obtain ⟨t, h1, h2, -⟩ := hk; exact ⟨t, h1, h2⟩
          | 2 =>
            simp only [List.cons_append, List.getElem?_cons_succ, List.getElem?_cons_zero, Option.some.injEq] at hx
            subst hx
            rw [if_pos ⟨ht, rfl⟩]
            obtain ⟨t, h1, h2, -⟩ := hb; exact ⟨t, h1, h2⟩
          | 3 =>
            simp only [List.cons_append, List.nil_append, List.getElem?_cons_succ, List.getElem?_cons_zero,
              Option.some.injEq] at hx
            subst hx
            rw [if_neg (by omega)]
            exact hout'
          | i + 4 => simp at hx
        by_cases hS : Silent l
        · intro op hop
          rcases List.mem_cons.mp hop with rfl | hop
          · exact hfc
          · exact ih out l.units rest hs.2 hout' (hsil hS) op hop
        · obtain ⟨a, act, rest', rfl, ai, ao, hat, hL'⟩ := hact hS
          have hact' : ∃ t, act.tensor = some t ∧ SameType t.dtype "int8" := by
            obtain ⟨t, h1, h2, -⟩ := hat; exact ⟨t, h1, h2⟩
          intro op hop
          rcases List.mem_cons.mp hop with rfl | hop
          · exact hfc
          rcases List.mem_cons.mp hop with rfl | hop
          · intro i x hx
            rw [ai, ao] at hx
            match i with
            | 0 =>
              simp only [List.cons_append, List.getElem?_cons_zero, Option.some.injEq] at hx
              subst hx
              rw [if_neg (by omega)]
              exact hout'
            | 1 =>
              simp only [List.cons_append, List.nil_append, List.getElem?_cons_succ, List.getElem?_cons_zero,
                Option.some.injEq] at hx
              subst hx
              rw [if_neg (by omega)]
              exact hact'
            | i + 2 => simp at hx
          · exact ih act l.units rest' hs.2 hact' hL' op hop
  have hnode' : ∃ t, node.tensor = some t ∧ SameType t.dtype "int8" := by
    obtain ⟨t, h1, h2, -⟩ := hnode; exact ⟨t, h1, h2⟩
  intro op hop
  rw [hg] at hop
  rcases List.mem_cons.mp hop with rfl | hop
  · intro i x hx
    rw [hqi, hqo] at hx
    cases i with
    | zero =>
      simp only [List.nil_append, List.getElem?_cons_zero, Option.some.injEq] at hx
      subst hx
      rw [if_neg (by omega)]
      exact hnode'
    | succ i => simp at hx
  · exact key ls node n rest hls hnode' hL op hop

/-! ### Calibration along the model -/

namespace Dist

/-- Data that are not all equal: the calibrated range runs from the smallest to the largest of the values and 0. -/
theorem span {a : List ℚ} (hv : ∃ x ∈ a, ∃ y ∈ a, x ≠ y) {q : GDtype} (hq : q.min < q.max) {s : ℚ} {z : ℤ}
    (h : (Dist.build a).quantize q = some (s, z)) :
    ∃ lo ∈ 0 :: a, ∃ hi ∈ 0 :: a, (∀ v ∈ 0 :: a, lo ≤ v ∧ v ≤ hi) ∧ s * (q.max - q.min) = hi - lo := by
  obtain ⟨x, hx, y, hy, hxy⟩ := hv
  have ha : a ≠ [] := List.ne_nil_of_mem hx
  obtain ⟨m, hm, h1, h2, -⟩ := getMin_build a ha 512 (by omega) true
  obtain ⟨M, hM, k1, k2, -⟩ := getMax_build a ha 512 (by omega) true
  obtain ⟨lo, hlo⟩ : ∃ lo, a.min? = some lo := by
    obtain ⟨b, t, rfl⟩ := List.exists_cons_of_ne_nil ha
    simp [List.min?_cons]
  obtain ⟨hi, hhi⟩ : ∃ hi, a.max? = some hi := by
    obtain ⟨b, t, rfl⟩ := List.exists_cons_of_ne_nil ha
    simp [List.max?_cons]
  have l1 := List.min?_eq_some_iff.mp hlo
  have l2 := List.max?_eq_some_iff.mp hhi
  have hne : lo ≠ hi := by
    intro hc
    have := l1.2 x hx; have := l1.2 y hy; have := l2.2 x hx; have := l2.2 y hy
    exact hxy (by linarith)
  have hout : outer a = (lo, hi) := by
    unfold outer
    rw [hlo, hhi]
    simp only [if_neg hne]
  rw [hout] at h2 k2
  have e1 : m = lo := le_antisymm (h1 lo l1.1) h2
  have e2 : M = hi := le_antisymm k2 (k1 hi l2.1)
  have hlt : lo < hi := lt_of_le_of_ne (l1.2 hi l2.1) hne
  subst e1 e2
  have hlt' : min m 0 < max M 0 := lt_of_le_of_lt (min_le_left _ _) (lt_of_lt_of_le hlt (le_max_left _ _))
  have hcal : calLo q false = q.min := rfl
  rw [Dist.quantize_eq _ q false m M hm hM hlt' (by rw [hcal]; exact hq), hcal, Option.some.injEq, Prod.mk.injEq] at h
  refine ⟨min m 0, ?_, max M 0, ?_, ?_, ?_⟩
  · rcases min_choice m 0 with e | e <;> rw [e]
    · exact List.mem_cons_of_mem _ l1.1
    · exact List.mem_cons_self
  · rcases max_choice M 0 with e | e <;> rw [e]
    · exact List.mem_cons_of_mem _ l2.1
    · exact List.mem_cons_self
  · intro v hv
    rcases List.mem_cons.mp hv with rfl | hv
    · exact ⟨min_le_right _ _, le_max_right _ _⟩
    · exact ⟨le_trans (min_le_left _ _) (l1.2 v hv), le_trans (l2.2 v hv) (le_max_left _ _)⟩
  · rw [← h.1]
    have : (0 : ℚ) < (q.max : ℚ) - q.min := by
      have : (q.min : ℚ) < q.max := by exact_mod_cast hq
      linarith
    field_simp

end Dist

/-- C63, false reading.  The table of a tanh or sigmoid layer stores codes of the *bias-add* format although its output
is read in the activation format.  With an activation format wider than the bias-add format (`int N`, `int M`, `M < N`),
some value of the calibrated range (0 or an activated calibration value) is missed by every table entry, by at least
`(2^N - 2^M) / 2` steps: most of the range is out of reach, for every input. -/
theorem C63_narrow_table (w w' : World) (c : Keras.DenseCfg) (l : KDense) (prev r : QRes) (n : ℕ) (hsh : ShapeOk l n)
    (X : List (List ℚ)) (hw : ∀ x ∈ X, x.length = n) (hd : prev.data = .mat X) (hin : ∀ i, prev.out = some i → i.id < w.next)
    (h : l.quantize w c prev = some (w', r)) (hact : upper l.actName ∈ ["TANH".toList, "SIGMOID".toList])
    (M N : ℕ) (hM : 0 < M) (hMN : M < N) (hN : N ≤ 32) (hb : NamesType c.biasAddDtype "int" M)
    (ha : NamesType c.activationDtype "int" N)
    (hvar : ∃ x ∈ (handedOn l X).flatten, ∃ y ∈ (handedOn l X).flatten, x ≠ y) :
    ∃ fc a o out table s z, r.ops = [fc, a] ∧ (opJson w' fc).outputs = [o] ∧ (opJson w' a).inputs = [o] ∧
      (opJson w' a).outputs = [out] ∧ (o.lut.bind LutJ.lut) = some table ∧ out.scale = some s ∧ out.zeroPoint = some z ∧
      0 < s ∧ ∃ v ∈ 0 :: (handedOn l X).flatten, ∀ e ∈ table, s * ((2 ^ N - 2 ^ M) / 2) ≤ |real z s e - v| := by
  obtain ⟨qk, qa, qba, qb, input, kn, pre, d, p, -, hqa, hqba, -, hi, -, hpre, -, -, -, hr⟩ := l.quantize_spec h
  rw [hd, pre_eq hsh X hw] at hpre
  injection hpre with hpre
  subst hpre
  have hns : upper l.actName ∉ skipFunctions := by
    rcases List.mem_cons.mp hact with e | e
    · rw [e]; decide
    · rw [List.mem_singleton.mp e]; decide
  have hlut : l.isLut = true := by
    unfold KDense.isLut
    exact decide_eq_true hact
  have hh : handedOn l X = (preActivations l X).map (fun r => r.map l.act) := by
    unfold handedOn
    rw [if_neg (show _ ∉ [_, _, _, _] from hns)]
  rw [quantization_of_names (by simp) hM hb, Option.some.injEq] at hqba
  rw [quantization_of_names (by simp) (by omega) ha, Option.some.injEq] at hqa
  subst hqba hqa
  rcases hr with ⟨hs, -, -⟩ | ⟨-, a, hcal, rfl, rfl⟩
  · exact absurd hs hns
  obtain ⟨s, z⟩ := a
  have hfl : ((Arr.mat (preActivations l X)).map l.act).flat = (handedOn l X).flatten := by rw [hh]; rfl
  rw [hfl] at hcal
  have hmM : (dtypeOf "int" M).min = -(2 ^ (M - 1)) := by simp [dtypeOf]
  have hxM : (dtypeOf "int" M).max = 2 ^ (M - 1) - 1 := by simp [dtypeOf]
  have hmN : (dtypeOf "int" N).min = -(2 ^ (N - 1)) := by simp [dtypeOf]
  have hxN : (dtypeOf "int" N).max = 2 ^ (N - 1) - 1 := by simp [dtypeOf]
  have hpM : (1 : ℤ) ≤ 2 ^ (M - 1) := one_le_pow₀ (by norm_num)
  have hpN : (1 : ℤ) ≤ 2 ^ (N - 1) := one_le_pow₀ (by norm_num)
  have hp31 : (2 : ℤ) ^ (M - 1) ≤ 2 ^ 31 := pow_le_pow_right₀ (by norm_num) (by omega)
  have h2M : (2 : ℚ) ^ M = 2 * 2 ^ (M - 1) := by rw [← pow_succ', Nat.sub_add_cancel (by omega)]
  have h2N : (2 : ℚ) ^ N = 2 * 2 ^ (N - 1) := by rw [← pow_succ', Nat.sub_add_cancel (by omega)]
  have hqN : (dtypeOf "int" N).min < (dtypeOf "int" N).max := by rw [hmN, hxN]; omega
  have hfit : Fits32 (dtypeOf "int" M).min (dtypeOf "int" M).max := by
    rw [hmM, hxM]; exact ⟨by omega, by omega, by omega⟩
  have hne : (handedOn l X).flatten ≠ [] := by
    obtain ⟨x, hx, -⟩ := hvar
    exact List.ne_nil_of_mem hx
  have hspos : 0 < s := by
    obtain ⟨s', z', e, h0, -⟩ := C29_valid_parameters (handedOn l X).flatten hne 512 (by omega) true (dtypeOf "int" N) false
      (show (dtypeOf "int" N).min < _ from hqN)
    change (Dist.build (handedOn l X).flatten).quantize (dtypeOf "int" N) = some (s', z') at e
    rw [hcal, Option.some.injEq, Prod.mk.injEq] at e
    rw [e.1]; exact h0
  have hfc := fcWorld_nodes w l input kn qb (dtypeOf "int" M) p prev.data (hin _ hi)
  have hfn := fcWorld_next w l input kn qb (dtypeOf "int" M) p prev.data
  obtain ⟨F, hF⟩ : ∃ F, F = fcWorld w l input kn qb (dtypeOf "int" M) p prev.data := ⟨_, rfl⟩
  rw [← hF] at hfc hfn
  rw [← hF, hlut, if_pos rfl]
  have hn2 : (F.nodes (w.next + 2)) = (Node.base p.1 p.2 (dtypeOf "int" M)).withTensor prev.data.toFArr := by
    rw [hfc, if_pos rfl]
  obtain ⟨W, hW⟩ : ∃ W, W = (F.setNode (w.next + 2) ((F.nodes (w.next + 2)).withLut l.act s z)).alloc
    ((Node.base s z (dtypeOf "int" N)).withTensor ((Arr.mat (preActivations l X)).map l.act).toFArr) := ⟨_, rfl⟩
  have hWn : ∀ j, W.nodes j = if j = w.next + 3
      then (Node.base s z (dtypeOf "int" N)).withTensor ((Arr.mat (preActivations l X)).map l.act).toFArr
      else if j = w.next + 2 then (F.nodes (w.next + 2)).withLut l.act s z else F.nodes j := by
    intro j
    rw [hW, World.alloc_nodes, World.setNode_nodes]
    have : (F.setNode (w.next + 2) ((F.nodes (w.next + 2)).withLut l.act s z)).next = w.next + 3 := hfn
    rw [this]
  have hW2 : W.nodes (w.next + 2) = ((Node.base p.1 p.2 (dtypeOf "int" M)).withTensor prev.data.toFArr).withLut l.act s z := by
    rw [hWn, if_neg (by omega), if_pos rfl, hn2]
  have hW3 : W.nodes (w.next + 3) =
      (Node.base s z (dtypeOf "int" N)).withTensor ((Arr.mat (preActivations l X)).map l.act).toFArr := by
    rw [hWn, if_pos rfl]
  dsimp only
  rw [← hW]
  obtain ⟨lo, hlo, hi', hhi, -, hsp⟩ := Dist.span hvar hqN hcal
  refine ⟨fcOp w l input, actOp w l, nodeJson (W.nodes (w.next + 2)) true, nodeJson (W.nodes (w.next + 3)) true,
    (NodeLUT.init (dtypeOf "int" M) l.act p.1 p.2 s z).lut, s, z, rfl, rfl, rfl, rfl, ?_, ?_, ?_, hspos, ?_⟩
  · rw [hW2]; rfl
  · rw [hW3]; rfl
  · rw [hW3]; rfl
  · have hrange : ∀ e ∈ (NodeLUT.init (dtypeOf "int" M) l.act p.1 p.2 s z).lut,
        -(2 : ℚ) ^ (M - 1) ≤ e ∧ (e : ℚ) ≤ 2 ^ (M - 1) - 1 := by
      intro e he
      have hl : (NodeLUT.init (dtypeOf "int" M) l.act p.1 p.2 s z).lut = Quantization.quantizeArray (dtypeOf "int" M)
          (Quantization.floatActivation (dtypeOf "int" M) l.act p.1 p.2) z s
          (some ((Quantization.floatActivation (dtypeOf "int" M) l.act p.1 p.2).map (fun y => (baseRounding y s : ℚ)))) := rfl
      rw [hl] at he
      have := C01_quantize_in_range (dtypeOf "int" M) hfit _ _ _ hspos.ne' _ e he
      rw [hmM, hxM] at this
      exact ⟨by exact_mod_cast this.1, by exact_mod_cast this.2⟩
    rw [hmN, hxN] at hsp
    push_cast at hsp
    by_contra hcon
    push Not at hcon
    obtain ⟨e1, he1, g1⟩ := hcon lo hlo
    obtain ⟨e2, he2, g2⟩ := hcon hi' hhi
    obtain ⟨a1, a2⟩ := hrange e1 he1
    obtain ⟨b1, b2⟩ := hrange e2 he2
    have g1' := abs_lt.mp g1
    have g2' := abs_lt.mp g2
    have hle : real z s e2 - real z s e1 ≤ s * (2 ^ M - 1) := by
      have : real z s e2 - real z s e1 = s * ((e2 : ℚ) - e1) := by unfold real; push_cast; ring
      rw [this, h2M]
      exact mul_le_mul_of_nonneg_left (by linarith) hspos.le
    rw [h2M, h2N] at g1' g2'
    rw [h2M] at hle
    obtain ⟨A, hA⟩ : ∃ A, A = (2 : ℚ) ^ (M - 1) := ⟨_, rfl⟩
    obtain ⟨B, hB⟩ : ∃ B, B = (2 : ℚ) ^ (N - 1) := ⟨_, rfl⟩
    rw [← hA, ← hB] at g1' g2'
    rw [← hA] at hle
    rw [← hB] at hsp
    have x1 : s * ((2 * B - 2 * A) / 2) = s * B - s * A := by ring
    have x2 : s * (2 * A - 1) = 2 * (s * A) - s := by ring
    have x3 : s * (B - 1 - -B) = 2 * (s * B) - s := by ring
    rw [x1] at g1' g2'
    rw [x2] at hle
    rw [x3] at hsp
    linarith [g1'.1, g1'.2, g2'.1, g2'.2]

/-- The codes of a number format. -/
def Spec.codeRange (ty : String) (k : ℕ) : ℤ × ℤ :=
  if ty = "int" then (-(2 ^ (k - 1)), 2 ^ (k - 1) - 1) else (0, 2 ^ k - 1)

/-- The node's scale and zero point fit the data `D` in the given number format: 0 has a code, every value is within half a
step of a code, and (unless all values are equal) the codes span exactly the range of the data and 0. -/
def Spec.Calibrated (n : NodeJ) (dtype : String) (D : List ℚ) : Prop :=
  ∃ s z, n.scale = some s ∧ n.zeroPoint = some z ∧ 0 < s ∧ ∃ ty ∈ ["int", "uint", "float"], ∃ k : ℕ, 0 < k ∧
    NamesType dtype ty k ∧ Code (codeRange ty k).1 (codeRange ty k).2 z ∧
    (∀ v ∈ D, ∃ q, Code (codeRange ty k).1 (codeRange ty k).2 q ∧ |real z s q - v| ≤ s / 2) ∧
    ((∃ x ∈ D, ∃ y ∈ D, x ≠ y) →
      ∃ lo ∈ 0 :: D, ∃ hi ∈ 0 :: D, (∀ v ∈ 0 :: D, lo ≤ v ∧ v ≤ hi) ∧
        s * (((codeRange ty k).2 : ℚ) - (codeRange ty k).1) = hi - lo)

/-- Along the operators of a network, every operator's output node is calibrated on what the float model computes there from
the calibration batch (for relu and relu6 the range is trimmed, see C60). -/
def Spec.CalibratedAlong (c : QuantizerCfg) : List (List ℚ) → List KLayer → List OpJ → Prop
  | _, [], _ => True
  | X, .dense l :: ls, ops => ∃ d fc rest out, Configured c l.name d ∧ ops = fc :: rest ∧ fc.outputs = [out] ∧
      (upper l.actName ∉ ["RELU".toList, "RELU6".toList] →
        Calibrated out d.biasAddDtype (preActivations l X).flatten) ∧
      (Silent l → CalibratedAlong c (preActivations l X) ls rest) ∧
      (¬ Silent l → ∃ a act rest', rest = a :: rest' ∧ a.outputs = [act] ∧
        Calibrated act d.activationDtype ((preActivations l X).map (fun r => r.map l.act)).flatten ∧
        CalibratedAlong c ((preActivations l X).map (fun r => r.map l.act)) ls rest')
  | X, .dropout :: ls, ops => CalibratedAlong c X ls ops
  | X, .input :: ls, ops => CalibratedAlong c X ls ops
  | _, _ :: _, _ => False

namespace Keras

theorem calibrated_of {n : Node} {ex : Bool} {dtype : String} {q : GDtype} {D : List ℚ} {s : ℚ} {z : ℤ}
    (hq : quantization dtype = some q) (hD : D ≠ []) (h : (Dist.build D).quantize q = some (s, z))
    (hs : n.scale = s) (hz : n.zp = z) : Calibrated (nodeJson n ex) dtype D := by
  unfold quantization at hq
  cases hg : GDtype.ofString dtype.toList with
  | error e => rw [hg] at hq; simp [Except.toOption] at hq
  | ok d =>
    rw [hg] at hq
    simp only [Except.toOption, Option.some.injEq] at hq
    subst hq
    obtain ⟨ty, hty, k, hk, hnm⟩ := (C08_accepts_iff dtype).mp ⟨d, hg⟩
    have hdt := ofString_of_names dtype ty k hty hk hnm
    rw [hg] at hdt
    injection hdt with hdt
    have hmin : d.min = (codeRange ty k).1 := by
      rw [hdt]; unfold dtypeOf codeRange; split_ifs <;> rfl
    have hmax : d.max = (codeRange ty k).2 := by
      rw [hdt]; unfold dtypeOf codeRange; split_ifs <;> rfl
    have hlt : d.min < d.max := by
      rw [hmin, hmax]
      unfold codeRange
      have h1 : (0 : ℤ) < 2 ^ (k - 1) := by positivity
      have h2 : (1 : ℤ) < 2 ^ k := by exact_mod_cast Nat.one_lt_two_pow (by omega)
      split_ifs
      · show -(2 ^ (k - 1) : ℤ) < 2 ^ (k - 1) - 1
        omega
      · show (0 : ℤ) < 2 ^ k - 1
        omega
    have hcal : calLo d false = d.min := rfl
    obtain ⟨m, M, hm, hM, hmM, hall⟩ := Dist.min_lt_max D hD 512 (by omega) true
    have hlt' : min m 0 < max M 0 := lt_of_le_of_lt (min_le_left _ _) (lt_of_lt_of_le hmM (le_max_left _ _))
    obtain ⟨c1, c2, c3, c4⟩ := cal_core (min m 0) (max M 0) (min_le_right _ _) (le_max_right _ _) hlt' _ _ hlt
    have hqe := Dist.quantize_eq (Dist.build D) d false m M hm hM hlt' (by rw [hcal]; exact hlt)
    have h' := h
    rw [hqe, hcal, Option.some.injEq, Prod.mk.injEq] at h'
    have hspan := fun hv => Dist.span hv hlt h
    refine ⟨s, z, by rw [← hs]; rfl, by rw [← hz]; rfl, by rw [← h'.1]; exact c1, ty, hty, k, hk, hnm, ?_, ?_, ?_⟩
    · rw [← hmin, ← hmax, ← h'.2]
      exact ⟨by have := roundHalfEven_mono c2; rwa [roundHalfEven_int] at this,
        by have := roundHalfEven_mono c3; rwa [roundHalfEven_int] at this⟩
    · intro v hv
      obtain ⟨a1, a2⟩ := hall v hv
      obtain ⟨b1, b2⟩ := c4 v (le_trans (min_le_left _ _) a1) (le_trans a2 (le_max_left _ _))
      rw [h'.1] at b1 b2 c1
      have hr := abs_le.mp (abs_roundHalfEven_sub_le ((min m 0 * (d.max : ℚ) - max M 0 * d.min) / (min m 0 - max M 0)))
      rw [h'.2] at hr
      have he := clip_round_err hlt.le (v := v / s + z) (by linarith) (by linarith)
      rw [← hmin, ← hmax]
      refine ⟨clip d.min d.max (roundHalfUp (v / s + z)), ⟨clip_ge hlt.le, clip_le⟩, ?_⟩
      have : real z s (clip d.min d.max (roundHalfUp (v / s + z))) - v =
          s * (((clip d.min d.max (roundHalfUp (v / s + z)) : ℤ) : ℚ) - (v / s + z)) := by
        unfold real; field_simp; push_cast; ring
      rw [this, abs_mul, abs_of_pos c1]
      calc s * _ ≤ s * (1 / 2) := mul_le_mul_of_nonneg_left he c1.le
        _ = s / 2 := by ring
    · rw [← hmin, ← hmax]
      exact hspan

theorem calibrated_of_chain {W : World} {c : QuantizerCfg} {A : Arr ℚ} {r : Ref} {ls : List KLayer} {ops : List Keras.Op}
    {o : Ref} {Z : Arr ℚ} (h : Chain W c.forKeras A r ls ops o Z) (tail : List Keras.Op) :
    ∀ {X : List (List ℚ)} {n : ℕ}, A = .mat X → X ≠ [] →
    (∀ x ∈ X, x.length = n) → Shaped n ls → CalibratedAlong c X ls ((ops ++ tail).map (opJson W)) := by
  induction h with
  | nil A r =>
    intro X n _ _ _ _
    trivial
  | skip hk h ih =>
    intro X n hA hX hn hs
    rcases hk with rfl | rfl
    · exact ih hA hX hn hs
    · exact ih hA hX hn hs
  | @plain A r l ls ops o Z d qk qa qba qb kn pre dd p k hr hk hc hf hs hout h ih =>
    intro X n hA hX hn hsh
    subst hA
    obtain ⟨h1, h2⟩ := hsh
    obtain ⟨e, he, rfl⟩ := configured_of hc
    have hpre := hf.preEq
    rw [pre_eq h1 X hn, Option.some.injEq] at hpre
    subst hpre
    refine ⟨e, opJson W (fcAt k l r), _, nodeJson (W.nodes (k + 2)) true, he, rfl, rfl, ?_, ?_, ?_⟩
    · intro hnr
      have ht := hf.trim
      unfold KDense.trim at ht
      rw [if_neg (fun hc => hnr (by rw [hc]; simp)), if_neg (fun hc => hnr (by rw [hc]; simp)), Option.some.injEq] at ht
      subst ht
      rw [hout]
      exact calibrated_of hf.biasAddDtype (preActivations_ne h1 X hX) hf.cal rfl rfl
    · intro _
      refine ih rfl ?_ ?_ h2
      · simpa [preActivations] using hX
      · intro y hy
        obtain ⟨x, -, rfl⟩ := List.mem_map.mp hy
        simp
    · intro hns
      exact absurd hs hns
  | @act A r l ls ops o Z d qk qa qba qb kn pre dd p a k hr hk hc hf hs ha hout hact h ih =>
    intro X n hA hX hn hsh
    subst hA
    obtain ⟨h1, h2⟩ := hsh
    obtain ⟨e, he, rfl⟩ := configured_of hc
    have hpre := hf.preEq
    rw [pre_eq h1 X hn, Option.some.injEq] at hpre
    subst hpre
    have g1 : (preActivations l X).map (fun r => r.map l.act) ≠ [] := by simpa [preActivations] using hX
    have g2 : ∀ y ∈ (preActivations l X).map (fun r => r.map l.act), y.length = l.units := by
      intro y hy
      obtain ⟨x, hx, rfl⟩ := List.mem_map.mp hy
      obtain ⟨x', -, rfl⟩ := List.mem_map.mp hx
      simp
    refine ⟨e, opJson W (fcAt k l r), _, nodeJson (W.nodes (k + 2)) true, he, rfl, rfl, ?_, ?_, ?_⟩
    · intro hnr
      have ht := hf.trim
      unfold KDense.trim at ht
      rw [if_neg (fun hc => hnr (by rw [hc]; simp)), if_neg (fun hc => hnr (by rw [hc]; simp)), Option.some.injEq] at ht
      subst ht
      rw [hout]
      cases l.isLut
      · exact calibrated_of hf.biasAddDtype (preActivations_ne h1 X hX) hf.cal rfl rfl
      · exact calibrated_of hf.biasAddDtype (preActivations_ne h1 X hX) hf.cal rfl rfl
    · intro hns
      exact absurd hns hs
    · intro _
      refine ⟨opJson W (actAt k l), nodeJson (W.nodes (k + 3)) true, _, rfl, rfl, ?_, ?_⟩
      · rw [hact]
        refine calibrated_of hf.activationDtype ?_ ha rfl rfl
        rw [← List.map_flatten]
        simpa using preActivations_ne h1 X hX
      · exact ih rfl g1 g2 h2

end Keras

/-- C64.  After quantizing a dense model on a nonempty batch, the output node of the input quantization, of every
fully-connected operator (other than relu and relu6 ones) and of every activation operator is calibrated on exactly what
the float model computes at that place from the batch – no rectification of relu outputs, see C57. -/
theorem C64_calibrated (ext : Ext) (c : QuantizerCfg) (X : List (List ℚ)) (n : ℕ) (hpos : 0 < n) (hX : X ≠ [])
    (hn : ∀ x ∈ X, x.length = n)
    (ls : List KLayer) (hls : Shaped n ls) (w : World) (rs : List QRes)
    (h : quantizeModel ext c.forKeras (.mat X) ls = some (w, rs)) :
    ∃ q rest node, (networkJson w rs).graph = q :: rest ∧ q.outputs = [node] ∧
      Calibrated node c.quantize.dtype X.flatten ∧ CalibratedAlong c X ls rest := by
  have hnl : ∀ l, KLayer.lstm l ∉ ls := by
    intro l hl
    clear h hn hpos
    induction ls generalizing n with
    | nil => simp at hl
    | cons a ls ih =>
      cases a with
      | dense d => exact ih _ hls.2 (by simpa using hl)
      | lstm d => exact hls
      | dropout => exact ih n hls (by simpa using hl)
      | input => exact ih n hls (by simpa using hl)
      | other => exact hls
  obtain ⟨-, q, p, ops, o, Z, hq, hcal, hnode, hc, hops⟩ := model_chain hnl h
  refine ⟨opJson w (quantOp ⟨0, true⟩), (ops ++ [dequantOp o]).map (opJson w), nodeJson (w.nodes 0) true, ?_, rfl,
    ?_, calibrated_of_chain hc _ rfl hX hn hls⟩
  · show (networkOps rs).map (opJson w) = _
    rw [hops]; rfl
  · rw [hnode]
    refine calibrated_of hq ?_ hcal rfl rfl
    obtain ⟨x, t, rfl⟩ := List.exists_cons_of_ne_nil hX
    have := hn x (by simp)
    intro hc
    have := congrArg List.length hc
    simp at this
    rw [this.1] at *
    simp_all

/-! ### Concrete cases -/

namespace C63Case

/-- The model of C59 has the shapes required, and quantizes under the default configuration. -/
example (ext : Ext) : Shaped 2 C59Case.layers ∧
    ∃ w rs, quantizeModel ext (Config.QuantizerCfg.forKeras {}) (.mat C59Case.X) C59Case.layers = some (w, rs) := by
  refine ⟨⟨⟨rfl, by norm_num, by norm_num, by simp⟩, ⟨rfl, by norm_num, by norm_num, by simp⟩, trivial⟩, ?_⟩
  exact C59Case.succeeds ext

/-- A tanh layer with an `int8` sum and an `int16` activation. -/
def layer : KDense :=
  { name := "a", units := 2, kernel := [[1, 2], [-1, 1 / 2]], bias := none, actName := "tanh", act := fun x => x / 2 }

def wide : Keras.DenseCfg := { activationDtype := "int16" }

/-- The hypotheses of `C63_narrow_table` are met: any state `w` with an input node, calibration data of two rows. -/
example (w : World) (hw : 0 < w.next) :
    let prev : QRes := { data := .mat C59Case.X, out := some ⟨0, true⟩, ops := [] }
    (∃ w' r, layer.quantize w wide prev = some (w', r)) ∧ (∀ i, prev.out = some i → i.id < w.next) ∧
      NamesType wide.biasAddDtype "int" 8 ∧ NamesType wide.activationDtype "int" 16 ∧
      ∃ x ∈ (handedOn layer C59Case.X).flatten, ∃ y ∈ (handedOn layer C59Case.X).flatten, x ≠ y := by
  have hn : NamesType "int16" "int" 16 := by unfold NamesType; decide +kernel
  have h8 : NamesType "int8" "int" 8 := by unfold NamesType; decide +kernel
  have hc : CfgOk wide :=
    ⟨C59Case.cfgOk.kernel, ⟨"int", by simp, 16, by norm_num, hn⟩, C59Case.isType_int8, C59Case.cfgOk.bias, rfl⟩
  refine ⟨?_, ?_, h8, hn, -1 / 2, by decide +kernel, 3 / 2, by decide +kernel, by norm_num⟩
  · obtain ⟨w', r, h, -⟩ := dense_total (l := layer) (n := 2) hc ⟨rfl, by norm_num, by norm_num [layer], by simp [layer]⟩ w
      { data := .mat C59Case.X, out := some ⟨0, true⟩, ops := [] } C59Case.X (by simp [C59Case.X]) (by simp [C59Case.X]) rfl rfl
      ⟨fun h => absurd h (by decide), fun h => absurd h (by decide)⟩
    exact ⟨w', r, h⟩
  · rintro i hi
    simp only [Option.some.injEq] at hi
    subst hi
    exact hw

end C63Case

end Verif
