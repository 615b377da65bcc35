import Verif.Model.Config
import Verif.Props.Loads
import Verif.Lemmas.KernelExport

/-!
# C46: the `tflite()` preset
-/

namespace Verif
open Spec Keras Config

/-- C46 (what changes).  `tflite()` turns on symmetric kernels in the default dense configuration and removes the two
network equalizers; every other option, including all layer-specific entries and a configured layer-wise AdaRound,
stays as it was. -/
theorem C46_fields (c : QuantizerCfg) :
    c.tflite.dense.kernelSymmetric = true ∧ c.tflite.adaRoundNet = none ∧ c.tflite.paramEqualizer = none ∧
    c.tflite.dense.activationDtype = c.dense.activationDtype ∧ c.tflite.dense.biasAddDtype = c.dense.biasAddDtype ∧
    c.tflite.dense.biasDtype = c.dense.biasDtype ∧ c.tflite.dense.kernelDtype = c.dense.kernelDtype ∧
    c.tflite.dense.adaroundOptimizer = c.dense.adaroundOptimizer ∧ c.tflite.dense.lutCfg = c.dense.lutCfg ∧
    c.tflite.quantize = c.quantize ∧ c.tflite.dequantize = c.dequantize ∧
    c.tflite.specificLayers = c.specificLayers := by
  have h : c.dense.adaroundOptimizer.map AdaCfg.tflite = c.dense.adaroundOptimizer := by
    cases c.dense.adaroundOptimizer <;> rfl
  refine ⟨rfl, rfl, rfl, rfl, rfl, rfl, rfl, ?_, rfl, rfl, rfl, rfl⟩
  show (c.dense.adaroundOptimizer.map AdaCfg.tflite).map AdaCfg.tflite = _
  rw [h, h]

/-- C46 (idempotence).  Applying it twice is applying it once. -/
theorem C46_idempotent (c : QuantizerCfg) : c.tflite.tflite = c.tflite := by
  have h : ∀ o : Option AdaCfg, o.map AdaCfg.tflite = o := fun o => by cases o <;> rfl
  unfold QuantizerCfg.tflite DenseCfg.tflite
  simp only [h]
  rfl

/-- C46, the defaults: a configuration built without arguments quantizes to `int8` with `int32` biases, asymmetric
kernels, lookup tables of depth 3 and no equalizer; an equalizer given without arguments stops after 100 retries. -/
theorem C46_defaults :
    ({} : QuantizerCfg) =
      ⟨⟨"int8", "int8", "int32", "int8", false, none, ⟨3⟩⟩, ⟨"int8"⟩, ⟨⟩, none, none, []⟩ ∧
    ({} : ParamEqualizerCfg) = ⟨100⟩ := ⟨rfl, rfl⟩

/-- C46 (a fixed point is exactly a converted configuration).  `tflite()` changes nothing if and only if the kernels
are already symmetric and neither equalizer is configured. -/
theorem C46_fixed_iff (c : QuantizerCfg) :
    c.tflite = c ↔ c.dense.kernelSymmetric = true ∧ c.adaRoundNet = none ∧ c.paramEqualizer = none := by
  obtain ⟨h1, h2, h3, h4, h5, h6, h7, h8, h9, h10, h11, h12⟩ := C46_fields c
  constructor
  · intro h
    rw [h] at h1 h2 h3
    exact ⟨h1, h2, h3⟩
  · rintro ⟨i1, i2, i3⟩
    have hd : c.tflite.dense = c.dense := by
      cases hc : c.tflite.dense
      cases hc' : c.dense
      rw [hc, hc'] at h4 h5 h6 h7 h8 h9
      rw [hc] at h1
      rw [hc'] at i1
      simp only at *
      subst h4 h5 h6 h7 h8 h9 h1 i1
      rfl
    have ext' : ∀ a b : QuantizerCfg, a.dense = b.dense → a.quantize = b.quantize → a.dequantize = b.dequantize →
        a.adaRoundNet = b.adaRoundNet → a.paramEqualizer = b.paramEqualizer → a.specificLayers = b.specificLayers →
        a = b := by
      rintro ⟨⟩ ⟨⟩ e1 e2 - e4 e5 e6
      simp only at e1 e2 e4 e5 e6
      subst e1 e2 e4 e5 e6
      rfl
    exact ext' _ _ hd h10 h11 (h2.trans i2.symm) (h3.trans i3.symm) h12

/-- C46 (effect on the build).  Whatever the loss function and however the equalizers behave, building with a converted
configuration is plain quantization: no equalizer runs. -/
theorem C46_build_plain (ext : Ext) (eq : ParamEqualizerCfg → World → List QRes → Option World)
    (ada : AdaCfg → World → List QRes → Option World) (lossGiven : Bool) (c : QuantizerCfg) (x : Arr ℚ)
    (ls : List KLayer) :
    Config.build ext eq ada lossGiven c.tflite x ls = quantizeModel ext c.tflite.forKeras x ls := by
  unfold Config.build
  cases h : quantizeModel ext c.tflite.forKeras x ls with
  | none => rfl
  | some p =>
    cases lossGiven
    · rfl
    · rfl

/-- Without a loss function the equalizers never run, whatever the configuration. -/
theorem C46_no_loss (ext : Ext) (eq : ParamEqualizerCfg → World → List QRes → Option World)
    (ada : AdaCfg → World → List QRes → Option World) (c : QuantizerCfg) (x : Arr ℚ) (ls : List KLayer) :
    Config.build ext eq ada false c x ls = quantizeModel ext c.forKeras x ls := by
  unfold Config.build
  cases quantizeModel ext c.forKeras x ls <;> rfl

/-- The dense configuration a layer gets from a converted configuration. -/
theorem Config.denseFor_tflite (c : QuantizerCfg) (name : String) (h : ∀ e ∈ c.specificLayers, e.1 ≠ name) :
    c.tflite.forKeras.denseFor name = some c.tflite.dense.forKeras := by
  have : (c.specificLayers.map (fun e => (e.1, e.2.forKeras))).lookup name = none := by
    rw [List.lookup_eq_none_iff]
    intro p hp
    obtain ⟨e, he, rfl⟩ := List.mem_map.mp hp
    simpa using (h e he).symm
  show ((c.specificLayers.map (fun e => (e.1, e.2.forKeras))).lookup name).getD _ = _
  rw [this]; rfl

/-- C46 (per-layer overrides are not converted).  A layer with its own dense entry is quantized with that entry, as
written by the user, before and after the conversion. -/
theorem C46_specific_kept (c : QuantizerCfg) (name : String) (d : Config.DenseCfg)
    (h : c.specificLayers.lookup name = some (.dense d)) :
    c.tflite.forKeras.denseFor name = some d.forKeras ∧ c.forKeras.denseFor name = some d.forKeras := by
  have : ∀ l : List (String × LayerCfg), l.lookup name = some (.dense d) →
      (l.map (fun e => (e.1, e.2.forKeras))).lookup name = some (some d.forKeras) := by
    intro l
    induction l with
    | nil => simp
    | cons e l ih =>
      obtain ⟨k, v⟩ := e
      simp only [List.lookup_cons, List.map_cons]
      split
      · intro h; cases h; rfl
      · exact ih
  constructor
  all_goals
    show ((c.specificLayers.map (fun e => (e.1, e.2.forKeras))).lookup name).getD _ = _
    rw [this _ h]; rfl

/-- C46 (a layer-wise AdaRound survives the conversion).  With one configured in the default dense configuration, any
model with a dense layer that has no entry of its own fails to quantize, converted or not. -/
theorem C46_layer_adaround_fails (ext : Ext) (c : QuantizerCfg) (hc : c.dense.adaroundOptimizer ≠ none) (x : Arr ℚ)
    (ls : List KLayer) (l : KDense) (hl : KLayer.dense l ∈ ls) (hn : ∀ e ∈ c.specificLayers, e.1 ≠ l.name) :
    quantizeModel ext c.tflite.forKeras x ls = none := by
  have hcfg := Config.denseFor_tflite c l.name hn
  have hada : c.tflite.dense.forKeras.adaround = true := by
    show c.tflite.dense.adaroundOptimizer.isSome = true
    rw [(C46_fields c).2.2.2.2.2.2.2.1]
    exact Option.isSome_iff_ne_none.mpr hc
  have hfail : ∀ w prev, layerStep ext c.tflite.forKeras w prev (.dense l) = none := by
    intro w prev
    simp only [layerStep, hcfg, Option.bind_eq_bind, Option.bind_some]
    have : l.quantize w c.tflite.dense.forKeras prev = none := by
      by_contra hne
      obtain ⟨⟨w', r⟩, hr⟩ := Option.ne_none_iff_exists'.mp hne
      unfold KDense.quantize at hr
      rw [hada] at hr
      simp only [Option.bind_eq_bind, Option.bind_eq_some_iff, if_true] at hr
      obtain ⟨_, _, _, _, _, _, _, _, _, _, _, _, _, _, _, _, _, _, h⟩ := hr
      cases h
    rw [this]; rfl
  have hls : ∀ w prev, quantizeLayers ext c.tflite.forKeras w prev ls = none := by
    clear hcfg
    induction ls with
    | nil => simp at hl
    | cons a ls ih =>
      intro w prev
      unfold quantizeLayers
      rcases List.mem_cons.mp hl with h | h
      · rw [← h, hfail]; rfl
      · simp only [Option.bind_eq_bind]
        cases hs : layerStep ext c.tflite.forKeras w prev a with
        | none => rfl
        | some r =>
          obtain ⟨w', q⟩ := r
          cases q with
          | none => exact ih h w' prev
          | some q => simp only [Option.bind_some, ih h w' q]; rfl
  unfold quantizeModel
  cases hi : inputQuantize (World.empty (Node.base 0 0 (intDtype 7))) c.tflite.forKeras.quantizeDtype x with
  | none => rfl
  | some i => simp only [Option.bind_eq_bind, Option.bind_some, hls]; rfl

/-- Every dense layer of a chain has its operator and nodes in it. -/
theorem Keras.Chain.dense_mem {W : World} {cfg : Cfg} {X : Arr ℚ} {r : Ref} {ls : List KLayer} {ops : List Keras.Op}
    {o : Ref} {Z : Arr ℚ} (h : Chain W cfg X r ls ops o Z) {l : KDense} (hl : KLayer.dense l ∈ ls) :
    ∃ X' r' k c qk qa qba qb kn pre d p, cfg.denseFor l.name = some c ∧ FCFacts W c l X' r' k qk qa qba qb kn pre d p ∧
      fcAt k l r' ∈ ops := by
  induction h with
  | nil X r => simp at hl
  | skip hk h ih =>
    rcases List.mem_cons.mp hl with e | e
    · rcases hk with rfl | rfl <;> cases e
    · exact ih e
  | plain k hr hk hc hf hs hout h ih =>
    rcases List.mem_cons.mp hl with e | e
    · cases e
      exact ⟨_, _, k, _, _, _, _, _, _, _, _, _, hc, hf, by simp⟩
    · obtain ⟨X', r', k', c', a1, a2, a3, a4, a5, a6, a7, a8, h1, h2, h3⟩ := ih e
      exact ⟨X', r', k', c', a1, a2, a3, a4, a5, a6, a7, a8, h1, h2, by simp [h3]⟩
  | act k hr hk hc hf hs ha hout hact h ih =>
    rcases List.mem_cons.mp hl with e | e
    · cases e
      exact ⟨_, _, k, _, _, _, _, _, _, _, _, _, hc, hf, by simp⟩
    · obtain ⟨X', r', k', c', a1, a2, a3, a4, a5, a6, a7, a8, h1, h2, h3⟩ := ih e
      exact ⟨X', r', k', c', a1, a2, a3, a4, a5, a6, a7, a8, h1, h2, by simp [h3]⟩

/-- C46 (effect on the exported kernels).  Under a converted configuration with kernel dtype `intN`, every dense layer
without an entry of its own exports a kernel with zero point 0, codes between `-(2^(N-1)-1)` and `2^(N-1)-1` (never the
lowest code), each representing its weight within half a step. -/
theorem C46_symmetric_kernels (ext : Ext) (c : QuantizerCfg) (x : Arr ℚ) (ls : List KLayer)
    (hls : ∀ l, KLayer.lstm l ∉ ls) (w : World) (rs : List QRes)
    (h : quantizeModel ext c.tflite.forKeras x ls = some (w, rs))
    (l : KDense) (hl : KLayer.dense l ∈ ls) (hn : ∀ e ∈ c.specificLayers, e.1 ≠ l.name)
    (n : ℕ) (hn2 : 2 ≤ n) (hn32 : n ≤ 32) (hty : NamesType c.dense.kernelDtype "int" n)
    (hu : 0 < l.units) (hk : 0 < l.kernel.length) :
    ∃ op ∈ (networkJson w rs).graph, ∃ node t codes, ∃ s : ℚ, op.opType = "FULLY_CONNECTED" ∧
      op.name = "fully_connected " ++ l.name ∧ op.inputs[1]? = some node ∧ node.zeroPoint = some 0 ∧
      node.scale = some s ∧ 0 < s ∧ node.tensor = some t ∧ t.data = some (.mat codes) ∧ codes.length = l.units ∧
      ∀ j < l.units, ∀ i < l.kernel.length, ∃ q : ℤ, (codes.getD j [])[i]? = some q ∧ |q| ≤ 2 ^ (n - 1) - 1 ∧
        |s * q - (l.kernel.getD i []).getD j 0| ≤ s / 2 := by
  obtain ⟨-, q0, p0, os, o, Z, -, -, -, hc, hops⟩ := model_chain hls h
  obtain ⟨X', r', k, cd, qk, qa, qba, qb, kn, pre, d, p, hcd, hf, hmem⟩ := hc.dense_mem hl
  rw [Config.denseFor_tflite c l.name hn, Option.some.injEq] at hcd
  subst hcd
  have hqk : qk = dtypeOf "int" n := by
    have h1 := hf.kernelDtype
    have h2 : quantization c.dense.kernelDtype = some (dtypeOf "int" n) :=
      quantization_of_names (by simp) (by omega) hty
    change quantization c.dense.kernelDtype = some qk at h1
    rw [h2, Option.some.injEq] at h1
    exact h1.symm
  subst hqk
  have hmin : (dtypeOf "int" n).min = -(2 ^ (n - 1)) := by simp [dtypeOf]
  have hmax : (dtypeOf "int" n).max = 2 ^ (n - 1) - 1 := by simp [dtypeOf]
  have hp2 : (2 : ℤ) ≤ 2 ^ (n - 1) := by
    calc (2 : ℤ) = 2 ^ 1 := by norm_num
      _ ≤ 2 ^ (n - 1) := pow_le_pow_right₀ (by norm_num) (by omega)
  have hp31 : (2 : ℤ) ^ (n - 1) ≤ 2 ^ 31 := pow_le_pow_right₀ (by norm_num) (by omega)
  obtain ⟨s, z, hq, hkn⟩ := kernelNode_eq hf.kernelNode hu hk
  obtain ⟨s', hs', hpos, hall⟩ := C31_symmetric l.kernelT.flatten (kernel_ne hu hk) 512 (by omega) true (dtypeOf "int" n)
    ⟨by omega, by omega, by omega⟩ (by omega) (by omega)
  change (Dist.build l.kernelT.flatten).quantize (dtypeOf "int" n) (some 0) none true = some (s, z) at hq
  rw [hs', Option.some.injEq, Prod.mk.injEq] at hq
  obtain ⟨rfl, rfl⟩ := hq
  refine ⟨opJson w (fcAt k l r'), ?_, nodeJson kn false,
    ⟨some (.mat (l.kernelT.map (fun r => r.map (fun x => Quantization.quantize (dtypeOf "int" n) x 0 s')))),
      [l.units, l.kernel.length], (dtypeOf "int" n).repr⟩,
    l.kernelT.map (fun r => r.map (fun x => Quantization.quantize (dtypeOf "int" n) x 0 s')), s', rfl, rfl, ?_, ?_, ?_,
    hpos, ?_, rfl, ?_, ?_⟩
  · show _ ∈ (networkOps rs).map (opJson w)
    rw [hops]
    exact List.mem_map_of_mem (List.mem_cons_of_mem _ (List.mem_append_left _ hmem))
  · show some (nodeJson (w.nodes k) false) = _
    rw [hf.kernel]
  · rw [hkn, kernel_json]
  · rw [hkn, kernel_json]
  · rw [hkn, kernel_json]
  · simp [kernelT_length]
  · intro j hj i hi
    have hj' : j < l.kernelT.length := by rw [kernelT_length]; exact hj
    have hrow : l.kernelT[j] = l.kernel.map (fun r => r.getD j 0) := by simp [KDense.kernelT]
    have hmem : (l.kernel.getD i []).getD j 0 ∈ l.kernelT.flatten := by
      refine List.mem_flatten.mpr ⟨l.kernelT[j], List.getElem_mem hj', ?_⟩
      rw [hrow]
      refine List.mem_map.mpr ⟨l.kernel[i], List.getElem_mem hi, ?_⟩
      rw [List.getD_eq_getElem?_getD (l := l.kernel), List.getElem?_eq_getElem hi]; rfl
    obtain ⟨e1, e2⟩ := hall _ hmem
    refine ⟨Quantization.quantize (dtypeOf "int" n) ((l.kernel.getD i []).getD j 0) 0 s', ?_, ?_, ?_⟩
    · rw [List.getD_eq_getElem?_getD, List.getElem?_map, List.getElem?_eq_getElem hj']
      simp only [Option.map_some, Option.getD_some, hrow, List.getElem?_map, List.getElem?_eq_getElem hi]
      rw [List.getD_eq_getElem?_getD (l := l.kernel), List.getElem?_eq_getElem hi]; rfl
    · rw [← hmax]; exact e2
    · have : real 0 s' (Quantization.quantize (dtypeOf "int" n) ((l.kernel.getD i []).getD j 0) 0 s') =
          s' * (Quantization.quantize (dtypeOf "int" n) ((l.kernel.getD i []).getD j 0) 0 s' : ℤ) := by
        unfold real; simp
      rw [← this]; exact e1

/-! ### Concrete cases -/

namespace C46Case

/-- A configuration with everything turned on. -/
def full : QuantizerCfg :=
  { dense := { kernelDtype := "int4", adaroundOptimizer := some (.base 7) }
    adaRoundNet := some (.annealer (1 / 10) 25000 100 5000 100), paramEqualizer := some {}
    specificLayers := [("out", .dense { kernelDtype := "int16" }), ("q", .quantize {})] }

/-- The conversion is not the identity, keeps the override, and its result differs from the original in three places. -/
example : full.tflite ≠ full ∧ full.tflite.specificLayers = full.specificLayers ∧
    full.tflite = { full with dense := { full.dense with kernelSymmetric := true }, adaRoundNet := none,
                              paramEqualizer := none } := by
  decide

/-- The hypotheses of `C46_layer_adaround_fails` are met: `full` has a layer-wise AdaRound. -/
example (ext : Ext) (x : Arr ℚ) : quantizeModel ext full.tflite.forKeras x C59Case.layers = none := by
  refine C46_layer_adaround_fails ext full (by decide) x _ _ (List.mem_cons_self) ?_
  decide

/-- The hypotheses of `C46_symmetric_kernels` are met by the model of C59 under the converted default configuration. -/
example (ext : Ext) : (∃ w rs, quantizeModel ext (QuantizerCfg.tflite {}).forKeras (.mat C59Case.X) C59Case.layers =
    some (w, rs)) ∧ NamesType (QuantizerCfg.tflite {}).dense.kernelDtype "int" 8 := by
  have hn : NamesType "int8" "int" 8 := by unfold NamesType; decide +kernel
  have hc : CfgOk { kernelSymmetric := true } :=
    ⟨Or.inl ⟨8, by norm_num, hn⟩, C59Case.isType_int8, C59Case.isType_int8,
      ⟨"int", by simp, 32, by norm_num, by unfold NamesType; decide +kernel⟩, rfl⟩
  refine ⟨C59_quantization_succeeds ext _ C59Case.X 2 (by norm_num) (by simp [C59Case.X]) (by simp [C59Case.X])
    C59Case.isType_int8 _ ?_, hn⟩
  refine ⟨⟨_, rfl, hc⟩, ⟨rfl, by norm_num, by norm_num, by simp⟩, ⟨?_, ?_⟩, ⟨_, rfl, hc⟩,
    ⟨rfl, by norm_num, by norm_num, by simp⟩, ⟨?_, ?_⟩, trivial⟩ <;> intro h <;> exact absurd h (by decide)

end C46Case

end Verif
