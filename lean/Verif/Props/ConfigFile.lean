import Verif.Model.ConfigFile
import Verif.Props.Config

/-!
# C89: configuration files
-/

namespace Verif

open Spec Config Keras

namespace Spec

/-- What a layer-specific entry is after writing and loading the configuration. -/
def reloaded : LayerCfg → LayerCfg
  | .dense d => .dense d
  | _ => .dense {}

/-- A layer-specific entry with another `reduced_depth`. -/
def withDepth (n : ℤ) : LayerCfg → LayerCfg
  | .dense d => .dense { d with lutCfg := ⟨n⟩ }
  | l => l

/-- The keys of the general configuration. -/
def mainKeys : List String :=
  ["dense", "quantize", "dequantize", "ada_round_net", "param_equalizer", "specific_layers"]

/-- The keys of a dense configuration. -/
def denseKeys : List String :=
  ["activation_dtype", "bias_add_dtype", "bias_dtype", "kernel_dtype", "kernel_symmetric", "adaround_optimizer", "lut_cfg"]

end Spec

namespace Config

theorem field_none {α : Type} {o : List (String × JV)} {key : String} (p : JV → Option α) (d : α) (h : o.lookup key = none) :
    field o key p d = some d := by unfold field; rw [h]

theorem field_some {α : Type} {o : List (String × JV)} {key : String} {j : JV} (p : JV → Option α) (d : α)
    (h : o.lookup key = some j) : field o key p d = p j := by unfold field; rw [h]

theorem ada_dump (k : Coerce) (hk : k.Ok) (a : AdaCfg) : parseAda k (dumpAda a) = some (some a) := by
  cases a with
  | annealer a b u s r =>
    show Option.map some ((none <|> ((k.float (.num a)).bind fun a => (k.float (.num b)).bind fun b =>
      (k.int (.int u)).bind fun u => (k.int (.int s)).bind fun s => (k.int (.int r)).bind fun r =>
        some (AdaCfg.annealer a b u s r))) <|> none) = _
    rw [hk.float, hk.float, hk.int, hk.int, hk.int]
    rfl
  | qubo => rfl
  | base r =>
    show Option.map some ((((k.int (.int r)).bind fun r => some (AdaCfg.base r)) <|> none) <|> none) = _
    rw [hk.int]
    rfl

theorem ada_dumpOpt (k : Coerce) (hk : k.Ok) (a : Option AdaCfg) : parseAda k (dumpOpt dumpAda a) = some a := by
  cases a with
  | none => rfl
  | some a => exact ada_dump k hk a

theorem dense_dump (k : Coerce) (hk : k.Ok) (d : Config.DenseCfg) : parseDense k (dumpDense d) = some d := by
  obtain ⟨a, b, c, e, f, g, ⟨h⟩⟩ := d
  show ((k.str (.str a)).bind fun a => (k.str (.str b)).bind fun b => (k.str (.str c)).bind fun c =>
    (k.str (.str e)).bind fun e => (k.bool (.bool f)).bind fun f => (parseAda k (dumpOpt dumpAda g)).bind fun g =>
    ((k.int (.int h)).bind fun h => some (⟨h⟩ : ActivationCfg)).bind fun h =>
      some (⟨a, b, c, e, f, g, h⟩ : Config.DenseCfg)) = _
  rw [hk.str, hk.str, hk.str, hk.str, hk.bool, ada_dumpOpt k hk, hk.int]
  rfl

theorem layer_dump (k : Coerce) (hk : k.Ok) (l : LayerCfg) : parseLayer k (dumpLayer l) = some (reloaded l) := by
  cases l with
  | dense d => simp [parseLayer, dumpLayer, dense_dump k hk, reloaded]
  | quantize q => rfl
  | dequantize q => rfl

theorem layers_dump (k : Coerce) (hk : k.Ok) (ls : List (String × LayerCfg)) :
    (ls.map (fun e => (e.1, dumpLayer e.2))).mapM (fun e => (parseLayer k e.2).map (fun l => (e.1, l))) =
      some (ls.map (fun e => (e.1, reloaded e.2))) := by
  induction ls with
  | nil => rfl
  | cons e ls ih =>
    rw [List.map_cons, List.mapM_cons, layer_dump k hk]
    simp only [Option.map_some, Option.bind_eq_bind, Option.bind_some]
    rw [ih]
    rfl

theorem eq_dump (k : Coerce) (hk : k.Ok) (p : Option ParamEqualizerCfg) :
    parseEqualizer k (dumpOpt (fun p => .obj [("optimizer", .str "base"), ("max_retries", .int p.maxRetries)]) p) = some p := by
  cases p with
  | none => rfl
  | some p =>
    show ((k.int (.int p.maxRetries)).bind fun r => some (some (⟨r⟩ : ParamEqualizerCfg))) = _
    rw [hk.int]
    rfl

/-- The fields of a loaded configuration. -/
theorem load_fields {k : Coerce} {o : List (String × JV)} {c : QuantizerCfg} (h : load k (.obj o) = some c) :
    field o "dense" (parseDense k) {} = some c.dense ∧ field o "quantize" (parseQuantize k) {} = some c.quantize ∧
    field o "dequantize" parseDequantize {} = some c.dequantize ∧ field o "ada_round_net" (parseAda k) none = some c.adaRoundNet ∧
    field o "param_equalizer" (parseEqualizer k) none = some c.paramEqualizer ∧
    field o "specific_layers" (parseLayers k) [] = some c.specificLayers := by
  unfold load at h
  simp only [Option.bind_eq_bind, Option.bind_eq_some_iff, Option.some.injEq] at h
  obtain ⟨_, h1, _, h2, _, h3, _, h4, _, h5, _, h6, rfl⟩ := h
  exact ⟨h1, h2, h3, h4, h5, h6⟩

theorem dense_ada {k : Coerce} {d : List (String × JV)} {c : Config.DenseCfg} {j : JV} (h : parseDense k (.obj d) = some c)
    (ha : d.lookup "adaround_optimizer" = some j) : parseAda k j = some c.adaroundOptimizer := by
  unfold parseDense at h
  simp only [Option.bind_eq_bind, Option.bind_eq_some_iff, Option.some.injEq] at h
  obtain ⟨_, _, _, _, _, _, _, _, _, _, _, h, _, _, rfl⟩ := h
  rw [field_some _ _ ha] at h
  exact h

theorem lookup_layers {k : Coerce} (name : String) (j : JV) : ∀ (L : List (String × JV)) (r : List (String × LayerCfg)),
    L.mapM (fun e => (parseLayer k e.2).map (fun l => (e.1, l))) = some r → L.lookup name = some j →
    ∃ l, parseLayer k j = some l ∧ r.lookup name = some l := by
  intro L
  induction L with
  | nil => intro r _ h; simp at h
  | cons e L ih =>
    intro r hr h
    rw [List.mapM_cons] at hr
    simp only [Option.bind_eq_bind, Option.bind_eq_some_iff, Option.map_eq_some_iff] at hr
    obtain ⟨_, ⟨l, hl, rfl⟩, s, hs, hr⟩ := hr
    have hr' : (e.1, l) :: s = r := by simpa using hr
    subst hr'
    obtain ⟨n, v⟩ := e
    rw [List.lookup_cons] at h ⊢
    cases hb : (name == n) with
    | true =>
      rw [hb] at h
      simp only [Option.some.injEq] at h
      subst h
      exact ⟨l, hl, rfl⟩
    | false =>
      rw [hb] at h
      exact ih s hs h

theorem lookup_forKeras (name : String) (l : LayerCfg) (r : List (String × LayerCfg)) (h : r.lookup name = some l) :
    (r.map (fun e => (e.1, e.2.forKeras))).lookup name = some l.forKeras := by
  induction r with
  | nil => simp at h
  | cons e r ih =>
    obtain ⟨n, v⟩ := e
    rw [List.map_cons, List.lookup_cons]
    rw [List.lookup_cons] at h
    cases hb : (name == n) with
    | true => rw [hb] at h; simp only [Option.some.injEq] at h; subst h; rfl
    | false => rw [hb] at h; exact ih h

theorem quantizeModel_none (ext : Ext) (cfg : Cfg) (x : Arr ℚ) (ls : List KLayer) (l : KDense) (hl : KLayer.dense l ∈ ls)
    (hc : cfg.denseFor l.name = none) : quantizeModel ext cfg x ls = none := by
  have hls : ∀ w prev, quantizeLayers ext cfg w prev ls = none := by
    induction ls with
    | nil => simp at hl
    | cons a ls ih =>
      intro w prev
      unfold quantizeLayers
      rcases List.mem_cons.mp hl with h | h
      · rw [← h]
        simp only [layerStep, hc, Option.bind_eq_bind, Option.bind_none]
      · simp only [Option.bind_eq_bind]
        cases hs : layerStep ext cfg w prev a with
        | none => rfl
        | some r =>
          obtain ⟨w', q⟩ := r
          cases q with
          | none => exact ih h w' prev
          | some q => simp only [Option.bind_some, ih h w' q]; rfl
  unfold quantizeModel
  cases hi : inputQuantize (World.empty (Node.base 0 0 (intDtype 7))) cfg.quantizeDtype x with
  | none => rfl
  | some i => simp only [Option.bind_eq_bind, Option.bind_some, hls]; rfl

end Config

/-- The setting `key` of a section: the default if it is absent, the value of the file if it has the right type. -/
def Spec.Given {α : Type} (s : List (String × JV)) (key : String) (mk : α → JV) (default v : α) : Prop :=
  (s.lookup key = none → v = default) ∧ ∀ x, s.lookup key = some (mk x) → v = x

/-- C89 (round trip).  Writing a configuration and loading it changes nothing except layer-specific entries that are not
dense: these come back as the default dense configuration. -/
theorem C89_roundtrip (k : Coerce) (hk : k.Ok) (c : QuantizerCfg) :
    load k (dump c) = some { c with specificLayers := c.specificLayers.map (fun e => (e.1, reloaded e.2)) } ∧
    (load k (dump c) = some c ↔ ∀ e ∈ c.specificLayers, ∃ d, e.2 = .dense d) := by
  have h1 : load k (dump c) = some { c with specificLayers := c.specificLayers.map (fun e => (e.1, reloaded e.2)) } := by
    obtain ⟨dense, ⟨q⟩, ⟨⟩, ada, eq, sp⟩ := c
    show ((parseDense k (dumpDense dense)).bind fun dense => ((k.str (.str q)).bind fun q => some (⟨q⟩ : QuantizeCfg)).bind
      fun q => (some (⟨⟩ : DequantizeCfg)).bind fun dq => (parseAda k (dumpOpt dumpAda ada)).bind fun ada =>
      (parseEqualizer k (dumpOpt (fun p => .obj [("optimizer", .str "base"), ("max_retries", .int p.maxRetries)]) eq)).bind
      fun eq => ((sp.map (fun e => (e.1, dumpLayer e.2))).mapM (fun e => (parseLayer k e.2).map (fun l => (e.1, l)))).bind
      fun ls => some (⟨dense, q, dq, ada, eq, ls⟩ : QuantizerCfg)) = _
    rw [dense_dump k hk, hk.str, ada_dumpOpt k hk, eq_dump k hk, layers_dump k hk]
    rfl
  refine ⟨h1, ?_⟩
  rw [h1, Option.some.injEq]
  constructor
  · intro h e he
    have hs : c.specificLayers.map (fun e => (e.1, reloaded e.2)) = c.specificLayers := congrArg QuantizerCfg.specificLayers h
    have : c.specificLayers.map (fun e => (e.1, reloaded e.2)) = c.specificLayers.map id := by rw [hs, List.map_id]
    have he' := List.map_inj_left.mp this e he
    have he2 : reloaded e.2 = e.2 := congrArg Prod.snd he'
    cases hl : e.2 with
    | dense d => exact ⟨d, rfl⟩
    | quantize q => rw [hl] at he2; cases he2
    | dequantize q => rw [hl] at he2; cases he2
  · intro h
    have : c.specificLayers.map (fun e => (e.1, reloaded e.2)) = c.specificLayers := by
      conv_rhs => rw [← List.map_id c.specificLayers]
      apply List.map_congr_left
      intro e he
      obtain ⟨d, hd⟩ := h e he
      obtain ⟨n, v⟩ := e
      simp only at hd
      subst hd
      rfl
    rw [this]

/-- C89 (defaults and unknown keys).  A key that is absent leaves its default, and a key the configuration does not know is
ignored: only the six known keys matter. -/
theorem C89_keys (k : Coerce) (o : List (String × JV)) :
    (∀ o', (∀ key ∈ mainKeys, o.lookup key = o'.lookup key) → load k (.obj o) = load k (.obj o')) ∧
    ((∀ key ∈ mainKeys, o.lookup key = none) → load k (.obj o) = some {}) ∧
    ∀ c, load k (.obj o) = some c →
      (o.lookup "dense" = none → c.dense = {}) ∧ (o.lookup "quantize" = none → c.quantize = {}) ∧
      (o.lookup "ada_round_net" = none → c.adaRoundNet = none) ∧
      (o.lookup "param_equalizer" = none → c.paramEqualizer = none) ∧
      (o.lookup "specific_layers" = none → c.specificLayers = []) := by
  refine ⟨?_, ?_, ?_⟩
  · intro o' h
    have e : ∀ {α : Type} (key : String) (p : JV → Option α) (d : α), key ∈ mainKeys → field o key p d = field o' key p d := by
      intro α key p d hm
      unfold field; rw [h key hm]
    unfold load
    simp only [e "dense" (parseDense k) {} (by decide), e "quantize" (parseQuantize k) {} (by decide),
      e "dequantize" parseDequantize {} (by decide), e "ada_round_net" (parseAda k) none (by decide),
      e "param_equalizer" (parseEqualizer k) none (by decide), e "specific_layers" (parseLayers k) [] (by decide)]
  · intro h
    unfold load
    simp only [field_none _ _ (h "dense" (by decide)), field_none _ _ (h "quantize" (by decide)),
      field_none _ _ (h "dequantize" (by decide)), field_none _ _ (h "ada_round_net" (by decide)),
      field_none _ _ (h "param_equalizer" (by decide)), field_none _ _ (h "specific_layers" (by decide)), Option.bind_eq_bind,
      Option.bind_some]
  · intro c hc
    obtain ⟨h1, h2, -, h4, h5, h6⟩ := load_fields hc
    refine ⟨fun h => ?_, fun h => ?_, fun h => ?_, fun h => ?_, fun h => ?_⟩
    · rw [field_none _ _ h] at h1; exact (Option.some.inj h1).symm
    · rw [field_none _ _ h] at h2; exact (Option.some.inj h2).symm
    · rw [field_none _ _ h] at h4; exact (Option.some.inj h4).symm
    · rw [field_none _ _ h] at h5; exact (Option.some.inj h5).symm
    · rw [field_none _ _ h] at h6; exact (Option.some.inj h6).symm

/-- C89 (what is refused).  A file that is not a mapping, and a file in which a section is not a mapping, are refused; only
the two optional sections may also be null. -/
theorem C89_refused (k : Coerce) (j : JV) (hj : ∀ l, j ≠ .obj l) :
    load k j = none ∧
    (∀ o, ∀ key ∈ ["dense", "quantize", "dequantize", "specific_layers"], o.lookup key = some j → load k (.obj o) = none) ∧
    (j ≠ .null → ∀ o, ∀ key ∈ ["ada_round_net", "param_equalizer"], o.lookup key = some j → load k (.obj o) = none) := by
  have hne : ∀ o : List (String × JV), (∀ c, load k (.obj o) = some c → False) → load k (.obj o) = none := by
    intro o h
    cases hl : load k (.obj o) with
    | none => rfl
    | some c => exact (h c hl).elim
  refine ⟨?_, ?_, ?_⟩
  · cases j with
    | obj l => exact absurd rfl (hj l)
    | _ => rfl
  · intro o key hkey ho
    refine hne o (fun c hc => ?_)
    obtain ⟨h1, h2, h3, -, -, h6⟩ := load_fields hc
    simp only [List.mem_cons, List.not_mem_nil, or_false] at hkey
    rcases hkey with rfl | rfl | rfl | rfl
    · rw [field_some _ _ ho] at h1
      cases j with
      | obj l => exact hj l rfl
      | _ => cases h1
    · rw [field_some _ _ ho] at h2
      cases j with
      | obj l => exact hj l rfl
      | _ => cases h2
    · rw [field_some _ _ ho] at h3
      cases j with
      | obj l => exact hj l rfl
      | _ => cases h3
    · rw [field_some _ _ ho] at h6
      cases j with
      | obj l => exact hj l rfl
      | _ => cases h6
  · intro hnull o key hkey ho
    refine hne o (fun c hc => ?_)
    obtain ⟨-, -, -, h4, h5, -⟩ := load_fields hc
    simp only [List.mem_cons, List.not_mem_nil, or_false] at hkey
    rcases hkey with rfl | rfl
    · rw [field_some _ _ ho] at h4
      cases j with
      | obj l => exact hj l rfl
      | null => exact hnull rfl
      | _ => cases h4
    · rw [field_some _ _ ho] at h5
      cases j with
      | obj l => exact hj l rfl
      | null => exact hnull rfl
      | _ => cases h5

/-- C89 (settings of a section).  In the sections `dense`, `quantize` and `param_equalizer` a setting that is given takes the
value of the file and every other setting its default; an equalizer with another name than `base` is rejected. -/
theorem C89_sections (k : Coerce) (hk : k.Ok) (o s : List (String × JV)) (c : QuantizerCfg) (hc : load k (.obj o) = some c) :
    (o.lookup "dense" = some (.obj s) →
      Given s "activation_dtype" JV.str "int8" c.dense.activationDtype ∧ Given s "bias_add_dtype" JV.str "int8" c.dense.biasAddDtype ∧
      Given s "bias_dtype" JV.str "int32" c.dense.biasDtype ∧ Given s "kernel_dtype" JV.str "int8" c.dense.kernelDtype ∧
      Given s "kernel_symmetric" JV.bool false c.dense.kernelSymmetric ∧
      (s.lookup "adaround_optimizer" = none ∨ s.lookup "adaround_optimizer" = some .null → c.dense.adaroundOptimizer = none) ∧
      (s.lookup "lut_cfg" = none → c.dense.lutCfg.reducedDepth = 3) ∧
      ∀ u, s.lookup "lut_cfg" = some (.obj u) → Given u "reduced_depth" JV.int 3 c.dense.lutCfg.reducedDepth) ∧
    (o.lookup "quantize" = some (.obj s) → Given s "dtype" JV.str "int8" c.quantize.dtype) ∧
    (o.lookup "param_equalizer" = some .null → c.paramEqualizer = none) ∧
    (o.lookup "param_equalizer" = some (.obj s) → ∃ p, c.paramEqualizer = some p ∧ Given s "max_retries" JV.int 100 p.maxRetries ∧
      ∀ n, s.lookup "optimizer" = some (.str n) → n = "base") := by
  obtain ⟨h1, h2, -, -, h5, -⟩ := load_fields hc
  have given : ∀ {α : Type} {t : List (String × JV)} {key : String} {mk : α → JV} {p : JV → Option α} {d v : α},
      field t key p d = some v → (∀ x, p (mk x) = some x) → Given t key mk d v := by
    intro α t key mk p d v h hp
    constructor
    · intro hn
      rw [field_none _ _ hn] at h
      exact (Option.some.inj h).symm
    · intro x hx
      rw [field_some _ _ hx, hp] at h
      exact (Option.some.inj h).symm
  refine ⟨?_, ?_, ?_, ?_⟩
  · intro hs
    rw [field_some _ _ hs] at h1
    simp only [parseDense, Option.bind_eq_bind, Option.bind_eq_some_iff, Option.some.injEq] at h1
    obtain ⟨a, ha, b, hb, b', hb', ke, hke, sy, hsy, ad, had, lu, hlu, e⟩ := h1
    rw [← e]
    refine ⟨given ha hk.str, given hb hk.str, given hb' hk.str, given hke hk.str, given hsy hk.bool, ?_, ?_, ?_⟩
    · rintro (h | h)
      · rw [field_none _ _ h] at had
        exact (Option.some.inj had).symm
      · rw [field_some _ _ h] at had
        exact (Option.some.inj had).symm
    · intro h
      rw [field_none _ _ h] at hlu
      rw [← Option.some.inj hlu]
    · intro u h
      rw [field_some _ _ h] at hlu
      simp only [parseActivation, Option.bind_eq_bind, Option.bind_eq_some_iff, Option.some.injEq] at hlu
      obtain ⟨d, hd, e⟩ := hlu
      rw [← e]
      exact given hd hk.int
  · intro hs
    rw [field_some _ _ hs] at h2
    simp only [parseQuantize, Option.bind_eq_bind, Option.bind_eq_some_iff, Option.some.injEq] at h2
    obtain ⟨d, hd, e⟩ := h2
    rw [← e]
    exact given hd hk.str
  · intro hs
    rw [field_some _ _ hs] at h5
    exact (Option.some.inj h5).symm
  · intro hs
    rw [field_some _ _ hs] at h5
    simp only [parseEqualizer, Option.bind_eq_bind, Option.bind_eq_some_iff, Option.some.injEq] at h5
    obtain ⟨u, hu, r, hr, e⟩ := h5
    refine ⟨⟨r⟩, e.symm, given hr hk.int, ?_⟩
    intro n hn
    rw [field_some _ _ hn] at hu
    by_contra hne
    simp only [literal, if_neg hne] at hu
    cases hu

/-- C89 (optimizer without a name).  A rounding optimizer given without `optimizer` - for the network or, in the `dense`
section, for the layers - is never the annealer, whatever temperatures and steps the file gives: it is the plain search, or,
if `max_retries` is not a number, the QUBO solver. -/
theorem C89_unnamed_optimizer (k : Coerce) (o : List (String × JV)) (c : QuantizerCfg) (hc : load k (.obj o) = some c)
    (a : List (String × JV)) (r : Option AdaCfg)
    (ha : (o.lookup "ada_round_net" = some (.obj a) ∧ r = c.adaRoundNet) ∨
      ∃ d, o.lookup "dense" = some (.obj d) ∧ d.lookup "adaround_optimizer" = some (.obj a) ∧ r = c.dense.adaroundOptimizer)
    (hn : a.lookup "optimizer" = none) :
    (a.lookup "max_retries" = none → r = some (.base 100)) ∧
    ∀ j, a.lookup "max_retries" = some j →
      (∀ n, k.int j = some n → r = some (.base n)) ∧ (k.int j = none → r = some .qubo) := by
  have h : parseAda k (.obj a) = some r := by
    obtain ⟨h1, -, -, h, -, -⟩ := load_fields hc
    rcases ha with ⟨ha, rfl⟩ | ⟨d, hd, ha, rfl⟩
    · rw [field_some _ _ ha] at h; exact h
    · rw [field_some _ _ hd] at h1
      exact dense_ada h1 ha
  have hb : parseBase k (.obj a) = (field a "max_retries" k.int 100).map AdaCfg.base := by
    simp only [parseBase, field_none (literal "base") () hn, Option.bind_eq_bind, Option.bind_some]
    cases field a "max_retries" k.int 100 <;> rfl
  have hq : parseQubo (.obj a) = some .qubo := by
    simp only [parseQubo, field_none (literal "qubo") () hn, Option.bind_eq_bind, Option.bind_some]
  refine ⟨fun hm => ?_, fun j hj => ⟨fun r hr => ?_, fun hr => ?_⟩⟩
  · rw [field_none _ _ hm] at hb
    simp only [parseAda, hb] at h
    simpa using h.symm
  · rw [field_some _ _ hj, hr] at hb
    simp only [parseAda, hb] at h
    simpa using h.symm
  · rw [field_some _ _ hj, hr] at hb
    have hn2 : parseAnnealer k (.obj a) = none := by
      by_contra hne
      obtain ⟨v, hv⟩ := Option.ne_none_iff_exists'.mp hne
      simp only [parseAnnealer, Option.bind_eq_bind, Option.bind_eq_some_iff] at hv
      obtain ⟨_, _, _, _, _, _, _, _, _, _, r, hr', _⟩ := hv
      rw [field_some _ _ hj, hr] at hr'; cases hr'
    simp only [parseAda, hb, hn2, hq] at h
    simpa using h.symm

/-- C89 (named optimizers).  The annealer needs its name; with it, absent settings take their defaults and the others the
values of the file.  A name that is not one of the three is rejected. -/
theorem C89_named_optimizer (k : Coerce) (hk : k.Ok) (o a : List (String × JV)) (n : String)
    (ha : o.lookup "ada_round_net" = some (.obj a)) (hn : a.lookup "optimizer" = some (.str n)) :
    (n ∉ ["base", "annealer", "qubo"] → load k (.obj o) = none) ∧
    ∀ c, load k (.obj o) = some c → (n = "qubo" → c.adaRoundNet = some .qubo) ∧
      (n = "base" → ∃ r, c.adaRoundNet = some (.base r) ∧ (a.lookup "max_retries" = none → r = 100) ∧
        ∀ x, a.lookup "max_retries" = some (.int x) → r = x) ∧
      (n = "annealer" → ∃ t0 t1 u s r, c.adaRoundNet = some (.annealer t0 t1 u s r) ∧
        (a.lookup "steps" = none → s = 5000) ∧ (∀ x, a.lookup "steps" = some (.int x) → s = x) ∧
        (a.lookup "t_min" = none → t0 = 1 / 10) ∧ (∀ x, a.lookup "t_min" = some (.num x) → t0 = x) ∧
        (a.lookup "t_max" = none → t1 = 25000) ∧ (∀ x, a.lookup "t_max" = some (.num x) → t1 = x) ∧
        (a.lookup "updates" = none → u = 100) ∧ (∀ x, a.lookup "updates" = some (.int x) → u = x) ∧
        (a.lookup "max_retries" = none → r = 100) ∧ (∀ x, a.lookup "max_retries" = some (.int x) → r = x)) := by
  have hlit : ∀ m, field a "optimizer" (literal m) () = if n = m then some () else none := by
    intro m; rw [field_some _ _ hn]; rfl
  have hb : n ≠ "base" → parseBase k (.obj a) = none := by
    intro h; simp only [parseBase, hlit, if_neg h, Option.bind_eq_bind, Option.bind_none]
  have han : n ≠ "annealer" → parseAnnealer k (.obj a) = none := by
    intro h; simp only [parseAnnealer, hlit, if_neg h, Option.bind_eq_bind, Option.bind_none]
  have hq : n ≠ "qubo" → parseQubo (.obj a) = none := by
    intro h; simp only [parseQubo, hlit, if_neg h, Option.bind_eq_bind, Option.bind_none]
  constructor
  · intro hmem
    have h1 : n ≠ "base" := fun h => hmem (by simp [h])
    have h2 : n ≠ "annealer" := fun h => hmem (by simp [h])
    have h3 : n ≠ "qubo" := fun h => hmem (by simp [h])
    have hp : parseAda k (.obj a) = none := by
      simp only [parseAda, hb h1, han h2, hq h3]; rfl
    by_contra hne
    obtain ⟨c, hc⟩ := Option.ne_none_iff_exists'.mp hne
    obtain ⟨-, -, -, h, -, -⟩ := load_fields hc
    rw [field_some _ _ ha, hp] at h; cases h
  · intro c hc
    obtain ⟨-, -, -, h, -, -⟩ := load_fields hc
    rw [field_some _ _ ha] at h
    refine ⟨?_, ?_, ?_⟩
    · rintro rfl
      have : parseQubo (.obj a) = some .qubo := by
        simp only [parseQubo, hlit, if_true, Option.bind_eq_bind, Option.bind_some]
      simp only [parseAda, hb (by decide), han (by decide), this] at h
      simpa using h.symm
    · rintro rfl
      simp only [parseAda, han (by decide), hq (by decide)] at h
      cases hv : parseBase k (.obj a) with
      | none => rw [hv] at h; simp at h
      | some v =>
        rw [hv] at h
        have h' : some v = c.adaRoundNet := by simpa using h
        simp only [parseBase, Option.bind_eq_bind, Option.bind_eq_some_iff, Option.some.injEq] at hv
        obtain ⟨_, _, r, hr, rfl⟩ := hv
        refine ⟨r, h'.symm, fun h0 => ?_, fun x hx => ?_⟩
        · rw [field_none _ _ h0] at hr; exact (Option.some.inj hr).symm
        · rw [field_some _ _ hx, hk.int] at hr; exact (Option.some.inj hr).symm
    · rintro rfl
      simp only [parseAda, hb (by decide), hq (by decide)] at h
      cases hv : parseAnnealer k (.obj a) with
      | none => rw [hv] at h; simp at h
      | some v =>
        rw [hv] at h
        have h' : some v = c.adaRoundNet := by simpa using h
        simp only [parseAnnealer, Option.bind_eq_bind, Option.bind_eq_some_iff, Option.some.injEq] at hv
        obtain ⟨_, _, t0, f0, t1, f1, u, f2, s, f3, r, f4, rfl⟩ := hv
        have dflt : ∀ {α : Type} {key : String} {p : JV → Option α} {d v : α}, field a key p d = some v →
            a.lookup key = none → v = d := by
          intro α key p d v hf h0
          rw [field_none _ _ h0] at hf; exact (Option.some.inj hf).symm
        have ints : ∀ {key : String} {d v : ℤ}, field a key k.int d = some v → ∀ x, a.lookup key = some (.int x) → v = x := by
          intro key d v hf x hx
          rw [field_some _ _ hx, hk.int] at hf; exact (Option.some.inj hf).symm
        have nums : ∀ {key : String} {d v : ℚ}, field a key k.float d = some v → ∀ x, a.lookup key = some (.num x) → v = x := by
          intro key d v hf x hx
          rw [field_some _ _ hx, hk.float] at hf; exact (Option.some.inj hf).symm
        exact ⟨t0, t1, u, s, r, h'.symm, dflt f3, ints f3, dflt f0, nums f0, dflt f1, nums f1, dflt f2, ints f2, dflt f4,
          ints f4⟩

/-- C89 (layer-specific entries).  An entry for a layer that has none of the keys of a dense configuration - one meant as a
quantization entry `{dtype: ...}`, say - gives that layer the default dense configuration: neither the entry nor the general
`dense` section counts. -/
theorem C89_foreign_entry (k : Coerce) (o L e : List (String × JV)) (c : QuantizerCfg) (hc : load k (.obj o) = some c)
    (hL : o.lookup "specific_layers" = some (.obj L)) (name : String) (he : L.lookup name = some (.obj e))
    (hno : ∀ key ∈ denseKeys, e.lookup key = none) :
    c.forKeras.denseFor name = some ({} : Config.DenseCfg).forKeras := by
  obtain ⟨-, -, -, -, -, h⟩ := load_fields hc
  rw [field_some _ _ hL] at h
  obtain ⟨l, h1, h2⟩ := lookup_layers name _ L _ h he
  have hd : parseDense k (.obj e) = some {} := by
    simp only [parseDense, field_none _ _ (hno "activation_dtype" (by decide)), field_none _ _ (hno "bias_add_dtype" (by decide)),
      field_none _ _ (hno "bias_dtype" (by decide)), field_none _ _ (hno "kernel_dtype" (by decide)),
      field_none _ _ (hno "kernel_symmetric" (by decide)), field_none _ _ (hno "adaround_optimizer" (by decide)),
      field_none _ _ (hno "lut_cfg" (by decide)), Option.bind_eq_bind, Option.bind_some]
  have hl : l = .dense {} := by
    simp only [parseLayer, hd] at h1
    simpa using h1.symm
  subst hl
  show ((c.specificLayers.map (fun e => (e.1, e.2.forKeras))).lookup name).getD _ = _
  rw [lookup_forKeras name _ _ h2]
  rfl

/-- C89 (broken entries).  A layer-specific entry with a bad value (here: a kernel type that is not a text) and no `dtype` is
not rejected when the file is loaded - it turns into a quantization entry -; quantizing a model that has this layer raises. -/
theorem C89_broken_entry (k : Coerce) (ext : Ext) (o L e : List (String × JV)) (c : QuantizerCfg)
    (hL : o.lookup "specific_layers" = some (.obj L)) (name : String) (he : L.lookup name = some (.obj e)) (j : JV)
    (hj : e.lookup "kernel_dtype" = some j) (hbad : k.str j = none) (hdt : e.lookup "dtype" = none) :
    parseLayer k (.obj e) = some (.quantize {}) ∧
    (load k (.obj o) = some c → ∀ (x : Arr ℚ) (ls : List KLayer) (l : KDense), KLayer.dense l ∈ ls → l.name = name →
      quantizeModel ext c.forKeras x ls = none) := by
  have hd : parseDense k (.obj e) = none := by
    by_contra hne
    obtain ⟨v, hv⟩ := Option.ne_none_iff_exists'.mp hne
    simp only [parseDense, Option.bind_eq_bind, Option.bind_eq_some_iff] at hv
    obtain ⟨_, _, _, _, _, _, r, hr, _⟩ := hv
    rw [field_some _ _ hj, hbad] at hr; cases hr
  have hq : parseQuantize k (.obj e) = some {} := by
    simp only [parseQuantize, field_none _ _ hdt, Option.bind_eq_bind, Option.bind_some]
  have hp : parseLayer k (.obj e) = some (.quantize {}) := by
    simp only [parseLayer, hd, hq]
    rfl
  refine ⟨hp, fun hc x ls l hl hn => ?_⟩
  obtain ⟨-, -, -, -, -, h⟩ := load_fields hc
  rw [field_some _ _ hL] at h
  obtain ⟨v, h1, h2⟩ := lookup_layers name _ L _ h he
  rw [hp, Option.some.injEq] at h1
  subst h1
  apply quantizeModel_none ext _ x ls l hl
  show ((c.specificLayers.map (fun e => (e.1, e.2.forKeras))).lookup l.name).getD _ = _
  rw [hn, lookup_forKeras name _ _ h2]
  rfl

/-- C89 (table depth).  `reduced_depth` has no effect: configurations that differ only there - in the general section or in
the layer-specific entries - quantize every model to the same network. -/
theorem C89_depth_ignored (ext : Ext) (c : QuantizerCfg) (n : ℤ) (f : String → ℤ) (x : Arr ℚ) (ls : List KLayer) :
    quantizeModel ext ({ c with
        dense := { c.dense with lutCfg := ⟨n⟩ }
        specificLayers := c.specificLayers.map (fun e => (e.1, withDepth (f e.1) e.2)) } : QuantizerCfg).forKeras x ls =
      quantizeModel ext c.forKeras x ls := by
  congr 1
  unfold QuantizerCfg.forKeras
  simp only [List.map_map]
  congr 1
  apply List.map_congr_left
  rintro ⟨s, l⟩ _
  cases l <;> rfl

namespace C89Case

/-- A table of conversions that accepts nothing but the declared type. -/
def strict : Coerce where
  str := fun j => match j with
    | .str s => some s
    | _ => none
  bool := fun j => match j with
    | .bool b => some b
    | _ => none
  int := fun j => match j with
    | .int n => some n
    | _ => none
  float := fun j => match j with
    | .num q => some q
    | .int n => some n
    | _ => none

theorem strict_ok : strict.Ok := ⟨fun _ => rfl, fun _ => rfl, fun _ => rfl, fun _ => rfl⟩

/-- A file with annealing settings but no optimizer name, and an entry for the layer `q`. -/
def file : List (String × JV) :=
  [("dense", .obj [("kernel_dtype", .str "int4")]), ("ada_round_net", .obj [("steps", .int 50), ("t_max", .num 10)]),
   ("specific_layers", .obj [("q", .obj [("dtype", .str "int16")])]), ("verbose", .bool true)]

example : load strict (.obj file) = some
    { dense := { kernelDtype := "int4" }, adaRoundNet := some (.base 100), specificLayers := [("q", .dense {})] } := rfl

example : ∃ c, load strict (.obj file) = some c ∧ c.adaRoundNet = some (.base 100) ∧
    c.forKeras.denseFor "q" = some ({} : Config.DenseCfg).forKeras :=
  ⟨_, rfl, (C89_unnamed_optimizer strict file _ rfl _ _ (Or.inl ⟨rfl, rfl⟩) rfl).1 rfl,
    C89_foreign_entry strict file _ _ _ rfl rfl "q" rfl (by decide)⟩

example : load strict (dump ({} : QuantizerCfg).tflite) = some ({} : QuantizerCfg).tflite :=
  (C89_roundtrip strict strict_ok _).2.mpr (by simp [QuantizerCfg.tflite])

/-- A named annealer keeps its settings. -/
def named : List (String × JV) := [("ada_round_net", .obj [("optimizer", .str "annealer"), ("steps", .int 50)])]

example : ∃ c, load strict (.obj named) = some c ∧ c.adaRoundNet = some (.annealer (1 / 10) 25000 100 50 100) :=
  ⟨_, rfl, rfl⟩

/-- The settings of the section `dense` of `file`: the given kernel type, the default bias type. -/
example : ∃ c, load strict (.obj file) = some c ∧ c.dense.kernelDtype = "int4" ∧ c.dense.biasDtype = "int32" := by
  obtain ⟨-, -, hb, hk, -⟩ := (C89_sections strict strict_ok file _ _ rfl).1 rfl
  exact ⟨_, rfl, hk.2 "int4" rfl, hb.1 rfl⟩

/-- A section that is not a mapping. -/
example : load strict (.obj (("dequantize", .bool true) :: file)) = none :=
  (C89_refused strict (.bool true) (fun _ h => nomatch h)).2.1 _ "dequantize" (by decide) rfl

/-- A broken entry loads. -/
def broken : List (String × JV) := [("specific_layers", .obj [("d", .obj [("kernel_dtype", .int 4)])])]

example : ∃ c, load strict (.obj broken) = some c := ⟨_, rfl⟩

end C89Case

end Verif
