import Verif.Model.Config

/-!
# Model of configuration files
(`QuantizerCfg.from_json`, `QuantizerCfg.from_yml`, `.dict()` of `quantizer/itcl_quantizer/config/models/keras.py`,
`quantizer/itcl_quantizer/config/samples/_create_samples.py`)

The parsers of JSON and YAML are not modelled: a file is the value they return, a mapping without repeated keys.
Validation is that of pydantic 2.6.4 (`quantizer/poetry.lock`): a field that is absent takes its default, unknown keys are
ignored, and a union tries its members in order (a mapping is no exact match for a model class, so the first member that
accepts it wins).  How pydantic converts a value of another type (`"3"` to an integer, say) is a parameter.
-/

namespace Verif.Config

/-- What `json.load` and `yaml.safe_load` return (keras.py:138, 144). -/
inductive JV
  | null
  | bool (b : Bool)
  | int (n : ℤ)
  | num (q : ℚ)
  | str (s : String)
  | arr (l : List JV)
  | obj (l : List (String × JV))

/-- pydantic's conversion of scalar values to the declared types `str`, `bool`, `int` and `float`. -/
structure Coerce where
  str : JV → Option String
  bool : JV → Option Bool
  int : JV → Option ℤ
  float : JV → Option ℚ

/-- A value of the declared type is taken as it is. -/
structure Coerce.Ok (c : Coerce) : Prop where
  str : ∀ s, c.str (.str s) = some s
  bool : ∀ b, c.bool (.bool b) = some b
  int : ∀ n, c.int (.int n) = some n
  float : ∀ q, c.float (.num q) = some q

/-- A field of a model: absent means default, present means validated. -/
def field {α : Type} (o : List (String × JV)) (key : String) (parse : JV → Option α) (default : α) : Option α :=
  match o.lookup key with
  | none => some default
  | some j => parse j

/-- `optimizer: Literal[...]` (keras.py:38, 57, 64, 116). -/
def literal (name : String) : JV → Option Unit
  | .str s => if s = name then some () else none
  | _ => none

/-- `RoundingMinimaCfg` (keras.py:63-65). -/
def parseBase (c : Coerce) : JV → Option AdaCfg
  | .obj o => do
    let _ ← field o "optimizer" (literal "base") ()
    let r ← field o "max_retries" c.int 100
    some (.base r)
  | _ => none

/-- `RoundingAnnealerCfg` (keras.py:37-43). -/
def parseAnnealer (c : Coerce) : JV → Option AdaCfg
  | .obj o => do
    let _ ← field o "optimizer" (literal "annealer") ()
    let a ← field o "t_min" c.float (1 / 10)
    let b ← field o "t_max" c.float 25000
    let u ← field o "updates" c.int 100
    let s ← field o "steps" c.int 5000
    let r ← field o "max_retries" c.int 100
    some (.annealer a b u s r)
  | _ => none

/-- `RoundingQUBOCfg` (keras.py:56-57). -/
def parseQubo : JV → Option AdaCfg
  | .obj o => do
    let _ ← field o "optimizer" (literal "qubo") ()
    some .qubo
  | _ => none

/-- `_adround_optimizers | None` (keras.py:73, 89, 124). -/
def parseAda (c : Coerce) : JV → Option (Option AdaCfg)
  | .null => some none
  | j => (((parseBase c j) <|> (parseAnnealer c j)) <|> (parseQubo j)).map some

/-- `ActivationCfg` (keras.py:76-77). -/
def parseActivation (c : Coerce) : JV → Option ActivationCfg
  | .obj o => do
    let d ← field o "reduced_depth" c.int 3
    some ⟨d⟩
  | _ => none

/-- `KerasDenseCfg` (keras.py:83-90). -/
def parseDense (c : Coerce) : JV → Option DenseCfg
  | .obj o => do
    let act ← field o "activation_dtype" c.str "int8"
    let add ← field o "bias_add_dtype" c.str "int8"
    let bias ← field o "bias_dtype" c.str "int32"
    let kernel ← field o "kernel_dtype" c.str "int8"
    let sym ← field o "kernel_symmetric" c.bool false
    let ada ← field o "adaround_optimizer" (parseAda c) none
    let lut ← field o "lut_cfg" (parseActivation c) {}
    some ⟨act, add, bias, kernel, sym, ada, lut⟩
  | _ => none

/-- `QuantizeCfg` (keras.py:103-104). -/
def parseQuantize (c : Coerce) : JV → Option QuantizeCfg
  | .obj o => do
    let d ← field o "dtype" c.str "int8"
    some ⟨d⟩
  | _ => none

/-- `DequantizeCfg` (keras.py:107-108). -/
def parseDequantize : JV → Option DequantizeCfg
  | .obj _ => some ⟨⟩
  | _ => none

/-- `KerasLayer` (keras.py:111). -/
def parseLayer (c : Coerce) (j : JV) : Option LayerCfg :=
  (((parseDense c j).map LayerCfg.dense) <|> ((parseQuantize c j).map LayerCfg.quantize)) <|>
    ((parseDequantize j).map LayerCfg.dequantize)

/-- `ParamEqualizerCfg | None` (keras.py:115-117, 125). -/
def parseEqualizer (c : Coerce) : JV → Option (Option ParamEqualizerCfg)
  | .null => some none
  | .obj o => do
    let _ ← field o "optimizer" (literal "base") ()
    let r ← field o "max_retries" c.int 100
    some (some ⟨r⟩)
  | _ => none

/-- `dict[str, KerasLayer]` (keras.py:126). -/
def parseLayers (c : Coerce) : JV → Option (List (String × LayerCfg))
  | .obj o => o.mapM (fun e => (parseLayer c e.2).map (fun l => (e.1, l)))
  | _ => none

/-- `QuantizerCfg.from_json` and `QuantizerCfg.from_yml` (keras.py:136-146); `none` is an exception. -/
def load (c : Coerce) : JV → Option QuantizerCfg
  | .obj o => do
    let dense ← field o "dense" (parseDense c) {}
    let quantize ← field o "quantize" (parseQuantize c) {}
    let dequantize ← field o "dequantize" parseDequantize {}
    let ada ← field o "ada_round_net" (parseAda c) none
    let eq ← field o "param_equalizer" (parseEqualizer c) none
    let layers ← field o "specific_layers" (parseLayers c) []
    some ⟨dense, quantize, dequantize, ada, eq, layers⟩
  | _ => none

/-- `.dict()` of an AdaRound configuration (keras.py:37-73): every field, the optimizer's name included. -/
def dumpAda : AdaCfg → JV
  | .annealer a b u s r => .obj [("optimizer", .str "annealer"), ("t_min", .num a), ("t_max", .num b), ("updates", .int u),
      ("steps", .int s), ("max_retries", .int r)]
  | .qubo => .obj [("optimizer", .str "qubo")]
  | .base r => .obj [("optimizer", .str "base"), ("max_retries", .int r)]

/-- `None` is written as `null`. -/
def dumpOpt {α : Type} (f : α → JV) : Option α → JV
  | none => .null
  | some a => f a

/-- `.dict()` of a `KerasDenseCfg` (keras.py:83-90). -/
def dumpDense (d : DenseCfg) : JV :=
  .obj [("activation_dtype", .str d.activationDtype), ("bias_add_dtype", .str d.biasAddDtype),
    ("bias_dtype", .str d.biasDtype), ("kernel_dtype", .str d.kernelDtype), ("kernel_symmetric", .bool d.kernelSymmetric),
    ("adaround_optimizer", dumpOpt dumpAda d.adaroundOptimizer),
    ("lut_cfg", .obj [("reduced_depth", .int d.lutCfg.reducedDepth)])]

/-- `.dict()` of the members of `KerasLayer` (keras.py:103-111). -/
def dumpLayer : LayerCfg → JV
  | .dense d => dumpDense d
  | .quantize q => .obj [("dtype", .str q.dtype)]
  | .dequantize _ => .obj []

/-- `cfg.dict()` (keras.py:120-126; _create_samples.py:14, 18), as written by `json.dump` and `yaml.dump`
(_create_samples.py:23, 26). -/
def dump (c : QuantizerCfg) : JV :=
  .obj [("dense", dumpDense c.dense), ("quantize", .obj [("dtype", .str c.quantize.dtype)]), ("dequantize", .obj []),
    ("ada_round_net", dumpOpt dumpAda c.adaRoundNet),
    ("param_equalizer", dumpOpt (fun p => .obj [("optimizer", .str "base"), ("max_retries", .int p.maxRetries)])
      c.paramEqualizer),
    ("specific_layers", .obj (c.specificLayers.map (fun e => (e.1, dumpLayer e.2))))]

end Verif.Config
