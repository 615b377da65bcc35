import Verif.Model.Keras

/-!
# Model of the quantizer's configuration
(`quantizer/itcl_quantizer/config/models/keras.py`)

Loading a file (`from_json`, `from_yml`) is in `Verif/Model/ConfigFile.lean`; here a configuration is a
value of these types.  Methods that change an object in place are functions returning the changed object.
-/

namespace Verif.Config

/-- `RoundingAnnealerCfg`, `RoundingQUBOCfg`, `RoundingMinimaCfg` (keras.py:37-73). -/
inductive AdaCfg
  | annealer (tMin tMax : ℚ) (updates steps maxRetries : ℤ)
  | qubo
  | base (maxRetries : ℤ)
deriving DecidableEq, Repr

/-- `ActivationCfg` (keras.py:76-77). -/
structure ActivationCfg where
  reducedDepth : ℤ := 3
deriving DecidableEq, Repr

/-- `KerasDenseCfg` (keras.py:83-90). -/
structure DenseCfg where
  activationDtype : String := "int8"
  biasAddDtype : String := "int8"
  biasDtype : String := "int32"
  kernelDtype : String := "int8"
  kernelSymmetric : Bool := false
  adaroundOptimizer : Option AdaCfg := none
  lutCfg : ActivationCfg := {}
deriving DecidableEq, Repr

/-- `QuantizeCfg` (keras.py:103-104). -/
structure QuantizeCfg where
  dtype : String := "int8"
deriving DecidableEq, Repr

/-- `DequantizeCfg` (keras.py:107-108): no fields. -/
structure DequantizeCfg where
deriving DecidableEq, Repr

/-- `KerasLayer` (keras.py:111). -/
inductive LayerCfg
  | dense (c : DenseCfg)
  | quantize (c : QuantizeCfg)
  | dequantize (c : DequantizeCfg)
deriving DecidableEq, Repr

/-- `ParamEqualizerCfg` (keras.py:115-117). -/
structure ParamEqualizerCfg where
  maxRetries : ℤ := 100
deriving DecidableEq, Repr

/-- `QuantizerCfg` (keras.py:120-126). -/
structure QuantizerCfg where
  dense : DenseCfg := {}
  quantize : QuantizeCfg := {}
  dequantize : DequantizeCfg := {}
  adaRoundNet : Option AdaCfg := none
  paramEqualizer : Option ParamEqualizerCfg := none
  specificLayers : List (String × LayerCfg) := []
deriving DecidableEq, Repr

/-- `Init.tflite` (keras.py:17-21) on an AdaRound configuration: its attributes are numbers and texts, none of which is
an `Init`, so nothing happens. -/
def AdaCfg.tflite (c : AdaCfg) : AdaCfg := c

/-- `Init.tflite` (keras.py:17-21) on an `ActivationCfg`: no attribute is an `Init`. -/
def ActivationCfg.tflite (c : ActivationCfg) : ActivationCfg := c

/-- `Init.tflite` (keras.py:17-21) on a `QuantizeCfg`. -/
def QuantizeCfg.tflite (c : QuantizeCfg) : QuantizeCfg := c

/-- `Init.tflite` (keras.py:17-21) on a `DequantizeCfg`. -/
def DequantizeCfg.tflite (c : DequantizeCfg) : DequantizeCfg := c

/-- `KerasDenseCfg.tflite` (keras.py:92-97) followed by `Init.tflite` on the attributes that are `Init`s: the AdaRound
optimizer (converted twice) and the activation configuration. -/
def DenseCfg.tflite (c : DenseCfg) : DenseCfg :=
  let c := { c with kernelSymmetric := true }
  let c := { c with adaroundOptimizer := c.adaroundOptimizer.map AdaCfg.tflite }
  { c with adaroundOptimizer := c.adaroundOptimizer.map AdaCfg.tflite, lutCfg := c.lutCfg.tflite }

/-- `QuantizerCfg.tflite` (keras.py:131-134) followed by `Init.tflite`: the two equalizers are removed, then every
attribute that is an `Init` is converted.  `specific_layers` is a dict, not an `Init`, so it is passed over. -/
def QuantizerCfg.tflite (c : QuantizerCfg) : QuantizerCfg :=
  let c := { c with adaRoundNet := none, paramEqualizer := none }
  { c with dense := c.dense.tflite, quantize := c.quantize.tflite, dequantize := c.dequantize.tflite,
           adaRoundNet := c.adaRoundNet.map AdaCfg.tflite, paramEqualizer := c.paramEqualizer }

/-- What `get_layer_quantizer` (keras_builder.py:108-123) reads of a dense configuration. -/
def DenseCfg.forKeras (c : DenseCfg) : Keras.DenseCfg :=
  { activationDtype := c.activationDtype, biasAddDtype := c.biasAddDtype, biasDtype := c.biasDtype
    kernelDtype := c.kernelDtype, kernelSymmetric := c.kernelSymmetric, adaround := c.adaroundOptimizer.isSome }

/-- A layer-specific entry as `get_layer_quantizer` sees it (keras_builder.py:112): entries that are not a
`KerasDenseCfg` lack the attributes read. -/
def LayerCfg.forKeras : LayerCfg → Option Keras.DenseCfg
  | .dense c => some c.forKeras
  | .quantize _ => none
  | .dequantize _ => none

/-- What `_quantize` (keras_builder.py:28-61) reads of a configuration. -/
def QuantizerCfg.forKeras (c : QuantizerCfg) : Keras.Cfg :=
  { dense := c.dense.forKeras, quantizeDtype := c.quantize.dtype
    specific := c.specificLayers.map (fun e => (e.1, e.2.forKeras)) }

/-- `build` (keras_builder.py:64-105) without file access: quantization, then, only if a loss function is given, the
configured equalizers, parameter equalization first.  The two equalizers are arbitrary state changes here. -/
def build (ext : Ext) (equalize : ParamEqualizerCfg → World → List Keras.QRes → Option World)
    (adaround : AdaCfg → World → List Keras.QRes → Option World) (lossGiven : Bool) (cfg : QuantizerCfg)
    (x : Arr ℚ) (layers : List Keras.KLayer) : Option (World × List Keras.QRes) := do
  let (w, rs) ← Keras.quantizeModel ext cfg.forKeras x layers
  if lossGiven then
    let w ← match cfg.paramEqualizer with
      | none => some w
      | some p => equalize p w rs
    let w ← match cfg.adaRoundNet with
      | none => some w
      | some a => adaround a w rs
    some (w, rs)
  else some (w, rs)

end Verif.Config
