# DESIGN — a Lean 4 model of SergioITCL/QUBOSergio

## 1. What is modelled, and how

The repository is Python/numpy code that (1) quantizes Keras networks (`quantizer/`), (2) converts
models to a JSON format (`model_converters/`), (3) runs the JSON networks with integer arithmetic
(`inference_engine/`), on top of (4) shared primitives (`core/`), plus (5) an MQTT/FPGA demo client
(`demo/demo_lib`).  The Lean model is a shallow, executable one: every Python function becomes a
total Lean function (`lean/Verif/Model/*.lean`), each with a comment citing the file and lines.

| directory | content |
|---|---|
| `lean/Verif/Model` | the model, function by function; nothing in it is about proofs |
| `lean/Verif/Spec` | the small independent specifications the statements use (nearest code, real dense layer, dtype range, QUBO objective, what a float is) |
| `lean/Verif/Lemmas` | auxiliary lemmas |
| `lean/Verif/Props` | the property theorems `Cnn_*`, each followed by a concrete instance that meets its hypotheses |
| `properties.jsonl`, `MANIFEST.json` | the properties in English; the theorems that prove each |
| `AXIOMS.md` | axioms of every property theorem (generated by `tools/axioms.sh`) |
| `seeded/LOG.jsonl` | wrong programs the theorems were tried against |

General simplifications (repeated at the definitions that use them):

* **Real arithmetic is exact** in most of the model: Python/numpy floats are exact rationals `ℚ`.
  `Model/Float.lean` models the same lines again with IEEE rounding (any binary format: precision `p`, least
  exponent `emin`; binary32 and binary64 are instances) after every operation, for quantize, dequantize, the base
  rounding policy, calibration, the multiplier and the dense layer, and `Model/FloatEngine.lean` the engine on a whole
  network file (the TFLite and the ONNX engine); C72–C75, C92 and C95–C106 say which exact properties survive rounding and by how much the rest are off.  Overflow to infinity, NaN and signed zero are not modelled.
* **Integers.**  Python ints are `ℤ`.  Where numpy fixed-width integers matter (`astype(int32)`,
  int64 accumulators, `Dtype` arithmetic, `astype(int8)` in ReLU) the wrap-around is modelled explicitly
  by `wrapS b`/`wrapU b`, and *not wrapping* is a theorem.
* **Arrays.**  A 1-D array is a `List`, a 2-D array a list of rows, `Arr` is a 1-, 2- or 3-D array, `FArr` shape plus
  row-major data; element-wise numpy operations are maps; broadcasting is modelled where the code relies on it.
* **Exceptions** are values (`Except`/`Option`); an `assert` that fails is an error value.
* **Mutable objects and hooks** are a heap (`World`) of node objects; operators hold references, so aliasing is
  modelled, and deep copies copy references consistently.
* **Randomness** (annealers, equalizers) is an arbitrary list of draws, quantified universally.
* **Concurrency** (MQTT callback thread) is a transition system; theorems range over all interleavings.
* **External code** (Keras, TensorFlow, dimod samplers, MQTT broker, `math.tanh`, …) appears only as
  parameters (arbitrary functions, schedules, samples); nothing is assumed about them except what is
  stated in the hypotheses of a theorem.

## 2. Trusted base

* Lean 4.33.0's kernel and Mathlib's definitions (`ℚ`, `⌊·⌋`, `List`, `Finset.sum`, …).
* Axioms: each property theorem depends on a subset of `propext`, `Classical.choice`, `Quot.sound`;
  `AXIOMS.md` lists them theorem by theorem.  No axioms of our own, no compiled-code tactics
  (`decide +kernel`, used for concrete instances, is checked by the kernel).
* The reading of the Python source, i.e. the faithfulness of `Verif/Model`.
* numpy semantics as stated in `Model/Num.lean` and at the definitions: floor, clip, round-half-even, truncating
  `astype(int)`, wrapping casts, `>>` on signed integers as floor division by a power of two, `np.histogram` with equal
  bins, `np.unique`, broadcasting of length-1 axes; numpy < 2 promotion rules (the repository pins it).

### Code that is modelled

| /repo | model |
|---|---|
| `core/itcl_quantization/quantization/operators.py` | `Quant`, `GenericDtype` |
| `core/itcl_quantization/quantization/lut.py` | `ReducedLUT` |
| `core/itcl_quantization/json/specification.py` | `Json` |
| `inference_engine/…/layers/tflite/*`, `layers/common/*` | `Multiplier`, `FullyConnected`, `LutLayer`, `Layers` |
| `inference_engine/…/layers/itclq/lstm.py` | `LSTM` |
| `inference_engine/…/layers/onnx/*` | `Onnx`, `Layers` |
| `inference_engine/…/network/sequential.py`, `util/*` | `Sequential`, `InferCall`, `Layers`, `Multiplier` |
| `quantizer/…/quantizer/distributions/distribution.py` | `Distribution` |
| `quantizer/…/optimizers/*` | `Distribution` (MinMax and slices), `Optimizers` |
| `quantizer/…/tensor_extractor/tensor.py`, `operator.py`, `abstract_layer.py` | `Node`, `Keras`, `Collisions` |
| `quantizer/…/tensor_extractor/keras/*` | `Keras`, `Build`, `Exporter` (the same code without objects, over any arithmetic) |
| `quantizer/…/equalizers/adaround/{adaround,annealer}.py` | `Annealer`, `Build` |
| `quantizer/…/equalizers/adaround/{qubo,qubocalculation,Calculationsint}.py` | `Qubo`, `QuboExtra` |
| `quantizer/…/equalizers/param_equalizer/*` | `ParamEqualizer`, `LayerEqualizer`, `Build` |
| `quantizer/…/equalizers/adaround/qubo*.py` inside `build` | `QuboBuild` |
| `quantizer/…/quantizer/metrics/noise.py`, cost functions of the optimizers | `Metrics` |
| `quantizer/…/config/models/keras.py` | `Config`, `ConfigFile` |
| `quantizer/…/util/{network,collisions,typing}.py`, `calc_collisions` of the layers | `Keras`, `Collisions`, `LayerCollisions` |
| `model_converters/keras2json` | `Keras2Json` |
| `model_converters/onnx2json` | `Onnx2Json` |
| `model_converters/tflite2json` | `Tflite2Json` |
| `demo/demo_lib/demo_lib/fpga.py`, `mqtt.py` | `Fpga` |

### Code that is not modelled

* Plots, logging, progress bars, command lines, file IO, demo and training scripts (except their loss functions, C104), setup files.
* TensorFlow/Keras training; float32 rounding inside TensorFlow.
* JSON/YAML parsers and pydantic's scalar conversions (a parameter).  Validation of a configuration file field by field,
  with its unions, is modelled (`ConfigFile`, C89); networks are values of the parsed types.
* The dimod/D-Wave/QAOA samplers (a sample is an arbitrary assignment) and the exact solver whose answer `ADAInt` only
  prints; `scipy.optimize`'s numerics (the point it returns is arbitrary).
* The QUBO optimizer inside `build` is a parameter of C45/C70 and is instantiated by the modelled `QUBOAnnealer` in C82; the
  annealing sampler itself (dwave) is a parameter: any 0/1 answers, exact ones only where the theorem says so.
* tflite2json's `FullyConnectedOperator` (unreachable) and omitted (`-1`) operands; per-channel quantization (raises).
* Timing of `wait(timeout)`: a timeout may happen at any moment.

## 3. Plan per property (what is modelled; how it is proved)

| id | property | model | proof idea |
|----|----------|-------|-----------|
| C01 | Quantized values always fit the target dtype | `Model/Quant` — `quantize` = clip(round(x/s)+zp) then int32 cast | clip bounds; `wrapS` identity inside int32; a uint32 witness for the failing case |
| C02 | Quantization is monotone | `Model/Quant` — same | floor and clip are monotone |
| C03 | Dequantize then quantize is the identity | `Model/Quant` — quantize ∘ dequantize | floor(k+½)=k for integer k |
| C04 | Quantization picks a nearest representable value | `Model/Quant` — same, against `Spec.Nearest` | half-up rounding is a nearest integer; clip of a nearest point to an interval is nearest in the interval |
| C05 | Real zero is exactly representable | `Model/Quant` — same | instance of C03 at the zero point |
| C06 | Rounding policies only choose between the two neighbours | `Model/Quant` — `round` with a rounding policy, incl. numpy broadcasting of the policy | floor x + bit, then C04-style argument; shape-error cases |
| C07 | An activation LUT agrees with the float activation at every code | `Model/Quant`, `Model/LutLayer` — `create_LUT`, `LUTActivation` | list indexing by `q - min`; C03 |
| C08 | Dtype strings are parsed to the right range or rejected | `Model/GenericDtype` — string parser on `List Char` | induction on digits; canonical decimal round trip |
| C09 | Widening integer arithmetic is exact | `Model/GenericDtype` — `Dtype` +,−,× with explicit wrap-around | nonlinear interval bounds; counterexamples where numpy’s width rules do wrap |
| C10 | Fixed-width multiply/add helpers never overflow | `Model/GenericDtype` — fixed-width helpers | interval bounds |
| C11 | A reduced LUT answers every index like the original | `Model/ReducedLUT` — run-length loop, lookup | loop invariant (induction on the table), for every depth |
| C12 | Serialising a reduced LUT loses nothing | `Model/ReducedLUT` — to/from JSON | C11 + list lemmas |
| C13 | Asymmetric LUT reduction | `Model/ReducedLUT` — asymmetric reduction | exact characterisation: right for all tables iff depth ≤ 1 |
| C14 | LUT reduction is a compression with bounded interval lists | `Model/ReducedLUT` — same | length bounds by induction |
| C15 | Fixed-point multiplier approximates the real rescale factor | `Model/Multiplier` — frexp, integer mantissa, shift | uniqueness of binary exponent; floor bounds |
| C16 | Multiplier construction is normalised and total on its domain | `Model/Multiplier` — same | same |
| C17 | Fully connected outputs stay in the output dtype | `Model/FullyConnected` — whole layer | clip |
| C18 | The fully connected layer never overflows int64 | `Model/FullyConnected` — int64 accumulator with wrap-around | bound on the dot product; sharp size condition |
| C19 | Rescaling is monotone | `Model/Multiplier` — rescale | floor monotone |
| C20 | Batch inference is row-wise inference | `Model/FullyConnected` — 1-D/2-D/3-D inference | mapM lemmas |
| C21 | Quantized dense layer tracks the real dense layer | `Model/FullyConnected` — layer vs. `Spec.dense` | C15 + dot product expansion |
| C22 | Quantized ReLU | `Model/Layers` — quantized ReLU, float→int8 cast | exactly when right; witnesses elsewhere |
| C23 | Operators are dispatched deterministically and unknown ones rejected | `Model/Layers` — `build_layer`, `check_layer_type` | substring reasoning |
| C24 | A sequential network is the composition of its layers | `Model/Sequential` — network run | fold lemmas against `Spec.pipe` |
| C25 | ONNX integer operators stay in uint8 and match their float meaning | `Model/Onnx` — QLinear* operators | half-even rounding bounds |
| C26 | The quantized LSTM never leaves its integer ranges | `Model/LSTM` — cell and time loop | induction over time |
| C27 | LSTM batch rows are independent and the last output is the end of the sequence | `Model/LSTM` — same | mapM/fold lemmas |
| C28 | LSTM outputs are causal | `Model/LSTM` — same | induction on the prefix |
| C29 | Calibration parameters represent zero and are valid | `Model/Distribution` — `np.histogram`, quantize | rational arithmetic |
| C30 | Calibrated quantization error is at most half a step | `Model/Distribution` — same | C04 + interval arithmetic |
| C31 | Forced zero point quantization (kernels) | `Model/Distribution` — `force_zp` | same |
| C32 | Distribution slices keep the histogram invariant | `Model/Distribution` — slicing | sorted-list search lemmas |
| C33 | Bias scale always equals input scale times kernel scale | `Model/Node` — tensors, hooks as a state machine | invariant over histories |
| C34 | Stored quantized tensors agree with their parameters | `Model/Node` — same | invariant; counterexamples for reset |
| C35 | NodeTensorTensor.dequantized returns the dequantized tensor | `Model/Node` — same | linear arithmetic per element: exactly when the formula agrees |
| C36 | A node's LUT matches its current parameters | `Model/Node` — same | invariant for input-node updates; stale output-node case |
| C37 | QUBO energy equals the layer's squared error up to a constant | `Model/Qubo` — dictionary built by the triple loop | quadratic expansion of finite sums |
| C38 | QUBO variables do not collide and neurons are independent | `Model/Qubo` — same | key injectivity; separability of sums |
| C39 | QUBO samples are decoded back to the right weights | `Model/Qubo` — decoding | index arithmetic |
| C40 | Annealing moves keep a valid rounding policy | `Model/Annealer` — moves | invariant over random histories |
| C41 | Local search never worsens the rounding | `Model/Annealer` — `AdaRound.round`, `simanneal` loop | invariant best ≤ initial |
| C42 | Parameter search never worsens the network | `Model/ParamEqualizer` — BFS equalizer | invariant |
| C43 | Scale perturbation stays within ten percent | `Model/ParamEqualizer` — scale/zero-point draw | interval arithmetic |
| C44 | Collision count | `Model/Collisions` — `np.unique` counts | counting lemmas |
| C45 | The exported network preserves operators | `Model/Keras` — network JSON | list induction |
| C46 | tflite() makes every kernel symmetric, turns the equalisers off, and changes nothing else | `Model/Config` — `tflite()` | case analysis on configs |
| C47 | Float model conversion is faithful, in order, or fails | `Model/Keras2Json` — converter | list induction |
| C48 | ONNX conversion consumes every node once, and the fused network computes what the unfused nodes compute | `Model/Onnx2Json` — graph walk and fusion | list induction; C25 |
| C49 | ONNX weights survive the double transpose and the product is accurate | `Model/Onnx2Json`, `Model/Onnx` — transpose | list of rows lemmas |
| C50 | FPGA batching preserves order and completeness | `Model/Fpga` — chunking | list splitting |
| C51 | FPGA answers are matched to requests | `Model/Fpga` — caller and callback as a transition system | invariant over all interleavings |
| C52 | LSTM export and inference agree on node layout | `Model/LSTM` — index table of exported nodes | table |
| C53 | ONNX Softmax normalises over the whole batch | `Model/Onnx` — Softmax over all entries | sum lemmas |
| C54 | LSTM recurrent sum uses uncentred hidden codes | `Model/LSTM` — recurrent product | dot product expansion |
| C55 | LSTM step accuracy | `Model/LSTM` — one step | triangle inequalities, Lipschitz bounds |
| C56 | Parameter search moves every zero point together | `Model/ParamEqualizer` — `move` | parity invariant |
| C57 | What later layers are calibrated on | `Model/Keras` — data handed on by each layer | symbolic execution of `KDense.quantize` |
| C58 | The annealing parameter equalizer leaves the last, not the best candidate | `Model/ParamEqualizer` — `ParamEqAnnealer` | invariant on the live world |
| C59 | Quantizing a dense model always succeeds | `Model/Keras`, `Model/Config` — `quantizeModel` | totality by induction on layers |
| C60 | Fused ReLU and ReLU6 | `Model/Keras` — fused activations | C30 + relu algebra |
| C61 | An exported dense network loads in the inference engine exactly when its multipliers are representable | `Model/Keras`, `Model/Sequential` — export, then load | iff via C16; node invariants over histories |
| C62 | The exported int8 network tracks the float model within a computable bound, for every input | `Model/Keras`, `Model/Sequential` — export, load, infer | error recursion over layers, C21, C07, C30 |
| C63 | Exported number formats and shapes are the configured ones | `Model/Keras` — export | symbolic execution |
| C64 | Every exported node is calibrated on what the float model computes there | `Model/Keras` — export | symbolic execution + C29/C30 |
| C65 | The LSTM's calibration run is the Keras recurrence | `Model/Keras (LSTM)` — calibration run | induction over time |
| C66 | A converted TFLite model is a faithful copy | `Model/Tflite2Json` — converter | mapM lemmas |
| C67 | FPGA loss is the loss of the candidate sent | `Model/Fpga` — loss protocol | transition-system invariant; witness after timeout |
| C68 | The integer stand-in for a real factor is nearest-rounded multiplication, with sharp limits | `Model/Multiplier` — `FloatingIntegerApprox` | C15-style bounds |
| C69 | Activation operators compute their function element by element | `Model/Layers`, `Model/Onnx` — activation layers on arrays of any rank | C07 lifted over `Arr` |
| C70 | build with equalizers never returns a worse or a broken network | `Model/Build` — `build` with equalizers | C41/C42 invariants + C33 on every FC operator |
| C71 | A converted TFLite model computes what the TFLite model means | `Model/Tflite2Json`, `Model/Sequential` — convert, load, infer | C21, C07 on the exported nodes |
| C72 | Quantize and dequantize in float64 | `Model/Float` — same code with IEEE rounding after each operation | `fl` is a monotone nearest rounding; error ≤ half ulp |
| C73 | Base rounding policy in floating point | `Model/Float` — float32 policy, float64 use | error analysis; float witness |
| C74 | Calibration in floating point | `Model/Float` — float calibration | relative error analysis |
| C75 | Dense layer with a float64 multiplier | `Model/Float` — float multiplier | relative error analysis + C21 |
| C76 | Calibration optimizers trim what they say | `Model/Optimizers` — the three `DistributionOptimizer`s (min-max, fixed percent, KL) on a built histogram | percentile bounds + histogram invariants (C30); exact shape of the KL trim |
| C77 | The layer-wise parameter search never hurts and works from the last layer to the first | `Model/LayerEqualizer`, `Model/ParamEqualizer`, `Model/Build` — `ParamEqualizerNet.equalize` as a loop of searches, each on the state the previous one left | invariant between searches (heap consistency, canonical network nodes, loss ≤ start), induction over searches and layers; termination from C42 |
| C78 | The per-layer collision report counts each node once – and the bias-add entry counts the layer input | `Model/LayerCollisions` — report dictionary with names, binary64 quotient, arbitrary counting policy, layer kinds | symbolic execution on the nodes `Dense.quantize` creates; last characters of the names differ; binary64 error bound against the gap 1/batch; C44 for the kernel |
| C79 | Both QUBO builders build the same problem, and only the second one counts | `Model/QuboExtra` — the class `ADAInt` method by method, both passes with a stateful sampler | both builders equal the explicit entry list; rewriting an existing key with its value is the identity |
| C80 | The saved QUBO matrix is the layer's QUBO | `Model/QuboExtra` — `Matrix_Calculation` on the accumulating matrix, `%.8f` | induction over neurons with block-disjoint labels; double sum over cells = sum over entries |
| C81 | The QAOA route solves the same problem and decodes it alike | `Model/QuboExtra` — quadratic-program construction, declaration order, decoding | sorted lists with equal members; permutation of entries |
| C82 | Building a model with the QUBO rounding optimizer | `Model/QuboBuild` — `QUBOAnnealer` as driven by `AdaroundNet.round` over the results of `quantizeModel`, sampler answers as a function of call number and QUBO | invariant of the loop (floats, scales and earlier layers stay, policies of the done layers are the decoded bits); C37/C79 for the optimum; C06 for the integers |
| C83 | Accuracy of a quantized LSTM over whole sequences | `Model/Keras`, `Model/LSTM`, `Model/Sequential` — float LSTM as the recurrence `lstmState`; the exported operator, the loaded layer, the three-layer network | one-step error (accumulator truncation, saturation, table, products) composed by induction over the sequence; monotone fixed point for the uniform bound; calibration coverage of C30/C65 |
| C84 | What an ONNX file means, and that the converted network computes it | `Model/Onnx2Json`, `Model/Onnx`, `Model/Layers`, `Model/Sequential` — the ONNX file's constants, nodes and sizes; converter and loader composed | a separate relation `NodeMeans` reads the file; case analysis per operator, then C48's induction over the graph |
| C85 | Accuracy of converted ONNX networks | `Model/Onnx2Json`, `Model/Onnx`, `Model/Layers`, `Model/Sequential` — every operator's codes against exact real arithmetic | saturation is 1-Lipschitz, rounding half a step; induction over the operators; softmax by ratio bounds |
| C86 | Noise metrics of distributions | `Model/Metrics`, `Model/Distribution` — `normalize`, `compare` and the three metrics, real logarithms, NaN and infinity as `none` | `x log(x/y) - x + y ≥ 0` termwise; sums over bins; squares of shares bounded by shares |
| C87 | Noise-driven range search | `Model/Metrics`, `Model/Distribution` — the cost closure and the final slice; the minimiser's pair is arbitrary | the guard; one end of the data always round-trips inside the range, so the second histogram is not empty; slices keep what lies between the bounds |
| C88 | Threshold of the divergence search | `Model/Optimizers`, `Model/Metrics`, `Model/Distribution` — `trim` with its real divergence, NaN as `none` | each candidate's divergence is NaN exactly with an empty group, else the specified sum; first-position specification of `argmin`; the slice at half a bin |
| C89 | Configuration files | `Model/ConfigFile`, `Model/Config`, `Model/Keras` — validation of a parsed file field by field, unions in order (pydantic 2.6.4), `.dict()`; scalar conversion is a parameter | parse after dump for every type by cases; which union member accepts, from the presence of keys; composition with `quantizeModel` |
| C90 | Accuracy of recurrent networks on batches | `Model/Keras`, `Model/LSTM`, `Model/FullyConnected`, `Model/Sequential` — `quantizeModel` on stacks of LSTM and dense layers, the loaded network on 3-D batches | induction over the layers: C83's sequence bound per LSTM layer, its output codes are the next layer's inputs; row-wise batches for the dense part; C65's float outputs as the next layer's calibration data |
| C91 | What the exported file takes from the calibration data | `Model/Keras`, `Model/Distribution`, `Model/Json` — `quantizeModel` and `networkJson` on two sets of calibration data | simulation between the two runs (heap, layers, LSTM steps); a histogram of int bins depends on the multiset, `quantize` on the set of data; C64 for both runs compares the ranges |
| C92 | The engine in IEEE binary64, on any int8 network file | `Model/FloatEngine`, `Model/Float`, `Model/Sequential` — `load`/`infer` with float64 rounding; a network file as the JSON values it parses to | C75 with saturation per dense operator; induction over the operators with an elementwise error; quantize/dequantize by C72 |
| C93 | Parts of a model and of a configuration do not interfere | `Model/Keras`, `Model/Json` — `quantizeModel` on two models or two configurations | equality of the layer loops; `quantizeLayers` on an append; the operators of the prefix refer to nodes the later layers do not touch |
| C94 | The exported file as a function of weights, configuration and calibration data | `Model/Exporter`, `Model/Keras`, `Model/Json` — `(Arith.exact ext).graph`, an exporter without objects, against `networkJson` of the heap model | simulation layer by layer: every node an operator refers to is serialized to the node written by the exporter without objects, and later layers do not change it |
| C95 | Quantizer and engine together in floating point | `Model/Exporter`, `Model/Float`, `Model/FloatEngine` — `(Arith.float F K).graph`: the exporter of C94 with IEEE rounding after every operation; `load`/`infer` of C92 on its file | induction over the layers: every operator written `FileMeans` a dense layer or a table with stored integers near the weights; C92 for the engine; a second induction for the distance of the stored network from the float model (activations are non-expansive) |
| C96 | Recurrent networks in the engine with IEEE binary64 arithmetic | `Model/LSTM`, `Model/FloatEngine` — `LSTM.fromModel op (some F)` and `LSTM.infer` with `fl` after every float operation, in the engine of C92 | relative-error calculus for quotients and products of scales (2^-49 for each of the five factors), then the step/sequence induction of C83 with `eps` and table tolerance, then induction over the layers and C92 for the head |
| C97 | Recurrent models quantized and run in floating point | `Model/Exporter`, `Model/LSTM`, `Model/FloatEngine` — the exporter of C95 (`Arith.float`) on models with LSTM layers and the engine of C96 | per gate: code error of kernel, recurrent kernel and bias, table error; induction over the layers gives `SeqNetMeans` and `ExportedFile`; then C96 and the drift of C95 |
| C98 | ONNX networks converted and run in IEEE binary64 | `Model/Onnx2Json`, `Model/FloatEngine`, `Model/Onnx` — the converter of C48 with `Fmt.f64.uint8Table`, the ONNX operators of `Fmt.f64.inferLayer` | per operator: relative error of the rescaled accumulator or sum, saturation outside |t| ≤ 600, C72 for quantize/dequantize, table layers by C12; induction over the fused node list with `Near` |
| C99 | Class probabilities in floating point | `Model/FloatEngine`, `Model/Onnx2Json` — `Fmt.softmax` with `Fmt.Sums` (any order of summation), the network of C98 followed by Softmax | a calculus of factors (`Spec.Factor`) for rounding, sums and quotients against `Real.exp`; induction over the summation tree; C98's lemmas for the scores; uniqueness of the fusion for the appended node |
| C100 | Accuracy of converted TFLite networks in float64 | `Model/Tflite2Json`, `Model/FloatEngine`, `Model/Sequential` — the converter of C66 with `Fmt.f64.int8Table`, the engine of C92 | each converted operator satisfies `FileMeans` (C66's node lemmas, C12 for the tables, C72 for their entries); induction over the chain of tensors; then C92 |
| C101 | The predicted class survives quantization | `Model/those of C95`, `Model/C97`, `Model/C98`, `Model/C100` — the networks of those properties | componentwise bounds imply a strict order of two outputs if the exact scores differ by more than the two bounds |
| C102 | Batches in the floating point engine | `Model/FloatEngine`, `Model/Sequential`, `Model/LSTM` — `Fmt.infer` over an arbitrary format | each layer commutes with splitting a batch (matrix identities of C20, the row form of C27's recurrence); induction over the layers |
| C103 | Networks without conversion operators at their ends | `Model/FloatEngine`, `Model/Sequential`, `Model/Tflite2Json` — the engine of C92 and the converter of C100, all four combinations of the ends | `Fmt.prepare` and the quantize layer do the same to the input; the operators as in C92 (`ops_close`); the converted operators' names |
| C104 | The losses of the quantization scripts | `Model/Losses`, `Model/Build`, `Model/those of C95`, `Model/C97`, `Model/C98`, `Model/C100` — the two kinds of loss function of the scripts, given the engine's output; `build` with the hit loss | argmax is the first maximum (loop invariant); decisive samples are counted (finite sets of positions); a square changes by at most e(2|t-y|+e); C70 for losses that are never positive |
| C105 | Classifiers with a softmax head predict the most probable class | `Model/Props/SoftmaxHead over Model/FloatEngine (engine in float64)`, `Model/Model/Tflite2Json (converter)`, `Model/Model/Losses (hit count)` — MostLikely is stated with the real exponential (Mathlib's Real.exp), the answers with C92's FileMeans/fileExact/fileBound and the misreading v ↦ s'·(v/s+z−z') | softmax is strictly monotone, codes are a strictly monotone image of the scores they stand for, and int8 codes dequantize strictly monotonically even in float64 |
| C106 | Networks with TANH, LOGISTIC and RELU operators that have no table | `Model/Props/FloatActs over Model/FloatEngine` — EngineMeans adds the operators without table to FileMeans of C92; bounds as in C92 | the step lemma of C92 for layers that act code by code, with the accuracy of one code from quantization and dequantization in float64; the chain lemma of C92 is generic in the step |
| C107 | Indexing a distribution in every way it offers, with and without partial bins | `Model/Model/Distribution (build`, `Model/getBin`, `Model/clone with and without partial bins`, `Model/getSlice with open ends`, `Model/getIndex); Props/PartialBins` — histories are the inductive relation Spec.Indexed; the flag is false or true throughout | induction over the history with the histogram invariant of C32, which cutting at two edges keeps; the position of the bounds among the edges determines the cut exactly |
| C108 | Converted networks against the real sigmoid and tanh | `Model/Onnx2Json`, `Model/Tflite2Json`, `Model/FloatEngine` — the theorems of C98 and C100; `Real.sigmoid` and `Real.tanh` of Mathlib in the specification | the true functions are approximated within any η > 0 by rational-valued functions with the same Lipschitz constant (piecewise linear between rounded samples), C98/C100 hold for those with δ + η, the exact results and the bounds move by at most C·η, and what holds up to C·η for all η > 0 holds |
| C109 | Quantized Keras models against the real sigmoid and tanh | `Model/Exporter`, `Model/Keras`, `Model/FloatEngine` — the exporter of C95 with arbitrary Keras float results, the engine of C92; `Real.sigmoid`, `Real.tanh` in the specification | induction over the layers: each exported operator stands for the layer's (RealMeans), table entries by rational approximations with values in [-1, 1] and a limit; C108_file for the engine, induction with Lipschitz constants for the stored weights |
| C110 | Recurrent models against the real sigmoid and tanh | `Model/Exporter`, `Model/LSTM`, `Model/FloatEngine` — the exporter and the engine of C97; the LSTM recursion over the real numbers with `Real.sigmoid` and `Real.tanh` in the specification | induction over the steps (errors of gates, cell and hidden state; the cell state grows by at most 1 per step) and over the layers, with the Lipschitz constants 1/4 and 1; then C97 |
| C111 | Networks that quantize their own input or return codes, against the real sigmoid and tanh | `Model/Props/RealEnds`, `Model/Props/RealTfliteEnds over Model/FloatEngine`, `Model/Tflite2Json` — RealEngineMeans adds the operators without table to RealMeans of C108; real functions and bounds as in C108 | for every η > 0 each operator gets its own rational approximation of the real functions within η (δ + η for operators without table); codes and numbers of C103/C106 hold for those; the answers do not depend on η, and the limit of C108 applies |
| C112 | Decisions of quantized networks are those of the real networks | `Model/Props/RealClasses`, `Model/Props/RealTfliteEnds over FloatEngine`, `Model/Keras`, `Model/Exporter`, `Model/Tflite2Json`, `Model/Onnx2Json` — RealDecisive (the margin), Decides (largest score, thresholds), CodesDecide (codes) | from the elementwise bounds of C108–C111; codes are ordered like the numbers they stand for because the last step is positive |
| C113 | Classifiers with a softmax head, against the probabilities over the real numbers | `Model/Props/RealSoftmax over FloatEngine`, `Model/Keras`, `Model/Exporter`, `Model/Tflite2Json` — realSoftmax (exp over the sum of exp), RealLikely (most probable), Outweighs (probability factor) | the factor condition is RealDecisive by monotonicity of exp; the layers without the head answer as in C111, the limit over approximating functions taken on the fixed layers |
| C114 | Calls of infer with already quantized inputs | `Model/InferCall` — infer with its flags, over Sequential; HonoursCodes states what the documentation promises; the network that shows the failure is a single TFLite SOFTMAX, which returns its input | the loop is the fold of runLayers; floor of q/s + z + 1/2 is q for all int8 codes, clipping at both ends, exactly for z = 0 and the stated steps |

Statements are about the API: the hypotheses name inputs, the conclusions name outputs; where a specification is needed
it is in `Verif/Spec` (or stated inline with quantifiers).  A claim that is false of the code is stated as what *is*
true (often an exact characterisation) together with a theorem exhibiting the failure.

## 4. What the model found (claims a user would expect that are false of the code)

Core and engine
* A dtype wider than int32 (uint32) wraps instead of saturating (C01).
* numpy's width rules make some widening `Dtype` operations wrap (C09).
* Asymmetric reduced tables are wrong for some table at every depth ≥ 2 (C13); out-of-range indices are answered.
* Quantized ReLU is wrong when the zero points differ or codes leave int8 (C22).
* ONNX Softmax normalises over the whole batch (C53); QuantizeLinear rounds half up where the ONNX standard says half
  to even; a network whose first operator is not a `*Quant*` one gets its input int8-quantized.
* The LSTM does not subtract the hidden zero point in the recurrent product (C54).
* The largest float below ½ rounds up to 1 (C72); the AdaRound base policy is computed in float32 and applied in
  float64, so the largest weight of a symmetric kernel is stored one step low (C73).

Quantizer
* Layers after a relu layer are calibrated on negative values that never occur (C57).
* LSTM input gate calibration uses the wrong slice (C65); Dense after LSTM(return_sequences) exports a network the engine
  cannot run; LSTM nodes have no hooks, so their bias scales are not updated; KerasLSTM with an equalizer raises
  AttributeError (C70).
* `NodeTensorTensor.dequantized` returns the wrong tensor unless the zero point is 0 (C35); `reset_scale`/`reset_zp` leave the stored
  integers stale (C34); moving an output node's parameters leaves its table stale (C36); AdaRound of a table node never
  rebuilds the table (C70).
* The parameter search moves all zero points together (C56); the annealing equalizer leaves the last candidate in place,
  not the best (C58).
* The annealer's `energy or sys.maxsize` forgets a zero energy (C41); `reduce(…, 0)` makes its permutation count 0; it
  only flips the first `len(t)` flattened entries.
* Tables are clipped to the bias-add dtype (C63); the BiasAdd node carries the layer input's shape (C63); unsigned kernel
  dtypes give an infinite scale (C59); softmax layers export logits (C62); biases that nearly cancel the product give
  multipliers the engine refuses (C61).
* `FixedPercentOptimizer` passes fractions where numpy wants percentages and keeps the original bin edges, so it clips
  almost everything to the bottom of the range without narrowing the bins; the KL threshold ignores the `target` offset
  and the first edge (C76).
* `tflite()` leaves a configured layer-wise AdaRound in place, so any Dense layer then raises NotImplementedError (C46).
* `constants.py` references `np.float8` (import error); an unknown Keras layer raises TypeError from `isinstance(layer,
  tf.keras.layers.Input)`; `qubocalculation.py` uses `os` without importing it.

Converters and demo
* keras2json: the zeros of a bias-less Dense layer are per input, not per unit; Conv2D variants and ConvLSTM2D are
  exported as Conv2D/LSTM; the engine cannot load engine `keras` (C47).
* tflite2json: fused activations are ignored, uint8 tables are wrong, duplicate tensor names export wrong data, softmax is
  the identity, per-channel scales raise (C66, C71).
* FPGA: a late answer is matched to the next request (C51), after one timeout losses stay shifted for ever (C67).
