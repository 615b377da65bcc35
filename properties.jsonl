{"id": "C01", "title": "Quantized values always fit the target dtype", "statement": "Quantization(dtype).quantize(data, zero_point, scale, rounding_policy) only ever returns integers between dtype.min and dtype.max, for every real input, every scale (including negative and tiny), every zero point and every rounding policy, whenever the dtype itself fits the int32 container the result is stored in. For a dtype that does not fit int32 (e.g. uint32) the claim is false: saturated values wrap.", "quantifier": "every real input array, scale, zero point, rounding policy (absent, matching or of the wrong shape) and every integer dtype of at most 32 signed / 31 unsigned bits", "why_tests_cant": "the input, scale and policy spaces are infinite; tests sample a handful of arrays and cannot exclude an out-of-range value", "anchors": ["core/itcl_quantization/quantization/operators.py:Quantization.quantize", "core/itcl_quantization/quantization/operators.py:Quantization.round"]}
{"id": "C02", "title": "Quantization is monotone", "statement": "For a positive scale, x <= y implies quantize(x) <= quantize(y) under round-to-nearest, for every zero point and dtype; so quantization never reorders activations.", "quantifier": "every pair of reals, every positive scale, zero point and dtype fitting int32", "why_tests_cant": "an order claim over pairs of reals; a sampled test cannot rule out an inversion at a rounding or saturation boundary", "anchors": ["core/itcl_quantization/quantization/operators.py:Quantization.quantize"]}
{"id": "C03", "title": "Dequantize then quantize is the identity", "statement": "For every integer q of the dtype, quantize(dequantize(q, zp, s), zp, s) == q for every positive scale and every zero point with q - zp in the int32 range (dequantize subtracts in int32).", "quantifier": "every dtype, every q in its range, every positive scale, every integer zero point within int32 of q", "why_tests_cant": "must hold for all scales and all integer widths; tests use int8 with a few scales", "anchors": ["core/itcl_quantization/quantization/operators.py:Quantization.quantize", "core/itcl_quantization/quantization/operators.py:Quantization.dequantize"]}
{"id": "C04", "title": "Quantization picks a nearest representable value", "statement": "For every real x, the dequantized value of quantize(x) is at least as close to x as the dequantized value of any other integer of the dtype; in particular the error is at most scale/2 whenever x lies in the representable interval, and values outside it saturate to the nearest end of the range (dequantized as scale * (q - zero point), computed in int32). A value exactly halfway between two codes of the dtype gets the upper one.", "quantifier": "every real x, positive scale, zero point, dtype, and every competing integer of the dtype", "why_tests_cant": "optimality over all inputs and all competitors; tests only compare with fixed expected arrays", "anchors": ["core/itcl_quantization/quantization/operators.py:Quantization.quantize", "core/itcl_quantization/quantization/operators.py:Quantization.round", "core/itcl_quantization/quantization/operators.py:Quantization.dequantize"]}
{"id": "C05", "title": "Real zero is exactly representable", "statement": "When the zero point lies in the dtype range, quantize(0.0) is the zero point and dequantize(zero_point) is exactly 0.0, for every non-zero scale.", "quantifier": "every scale, zero point and dtype", "why_tests_cant": "quantified over all scales and zero points", "anchors": ["core/itcl_quantization/quantization/operators.py:Quantization.quantize", "core/itcl_quantization/quantization/operators.py:Quantization.dequantize"]}
{"id": "C06", "title": "Rounding policies only choose between the two neighbours", "statement": "With a 0/1 rounding policy of the right shape every quantized element equals the floor of x/scale+zp or that floor plus one, clipped to the dtype; the base policy computed by the AdaRound code (with zero point 0) reproduces plain round-to-nearest exactly; a policy that cannot be broadcast is ignored and gives round-to-nearest. A policy with one entry is applied to every element, and a single element is quantized once per entry of the policy.", "quantifier": "every input array, every policy array, every scale and zero point", "why_tests_cant": "policies range over 2^n binary tensors and inputs over the reals", "anchors": ["core/itcl_quantization/quantization/operators.py:Quantization.quantize", "quantizer/itcl_quantizer/equalizers/adaround/irounding_policy.py:IRoundingPolicy.get_base_rounding"]}
{"id": "C07", "title": "An activation LUT agrees with the float activation at every code", "statement": "For every activation function f, create_LUT returns exactly one entry per integer of the dtype and the entry for code q is quantize(f(dequantize(q))) with the output parameters; reading it through the inference LUT layer with offset -dtype.min returns exactly that for every q of the dtype, both with the plain list and with the reduced LUT.", "quantifier": "every activation function, every input/output scale and zero point, every dtype, every code", "why_tests_cant": "holds for arbitrary functions and parameters; tests check tanh/sigmoid with a fixed scale", "anchors": ["core/itcl_quantization/quantization/operators.py:Quantization.create_LUT", "core/itcl_quantization/quantization/operators.py:Quantization.float_activation", "inference_engine/itcl_inference_engine/layers/common/lut.py:LUTActivation.infer"]}
{"id": "C08", "title": "Dtype strings are parsed to the right range or rejected", "statement": "GenericDtype(text) succeeds exactly when the lower-cased text is int/uint/float followed by a canonical positive decimal n; then min/max are -2^(n-1)..2^(n-1)-1 for int and 0..2^n-1 otherwise, and str() returns the lower-cased text; every other string raises.", "quantifier": "every string", "why_tests_cant": "the set of strings is infinite; tests check a few accepted names and one or two rejections", "anchors": ["core/itcl_quantization/quantization/operators.py:GenericDtype"]}
{"id": "C09", "title": "Widening integer arithmetic is exact", "statement": "Adding, subtracting or multiplying two Dtype values of the same signedness and at most 32 bits returns the exact mathematical result together with a dtype whose range contains it (for subtraction of unsigned values only when the result is not negative). A one-element operand acts as if repeated; other length mismatches raise. Outside: 64-bit results wrap modulo 2^64, every negative unsigned difference comes back increased by a power of two, and an unsigned plus a signed value of one width is labelled with a signed dtype that need not hold it.", "quantifier": "every pair of values and dtypes", "why_tests_cant": "overflow only occurs at the extremes of each width; tests only try a few literals", "anchors": ["core/itcl_quantization/quantization/operators.py:Dtype"]}
{"id": "C10", "title": "Fixed-width multiply/add helpers never overflow", "statement": "int8/int16/int32_multiplication and _addition return the exact product/sum for every pair of inputs in the range of the named width.", "quantifier": "all pairs of inputs of the named width", "why_tests_cant": "2^64 pairs for int32", "anchors": ["core/itcl_quantization/quantization/operators.py:int32_multiplication", "inference_engine/itcl_inference_engine/util/quantization.py:int32_multiplication"]}
{"id": "C11", "title": "A reduced LUT answers every index like the original", "statement": "ReducedLUT(lut, depth, min_reduce)[i] == lut[i] for every valid index i, for every table and every depth (including depth larger than the number of runs, overlapping head and tail, and depth <= 0).", "quantifier": "every integer table of any length, every depth, every valid index", "why_tests_cant": "run structure, overlap of head and tail and depth interact; tests try three tables", "anchors": ["core/itcl_quantization/quantization/lut.py:ReducedLUT.__init__", "core/itcl_quantization/quantization/lut.py:ReducedLUT.__getitem__", "core/itcl_quantization/quantization/lut.py:ReducedLUT.__reduce_lut_from_left"]}
{"id": "C12", "title": "Serialising a reduced LUT loses nothing", "statement": "ReducedLUT.deserialize(r.serialize())[i] returns the same value (or the same IndexError) as r[i] for every integer index, and serialising again gives the same document.", "quantifier": "every table, depth, flags and every integer index", "why_tests_cant": "round trip over all tables", "anchors": ["core/itcl_quantization/quantization/lut.py:ReducedLUT.serialize", "core/itcl_quantization/quantization/lut.py:ReducedLUT.deserialize"]}
{"id": "C13", "title": "Asymmetric LUT reduction", "statement": "With asymmetric=True a reduced LUT should also answer every index like the original. It does so for every table exactly when the depth is at most 1: for every depth >= 2 there is a table it answers wrongly (tail offsets are relative to the already shortened table). Below the pruned tail every answer is right; inside the pruned tail index i is answered with the entry left_shift positions further right (clamped to the last entry).", "quantifier": "every table, depth and index", "why_tests_cant": "needs a search over tables; the existing tests only use asymmetric=False", "anchors": ["core/itcl_quantization/quantization/lut.py:ReducedLUT.__init__", "core/itcl_quantization/quantization/lut.py:ReducedLUT.__getitem__"]}
{"id": "C14", "title": "LUT reduction is a compression with bounded interval lists", "statement": "For depth >= 1 a reduced LUT keeps at most depth intervals on each side, the kept middle plus the two pruned parts account for exactly the original entries when they do not overlap, and the middle is never longer than the original; each interval is one constant run, neighbouring intervals have different values.", "quantifier": "every table and every depth >= 1", "why_tests_cant": "quantified over all tables", "anchors": ["core/itcl_quantization/quantization/lut.py:ReducedLUT.__reduce_lut_from_left"]}
{"id": "C15", "title": "Fixed-point multiplier approximates the real rescale factor", "statement": "For every accumulator acc of magnitude at most 3*2^30 (every int32 value included; far beyond, the int64 product wraps: with M=1/2 the accumulator 2^33 is rescaled to -2^32), the fully connected rescale (acc*qm + 2^(shift-1)) >> shift differs from acc*M (M = input_scale*weight_scale/output_scale >= 1e-6) by at most 1/2 + |acc|*M*2^-31, and equals 0 for every accumulator when M < 1e-6.", "quantifier": "every accumulator up to 3*2^30 in magnitude and every positive M accepted by the constructor", "why_tests_cant": "accumulators and scales form an infinite space; worst-case error occurs at isolated points", "anchors": ["inference_engine/itcl_inference_engine/layers/tflite/fullyconnected.py:FullyConnectedQuantizedMultiplier", "inference_engine/itcl_inference_engine/layers/tflite/fullyconnected.py:FullyConnected.__multiply_by_quantized_multiplier"]}
{"id": "C16", "title": "Multiplier construction is normalised and total on its domain", "statement": "For every positive M the quantized multiplier constructor succeeds exactly when M < 2^30*(1-2^-32); then, for M >= 1e-6, 2^30 <= qm < 2^31, 1 <= shift and the represented factor qm/2^shift is within a relative error 2^-31 of M; otherwise an assertion error is raised.", "quantifier": "every positive rational M", "why_tests_cant": "frexp/rounding carry corner case (mantissa rounding up to 2^31) is hit on a vanishing set of inputs", "anchors": ["inference_engine/itcl_inference_engine/layers/tflite/fullyconnected.py:FullyConnectedQuantizedMultiplier.__build"]}
{"id": "C17", "title": "Fully connected outputs stay in the output dtype", "statement": "FullyConnected.infer returns, for every input, one value per output neuron (per row) and each lies in the output dtype range, for every weights, bias, zero points and multiplier. A batch is accepted exactly when every sample has one entry per input feature, and then has one output row per sample; 3-D arrays are refused.", "quantifier": "every input vector/batch, weights, bias, zero points, scales", "why_tests_cant": "infinite input space", "anchors": ["inference_engine/itcl_inference_engine/layers/tflite/fullyconnected.py:FullyConnected.infer"]}
{"id": "C18", "title": "The fully connected layer never overflows int64", "statement": "For int8 inputs, int8 weights, int8 zero points, int32 bias and at most 2^14 input features the int64 arithmetic of the layer equals exact integer arithmetic at every step.", "quantifier": "every input, weights, bias in their dtype ranges, every dimension up to the bound", "why_tests_cant": "overflow only at extreme corners of a huge space", "anchors": ["inference_engine/itcl_inference_engine/layers/tflite/fullyconnected.py:FullyConnected.__calculate_accumulator", "inference_engine/itcl_inference_engine/layers/tflite/fullyconnected.py:FullyConnected.__multiply_by_quantized_multiplier"]}
{"id": "C19", "title": "Rescaling is monotone", "statement": "A larger accumulator never yields a smaller fully connected output: increasing a bias entry (other things equal) never decreases the corresponding output and never changes any other output.", "quantifier": "all pairs of accumulators up to 3*2^30 in magnitude, all multipliers, all layers on inputs within the bounds of C18", "why_tests_cant": "order claim over pairs", "anchors": ["inference_engine/itcl_inference_engine/layers/tflite/fullyconnected.py:FullyConnected.infer"]}
{"id": "C20", "title": "Batch inference is row-wise inference", "statement": "Inferring a batch (2-D input) gives exactly the rows obtained by inferring each sample on its own (1-D input), in order; so results do not depend on batch size, on order of or on other samples, for fully connected, LUT, quantize, dequantize layers and whole sequential networks of them. Exceptions: LUT layers raise on an empty batch (np.vectorize), and the ONNX Softmax is not row-wise (see C53).", "quantifier": "every batch size including zero, every sample, every network", "why_tests_cant": "batch size and composition are unbounded", "anchors": ["inference_engine/itcl_inference_engine/layers/tflite/fullyconnected.py:FullyConnected.__calculate_accumulator", "inference_engine/itcl_inference_engine/network/sequential.py:SequentialNetwork.infer"]}
{"id": "C21", "title": "Quantized dense layer tracks the real dense layer", "statement": "When the accumulator's real value is inside the representable interval of the output, the dequantized output of the quantized fully connected layer differs from the real-valued sum over dequantized inputs, weights and bias by at most half an output step plus the fixed-point term |acc|*M*2^-31 output steps. In general it differs by at most that much from the real sum saturated to the representable interval.", "quantifier": "every input, weights, bias, scales with bias scale = input scale * weight scale and weight zero point handled", "why_tests_cant": "end-to-end numerical accuracy over all parameters", "anchors": ["inference_engine/itcl_inference_engine/layers/tflite/fullyconnected.py:FullyConnected"]}
{"id": "C22", "title": "Quantized ReLU", "statement": "The ReLU layer should return the quantized code of max(0, dequantize(x)). This holds when input and output share scale and zero point and x is int8; it fails when the zero points differ (the output zero point is subtracted instead of the input's) and when the rescaled value leaves int8 (it wraps instead of saturating).", "quantifier": "every input code, every input/output scale and zero point", "why_tests_cant": "fails only on particular parameter combinations", "anchors": ["inference_engine/itcl_inference_engine/layers/common/relu.py:RELU.infer"]}
{"id": "C23", "title": "Operators are dispatched deterministically and unknown ones rejected", "statement": "build_layer / build_operator select the layer by operator name case-insensitively (TFLite) or exactly (ONNX); an operator with a documented name always builds the documented layer, DEQUANTIZE is never treated as QUANTIZE, TANHLUT never as TANH; a name that matches no layer raises ValueError.", "quantifier": "every operator name string", "why_tests_cant": "infinite string space with overlapping substring tests", "anchors": ["inference_engine/itcl_inference_engine/layers/tflite/build_layer.py:build_layer", "inference_engine/itcl_inference_engine/layers/onnx/build_operator.py", "inference_engine/itcl_inference_engine/util/check_layer_type.py:LayerType"]}
{"id": "C24", "title": "A sequential network is the composition of its layers", "statement": "SequentialNetwork.infer applies the layers in graph order, each to the previous output; the recorded intermediate results are exactly the outputs of every prefix of the network; concatenating two networks composes their functions; loading fails as a whole if any operator is unknown and otherwise preserves number and order of operators.", "quantifier": "every list of operators, every input", "why_tests_cant": "network length and composition unbounded", "anchors": ["inference_engine/itcl_inference_engine/network/sequential.py"]}
{"id": "C25", "title": "ONNX integer operators stay in uint8 and match their float meaning", "statement": "QLinearMatMul and QLinearAdd return values in 0..255 for every input and, when unsaturated, the dequantized result is within half an output step of the real product/sum of the dequantized operands. On batches and 3-D arrays they act row by row: accepted exactly when every row is, and every output row is the output for that row alone.", "quantifier": "every input, tensors, scales and zero points", "why_tests_cant": "infinite input space", "anchors": ["inference_engine/itcl_inference_engine/layers/onnx/q_linear_mmul.py", "inference_engine/itcl_inference_engine/layers/onnx/q_linear_add.py"]}
{"id": "C26", "title": "The quantized LSTM never leaves its integer ranges", "statement": "At every time step, for every input sequence and weights, hidden and cell states lie in their dtype ranges, and every gate look-up index is inside the table of that gate, so inference never raises an index error.", "quantifier": "every sequence length, every input, every weights, every step", "why_tests_cant": "inductive invariant over unbounded time", "anchors": ["inference_engine/itcl_inference_engine/layers/itclq/lstm.py:LSTM.infer"]}
{"id": "C27", "title": "LSTM batch rows are independent and the last output is the end of the sequence", "statement": "For every batch the LSTM treats each sample as if inferred alone; with return_sequences=False the output is the last element of what return_sequences=True returns.", "quantifier": "every batch, sequence length, parameters", "why_tests_cant": "unbounded histories", "anchors": ["inference_engine/itcl_inference_engine/layers/itclq/lstm.py:LSTM.infer"]}
{"id": "C28", "title": "LSTM outputs are causal", "statement": "The output sequence for the first t steps does not depend on later inputs: inferring a prefix gives the prefix of the outputs.", "quantifier": "every sequence and every split point", "why_tests_cant": "unbounded histories", "anchors": ["inference_engine/itcl_inference_engine/layers/itclq/lstm.py:LSTM.infer"]}
{"id": "C29", "title": "Calibration parameters represent zero and are valid", "statement": "Distribution.quantize() on every non-empty tensor (not forced) returns a positive scale and a zero point inside the integer range, so 0.0 is exactly representable, also for constant, all-positive and all-negative data. All-zero data gives scale 1/255 and zero point 0 for int8 (numpy widens the histogram range), the (1.0, 0) fallback is never reached for fresh data.", "quantifier": "every non-empty tensor of reals, symmetric or not, every dtype", "why_tests_cant": "data space infinite, rounding of the zero point at extreme ratios", "anchors": ["quantizer/itcl_quantizer/quantizer/distributions/distribution.py:Distribution.quantize"]}
{"id": "C30", "title": "Calibrated quantization error is at most half a step", "statement": "With the parameters returned by Distribution.quantize() every element of the calibration tensor is quantized and dequantized with an error of at most scale/2 — no calibration value is ever clipped by more than that.", "quantifier": "every tensor and every element of it, every dtype", "why_tests_cant": "interaction of zero point rounding and clipping at the ends of the range; worst case at isolated ratios", "anchors": ["quantizer/itcl_quantizer/quantizer/distributions/distribution.py:Distribution.quantize", "core/itcl_quantization/quantization/operators.py:Quantization.quantize"]}
{"id": "C31", "title": "Forced zero point quantization (kernels)", "statement": "With force_zp=0 and symmetric quantization the error for every element is at most scale/2 and q and -q are used symmetrically; with force_zp=0 and asymmetric int8 range the same bound is false, only a full-step bound holds.", "quantifier": "every tensor and element", "why_tests_cant": "worst case only at the largest positive element", "anchors": ["quantizer/itcl_quantizer/quantizer/distributions/distribution.py:Distribution.quantize"]}
{"id": "C32", "title": "Distribution slices keep the histogram invariant", "statement": "Every sequence of slices d[a:b] with a <= b on a Distribution keeps exactly one more edge than histogram bin, strictly increasing edges and data that is a contiguous part of the sorted original data; every existing bin can be read and its elements come from the sorted data and lie inside the bin; slicing the full range is the identity; slices at least one bin wide compose and have minimum and maximum within those of their parent. Reversed bounds, a stop below the range and slices narrower than a bin break these claims.", "quantifier": "every distribution and every sequence of slices", "why_tests_cant": "unbounded sequences of operations", "anchors": ["quantizer/itcl_quantizer/quantizer/distributions/distribution.py:Distribution"]}
{"id": "C33", "title": "Bias scale always equals input scale times kernel scale", "statement": "After quantizing a Dense layer, after every sequence of later parameter updates to its input and kernel tensors (with or without requantization; the bias tensor itself not updated directly) the bias scale equals input scale * kernel scale with zero point 0 and the stored bias integers are the quantization of the float bias under it, so the accumulator stays commensurable.", "quantifier": "every sequence of parameter updates", "why_tests_cant": "hook-driven mutable state over unbounded histories", "anchors": ["quantizer/itcl_quantizer/tensor_extractor/keras/layers/keras_dense.py:KerasDense.quantize", "quantizer/itcl_quantizer/tensor_extractor/tensor.py:NodeTensorBase.update_quant_parameters"]}
{"id": "C34", "title": "Stored quantized tensors agree with their parameters", "statement": "For a NodeTensorTensor, after construction and after every history of requantizing parameter updates, rounding-policy assignments and rounding resets that does not raise, the stored integers are the quantization of the float tensor with the current scale, zero point and rounding policy; updates with requantize=False leave the integers unchanged. A rounding policy stays in force over later updates, so after an update the integers are no longer nearest ones; reset_scale does not recompute them.", "quantifier": "every history of updates", "why_tests_cant": "unbounded histories", "anchors": ["quantizer/itcl_quantizer/tensor_extractor/tensor.py:NodeTensorTensor"]}
{"id": "C35", "title": "NodeTensorTensor.dequantized returns the dequantized tensor", "statement": "The dequantized view should equal (q - zp) * scale. The code computes q*scale + zp; the claim holds exactly when zp == 0 or scale == -1 ((q-zp)s = qs+zp iff zp*(s+1)=0), so for positive scales exactly when zp == 0; otherwise every value is off by zp*(scale+1).", "quantifier": "every tensor, scale, zero point", "why_tests_cant": "existing users only exercise zp=0", "anchors": ["quantizer/itcl_quantizer/tensor_extractor/tensor.py:NodeTensorTensor.dequantized"]}
{"id": "C36", "title": "A node's LUT matches its current parameters", "statement": "A LUT attached to a node should always be create_LUT of the current input/output parameters. This holds right after construction and after any history of input-parameter updates (with the stored rounding policy); it is false after an update of the activation's output node or after assigning a rounding policy (LUT not rebuilt).", "quantifier": "every history of updates", "why_tests_cant": "unbounded histories of hook calls", "anchors": ["quantizer/itcl_quantizer/tensor_extractor/tensor.py:NodeLUT"]}
{"id": "C37", "title": "QUBO energy equals the layer's squared error up to a constant", "statement": "For each output neuron, the energy of the QUBO built for AdaRound at any assignment of rounding bits equals the mean squared error over the dataset of the layer output with those roundings (inputs rounded half-even and not saturated, weights and bias floor plus bit) minus the error of the all-floor rounding; hence an assignment minimises the QUBO iff it minimises that squared error. It differs from the error of the real quantizer where inputs saturate or lie on rounding ties.", "quantifier": "every kernel, bias, dataset, scales and all 2^n bit assignments", "why_tests_cant": "exponentially many assignments over real data", "anchors": ["quantizer/itcl_quantizer/equalizers/adaround/qubocalculation.py", "quantizer/itcl_quantizer/equalizers/adaround/Calculationsint.py", "quantizer/itcl_quantizer/equalizers/adaround/qubo.py"]}
{"id": "C38", "title": "QUBO variables do not collide and neurons are independent", "statement": "The variable numbering used for kernel bits and bias bits is injective over all neurons and inputs, the four coefficient dictionaries never overwrite one another, no coefficient couples two different neurons, and so the joint minimum is obtained by minimising each neuron separately.", "quantifier": "every layer shape", "why_tests_cant": "index arithmetic for all shapes", "anchors": ["quantizer/itcl_quantizer/equalizers/adaround/qubocalculation.py", "quantizer/itcl_quantizer/equalizers/adaround/qubo.py"]}
{"id": "C39", "title": "QUBO samples are decoded back to the right weights", "statement": "Decoding a sample yields a kernel policy of the kernel's shape and a bias policy of the bias's shape, and the bit of input i and neuron l lands at kernel position (l,i) (the quantizer stores the kernel transposed), the bias bit in position l.", "quantifier": "every layer shape and every sample", "why_tests_cant": "layout (transpose/reshape) for all shapes", "anchors": ["quantizer/itcl_quantizer/equalizers/adaround/qubocalculation.py", "quantizer/itcl_quantizer/equalizers/adaround/qubo.py"]}
{"id": "C40", "title": "Annealing moves keep a valid rounding policy", "statement": "Every sequence of annealer moves keeps every policy tensor binary and of its original shape and each move flips exactly one bit of every tensor; bits at a flat position beyond the first dimension of the tensor can never change (so for matrices most roundings are unreachable).", "quantifier": "every random choice sequence of any length", "why_tests_cant": "unbounded random histories", "anchors": ["quantizer/itcl_quantizer/equalizers/adaround/annealer.py:RoundingAnnealer.move"]}
{"id": "C41", "title": "Local search never worsens the rounding", "statement": "The greedy refinement terminates and never returns something worse than it started from; AdaRound with the annealer always returns and, for energies different from 0, the policies written to the tensors are not worse than the initial ones and the returned cost is their energy. With energies that are never positive they are not worse either, whether or not 0 occurs. When the annealing energy is exactly 0 the returned policies can be strictly worse than the initial ones. In general the returned cost is the energy of the returned policies, except that an energy 0 left standing is reported as 2^63-1.", "quantifier": "every energy function, state and permutation set", "why_tests_cant": "arbitrary energy landscapes", "anchors": ["quantizer/itcl_quantizer/equalizers/adaround/annealer.py:RoundingAnnealer"]}
{"id": "C42", "title": "Parameter search never worsens the network", "statement": "The best-first parameter equalizer returns a cost not greater than the initial cost, its recorded costs strictly decrease, and on return the live tensors carry exactly the parameters of the best cost; every scale it ever proposes is positive and every zero point stays in the dtype range. It terminates if the loss takes finitely many values (at most (|S|+1)(max_retries+1) steps) and can run forever otherwise.", "quantifier": "every cost function, every random sequence, every retry limit", "why_tests_cant": "unbounded random search histories", "anchors": ["quantizer/itcl_quantizer/equalizers/param_equalizer/bfs_equalizer.py", "quantizer/itcl_quantizer/equalizers/param_equalizer/abstract_param_optimizer.py"]}
{"id": "C43", "title": "Scale perturbation stays within ten percent", "statement": "The random scale move changes a positive scale by less than one tenth of its value and keeps it positive after any number of moves; the zero point move changes it by exactly one and never leaves the dtype range.", "quantifier": "every positive scale, every random draw, any number of moves", "why_tests_cant": "log10/floor exponent arithmetic over all magnitudes", "anchors": ["quantizer/itcl_quantizer/equalizers/param_equalizer/abstract_param_optimizer.py"]}
{"id": "C44", "title": "Collision count", "statement": "calc_collisions of a float tensor and its quantization returns the number of lost distinct values plus the number of repeated quantized values; for pairwise different floats it is 0 iff no two elements share an integer, and it does not depend on the order of elements. With a decimal tolerance eps>0 the floats are first rounded to eps decimals (to nearest, ties to even) and the same formula applies to the rounded values. For float tensors with repeated values it is not the number of lost distinctions (identical [1,1] -> 1), and with a decimal tolerance it can be negative.", "quantifier": "every pair of tensors", "why_tests_cant": "combinatorial over all tensors", "anchors": ["quantizer/itcl_quantizer/util/collisions.py:calc_collisions"]}
{"id": "C45", "title": "The exported network preserves operators", "statement": "Network.as_json lists all operators of all layers in layer order, its operator count equals the length of the list, and the exported sequence for a supported Keras model is QUANTIZE, then the layer operators in model order, then DEQUANTIZE, each operator's first input being the previous operator's output. Every exported tensor (one to three dimensions) is written with its own scale, zero point, dtype and dimensions, as nested lists whose entries in row-major order are the quantized values; activations without data and without batch dimension.", "quantifier": "every network of supported layers", "why_tests_cant": "unbounded models", "anchors": ["quantizer/itcl_quantizer/util/network.py:Network", "quantizer/itcl_quantizer/tensor_extractor/keras/keras_builder.py"]}
{"id": "C46", "title": "tflite() makes every kernel symmetric, turns the equalisers off, and changes nothing else", "statement": "Config.tflite() sets symmetric kernels in the general layer options and disables whole-network AdaRound and parameter equalisation; every other option keeps its value, per-layer overrides are not converted and applying it twice equals applying it once. Building with such a configuration gives exactly the plainly quantized network whatever loss function is passed. Every kernel a dense layer without an override exports has zero point 0, codes in [-max, max] and each weight is within half a step of its code. A layer-wise AdaRound optimizer in the general options survives the call, and then quantizing any dense layer raises. The default configuration is int8 with int32 biases, asymmetric kernels, tables of depth 3, no equaliser; an equaliser stops after 100 retries by default.", "quantifier": "every configuration, loss function, dense model and representative data set", "why_tests_cant": "all option combinations and all weight matrices", "anchors": ["quantizer/itcl_quantizer/config/models/keras.py"]}
{"id": "C47", "title": "Float model conversion is faithful, in order, or fails", "statement": "keras2json visits the layers in model order and writes for each one exactly the operators of its kind with its own weights: two for a dense layer (transposed kernel and bias; activation), two for a 2-D convolution, one for LSTM, flatten and max-pooling, none for input, output and dropout layers; the recorded operator count is the length of the graph; it succeeds exactly if every layer is of a known kind and offers what that kind needs. Deviations: a dense layer without bias gets one zero per input instead of per unit; every class whose name contains Conv2D is written as a plain convolution of its first two weights; the result cannot be executed by the sequential interpreter.", "quantifier": "every list of layers", "why_tests_cant": "unbounded models and layer classes", "anchors": ["model_converters/keras2json/keras2json/_convert.py", "model_converters/keras2json/keras2json/layers/dense.py", "model_converters/keras2json/keras2json/layers/lstm.py", "model_converters/keras2json/keras2json/layers/conv2d.py", "model_converters/keras2json/keras2json/layers/maxpool2d.py"]}
{"id": "C48", "title": "ONNX conversion consumes every node once, and the fused network computes what the unfused nodes compute", "statement": "Building the ONNX operator graph terminates and consumes each node exactly once and in order: concatenating the nodes of all candidates yields the original node list. When every operator type is one of the plain ONNX names, exactly the consecutive triples DequantizeLinear, Tanh, QuantizeLinear become one TanhLUT and every other node is passed through (the matching is on the concatenated text, so a type that merely extends 'QuantizeLinear' is swallowed too). The fused TanhLUT and the SigmoidLUT built for QLinearSigmoid compute, on every 8-bit code, what the separate operators of the inference engine compute; hence a converted model starting with QuantizeLinear loads and infers the same result as running its nodes one by one. The first value_info entry of the graph is never found, so a model whose Tanh or Softmax input is that entry cannot be converted.", "quantifier": "every node list; every model of the supported node types; every input tensor", "why_tests_cant": "unbounded sequences with greedy prefix matching", "anchors": ["model_converters/onnx2json/helpers/graph.py:OnnxGraph"]}
{"id": "C49", "title": "ONNX weights survive the double transpose and the product is accurate", "statement": "The weight matrix exported by the ONNX converter (transposed) and transposed again when loaded by the inference engine is the original matrix, together with the original scales and zero points, so inference multiplies by the original weights; and whenever the exact product of the dequantized operands is representable in the output type, the inferred code dequantizes to within half an output step of it.", "quantifier": "every matrix shape and content, every input vector of 8-bit codes", "why_tests_cant": "all shapes", "anchors": ["model_converters/onnx2json/helpers/nodeBuilders/buildBaseNode.py:build_quantized_node", "inference_engine/itcl_inference_engine/layers/onnx/q_linear_mmul.py"]}
{"id": "C50", "title": "FPGA batching preserves order and completeness", "statement": "Whenever a batch is split for the FPGA, the messages' rows concatenated in order are the batch, nothing lost or duplicated, and a chunk survives the message encoding. The configured maximum does not bound the rows per message: every message has at least that many rows and fewer than twice as many; a batch shorter than the maximum makes the call fail. A message always claims two dimensions: a 1-D batch arrives as a column, and a batch of sequences as the batch of its flattened samples, so steps and features can no longer be told apart.", "quantifier": "every batch (one to three dimensions) and maximum batch size", "why_tests_cant": "all sizes; boundary at non-multiples", "anchors": ["demo/demo_lib/demo_lib/fpga.py:InferFPGAMQTT.__call__"]}
{"id": "C51", "title": "FPGA answers are matched to requests", "statement": "If the board answers each request at most once and nothing else arrives, then under every interleaving, delay and timeout a call either fails or returns the answers of all rows in batch order; if moreover no wait times out it cannot fail. It is false for duplicated messages and for late answers to an earlier call, since answers carry no request identity check, and a late signal can make a later chunk fail.", "quantifier": "every delivery schedule", "why_tests_cant": "interleavings of message delivery", "anchors": ["demo/demo_lib/demo_lib/fpga.py:InferFPGAMQTT"]}
{"id": "C52", "title": "LSTM export and inference agree on node layout", "statement": "The node order written by the LSTM quantizer is the one the inference engine reads. Quantize a Keras model with an LSTM layer of consistent weight shapes anywhere in it: the exported network has an LSTM operator for the layer; it loads exactly if its three rescaling factors are below 2^30(1-2^-32); and what is loaded is that layer: for each gate the kernel and recurrent-kernel entries of that gate within half a step, its biases as nearest int32 codes at scale input*kernel, its rescaling factors, a table answering every int8 code with the nearest code of that gate's activation, and parameters covering everything recorded in the calibration run; the loaded layer then answers every well-shaped sequence with int8 codes.", "quantifier": "every LSTM layer with consistent shapes, position in the model, calibration input, configuration, and integer input sequence", "why_tests_cant": "producer/consumer index contract across packages", "anchors": ["quantizer/itcl_quantizer/tensor_extractor/keras/layers/keras_lstm.py", "inference_engine/itcl_inference_engine/layers/itclq/lstm.py:LSTM.from_model", "core/itcl_quantization/ids.py"]}
{"id": "C53", "title": "ONNX Softmax normalises over the whole batch", "statement": "The ONNX Softmax layer should return, for every row, probabilities that sum to one. For a single sample it does; for a batch it divides by the sum over all rows, so a row of a batch is not the softmax of that row.", "quantifier": "every sample and every batch", "why_tests_cant": "all batches; tests use a single sample", "anchors": ["inference_engine/itcl_inference_engine/layers/onnx/softmax.py:Softmax.infer"]}
{"id": "C54", "title": "LSTM recurrent sum uses uncentred hidden codes", "statement": "The recurrent product of the quantized LSTM is computed from hidden state codes without subtracting the hidden zero point: it differs from the real recurrent product by a constant (zero point times column sum of the recurrent kernel) that is harmless only if that product is zero; the initial state uses code 0, which represents -zero_point*scale and not 0.", "quantifier": "every hidden state, recurrent kernel and zero point", "why_tests_cant": "the offset is invisible when the zero point is 0", "anchors": ["inference_engine/itcl_inference_engine/layers/itclq/lstm.py"]}
{"id": "C55", "title": "LSTM step accuracy", "statement": "One quantized LSTM step with exact tables keeps the dequantized gate, cell and hidden values within explicit bounds of the real LSTM formulas applied to the dequantized operands saturated to the range of their dtype (so of the formulas themselves where representable). The float factors are exact here; C96 has their float64 roundings.", "quantifier": "every step, state and weights", "why_tests_cant": "infinite state space", "anchors": ["inference_engine/itcl_inference_engine/layers/itclq/lstm.py"]}
{"id": "C56", "title": "Parameter search moves every zero point together", "statement": "Each candidate recorded as an improvement by the parameter search has changed every searched zero point by exactly +1 or -1, so a kernel constrained to zero point 0 (symmetric) loses that constraint after any odd number of recorded improvements.", "quantifier": "every random draw history", "why_tests_cant": "all histories of random draws", "anchors": ["quantizer/itcl_quantizer/equalizers/param_equalizer"]}
{"id": "C57", "title": "What later layers are calibrated on", "statement": "When the Keras quantizer processes a Dense layer, the layers after it are calibrated on that layer's activated output if the activation gets an operator of its own (tanh, sigmoid, others), but on the un-activated output x@kernel+bias if the activation is linear, softmax, relu or relu6; so after a relu layer the following layers are calibrated on negative values that can never occur at inference.", "quantifier": "every dense layer, kernel, bias, activation name and calibration batch", "why_tests_cant": "a test compares one network; the claim is about every layer and batch", "anchors": ["quantizer/itcl_quantizer/tensor_extractor/keras/layers/keras_dense.py KerasDense.quantize", "quantizer/itcl_quantizer/tensor_extractor/keras/layers/activations.py quantize_activation_node"]}
{"id": "C58", "title": "The annealing parameter equalizer leaves the last, not the best candidate", "statement": "ParamEqAnnealer applies candidates to the live network and a rejected candidate is not rolled back: on return the live network carries the parameters of the last candidate evaluated, not those of the best cost. The list and cost it returns are right: objects outside the network that hold the parameters reached by some sequence of accepted candidates, the cost of exactly those parameters, and no sequence of accepted candidates that begins the run has a smaller cost.", "quantifier": "every draw history", "why_tests_cant": "depends on acceptance history", "anchors": ["quantizer/itcl_quantizer/equalizers/param_equalizer"]}
{"id": "C59", "title": "Quantizing a dense model always succeeds", "statement": "Quantizing any sequential model of Dense, Dropout and Input layers whose shapes fit a non-empty calibration batch succeeds, provided the dtype texts name types, the kernel dtype is a signed type of at least two bits (int1 only with asymmetric, unsigned types only with symmetric range), no layer-wise AdaRound is configured, and every relu/relu6 layer has a largest calibration pre-activation above one 512th of the spread (relu6: spread at most 3072). Unsigned kernel dtypes with the default asymmetric range, and int1 with a symmetric one, never give a finite kernel scale.", "quantifier": "every model, weights, calibration batch and configuration meeting the stated conditions", "why_tests_cant": "totality over all weights and data cannot be sampled", "anchors": ["quantizer/itcl_quantizer/tensor_extractor/keras/keras_builder.py build", "quantizer/itcl_quantizer/tensor_extractor/keras/layers/keras_dense.py KerasDense.quantize", "quantizer/itcl_quantizer/quantizer/distributions/distribution.py Distribution.quantize"]}
{"id": "C60", "title": "Fused ReLU and ReLU6", "statement": "A Dense layer with activation relu exports one operator and its calibrated output represents every non-negative calibration pre-activation within half a step and every negative one within half a step plus spread/512 of zero, provided the largest pre-activation exceeds spread/512; for relu6 the represented value is within spread/512 plus half a step of min(max(x,0),6) if also the spread is at most 3072 and some pre-activation is at most 6. If all pre-activations exceed 7 the clip at 6 is lost; if all are negative by at least spread/512 (and not all equal) quantization raises. The zero point need not be the lowest code, so small negative values leak through.", "quantifier": "every dense layer with relu/relu6 and every calibration batch", "why_tests_cant": "depends on where the data fall relative to histogram bin edges", "anchors": ["quantizer/itcl_quantizer/tensor_extractor/keras/layers/keras_dense.py KerasDense.quantize", "quantizer/itcl_quantizer/quantizer/distributions/distribution.py Distribution.__getitem__"]}
{"id": "C61", "title": "An exported dense network loads in the inference engine exactly when its multipliers are representable", "statement": "Exporting a quantized sequential model of Dense (activation linear, softmax, relu, relu6, tanh or sigmoid), Dropout and Input layers gives a JSON document that the interpreter loads if and only if, for every FULLY_CONNECTED operator in it, input scale × kernel scale / output scale is below 2^30·(1 − 2^-32). This stays true after any legal history of tensor updates and policy changes made by the optimisers between quantization and export. A model with any other activation that the interpreter has no layer for is exported without complaint and then rejected by the interpreter, and log_softmax is exported as an operator that the interpreter loads as the identity.", "quantifier": "every activation function, configuration, calibration batch and dense model that is quantized, and every history of node updates before the export", "why_tests_cant": "The exporter and the loader live in different packages and meet only through the document; the loading criterion is a numeric threshold on scales that depend on the calibration data, and it must survive every optimiser history.", "anchors": ["quantizer/itcl_quantizer/tensor_extractor/keras/keras_builder.py build", "inference_engine/itcl_inference_engine/network/sequential.py"]}
{"id": "C62", "title": "The exported int8 network tracks the float model within a computable bound, for every input", "statement": "Take a Sequential model of Dense (linear, softmax logits, relu, relu6, or a non-expansive tanh/sigmoid-like function), Dropout and Input layers whose post-training quantization to int8 (int32 biases) succeeds and whose JSON export loads. For every input vector of the right length - not only calibration data - inference succeeds and every output differs from what the float model computes by at most an error bound that is propagated layer by layer from the exported scales and zero points, the float weights and the float activations: half an input step, one kernel step per weight, half a bias step (plus int32 bias saturation), the multiplier's 2^-31 relative error, half an output step, and the distance of the float activation from the calibrated range. On the calibration samples themselves (no rectified layer) each saturation term is at most half a step.", "quantifier": "all dense int8 models with up to 2^14 inputs per layer, all weights, calibration sets and input vectors", "why_tests_cant": "End-to-end accuracy tests compare a few samples of a few trained models; a bound for every input of every model needs induction over the layers and real-number error analysis.", "anchors": ["quantizer/itcl_quantizer/tensor_extractor/keras/keras_builder.py build", "quantizer/itcl_quantizer/tensor_extractor/keras/layers/keras_dense.py KerasDense.quantize", "inference_engine/itcl_inference_engine/network/sequential.py SequentialNetwork.infer"]}
{"id": "C63", "title": "Exported number formats and shapes are the configured ones", "statement": "Quantizing a sequential model of Dense, Dropout and Input layers exports a network that starts with a quantization to the configured input format, then has per dense layer one fully-connected operator (and one activation operator unless the activation is linear, softmax, relu or relu6) reading what the operator before wrote, and ends with a dequantization. Kernel, bias, sum and activation tensors of every layer have exactly the formats configured for that layer (its own entry, else the default); kernel and bias store their integers, the others do not; shapes leave out the batch. Exception: the sum's tensor carries the width of the layer's input, not its units. Known false reading: with an activation format wider than the sum's format, the activation table holds only codes of the narrower format, so part of the calibrated activation range is out of reach for every input.", "quantifier": "every model, configuration and calibration batch whose quantization succeeds", "why_tests_cant": "the layout must hold for any stack of layers and any mix of per-layer formats", "anchors": ["quantizer/itcl_quantizer/tensor_extractor/keras/layers/keras_dense.py KerasDense.quantize", "quantizer/itcl_quantizer/tensor_extractor/tensor.py NodeTensorTensor.as_json", "quantizer/itcl_quantizer/config/models/keras.py", "quantizer/itcl_quantizer/util/network.py"]}
{"id": "C64", "title": "Every exported node is calibrated on what the float model computes there", "statement": "After quantizing a dense model on a non-empty batch, the scale and zero point of the input node, of every fully-connected output (other than relu and relu6 layers) and of every activation output are calibrated on exactly the values the float model computes at that place from the batch: the zero point is a code of the configured format, every value (and 0) is within half a step of a code, and if the values vary the code range spans exactly from the smallest to the largest of them and 0.", "quantifier": "every model, weights, configuration and calibration batch", "why_tests_cant": "calibrating one node on the wrong layer's data still runs and still looks plausible on samples", "anchors": ["quantizer/itcl_quantizer/tensor_extractor/keras/layers/keras_dense.py KerasDense.quantize", "quantizer/itcl_quantizer/tensor_extractor/keras/layers/activations.py", "quantizer/itcl_quantizer/quantizer/distributions/distribution.py Distribution.quantize"]}
{"id": "C65", "title": "The LSTM's calibration run is the Keras recurrence", "statement": "While quantizing an LSTM layer the tool computes the hidden and cell states of the Keras LSTM recurrence for every sample and step, hands on all hidden states (return_sequences) or the last one, and calibrates the exported recurrent sums, hidden state and the activations of forget gate, candidate, output gate and cell state on them. The input gate is the exception: its activation is calibrated on the sigmoid of the sums of all four gates over the first `units` time steps only, so the quantized input gate cannot open wider than any gate did in those steps, however wide it opens later. The exported bias of a gate is an int32 node at scale input x kernel and zero point 0, its bias-add an int32 node at scale recurrent kernel x layer output and zero point 0.", "quantifier": "every LSTM with consistent shapes, number of units, samples, steps and weights", "why_tests_cant": "the recurrence must be right for any number of steps, and the slicing error is invisible when units is at least the number of steps and gates behave alike", "anchors": ["quantizer/itcl_quantizer/tensor_extractor/keras/layers/keras_lstm.py KerasLSTM.quantize"]}
{"id": "C66", "title": "A converted TFLite model is a faithful copy", "statement": "If the interpreter lists the model's tensors under their (distinct) names, converting a TFLite model yields one operator per operator of the first subgraph, in order and named after its type (tanh and logistic become table operators), with one node per operand and result carrying that tensor's type name, its per-tensor step and zero point, its shape and, for constants, its contents; inputs and outputs of the network likewise. Conversion succeeds exactly if all referenced operator codes and tensors exist, constants are readable, other tensors have a shape, nothing is quantized per channel, and table operators have an operand and a result. Defects stated as theorems: per-channel quantization makes any conversion fail, tensors sharing a name are exported with the wrong contents, and fused activations are dropped silently.", "quantifier": "all TFLite models (any number of operators, tensors, buffers, names, quantizations), all enumerations and all interpreters consistent with the model", "why_tests_cant": "the models are arbitrary graphs of arbitrary tensors; a test sees a handful of exported files, none with duplicate names or per-channel parameters", "anchors": ["model_converters/tflite2json/itcl_tflite2json/__init__.py:convert", "model_converters/tflite2json/itcl_tflite2json/operators/BaseOperator.py:build_from_node", "model_converters/tflite2json/itcl_tflite2json/util/enum2str.py:dtype2str"]}
{"id": "C67", "title": "FPGA loss is the loss of the candidate sent", "statement": "As long as no call has timed out and each published candidate is answered at most once, the calls of the board-backed cost function return, in order, the losses of the candidates they were made for, under every interleaving. After one timeout this is false for ever: with every request still answered once and in order, each later call can return the loss of the previous candidate.", "quantifier": "every sequence of candidates and delivery schedule", "why_tests_cant": "interleavings of message delivery and timeouts over unbounded histories", "anchors": ["demo/demo_lib/demo_lib/fpga.py:LossFPGA"]}
{"id": "C68", "title": "The integer stand-in for a real factor is nearest-rounded multiplication, with sharp limits", "statement": "FloatingIntegerApprox(m) for m > 0 can be built exactly when m < 2^30·(1 - 2^-32); its integer product with x differs from x·m by at most 1/2 + |x|·m/2^31 for every m of at least 2^-32·(1 - 2^-32), and is 0 for every x below that; multiplication never reorders operands and maps 0 to 0.", "quantifier": "every positive factor and every integer operand", "why_tests_cant": "all factors and all operands; the failures sit at the rounding carry and at two thresholds", "anchors": ["inference_engine/itcl_inference_engine/util/floating.py:FloatingIntegerApprox"]}
{"id": "C69", "title": "Activation operators compute their function element by element", "statement": "Built from an exported operator, the engine's TANH and LOGISTIC layers answer every int8 array, whatever its shape, with the int8 codes nearest to tanh/logistic of the real numbers the inputs stand for on the fixed output grids (1/128, 0) and (1/256, -128); RELU with shared parameters computes max(0,.) exactly and with a shared zero point within one output step where the code fits; QUANTIZE gives nearest codes under its output node's parameters, DEQUANTIZE the exact real numbers under its input node's; QLinearSigmoid gives nearest uint8 codes under the parameters of its second input node.", "quantifier": "every operator, scale, zero point, array shape and code", "why_tests_cant": "infinitely many scales and arrays", "anchors": ["inference_engine/itcl_inference_engine/layers/tflite/tanh.py", "inference_engine/itcl_inference_engine/layers/tflite/logistic.py", "inference_engine/itcl_inference_engine/layers/common/relu.py", "inference_engine/itcl_inference_engine/layers/tflite/quantize.py", "inference_engine/itcl_inference_engine/layers/tflite/dequantize.py", "inference_engine/itcl_inference_engine/layers/onnx/q_linear_sigmoid.py"]}
{"id": "C70", "title": "build with equalizers never returns a worse or a broken network", "statement": "With a loss function that is never exactly zero, or never positive (minus a number of hits), the network returned by build (parameter equalizer, AdaRound, both or none; any annealer settings) has a loss at most that of the plainly quantized network; operators, names, shapes, dtypes and table presence are unchanged; every fully-connected operator of the result has positive scales, zero points in the range of its exported dtypes, bias scale = kernel scale × input scale and bias zero point 0; every stored weight and bias integer is one of the two neighbours of weight/scale+zero point for the final parameters, clipped; AdaRound alone changes only tensor integers, each by at most one. With an LSTM layer, build with either equalizer raises. The 'base' optimizer is the annealer with no annealing steps and the same retry limit.", "quantifier": "every sequential model of dense, dropout and input layers, every configuration without the QUBO optimizer, every loss function without zeros, every sequence of random numbers and every number of iterations", "why_tests_cant": "all random histories, models and losses", "anchors": ["quantizer/itcl_quantizer/tensor_extractor/keras/keras_builder.py build", "quantizer/itcl_quantizer/equalizers/adaround/adaround.py AdaroundNet.round", "quantizer/itcl_quantizer/equalizers/adaround/annealer.py RoundingAnnealer", "quantizer/itcl_quantizer/equalizers/param_equalizer/param_equalizer.py ParamEqualizerFullNet", "quantizer/itcl_quantizer/tensor_extractor/keras/layers/keras_dense.py adaround"]}
{"id": "C71", "title": "A converted TFLite model computes what the TFLite model means", "statement": "In the network converted from a TFLite model: a tanh or logistic operator with an int8 operand answers every tensor of int8 codes with the codes nearest to the function of the real values; an int8 fully connected operator loads exactly if its requantization factor is below 2^30(1-2^-32) and then answers every code vector within half an output step (plus 2^-31 relative) of the exact real layer on the TFLite tensors' real values saturated to the output range; quantize gives nearest codes, dequantize the real values; the network runs these in order, quantizing the input first with the input tensor's parameters if the model starts with int8 input. Defects: uint8 tensors read the int8 table (all codes above 126 give one answer), quantize used to requantize codes ignores the operand's parameters, and softmax is the identity.", "quantifier": "all TFLite models, all operators in them, all tensors and code values", "why_tests_cant": "the accuracy bound and the nearest-code claim quantify over all codes, weights, scales and zero points of arbitrary models", "anchors": ["model_converters/tflite2json/itcl_tflite2json/operators/TanhLUT.py:build", "model_converters/tflite2json/itcl_tflite2json/operators/SigmoidLUT.py:build", "inference_engine/itcl_inference_engine/layers/tflite/fullyconnected.py:FullyConnected.from_model", "inference_engine/itcl_inference_engine/network/sequential.py:SequentialNetwork"]}
{"id": "C72", "title": "Quantize and dequantize in float64", "statement": "With IEEE binary64 rounding after every operation, as the code really computes: quantized codes stay in the dtype; order is preserved exactly; values beyond the representable interval saturate exactly; real zero maps to the zero point and back exactly; dequantize-then-quantize returns the code exactly for every normal scale; dequantize is within one part in 2^53; inside the interval the error is at most half a step plus the rounding errors of three operations; and the code equals the exactly rounded one unless x/s+zp lies within (4|x/s|+4|zp|+1)*2^-53 of a tie (the largest float below one half really does round up).", "quantifier": "every dtype that fits int32, every data value, zero point and scale, every code", "why_tests_cant": "an exact-arithmetic argument says nothing about rounding; the failing inputs are single floats next to ties", "anchors": ["core/itcl_quantization/quantization/operators.py:Quantization.quantize", "core/itcl_quantization/quantization/operators.py:Quantization.dequantize", "core/itcl_quantization/quantization/operators.py:Quantization.round"]}
{"id": "C73", "title": "Base rounding policy in floating point", "statement": "The base policy of AdaRound is meant to be round-to-nearest. The policy bit is computed in the tensor's own format (float32 for Keras weights) but applied in float64: it gives the round-to-nearest code except for values whose quotient by the scale is within (8|x/s|+8|zp|+8)*2^-p of an integer or a tie. Calibrated weights do hit the exception: with a symmetric scale the largest weight of a float32 kernel (0.001, say) is stored as 126 instead of 127.", "quantifier": "every format of 6 to 53 bits, dtype, value, zero point and normal scale", "why_tests_cant": "only inputs whose quotient is almost an integer misbehave, and which ones depends on rounding in two formats", "anchors": ["quantizer/itcl_quantizer/equalizers/adaround/irounding_policy.py:get_base_rounding", "core/itcl_quantization/quantization/operators.py:Quantization.quantize"]}
{"id": "C74", "title": "Calibration in floating point", "statement": "Calibration computed in floating point still yields a positive scale and a zero point inside the integer range, despite the cancelling subtraction in its formula; every value between the calibration minimum and maximum then survives float64 quantization up to s*(1/2 + 16*R*2^-p) (R = number of steps of the dtype, p = bits of the format); with symmetric, zero-point-forced calibration up to s*(1/2 + 8*qmax*2^-p).", "quantifier": "every float minimum and maximum with a non-subnormal range, every format of 8 to 53 bits, every dtype, every value in between", "why_tests_cant": "cancellation and rounding errors depend on the operands; needs a bound for all of them", "anchors": ["quantizer/itcl_quantizer/quantizer/distributions/distribution.py:Distribution.quantize", "core/itcl_quantization/quantization/operators.py:Quantization.quantize"]}
{"id": "C75", "title": "Dense layer with a float64 multiplier", "statement": "With input_scale*weight_scale/output_scale computed in float64, the integer rescale is within 1/2 + |acc|*M*(2^-31+2^-51) of acc times the exact factor M, and each output code of a dense layer is within so/2 + |Y|*(2^-31+2^-51) of the real pre-activation Y of the dequantized operands, plus exactly what saturation to int8 cuts off when Y does not fit (the output is always an int8 code).", "quantifier": "every scales with a normal product, weights, biases and inputs within the int8 bounds, every neuron", "why_tests_cant": "rounding of the multiplier interacts with the fixed-point rounding; needs a proof for all scales", "anchors": ["inference_engine/itcl_inference_engine/layers/tflite/fullyconnected.py:FullyConnectedQuantizedMultiplier", "inference_engine/itcl_inference_engine/layers/tflite/fullyconnected.py:FullyConnected.infer"]}
{"id": "C76", "title": "Calibration optimizers trim what they say", "statement": "FixedPercentOptimizer(percent) should cut the given share of outliers and KLDivergenceOptimizer should cut at the threshold of least divergence. Neither does. FixedPercent accepts exactly percent in [0,1] and then collapses all but the lowest hundredth of the data to one value at or below the first percentile; yet the calibrated minimum and maximum stay within one histogram bin of the untrimmed ones and the step shrinks by at most 2/bins, so outliers stay. The KL optimizer, whatever the divergences, drops everything above (bins-target)/bins of the maximum when the data start at 0, and drops nothing when the data start at or above their own width. Its candidate histogram keeps length and mass, except that a group of empty bins becomes NaN.", "quantifier": "every non-empty calibration array, every percentage, every number of bins >= 3, every dtype; every divergence function (so every outcome of the search) and every bins/target pair", "why_tests_cant": "the claims range over all data and all outcomes of the divergence search; the repository tests one literal histogram", "anchors": ["quantizer/itcl_quantizer/optimizers/fixed_percent.py:FixedPercentOptimizer.trim", "quantizer/itcl_quantizer/optimizers/kl_div_optimizer.py:KLDivergenceOptimizer.trim", "quantizer/itcl_quantizer/optimizers/kl_div_optimizer.py:KLDivergenceOptimizer.reduce", "quantizer/itcl_quantizer/quantizer/distributions/distribution.py:Distribution"]}
{"id": "C77", "title": "The layer-wise parameter search never hurts and works from the last layer to the first", "statement": "Run ParamEqualizerNet.equalize (with BFSEqualizer) on a network built from a Keras model. If the model has an LSTM layer it raises. Otherwise the loss of the returned network is at most the loss before, and if it is not smaller the export is exactly the one before. Layer by layer, from the last to the first, the loss can only go down, and while the later layers are searched the exported operators of all earlier layers stay as they were. Operators, names, shapes, dtypes and the presence of tables never change; every fully-connected operator keeps positive scales, zero points in range, bias scale = kernel scale × input scale and bias zero point 0. If the loss takes finitely many values every run returns.", "quantifier": "for every Keras model of Dense/Dropout/Input/LSTM layers, calibration data, loss function, retry limit, and all random numbers", "why_tests_cant": "the search is random and its searches act on the state the previous ones left, so a property of all runs needs an invariant over every sequence of moves", "anchors": ["quantizer/itcl_quantizer/equalizers/param_equalizer/param_equalizer.py: ParamEqualizerNet.equalize", "quantizer/itcl_quantizer/tensor_extractor/keras/layers/keras_dense.py: KerasDense.param_equalizer", "quantizer/itcl_quantizer/tensor_extractor/abstract_layer.py: param_equalizer", "quantizer/itcl_quantizer/equalizers/param_equalizer/bfs_equalizer.py: BFSEqualizer.optimize"]}
{"id": "C78", "title": "The per-layer collision report counts each node once – and the bias-add entry counts the layer input", "statement": "layer.calc_collisions(result, policy) of a dense layer returns exactly one entry per equalizable node under pairwise different names: the kernel's count, the bias-add's count divided by the batch size and rounded up, and, only when the activation is an operator of its own, the activation output's count per sample rounded up; sum_collisions is their sum. The bias-add entry is the policy applied to the layer's input data quantized with the parameters of the layer's output, not to the output. The rounded quotient is exact for counts up to 2^52. Counted without tolerance the kernel entry is 0 exactly when no two weights share a code. Input and output layers report nothing (total 0); on an LSTM result the call raises.", "quantifier": "every dense layer, configuration, calibration batch, counting policy and later state of the tensors", "why_tests_cant": "every name, every batch size, every policy; the float division must be exact for all counts", "anchors": ["quantizer/itcl_quantizer/tensor_extractor/keras/layers/keras_dense.py: KerasDense.calc_collisions, _get_nodes_eq, __quantize_bias_add", "quantizer/itcl_quantizer/tensor_extractor/abstract_layer.py: calc_collisions, sum_collisions"]}
{"id": "C79", "title": "Both QUBO builders build the same problem, and only the second one counts", "statement": "The rounding optimizer builds and samples every neuron's QUBO twice, once with the class ADAInt and once with the functions of qubocalculation. For every layer and neuron both QUBOs are equal, entry by entry and in order (rewriting the couplings a second time changes nothing), so the class's energy is the rounding error as well. The returned policies are decoded from the second pass only: with O neurons the sampler is asked 2*O times, and answers 0..O-1 never reach the result; with a sampler that answers equal QUBOs alike both passes agree.", "quantifier": "every layer (any numbers of samples, inputs, neurons, any weights, data, scales) and every sequence of sampler answers", "why_tests_cant": "two independent implementations must agree for all shapes and data; a sampler is random, so a test cannot tell which pass decided", "anchors": ["quantizer/itcl_quantizer/equalizers/adaround/Calculationsint.py:ADAInt", "quantizer/itcl_quantizer/equalizers/adaround/qubo.py:QUBOAnnealer._qubo_dense", "quantizer/itcl_quantizer/equalizers/adaround/qubocalculation.py:Unir_Diccionarios"]}
{"id": "C80", "title": "The saved QUBO matrix is the layer's QUBO", "statement": "After a layer is processed, Matrix.txt and Matrix2.txt hold the same matrix; its entry (i, j) is the layer QUBO's coefficient of the variables i+1 and j+1, or 0; it is symmetric, entries between different neurons are 0, and its quadratic form is the energy of the layer's QUBO at every assignment. The file shows entries to eight decimals: within 5e-9, and anything smaller is shown as 0, so a layer with small scales can be saved as an all-zero matrix.", "quantifier": "every layer, every cell, every assignment of the variables", "why_tests_cant": "the matrix accumulates over all neurons in place; that no neuron overwrites another must hold for all shapes", "anchors": ["quantizer/itcl_quantizer/equalizers/adaround/qubocalculation.py:Matrix_Calculation", "quantizer/itcl_quantizer/equalizers/adaround/Calculationsint.py:ADAInt.matrix_calculation", "quantizer/itcl_quantizer/equalizers/adaround/qubo.py:QUBOAnnealer._qubo_dense"]}
{"id": "C81", "title": "The QAOA route solves the same problem and decodes it alike", "statement": "Turning a QUBO into a quadratic program keeps every entry and the objective. The QUBO of every neuron is accepted (every variable is declared), the variables are declared weights first, bias last, so the decoded policy puts the optimizer's value for weight (l, i) at position i and the bias's last, as the annealing route does; with a minimising optimizer the decoded rounding is optimal. A QUBO lacking a linear entry for a variable other than the largest is rejected.", "quantifier": "every layer, neuron and optimizer answer; the reordering for every dictionary with distinct keys", "why_tests_cant": "declaration order depends on which labels occur, which depends on the data", "anchors": ["quantizer/itcl_quantizer/equalizers/adaround/qubocalculation.py:QAOA_Solution2", "quantizer/itcl_quantizer/equalizers/adaround/qubocalculation.py:Tensor_Redondeo2", "quantizer/itcl_quantizer/equalizers/adaround/Calculationsint.py:ADAInt.qaoa_solution"]}
{"id": "C82", "title": "Building a model with the QUBO rounding optimizer", "statement": "With the QUBO optimizer configured, build completes for every quantizable model without LSTM layers on a non-empty batch of flat samples, whatever the sampler answers; the exported network keeps operators, names, shapes, dtypes and tables (without a parameter search also every scale and zero point), and every exported weight and bias integer is one of the two neighbours of value/scale + zero point, clipped. If the sampler is exact, the integers of every neuron minimise the mean squared distance between the quantized neuron and the layer's float result over the calibration samples, among all choices of neighbours, so no neuron is worse than with plain rounding; this error is taken against the activated result, so with an activation operator the neuron's own pre-activation error can grow. The user's loss function is ignored, and LSTM models raise.", "quantifier": "all models, calibration batches, configurations, parameter searches, and sampler answers (possibly different for every call)", "why_tests_cant": "the optimum ranges over 2^(inputs+1) roundings of every neuron of every model", "anchors": ["quantizer/itcl_quantizer/equalizers/adaround/qubo.py:QUBOAnnealer", "quantizer/itcl_quantizer/equalizers/adaround/adaround.py:AdaroundNet.round", "quantizer/itcl_quantizer/tensor_extractor/keras/layers/keras_dense.py:KerasDense.adaround"]}
{"id": "C83", "title": "Accuracy of a quantized LSTM over whole sequences", "statement": "A quantized LSTM model that the inference engine loads answers every batch of sequences on which the inputs and the float layer stay in the calibrated ranges, and every hidden state it returns (all steps, or the last one) differs from the Keras layer's by at most a bound that is computed step by step from the exported scales, the weights' column sums, the Lipschitz constants of sigmoid and tanh and a bound of the forget gate, starting from 0 and including the effect of the hidden zero point that the recurrent products do not subtract. If one step does not enlarge some pair of errors, no sequence ever exceeds it. On the calibration sequences themselves no range assumption is needed, provided they have at most `units` steps (the input-gate range is calibrated on the first `units` steps only).", "quantifier": "all LSTM layers, calibration batches, loaded exports, input batches and sequence lengths", "why_tests_cant": "the error accumulates over an unbounded number of steps through two truncations, saturations and five tables per step", "anchors": ["quantizer/itcl_quantizer/tensor_extractor/keras/layers/keras_lstm.py", "inference_engine/itcl_inference_engine/layers/itclq/lstm.py:LSTM.infer"]}
{"id": "C84", "title": "What an ONNX file means, and that the converted network computes it", "statement": "For every ONNX node with a standard meaning (quantization, dequantization, quantized matrix product, addition and sigmoid, tanh, softmax), the converter followed by the loader yields exactly the operator with the numbers of the file: every scale, zero point, weight and bias comes from the last constant of the name the node gives in that position, and a tanh or softmax entry records the sizes of the tensors it connects. A model of such nodes that starts with a quantization converts, loads, and computes the composition of the operators. The exported file declares its inputs twice: the declared outputs are a copy of the inputs, whatever the outputs of the model.", "quantifier": "all ONNX models made of these nodes, all inputs", "why_tests_cant": "all models, constants in any order and with repeated names", "anchors": ["model_converters/onnx2json/helpers/nodeBuilders/buildBaseNode.py", "model_converters/onnx2json/helpers/buildOperator.py", "model_converters/onnx2json/2json.py", "inference_engine/itcl_inference_engine/layers/onnx"]}
{"id": "C85", "title": "Accuracy of converted ONNX networks", "statement": "The converted network answers every non-empty batch of vectors of the declared length, and each number it returns (or that a returned code stands for) differs from the model evaluated in exact real arithmetic by at most an error accumulated operator by operator: half an output step plus what the exact value lies outside the output range, the previous error times the largest absolute column sum of the weights, or times the Lipschitz constant of sigmoid and tanh. With a final softmax and one row, the probabilities are within K²−1, K being the factor by which exponentials can differ at that error.", "quantifier": "all ONNX models whose consecutive operators fit, all batches", "why_tests_cant": "the bound must hold for all networks and inputs, through roundings and saturations", "anchors": ["model_converters/onnx2json/2json.py", "inference_engine/itcl_inference_engine/layers/onnx/q_linear_mmul.py", "inference_engine/itcl_inference_engine/layers/onnx/softmax.py"]}
{"id": "C86", "title": "Noise metrics of distributions", "statement": "A histogram over any data counts every value exactly once; a histogram with counts normalizes to shares that are never negative and add up to 1, one without counts to NaN. Comparing two histograms of the same number of bins by mse is symmetric, between 0 and 2 divided by the number of bins, and 0 exactly for equal shares. By kl_divergence it is finite and never negative although zeros are replaced, and below 10^10 values 0 exactly for equal shares; without normalization the replacement has no effect and the result is infinite exactly if an occupied bin meets an empty one. By cross_entropy it is finite exactly if the second histogram has no empty bin, and smallest when the second equals the first.", "quantifier": "all data, bin counts and pairs of histograms", "why_tests_cant": "an inequality over all histograms, with sharp cases for equality", "anchors": ["quantizer/itcl_quantizer/quantizer/metrics/noise.py", "quantizer/itcl_quantizer/quantizer/distributions/distribution.py"]}
{"id": "C87", "title": "Noise-driven range search", "statement": "ScipyOptimizer cannot prefer any range for data that spans less than 1: every candidate costs the same. For data that spans at least 1 its start, the full range, has a finite cost with int8 and mse; whatever the minimiser returns, if it is no worse than the start the result is at least 1 wide, inside the data, and the trimmed distribution keeps every value in it. The parameters it evaluates are always those of int8: with an unsigned 8-bit type and non-negative values up to M every value in the lower half of the range is evaluated as 128/255 of M. The cost of a candidate at least 1 wide and inside the data is the metric between two histograms on the same equal parts of the whole range: of the data, and of all the data sent through the optimizer's type with the parameters of the kept values.", "quantifier": "all data, bin counts, types, metrics, and all results of the minimiser", "why_tests_cant": "all data and all candidate ranges; the minimiser may return any pair", "anchors": ["quantizer/itcl_quantizer/optimizers/scipy_optimizer.py"]}
{"id": "C88", "title": "Threshold of the divergence search", "statement": "KLDivergenceOptimizer cuts the data at half a bin above its chosen candidate. The candidate is the one of least divergence between the clamped histogram (everything beyond counted in the last kept bin) and the histogram with group means, the first one on ties, provided no candidate has a group of bins without values. As soon as one has, its divergence is NaN and the first such candidate wins: if one of the lowest eight 128ths of the range is empty (default settings), everything above one and a half of the 2048 bins is discarded, whatever the rest of the data.", "quantifier": "all calibration data, all bins/target pairs", "why_tests_cant": "a minimum over all candidates, and a failure that depends on where values are absent", "anchors": ["quantizer/itcl_quantizer/optimizers/kl_div_optimizer.py:KLDivergenceOptimizer.trim", "quantizer/itcl_quantizer/optimizers/kl_div_optimizer.py:KLDivergenceOptimizer.reduce", "quantizer/itcl_quantizer/quantizer/metrics/noise.py"]}
{"id": "C89", "title": "Configuration files", "statement": "Writing a configuration (as the sample generator does) and loading it with from_json/from_yml gives it back, except layer-specific entries that are not dense configurations: these come back as the default dense configuration. Absent keys take their defaults, also within a section, given settings take the value of the file, and unknown keys are ignored. A file or a section that is not a mapping is refused (only the optional sections may be null). A rounding optimizer without a name is never the annealer, whatever settings it has: it is the plain search, or the QUBO solver if max_retries is not a number; unknown names are rejected. A layer-specific entry with no key of a dense configuration gives that layer the defaults, not the general dense section; one with a bad value loads as a quantization entry and makes quantizing the model raise. reduced_depth has no effect.", "quantifier": "all configurations, all files, all conversion rules for scalar values that keep a value of the declared type", "why_tests_cant": "ranges over every file and every configuration; the surprising cases come from how unions are resolved", "anchors": ["quantizer/itcl_quantizer/config/models/keras.py:QuantizerCfg.from_json", "quantizer/itcl_quantizer/config/models/keras.py:QuantizerCfg.from_yml", "quantizer/itcl_quantizer/config/models/keras.py:KerasLayer", "quantizer/itcl_quantizer/config/samples/_create_samples.py:main"]}
{"id": "C90", "title": "Accuracy of recurrent networks on batches", "statement": "A quantized Keras model of LSTM layers (all but the last returning sequences) followed by int8 dense layers, dropout and input layers anywhere, answers one row per sequence for every batch on which inputs and float LSTM layers stay in the calibrated ranges, and every output differs from the float model's by at most a bound computed layer by layer: each LSTM layer takes the error of the one before as its input error, the last hidden state's error goes through the dense layers. On the calibration sequences (at most `units` steps, no rectified dense layer) nothing is assumed of the activations.", "quantifier": "all models of this shape with any number of layers, all calibration data, loaded exports, batches and sequence lengths", "why_tests_cant": "errors pass through arbitrarily many recurrent and dense layers and steps", "anchors": ["quantizer/itcl_quantizer/tensor_extractor/keras/keras_builder.py", "quantizer/itcl_quantizer/tensor_extractor/keras/layers/keras_lstm.py:KerasLSTM.quantize", "quantizer/itcl_quantizer/tensor_extractor/keras/layers/keras_dense.py", "inference_engine/itcl_inference_engine/network/sequential.py:SequentialNetwork.infer", "inference_engine/itcl_inference_engine/layers/itclq/lstm.py:LSTM.infer"]}
{"id": "C91", "title": "What the exported file takes from the calibration data", "statement": "Quantizing a Keras model with the same calibration samples in another order succeeds again and writes the identical file, whatever its layers. Without LSTM and relu/relu6 layers the same holds when samples are repeated any number of times: only the set of samples counts. With relu this fails (a counterexample is proved), and the file of a model with an LSTM layer contains the number of samples, as the batch dimension of that layer's output tensor. Adding samples never makes a scale smaller: the input's scale and every operator's output scale only grow, wherever the values computed from the smaller data are not all equal (relu and relu6 aside).", "quantifier": "all models, configurations, calibration data and permutations, repetitions and supersets of them", "why_tests_cant": "no finite set of orders, repetitions and models covers all of them", "anchors": ["quantizer/itcl_quantizer/tensor_extractor/keras/keras_builder.py", "quantizer/itcl_quantizer/tensor_extractor/keras/layers/keras_dense.py:KerasDense.quantize", "quantizer/itcl_quantizer/tensor_extractor/keras/layers/keras_lstm.py:KerasLSTM.quantize", "quantizer/itcl_quantizer/quantizer/distributions/distribution.py"]}
{"id": "C92", "title": "The engine in IEEE binary64, on any int8 network file", "statement": "Load any int8 network file of the TFLite-style engine (a quantize operator, fully connected, look-up table and ReLU operators whose parameters and sizes fit together, the ReLU's results all being int8 codes, a dequantize operator), with all of the engine's float computations rounded to float64: loading succeeds, inference of a sample or a non-empty batch succeeds, and every output is within an explicit accumulated bound (half a step per quantization, what saturation cuts off, the 31-bit multiplier, the float64 roundings, errors propagated through the weights and the tables' functions) of what the file means in real arithmetic. A rectifier that the file leaves to saturation counts as the identity and costs what saturation does differently. A table entry computed in float64 has the accuracy this needs, and a ReLU with equal parameters on both sides is computed exactly; with other parameters it is precise to one output step, moved by input step times the difference of the zero points (C22). In every file, the rescale factor of a ReLU is the quotient of its scales and its zero points are those of the file; TANH and LOGISTIC are computed with the fixed parameters; loading and inference of a file succeed exactly when those of its operators do, and a legacy input is quantized to int8 first.", "quantifier": "all such files of any depth and size, all samples and batches", "why_tests_cant": "the error of a chain of layers depends on every weight, scale and input; float64 rounding adds cases no sample of networks reaches", "anchors": ["inference_engine/itcl_inference_engine/network/sequential.py:SequentialNetwork.infer", "inference_engine/itcl_inference_engine/layers/tflite/fullyconnected.py:FullyConnected", "inference_engine/itcl_inference_engine/layers/tflite/quantize.py", "inference_engine/itcl_inference_engine/layers/tflite/dequantize.py", "inference_engine/itcl_inference_engine/layers/common/relu.py"]}
{"id": "C93", "title": "Parts of a model and of a configuration do not interfere", "statement": "Dropout and input layers can be added to or removed from a model without changing the exported file. Configuration entries for layers the model does not have, or that repeat the default configuration, change nothing, and two configurations that agree on the layers of the model give the same file. If a model quantizes, the model made of its first layers quantizes too and its operators, up to the final dequantization, are the first operators of the longer model's file.", "quantifier": "all models, prefixes of them, configurations and calibration data", "why_tests_cant": "no finite set of models, cut points and configurations covers all of them", "anchors": ["quantizer/itcl_quantizer/tensor_extractor/keras/keras_builder.py", "quantizer/itcl_quantizer/tensor_extractor/keras/layers/keras_dense.py:KerasDense.quantize", "quantizer/itcl_quantizer/tensor_extractor/keras/layers/keras_lstm.py:KerasLSTM.quantize"]}
{"id": "C94", "title": "The exported file as a function of weights, configuration and calibration data", "statement": "The operators of the exported file are a function of the weights, the configuration and the calibration data alone: the scales come from the calibration of the data at each point, the integers from quantizing the (for dense layers clipped) weights and the bias at these scales, the tables from the activations between two calibrated points. This holds for dense and LSTM layers in any order. Sharing of node objects, update hooks and the order in which nodes are completed have no effect on the file, and quantization fails exactly when one of these calibrations fails.", "quantifier": "all models of dense, LSTM, dropout and input layers, all configurations and calibration data", "why_tests_cant": "no finite set of models covers all of them", "anchors": ["quantizer/itcl_quantizer/tensor_extractor/keras/keras_builder.py", "quantizer/itcl_quantizer/tensor_extractor/keras/layers/keras_dense.py:KerasDense.quantize", "quantizer/itcl_quantizer/tensor_extractor/keras/layers/activations.py", "quantizer/itcl_quantizer/util/network.py"]}
{"id": "C95", "title": "Quantizer and engine together in floating point", "statement": "Quantize an int8 model of dense layers with all of the quantizer's computations rounded as in IEEE arithmetic (float32 or float64 calibration, weights and products of scales; Keras' own float results may be anything). If this succeeds, the file is one the engine of C92 loads: its operators are those of the layers in order, the stored weight and bias integers stand for the weights and biases within half a step plus rounding errors plus what saturation cuts off, and the table entries for the activation within one step plus rounding errors. If the scales in the file are neither tiny nor huge, then for every sample and every non-empty batch, the outputs of the engine (float64) are within an explicit bound of the float model: the engine's error on the file plus the error of the stored weights.", "quantifier": "all int8 models of dense layers of any depth and size, all calibration data, all mixtures of float32 and float64, all samples and batches", "why_tests_cant": "the error depends on every weight, scale and input; rounding in the quantizer and in the engine adds cases no sample of models reaches", "anchors": ["quantizer/itcl_quantizer/tensor_extractor/keras/keras_builder.py", "quantizer/itcl_quantizer/tensor_extractor/keras/layers/keras_dense.py:KerasDense.quantize", "quantizer/itcl_quantizer/util/network.py", "inference_engine/itcl_inference_engine/network/sequential.py:SequentialNetwork.infer", "inference_engine/itcl_inference_engine/layers/tflite/fullyconnected.py:FullyConnected"]}
{"id": "C96", "title": "Recurrent networks in the engine with IEEE binary64 arithmetic", "statement": "Load any int8 network file with a quantize operator, LSTM operators (all but the last returning sequences), fully connected and look-up table operators that fit together and a dequantize operator, with every float computation of the engine rounded to float64, in the order the code computes it. If the factors of the LSTM layers are neither tiny nor huge, loading succeeds, and for every non-empty batch of sequences of any length on which the recurrent layers stay in their calibrated ranges inference succeeds and every output is within an explicit bound of what the file stands for in real arithmetic: the step-by-step bound of C83 enlarged by a relative error 2^-49 of the float computations and the tolerance of the tables, then the bound of C92 for the rest. Any usable int8 LSTM operator (matrices of the right sizes, int8 codes, tables of sigmoid and tanh) stands for the layer of its dequantized weights; what the quantizer exports for an LSTM layer stands for that layer, and the exported file of a model with one LSTM layer answers in float64 within that bound of the Keras layer.", "quantifier": "all such files, layers, batches and sequence lengths", "why_tests_cant": "rounding errors accumulate over an unbounded number of steps, each truncating and saturating", "anchors": ["inference_engine/itcl_inference_engine/layers/itclq/lstm.py:LSTM", "inference_engine/itcl_inference_engine/network/sequential.py:SequentialNetwork.infer", "quantizer/itcl_quantizer/tensor_extractor/keras/layers/keras_lstm.py"]}
{"id": "C97", "title": "Recurrent models quantized and run in floating point", "statement": "Quantize a model of LSTM layers (all but the last returning sequences), int8 dense layers, dropout and input layers, with the quantizer computing scales, products, weights, biases and tables in float32 or float64, and load the exported file in the engine computing in float64. The file has one LSTM operator per LSTM layer, in order. For every budget per layer that has the scales of the operator, leaves room for the errors of its stored weights, biases and tables, and has factors that are neither tiny nor huge, the file stands for the model in the sense of C96, loading succeeds, and for every non-empty batch of sequences of any length on which the layers stay in their calibrated ranges every output is within an explicit bound of the float model on that sequence: the bound of C96 and the drift of the exported dense layers of C95.", "quantifier": "all such models, calibration data, float formats, budgets, batches and sequence lengths", "why_tests_cant": "rounding errors of the quantizer and of the engine meet in every weight, table entry and step", "anchors": ["quantizer/itcl_quantizer/tensor_extractor/keras/layers/keras_lstm.py", "quantizer/itcl_quantizer/tensor_extractor/keras/layers/keras_dense.py", "quantizer/itcl_quantizer/tensor_extractor/keras/keras_builder.py", "inference_engine/itcl_inference_engine/layers/itclq/lstm.py:LSTM", "inference_engine/itcl_inference_engine/network/sequential.py:SequentialNetwork.infer"]}
{"id": "C98", "title": "ONNX networks converted and run in IEEE binary64", "statement": "Convert an ONNX model of quantizations, dequantizations, matrix products, additions, sigmoids and tanhs whose nodes fit together and whose scales are normal float32 numbers, with the look-up tables computed in float64, and run the network in float64; the library functions sigmoid and tanh used by converter and engine are within some δ of the ideal ones. Conversion and loading succeed, every non-empty batch of real vectors of the right length is answered, and every number returned (or that a returned code stands for) differs from the result of the model in exact real arithmetic, row by row, by at most an explicit bound: that of C85 with every half step enlarged by 2^-40 steps, 2^-40 steps for every dequantization and for the operands of an addition, and δ for every function. A QLinearSigmoid operator in a hand-written file (the converter never leaves one) obeys the same bound on uint8 arrays of any shape.", "quantifier": "all such models of any depth and size, library functions, batches", "why_tests_cant": "rounding in the rescale factor, the sums, the table entries and near ties happens for particular scales and codes only; the error accumulates over the chain", "anchors": ["model_converters/onnx2json/helpers/graph.py:OnnxGraph.build_graph", "model_converters/onnx2json/helpers/nodeBuilders/Tanh.py:TanhLUT", "model_converters/onnx2json/helpers/nodeBuilders/QLinearSigmoid.py:SigmoidLUT", "inference_engine/itcl_inference_engine/layers/onnx/q_linear_add.py:QLinearAdd.infer", "inference_engine/itcl_inference_engine/layers/onnx/q_linear_mmul.py:QLinearMatMul.infer", "inference_engine/itcl_inference_engine/layers/onnx/build_operator.py:build_operator", "inference_engine/itcl_inference_engine/network/sequential.py:SequentialNetwork.infer"]}
{"id": "C99", "title": "Class probabilities in floating point", "statement": "The ONNX Softmax operator with rounding after every exponential, addition and division. In any binary format, whatever positive library exponential and whatever order numpy adds in, all results lie between 0 and 1, and a score with a larger exponential never gets a smaller result. In float64, with a library exponential accurate to 2^-50 and at most 2^32 scores of magnitude at most 300, every result is the true probability exp(v)/sum exp(u) (real exponential function, over the whole array, see C53) up to a factor (1+2^-49)^(n+4), the results add up to 1 up to that factor, and a score larger by 2^-47 gets a strictly larger result. A converted ONNX model as in C98 that ends in a Softmax, run on a single sample, returns the true probabilities of the exact model up to the factor exp(2e)(1+2^-49)^(n+4), where e is the error bound of C98 for the scores; and a class whose exact score leads another by 2e + 2^-47 gets a strictly larger probability, so the predicted class is right whenever the lead is that large.", "quantifier": "all scores, summation orders, library exponentials; all such models, depths and samples", "why_tests_cant": "summation order and last-digit rounding depend on length and data; the predicted class flips only near ties", "anchors": ["inference_engine/itcl_inference_engine/layers/onnx/softmax.py:Softmax.infer", "inference_engine/itcl_inference_engine/layers/onnx/build_operator.py:build_operator", "inference_engine/itcl_inference_engine/network/sequential.py:SequentialNetwork.infer", "model_converters/onnx2json/helpers/nodeBuilders/Softmax.py", "model_converters/onnx2json/helpers/graph.py:OnnxGraph.build_graph"]}
{"id": "C100", "title": "Accuracy of converted TFLite networks in float64", "statement": "A fully quantized TFLite model (a QUANTIZE operator, then FULLY_CONNECTED operators with int8 weights and optional fused rectifiers, TANH and LOGISTIC operators, and RELU operators with one zero point on both sides and an output step not below the input step, in sequence, then DEQUANTIZE) that the converter accepts, with the look-up tables computed in float64 by library functions within delta of the ideal ones, loads in the inference engine; and for every sample and every non-empty batch, in float64 arithmetic, every output is within an explicit accumulated bound of what the model means in real arithmetic, the fused activations included: per dense layer half an output step, the input errors times the weights, a relative 2^-31 + 2^-51 and what saturation cuts off differently from the fused activation (which the converter does not read, C66); per table half an output step plus 2^-40 of the steps plus delta plus the Lipschitz constant times the input error; per ReLU one output step.", "quantifier": "all such models (any depth, widths up to 2^14, scales and zero points within the stated range), all samples and batches, all library functions within delta", "why_tests_cant": "depends on every weight, scale and input; rounding errors accumulate over layers", "anchors": ["model_converters/tflite2json/itcl_tflite2json/__init__.py:convert", "model_converters/tflite2json/itcl_tflite2json/operators/BaseOperator.py:BaseOperator.build", "model_converters/tflite2json/itcl_tflite2json/operators/TanhLUT.py:TanhLUT.build", "model_converters/tflite2json/itcl_tflite2json/operators/SigmoidLUT.py:SigmoidLUT.build", "inference_engine/itcl_inference_engine/network/sequential.py:SequentialNetwork.infer", "inference_engine/itcl_inference_engine/layers/tflite/fullyconnected.py:FullyConnected.infer", "core/itcl_quantization/quantization/operators.py:Quantization.create_LUT"]}
{"id": "C101", "title": "The predicted class survives quantization", "statement": "If one class wins in the exact model (the float Keras model, dense or recurrent; the real-arithmetic meaning of a TFLite or ONNX model) by more than its own plus the other class's error bound (C95, C97, C100, C98), then the inference engine, in float64 and on a whole batch, gives that class a strictly larger output than every other class: argmax of the quantized network and of the exact model agree on every sample that is not a near tie.", "quantifier": "all models, samples and batches covered by C95, C97, C98, C100; every class", "why_tests_cant": "a test set samples inputs; the agreement must hold for every input outside an explicit margin", "anchors": ["inference_engine/itcl_inference_engine/network/sequential.py:SequentialNetwork.infer", "quantizer/itcl_quantizer/tensor_extractor/keras/keras_builder.py", "model_converters/tflite2json/itcl_tflite2json/__init__.py:convert", "model_converters/onnx2json/helpers/graph.py:OnnxGraph.build_graph"]}
{"id": "C102", "title": "Batches in the floating point engine", "statement": "In every floating point format, inferring a non-empty batch gives, in order, exactly the answers to its samples inferred one at a time (as batches of one; for networks without LSTM also as 1-D arrays), and fails iff one of them does: a sample's result depends neither on batch size nor on the other samples. Holds for every network, TFLite-style or ONNX-style, recurrent or not, without the ONNX Softmax (C53), also when the engine itself quantizes the inputs.", "quantifier": "every float format, network, batch of vectors or sequences, batch size; library functions arbitrary", "why_tests_cant": "batch sizes, compositions and networks are unbounded, and the code paths for batches and single samples differ", "anchors": ["inference_engine/itcl_inference_engine/network/sequential.py:SequentialNetwork.infer", "inference_engine/itcl_inference_engine/layers/onnx/q_linear_mmul.py:QLinearMatMul.infer", "inference_engine/itcl_inference_engine/layers/onnx/q_linear_add.py:QLinearAdd.infer", "inference_engine/itcl_inference_engine/layers/itclq/lstm.py:LSTM.infer"]}
{"id": "C103", "title": "Networks without conversion operators at their ends", "statement": "An int8 network file, or a converted TFLite model, may lack the quantize operator in front, the dequantize operator at the end, or both. Without the former the engine quantizes the input with the parameters of the file's input node; without the latter it returns the int8 codes themselves (although the documentation of infer promises numbers), and these stand for the real network's outputs within the bound of C92/C100; with a dequantize operator the numbers are within that bound. Whether the input is quantized depends only on the first operator's name: a fully connected operator called e.g. 'quantized dense' gets the input truncated to integers instead.", "quantifier": "every int8 network file and convertible TFLite model of fully connected and look-up table operators, every sample and batch, float64 arithmetic", "why_tests_cant": "parameters, weights, inputs and networks are unbounded; the error is a bound over all of them", "anchors": ["inference_engine/itcl_inference_engine/network/sequential.py:SequentialNetwork.infer", "inference_engine/itcl_inference_engine/network/sequential.py:SequentialNetwork.__init__", "model_converters/tflite2json/itcl_tflite2json/__init__.py"]}
{"id": "C104", "title": "The losses of the quantization scripts", "statement": "With the scripts' loss (minus the number of samples whose argmax is the label; ties go to the first class), the quantized network in the float64 engine scores at least as many hits as there are samples on which the label wins in the exact model (Keras dense or recurrent, TFLite, ONNX) by more than the error bounds of C95, C97, C100, C98, and misses every sample on which another class wins by as much. The same holds for the codes of int8 network files and ONNX models that end without a dequantize operator. With the mean squared error, the quantized network's loss differs from the exact model's on the same targets by at most the mean of e(2|t-y|+e) over all outputs, e the output's error bound. build with the hit loss never returns a network with fewer hits than the plainly quantized one, also when the loss passes through 0, and one that can be loaded and run if the plain one hits anything.", "quantifier": "every model of C95/C97/C98/C100, every non-empty batch, all labels and targets of the right shape; for build every configuration without the QUBO optimizer and all random numbers", "why_tests_cant": "datasets, networks, near ties and random draws are unbounded; a test sees one dataset and cannot separate luck from a bound", "anchors": ["quantizer/quantize_mnist.py: loss", "quantizer/qubo_adaround/quantize.py: loss", "quantizer/qubo_adaround/quantize_clasificacion.py: loss", "quantizer/qubo_adaround/quantize_regresion.py: loss", "quantizer/itcl_quantizer/tensor_extractor/keras/keras_builder.py: build", "inference_engine/itcl_inference_engine/network/sequential.py: SequentialNetwork.infer"]}
{"id": "C105", "title": "Classifiers with a softmax head predict the most probable class", "statement": "The engine's SOFTMAX layer for TFLite networks returns its input. A network file that ends with SOFTMAX, or with SOFTMAX and DEQUANTIZE, behind dense and table operators therefore answers, in float64, every non-empty batch with the codes of the scores (not of the probabilities), or with the scores read with the step and zero point of the softmax output, an affine image of the scores within the bounds of C92. Still, for each sample whose best class wins by more than the error bounds on the scores, the largest answer is at the class with the largest softmax probability. The same holds for every TFLite model of quantize (or an int8 input), fully connected, tanh and logistic operators, softmax and dequantize that the converter converts, where it bounds the number of labels that the build's hit count sees, and for dense Keras models whose last layer has a softmax activation, which the exporter drops.", "quantifier": "every network file of that form, every step and zero point, every batch of samples, every label list, every TFLite model of that form that converts, every dense Keras model with a softmax layer that is exported", "why_tests_cant": "The MNIST demos only compare a few classes; neither the missing softmax nor the margin within which classes are right shows in an accuracy figure, and no test covers all networks and inputs.", "anchors": ["inference_engine/itcl_inference_engine/layers/tflite/softmax.py:SoftMax.infer", "inference_engine/itcl_inference_engine/layers/tflite/dequantize.py:Dequantize.infer", "inference_engine/itcl_inference_engine/network/sequential.py:SequentialNetwork.infer"]}
{"id": "C106", "title": "Networks with TANH, LOGISTIC and RELU operators that have no table", "statement": "A network file of the TFLite-style engine whose operators are fully connected, look-up table, RELU, TANH and LOGISTIC operators (the last two computed by the engine's own functions, within delta of the ideal ones, and always written with step 1/128 and zero point 0, or step 1/256 and zero point -128) that fit together loads, and in float64 arithmetic every sample and every non-empty batch is answered with codes that stand for the exact outputs within the accumulated bound; with a dequantize operator at the end with numbers within that bound, and the predicted class is the exact one if it wins by more than the bounds.", "quantifier": "all such files of any depth and size, with or without a quantize operator in front, all samples and batches, all library functions within delta", "why_tests_cant": "The bound must hold for every network, parameter and input; tests run single operators on a few arrays.", "anchors": ["inference_engine/itcl_inference_engine/layers/tflite/tanh.py:Tanh.infer", "inference_engine/itcl_inference_engine/layers/tflite/logistic.py:Logistic.infer", "inference_engine/itcl_inference_engine/layers/common/relu.py:RELU.infer", "inference_engine/itcl_inference_engine/network/sequential.py:SequentialNetwork.infer"]}
{"id": "C107", "title": "Indexing a distribution in every way it offers, with and without partial bins", "statement": "Every history of d[x:y], d[x:], d[:y], d[:] (ordered bounds) and d[i] (-len(d) <= i < len(d)) on a Distribution keeps one more edge than bins, strictly increasing edges, data that is a contiguous part of the sorted original data, and readable bins with consistent extremes from either end; only with include_partial_bins=False can nothing at all be left, namely when a slice at least a bin wide stops inside the first bin (get_min and get_max then raise). With include_partial_bins=False such a slice keeps exactly the bins between the edges of (x, y], but never the first edge of the distribution, so d[:] loses the first bin; if only one edge is in the slice, the bin ending there is kept although it starts outside. d[i] of a bin with at least two values (not the last bin) is a one-bin distribution of exactly the values of that bin; of a bin with fewer values it is that bin, and with partial bins (the default) the next bin as well.", "quantifier": "every data array, number of bins, flag, and every finite history of indexing operations", "why_tests_cant": "unbounded sequences of operations and arbitrary data; the repository has no test of include_partial_bins=False histories", "anchors": ["quantizer/itcl_quantizer/quantizer/distributions/distribution.py:Distribution.__getitem__", "quantizer/itcl_quantizer/quantizer/distributions/distribution.py:Distribution.get_bin"]}
{"id": "C108", "title": "Converted networks against the real sigmoid and tanh", "statement": "Suppose the mathematical library behind the converter and the engine computes the sigmoid and the tanh up to some delta: the results for rational arguments differ by at most delta from 1 / (1 + exp(-x)) and from the hyperbolic tangent of real analysis. ONNX: a model of quantizations, dequantizations, matrix products, additions, sigmoids and tanhs as in C98, converted with float64 tables and run in float64, answers every non-empty batch, and every number it returns (or that a returned code stands for) differs from the value of the model over the real numbers, with the true sigmoid and tanh, by at most an explicit bound: per operator half an output step and 2^-40 of the steps, what saturation cuts off, delta per function, and the errors of the argument times the weights, times 1/4 for a sigmoid, times 1 for a tanh. TFLite: a fully quantized model as in C100 that the converter accepts loads, and in float64 every output for every sample and every non-empty batch is within the bound of C100 of the value of the model over the real numbers with the true sigmoid and tanh. Network files (as in C92) with tables that hold values of the true sigmoid and tanh up to a stated accuracy obey the bound of C92 with these functions.", "quantifier": "all such models of any depth and size, all samples and batches, all library functions accurate up to delta (there are such for every positive delta), all delta", "why_tests_cant": "sigmoid and tanh are irrational at almost every argument: a test compares one approximation with another; the bound has to hold at every real input, for every chain of layers", "anchors": ["model_converters/onnx2json/helpers/nodeBuilders/Tanh.py:TanhLUT", "model_converters/onnx2json/helpers/nodeBuilders/QLinearSigmoid.py:SigmoidLUT", "model_converters/onnx2json/helpers/graph.py:OnnxGraph.build_graph", "model_converters/tflite2json/itcl_tflite2json/operators/TanhLUT.py:TanhLUT.build", "model_converters/tflite2json/itcl_tflite2json/operators/SigmoidLUT.py:SigmoidLUT.build", "inference_engine/itcl_inference_engine/network/sequential.py:SequentialNetwork.infer", "inference_engine/itcl_inference_engine/layers/tflite/fullyconnected.py:FullyConnected.infer"]}
{"id": "C109", "title": "Quantized Keras models against the real sigmoid and tanh", "statement": "Quantize an int8 model of dense layers with all of the quantizer's computations rounded as in IEEE arithmetic (as in C95), where the exporter evaluates tanh and sigmoid up to some delta (Keras' other float results may be anything). If this succeeds, the file is one the engine of C92 loads: its operators are those of the layers in order, the stored weight and bias integers stand for the weights and biases, and the tables for the hyperbolic tangent and for 1 / (1 + exp(-x)), as accurately as in C95. If the scales in the file are neither tiny nor huge, then for every sample and every non-empty batch the outputs of the engine (float64) are within an explicit bound of the Keras model over the real numbers with the true activation functions: the engine's error on the file plus the error of the stored weights, both damped by 1/4 at every sigmoid.", "quantifier": "all int8 models of dense layers of any depth and size, all calibration data, all mixtures of float32 and float64, all library functions accurate up to delta, all samples and batches", "why_tests_cant": "the reference values are irrational, so a test can only compare approximations; the error depends on every weight, scale and input and accumulates over the layers", "anchors": ["quantizer/itcl_quantizer/tensor_extractor/keras/keras_builder.py", "quantizer/itcl_quantizer/tensor_extractor/keras/layers/keras_dense.py:KerasDense.quantize", "quantizer/itcl_quantizer/util/network.py", "inference_engine/itcl_inference_engine/network/sequential.py:SequentialNetwork.infer", "inference_engine/itcl_inference_engine/layers/tflite/fullyconnected.py:FullyConnected"]}
{"id": "C110", "title": "Recurrent models against the real sigmoid and tanh", "statement": "Take a model of LSTM layers (all but the last returning sequences) and dense layers, and any sigmoid and tanh on the rational numbers that are off by at most eta from 1 / (1 + exp(-x)) and the hyperbolic tangent of real analysis. On every sequence of any length, the model evaluated with them is within an explicit bound, computed step by step and layer by layer from eta and the column sums of the weights, of the model over the real numbers. Such functions exist for every eta > 0, with values in [-1, 1] and enlarging no distance (the sigmoid divides it by 4). Hence a recurrent model quantized and run in floating point as in C97 answers every non-empty batch of sequences on which the layers stay in their calibrated ranges, and every output is within the bound of C97 plus this drift of the model over the real numbers with the true sigmoid and tanh. That the layers stay in their calibrated ranges can be judged on the real model: it suffices that its gate sums, gates, states and outputs stay in the ranges by a margin computed from eta.", "quantifier": "all recurrent models, weights, sequences of any length, batches, eta, calibration data, float formats and configurations", "why_tests_cant": "the reference is a recursion over the real numbers with irrational values, on sequences of unbounded length; a test compares a few sequences with another floating-point library", "anchors": ["quantizer/itcl_quantizer/tensor_extractor/keras/layers/keras_lstm.py", "quantizer/itcl_quantizer/tensor_extractor/keras/layers/keras_dense.py", "quantizer/itcl_quantizer/tensor_extractor/keras/keras_builder.py", "inference_engine/itcl_inference_engine/layers/itclq/lstm.py:LSTM", "inference_engine/itcl_inference_engine/network/sequential.py:SequentialNetwork.infer"]}
{"id": "C111", "title": "Networks that quantize their own input or return codes, against the real sigmoid and tanh", "statement": "Suppose the mathematical library behind the inference engine computes tanh and sigmoid up to some delta of the functions of real analysis. A network file whose operators are fully connected layers, tables with values of the true tanh and sigmoid up to a stated accuracy, ReLU operators, and TANH and LOGISTIC operators without table, that fit together, with a quantize operator in front or with none (then the engine quantizes with the parameters of the input node), loads; in float64 it answers every sample and every non-empty batch with int8 codes that stand for the values of the network over the real numbers within the accumulated bound (per operator half an output step and a rounding term, what saturation cuts off, delta for a function without table, and the error of the argument times the weights, times 1/4 for a sigmoid, times 1 for a tanh); with a dequantize operator at the end with numbers within that bound and one more rounding. So does a TFLite model of fully connected, tanh, logistic and ReLU operators that the converter turns into such a file, whether it takes int8 or quantizes its input and whether it answers with int8 or dequantizes.", "quantifier": "all such files of any depth and size, all samples and batches, all library functions accurate up to delta, all delta", "why_tests_cant": "the true functions are irrational at almost every argument, so a test only compares approximations; the bound has to hold for every network, parameter, beginning, ending and input", "anchors": ["inference_engine/itcl_inference_engine/layers/tflite/tanh.py:Tanh.infer", "inference_engine/itcl_inference_engine/layers/tflite/logistic.py:Logistic.infer", "inference_engine/itcl_inference_engine/layers/common/relu.py:RELU.infer", "inference_engine/itcl_inference_engine/network/sequential.py:SequentialNetwork.infer", "model_converters/tflite2json/itcl_tflite2json/__init__.py:convert", "inference_engine/itcl_inference_engine/layers/tflite/fullyconnected.py:FullyConnected.infer"]}
{"id": "C112", "title": "Decisions of quantized networks are those of the real networks", "statement": "A quantized network in float64 decides like the network over the real numbers with the true sigmoid and tanh, wherever the real network is clear: if one class has a real score that exceeds every other one by more than the two error bounds (of C108 to C111), the network gives that class the strictly largest score (which argmax answers), and where a real score is above or below a threshold by more than its bound, the answered score is. This holds for dense and recurrent Keras models quantized and exported by the converter, for TFLite models (with floating-point or int8 inputs and outputs) and for ONNX models converted by the converters, for network files with or without conversions at their ends, and, for the class of the largest code, for networks that answer with codes; for single samples (except recurrent and ONNX models) and for every sample of a batch.", "quantifier": "all such models of any depth and size, all samples and batches, all classes and thresholds, all library functions within the stated accuracy", "why_tests_cant": "a test measures agreement on a data set; that no sample outside an explicit margin can change its class is a statement about every input and every network", "anchors": ["inference_engine/itcl_inference_engine/network/sequential.py:SequentialNetwork.infer", "model_converters/tflite2json/itcl_tflite2json/__init__.py:convert", "model_converters/onnx2json/helpers/graph.py:OnnxGraph.build_graph", "quantizer/itcl_quantizer/tensor_extractor/keras/keras_builder.py", "inference_engine/itcl_inference_engine/layers/tflite/fullyconnected.py:FullyConnected.infer"]}
{"id": "C113", "title": "Classifiers with a softmax head, against the probabilities over the real numbers", "statement": "Suppose the mathematical library computes tanh and sigmoid up to some delta of the functions of real analysis, and consider the real probabilities exp(t_c) / sum_j exp(t_j) of the scores t that the network has over the real numbers. If class c is more probable than every other class by a factor of more than the exponential of the sum of both scores' error bounds, then the largest answer is at class c (and c is the most probable class): for network files that end with a SOFTMAX operator, whose answers are the codes of the scores; for files that end with SOFTMAX and DEQUANTIZE, whatever step and zero point the dequantize operator has; for TFLite models that the converter converts; for dense Keras models whose last layer has a softmax activation, and for recurrent Keras models with such a last layer on sequences that stay in the calibrated ranges; in float64, for samples and batches. The factor condition holds exactly if the score wins by more than both error bounds. The answers themselves are no probabilities: the engine's SOFTMAX returns its input.", "quantifier": "all library functions within delta of the real ones, network files with SOFTMAX heads, converted TFLite models and dense Keras models, all inputs and batches, all classes", "why_tests_cant": "a test compares a few predictions of one model; the agreement with the true probabilities for every network, library and input needs error propagation over the real numbers", "anchors": ["inference_engine/itcl_inference_engine/layers/tflite/softmax.py:SoftMax.infer", "inference_engine/itcl_inference_engine/layers/tflite/dequantize.py:Dequantize.infer", "inference_engine/itcl_inference_engine/network/sequential.py:SequentialNetwork.infer"]}
{"id": "C114", "title": "Calls of infer with already quantized inputs", "statement": "infer accepts the flags isInputQuant (documented: the input is already quantized in INT8), verbose and isBatch. None of them changes the answer or the recorded intermediate results. A network whose first operator has QUANT in its name gives int8 codes to its first layer as they are. Any other network quantizes whatever it gets with the parameters of its input node, with isInputQuant too: int8 codes are treated like the floating-point numbers of the same values. Codes reach the first layer unchanged if the zero point is 0 and the step lies in [254/255, 256/255); for every other positive step or zero point there are codes that do not, and a network that returns its input answers with other codes than it was given.", "quantifier": "all networks, inputs of one to three dimensions with any entries, all combinations of flags, all positive steps and all zero points", "why_tests_cant": "A test of the flag uses one network and a few inputs; that no flag and no input can make a difference, and for exactly which parameters quantizing twice is harmless, is a statement about all of them.", "anchors": ["inference_engine/itcl_inference_engine/network/sequential.py:SequentialNetwork.infer", "inference_engine/itcl_inference_engine/util/quantization.py:to_int8"]}
