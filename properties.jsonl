{"id": "C01", "title": "move_layer relocates exactly one layer", "statement": "For a MultilayerStructure whose layers are distinct objects, move_layer(i, j) with valid non-negative indices leaves the moved layer at index j and every other layer in its original relative order; nothing else about the sample changes.", "quantifier": "every number of layers, every pair of non-negative in-range indices, every list of distinct layer objects", "why_tests_cant": "the number of layers is unbounded and the two code branches (from<to, from>to) shift indices differently; a few examples cannot exclude an off-by-one for some length/index pair", "anchors": ["mlreflect/data_generation/multilayer.py:MultilayerStructure.move_layer"]}
{"id": "C02", "title": "Re-ordering never loses or duplicates a layer", "statement": "Any sequence of move_layer and swap_layers calls leaves the sample with exactly the same layers, each the same number of times, whether or not individual calls raise.", "quantifier": "every initial layer list (also with the same object added twice), every finite sequence of re-ordering calls, every integer index including negative ones", "why_tests_cant": "it quantifies over unbounded histories and all Python indices; negative indices take unexpected branches", "anchors": ["mlreflect/data_generation/multilayer.py:MultilayerStructure.move_layer", "mlreflect/data_generation/multilayer.py:MultilayerStructure.swap_layers"]}
{"id": "C03", "title": "swap_layers is an exchange and is failure-atomic", "statement": "swap_layers(i, j) exchanges the two addressed layers and nothing else, doing it twice restores the sample; swap_layers or rename_layer with an out-of-range index raises IndexError and leaves the sample untouched; whenever move_layer raises, it raises IndexError because its from_index is out of range and the sample is untouched (an out-of-range target is clamped).", "quantifier": "every layer list, every pair of integer indices (negative included)", "why_tests_cant": "unbounded index/length space, and partial mutation before an exception only shows for particular index combinations", "anchors": ["mlreflect/data_generation/multilayer.py:MultilayerStructure.swap_layers", "mlreflect/data_generation/multilayer.py:MultilayerStructure.move_layer", "mlreflect/data_generation/multilayer.py:MultilayerStructure.rename_layer"]}
{"id": "C04", "title": "add_layer position semantics", "statement": "add_layer(layer) puts the layer on top; add_layer(layer, k) with an integer k inserts it so that the layers previously at positions >= k (Python insert semantics, clamped, negative from the top) move up by one; the previous layers keep their relative order; non-layers and other kinds of positions are rejected with ValueError without changing the sample.", "quantifier": "every layer list, every integer position", "why_tests_cant": "the position is an arbitrary Python int that is clamped on both sides", "anchors": ["mlreflect/data_generation/multilayer.py:MultilayerStructure.add_layer", "mlreflect/data_generation/multilayer.py:MultilayerStructure._check_layer_type"]}
{"id": "C05", "title": "Label names enumerate every parameter once, bottom to top", "statement": "For a sample with n layers label_names is: the n layer thicknesses, then n+1 roughnesses (substrate first), then n+2 SLDs (substrate first, ambient last), each named '<layer>_<parameter>' and ordered bottom to top; 3n+3 names in total.", "quantifier": "every number of layers and every choice of layer names", "why_tests_cant": "unbounded number of layers; the order is what the simulation code relies on positionally", "anchors": ["mlreflect/data_generation/multilayer.py:MultilayerStructure.label_names", "mlreflect/data_generation/multilayer.py:MultilayerStructure.thicknesses", "mlreflect/data_generation/multilayer.py:MultilayerStructure.roughnesses", "mlreflect/data_generation/multilayer.py:MultilayerStructure.slds"]}
{"id": "C06", "title": "Label names are unique exactly when layer names are unique", "statement": "All label names of a sample are pairwise distinct if and only if the names of substrate, layers and ambient are pairwise distinct, so a label column never silently overwrites another.", "quantifier": "every sample, every choice of layer names (arbitrary strings, including ones containing '_thickness' etc.)", "why_tests_cant": "string concatenation could collide for adversarial names; only a proof over all strings excludes it", "anchors": ["mlreflect/data_generation/multilayer.py:MultilayerStructure.label_names"]}
{"id": "C07", "title": "Splitting labels by category recovers the physical quantities", "statement": "For a label table generated for a sample, separate_labels_by_category returns exactly the thickness columns, the roughness columns and the SLD columns, in bottom-to-top order, for every layer naming.", "quantifier": "every sample and every choice of layer names", "why_tests_cant": "classification is by substring search in user-supplied names; only particular names expose a misclassification", "anchors": ["mlreflect/data_generation/data_generator.py:ReflectivityGenerator.separate_labels_by_category"]}
{"id": "C08", "title": "Dictionary round trip of a sample", "statement": "from_dict(to_dict(sample)) on a fresh MultilayerStructure reproduces the ambient, the substrate and every layer: same order, names, constants, ranges and complex values.", "quantifier": "every sample built from the documented argument types (numbers or ranges per film layer, constants for substrate and ambient), any number of layers, real or complex constants, real or complex ranges", "why_tests_cant": "unbounded nested structure; layer order is reversed on the way out and on the way in", "anchors": ["mlreflect/data_generation/multilayer.py:MultilayerStructure.to_dict", "mlreflect/data_generation/multilayer.py:MultilayerStructure.from_dict", "mlreflect/data_generation/layers.py:Layer.to_dict"]}
{"id": "C09", "title": "from_dict replaces the sample", "statement": "After from_dict(d) the structure's layers are exactly those described by d, regardless of what the structure contained before.", "quantifier": "every prior state of the structure and every dictionary", "why_tests_cant": "depends on the prior history of the object", "anchors": ["mlreflect/data_generation/multilayer.py:MultilayerStructure.from_dict"]}
{"id": "C10", "title": "Copies are independent", "statement": "After c = sample.copy(), no sequence of mutations (renaming, re-ordering, adding layers, replacing substrate/ambient, changing parameter limits or values) performed through the original or through its layer objects changes what c reports, and vice versa.", "quantifier": "every sample, every finite mutation history, every aliasing of layer objects between samples created before the copy", "why_tests_cant": "aliasing bugs only show for particular histories", "anchors": ["mlreflect/data_generation/multilayer.py:MultilayerStructure.__copy__", "mlreflect/data_generation/layers.py:Layer.__copy__", "mlreflect/data_generation/parameters.py:Parameter.__copy__", "mlreflect/data_generation/parameters.py:ConstantParameter.__copy__"]}
{"id": "C11", "title": "Constructed parameters and layers are valid", "statement": "A Parameter exists only with min < max; a Layer or ConstantLayer (Substrate) exists only with non-negative lower limits of thickness and roughness; every violating real-valued input raises ValueError and every valid one is accepted and reported back by ranges.", "quantifier": "every numeric limit, constant and range", "why_tests_cant": "boundary behaviour over all reals", "anchors": ["mlreflect/data_generation/parameters.py:Parameter.__init__", "mlreflect/data_generation/layers.py:Layer.__init__", "mlreflect/data_generation/layers.py:ConstantLayer.__init__", "mlreflect/data_generation/layers.py:Substrate.__init__", "mlreflect/data_generation/layers.py:Layer.ranges"]}
{"id": "C12", "title": "Constant layers hold constants only", "statement": "A ConstantLayer, Substrate or AmbientLayer constructed from plain numbers or ranges either holds constant parameters only or the constructor raises.", "quantifier": "every combination of constructor arguments", "why_tests_cant": "the faulty combinations are specific argument positions", "anchors": ["mlreflect/data_generation/layers.py:ConstantLayer._set_parameter"]}
{"id": "C13", "title": "LayerOnSubstrate holds at most one variable layer", "statement": "No sequence of add_layer calls can put two non-constant layers into a LayerOnSubstrate.", "quantifier": "every finite sequence of add_layer calls with any positions and layer kinds", "why_tests_cant": "depends on the order in which constant and variable layers were added", "anchors": ["mlreflect/data_generation/multilayer.py:LayerOnSubstrate.add_layer", "mlreflect/data_generation/multilayer.py:LayerOnSubstrate.has_variable_layer"]}
{"id": "C14", "title": "Every sampled value lies in its parameter range", "statement": "For every distribution type, sampling a parameter returns values inside [min, max].", "quantifier": "every range, every sample count, every bolster fraction/width, every outcome of the random number generator", "why_tests_cant": "the normal distribution has unbounded support, so violating draws are too rare for any test", "anchors": ["mlreflect/data_generation/distributions.py:sample_distribution", "mlreflect/data_generation/distributions.py:_fold_distribution", "mlreflect/data_generation/distributions.py:bolstered_uniform_distribution", "mlreflect/data_generation/parameters.py:Parameter.sample"]}
{"id": "C15", "title": "Sampling returns exactly the requested number of values", "statement": "Every distribution type returns exactly number_of_values values (for every bolster fraction in [0,1]); bolstering is symmetric: as many values are drawn around the lower as around the upper limit.", "quantifier": "every sample count and every bolster fraction", "why_tests_cant": "rounding of n*fraction/2 must compensate for all n and fractions", "anchors": ["mlreflect/data_generation/distributions.py:bolstered_uniform_distribution", "mlreflect/data_generation/parameters.py:ConstantParameter.sample"]}
{"id": "C16", "title": "Generated roughness never exceeds half the layer thickness", "statement": "In generate_random_labels, each roughness of a layer with thickness is at most max(roughness.min, thickness/2) and stays within the roughness range; constant roughness stays constant.", "quantifier": "every range, every sampled thickness, every outcome of the random number generator", "why_tests_cant": "conditional resampling per sample with unbounded random inputs", "anchors": ["mlreflect/data_generation/data_generator.py:ReflectivityGenerator._generate_roughness_from_thickness", "mlreflect/data_generation/data_generator.py:ReflectivityGenerator._get_max_roughness"]}
{"id": "C17", "title": "generate_random_labels returns the complete, ordered label table", "statement": "generate_random_labels(n) with n >= 1 returns a table with n rows whose columns are exactly the sample's label names in order, constants filled with the constant, and raises ValueError for n <= 0.", "quantifier": "every sample with distinct layer names, every n, every random outcome", "why_tests_cant": "unbounded number of layers and samples", "anchors": ["mlreflect/data_generation/data_generator.py:ReflectivityGenerator.generate_random_labels"]}
{"id": "C18", "title": "Complex parameter ranges are sampled in the rectangle spanned by the limits", "statement": "Sampling a complex range returns values whose real part lies between the real parts and whose imaginary part lies between the imaginary parts of the limits, drawn independently; real ranges return real values.", "quantifier": "every complex range and every random outcome", "why_tests_cant": "continuous domain and random outcomes", "anchors": ["mlreflect/data_generation/parameters.py:Parameter.sample"]}
{"id": "C19", "title": "Standardization state is first-fit-wins until reset", "statement": "Over any history of standardize, revert_standardization and reset_mean_and_std calls, the stored mean/std are those of the first successful fit since the last reset; later data never changes them; mean and std are always both present or both absent; a rejected (zero variance) fit stores nothing.", "quantifier": "every finite history of calls with arbitrary data", "why_tests_cant": "history dependent", "anchors": ["mlreflect/training/preprocessing.py:InputPreprocessor.standardize", "mlreflect/training/preprocessing.py:InputPreprocessor.revert_standardization", "mlreflect/training/preprocessing.py:InputPreprocessor.reset_mean_and_std", "mlreflect/training/preprocessing.py:InputPreprocessor.has_saved_standardization"]}
{"id": "C20", "title": "Standardization is invertible", "statement": "revert_standardization(standardize(x)) = x for every x of matching width, for any fitted preprocessor, and standardize(revert_standardization(y)) = y.", "quantifier": "every data matrix, every fitted state reachable through the API", "why_tests_cant": "requires non-zero std in every reachable state", "anchors": ["mlreflect/training/preprocessing.py:InputPreprocessor.standardize", "mlreflect/training/preprocessing.py:InputPreprocessor.revert_standardization"]}
{"id": "C21", "title": "The fitted data have zero mean and unit variance", "statement": "The data returned by the fitting standardize call have mean 0 and population variance 1 in every column.", "quantifier": "every data matrix with non-constant columns, any number of rows and columns", "why_tests_cant": "algebraic identity over all data", "anchors": ["mlreflect/training/preprocessing.py:InputPreprocessor.standardize"]}
{"id": "C22", "title": "Label preprocessing round trip", "statement": "restore_labels(apply_preprocessing(labels)[0]) returns the original label table (same columns in sample order, same values) for labels of a sample, for both normalizations.", "quantifier": "every sample with distinct layer names, every label table whose constant columns carry the constants, every number of rows", "why_tests_cant": "unbounded tables; columns are deleted, renormalized, re-added and re-ordered", "anchors": ["mlreflect/training/preprocessing.py:OutputPreprocessor.apply_preprocessing", "mlreflect/training/preprocessing.py:OutputPreprocessor.restore_labels"]}
{"id": "C23", "title": "Normalized labels are bounded", "statement": "With 'min_to_zero' every in-range label is normalized into [0,1] (minimum to 0, maximum to 1); with 'absolute_max' every in-range label is normalized into [-1,1].", "quantifier": "every parameter range and every label in range", "why_tests_cant": "all reals; sign combinations of the limits", "anchors": ["mlreflect/training/preprocessing.py:OutputPreprocessor.normalize_labels"]}
{"id": "C24", "title": "Preprocessing partitions the labels", "statement": "apply_preprocessing returns the non-constant labels in sample order as normalized table and exactly the constant labels, unmodified, as the second table; together they cover every label once.", "quantifier": "every sample with distinct layer names and every label table", "why_tests_cant": "unbounded column sets", "anchors": ["mlreflect/training/preprocessing.py:OutputPreprocessor.remove_labels", "mlreflect/training/preprocessing.py:OutputPreprocessor.constant_labels", "mlreflect/training/preprocessing.py:OutputPreprocessor.used_labels"]}
{"id": "C25", "title": "The normalization setting takes effect by value", "statement": "An accepted normalization string always causes normalization, whichever string object carries the value.", "quantifier": "every string object equal to an allowed value", "why_tests_cant": "depends on object identity (interning), which unit tests with literals never vary", "anchors": ["mlreflect/training/preprocessing.py:OutputPreprocessor.__init__", "mlreflect/training/preprocessing.py:OutputPreprocessor.normalize_labels", "mlreflect/training/preprocessing.py:OutputPreprocessor.renormalize_labels"]}
{"id": "C26", "title": "An epoch visits distinct samples in full batches", "statement": "After any number of epochs with any shuffles, the batches 0..len-1 all have exactly batch_size samples, no sample occurs twice in an epoch, and exactly n mod batch_size samples are left out.", "quantifier": "every n, every batch size 1..n, every sequence of permutations", "why_tests_cant": "unbounded histories of random permutations", "anchors": ["mlreflect/training/noise_generator.py:BaseGenerator.__init__", "mlreflect/training/noise_generator.py:BaseGenerator.__len__", "mlreflect/training/noise_generator.py:BaseGenerator.__getitem__", "mlreflect/training/noise_generator.py:BaseGenerator.on_epoch_end"]}
{"id": "C27", "title": "Inputs and labels stay paired", "statement": "In every batch row k of the input batch and row k of the label batch stem from the same training sample, after any history of shuffles, for the plain and the noise generators.", "quantifier": "every history of epochs, every batch index, every permutation", "why_tests_cant": "random permutations and histories", "anchors": ["mlreflect/training/noise_generator.py:BaseGenerator.__getitem__", "mlreflect/training/noise_generator.py:NoiseGenerator.__getitem__", "mlreflect/training/noise_generator.py:UniformNoiseGenerator.__getitem__"]}
{"id": "C28", "title": "Noise functions preserve the batch shape", "statement": "Each noise function returns an array of the same shape as its input batch (n curves times m points), for every number of curves including one.", "quantifier": "every batch shape", "why_tests_cant": "only the single-curve batch is special-cased", "anchors": ["mlreflect/data_generation/noise.py:apply_shot_noise", "mlreflect/data_generation/noise.py:apply_poisson_noise", "mlreflect/data_generation/noise.py:apply_scaling_factor", "mlreflect/data_generation/noise.py:apply_uniform_noise", "mlreflect/data_generation/noise.py:generate_background"]}
{"id": "C29", "title": "Noisy reflectivity is strictly positive", "statement": "Curves returned by the shot-noise and Poisson-noise functions are at least 1e-16 everywhere, so their logarithm exists, and one noise level per curve is reported.", "quantifier": "every curve and every random outcome", "why_tests_cant": "random outcomes unbounded below", "anchors": ["mlreflect/data_generation/noise.py:apply_shot_noise", "mlreflect/data_generation/noise.py:apply_poisson_noise"]}
{"id": "C30", "title": "Both noise modes produce batches", "statement": "A noise generator configured with mode 'single' or 'batch' and noise/background ranges yields batches instead of raising.", "quantifier": "every configuration of mode, noise range and background range", "why_tests_cant": "combination of modes and argument types", "anchors": ["mlreflect/training/noise_generator.py:NoiseGenerator.__getitem__", "mlreflect/data_generation/noise.py:apply_shot_noise", "mlreflect/data_generation/noise.py:generate_background"]}
{"id": "C31", "title": "Training and validation sets partition the data", "statement": "For every val_split in [0,1], training uses the first part and validation the rest of the generated data: disjoint, order preserving, covering everything, curves and labels cut at the same place.", "quantifier": "every data set size and split fraction", "why_tests_cant": "floor of a real product for all sizes and fractions", "anchors": ["mlreflect/training/training.py:Trainer.train"]}
{"id": "C32", "title": "Mixed-model simulation produces one curve per label row", "statement": "ModelMixer.simulate_reflectivity returns one simulated curve per label row, using the requested engine.", "quantifier": "every set of models, weights and label tables", "why_tests_cant": "positional argument binding across modules", "anchors": ["mlreflect/data_generation/model_mixer.py:ModelMixer.simulate_reflectivity", "mlreflect/data_generation/data_generator.py:ReflectivityGenerator.simulate_reflectivity"]}
{"id": "C33", "title": "Wave vectors are on the physical branch", "statement": "For every real q and every SLD with non-negative imaginary part, the wave vector used in a medium is non-zero, has positive real and negative imaginary part, and squares to q^2/4 - 4*pi*(sld + 1e-30 i); hence no division by zero occurs anywhere in the builtin simulation of such samples.", "quantifier": "every real q (including 0 and the critical angle) and every physical SLD", "why_tests_cant": "the wrong branch shows only below the critical angle and the singular points are measure-zero", "anchors": ["mlreflect/data_generation/reflectivity.py:_get_relative_k_z", "mlreflect/data_generation/reflectivity.py:_safe_div", "mlreflect/data_generation/reflectivity.py:DELTA"]}
{"id": "C34", "title": "Simulated reflectivity is a normalized curve", "statement": "multilayer_reflectivity returns one value in [0,1] per q value, and raises ValueError exactly when the numbers of thicknesses, roughnesses and SLDs are inconsistent (NotImplementedError exactly when the ambient SLD is non-zero).", "quantifier": "every list of q values and every stack, of any size", "why_tests_cant": "unbounded stacks, all reals", "anchors": ["mlreflect/data_generation/reflectivity.py:multilayer_reflectivity"]}
{"id": "C35", "title": "Each point of a curve depends only on its own q", "statement": "The value at a q is independent of the other q values in the call: simulating a concatenation, permutation or subset of q values gives the corresponding concatenation, permutation or subset of the curve, and each value is the transfer-matrix product for that q.", "quantifier": "every list of q values, every stack", "why_tests_cant": "array code loops over a shared 3-d array; unbounded sizes", "anchors": ["mlreflect/data_generation/reflectivity.py:multilayer_reflectivity", "mlreflect/data_generation/reflectivity.py:_make_reflection_matrix", "mlreflect/data_generation/reflectivity.py:_make_translation_matrix", "mlreflect/data_generation/reflectivity.py:_safe_div"]}
{"id": "C36", "title": "Splitting a layer changes nothing", "statement": "Replacing a layer of thickness d1+d2 by two layers of the same SLD with thicknesses d1 and d2 and an arbitrary roughness at the virtual interface leaves the simulated curve unchanged.", "quantifier": "every stack, every layer position, every d1, d2, every roughness, every q", "why_tests_cant": "identity over all complex stacks", "anchors": ["mlreflect/data_generation/reflectivity.py:multilayer_reflectivity"]}
{"id": "C37", "title": "A vanishing layer has no effect", "statement": "A layer of zero thickness with sharp interfaces above and below can be removed from the stack without changing the simulated curve.", "quantifier": "every stack, position, SLD and q", "why_tests_cant": "identity over all complex stacks", "anchors": ["mlreflect/data_generation/reflectivity.py:multilayer_reflectivity"]}
{"id": "C38", "title": "No contrast, no reflection", "statement": "If every SLD equals the ambient SLD (0), the simulated reflectivity is 0 for every q, thickness and roughness.", "quantifier": "every stack size, thicknesses, roughnesses and q", "why_tests_cant": "all stacks", "anchors": ["mlreflect/data_generation/reflectivity.py:multilayer_reflectivity"]}
{"id": "C39", "title": "Bare substrate follows the Fresnel/Nevot-Croce law", "statement": "For a bare substrate the simulated value is |(k0-k1)/(k0+k1) * exp(-2 k0 k1 sigma^2)|^2 clipped at 1, and with zero roughness it is below 1 without clipping for every physical SLD.", "quantifier": "every q, every substrate SLD with non-negative imaginary part, every roughness", "why_tests_cant": "closed form over all reals", "anchors": ["mlreflect/data_generation/reflectivity.py:multilayer_reflectivity", "mlreflect/data_generation/reflectivity.py:_make_reflection_matrix"]}
{"id": "C40", "title": "Engines receive consistent layer stacks", "statement": "For every label table of a sample with n layers, the arrays handed to the refl1d engine have n+2 depths, n+2 SLDs and n+1 roughnesses, all ordered ambient to substrate; the builtin engine gets n thicknesses, n+1 roughnesses, n+1 SLDs plus the ambient one in SI units; both describe the same physical stack.", "quantifier": "every sample and label table", "why_tests_cant": "unbounded layers, reversal and padding of parallel arrays", "anchors": ["mlreflect/data_generation/data_generator.py:ReflectivityGenerator._refl1d", "mlreflect/data_generation/data_generator.py:ReflectivityGenerator._builtin", "mlreflect/data_generation/data_generator.py:ReflectivityGenerator.simulate_reflectivity"]}
{"id": "C41", "title": "SLD profile interpolates between substrate and ambient", "statement": "make_sld_profile's value at height z is the substrate SLD plus the sum over interfaces of the SLD step times the Gaussian CDF of (z - interface)/roughness; it is bounded by substrate and ambient SLD and monotone whenever the SLDs are monotone; inconsistent lengths raise ValueError.", "quantifier": "every number of layers, thicknesses, positive roughnesses and SLDs, every height", "why_tests_cant": "all reals, unbounded layers, sign handling through abs()", "anchors": ["mlreflect/data_generation/data_generator.py:ReflectivityGenerator.make_sld_profile", "mlreflect/data_generation/data_generator.py:ReflectivityGenerator._smooth_step"]}
{"id": "C42", "title": "Log interpolation reproduces and bounds the data", "statement": "interp_reflectivity returns the data exactly at measured q values, continues with the edge values outside, always stays between the smallest and largest value of the two neighbouring points, and is positive for positive data.", "quantifier": "every increasing q grid, positive curve, and target q", "why_tests_cant": "piecewise definition over all reals and grid sizes", "anchors": ["mlreflect/data_generation/interpolation.py:interp_reflectivity"]}
{"id": "C43", "title": "Log interpolation commutes with q shift and intensity scaling", "statement": "Interpolating data on shifted q values at x equals interpolating the unshifted data at x minus the shift; scaling the data by c > 0 scales the interpolation by c.", "quantifier": "every grid, curve, shift, factor and target", "why_tests_cant": "identity over all inputs", "anchors": ["mlreflect/data_generation/interpolation.py:interp_reflectivity", "mlreflect/curve_fitter/curve_fitter.py:CurveFitter._interpolate_intensity"]}
{"id": "C44", "title": "Angle and q conversions are inverse and monotone", "statement": "q_to_angle(angle_to_q(a)) = a for angles in [-180,180] degrees and angle_to_q(q_to_angle(q)) = q for |q| <= 4*pi/wavelength; angle_to_q is strictly increasing on that range; energy/wavelength conversion is an involution on non-zero values.", "quantifier": "every angle, q, wavelength > 0", "why_tests_cant": "inverse functions on a continuous domain with branch limits", "anchors": ["mlreflect/xrrloader/dataloader/transform.py:angle_to_q", "mlreflect/xrrloader/dataloader/transform.py:q_to_angle", "mlreflect/xrrloader/dataloader/transform.py:energy_to_wavelength", "mlreflect/training/footprint.py:FootprintRescaler.angle_to_q", "mlreflect/xrrloader/dataloader/scans.py:ReflectivityScan.q"]}
{"id": "C45", "title": "Footprint correction is invertible and never attenuates", "statement": "remove_footprint_correction undoes apply_footprint_correction; correction factors are at least 1 for angles in (0,180] for both beam shapes, equal to 1 above the box-profile limit angle, and decrease with the angle.", "quantifier": "every angle in (0,180], beam width and sample length with 0 < width <= length", "why_tests_cant": "continuous domain, erf and arcsin limits", "anchors": ["mlreflect/xrrloader/footprint/footprint.py:apply_footprint_correction", "mlreflect/xrrloader/footprint/footprint.py:remove_footprint_correction", "mlreflect/xrrloader/footprint/footprint.py:box_factors", "mlreflect/xrrloader/footprint/footprint.py:gaussian_factors"]}
{"id": "C46", "title": "Normalization maps the reference point to one", "statement": "normalize_to_max makes the largest value exactly 1 (all values at most 1), normalize_to_first makes the first value exactly 1; both preserve ratios and are idempotent.", "quantifier": "every positive curve of any length", "why_tests_cant": "all curves", "anchors": ["mlreflect/xrrloader/footprint/normalization.py:normalize_to_max", "mlreflect/xrrloader/footprint/normalization.py:normalize_to_first"]}
{"id": "C47", "title": "Invalid correction settings are reported", "statement": "Reading corrected_intensity of a scan with an invalid beam shape or normalization raises; with missing footprint parameters the uncorrected but normalized intensity is returned.", "quantifier": "every configuration of footprint parameters and normalization", "why_tests_cant": "exception swallowing for particular configurations", "anchors": ["mlreflect/xrrloader/dataloader/scans.py:ReflectivityScan.corrected_intensity", "mlreflect/xrrloader/dataloader/scans.py:ReflectivityScan._correct_footprint", "mlreflect/xrrloader/dataloader/scans.py:ReflectivityScan._normalize"]}
{"id": "C48", "title": "Range getters are aligned and bounded", "statement": "get_q_range, get_raw_intensity_range and get_corrected_intensity_range with the same limits return equally long, position-aligned contiguous slices; for increasing q the returned points run from the point closest to q_min up to, not including, the point closest to q_max.", "quantifier": "every scan, every pair of limits (present or None)", "why_tests_cant": "nearest-neighbour selection with ties over all reals", "anchors": ["mlreflect/xrrloader/dataloader/scans.py:ReflectivityScan.get_q_range", "mlreflect/xrrloader/dataloader/scans.py:ReflectivityScan.get_corrected_intensity_range", "mlreflect/xrrloader/dataloader/scans.py:ReflectivityScan._get_closest_index"]}
{"id": "C49", "title": "SPEC files parse back to the scans written in them", "statement": "For a SPEC file consisting of scan blocks (#S, #D, #L, data rows) separated by blank lines, the parser reports every scan under its number with its command, time, column names and data table, in file order.", "quantifier": "every number of scans, columns, rows and every well-formed token", "why_tests_cant": "unbounded files; index arithmetic across blocks", "anchors": ["mlreflect/xrrloader/parser/spec_parser.py:SpecParser"]}
{"id": "C50", "title": "SPEC indexing is total, bounded and terminates", "statement": "For every file indexing either raises or yields, for each scan, line numbers with start <= data header <= end within the file, blocks pairwise disjoint and increasing, the last block winning for repeated scan numbers; indexing terminates on every file of any length without exhausting the interpreter stack.", "quantifier": "every file content and length", "why_tests_cant": "arbitrary content; recursion depth grows with the number of scans", "anchors": ["mlreflect/xrrloader/parser/spec_parser.py:SpecParser._index_scans", "mlreflect/xrrloader/parser/spec_parser.py:SpecParser._search_for_next_scan"]}
{"id": "C51", "title": "SPEC column names are preserved", "statement": "Column names written after '#L ' separated by two spaces are read back verbatim.", "quantifier": "every list of column names without double spaces", "why_tests_cant": "character-set stripping affects only particular names", "anchors": ["mlreflect/xrrloader/parser/spec_parser.py:SpecParser._extract_column_names"]}
{"id": "C52", "title": "FIO tables are rectangular", "statement": "For every .fio file, all data columns returned by the reader have the same length, equal to the number of data lines, with NaN exactly where a field is missing or unreadable.", "quantifier": "every file content", "why_tests_cant": "arbitrary file content; state machine over lines", "anchors": ["mlreflect/xrrloader/p08tools/fio_reader.py:read"]}
{"id": "C53", "title": "FIO file names encode the scan number", "statement": "The scan number recovered from a file name produced for scan n (stem_00042.fio pattern) is n, for every stem and n, and every file sharing the stem prefix can be listed without error.", "quantifier": "every file stem and scan number (any number of digits)", "why_tests_cant": "string splitting/stripping over arbitrary stems", "anchors": ["mlreflect/xrrloader/parser/fio_parser.py:FioParser.scan_numbers", "mlreflect/xrrloader/parser/fio_parser.py:FioParser.parse_fio", "mlreflect/xrrloader/parser/fio_parser.py:FioParser.fio_path_list"]}
{"id": "C54", "title": "Loading a range keeps order and skips only non-reflectivity scans", "statement": "load_scans returns the loadable scans of the requested numbers in request order, omits exactly those that are missing or not reflectivity scans, and any other error aborts the call.", "quantifier": "every list of scan numbers and file content", "why_tests_cant": "unbounded lists and error interleavings", "anchors": ["mlreflect/xrrloader/dataloader/spec_loader.py:SpecLoader.load_scans", "mlreflect/xrrloader/dataloader/fio_loader.py:FioLoader.load_scans"]}
{"id": "C55", "title": "Trimming removes exactly the requested points", "statement": "trim_front=f and trim_back=b remove exactly the first f and the last b points of angle and intensity alike.", "quantifier": "every scan length and every pair of non-negative trims", "why_tests_cant": "boundary values of the slice arithmetic", "anchors": ["mlreflect/xrrloader/dataloader/reflectivity_loader.py:ReflectivityLoader._trim_back", "mlreflect/xrrloader/dataloader/reflectivity_loader.py:ReflectivityLoader._trim_front", "mlreflect/xrrloader/dataloader/spec_loader.py:SpecLoader.load_scan"]}
{"id": "C56", "title": "Discontinuity correction joins repeated angles and nothing else", "statement": "After correct_discontinuities consecutive points at the same angle have equal intensity, all other consecutive ratios and the first point are unchanged, signs are preserved, and repeating the correction changes nothing.", "quantifier": "every intensity curve without zeros and every angle list, any length and number of repeated angles", "why_tests_cant": "sequential rescaling of suffixes; unbounded number of jumps", "anchors": ["mlreflect/xrrloader/dataloader/reflectivity_loader.py:ReflectivityLoader.correct_discontinuities"]}
{"id": "C57", "title": "Loaded SPEC scans are aligned and complete", "statement": "A loaded scan has equally many angles and intensities, angles are the sums of absolute angle columns, exact zeros are replaced by 1e-6, attenuation is applied once and the division column divides each point.", "quantifier": "every table with distinct column names, every non-empty selection of angle columns and every option combination", "why_tests_cant": "unbounded tables, option combinations", "anchors": ["mlreflect/xrrloader/dataloader/spec_loader.py:SpecLoader.load_scan", "mlreflect/xrrloader/dataloader/scans.py:ReflectivityScan.__init__", "mlreflect/xrrloader/dataloader/reflectivity_loader.py:ReflectivityLoader.apply_attenuation"]}
{"id": "C58", "title": "Attenuation is applied exactly once", "statement": "The intensity of a loaded .fio scan is the region-of-interest count times the attenuation factor, for the default and for a custom region of interest.", "quantifier": "every scan, region of interest and attenuation column", "why_tests_cant": "two modules each apply the factor; only attenuated custom-ROI scans reveal it", "anchors": ["mlreflect/xrrloader/dataloader/fio_loader.py:FioLoader.load_scan", "mlreflect/xrrloader/p08tools/P08ScanTools.py:ScanAnalyzer.extract_rois"]}
{"id": "C59", "title": "reload=True fits current file content with current settings", "statement": "fit(..., reload=True) uses the content the data file has at the time of the call and the most recently set import/footprint parameters, for both file fitters.", "quantifier": "every interleaving of file changes, parameter changes and fit calls", "why_tests_cant": "history dependent: needs external file changes between calls", "anchors": ["mlreflect/curve_fitter/base_fitter.py:reload_scans", "mlreflect/curve_fitter/spec_fitter.py:SpecFitter._reload_loader", "mlreflect/curve_fitter/spec_fitter.py:SpecFitter.fit", "mlreflect/curve_fitter/fio_fitter.py:FioFitter._reload_loader"]}
{"id": "C60", "title": "Optimized predictions are the ones returned", "statement": "With optimize_q and/or optimize_scaling, the returned parameters are those of the sampled variant with the smallest log MSE for each curve.", "quantifier": "every trained model, curve, option combination and random outcome", "why_tests_cant": "needs the relation between an opaque network, random variants and control flow", "anchors": ["mlreflect/curve_fitter/curve_fitter.py:CurveFitter.fit_curve", "mlreflect/curve_fitter/curve_fitter.py:CurveFitter._optimize_q", "mlreflect/curve_fitter/curve_fitter.py:CurveFitter._optimize_scaling"]}
{"id": "C61", "title": "The selected variant minimizes the log MSE", "statement": "The q shift (scaling factor) reported by the optimization step belongs to a variant whose log MSE against the data is minimal among all sampled variants, and the reported parameters are that variant's prediction.", "quantifier": "every model, curve, number of variants >= 1 and random outcome", "why_tests_cant": "argmin over arbitrary-length random arrays", "anchors": ["mlreflect/curve_fitter/curve_fitter.py:CurveFitter._optimize_q", "mlreflect/curve_fitter/curve_fitter.py:CurveFitter._optimize_scaling", "mlreflect/curve_fitter/minimizer.py:curve_variant_log_mse", "mlreflect/curve_fitter/minimizer.py:q_shift_variants", "mlreflect/curve_fitter/minimizer.py:curve_scaling_variants"]}
{"id": "C62", "title": "Predicted thicknesses and roughnesses are never negative", "statement": "Every thickness and roughness in predicted_parameters is non-negative and no SLD is altered, whatever the network or the refinement returns.", "quantifier": "every network output, option combination, sample and number of curves", "why_tests_cant": "opaque network can output anything", "anchors": ["mlreflect/curve_fitter/curve_fitter.py:CurveFitter._ensure_positive_parameters", "mlreflect/curve_fitter/curve_fitter.py:CurveFitter.fit_curve"]}
{"id": "C63", "title": "Refinement stays within the documented relative bounds", "statement": "With polish=True the refined thickness, roughness and SLD stay within predicted value +- fraction * |predicted value|, and refinement works for every sample.", "quantifier": "every prediction, fraction and parameter range, every number of free parameters", "why_tests_cant": "bounds are applied in normalized space; zip truncation depends on the number of parameters", "anchors": ["mlreflect/curve_fitter/minimizer.py:least_log_mean_squares_fit"]}
{"id": "C64", "title": "Reported data are what the network saw", "statement": "For a fit without optimization, the interpolated reflectivity offered by the fit result equals the interpolated curve given to the network (factor 1), for every q shift dq.", "quantifier": "every scan, trained q grid and dq", "why_tests_cant": "composition of shifts in two modules", "anchors": ["mlreflect/curve_fitter/results.py:FitResult.interpolated_corrected_reflectivity", "mlreflect/curve_fitter/spec_fitter.py:SpecFitter.fit", "mlreflect/curve_fitter/curve_fitter.py:CurveFitter.fit_curve"]}
{"id": "C65", "title": "Curve error is a metric on log curves", "statement": "The log MSE of a fit is non-negative, symmetric, invariant under common scaling of both curves, zero exactly for equal curves, and undefined lengths are rejected with ValueError.", "quantifier": "every pair of positive curves", "why_tests_cant": "all reals", "anchors": ["mlreflect/curve_fitter/minimizer.py:mean_squared_error", "mlreflect/curve_fitter/minimizer.py:curve_variant_log_mse", "mlreflect/curve_fitter/results.py:FitResult.curve_mse"]}
{"id": "C66", "title": "A result series is a faithful, ordered collection", "statement": "A FitResultSeries lists scan numbers, timestamps, curves and parameters in the order of its results; saving writes one file per scan number into the chosen directory and never overwrites one scan's file with another's; every property, including curve_mse, is available.", "quantifier": "every list of results and every path", "why_tests_cant": "unbounded series, string injectivity", "anchors": ["mlreflect/curve_fitter/results.py:FitResultSeries"]}
{"id": "C67", "title": "Time axis is relative to the first scan", "statement": "delta_t is None exactly when some timestamp is missing; otherwise its first entry is 0, entry k is the difference to the first timestamp in minutes, and it is non-decreasing for chronologically ordered scans.", "quantifier": "every list of timestamps", "why_tests_cant": "unbounded lists", "anchors": ["mlreflect/curve_fitter/results.py:FitResultSeries.delta_t"]}
{"id": "C68", "title": "Exactly one model source is accepted", "statement": "set_trained_model raises exactly when both or neither of trained_model and model_path are given, and then leaves the current model and curve fitter unchanged; otherwise both refer to the same new model.", "quantifier": "every argument combination and prior state", "why_tests_cant": "prior state and failure atomicity", "anchors": ["mlreflect/curve_fitter/base_fitter.py:BaseFitter.set_trained_model", "mlreflect/curve_fitter/curve_fitter.py:CurveFitter.__init__"]}
{"id": "C69", "title": "HDF5 override keeps the latest data and leaves other data alone", "statement": "After any sequence of saves, each dataset holds the last value saved under its name; saving noise or background leaves everything else unchanged.", "quantifier": "every finite history of save calls on any file", "why_tests_cant": "history dependent", "anchors": ["mlreflect/utils/h5_tools.py:create_dataset_with_override", "mlreflect/utils/h5_tools.py:save_noise", "mlreflect/utils/h5_tools.py:save_background"]}
{"id": "C70", "title": "Saved training data load back", "statement": "load_data(f) after save_data_as_h5(f, ...) returns exactly the saved q values, reflectivity, labels and information about exactly those labels, for every prior content of the file.", "quantifier": "every data set, file name and prior file content", "why_tests_cant": "depends on prior file content and on name normalization", "anchors": ["mlreflect/utils/h5_tools.py:save_data_as_h5", "mlreflect/utils/h5_tools.py:load_data", "mlreflect/utils/h5_tools.py:ensure_h5_extension"]}
{"id": "C71", "title": "Interrupted saves never mix data sets", "statement": "If save_data_as_h5 is interrupted at any point, a later load either fails or returns one consistent data set (all old or all new).", "quantifier": "every crash point, every prior content", "why_tests_cant": "crash points cannot be enumerated by unit tests", "anchors": ["mlreflect/utils/h5_tools.py:save_data_as_h5", "mlreflect/utils/h5_tools.py:create_dataset_with_override"]}
{"id": "C72", "title": "Trained models round trip through files", "statement": "from_file after save_model yields the same network, q values, standardization values and an equivalent sample, whatever the file contained before; an interrupted save is never loaded as a complete model.", "quantifier": "every model, prior file content and crash point", "why_tests_cant": "crash points, nested sample structures, JSON encoding", "anchors": ["mlreflect/models/trained_model.py:TrainedModel.save_model", "mlreflect/models/trained_model.py:TrainedModel.from_file"]}
{"id": "C73", "title": "File name helpers are stable", "statement": "ensure_h5_extension always yields a name ending in .h5 or .hdf5, keeps names that already do, is idempotent and injective on names without extension; stripping removes only the last extension of the final path component.", "quantifier": "every string", "why_tests_cant": "all strings", "anchors": ["mlreflect/utils/h5_tools.py:ensure_h5_extension", "mlreflect/utils/h5_tools.py:strip_file_extension"]}
{"id": "C74", "title": "Duplicate removal keeps one point per position run", "statement": "remove_double leaves no two consecutive equal motor positions, keeps the last point of every run, removes the same rows from all columns, motors and image stacks, and a second call changes nothing.", "quantifier": "every scan table and image stacks of matching length", "why_tests_cant": "unbounded data; index-based deletion across parallel arrays", "anchors": ["mlreflect/xrrloader/p08tools/P08ScanTools.py:Scan.remove_double"]}
{"id": "C75", "title": "ROI extraction sums the selected pixels", "statement": "For every image stack and region, the extracted intensity per image is the sum of exactly the pixels inside the region times the attenuation; disjoint regions covering the image add up to the 'all' intensity.", "quantifier": "every stack, image size and region", "why_tests_cant": "unbounded images", "anchors": ["mlreflect/xrrloader/p08tools/P08ScanTools.py:ScanAnalyzer.extract_rois"]}
{"id": "C76", "title": "Footprint rescaling with error factor one is the identity", "statement": "FootprintRescaler with only error factor 1 returns the original curves, correct_footprint undoes apply_footprint, the rescaled curve keeps the original maximum, and the constructor accepts exactly one of q (with wavelength) and theta.", "quantifier": "every positive curve, angle list in (0,180], ratio in (0,1]", "why_tests_cant": "continuous domain", "anchors": ["mlreflect/training/footprint.py:FootprintRescaler"]}
{"id": "C77", "title": "Prediction errors are metrics", "statement": "mean_absolute_error is non-negative, symmetric and zero exactly for equal tables; mean_absolute_percentage_error is non-negative, invariant under common scaling of both tables and zero exactly for equal tables with non-zero reference labels.", "quantifier": "every pair of label tables", "why_tests_cant": "all tables", "anchors": ["mlreflect/training/prediction.py:Prediction.mean_absolute_error", "mlreflect/training/prediction.py:Prediction.mean_absolute_percentage_error"]}
{"id": "C78", "title": "Logarithmic noise generator returns finite inputs", "statement": "NoiseGeneratorLog returns, for non-negative curves and any noise and background ranges with positive limits, input batches of full shape whose values abs(log10(I)/10) are finite.", "quantifier": "every data set, every configuration, every random outcome", "why_tests_cant": "Normally distributed draws are unbounded, so a random test practically never meets the outcomes that matter.", "anchors": ["mlreflect/training/noise_generator.py:NoiseGeneratorLog.__data_generation", "mlreflect/data_generation/noise.py:generate_background"]}
{"id": "C79", "title": "One simulated curve per label row", "statement": "ReflectivityGenerator.simulate_reflectivity returns, for every label table of the sample, exactly one curve per row with one value per q value; with the builtin engine every value lies in [0,1]. Objects that are no DataFrame raise TypeError and unknown engines ValueError.", "quantifier": "every sample (with any number of layers, including none), every label table, every q noise spread, every random outcome", "why_tests_cant": "The number of layers, rows and q values and the random q noise are unbounded; a test fixes one sample.", "anchors": ["mlreflect/data_generation/data_generator.py:107-196"]}
{"id": "C80", "title": "Footprint factors are the reciprocal of the illuminated fraction", "statement": "apply_footprint_correction divides each intensity by the part of the beam that hits the sample: for 'gauss' the part of a normal distribution with full width at half maximum beam_width inside the projected sample length, for 'box' the overlap of two intervals.", "quantifier": "every angle in (0,180], every 0 < beam width <= sample length, every curve", "why_tests_cant": "the formula uses erf and arcsin with unit factors; a wrong factor (FWHM versus sigma, 2theta versus theta) still looks plausible for any example", "anchors": ["mlreflect/xrrloader/footprint/footprint.py:gaussian_factors", "mlreflect/xrrloader/footprint/footprint.py:box_factors", "mlreflect/xrrloader/footprint/footprint.py:beam_footprint_ratio"]}
{"id": "C81", "title": "Missing scans are reported, not raised", "statement": "fit of a number for which there is no scan, or whose scan is not a reflectivity scan, prints a message and returns None instead of raising, for both file fitters; the message is only used for such numbers.", "quantifier": "every loader, number and fit options", "why_tests_cant": "all numbers and files; the handlers name the wrong exceptions", "anchors": ["mlreflect/curve_fitter/spec_fitter.py:SpecFitter.fit", "mlreflect/curve_fitter/fio_fitter.py:FioFitter.fit"]}
{"id": "C82", "title": "Every option combination of fit is usable", "statement": "A fit that succeeds with one setting of optimize_q is also evaluated for the other one: the best q shift is reported as None exactly when it was not optimized, for both file fitters.", "quantifier": "every scan, model and option combination", "why_tests_cant": "all scans and options", "anchors": ["mlreflect/curve_fitter/spec_fitter.py:SpecFitter.fit", "mlreflect/curve_fitter/fio_fitter.py:FioFitter.fit", "mlreflect/curve_fitter/curve_fitter.py:CurveFitter.fit_curve"]}
{"id": "C83", "title": "fit_range is a sequence of individual fits", "statement": "fit_range returns, in request order, exactly the results that fit returns for those numbers that are reflectivity scans, omitting the others; a range without any reflectivity scan gives an empty series.", "quantifier": "every list of numbers, loader and options", "why_tests_cant": "unbounded lists, duplicated code in fit and fit_range", "anchors": ["mlreflect/curve_fitter/spec_fitter.py:SpecFitter.fit_range", "mlreflect/curve_fitter/fio_fitter.py:FioFitter.fit_range"]}
{"id": "C84", "title": "show_scans lists every number once", "statement": "show_scans prints one entry for every number within the limits and between the first and the last scan, in increasing order, with the information of existing scans and 'not found' exactly for the other numbers.", "quantifier": "every file and every pair of limits", "why_tests_cant": "all files and limits", "anchors": ["mlreflect/curve_fitter/spec_fitter.py:SpecFitter.show_scans", "mlreflect/curve_fitter/fio_fitter.py:FioFitter.show_scans"]}
{"id": "C85", "title": "Detector images belong to their data points", "statement": "After the images of a scan have been loaded, the image at position k of a stack is the image that was recorded for data point k: for the pilatus detector the file whose number is the k-th entry of the index column, for lambda and eiger detectors the frame with that number.", "quantifier": "for all scan tables, index columns, sets of image files and image contents", "why_tests_cant": "A test uses one complete set of files; the alignment must hold for every pattern of missing, repeated or unordered images.", "anchors": ["mlreflect/xrrloader/p08tools/P08ScanTools.py:198-338"]}
{"id": "C86", "title": "Removing doubled points and loading images commute", "statement": "It makes no difference for the resulting scan whether the images are loaded before or after doubled points have been removed.", "quantifier": "for all scans, detectors and image files", "why_tests_cant": "The two orders agree or disagree depending on the detector, the index columns and the positions of the doubled points, which no finite set of files covers.", "anchors": ["mlreflect/xrrloader/p08tools/P08ScanTools.py:167-196", "mlreflect/xrrloader/p08tools/P08ScanTools.py:371-405"]}
{"id": "C87", "title": "Combined images take every pixel from the last scan whose region contains it", "statement": "combine_scan_image_regions returns images in which every pixel is the one of the last scan whose region contains it, times the attenuation of the point, and zero where no region contains it. The call succeeds also for scans without attenuator and does not change the images of the scans, so that a second call gives the same result.", "quantifier": "for all numbers of scans, image sizes, regions (including negative and reversed bounds) and attenuations", "why_tests_cant": "Regions may overlap in arbitrarily many ways and use negative bounds, and the effect on the inputs shows only in later calls.", "anchors": ["mlreflect/xrrloader/p08tools/P08ScanTools.py:556-600"]}
{"id": "C88", "title": "calc_q adds the momentum transfer of every point once", "statement": "For a scan of tt and om, calc_q adds a column q with the momentum transfer of every point, which agrees with the one computed by the loader and by transform.py for the energy of the scan; it commutes with the removal of doubled points, leaves other scans as they are, and a second call adds nothing.", "quantifier": "for all scans, energies and angles", "why_tests_cant": "A numerical identity for all energies and angles and an order of two operations on all scans cannot be settled by sampling.", "anchors": ["mlreflect/xrrloader/p08tools/P08ScanTools.py:407-429", "mlreflect/xrrloader/dataloader/transform.py:5-17"]}
{"id": "C89", "title": "export2ascii writes the attenuated, background corrected intensity against the requested motor", "statement": "export2ascii writes one line for every point, with the position of the requested motor and the sum over the region minus the sum over the background region, times the attenuation of the point; a motor that is not part of the scan is reported.", "quantifier": "for all scans, detectors, regions, background regions and motors", "why_tests_cant": "The identity concerns all images and regions and all motor lists.", "anchors": ["mlreflect/xrrloader/p08tools/P08ScanTools.py:450-476"]}
{"id": "C91", "title": "Network inputs, labels and stored statistics belong together", "statement": "After a successful Trainer.generate_training_data(n), every later train() passes to the network batches in which input row and label row belong to the same simulated sample: the input is the curve simulated from exactly these labels at the q values of the trainer, with noise and scaling of at most ten percent, standardized with the mean and deviation of noisy versions of all curves; a batch of a single curve is passed without its batch dimension; training and validation batches use disjoint samples; and the returned model stores exactly these statistics, the trained network, the sample and the q values. Training starts exactly if both parts of the data hold one batch.", "quantifier": "all samples with layers, distinct key word free names and a real roughness of the substrate (real ranges for the start of a training), all q values, all random numbers, all engines and networks, all numbers of samples, splits from zero to one, positive batch sizes and all sequences of trainings", "why_tests_cant": "A permuted label column or a wrong split only makes the network worse; no test sees it, and random data cannot be compared with expected values.", "anchors": ["mlreflect/training/training.py:23-124", "mlreflect/training/noise_generator.py:11-132", "mlreflect/training/preprocessing.py:40-57"]}
{"id": "C92", "title": "A returned model is not changed by its trainer", "statement": "What a TrainedModel returned by Trainer.train refers to (network, sample, q values, mean and deviation) does not change when the trainer is used again. This holds for the mean and deviation, and for everything as long as the trainer is not trained again; it is false for the network: all returned models refer to the single network of the trainer, so after new data and a second training the first model combines its old statistics with a network trained with other ones.", "quantifier": "all executions of a trainer: any sequence of data generations, trainings, edits of the shared objects and random draws", "why_tests_cant": "Tests train once and compare shapes; the effect needs two trainings and shows only as worse predictions of the earlier model.", "anchors": ["mlreflect/training/training.py:49-90", "mlreflect/models/trained_model.py:23-52"]}
{"id": "C98", "title": "Refinement improves every curve, and returned curves belong to the returned parameters", "statement": "With polish=True the parameters returned for every curve are the refinement of the prediction for that curve, and their log MSE on the trained q window is not larger than that of the prediction. The returned reflectivity curves are simulated from the returned parameters on the given q values.", "quantifier": "every trained model, every number of curves, every q grid, every option combination", "why_tests_cant": "the refinement works in normalized label space, changes the sign of lengths afterwards and depends on an iterative search", "anchors": ["mlreflect/curve_fitter/minimizer.py:least_log_mean_squares_fit", "mlreflect/curve_fitter/minimizer.py:fitting_model", "mlreflect/curve_fitter/curve_fitter.py:CurveFitter.fit_curve"]}
{"id": "C90", "title": "Peak functions have the documented position, area and width", "statement": "The Gauss, Lorentz and pseudo-Voigt functions of ScanFitter have their maximum at the documented position, the Gauss peaks have the documented area and width, sums of peaks do not depend on the order of the peaks and are the background plus the single peaks that are drawn, and the fits start from the given peaks and reject peak lists that they cannot represent.", "quantifier": "every parameter list and x value", "why_tests_cant": "statements about integrals and maxima over all real x and about arbitrary numbers of peaks", "anchors": ["mlreflect/xrrloader/p08tools/P08ScanTools.py:ScanFitter._gauss", "mlreflect/xrrloader/p08tools/P08ScanTools.py:ScanFitter._lorentzian", "mlreflect/xrrloader/p08tools/P08ScanTools.py:ScanFitter._multi_gauss", "mlreflect/xrrloader/p08tools/P08ScanTools.py:ScanFitter.gaussLorentzianFit"]}
{"id": "C93", "title": "Constant parameters compare like their values", "statement": "Comparing a ConstantParameter with a number or another ConstantParameter, from either side, gives the comparison of the values; testing for equality or membership never raises; int() truncates the value; the limits of a constant cannot be assigned.", "quantifier": "every value, every other object, every comparison operator", "why_tests_cant": "comparison goes through float(), which fails or loses information for some value types", "anchors": ["mlreflect/data_generation/parameters.py:ConstantParameter.__eq__", "mlreflect/data_generation/parameters.py:ConstantParameter.__lt__", "mlreflect/data_generation/parameters.py:ConstantParameter.__int__", "mlreflect/data_generation/parameters.py:Parameter.__copy__"]}
{"id": "C94", "title": "A scan series only contains scans and reports on each of them", "statement": "A ScanSeries only ever contains ReflectivityScan objects, in the order in which they were added; its statistics list for each scan the number of points and the smallest and largest q value; to_array has the corrected intensity of scan i as row i and is two-dimensional exactly if all scans have the same length.", "quantifier": "every sequence of list operations, every series of scans", "why_tests_cant": "a statement about every history of operations, also the ones inherited from list, and every combination of scan lengths", "anchors": ["mlreflect/xrrloader/dataloader/scans.py:ScanSeries.append", "mlreflect/xrrloader/dataloader/scans.py:ScanSeries.stats", "mlreflect/xrrloader/dataloader/scans.py:ScanSeries.to_array"]}
{"id": "C95", "title": "Density profiles belong to the predicted parameters", "statement": "The SLD profile of a fit result is the physical profile of the film that its predicted parameters describe, and profile i of a result series is the profile of result i.", "quantifier": "every fit result and every series of results", "why_tests_cant": "a statement about all parameter values, samples and series; the series computes all profiles from one concatenated table", "anchors": ["mlreflect/curve_fitter/results.py:FitResult.sld_profile", "mlreflect/curve_fitter/results.py:FitResultSeries.sld_profiles"]}
{"id": "C96", "title": "Predicted labels belong to their curves and can take every label value", "statement": "predict_labels returns one row per curve in the order of the curves, with the label names as columns; a single curve is treated as one row; unsuitable input is rejected; the value for a curve does not depend on the other curves; the networks of the package can output every label vector.", "quantifier": "every set of weights, every array of curves, every list of names", "why_tests_cant": "quantifies over all weights of the networks; tests only see one trained network", "anchors": ["mlreflect/training/prediction.py:Prediction.predict_labels", "mlreflect/models/simple_model.py:SimpleModel.__init__", "mlreflect/training/training.py:Trainer._prepare_model"]}
{"id": "C97", "title": "Every training writes to its own files", "statement": "Before a training starts, its log directory and the directory of its checkpoint exist and nothing that existed before is changed; the checkpoint lies in <directory>/<model>/models and is named by the time stamp; the default time stamps sort like the times; different trainings and models use different files.", "quantifier": "every directory name, time and state of the file system", "why_tests_cant": "path handling over all strings and collisions between pairs of runs", "anchors": ["mlreflect/models/model_helpers.py:make_save_path", "mlreflect/models/model_helpers.py:create_save_directory", "mlreflect/models/model_helpers.py:make_tensorboard_callback", "mlreflect/utils/naming.py:make_timestamp", "mlreflect/models/simple_model.py:SimpleModel._setup_training"]}
{"id": "C99", "title": "The header of a .fio file is read as it was written", "statement": "A motor position of the parameter block is the number of the last line with that name. A line 'word detector = [x1,x2,...]' whose word contains 'roi' gives the regions roi1, roi2, ... of the detector, four numbers each, in order. A UB matrix with blank separated numbers gives its three rows, and a signal counter its text. Lines elsewhere in the file do not change these entries. A matrix with commas between its numbers is not read and changes nothing, and a line 'detector_rois = [...]' without a second word loses the detector name.", "quantifier": "for all files, all positions of the line in the parameter block, all names, white space, numbers of regions and number formats that float reads back", "why_tests_cant": "The example files contain a handful of header lines; that no other line, block, white space or order of entries changes the result quantifies over all files.", "anchors": ["mlreflect/xrrloader/p08tools/fio_reader.py:36-119", "mlreflect/xrrloader/p08tools/fio_reader.py:152-157"]}
{"id": "C100", "title": "Region plots show the background corrected intensity per pixel", "statement": "plotRois draws one panel for every region except the background and one for the whole detector, sorted by name, over the chosen motor. Every panel shows the intensity per pixel minus the intensity per pixel of the background region; on an evenly lit detector every curve is zero.", "quantifier": "for all scans, detectors, region dictionaries, background regions, motors and image stacks", "why_tests_cant": "The number of panels, their grid and the normalisation depend on every region dictionary and every image; a plot of an example shows one grid size.", "anchors": ["mlreflect/xrrloader/p08tools/P08ScanTools.py:1095-1155"]}
{"id": "C101", "title": "Peak fits minimise the distance to the data and draw what they found", "statement": "The residuals of the peak fits are zero exactly for those parameters whose curve is the measured one, so that exact data are recovered by a perfect search. The fits draw the measured data, the curve of the fitted parameters and every peak under its own name, and the fit is the sum of the drawn peaks up to the background.", "quantifier": "for all data, parameters, peak lists, weights and search results", "why_tests_cant": "That no other parameters are optimal quantifies over all parameter vectors and all data.", "anchors": ["mlreflect/xrrloader/p08tools/P08ScanTools.py:622-681", "mlreflect/xrrloader/p08tools/P08ScanTools.py:683-775", "mlreflect/xrrloader/p08tools/P08ScanTools.py:777-891", "mlreflect/xrrloader/p08tools/P08ScanTools.py:904-959"]}
{"id": "C102", "title": "Plots show the results they are made from", "statement": "plot_prediction draws data and prediction over the same q values and lists every chosen parameter with its value and unit. plot_predicted_parameter_range draws one panel per chosen parameter, with the value of every result over its time in minutes since the first scan, or over its scan number if a timestamp is missing. plot_sld_profiles draws the profile of every result in a colour that stands for its scan number. The plots of scans and scan series draw the q values in the limits with their intensities, labelled with the scan number.", "quantifier": "for all results, series, parameter lists, formats, timestamps, scans, limits and selections", "why_tests_cant": "Plots are checked by eye on single examples; the order of results, the axis and the meaning of the selection matter for every series, and the units for every layer name.", "anchors": ["mlreflect/curve_fitter/results.py:64-101", "mlreflect/curve_fitter/results.py:151-211", "mlreflect/xrrloader/dataloader/scans.py:83-95", "mlreflect/xrrloader/dataloader/scans.py:151-168"]}
{"id": "C103", "title": "Simulated stacks are passive", "statement": "A stack of media that do not emit reflects at most what comes in: before values above one are cut, the amplitude ratio of the recursion exceeds one by at most the effect of the constant 1e-30 that is added to the densities, so the cut hides no error of the recursion. With roughness, every value of one layer on a substrate above the critical angles is a number between zero and one.", "quantifier": "for all stacks of physical media, thicknesses and q values; for all roughnesses in the case of one layer", "why_tests_cant": "The code cuts the values at one, so tests only see the cut values; the bound concerns every number of layers, every density and every q value.", "anchors": ["mlreflect/data_generation/reflectivity.py:8-141"]}
{"id": "C104", "title": "The loss function is the objective of the refinement", "statement": "log_mse_loss returns the mean squared difference of the decadic logarithms of the data and of the curve simulated for the normalized labels. It is a number exactly for positive curves of equal lengths, zero exactly for equal curves, equal to the objective of least_log_mean_squares_fit divided by the number of points, and the refinement never increases it.", "quantifier": "for all samples, normalized labels, data and simulation results; for every search that does not end above its start", "why_tests_cant": "The relation between two separately written functions and the criterion for NaN hold for all curves; a search is only visited at single points by tests.", "anchors": ["mlreflect/curve_fitter/minimizer.py:33-61"]}
{"id": "C105", "title": "Printed samples and subscription identify the layers", "statement": "Printing a sample lists the ambient medium, the layers from top to bottom with their indices and the substrate, each with all its values, so that two samples with the same text are the same. sample[i] counts from the substrate to the ambient medium, one off the printed index.", "quantifier": "for all samples, layer names without line breaks and texts of numbers that are different for different numbers", "why_tests_cant": "That no two samples share a text quantifies over all pairs of samples and layer names.", "anchors": ["mlreflect/data_generation/multilayer.py:152-174", "mlreflect/data_generation/layers.py:92-96", "mlreflect/data_generation/layers.py:179-206", "mlreflect/data_generation/parameters.py:65-66"]}
{"id": "C106", "title": "Gaussian weights are normalized", "statement": "_make_gaussian keeps the positions within the given number of widths around the middle, in their order, and returns positive weights that fall with the distance from the middle and add up to one.", "quantifier": "for all position lists, widths and cuts", "why_tests_cant": "The sum of the weights after the cut depends on all positions; a test with a wide cut does not show that the weights are normalized before it.", "anchors": ["mlreflect/data_generation/data_generator.py:199-206"]}
{"id": "C107", "title": "Simulated curves depend continuously on all parameters", "statement": "Small changes of thicknesses, roughnesses, complex densities and q change the simulated reflectivity only a little: where the value is a number it is a number for all nearby parameters and as close as wanted; with sharp interfaces the value is a continuous function of everything. So refinements and error estimates do not jump, although the code takes a complex square root and caps values at one.", "quantifier": "for all stacks with non-negative absorption, all q including zero and all continuous families of parameters", "why_tests_cant": "Continuity is a statement about all neighbourhoods; tests compare finitely many pairs, and the branch cut of the square root and the cap at one are exactly the places where a jump could hide.", "anchors": ["mlreflect/data_generation/reflectivity.py:8-141"]}
{"id": "C108", "title": "Total reflection at small q and decay at large q", "statement": "A smooth substrate without absorption reflects everything below its critical angle, up to an explicit bound for the small constant the code adds to the densities, and the curve of every stack tends to zero for large q.", "quantifier": "for all q and densities below the critical angle; for all stacks, thicknesses, roughnesses and absorbing densities at large q", "why_tests_cant": "Limits for q to infinity and bounds for every q and density are not reached by finitely many samples.", "anchors": ["mlreflect/data_generation/reflectivity.py:8-141"]}
{"id": "C109", "title": "A network that has learned its curves makes fits exact", "statement": "If the network returns the training label of a curve, the fit returns exactly the labels the curve was simulated with (constants included, in the right order, rescaled to the ranges) and the curve simulated with them; the fit standardizes its input exactly as the training did. Giving dq and factor for shifted and rescaled data gives the same labels as fitting the right data, and the refinement keeps an exact fit exact.", "quantifier": "for all samples, label tables, curves measured on q values that contain the trained ones, all networks, corrections, search algorithms that do not worsen and stay in their bounds, and all trainer histories", "why_tests_cant": "The claim couples label order, ranges, standardization, interpolation, restoring and refinement for every sample and network; real networks are never exact, so tests only see small errors and cannot tell a wrong transformation from a badly trained network.", "anchors": ["mlreflect/curve_fitter/curve_fitter.py:32-144", "mlreflect/curve_fitter/minimizer.py:33-52", "mlreflect/training/training.py:47-91", "mlreflect/models/trained_model.py:33-48"]}
{"id": "C110", "title": "Curves are fitted independently of each other", "statement": "Fitting many curves in one call gives for each curve exactly what fitting it alone gives with the same drawn numbers: parameters, simulated curve, best shift and best scaling, for every combination of options. A curve cannot spoil the fit of others: if each can be fitted alone then all can be fitted together. This holds for the simulation of the code with either engine.", "quantifier": "for all lists of curves, q values, options, drawn shifts and scalings, trained models whose network works row by row, samples with layers (distinct names without key words), engines and optimizers", "why_tests_cant": "Rows could be mixed up only for certain numbers of curves, options or orders (concatenation of tables, wrong row of the start values, a shift of another curve); a test compares a few batches, and with random draws cannot compare exactly.", "anchors": ["mlreflect/curve_fitter/curve_fitter.py:75-144", "mlreflect/curve_fitter/curve_fitter.py:146-192", "mlreflect/curve_fitter/minimizer.py:33-52", "mlreflect/data_generation/data_generator.py:107-191"]}
{"id": "C111", "title": "The scan motors of a P08 scan are those named in its command", "statement": "For a command whose other words do not contain the word scan, the motors of a loaded scan are exactly those that the command names, in its order: word 1 for ascan and dscan, words 1 and 4 for a2scan and d2scan, words 1, 4 and 7 for a3scan and d3scan, the reciprocal-space columns for hscan, kscan, lscan and hklscan, none for other commands. Their positions are the data columns with these names. Commands that are too short end in an IndexError.", "quantifier": "for all command texts, motor names, scan files and data columns", "why_tests_cant": "The code looks for the name of the scan anywhere in the command, and every name contains others as a substring or a suffix; which branch wins for which of the infinitely many commands is not decided by trying some.", "anchors": ["mlreflect/xrrloader/p08tools/P08ScanTools.py:97-126"]}
{"id": "C112", "title": "The detectors of a scan are found by its columns and their files next to the scan file", "statement": "A detector is listed for a scan exactly if a column of the scan contains one of its words and no word of a detector that is looked for earlier; so if no column belongs to two detectors, the list holds exactly the detectors with columns, in a fixed order. Images are loaded for exactly the listed detectors that have a loader. The files of a scan given with its folder are looked for next to it, in a folder named like the scan without extension; the lines of a mythen detector are the second columns of all its files in the order of their names.", "quantifier": "for all lists of columns, image files, file contents, scan files and folders", "why_tests_cant": "Words of detectors can be parts of other column names in any combination; file names, numbers of files and lengths are unbounded. Tests run on the few scans at hand.", "anchors": ["mlreflect/xrrloader/p08tools/P08ScanTools.py:77-79", "mlreflect/xrrloader/p08tools/P08ScanTools.py:128-184", "mlreflect/xrrloader/p08tools/P08ScanTools.py:340-369"]}
{"id": "C113", "title": "Simulated curves are those of Parratt's recursion in the documented units", "statement": "With the builtin engine every simulated point is the squared modulus, cut off at one, of Parratt's recursion with the roughness factor of Névot and Croce: lengths in Å, momentum transfers in 1/Å, densities in 10⁻⁶/Å², evaluated for the labels of the point's own row and the momentum transfer drawn for it. This holds wherever the recursion is defined, which is everywhere for sharp interfaces.", "quantifier": "for all samples, label tables, momentum transfers, spreads and draws, with non-negative absorption and an ambient of density zero", "why_tests_cant": "The recursion and the matrix method agree for all stacks or only for the ones compared; stacks have any number of layers with continuous parameters.", "anchors": ["mlreflect/data_generation/reflectivity.py:8-141", "mlreflect/data_generation/data_generator.py:144-191"]}
{"id": "C114", "title": "What lies below a thick layer is not seen; only magnitudes of momentum transfers and roughnesses matter", "statement": "As the thickness of a layer grows, the reflectivity at a momentum transfer tends to the one of the stack that ends with this layer as substrate, whatever lies below. A curve is unchanged if momentum transfers or roughnesses change their sign.", "quantifier": "for all stacks, layers, momentum transfers and tolerances, with non-negative absorption and an ambient of density zero; signs for all arguments whatsoever", "why_tests_cant": "A limit is a statement about infinitely many thicknesses; stacks and tolerances are unbounded.", "anchors": ["mlreflect/data_generation/reflectivity.py:8-141"]}
{"id": "C115", "title": "The unit of the measured intensity does not matter for normalized scans", "statement": "If a normalization ('max' or 'first') is set, multiplying all counts of a scan by a positive number changes neither its corrected intensity nor the result of its fit, in any entry; errors are the same, too. The same holds from the parsed data on: for SPEC scans whose tables differ in the units of the counts, of the attenuation factors and of the monitor, and for P08 scans that differ by a factor in the counter and the images, as long as the counter is not used as angle or attenuation column, too. Without a normalization the corrected intensity is multiplied by the same number.", "quantifier": "for all scans, tables, positive factors, loader settings, footprint settings, trained models, fit options and random draws", "why_tests_cant": "Scans, factors, settings and models are unbounded; tests compare one scaled scan.", "anchors": ["mlreflect/xrrloader/dataloader/scans.py:52-59", "mlreflect/xrrloader/dataloader/scans.py:97-111", "mlreflect/xrrloader/footprint/normalization.py:5-10", "mlreflect/xrrloader/dataloader/reflectivity_loader.py:28-60", "mlreflect/xrrloader/dataloader/spec_loader.py:48-79", "mlreflect/xrrloader/dataloader/fio_loader.py:44-104", "mlreflect/curve_fitter/spec_fitter.py:68-100", "mlreflect/curve_fitter/fio_fitter.py:54-87"]}
{"id": "C116", "title": "A loaded model fits like the saved one", "statement": "If a complete model, whose sample has real limits or complex constants, is saved and then loaded by any model object, a curve fitter made with the loaded model returns the same output as one made with the saved model, in every entry and for all curves and options; errors are the same, too. The results for scans agree in everything but the sample object, and the two samples describe the same layers. Saving other models under other names changes nothing about this.", "quantifier": "for all networks, samples of this kind, q values, standardization values, file systems, model objects, curves, options, optimizers and random draws", "why_tests_cant": "Models, samples, curves and options are unbounded; tests compare one model on one curve.", "anchors": ["mlreflect/models/trained_model.py:50-79", "mlreflect/curve_fitter/curve_fitter.py:21-30", "mlreflect/curve_fitter/curve_fitter.py:32-144", "mlreflect/curve_fitter/spec_fitter.py:73-94"]}
{"id": "C117", "title": "A random seed makes everything generated afterwards reproducible", "statement": "All labels and curves generated after a generator was made with a seed, and the error if one occurs, are determined by the seed and the calls since then, if only generators made since then are used: they are the same in all programs, whatever these did before. Generators made without a seed do not disturb the values of others. The seed is not private to its generator: making another one with the same seed lets the first one repeat its labels, and labels generated by another generator in between can change what the first one returns.", "quantifier": "for all programs made of constructions, label generations, simulations and other uses of the random numbers, all samples, seeds, arguments and initial states", "why_tests_cant": "Programs are unbounded sequences of calls on shared global state; a test fixes one sequence.", "anchors": ["mlreflect/data_generation/data_generator.py:29-41", "mlreflect/data_generation/data_generator.py:43-82", "mlreflect/data_generation/data_generator.py:107-148"]}
{"id": "C118", "title": "The curve returned with a fit is the reflectivity of the returned parameters", "statement": "If simulated curves are requested, a fit returns one curve for each row of the returned parameters, with one value for each given q value (in the given order, without the shift of q). It is the reflectivity of the stack that the row describes, looked up by the names of the columns: with the builtin engine every number lies between 0 and 1 and is the squared modulus of Parratt's recursion for lengths in Angstrom and densities in 1e-6/Angstrom^2 wherever the recursion is defined, and the fit is refused if the ambient density is not zero; with refl1d it is what refl1d returns for arguments that describe this stack.", "quantifier": "for all networks, searches of the refinement, samples with at least one layer and distinct names free of the key words, scans, q values and options, densities without negative absorption", "why_tests_cant": "A test compares a few curves with a reference implementation; parameters after shifts, scalings and refinement take arbitrary values, and a mismatch between returned parameters and returned curve shows only for some option combinations.", "anchors": ["mlreflect/curve_fitter/curve_fitter.py:32-144", "mlreflect/data_generation/data_generator.py:107-191", "mlreflect/data_generation/reflectivity.py:8-135"]}
{"id": "C119", "title": "A SPEC file that grows keeps its scans", "statement": "Appending lines to a SPEC file that ends with a blank line leaves the earlier scans as they were: command, time, table (or exception) and the loaded scan are the same, unless the scan number occurs again in the new lines, in which case the scan is the one that is read from the new lines alone. Appending lines with data to a scan that is still being measured keeps the rows that could already be read; the table only gains the numbers of the new lines, or is refused with a ValueError if a new line is incomplete.", "quantifier": "for all files whose parts can be read and interpreters with room on the stack for the scans of both parts, all appended lines, all scan numbers and loader settings", "why_tests_cant": "Line numbers of blocks, headers and data depend on everything written before; a test compares a few files before and after growth. Online fitting re-reads files in arbitrary states of a measurement.", "anchors": ["mlreflect/xrrloader/parser/spec_parser.py:14-95", "mlreflect/xrrloader/dataloader/spec_loader.py:48-79"]}
{"id": "C120", "title": "Rounding errors stay small and do not break exact relations", "statement": "In floating point arithmetic with rounding after every operation: labels within their range are normalized to numbers between 0 and 1 (absolute_max: -1 and 1) in their order, the limits to exactly 0 and 1; normalizing and restoring labels, and standardizing and reverting data, return the original value up to four roundings; outputs between 0 and 1 are restored to labels that are not below the lower limit and exceed the upper one by rounding errors at most (which does happen); curves normalized to their maximum have no value above 1 and exactly 1 at the maximum; folding brings draws into the range although it is rounded; draws on a logarithmic scale leave the range by errors of the library functions at most (which does happen); interpolation at the measured points adds no error to that of logarithm and power; the log MSE has a relative error of n + 3 roundings, is zero for equal curves only, and the variant selected by it is the best one up to this error.", "quantifier": "for all monotone symmetric roundings with relative error at most u <= 1/4 that keep their own numbers and one (IEEE 754 with any number of binary digits, without overflow and underflow), all library functions with relative error at most v, all values, ranges, curves and orders of summation", "why_tests_cant": "Rounding errors depend on every digit of the operands; the bad cases are rare and depend on the precision. A test with a tolerance checks some numbers and does not show that the tolerance suffices.", "anchors": ["mlreflect/training/preprocessing.py:40-65", "mlreflect/training/preprocessing.py:148-190", "mlreflect/xrrloader/footprint/normalization.py:5-10", "mlreflect/data_generation/distributions.py:64-78", "mlreflect/data_generation/interpolation.py:4-6", "mlreflect/curve_fitter/minimizer.py:27-30", "mlreflect/curve_fitter/minimizer.py:64-70"]}
{"id": "C121", "title": "A scan and its fit depend on its own lines only", "statement": "A scan of a SPEC file is read from its own block: what stands before it and after it in the file (blocks separated by blank lines) does not change the loaded scan or the exception, if its number does not occur again further down. Consequently, calling set_file again after the file has grown leaves the results of fit and fit_range for the scans that are not in the new lines as they were, with the same settings and random numbers.", "quantifier": "for all files whose parts can be read within the recursion limit, all scan numbers, loader settings, fit options, trained models and random numbers", "why_tests_cant": "The result of a fit passes from line numbers over columns, corrections and the network to the curve; a test repeats a fit for one pair of files.", "anchors": ["mlreflect/xrrloader/parser/spec_parser.py:14-95", "mlreflect/xrrloader/dataloader/spec_loader.py:48-89", "mlreflect/curve_fitter/spec_fitter.py:26-145", "mlreflect/curve_fitter/spec_fitter.py:169-172"]}
{"id": "C122", "title": "Sampled values follow the documented distributions", "statement": "If the numbers of numpy.random are independent with their documented distributions, the values sampled with 'uniform' are independent and uniformly distributed between the limits, with 'logarithmic' independent and uniform on a logarithmic scale. With 'bolstered' the documented fraction is drawn around the two limits, symmetrically (mean in the centre of the range), and the other values are uniform; this also holds for values that are drawn one at a time.", "quantifier": "for all limits, numbers of values, fractions, widths and states of the generator, as statements about probability measures", "why_tests_cant": "A test draws finitely many numbers and compares histograms; distribution functions and independence are statements about the measure on all outcomes.", "anchors": ["mlreflect/data_generation/distributions.py:7-78", "mlreflect/data_generation/parameters.py:28-57", "mlreflect/data_generation/data_generator.py:84-105"]}
{"id": "C123", "title": "Noise has the documented mean and spread", "statement": "Noise spreads the points of a curve around their clean values: uniform noise and scaling with ranges around 1 leave the mean of every point as it is; shot noise with level c has mean x and standard deviation sqrt(x c) for a point x; Poisson noise with rate c has mean x and the documented standard deviation. Different points get independent noise.", "quantifier": "for all batches of clean curves, all noise levels and ranges, all states of the generator, as statements about expectations", "why_tests_cant": "Means over finitely many random curves scatter; the bias by clipping negative values is only visible for points below the noise level.", "anchors": ["mlreflect/data_generation/noise.py:24-145", "mlreflect/training/training.py:118-124"]}
{"id": "C124", "title": "Random label tables have independent rows with the documented distribution", "statement": "With uniform or logarithmic sampling, the rows of a table of random labels are independent and identically distributed. Within a row every thickness, every scattering length density (both parts of a complex one) and the roughness of the substrate have the documented distribution between their limits, and all of them are independent. The roughness of a film has, given the thickness in the same row, the documented distribution between its lower limit and the smaller one of its upper limit and half the thickness.", "quantifier": "for all samples with positive limits (logarithmic) or any limits (uniform), numbers of rows, rows, layers and states of the generator, as statements about probability measures", "why_tests_cant": "How many random numbers the redrawn roughnesses use depends on the numbers drawn before. That rows stay independent nevertheless is a statement about the joint distribution of all columns, which no finite sample shows.", "anchors": ["mlreflect/data_generation/data_generator.py:43-105", "mlreflect/data_generation/distributions.py:7-29", "mlreflect/data_generation/parameters.py:28-57"]}
{"id": "C125", "title": "The order of the rows of a random label table has no meaning", "statement": "For all three distribution types, permuting the rows of a table of random labels does not change its distribution: all rows have the same distribution, and so have all pairs, triples and larger choices of different rows. Therefore the training/validation split, which takes the first rows for training and the rest for validation without shuffling, is as good as a random split: the expected value of any function of the two parts is the average over all orders of the rows. A single value of bolstered sampling is, at every place, normal around the lower or the upper limit with the documented fractions, and otherwise uniform.", "quantifier": "for all samples with admissible limits, all distribution types and settings, numbers of rows, permutations, split fractions and measurable functions, as statements about probability measures", "why_tests_cant": "Bolstered sampling puts the values around the limits into fixed places and shuffles every column separately; that no trace of the places remains in the joint distribution of all columns is not visible in a finite sample.", "anchors": ["mlreflect/data_generation/data_generator.py:43-105", "mlreflect/data_generation/distributions.py:32-72", "mlreflect/training/training.py:66-77"]}
{"id": "C126", "title": "How often random labels leave their ranges", "statement": "A value of bolstered sampling is outside its limits with probability (2 m / n) (Q(1/w) + Q(2/w)), where m of n values are drawn around each limit with the width w (a fraction of the range) and Q(t) is the probability that a standard normal number exceeds t. This is more than zero, but at most f (exp(-1/(2 w^2)) + exp(-2/w^2)) for the fraction f. A whole table of random labels keeps all its values in the ranges of the parameters, and all roughnesses below half the thickness in the same row (or at the lower limit of the roughness), except with probability at most 2 (8 n + 6) (L + 2) exp(-1/(2 w^2)) for n rows and L layers; with the default settings less than 1e-13 for a million rows and ten layers.", "quantifier": "for all samples with admissible limits, numbers of rows and layers, fractions, widths and states of the generator, as statements about probability measures", "why_tests_cant": "The event has a probability below 1e-20 per value with the default settings: no test will ever see it, and no test can show that it is not larger for some other sample or width.", "anchors": ["mlreflect/data_generation/distributions.py:32-72", "mlreflect/data_generation/data_generator.py:43-105"]}
{"id": "C127", "title": "Every epoch is a new random arrangement of the samples", "statement": "With shuffling, all arrangements of the training samples into batches are equally likely in every epoch, and the arrangements of different epochs are independent. A sample is in a given batch with probability batch_size / n. It is left out of an epoch with probability (n mod batch_size) / n and out of the first E epochs with the E-th power of this. Without shuffling, the last n mod batch_size samples are left out of every epoch. The noise of a batch uses a fixed number of random numbers, one for every point and one for every curve.", "quantifier": "for all data sets, batch sizes, numbers of epochs, conditions on the arrangements, samples and positions of the shuffles in the sequence of random numbers, as statements about probability measures", "why_tests_cant": "Each shuffle acts on the result of the previous one, and noise is drawn in between; that the arrangements are uniform and independent nevertheless is a statement about the joint distribution of all epochs.", "anchors": ["mlreflect/training/noise_generator.py:11-46", "mlreflect/training/noise_generator.py:112-132"]}
{"id": "C128", "title": "Arguments that cannot be used raise the exception of their kind", "statement": "Dictionaries with a missing or an extra key for a layer class raise TypeError and with the right keys go to the constructor; noise functions refuse everything but one- and two-dimensional arrays with ValueError; predict_labels raises ValueError for inputs that are no table of curves of the right width or if the number of names is wrong, and otherwise succeeds; show_scans before a file is set raises AttributeError; a .fio file without a command makes scan_info raise TypeError; loading a model raises KeyError for missing and TypeError for wrong data sets; a text that is no number as spread of the q values raises ValueError.", "quantifier": "for all dictionaries, arrays, networks, names, fitters, folders, model files and texts", "why_tests_cant": "The kind of an exception is part of the interface (the code itself catches ValueError, KeyError and IndexError in several places); that the same kind is raised for every bad argument is a universal statement.", "anchors": ["mlreflect/data_generation/layers.py:23-35", "mlreflect/data_generation/layers.py:156-165", "mlreflect/data_generation/noise.py:24-78", "mlreflect/training/prediction.py:20-32", "mlreflect/curve_fitter/spec_fitter.py:148-167", "mlreflect/xrrloader/parser/fio_parser.py:27-39", "mlreflect/models/trained_model.py:50-64"]}
{"id": "C129", "title": "Random training labels come close to every admissible set of labels", "statement": "With uniform or logarithmic sampling, every row of a table of random labels comes within any given distance of any set of labels that the ranges allow (values in their ranges, roughness at most half the thickness or at its lower limit) with positive probability. The probability that a table of n rows has no such row is at most (1 - p)^n with a p > 0 that does not depend on n. Hence no part of the allowed label space is missing from large training sets.", "quantifier": "for all samples with drawable ranges, admissible sets of labels, distances, rows, table sizes and starting positions in the sequence of random numbers", "why_tests_cant": "It is a statement about the support of the joint distribution of all labels, where the range of the roughness depends on the drawn thickness; sampling can only show that some region is reached.", "anchors": ["mlreflect/data_generation/data_generator.py:44-82", "mlreflect/data_generation/data_generator.py:84-105", "mlreflect/data_generation/distributions.py:75-78"]}
{"id": "C130", "title": "Labels that the curves do not determine cannot be learned", "statement": "Without noise on the q values, row i of the simulated curves is a function of row i of the random labels. If two neighbouring layers have the same density, the curve depends only on the sum of their thicknesses and not on the roughness between them. If two admissible sets of labels have the same curve, then every continuous prediction of a label from the curve misses the label of a random training sample by almost half the difference of the two sets, with positive probability. The predictions of the networks of the package are continuous. So for two neighbouring layers whose ranges allow the same density, no training removes the error of the single thicknesses.", "quantifier": "for all samples, tables of random labels, q values, sets of labels, continuous predictions from curves to numbers and tolerances", "why_tests_cant": "It is a statement about all possible predictions, i.e. about all networks and all training runs; a test sees one trained network.", "anchors": ["mlreflect/data_generation/data_generator.py:44-82", "mlreflect/data_generation/data_generator.py:107-148", "mlreflect/data_generation/data_generator.py:175-192", "mlreflect/data_generation/reflectivity.py:8-141"]}
{"id": "C131", "title": "The error rate on a test set is the error rate on new samples", "statement": "Draw training labels and then n test labels from the same generator, and let a prediction of a label be any function of the training samples and of the curve. The fraction of the test samples for which the prediction is off by more than a tolerance (or whose curve is not a number) differs from the probability of this for a new sample by t or more with a probability of at most 2 exp(-2 n t^2). The same holds for the mean of any loss between 0 and 1, and for every rule that was fixed by the random numbers drawn before the test set, although the number of numbers drawn before is random. Hence a test set that was generated after the training, in the same process, measures what the user gets on new samples, however the training chose the prediction. For M predictions that were fixed before the test set, the best of which is chosen on it, the probability is at most M times as large.", "quantifier": "for all samples, sampling kinds uniform and logarithmic, sizes of the training and test sets, measurable rules, tolerances and deviations t", "why_tests_cant": "It is a statement about the probability of a deviation over all random sequences and all training procedures; the sequence of numbers is shared, and the number of numbers that the training data uses depends on their values.", "anchors": ["mlreflect/data_generation/data_generator.py:44-82", "mlreflect/data_generation/data_generator.py:84-105", "mlreflect/data_generation/distributions.py:75-78", "mlreflect/training/training.py:37-47"]}
{"id": "C132", "title": "A label can be learned exactly if and only if the curves determine it", "statement": "Let every admissible set of labels have a curve. There is a continuous function of the curve that gives a label of random training samples without error, with probability one, if and only if admissible sets of labels with the same curve agree in this label. In this case the prediction is also stable: for every tolerance there is a size of errors of the curve, the same for all admissible labels, up to which the prediction stays within the tolerance. For a substrate without layers and with a fixed density, the roughness is determined as soon as one q value is above the critical edge.", "quantifier": "for all samples, tables of random labels, q values, labels and tolerances", "why_tests_cant": "It is a statement about the existence of a prediction among all continuous functions, about all admissible labels and about all errors of the curves.", "anchors": ["mlreflect/data_generation/data_generator.py:44-82", "mlreflect/data_generation/data_generator.py:107-148", "mlreflect/data_generation/reflectivity.py:8-141"]}
{"id": "C133", "title": "Arguments take effect whichever way they are passed", "statement": "The methods fit, fit_range and show_scans of the fitters read the files again before they run exactly if the value of their argument reload is true, whether it is passed by keyword, by position or left at its default, and they run with the arguments of the call. A call that Python does not accept raises a TypeError. The argument verbose of Trainer.train reaches the callback that reduces the learning rate.", "quantifier": "for all methods, positional and keyword arguments, states of the fitter and contents of the files", "why_tests_cant": "The wrapper decides before the arguments are bound, and there are unboundedly many ways to pass thirteen arguments; a test tries a few of them.", "anchors": ["mlreflect/curve_fitter/base_fitter.py:9-35", "mlreflect/curve_fitter/spec_fitter.py:25-29", "mlreflect/curve_fitter/spec_fitter.py:102-105", "mlreflect/curve_fitter/fio_fitter.py:15-18", "mlreflect/curve_fitter/fio_fitter.py:89-92", "mlreflect/training/training.py:126-133"]}
{"id": "C134", "title": "Enough random training data determine a label wherever the curves do", "statement": "Let every admissible set of labels have a curve. If the curves determine a label, then for every tolerance there is a size of measurement errors for which looking up the nearest simulated curve among the random training samples gives this label up to the tolerance, for all admissible samples and all measured curves with such errors at once; the probability that this fails somewhere is at most m (1 - p)^n for n training samples, with p > 0, and tends to zero. If the curves do not determine the label, there is a tolerance for which every training set, of any size, fails.", "quantifier": "for all samples, tolerances, numbers of training samples, admissible labels and measured curves", "why_tests_cant": "It is a bound on the probability of a failure anywhere in a continuum of labels and measured curves, for every size of the training set.", "anchors": ["mlreflect/data_generation/data_generator.py:44-82", "mlreflect/data_generation/data_generator.py:107-148", "mlreflect/data_generation/reflectivity.py:8-141", "mlreflect/data_generation/distributions.py:1-60"]}
{"id": "C135", "title": "Two points of the curve determine density and roughness of a substrate, one does not", "statement": "For a sample without layers whose density and roughness are unknown within their ranges, and momentum transfers above the critical edge of the largest density: two different momentum transfers determine both labels, so that a continuous function of the curve gives them without error for random samples; one momentum transfer determines neither. If the roughness is known, one momentum transfer determines the density.", "quantifier": "for all ranges of density and roughness, all lists of momentum transfers and all admissible labels", "why_tests_cant": "That no two of a continuum of label pairs have the same curve, and that two such pairs always exist for one momentum transfer, are statements about all real labels.", "anchors": ["mlreflect/data_generation/reflectivity.py:8-141", "mlreflect/data_generation/data_generator.py:44-82", "mlreflect/data_generation/data_generator.py:107-148"]}
{"id": "C136", "title": "The thickness of a film with contrast can be learned from finitely many points", "statement": "For a sample with one film with sharp interfaces, whose density is never zero and never the density of the substrate, the points of the curve above any momentum transfer determine the thickness, even if both densities are unknown. For every tolerance finitely many of these points are enough: a continuous function of them gives the thickness of every admissible sample up to the tolerance, also from curves with small measurement errors. If film and substrate have the same density, the curves are the same for all thicknesses. The step from a complete curve to finitely many points and measurement errors holds for every label of every sample.", "quantifier": "for all ranges of thickness and densities, all admissible labels, all tolerances, all lower limits of the momentum transfer and all small measurement errors", "why_tests_cant": "That no two of a continuum of samples have the same curve, and that finitely many points are enough for all of them at once, are statements about all real labels.", "anchors": ["mlreflect/data_generation/reflectivity.py:8-141", "mlreflect/data_generation/data_generator.py:44-82", "mlreflect/data_generation/data_generator.py:107-148"]}
{"id": "C137", "title": "The tail of the curve is the Fourier transform of the density steps and determines the total thickness", "statement": "For any number of layers with sharp interfaces the fourth power of the momentum transfer times the simulated reflectivity approaches the squared modulus of the sum of the density steps with the phases of their depths. Therefore the points of the curve above any momentum transfer determine the total thickness of the layers, even if all thicknesses and densities are unknown, provided the uppermost layer has a density, the lowest differs in density from the substrate and both have a thickness. For every tolerance finitely many of these points are enough to learn the total thickness, also from curves with small measurement errors.", "quantifier": "for all stacks with sharp interfaces and without gain, all admissible labels, all tolerances, all lower limits of the momentum transfer and all small measurement errors", "why_tests_cant": "The limit of large momentum transfers and the uniqueness among a continuum of samples with any number of layers are not reached by finitely many simulated curves.", "anchors": ["mlreflect/data_generation/reflectivity.py:8-141", "mlreflect/data_generation/data_generator.py:44-82", "mlreflect/data_generation/data_generator.py:107-148"]}
{"id": "C138", "title": "The tail of the curve determines the sum of the squared density steps and the density of a film", "statement": "For any number of non-empty layers with sharp interfaces, two admissible samples with the same simulated curve above some momentum transfer have the same sum of the squared density steps over all interfaces, whatever their thicknesses. For a single film of real density on a substrate of known density, whose densities all lie on one side of half the density of the substrate, the curve therefore determines the density, also if the thickness is unknown and the density may be that of the substrate. For every tolerance finitely many points are enough to learn it, also from curves with small measurement errors.", "quantifier": "for all stacks with sharp interfaces and without gain, all admissible labels, all tolerances, all lower limits of the momentum transfer and all small measurement errors", "why_tests_cant": "Uniqueness among a continuum of samples from the limit of large momentum transfers is not reached by finitely many simulated curves.", "anchors": ["mlreflect/data_generation/reflectivity.py:8-141", "mlreflect/data_generation/data_generator.py:44-82", "mlreflect/data_generation/data_generator.py:107-148"]}
{"id": "C139", "title": "Samples withheld for validation do not influence the training", "statement": "train withholds the fraction val_split of the samples for validation. Two trainers whose training data agree except in withheld samples, with the same random numbers, pass the same samples, labels, order and inputs to the training of the network and return models with the same statistics.", "quantifier": "for all samples, training data, validation fractions, batch sizes and random numbers", "why_tests_cant": "It compares all pairs of training sets that agree on the training part; a test of one training run cannot see what would have happened with other withheld samples.", "anchors": ["mlreflect/training/training.py:37-47", "mlreflect/training/training.py:49-90", "mlreflect/training/training.py:118-125", "mlreflect/training/preprocessing.py:40-57"]}
{"id": "C140", "title": "Rounding moves at most one sample between training and validation", "statement": "The numbers of training samples, of batches per epoch and of values around the limits of a range are computed with floating point numbers. The number of batches is still the exact quotient without remainder. The number of training samples differs from the exact one by at most one, not at all if the exact product is not close to a whole number, and training and validation samples are still all samples in their order. The values around both limits are never more than all values.", "quantifier": "for all numbers of samples (bounded by the precision), batch sizes, fractions between 0 and 1 and numbers of binary digits", "why_tests_cant": "Errors appear only for special combinations of a fraction and a number of samples, e.g. 0.9 of 10 samples; a test with convenient numbers does not meet them, and no test covers all numbers of samples.", "anchors": ["mlreflect/training/training.py:68-77", "mlreflect/training/noise_generator.py:25-26", "mlreflect/data_generation/distributions.py:48"]}
{"id": "C141", "title": "The default training data reach every admissible structure, but cannot teach what the curves do not determine", "statement": "With the default distribution (bolstered: most values uniform, a fraction of them normal around the limits and folded back, all shuffled) every set of labels that the ranges of the sample allow, with the roughness of a film at most half its thickness, is approached by the random labels up to any error with positive probability. So the bolstered distribution excludes no structure. Hence a label that the curves do not determine cannot be learned from the default training data either: any continuous prediction misses it by almost half the ambiguity, with positive probability.", "quantifier": "for all samples, numbers of rows, bolster fractions between 0 and 1, positive widths, admissible labels, errors, q values and continuous predictions", "why_tests_cant": "A test sees finitely many tables; that no neighbourhood of an admissible structure has probability zero, and that no network of any size can learn an ambiguous label, are statements about all of them.", "anchors": ["mlreflect/data_generation/distributions.py:32-61", "mlreflect/data_generation/data_generator.py:44-105", "mlreflect/data_generation/parameters.py:28-57"]}
{"id": "C142", "title": "Two neighbouring layers of the same density leave an error that no network can learn to avoid", "statement": "Let two neighbouring layers of a sample have the same density and the same range of thicknesses, and let the training samples be drawn uniformly or logarithmically. Every prediction of the thickness of one of them from the simulated curve has, on random training samples, a mean squared error of at least a quarter of the mean squared difference of the two thicknesses. With uniform sampling between a and b this is (b-a)^2/24, half the variance of the thickness itself, and it is the error of the best guess, half the sum of the two thicknesses. More training samples, other q values or a larger network do not help.", "quantifier": "for all samples with two such layers, uniform and logarithmic distributions, numbers of rows, q values, and all measurable predictions", "why_tests_cant": "A test trains one network and sees a loss that stops falling; that no function of the curve can do better is a statement about all of them.", "anchors": ["mlreflect/data_generation/data_generator.py:44-148", "mlreflect/data_generation/distributions.py:8-31", "mlreflect/data_generation/reflectivity.py:8-141"]}
{"id": "C143", "title": "A LayerOnSubstrate is restored from its own dictionary", "statement": "Reading the dictionary of a sample into a new LayerOnSubstrate gives the sample back, up to the class of constant layers, without an error. This holds for samples with at most one layer only. With two or more layers, for example an oxide and a film, the call raises ValueError after the ambient medium, the substrate and the lowest layer have been set, since all layers of the dictionary become variable layers; on a MultilayerStructure the same dictionary gives the whole sample. On a LayerOnSubstrate whose lowest layer is constant, all layers of the dictionary are added as variable layers. A copy has the same parts but is a MultilayerStructure, which takes any further variable layer.", "quantifier": "for all samples with constant ends, and all states of the object the dictionary is read into", "why_tests_cant": "A test reads one dictionary, usually of one layer; whether the state after a failed call is half restored for every sample is a statement about all of them.", "anchors": ["mlreflect/data_generation/multilayer.py:87-95", "mlreflect/data_generation/multilayer.py:162-168", "mlreflect/data_generation/multilayer.py:183-223"]}
{"id": "C144", "title": "No two random training samples have the same reflectivity", "statement": "At a given momentum transfer, a reflectivity below one belongs to countably many thicknesses of a layer only, unless the thickness has no effect at all; for a film on a substrate of another density it always belongs to countably many, above and below the critical edges and for all roughnesses. Therefore any two samples of a random training set have different reflectivities at every momentum transfer, with probability one, except for values of one, where the code cuts off. The training data do not contradict themselves: if all samples have a value below one at some momentum transfer, a continuous function of the curves gives all labels of all training samples exactly, even labels that cannot be determined from curves (C130, C142). A small loss on the training data is no sign that a label can be learned.", "quantifier": "for all stacks, layers, momentum transfers and values; for all samples with drawn thicknesses, uniform and logarithmic distributions, numbers of rows and q values, and almost all outcomes of the random numbers", "why_tests_cant": "A test compares the samples of one random seed; that equal values have probability zero for every sample definition needs the analytic dependence on the thickness.", "anchors": ["mlreflect/data_generation/data_generator.py:44-148", "mlreflect/data_generation/distributions.py:8-31", "mlreflect/data_generation/reflectivity.py:8-141"]}
{"id": "C145", "title": "Every documented batch size can be used", "statement": "The documentation of Trainer.train asks for a batch size smaller than val_split times the number of training curves. Training starts with every such batch size, because both the training and the validation part then hold a batch; a larger one raises a ValueError. With the default arguments, training starts for at least 2556 curves and for no smaller number.", "quantifier": "for all samples with real limits, numbers of curves, batch sizes, fractions between 0 and 1, histories of earlier training calls and random generators; with exact numbers and with any number of binary digits", "why_tests_cant": "A test uses one split fraction; whether the documented condition is the right one depends on the fraction, the number of curves and the batch size together.", "anchors": ["mlreflect/training/training.py:49-77", "mlreflect/training/noise_generator.py:14-31"]}
{"id": "C146", "title": "The curve of a bare substrate falls", "statement": "Above the critical edge the simulated reflectivity of a substrate without layers falls strictly along the momentum transfer, is smaller at every point for the rougher of two substrates and larger at every point for the denser one. A curve that rises there therefore shows a layer.", "quantifier": "for all positive real densities, all roughnesses and all lists of momentum transfers above the critical edge; for samples: all samples without layers below vacuum and all labels", "why_tests_cant": "Tests compare single curves with stored values; that the direction of every change is right concerns all pairs of densities, roughnesses and momentum transfers.", "anchors": ["mlreflect/data_generation/reflectivity.py:8-119", "mlreflect/data_generation/data_generator.py:108-192"]}
{"id": "C147", "title": "A call that raises can be followed by others", "statement": "A client that catches an exception of a fitter method (set_file, set_trained_model, fit, fit_range) and carries on sees the same outcomes of all later calls as a client that did not make that call. For the FioFitter this holds for later fits that read the scans again (the default); without reading again they use what the failed call has read.", "quantifier": "for all fitters in any state, all calls that raise, and all sequences of later calls and changes of the files", "why_tests_cant": "It concerns every exception at every point of a session and all continuations; a test looks at one exception and one later call.", "anchors": ["mlreflect/curve_fitter/base_fitter.py:18-93", "mlreflect/curve_fitter/spec_fitter.py:25-172", "mlreflect/curve_fitter/fio_fitter.py:15-185"]}
{"id": "C148", "title": "A layer makes the curve rise again and again", "statement": "The simulated curve of a stack with sharp interfaces below vacuum, whose lowest and uppermost layers are not empty, whose uppermost layer has a density and whose lowest layer differs from the substrate, rises somewhere beyond every momentum transfer (Kiessig fringes). It therefore differs, beyond every momentum transfer, from the curve of every bare substrate of positive density and any roughness.", "quantifier": "for all numbers of layers, thicknesses, densities without gain and lower limits of the momentum transfer; for samples: all labels within the ranges", "why_tests_cant": "It concerns momentum transfers beyond every limit and layers whose thicknesses have no common period; a test looks at a finite range of one curve.", "anchors": ["mlreflect/data_generation/reflectivity.py:8-119", "mlreflect/data_generation/data_generator.py:108-192"]}
{"id": "C149", "title": "A trainer can be used after an exception", "statement": "A client that catches an exception of Trainer.generate_training_data or of Trainer.train (raised before the network is trained) and carries on finds the trainer as it was: the same training data, preprocessor, network and returned models, so that every later sequence of calls leads to the same state as without the failed call.", "quantifier": "for all trainers in any state, numbers of curves, batch sizes, fractions, random generators and all sequences of later calls", "why_tests_cant": "It concerns every exception in every state of a trainer and all continuations; a test looks at one exception and one later call.", "anchors": ["mlreflect/training/training.py:37-90", "mlreflect/training/preprocessing.py:40-60"]}
{"id": "C150", "title": "The tail of the curve cannot tell a stack from its mirror image", "statement": "For a stack with sharp interfaces and densities without absorption below vacuum, the stack with its layers in reverse order, each of density ρ replaced by the density of the substrate minus ρ, has the same curve up to a remainder that vanishes faster than the fourth power of the momentum transfer. For a film whose density is not half that of the substrate, the two curves approach each other on the logarithmic scale: for every error there is a momentum transfer beyond which the measured points fit both densities, so that no prediction from the curve alone is close to both.", "quantifier": "for all numbers of layers, thicknesses, real densities, error sizes, lists of momentum transfers beyond the limit and all predictors; for samples: all labels within the ranges", "why_tests_cant": "It concerns all predictors and a limit at infinite momentum transfer; a test compares two curves at finitely many points.", "anchors": ["mlreflect/data_generation/reflectivity.py:8-119", "mlreflect/data_generation/data_generator.py:108-192"]}
{"id": "C151", "title": "A sample can be used after an exception", "statement": "A call of a method of a sample (set_ambient_layer, set_substrate, add_layer, rename_layer, swap_layers, move_layer, from_dict) that raises leaves the sample as it was, so that all later calls have the same outcomes and end in the same sample as without the failed call.", "quantifier": "for all samples of both classes, all arguments and all sequences of calls before and after", "why_tests_cant": "It concerns every exception in every state of a sample and all continuations; a test looks at one exception.", "anchors": ["mlreflect/data_generation/multilayer.py:29-92", "mlreflect/data_generation/multilayer.py:194-218"]}
{"id": "C152", "title": "The tail of the curve belongs to the smoothest interface and determines its roughness", "statement": "For a stack below vacuum, with any number of rough interfaces, of which one with a step of the density is smoother than all others with a step, the simulated curve lies, beyond some momentum transfer, between two positive multiples of exp(-(σq)²)/q⁴, where σ is the roughness of that interface. Two samples with the same curve beyond some momentum transfer therefore have the same smallest roughness.", "quantifier": "for all numbers of layers, thicknesses, roughnesses and densities without gain; for samples: all labels within the ranges", "why_tests_cant": "It concerns the limit of infinite momentum transfer and all stacks; a test looks at a finite range of one curve.", "anchors": ["mlreflect/data_generation/reflectivity.py:8-119", "mlreflect/data_generation/data_generator.py:108-192"]}
{"id": "C153", "title": "The tail of the curve determines the smallest roughness also if several interfaces have it", "statement": "For a stack of layers of positive thickness below vacuum, with at least one step of the density, let σ be the smallest roughness among the interfaces with a step; any number of interfaces may have it. The simulated curve stays, beyond some momentum transfer, below a multiple of exp(-(σq)²)/q⁴ and comes back to a positive multiple of it at arbitrarily large momentum transfers. Two samples with the same curve beyond some momentum transfer therefore have the same smallest roughness.", "quantifier": "for all numbers of layers, positive thicknesses, roughnesses and densities without gain; for samples: all labels within the ranges", "why_tests_cant": "It concerns the limit of infinite momentum transfer and all stacks, including those in which the waves of several interfaces cancel at some momentum transfers; a test looks at a finite range of one curve.", "anchors": ["mlreflect/data_generation/reflectivity.py:8-119", "mlreflect/data_generation/data_generator.py:108-192"]}
{"id": "C154", "title": "The tail of the curve determines the distance between the outermost of the smoothest interfaces", "statement": "For a stack of layers of positive thickness below vacuum, consider the interfaces with a step of the density and the smallest roughness. If the simulated curves of two such stacks agree beyond some momentum transfer, the distance between the uppermost and the lowest of these interfaces is the same for both. In particular, films with the same roughness at their two interfaces and contrast at both have the same thickness if their curves agree, whatever the densities and roughnesses are: roughness damps the fringes but does not hide the thickness.", "quantifier": "for all numbers of layers, positive thicknesses, roughnesses and densities without gain; for samples: all labels within the ranges", "why_tests_cant": "It excludes any second set of labels, out of infinitely many, with the same curve; a test compares given sets of labels.", "anchors": ["mlreflect/data_generation/reflectivity.py:8-119", "mlreflect/data_generation/data_generator.py:108-192"]}
{"id": "C155", "title": "The tail of the curve of a film with equally rough interfaces determines roughness, thickness and density", "statement": "Consider films whose real density lies between the densities of vacuum and of the substrate, with the same non-zero roughness at the upper and the lower interface. If two such films on substrates of the same density have the same simulated curve beyond some momentum transfer, they have the same roughness, the same thickness and the same density. With roughness, the density and its mirror value (substrate density minus film density) are therefore told apart by the tail, which is not the case for sharp interfaces in the limit (C150).", "quantifier": "for all roughnesses other than zero, positive thicknesses, substrate densities and film densities strictly between zero and the one of the substrate; for samples: all labels within the ranges", "why_tests_cant": "It excludes any second film, out of a continuum, with the same tail; whether the two amplitudes of one film can be the exchanged amplitudes of another one is a question about solutions of a transcendental equation that no set of examples settles.", "anchors": ["mlreflect/data_generation/reflectivity.py:8-119", "mlreflect/data_generation/data_generator.py:108-192"]}
{"id": "C156", "title": "If the surface is the smoothest interface, the tail of the curve determines its roughness and the density of the uppermost layer", "statement": "Consider a stack below vacuum whose uppermost layer (or bare substrate) has a positive real density ρ and whose surface has the roughness σ, while every other interface is rougher or has no step of the density. The simulated curve divided by exp(-(σq)²)/q⁴ tends to (4πρ exp(4πσ²ρ))². If two such stacks have the same curve beyond some momentum transfer, their surfaces have the same roughness and their uppermost layers the same density, whatever lies below. For a bare substrate both labels are determined.", "quantifier": "for all numbers of layers, thicknesses, roughnesses including zero, densities without gain below the uppermost layer; for samples: all labels within the ranges", "why_tests_cant": "It excludes any second stack of any number of layers with the same tail; a test compares given stacks on a finite range.", "anchors": ["mlreflect/data_generation/reflectivity.py:8-119", "mlreflect/data_generation/data_generator.py:108-192"]}
{"id": "C157", "title": "If a buried interface is the smoothest one, the tail of the curve belongs to it, and determines the density of a film above it exactly up to a certain roughness", "statement": "Consider a stack below vacuum with one interface, between the real densities a above and b below, that is smoother than every other interface with a step of the density. The simulated curve divided by exp(-(σq)²)/q⁴ tends to (4π(b-a) exp(4πσ²(a+b)))², however deep the interface is buried. For films less dense than the substrate whose interface with the substrate is the smoother one: if 4πσ² times the density of the substrate is at most one, the tail determines the roughness of this interface and the density of the film; if it is larger than one, there are two different densities for which the ratio of the curves tends to one, for all thicknesses and roughnesses of the surface.", "quantifier": "for all numbers of layers, thicknesses, roughnesses and densities without gain in the other layers; for samples: all labels within the ranges", "why_tests_cant": "Both halves are about a continuum of films in the limit of infinite momentum transfer; the threshold of the roughness cannot be found from examples.", "anchors": ["mlreflect/data_generation/reflectivity.py:8-119", "mlreflect/data_generation/data_generator.py:108-192"]}
{"id": "C158", "title": "Above the critical edge every point of the curve of a rough film is a number, and thickness and density can be learned from finitely many of them", "statement": "For a film without gain, of any two roughnesses, every entry of the simulated curve at momentum transfers above the critical edges of film and substrate is a number from zero to one (below the critical edge it can be NaN, C34). For a film on a known denser substrate, with the same known non-zero roughness at both interfaces: for every tolerance and every momentum transfer above the critical edge there are finitely many larger momentum transfers, a continuous function of the curve at these points, and a size of the measurement errors, such that the function gives the thickness (likewise the density) of every admissible sample up to the tolerance. Unlike for sharp interfaces (C138, C150) the density need not be known to lie on one side of half the density of the substrate.", "quantifier": "for all densities without gain, roughnesses, thicknesses of at least zero and momentum transfers above the edges; for samples: all ranges and all labels within them, all tolerances", "why_tests_cant": "It quantifies over all labels within continuous ranges and claims the existence of momentum transfers and of a function that work for all of them.", "anchors": ["mlreflect/data_generation/reflectivity.py:8-141", "mlreflect/data_generation/data_generator.py:108-192"]}
{"id": "C159", "title": "Without knowledge of the substrate the tail of the curve leaves two films", "statement": "A film on a denser substrate, with the same roughness at both interfaces and neither density known. If the simulated curves of two such samples agree beyond some momentum transfer, roughness and thickness agree, and either both densities agree or the waves from the two interfaces have exchanged strengths. For every film and every roughness exactly one pair of densities of film and substrate with exchanged strengths exists, and for every thickness the two curves differ by less than every multiple of their common tail. With roughness, a film of at most half the density of its substrate is never its own partner. So C155 needs the substrate to be known.", "quantifier": "for all densities of film and substrate with the film between zero and the substrate, all roughnesses (also zero) and all positive thicknesses", "why_tests_cant": "It is a statement about the limit of the curve at infinite momentum transfer, about the existence of a second sample for every sample, and about all pairs of samples.", "anchors": ["mlreflect/data_generation/reflectivity.py:8-141", "mlreflect/data_generation/data_generator.py:108-192"]}
{"id": "C160", "title": "Roughness and density of a film whose surface is smoother than its lower interface can be learned above the critical edge, on an unknown substrate", "statement": "A sample of one film below vacuum, with ranges for thickness, density and roughness of the film and for density and roughness of the substrate, all roughnesses of the film below all roughnesses of the substrate. The simulated curve beyond any momentum transfer determines roughness and density of the film. For every tolerance and every momentum transfer above the critical edges there are finitely many larger momentum transfers, a continuous function of the curve at these points, and a size of the measurement errors, such that the function gives the roughness (likewise the density) of the film of every admissible sample up to the tolerance; all these points of the curve are numbers.", "quantifier": "for all such samples, all ranges and all labels within them, all tolerances and all momentum transfers above the critical edges", "why_tests_cant": "It quantifies over all labels within continuous ranges and claims the existence of momentum transfers and of a function that work for all of them.", "anchors": ["mlreflect/data_generation/reflectivity.py:8-141", "mlreflect/data_generation/data_generator.py:108-192"]}
{"id": "C161", "title": "Roughness and density of a bare substrate can be learned from finitely many points of the curve", "statement": "A substrate without layers below vacuum, with a range of positive densities and a range of roughnesses. The simulated curve beyond any momentum transfer determines both labels. For every tolerance and every momentum transfer there are finitely many larger momentum transfers, a continuous function of the curve at these points, and a size of the measurement errors, such that the function gives the roughness (likewise the density) of every admissible substrate up to the tolerance; all points of the curve are numbers, also below the critical edge.", "quantifier": "for all ranges and all labels within them, all tolerances and all momentum transfers", "why_tests_cant": "It quantifies over all labels within continuous ranges and claims the existence of momentum transfers and of a function that work for all of them.", "anchors": ["mlreflect/data_generation/reflectivity.py:8-141", "mlreflect/data_generation/data_generator.py:108-192"]}
{"id": "C162", "title": "The roughness of a buried interface and the density of the film above it can be learned above the critical edge", "statement": "A sample of one film below vacuum on a denser substrate of known density, with ranges for thickness, density and roughness of the film and for the roughness of the substrate, all roughnesses of the substrate below all roughnesses of the film and within the bound of C157 (4\u03c0\u03c3\u00b2 times the density of the substrate at most one). The simulated curve beyond any momentum transfer determines the roughness of the substrate and the density of the film. For every tolerance and every momentum transfer above the critical edge there are finitely many larger momentum transfers, a continuous function of the curve at these points, and a size of the measurement errors, such that the function gives the roughness of the substrate (likewise the density of the film) of every admissible sample up to the tolerance; all these points of the curve are numbers.", "quantifier": "for all such samples, all ranges and all labels within them, all tolerances and all momentum transfers above the critical edge", "why_tests_cant": "It quantifies over all labels within continuous ranges and claims the existence of momentum transfers and of a function that work for all of them.", "anchors": ["mlreflect/data_generation/reflectivity.py:8-141", "mlreflect/data_generation/data_generator.py:108-192"]}
