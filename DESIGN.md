# Design of the formal model

Target: `/repo` (schreiber-lab/mlreflect at the pinned commit), read as text only.
Language: Lean 4.33.0 with Mathlib. Project: `/verif/lean`.

## Trusted base

* Lean's kernel (and the toolchain that feeds it).
* Axioms: only `propext`, `Classical.choice`, `Quot.sound`. No own axioms, no `sorry`,
  no `native_decide`, no `bv_decide`. The file `lean/Verif/Audit.lean` prints the axioms of
  every theorem listed in `MANIFEST.json`.
* The reading of the Python sources and of the numpy / pandas / h5py primitives described below.
  The model is written by hand next to the code. Nothing connects the two mechanically.

## Modelling conventions

* **Numbers.** Floating point is modelled for a few functions only (Model/Rounded, C120). Other numeric code is modelled over an arbitrary ordered
  field when it only uses field operations and comparisons, otherwise over `ℝ` and `ℂ`.
  NaN, infinities, rounding (but see Model/Rounded) and overflow are outside the model unless a definition says otherwise
  (the `.fio` reader has an explicit NaN value).
* **Totalised operations.** Lean defines `x / 0 = 0`, `log 0 = 0`, and clamps `arcsin`. Every theorem
  that uses these either proves that the bad argument does not occur or carries a hypothesis
  excluding it. Where the code itself handles the case (`_safe_div`), the handling is modelled.
* **Exceptions** are values of `Except PyErr`. When the state after an exception matters the step
  function returns the state as well.
* **Randomness.** Every draw is an explicit argument, so a theorem quantifies over all outcomes.
  The contract used is: `uniform(a,b)` in `[a,b]`, `permutation(n)` is a permutation, normal draws
  are arbitrary reals. Only the theorems of C122 to C127 and C129 to C132, and of C134 and C135, go further: there (Model/Chance) the draws are
  independent random variables with the laws that numpy documents; that numpy's pseudo-random numbers
  behave like this is an idealisation.
* **Opaque parts.** The network's `predict`, scipy's `curve_fit`, refl1d, float parsing and the
  Keras file format are arguments of the model. Theorems hold for every choice of them.
* **Strings** are `List Char`. Python list operations (negative indices, `insert` clamping, slices)
  are modelled once in `Verif/Py`.
* **Objects.** Layers are references into a heap, lists of layers compare by identity.
* **DataFrames** are lists of named columns with pandas' assignment, deletion and selection rules.

## Layout

* `Verif/Py/*`     – Python, numpy and pandas primitives.
* `Verif/Model/*`  – the model, each definition cites file and lines in `/repo`.
* `Verif/Spec/*`   – small independent specifications used in the statements.
* `Verif/Lemmas/*` – auxiliary facts.
* `Verif/Props/*`  – one file per area with the claimed theorems and a non-trivial instance beside each.

## Which code is modelled

One row per source file below `mlreflect/`; the model files are in `lean/Verif/Model`.

| source | model | left out or left open |
|---|---|---|
| data_generation/parameters.py | Parameters, Sampling, Compare, Heap, Helpers | `__repr__` |
| data_generation/layers.py | Parameters, Heap, Helpers | `__repr__` |
| data_generation/multilayer.py | Multilayer, Heap, Helpers | `__repr__` |
| data_generation/distributions.py | Sampling, Rounded, Chance | the generator of random numbers (an argument; in Chance: independent random variables) |
| data_generation/data_generator.py | Labels, Sampling, Simulate, SldProfile, Helpers | refl1d (an argument), progress bars |
| data_generation/reflectivity.py | Reflectivity | rounding |
| data_generation/interpolation.py | Scans, Rounded | values that are not finite stop with `nanResult` |
| data_generation/noise.py, training/noise_generator.py | Noise, Chance | |
| data_generation/model_mixer.py | Simulate | |
| training/preprocessing.py | Standardize, Preprocessing, Rounded | |
| training/training.py | Trainer, Networks | the training of the network (an argument) |
| training/prediction.py, utils/label_helpers.py | Prediction, Networks | the network itself (an argument), `convert_to_ndarray` (used nowhere) |
| training/footprint.py | Rescaler | |
| models/simple_model.py, models/model_helpers.py, utils/naming.py | Networks, TrainingFiles | the files that Keras writes, `train` and `train_with_generator` of `SimpleModel` (calls of Keras) |
| models/trained_model.py | TrainedModel | content of the stored network |
| utils/h5_tools.py | H5 | bytes of HDF5 files |
| curve_fitter/curve_fitter.py, minimizer.py | CurveFitter, Helpers, Rounded | `scipy.optimize.curve_fit` (an argument) |
| curve_fitter/base_fitter.py, spec_fitter.py, fio_fitter.py | Fitters | texts of messages |
| curve_fitter/results.py | Results, ResultProfiles, ResultPlots | drawing, text of numbers, `to_csv` |
| xrrloader/dataloader/transform.py, xrrloader/footprint/ | Scans, Rounded | |
| xrrloader/dataloader/scans.py | Scans, ScanSeries, ResultPlots | drawing |
| xrrloader/dataloader/reflectivity_loader.py, spec_loader.py | Loaders | `apply_normalization` (used nowhere) |
| xrrloader/dataloader/fio_loader.py, parser/fio_parser.py | P08, Fio | a column that is not attenuated is an array instead of a list |
| xrrloader/parser/spec_parser.py | SpecFile | decoding of bytes, `float` of a text (an argument) |
| xrrloader/p08tools/fio_reader.py | Fio | `float` of a text (an argument) |
| xrrloader/p08tools/P08ScanTools.py | P08, Images, Peaks, Fits, Plots | decoding of images, `scipy.optimize`, drawing, `writeHDF` |
| utils/performance_tools.py, utils/check_gpu.py | – | timing and a device query |

Also left out: messages, progress bars, multiprocessing, byte formats (HDF5, TIFF, CBF), rounding of floats outside of Rounded.

## Plan per property
* **C01** move_layer relocates exactly one layer. List-of-references model of `move_layer`; position theorem by splitting the list, plus relative order of the rest.
* **C02** Re-ordering never loses or duplicates a layer. Step relation over sequences of calls; permutation invariant by induction. Expected: false for negative `from` index (witness theorem), proved for all histories of non-negative/normalised indices.
* **C03** swap_layers is an exchange and is failure-atomic. Model with state returned beside the error; involution by index-wise extensionality.
* **C04** add_layer position semantics. `insert` with clamping as in CPython; take/drop characterisation.
* **C05** Label names enumerate every parameter once, bottom to top. `label_names` computed as in the code and compared with an independent index formula.
* **C06** Label names are unique exactly when layer names are unique. String lemma: suffixes `_thickness`, `_roughness`, `_sld` make `name ++ suffix` injective across categories.
* **C07** Splitting labels by category recovers the physical quantities. Substring classification as in the code. Expected: false for names that contain the keywords (witness); proved for keyword-free names.
* **C08** Dictionary round trip of a sample. `to_dict`/`from_dict` over a JSON-like value type; induction over the layer list. Partial where complex ranges or non-constant substrates make it false.
* **C09** from_dict replaces the sample. Model `from_dict` on a non-empty structure. Expected false (witness), partial for empty structures.
* **C10** Copies are independent. Heap model, frame theorem: reads through the copy only touch fresh addresses, mutations only touch addresses reachable from the original.
* **C11** Constructed parameters and layers are valid. Constructor model with Except, iff characterisation over an ordered field.
* **C12** Constant layers hold constants only. Constructor model returning `None` parameters as the code does. Expected false (witness), partial for constants.
* **C13** LayerOnSubstrate holds at most one variable layer. History induction over add_layer calls. Expected false (witness), partial: proved when the first layer added at the bottom is the variable one.
* **C14** Every sampled value lies in its parameter range. Fold function over an ordered field; expected false for far normal draws (exact criterion proved), proved for the other distributions.
* **C15** Sampling returns exactly the requested number of values. Arithmetic on floor and list lengths.
* **C16** Generated roughness never exceeds half the layer thickness. Per-sample function with draws as arguments.
* **C17** generate_random_labels returns the complete, ordered label table. Fold over parameters building a DataFrame; row/column/values theorem.
* **C18** Complex parameter ranges are sampled in the rectangle spanned by the limits. Two independent draws; interval membership.
* **C19** Standardization state is first-fit-wins until reset. State machine over call histories, invariant by induction.
* **C20** Standardization is invertible. Pointwise algebra plus reachable-state invariant std ≠ 0.
* **C21** The fitted data have zero mean and unit variance. Finite-sum algebra over ℝ.
* **C22** Label preprocessing round trip. DataFrame model; composition theorem.
* **C23** Normalized labels are bounded. Ordered-field algebra; absolute_max expected false when |min|>|max| (witness) and proved otherwise.
* **C24** Preprocessing partitions the labels. DataFrame model; columns partition.
* **C25** The normalization setting takes effect by value. String objects with identity; expected false (witness), partial for interned strings.
* **C26** An epoch visits distinct samples in full batches. Index-list state machine; permutation invariant.
* **C27** Inputs and labels stay paired. Same model with rows tagged by sample; noise functions act row-wise.
* **C28** Noise functions preserve the batch shape. Shape model of the broadcasting code; scaling with one curve expected false (witness).
* **C29** Noisy reflectivity is strictly positive. Pointwise clip.
* **C30** Both noise modes produce batches. Argument-type model; 'batch' expected to raise (theorem), partial for 'single'.
* **C31** Training and validation sets partition the data. Slice arithmetic with floor.
* **C32** Mixed-model simulation produces one curve per label row. Argument binding model; expected to fail (theorem).
* **C33** Wave vectors are on the physical branch. Principal square root over ℂ (`Complex.cpow`), sign of real/imaginary parts, non-vanishing denominators.
* **C34** Simulated reflectivity is a normalized curve. Transfer-matrix model over ℂ, clip lemma.
* **C35** Each point of a curve depends only on its own q. Array-style model (loop over interfaces, vectors over q) refined to the pointwise product.
* **C36** Splitting a layer changes nothing. 2x2 matrix identity, translation matrices multiply, interface matrix of equal media is scalar.
* **C37** A vanishing layer has no effect. 2x2 matrix identity for sharp interfaces.
* **C38** No contrast, no reflection. All interface matrices are diagonal.
* **C39** Bare substrate follows the Fresnel/Nevot-Croce law. Closed form from the two-media product; |r|<1 from the branch lemma.
* **C40** Engines receive consistent layer stacks. Index formulas for reversed/padded arrays.
* **C41** SLD profile interpolates between substrate and ambient. erf from the Gaussian integral; sum formula and telescoping bounds.
* **C42** Log interpolation reproduces and bounds the data. np.interp as nearest-left-knot search; bounds by convexity, exponentials.
* **C43** Log interpolation commutes with q shift and intensity scaling. Equivariance of the knot search under shift; algebra for scaling.
* **C44** Angle and q conversions are inverse and monotone. arcsin/sin facts from Mathlib.
* **C45** Footprint correction is invertible and never attenuates. erf in (0,1), sine positivity, division cancellation.
* **C46** Normalization maps the reference point to one. List maximum algebra.
* **C47** Invalid correction settings are reported. Decision model with exceptions. Expected false for invalid beam shape (witness).
* **C48** Range getters are aligned and bounded. argmin-of-distance index model, slice alignment.
* **C49** SPEC files parse back to the scans written in them. Renderer as specification, parser model over lines; induction over blocks.
* **C50** SPEC indexing is total, bounded and terminates. Fuelled recursion with the recursion limit explicit; invariants of the index; stack exhaustion expected (theorem), partial for bounded scan counts.
* **C51** SPEC column names are preserved. lstrip character-set semantics. Expected false (witness), exact criterion proved.
* **C52** FIO tables are rectangular. Line state machine; duplicate column names expected to break it (witness), proved for distinct names.
* **C53** FIO file names encode the scan number. Decimal rendering/parsing lemma; foreign files with same prefix expected to break listing (witness).
* **C54** Loading a range keeps order and skips only non-reflectivity scans. Fold with exceptions; filter specification.
* **C55** Trimming removes exactly the requested points. Slice model; `[:-0]` expected false (witness), proved for b > 0.
* **C56** Discontinuity correction joins repeated angles and nothing else. Sequential loop model over a list; invariants by induction.
* **C57** Loaded SPEC scans are aligned and complete. Composition of the loader steps; index-wise formula.
* **C58** Attenuation is applied exactly once. Composition; custom ROI expected to be attenuated twice (witness).
* **C59** reload=True fits current file content with current settings. State machine with the file as part of the world; SpecFitter expected false (witness), FioFitter proved.
* **C60** Optimized predictions are the ones returned. Control-flow model with opaque predictor; expected false unless both options are on (witness).
* **C61** The selected variant minimizes the log MSE. argmin lemma.
* **C62** Predicted thicknesses and roughnesses are never negative. Post-processing over a DataFrame.
* **C63** Refinement stays within the documented relative bounds. Bounds model with opaque optimiser satisfying its bounds; expected false when min ≠ 0 (witness), exact physical interval proved.
* **C64** Reported data are what the network saw. Follows from the shift equivariance of interpolation.
* **C65** Curve error is a metric on log curves. Finite-sum algebra, log injectivity.
* **C66** A result series is a faithful, ordered collection. List homomorphism; string injectivity of file names; curve_mse attribute error (theorem).
* **C67** Time axis is relative to the first scan. List arithmetic.
* **C68** Exactly one model source is accepted. Decision model with state.
* **C69** HDF5 override keeps the latest data and leaves other data alone. Finite-map store with histories.
* **C70** Saved training data load back. Store model incl. attributes; stale attributes and missing extension expected (witnesses).
* **C71** Interrupted saves never mix data sets. Step-list semantics of the save with a prefix as crash point; expected false (witness), partial: prefixes before the first and after the last write.
* **C72** Trained models round trip through files. Store model + JSON value round trip; crash prefix theorem.
* **C73** File name helpers are stable. String lemmas.
* **C74** Duplicate removal keeps one point per position run. Index-deletion model, run lemma.
* **C75** ROI extraction sums the selected pixels. Finite sums over rectangles.
* **C76** Footprint rescaling with error factor one is the identity. Algebra over ℝ with erf-based ratio.
* **C77** Prediction errors are metrics. Finite-sum algebra.
* **C78** Logarithmic noise generator returns finite inputs. Logarithm of the noisy curve; expected to fail for a background range that reaches zero (exact criterion).
* **C79** One simulated curve per label row. Row and column counts of the simulation for every table and engine; exceptions listed.
* **C80** Footprint factors are the reciprocal of the illuminated fraction. Closed forms of the factors against the illuminated fraction of the beam (integral of the beam profile).
* **C81** Missing scans are reported, not raised. Decision model of `fit` with the missing number; expected false for SpecFitter (witness).
* **C82** Every option combination of fit is usable. All option combinations of `fit`; exact list of the combinations that raise.
* **C83** fit_range is a sequence of individual fits. Trace of the single fits against the trace of `fit_range`.
* **C84** show_scans lists every number once. List of shown numbers against the numbers in the file.
* **C85** Detector images belong to their data points. Index columns and file numbers of the images; shifted images expected for missing files (witness).
* **C86** Removing doubled points and loading images commute. Commuting diagram of thinning and loading; false with an index column (witness).
* **C87** Combined images take every pixel from the last scan whose region contains it. Pixel formula of the fold over scans.
* **C88** calc_q adds the momentum transfer of every point once. Motor table before and after; second call appends again (theorem).
* **C89** export2ascii writes the attenuated, background corrected intensity against the requested motor. Row formula of the exported table.
* **C91** Network inputs, labels and stored statistics belong together. Trace model of a Trainer; inputs, labels and statistics of every training.
* **C92** A returned model is not changed by its trainer. Network heap with aliasing; expected false (witness).
* **C98** Refinement improves every curve, and returned curves belong to the returned parameters. Bounds of the search contain the start, the loss decreases; sign change after the refinement can undo it (witness).
* **C90** Peak functions have the documented position, area and width. Gaussian integral, half width and maximum of the peak functions over ℝ.
* **C93** Constant parameters compare like their values. Comparison operators over the value types, exception table.
* **C94** A scan series only contains scans and reports on each of them. Event traces of a list subclass; `extend` and item assignment bypass the check (witness).
* **C95** Density profiles belong to the predicted parameters. Series profile equals the profiles of its results.
* **C96** Predicted labels belong to their curves and can take every label value. Row-wise network application; final relu cannot return negative labels (theorem).
* **C97** Every training writes to its own files. Paths of a training as strings, injectivity with its exact exceptions.
* **C99** The header of a .fio file is read as it was written. Header state machine, for every position of a line in the parameter block.
* **C100** Region plots show the background corrected intensity per pixel. Panels as lists; grid size criterion over all numbers of panels.
* **C101** Peak fits minimise the distance to the data and draw what they found. Residual zero exactly for the measured curve; drawn curves as dictionaries.
* **C102** Plots show the results they are made from. Plots as lists of points; order, axes, units and colours.
* **C103** Simulated stacks are passive. Energy flux bound without the cut; rough single layer by comparing Fresnel coefficients.
* **C104** The loss function is the objective of the refinement. Loss from the same simulation and label restoration as the refinement; criterion for NaN.
* **C105** Printed samples and subscription identify the layers. Printed text as a list of lines; injectivity by splitting at line breaks and commas.
* **C106** Gaussian weights are normalized. Weights as a function of the distance; sum after the cut.
* **C107** Simulated curves depend continuously on all parameters. Continuity of the wave number across the branch by the characterization of the root; matrices entrywise.
* **C108** Total reflection at small q and decay at large q. Real and imaginary parts of the waves below the critical angle; limits of interface and layer matrices for large q.
* **C109** A network that has learned its curves makes fits exact. Composition of interpolation at nodes (C42), standardization, label round trip (C22), training inputs (C91) and refinement (C98).
* **C110** Curves are fitted independently of each other. Row-wise lemmas for each step of fit_curve (restoring, prediction, optimization, refinement, simulation), in both directions; the simulation of the generator as a function of tables (Model/FitSimulator).
* **C111** The scan motors of a P08 scan are those named in its command. Infixes of a text without white space lie inside one word; the branches of the command test by word.
* **C112** The detectors of a scan are found by its columns and their files next to the scan file. Induction over the columns for each of the six flags; keys of the dictionary after each loader; sorted file lists; last separator of a path.
* **C113** Simulated curves are those of Parratt's recursion in the documented units. The ratio of the entries of the last column of the matrix obeys the recursion (induction over the media); scaling of wave numbers and lengths.
* **C114** What lies below a thick layer is not seen; only magnitudes of momentum transfers and roughnesses matter. Factorisation of the matrix at the layer; the phase factor tends to zero because of the added absorption.
* **C115** The unit of the measured intensity does not matter for normalized scans. Every step (attenuation, joining of discontinuities, division, trimming, footprint, sums over regions) commutes with the factor; the normalization cancels it.
* **C116** A loaded model fits like the saved one. The sample enters a fit through its labels only, and these do not depend on the class of complex numbers, which is all that a file changes.
* **C117** A random seed makes everything generated afterwards reproducible. Programs over the shared state of numpy; two runs that agree on the generators in use and on that state return the same values.
* **C118** The curve returned with a fit is the reflectivity of the returned parameters. The stack of a row is defined by looking up cells by column name (Spec/FittedCurve); the labels are finite and have the columns of the sample because the simulation succeeded, and C113 gives the curve.
* **C119** A SPEC file that grows keeps its scans. The recursion over the longer file is followed through the old lines (a blank last line closes every block) and then through the new lines with all line numbers shifted.
* **C120** Rounding errors stay small and do not break exact relations. The relative errors of a chain of operations multiply (Near); the divisor of normalization and standardization cancels, so that its rounding does not matter. Exact relations follow from monotonicity and from the rounding keeping 0, 1 and its own numbers. IEEE rounding to any number of binary digits is constructed and shown to be such a rounding.
* **C121** A scan and its fit depend on its own lines only. Corollary of C119 for a part in the middle of a file, carried through the loader, `fit` and `fit_range`.
* **C122** Sampled values follow the documented distributions. The generator is instantiated with random variables on a probability space (Model/Chance). Distribution functions are computed by the monotone transformation of a standard uniform number; the mirror symmetry of the folded normal numbers gives the mean.
* **C123** Noise has the documented mean and spread. Expectations over the same random variables; the bias of clipped normal numbers from the mean of the positive part of a standard normal number, the spread of counts from the first two moments of the Poisson distribution.
* **C124** Random label tables have independent rows with the documented distribution. Programs are read as maps on the stream of uniform numbers; the class of programs that are distributed as if every cell of the table had its own uniform number, with a fresh stream left over, is closed under sequencing (Lemmas/Draws), although the number of numbers used is random. The conditional distribution of the roughness follows with Fubini.
* **C125** The order of the rows of a random label table has no meaning. Every step of the program gets a law of its result given its input (Lemmas/Laws); the laws of all steps commute with permutations of the rows: shuffles forget the order, independent draws and redraws of single rows have product laws. The single value follows from the number of orders that put a place at a given place.
* **C126** How often random labels leave their ranges. The exact probability from the mixture of C125 and the criterion for a reflected value to stay outside. For tables, the program is compared with the same program whose normal numbers are cut off: they agree if the numbers used are not extreme, the cut one keeps the ranges by C17, and the extreme numbers are bounded by the exponential moment of the normal distribution.
* **C127** Every epoch is a new random arrangement of the samples. The arrangement after e shuffles is the product of e independent uniform permutations; the map from shuffles to arrangements is a bijection. Counting permutations that put a sample at a place gives the probabilities of batches.
* **C128** Arguments that cannot be used raise the exception of their kind. Case analysis on the arguments; for the listing of files, induction over the files before the bad one.
* **C129** Random training labels come close to every admissible set of labels. Every label is a continuous function of its own uniform number (C124) that takes the wanted value at some number in [0, 1]; the numbers of one row are independent, so the probability of being close is at least a product of positive probabilities. The rows are independent.
* **C130** Labels that the curves do not determine cannot be learned. The curve of a row from C40, C17 and C36 (splitting a layer). Curves depend continuously on the labels (C107), so labels close to one of two sets with the same curve give almost the same curve, hence almost the same prediction; random labels come close to both sets with positive probability (C129), and the prediction is far from one of them.
* **C131** The error rate on a test set is the error rate on new samples. The rows of a table are a function of the uniform numbers from its position on, and the table uses and depends on an initial part of them whose length is a stopping time (Lemmas/Draws). The rows are independent with a common distribution (C124), independent of everything known before; Hoeffding's inequality for each value of the past, then Fubini, then a sum over the positions.
* **C132** A label can be learned exactly if and only if the curves determine it. The admissible labels form a compact set and the curve is continuous on it (C107), so a label that the curve determines is a continuous function on the compact set of curves, which Tietze's theorem extends; stability is uniform continuity near a compact set. The other direction is C130. For the substrate the value is a constant times exp(-4 Re(k0 k1) σ²) with Re(k0 k1) > 0 above the critical edge.
* **C133** Arguments take effect whichever way they are passed. Python's binding of arguments is modelled as a function and compared with an inductive description of the value of a parameter; the decision of the wrapper is compared with the value of reload.
* **C134** Enough random training data determine a label wherever the curves do. Finitely many admissible sets of labels come close to all of them, since they form a compact set; random labels come close to each of these with a probability that tends to one exponentially (C129). Then every curve has a near curve in the table, by uniform continuity, so that the nearest one is near too, and C132 bounds the difference of the labels.
* **C135** Two points of the curve determine density and roughness of a substrate, one does not. Half the logarithm of the reflectivity is log a - 2 Re log(k0 + k1) - 2 s Re(k0 k1) with a = k0² - k1²; its derivative in q²/4 is -Re(1/(k0 k1)) - s Re(k0/k1 + k1/k0), which is strictly monotone in the density since Re(k0 k1³) > 0. For one momentum transfer, the roughness that makes up for a larger density is written down.
* **C136** The thickness of a film can be learned if and only if the film has a contrast. For large momentum transfers q² times the amplitude approaches a + b exp(-i q d) with a = 4π ρ1 and b = 4π (ρ2 - ρ1), so that curves of two samples can only agree if the oscillations have the same frequency; that is shown by shifting q and combining three limits. Pairs of samples with different thickness form a compact set, which finitely many open sets of pairs with different points cover; the continuous function comes from a partition of unity.
* **C137** The tail of the curve is the Fourier transform of the density steps and determines the total thickness. Induction over Parratt's recursion: at large momentum transfers multiple reflections vanish and every wave number approaches half the momentum transfer. Equal tails mean that a finite sum of oscillations tends to zero, so that all its amplitudes are zero (shown by shifting, which removes one frequency at a time); the largest frequency is the total thickness and occurs only once.
* **C138** The tail of the curve determines the sum of the squared density steps and the density of a film. The squared modulus of a sum of oscillations of different frequencies has the sum of the squared amplitudes as constant part, and two such sums that agree in the limit have the same constant part (as in C137). For a film the sum of the squares is quadratic in its density with minimum at half the density of the substrate.
* **C139** Samples withheld for validation do not influence the training. Labels are normalized row by row (C91), so that the first rows depend on the first samples only. Random factors depend on the shape of the array only, so that two sets of curves of the same shape get the same factors and the column sums differ by the changed curve times its factor.
* **C140** Rounding moves at most one sample between training and validation. Rounding is monotone and keeps whole numbers, which gives all bounds; a rounded quotient stays below the next whole number since the gap to it is larger than the relative error. A floor changes by at most one if its argument changes by less than one.
* **C141** The default training data reach every admissible structure, but cannot teach what the curves do not determine. The random numbers are steered: for each draw a set of positive probability is chosen such that all values of the column are close to the target and none has to be folded back; then the order of the shuffle does not matter. The thickness is kept on one side of twice each roughness limit, so that the number of roughnesses drawn again is fixed. Independence makes the probability of all sets together positive.
* **C142** Two neighbouring layers of the same density leave an error that no network can learn to avoid. The rows are written as measurable functions of independent uniform numbers (C124). Exchanging the two numbers of the thicknesses preserves their distribution, exchanges the thicknesses and leaves the curve as it is (C130). So the errors for both thicknesses are equal on average, and the two squared errors of one prediction add up to at least half the squared difference.
* **C143** A LayerOnSubstrate is restored from its own dictionary. The dictionary is read part by part (C08); the loop over the layers is followed with the state of the object, where the test for a variable layer looks at the lowest layer only.
* **C144** No two random training samples have the same reflectivity. The two waves of a layer are exponentials of its thickness, so that the condition for a value is an analytic equation, with isolated solutions or none that fail. If it holds for all thicknesses, comparing three thicknesses one period apart shows that both waves fulfil it separately, which the symmetric matrix of the uppermost interface excludes for values below one. The stack below reflects with probability one, layer by layer. The thickness of the uppermost layer of one row is drawn again with all other numbers fixed (Fubini).
* **C145** Every documented batch size can be used. The condition of C91 in terms of whole numbers is turned into one on the fraction. With rounding: for at most one half the rounded remaining fraction is not smaller than the withheld one, so that the rounded product is at least the batch size, and it exceeds the exact product by less than one.
* **C146** The curve of a bare substrate falls. The logarithm of the reflectivity (from C135) is differentiated with respect to the squared momentum transfer and the density; the sign follows because products of the two wave numbers lie near the positive real axis above the edge.
* **C147** A call that raises can be followed by others. The outcomes of two sessions are compared by a relation between the states: a failed call changes at most the attribute _loader, which a SpecFitter never reads and a FioFitter replaces before every fit that reads the scans again.
* **C148** A layer makes the curve rise again and again. The tail of the curve follows the transform of the density steps (C137). The transform comes back close to all its values at arbitrarily late times (a sequence in a compact torus has a convergent subsequence), so that a difference between two of its values recurs at two points with fixed distance, where the factor of the fourth power no longer matters. It is not constant because a constant would be the transform of a stack without thickness.
* **C149** A trainer can be used after an exception. The states before and after a failed call are compared, with any random numbers coming next. One curve is squeezed to one dimension by apply_scaling_factor, so that its deviation is a number; cutting one curve into two parts leaves one part empty, which is smaller than every batch.
* **C150** The tail of the curve cannot tell a stack from its mirror image. The density steps of the mirror image are the steps of the stack in reverse order at mirrored depths. Its transform is therefore the complex conjugate times a phase, with the same modulus (C137 relates the modulus to the curve). This is why C138 asks that the density be known to lie on one side of half the density of the substrate.
* **C151** A sample can be used after an exception. Every call returns the state after it also if it raises; a session is a client that catches all exceptions. from_dict is modelled for dictionaries with missing keys.
* **C152** The tail of the curve belongs to the smoothest interface and determines its roughness. The amplitude of an interface is bounded from both sides by its step times the Gaussian of its roughness (the sum of two wave numbers differs from q by at most a constant over q). By induction over the stack all rougher interfaces are negligible against the smoothest one, while the diagonal entries of the matrices approach one in modulus (C108).
* **C153** The tail of the curve determines the smallest roughness also if several interfaces have it. The amplitude of the stack over the Gaussian of the smallest roughness approaches a finite sum of oscillations, one for every interface with this roughness and a step; the weight is the step times a factor that does not vanish (the exact expansion of the square of the sum of two wave numbers). Such a sum with different depths does not tend to zero (as in C137), but it may vanish again and again, so that the lower bound holds at arbitrarily large momentum transfers and not at all of them.
* **C154** The tail of the curve determines the distance between the outermost of the smoothest interfaces. The curve over the tail of the smallest roughness approaches the squared modulus of the sum of C153; its largest frequency is the distance between the outermost of the interfaces that contribute (the lemma of C137 about sums of oscillations, restricted to the terms with a weight).
* **C155** The tail of the curve of a film with equally rough interfaces determines roughness, thickness and density. By C153 and C154 roughness and thickness agree. The squared modulus of the sum over the two interfaces is a wave with an offset; a wave that dies out vanishes, so that the two amplitudes agree up to their order. In the same order the density follows by monotonicity. Exchanged amplitudes would give a function with three zeros whose derivative has a palindromic quadratic numerator; by Rolle it would have two zeros with a product below the one of its roots, which is excluded. The factor exp(4πσ²(ρ+ρ')) of the code (the product of the two wave numbers in the roughness factor) is what makes the two orders different.
* **C156** If the surface is the smoothest interface, the tail of the curve determines its roughness and the density of the uppermost layer. All weights of the sum of C153 vanish except the one of the surface, so that the limit is its squared modulus; it grows with the density, and the roughness is known from C152.
* **C157** If a buried interface is the smoothest one, the tail of the curve belongs to it, and determines the density of a film above it exactly up to a certain roughness. Only the weight of the smoothest interface remains in the sum of C153; the layers above it contribute a phase. The density of the film enters as (s-x)exp(4πσ²(x+s)), which falls with x on the whole range exactly if 4πσ²s is at most one (the two tangent inequalities of the exponential function); otherwise it first rises and then falls to zero, and the intermediate value theorem gives two densities with the same value.
* **C158** Above the critical edge every point of the curve of a rough film is a number, and thickness and density can be learned from finitely many of them. Above the edge the wave numbers lie within 45 degrees of the real axis, so that at every interface the reflected wave is weaker than the transmitted one, for every roughness; the last denominator is the sum of a product of two transmitted and a product of two reflected waves. Learning follows from C155 and the compactness argument of C136, restricted to momentum transfers where all points are numbers.
* **C159** Without knowledge of the substrate the tail of the curve leaves two films. The squared modulus of the sum over the two interfaces is symmetric in the two strengths, which gives the common tail. Sum and product determine the two strengths up to their order; each order determines the densities by monotonicity, and the intermediate value theorem gives the partner.
* **C160** Roughness and density of a film whose surface is smoother than its lower interface can be learned above the critical edge, on an unknown substrate. C156 for the two interfaces of a film, the numbers of C158 above the critical edge, and the compactness argument of C136.
* **C161** Roughness and density of a bare substrate can be learned from finitely many points of the curve. C156 without layers, the closed form of C39, which is always a number, and the compactness argument of C136.
* **C162** The roughness of a buried interface and the density of the film above it can be learned above the critical edge. C157 for the labels of a sample, the numbers of C158 above the critical edge, and the compactness argument of C136. Beyond the bound of the roughness the tail does not determine the density (C157).

## Findings

Behaviour of the code that contradicts what a user would expect. Each is a theorem of the model (the name is given where a
claim is built on it); none was observed by running the code.

**Samples and parameters**
* `move_layer` with a negative index below the target moves the wrong layer or duplicates it (C02).
* `LayerOnSubstrate` accepts several variable layers (C13); `ConstantLayer` with a range silently has no density (C12).
* `from_dict` appends to the present layers (C09). A constant layer becomes a `Layer`, and a copy of a `LayerOnSubstrate`
  becomes a `MultilayerStructure`. So a `LayerOnSubstrate` with two or more layers cannot be restored from its own dictionary:
  `from_dict` raises after setting the ends and the lowest layer (C143). Complex ranges cannot be read back from JSON (C72_complex_range).
  A `from_dict` that raises has replaced the ends and added the layers below the mistake; the corrected dictionary then doubles them
  (C151_not_always, C151_leftover).
* Constant parameters: comparison with a builtin complex number, a range or `None` raises `TypeError` also for `==`; complex
  numpy values are compared by their real part. The limits of a range can be set without a check (C93).
* A layer name with `thickness` or `roughness` in it puts columns into the wrong category (C07) and units on the wrong axis
  (C102_wrong_unit).

**Sampling, noise and training**
* A random seed sets the state of all generators: making a second one with the same seed repeats the labels of the first, and its
  draws change what the first returns next (C117).
* Bolstered sampling can leave the range (C14) and with it the roughness limit (C16); it raises for reversed imaginary limits.
* Bolstered sampling of single values is plain uniform sampling, so that no roughness that is drawn again is bolstered (C122_bolstered_few).
* Shot noise raises the mean of points below the noise level, without limit relative to the point (C123_shot, C123_shot_raised). The
  spread of Poisson noise is `sqrt(x / c)`, the documentation says `sqrt(x c)` (C123_poisson_documented).
* `NoiseGenerator` compares the mode with `is` and always raises in mode `batch` if a range is set (C30). Scaling a single
  curve drops the batch axis (C28). The logarithmic generator can return values that are not finite (C78).
* `OutputPreprocessor` compares its setting by identity (C25); `absolute_max` only looks at the upper limit (C23).
* All models of a trainer share one network (C92_witness); after a failed call the old preprocessor is used with new data
  (C91_stale_preprocessor). `generate_training_data(1)` raises a `TypeError`, but replaces the training data
  by one curve, with which no training can start (C149_lost).
* The last layer of `SimpleModel` cannot output negative labels (C96). Trainings that start within a second share their files (C97).
* The preprocessor is fitted to all samples before some are withheld for validation: every withheld curve moves the statistics with which the training
  inputs are standardized (C139_leak).
* `Trainer.train` documents a batch size smaller than `val_split * n`. For `val_split > 0.5` such a batch size can exceed the number of training curves, and a `ValueError` is
  raised (C145_refused, C145_not_always). With the default arguments 2556 curves are needed (C145_default).

**Simulation**
* The builtin engine gives NaN for a rough buried interface between two totally reflecting media (C34_nan).
* `ModelMixer.simulate_reflectivity` passes the engine as q noise (C32). A sample without layers gives zero curves (C79).

**Fits**
* `fit_curve` discards the optimised parameters unless both options are set (C60). The refinement limits are relative in
  normalised space (C63), and the sign change afterwards can undo the improvement (C98).
* `SpecFitter` reloads into an attribute that is not used (C59); a missing number raises (C81). `FioFitter.fit` with
  `optimize_q=False` raises `TypeError` (C82). `reload` given by position is ignored.
* `FitResultSeries.curve_mse` always raises (C66_no_curve_mse); `FitResult.curve_mse` is zero for different curves (C65_rounded_zero).
* The documented parameter names of `plot_predicted_parameter_range` raise `KeyError` (C102_documented_names).
* `set_trained_model` stores the object before it looks at it: an object that is no model raises an `AttributeError` and leaves a
  fitter that cannot fit any more (C147).

**Loading**
* An invalid beam shape is ignored (C47). `trim_back=0` removes all points (C55). A beam wider than the sample gives factor 1.
* SPEC files: one recursion per scan (C50), column names lose leading `L` and `#` (C51), blocks without a blank line merge.
* `.fio` files: repeated column names give uneven tables (C52), a file stem that starts another one mixes scans (C53),
  a UB matrix with commas is not read (C99_ub_commas).
* Custom regions are attenuated twice (C58). A missing image shifts all following ones (C85_shifted); thinning and loading
  images do not commute with an index column (C86). `calc_q` can be applied twice and uses 12380 instead of 12398 (C88).
* `ScanSeries.extend` accepts anything (C94_foreign). `plot_series` selects positions, not scan numbers (C102_not_numbers).

**Peak fits and region plots**
* The grid of `plotRois` is too small for 2, 5, 6, 10, ... panels, so that a single region always raises (C100).
* `multiFit` always raises (C101_multi_fails); `multiVoigtFit` fits 0.9 below the data and hides errors (C101_voigt_biased,
  C101_voigt_silent).

**Files**
* One recursive call per scan: a SPEC file that grows beyond the recursion limit becomes unreadable as a whole
  (C119_exhausted), and a file that does not end with a blank line loses its last scan to the next one (C119_no_blank).
* Saving to `foo` writes `foo.h5`, but loading does not add the extension (C70). Saving is not atomic (C71), and a failed load
  leaves a `TrainedModel` half updated (C72).

**Helpers**
* `reload=False` passed by position is ignored: the files are read again (C133_ignored). `_prepare_callbacks` is static but has a parameter `self`, so that
  `verbose` ends up there and the callback always prints (C133_verbose).
* The printed index of a layer is not its subscript: `[i]` is `sample[i + 1]` (C105_printed_index).
* `_make_gaussian` normalizes before it cuts, so that the weights add up to less than one (C106_weights).

**Rounding**
* A network output of exactly 1 can be restored to a label above the upper limit of its range, with any number of binary digits
  (C120_above). Values drawn on a logarithmic scale can exceed the upper limit (C120_log_above).
* `int((1 - val_split) * n)` can be one sample less than the fraction: `val_split=0.9` of ten samples leaves no sample for training (C140_one_less).
