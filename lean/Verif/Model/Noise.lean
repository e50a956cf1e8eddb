import Verif.Model.Sampling
import Verif.Model.Preprocessing
import Verif.Model.Standardize

/-!
# Model of `data_generation/noise.py` and `training/noise_generator.py`

Numbers are real numbers. Arrays are drawn row by row (numpy draws them in the same order).
-/

namespace Verif.Model
open Verif.Py

/-- The further draws of `numpy.random` used by this code: normal values with a mean and a standard
deviation for each entry, Poisson values with a rate for each entry, a shuffled index array. -/
structure NoiseRng (G : Type) extends Rng G where
  normalEach : List (ℝ × ℝ) → G → List ℝ × G
  poissonEach : List ℝ → G → List Nat × G
  shuffleIdx : List Nat → G → List Nat × G

/-- The contract of the draws. -/
structure NoiseRng.Ok {G : Type} (r : NoiseRng G) : Prop extends r.toRng.Ok where
  normalEach_length : ∀ l g, (r.normalEach l g).1.length = l.length
  poissonEach_length : ∀ l g, (r.poissonEach l g).1.length = l.length
  shuffleIdx_perm : ∀ l g, (r.shuffleIdx l g).1.Perm l

/-- A numpy array as seen by this code: a single curve, a batch of curves with their common length, or
an array of another dimension. -/
inductive NArr where
  | d1 (v : List ℝ)
  | d2 (width : Nat) (rows : List (List ℝ))
  | other

/-- `array.shape`, for arrays with one or two dimensions. -/
def NArr.shape : NArr → List Nat
  | .d1 v => [v.length]
  | .d2 w rows => [rows.length, w]
  | .other => []

/-- The rows of a two-dimensional array have the length `shape[1]`. -/
def NArr.Wf : NArr → Prop
  | .d1 _ => True
  | .d2 w rows => ∀ r ∈ rows, r.length = w
  | .other => True

/-- The argument of the noise level: a `float` or `int`, a tuple, or an object of another type (for
instance a numpy array or a numpy scalar). -/
inductive SpreadArg where
  | num (x : ℝ)
  | tuple (l : List ℝ)
  | other

variable {G : Type}

/-- `np.array([…])` of a list of rows of length `w`; no rows give an array of shape `(0,)`. -/
def npArrayOfRows (w : Nat) (rows : List (List ℝ)) : NArr :=
  if rows = [] then .d1 [] else .d2 w rows

/-- noise.py l.64-69 and l.103-108: one noise level per curve. -/
noncomputable def drawSpreads (rng : NoiseRng G) (s : SpreadArg) (n : Nat) : Rand G (List ℝ) :=
  match s with
  | .num x => pure (List.replicate n x)
  | .tuple [a, b] => logDistribution rng.toRng a b n
  | .tuple _ => Rand.fail .typeError
  | .other => Rand.fail .typeError

/-- `np.clip(np.random.normal(curve, np.sqrt(curve * spread)), 1e-16, None)` (noise.py l.72-77);
the square root of a negative number is NaN. -/
noncomputable def shotRow (rng : NoiseRng G) (spread : ℝ) (curve : List ℝ) : Rand G (List ℝ) :=
  if ∃ c ∈ curve, c * spread < 0 then Rand.fail .nanResult
  else fun g =>
    let d := rng.normalEach (curve.map fun c => (c, Real.sqrt (c * spread))) g
    .ok (d.1.map fun x => max x (1e-16), d.2)

/-- `np.clip(np.random.poisson(curve * spread) / spread, 1e-16, None)` (noise.py l.111-115); a
negative rate raises `ValueError`, division by a zero spread gives NaN. -/
noncomputable def poissonRow (rng : NoiseRng G) (spread : ℝ) (curve : List ℝ) : Rand G (List ℝ) :=
  if ∃ c ∈ curve, c * spread < 0 then Rand.fail .valueError
  else if spread = 0 then Rand.fail .nanResult
  else fun g =>
    let d := rng.poissonEach (curve.map fun c => c * spread) g
    .ok (d.1.map fun (k : ℕ) => max ((k : ℝ) / spread) (1e-16), d.2)

/-- The common structure of noise.py l.56-78 and l.95-116. -/
noncomputable def applyLevelNoise (row : ℝ → List ℝ → Rand G (List ℝ)) (rng : NoiseRng G)
    (refl : NArr) (s : SpreadArg) : Rand G (NArr × List ℝ) :=
  match refl with
  | .other => Rand.fail .valueError
  | .d1 v => do
    let spreads ← drawSpreads rng s 1
    let sp ← Rand.ofRes (getItem spreads 0)
    let r ← row sp v
    return (.d1 r, spreads)
  | .d2 w [v] => do
    let spreads ← drawSpreads rng s 1
    let sp ← Rand.ofRes (getItem spreads 0)
    let r ← row sp v
    return (.d2 w [r], spreads)
  | .d2 w rows => do
    let spreads ← drawSpreads rng s rows.length
    let rs ← (rows.zip spreads).mapM fun p => row p.2 p.1
    return (npArrayOfRows w rs, spreads)

/-- noise.py l.42-78 `apply_shot_noise`. -/
noncomputable def applyShotNoise (rng : NoiseRng G) : NArr → SpreadArg → Rand G (NArr × List ℝ) :=
  applyLevelNoise (shotRow rng) rng

/-- noise.py l.81-116 `apply_poisson_noise`. -/
noncomputable def applyPoissonNoise (rng : NoiseRng G) : NArr → SpreadArg → Rand G (NArr × List ℝ) :=
  applyLevelNoise (poissonRow rng) rng

/-- noise.py l.24-27 `apply_uniform_noise` (one- and two-dimensional arrays). -/
noncomputable def applyUniformNoise (rng : NoiseRng G) (refl : NArr) (lo hi : ℝ) : Rand G NArr :=
  match refl with
  | .d1 v => do
    let u ← drawUniform rng.toRng lo hi v.length
    return .d1 (List.zipWith (· * ·) v u)
  | .d2 w rows => do
    let rs ← rows.mapM fun v => (do
      let u ← drawUniform rng.toRng lo hi v.length
      return List.zipWith (· * ·) v u : Rand G (List ℝ))
    return .d2 w rs
  | .other => Rand.fail .valueError

/-- noise.py l.30-39 `apply_scaling_factor` (one- and two-dimensional arrays): a single curve is returned
without the batch dimension. -/
noncomputable def applyScalingFactor (rng : NoiseRng G) (refl : NArr) (lo hi : ℝ) : Rand G NArr := do
  let (w, rows) ← match refl with
    | .d1 v => pure (v.length, [v])
    | .d2 w rows => pure (w, rows)
    | .other => Rand.fail .valueError
  let s ← drawUniform rng.toRng lo hi rows.length
  let scaled := List.zipWith (fun v f => v.map (· * f)) rows s
  match scaled with
  | [r] => return .d1 r
  | rs => return .d2 w rs

/-- `np.random.normal` for rows of means and standard deviations; a negative standard deviation raises. -/
noncomputable def normalRow (rng : NoiseRng G) (l : List (ℝ × ℝ)) : Rand G (List ℝ) :=
  if ∃ p ∈ l, p.2 < 0 then Rand.fail .valueError else fun g => .ok (rng.normalEach l g)

/-- noise.py l.119-145 `generate_background`. -/
noncomputable def generateBackground (rng : NoiseRng G) (n m : Nat) (level : SpreadArg) (rel : ℝ) :
    Rand G (List (List ℝ) × List ℝ) := do
  let means ← drawSpreads rng level n
  let rows ← means.mapM fun x => normalRow rng (List.replicate m (x, rel * x))
  return (rows, means)

/-! ### Generators -/

/-- noise_generator.py l.11-23: the data of a generator and its index array. -/
structure Gen where
  refl : List (List ℝ)
  width : Nat
  labels : List (List ℝ)
  batch : Nat
  shuffle : Bool
  indexes : List Nat

/-- noise_generator.py l.37-39 `__shuffle`. -/
def Gen.doShuffle (rng : NoiseRng G) (s : Gen) : Rand G Gen := fun g =>
  if s.shuffle then
    let d := rng.shuffleIdx s.indexes g
    .ok ({ s with indexes := d.1 }, d.2)
  else .ok (s, g)

/-- noise_generator.py l.11-23 `BaseGenerator.__init__`. -/
def Gen.init (rng : NoiseRng G) (refl : List (List ℝ)) (width : Nat) (labels : List (List ℝ)) (batch : Nat)
    (shuffle : Bool) : Rand G Gen :=
  if batch > refl.length then Rand.fail .valueError
  else Gen.doShuffle rng ⟨refl, width, labels, batch, shuffle, List.range refl.length⟩

/-- noise_generator.py l.34-35 `on_epoch_end`, any number of times; between two calls other random numbers may be
drawn. -/
inductive Gen.Epochs (rng : NoiseRng G) : Gen → Gen → Prop
  | none (s : Gen) : Gen.Epochs rng s s
  | next (s s' s'' : Gen) (g g' : G) : s.doShuffle rng g = .ok (s', g') → Gen.Epochs rng s' s'' → Gen.Epochs rng s s''

/-- noise_generator.py l.25-26 `__len__` (`batch_size ≥ 1`). -/
def Gen.len (s : Gen) : Nat := s.refl.length / s.batch

/-- `self.indexes[index * batch_size:(index + 1) * batch_size]` (noise_generator.py l.29, l.81, l.129, l.166). -/
def Gen.batchIndexes (s : Gen) (i : Nat) : List Nat :=
  slice s.indexes (some ((i * s.batch : Nat) : Int)) (some (((i + 1) * s.batch : Nat) : Int))

/-- `array[indexes]`. -/
def takeRows (rows : List (List ℝ)) (idx : List Nat) : Res (List (List ℝ)) :=
  idx.mapM fun (i : Nat) => getItem rows (i : Int)

/-- noise_generator.py l.28-32, l.41-46: a batch of the plain generator; `fs` are the batch functions. -/
def Gen.getItem (s : Gen) (fs : List (List (List ℝ) × List (List ℝ) → Res (List (List ℝ) × List (List ℝ))))
    (i : Nat) : Res (List (List ℝ) × List (List ℝ)) := do
  let x ← takeRows s.refl (s.batchIndexes i)
  let y ← takeRows s.labels (s.batchIndexes i)
  fs.foldlM (fun b f => f b) (x, y)

/-- The string literal `'single'`. -/
def singleS : Str := "single".toList

/-- The string literal `'batch'`. -/
def batchS : Str := "batch".toList

/-- noise_generator.py l.90-97, l.144-151: the shot noise step; `none` is `noise_range = None`. In batch
mode the noise level is an array and not a `float` or `tuple`. -/
noncomputable def shotStep (rng : NoiseRng G) (mode : PyStr) (range : Option (List ℝ)) (x : NArr) :
    Rand G NArr :=
  match range with
  | none => pure x
  | some r =>
    if mode.isLit singleS then do
      let (y, _) ← applyShotNoise rng x (.tuple r)
      return y
    else if mode.isLit batchS then
      match r with
      | [a, b] => do
        let _ ← logDistribution rng.toRng a b 1
        let (y, _) ← applyShotNoise rng x .other
        return y
      | _ => Rand.fail .typeError
    else Rand.fail .valueError

/-- `refl += background`: in-place addition of arrays of the same shape (other shapes are not needed). -/
def addRows (x : NArr) (bg : List (List ℝ)) : Res NArr :=
  match x with
  | .d2 w rows =>
    if rows.length = bg.length ∧ ∀ r ∈ bg, r.length = w then
      .ok (.d2 w (List.zipWith (List.zipWith (· + ·)) rows bg))
    else .error .valueError
  | _ => .error .valueError

/-- `len(refl)`. -/
def NArr.len : NArr → Nat
  | .d1 v => v.length
  | .d2 _ rows => rows.length
  | .other => 0

/-- noise_generator.py l.98-107, l.152-161: the background step. -/
noncomputable def backgroundStep (rng : NoiseRng G) (mode : PyStr) (range : Option (List ℝ)) (rel : ℝ)
    (width : Nat) (x : NArr) : Rand G NArr :=
  match range with
  | none => pure x
  | some r =>
    if mode.isLit singleS then do
      let (bg, _) ← generateBackground rng x.len width (.tuple r) rel
      Rand.ofRes (addRows x bg)
    else if mode.isLit batchS then
      match r with
      | [a, b] => do
        let _ ← logDistribution rng.toRng a b 1
        let (bg, _) ← generateBackground rng x.len width .other rel
        Rand.ofRes (addRows x bg)
      | _ => Rand.fail .typeError
    else Rand.fail .valueError

/-- `input_preprocessor.standardize(refl)` for a fitted preprocessor: subtract the mean and divide by the
deviation, with broadcasting, for one- and two-dimensional arrays. -/
noncomputable def standardizeArr (m sd : List ℝ) (x : NArr) : Res NArr :=
  match x with
  | .d1 v => do return .d1 (← bcast (· / ·) (← bcast (· - ·) v m) sd)
  | .d2 _ rows => do return .d2 m.length (← bcastRows (· / ·) (← bcastRows (· - ·) rows m) sd)
  | .other => .error .valueError

/-- The settings of a `NoiseGenerator` (noise_generator.py l.68-78). -/
structure NoiseCfg where
  mode : PyStr
  noise : Option (List ℝ)
  background : Option (List ℝ)
  rel : ℝ

/-- noise_generator.py l.80-109: a batch of a `NoiseGenerator` whose preprocessor stores `ip`. -/
noncomputable def Gen.noisyItem (rng : NoiseRng G) (s : Gen) (c : NoiseCfg) (ip : IPState) (i : Nat) :
    Rand G (NArr × List (List ℝ)) := do
  let idx := s.batchIndexes i
  match ip.hasSaved with
  | .error e => Rand.fail e
  | .ok false => Rand.fail .valueError
  | .ok true =>
    let x ← Rand.ofRes (takeRows s.refl idx)
    let x ← shotStep rng c.mode c.noise (.d2 s.width x)
    let x ← backgroundStep rng c.mode c.background c.rel s.width x
    let x ← Rand.ofRes (standardizeArr (ip.mean.getD []) (ip.std.getD []) x)
    let y ← Rand.ofRes (takeRows s.labels idx)
    return (x, y)

/-- noise_generator.py l.122-132: a batch of a `UniformNoiseGenerator` whose preprocessor is fitted. -/
noncomputable def Gen.uniformItem (rng : NoiseRng G) (s : Gen) (noise scaling : ℝ × ℝ) (m sd : List ℝ)
    (i : Nat) : Rand G (NArr × List (List ℝ)) := do
  let idx := s.batchIndexes i
  let x ← Rand.ofRes (takeRows s.refl idx)
  let x ← applyUniformNoise rng (.d2 s.width x) noise.1 noise.2
  let x ← applyScalingFactor rng x scaling.1 scaling.2
  let x ← Rand.ofRes (standardizeArr m sd x)
  let y ← Rand.ofRes (takeRows s.labels idx)
  return (x, y)

/-- `abs(np.log10(refl) / 10)` (noise_generator.py l.163); the logarithm of a number that is not positive
is not finite. -/
noncomputable def logScale (x : NArr) : Res NArr :=
  match x with
  | .d1 v => if ∃ c ∈ v, c ≤ 0 then .error .nanResult else .ok (.d1 (v.map fun c => |Real.logb 10 c / 10|))
  | .d2 w rows =>
    if ∃ r ∈ rows, ∃ c ∈ r, c ≤ 0 then .error .nanResult
    else .ok (.d2 w (rows.map fun r => r.map fun c => |Real.logb 10 c / 10|))
  | .other => .error .valueError

/-- noise_generator.py l.142-169: a batch of a `NoiseGeneratorLog`. -/
noncomputable def Gen.logItem (rng : NoiseRng G) (s : Gen) (c : NoiseCfg) (i : Nat) :
    Rand G (NArr × List (List ℝ)) := do
  let idx := s.batchIndexes i
  let x ← Rand.ofRes (takeRows s.refl idx)
  let x ← shotStep rng c.mode c.noise (.d2 s.width x)
  let x ← backgroundStep rng c.mode c.background c.rel s.width x
  let x ← Rand.ofRes (logScale x)
  let y ← Rand.ofRes (takeRows s.labels idx)
  return (x, y)

/-! ### Training and validation data -/

/-- training.py l.68-77: `n_train = int((1 - val_split) * len(prep_labels))` and the slices `[:n_train]`
and `[n_train:]`, for curves and labels. -/
noncomputable def nTrain (valSplit : ℝ) (n : Nat) : Int :=
  let x := (1 - valSplit) * n
  if 0 ≤ x then ⌊x⌋ else ⌈x⌉

/-- `(data[:n_train], data[n_train:])`. -/
noncomputable def trainSplit {α : Type} (valSplit : ℝ) (nLabels : Nat) (data : List α) : List α × List α :=
  (slice data none (some (nTrain valSplit nLabels)), slice data (some (nTrain valSplit nLabels)) none)

end Verif.Model
