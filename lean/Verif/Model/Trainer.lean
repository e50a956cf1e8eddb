import Verif.Model.Noise
import Verif.Model.Simulate

/-!
# Model of `Trainer` (training/training.py)

The network object and `keras` training are opaque (`TrainEnv.fit`), the engine `refl1d` is an arbitrary function.
The sample object and the array of q values are shared between the trainer and every `TrainedModel` that it returned:
the state stores them once. Network objects are kept in a heap and referred to by their number. Numbers are real numbers: simulated curves with NaN and labels with an
imaginary part end the call (in the code the former give NaN inputs, the latter are cast by tensorflow); nothing is
claimed about executions after such a call. Random seeds, printing and the history object are left out.
-/

namespace Verif.Model
open Verif.Py
variable {G Net : Type}

/-- One `UniformNoiseGenerator` as passed to `fit` (noise_generator.py l.112-120). -/
structure UGen where
  gen : Gen
  noise : ℝ × ℝ
  scaling : ℝ × ℝ
  ip : IPState

/-- The arguments of `keras_model.fit` (training.py l.80-81). -/
structure FitIn where
  train : UGen
  val : UGen
  epochs : Nat

/-- What the trainer calls: random numbers, the engine (`none`: not installed), string conversion, and the training of
a network, which changes the network even if it raises. -/
structure TrainEnv (G Net : Type) where
  rng : NoiseRng G
  refl1d : Option Engine
  pf : Str → Option ℝ
  fit : Net → FitIn → G → Net × Res G

/-- training.py l.29-30: `self._uniform_noise_range`, `self._scaling_range`. -/
noncomputable def noiseRange : ℝ × ℝ := (0.9, 1.1)
noncomputable def scalingRange : ℝ × ℝ := (0.9, 1.1)

/-- `self.training_data` (training.py l.42-45): the label table with its number of rows and the curves. -/
structure TrainData where
  labels : Frame (Num ℝ)
  rows : Nat
  curves : List (List ℝ)

/-- The attributes of a returned `TrainedModel` other than sample and q values; the network is a reference. -/
structure ModelRef where
  mean : List ℝ
  std : List ℝ
  netId : Nat

/-- The trainer, the objects it shares, the returned models and the state of the random numbers. -/
structure TrainerSt (G Net : Type) where
  sample : SampleV ℝ
  q : List ℝ
  heap : Nat → Net
  netId : Nat
  data : Option TrainData
  ip : Option IPState
  models : List ModelRef
  g : G

/-- `self.keras_model`. -/
def TrainerSt.net (w : TrainerSt G Net) : Net := w.heap w.netId

/-- The network object of the trainer changes in place. -/
def TrainerSt.setNet (w : TrainerSt G Net) (n : Net) : TrainerSt G Net :=
  { w with heap := fun i => if i = w.netId then n else w.heap i }

/-- training.py l.23-35 `__init__`; `mk n m` is the new network with `n` inputs and `m` outputs (l.99-116). -/
noncomputable def TrainerSt.init (mk : Nat → Nat → Net) (s : SampleV ℝ) (q : List ℝ) (g : G) : Res (TrainerSt G Net) := do
  let _ ← opInit ⟨minToZeroS, true⟩
  let ps ← s.allLabelParameters
  return ⟨s, q, fun _ => mk q.length (usedLabels ps).length, 0, none, none, [], g⟩

/-- The generated label table as the argument of the simulation. -/
noncomputable def toSimTable (f : Frame (Num ℝ)) (n : Nat) : SimTable :=
  ⟨f.map fun (c : Str × List (Num ℝ)) => (c.1, c.2.map Num.toC), n⟩

/-- The generated label table as the argument of the preprocessor. -/
noncomputable def toTable (f : Frame (Num ℝ)) (n : Nat) : Table :=
  ⟨n, f.map fun (c : Str × List (Num ℝ)) => (c.1, c.2.map fun (x : Num ℝ) => some x.toC)⟩

/-- A simulated curve without NaN. -/
def finiteCurve (c : List (Option ℝ)) : Res (List ℝ) :=
  c.mapM fun (x : Option ℝ) => match x with
    | some v => .ok v
    | none => .error .nanResult

/-- training.py l.39-45: labels and curves, with the default distribution, q noise and engine. -/
noncomputable def trainingData (env : TrainEnv G Net) (s : SampleV ℝ) (q : List ℝ) (n : Int) : Rand G TrainData := do
  let labels ← generateRandomLabels env.rng.toRng s n defaultDist
  let curves ← simulateReflectivity env.rng.toRng env.refl1d env.pf q (some (toSimTable labels n.toNat)) (.num 0) refl1dS
  let curves ← Rand.ofRes (curves.mapM finiteCurve)
  return ⟨labels, n.toNat, curves⟩

/-- preprocessing.py l.40-57 for a new preprocessor and the array that `apply_scaling_factor` returns: for a single
curve the array is one-dimensional, its deviation is a number and `0 in std` raises `TypeError`. -/
noncomputable def freshStandardize (x : NArr) : Res IPState :=
  match x with
  | .d2 w rows =>
    if h : (∀ r ∈ rows, r.length = w) ∧ rows ≠ [] then
      let r := IPState.init.standardize ⟨w, rows, h.1, h.2⟩
      match r.1 with
      | .ok _ => .ok r.2
      | .error e => .error e
    else .error .nanResult
  | .d1 _ => .error .typeError
  | .other => .error .valueError

/-- training.py l.118-124 `_prepare_input_preprocessor`. -/
noncomputable def prepareInput (env : TrainEnv G Net) (nq : Nat) (curves : List (List ℝ)) : Rand G IPState := do
  let x ← applyUniformNoise env.rng (.d2 nq curves) noiseRange.1 noiseRange.2
  let x ← applyScalingFactor env.rng x scalingRange.1 scalingRange.2
  Rand.ofRes (freshStandardize x)

/-- training.py l.37-47 `generate_training_data`: the data are stored before the preprocessor is made (l.42, l.47). -/
noncomputable def TrainerSt.generate (env : TrainEnv G Net) (w : TrainerSt G Net) (n : Int) : TrainerSt G Net × Res Unit :=
  match trainingData env w.sample w.q n w.g with
  | .error e => (w, .error e)
  | .ok (d, g) =>
    match prepareInput env w.q.length d.curves g with
    | .error e => ({ w with data := some d, g := g }, .error e)
    | .ok (ip, g) => ({ w with data := some d, ip := some ip, g := g }, .ok ())

/-- A cell of a label table as a real number. -/
noncomputable def realCell : Fl → Res ℝ
  | none => .error .nanResult
  | some z => if z.im = 0 then .ok z.re else .error .typeError

/-- `np.array(labels)` (noise_generator.py l.126). -/
noncomputable def tableRows (t : Table) : Res (List (List ℝ)) :=
  (List.range t.rows).mapM fun (i : Nat) => t.cols.mapM fun (c : Str × List Fl) => do
    let x ← getItem c.2 (i : Int)
    realCell x

/-- The generators use `self.ip.standardize` (noise_generator.py l.126): without a preprocessor `fit` raises
`AttributeError` at the first batch. -/
def hasPreprocessor (ip : Option IPState) : Res IPState :=
  match ip with
  | none => .error .attributeError
  | some ip => .ok ip

/-- training.py l.64-77: the generators for training and validation. -/
noncomputable def TrainerSt.prepare (env : TrainEnv G Net) (w : TrainerSt G Net) (epochs batch : Nat) (valSplit : ℝ) :
    Rand G FitIn :=
  match w.data with
  | none => Rand.fail .valueError
  | some d => do
    let (prep, _) ← Rand.ofRes (applyPreprocessing ⟨minToZeroS, true⟩ w.sample (.frame (toTable d.labels d.rows)))
    let rows ← Rand.ofRes (tableRows prep)
    let c := trainSplit valSplit prep.rows d.curves
    let l := trainSplit valSplit prep.rows rows
    let gt ← Gen.init env.rng c.1 w.q.length l.1 batch true
    let gv ← Gen.init env.rng c.2 w.q.length l.2 batch true
    let ip ← Rand.ofRes (hasPreprocessor w.ip)
    return ⟨⟨gt, noiseRange, scalingRange, ip⟩, ⟨gv, noiseRange, scalingRange, ip⟩, epochs⟩

/-- training.py l.49-90 `train`: the network is trained in place; the returned model refers to the network, the sample
and the q values of the trainer and to the mean and deviation of its preprocessor. -/
noncomputable def TrainerSt.train (env : TrainEnv G Net) (w : TrainerSt G Net) (epochs batch : Nat) (valSplit : ℝ) :
    TrainerSt G Net × Res ModelRef :=
  match w.prepare env epochs batch valSplit w.g with
  | .error e => (w, .error e)
  | .ok (f, g) =>
    match env.fit w.net f g with
    | (net, .error e) => ({ w.setNet net with g := g }, .error e)
    | (net, .ok g) =>
      let m : ModelRef := ⟨(w.ip.bind (·.mean)).getD [], (w.ip.bind (·.std)).getD [], w.netId⟩
      ({ w.setNet net with g := g, models := w.models ++ [m] }, .ok m)

/-- What can happen to a trainer: its two methods, a change of the sample object or the q values by their owner, and
any use of the random numbers elsewhere. -/
inductive TrainEvent (G : Type) where
  | generate (n : Int)
  | train (epochs batch : Nat) (valSplit : ℝ)
  | edit (s : SampleV ℝ) (q : List ℝ)
  | draws (g : G)

/-- The state after an event. -/
noncomputable def TrainerSt.step (env : TrainEnv G Net) (w : TrainerSt G Net) : TrainEvent G → TrainerSt G Net
  | .generate n => (w.generate env n).1
  | .train e b v => (w.train env e b v).1
  | .edit s q => { w with sample := s, q := q }
  | .draws g => { w with g := g }

/-- The state after a trace of events. -/
noncomputable def TrainerSt.run (env : TrainEnv G Net) (w : TrainerSt G Net) (l : List (TrainEvent G)) : TrainerSt G Net :=
  l.foldl (TrainerSt.step env) w

end Verif.Model
