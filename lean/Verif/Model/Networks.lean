import Verif.Model.Prediction

/-!
# The networks and the prediction of labels

Models the layers of `SimpleModel` (models/simple_model.py l.13-42) and of `Trainer._prepare_model` (training/training.py l.103-121), and
`Prediction.predict_labels` (training/prediction.py l.20-32). Weights are arbitrary; training, loading from a file and single precision
are not modelled.
-/

namespace Verif.Model
open Verif.Py

/-- `Dense`, followed by `Activation('relu')` or not; the weights of one unit are one row. -/
structure NetLayer where
  weights : List (List ℝ)
  bias : List ℝ
  relu : Bool

/-- The output of a layer. -/
noncomputable def NetLayer.out (l : NetLayer) (x : List ℝ) : List ℝ :=
  let y := List.zipWith (fun (w : List ℝ) (b : ℝ) => (List.zipWith (· * ·) w x).sum + b) l.weights l.bias
  if l.relu then y.map fun (v : ℝ) => max v 0 else y

/-- The output of the network for one curve. -/
noncomputable def netOut (net : List NetLayer) (x : List ℝ) : List ℝ :=
  net.foldl (fun (v : List ℝ) (l : NetLayer) => l.out v) x

/-- simple_model.py l.17-36: number of units of the layers, and whether they have an activation. -/
def simpleShape (nOutput : Nat) : List (Nat × Bool) :=
  [(400, true), (800, true), (400, true), (300, true), (200, true), (100, true), (nOutput, true)]

/-- training.py l.106-113. -/
def trainerShape (nOutput : Nat) : List (Nat × Bool) :=
  [(500, true)] ++ List.replicate 2 (500, true) ++ [(nOutput, false)]

/-- The weights fit to the shape: `n` is the number of inputs of the first layer. -/
def HasShape : Nat → List (Nat × Bool) → List NetLayer → Prop
  | _, [], net => net = []
  | n, s :: shape, net => ∃ l rest, net = l :: rest ∧ l.relu = s.2 ∧ l.weights.length = s.1 ∧ l.bias.length = s.1 ∧
      (∀ w ∈ l.weights, w.length = n) ∧ HasShape s.1 shape rest

/-- `model.predict` of an array of curves: an empty array or curves of another length are rejected. -/
noncomputable def netPredict (nInput : Nat) (net : List NetLayer) (rows : List (List ℝ)) : Res (List (List ℝ)) :=
  if rows = [] ∨ ∃ r ∈ rows, r.length ≠ nInput then .error .valueError
  else .ok (rows.map (netOut net))

/-- What may be given as input: numbers, nested lists or arrays of one, two or more dimensions, lists of rows of different
length. -/
inductive CurveArg where
  | scalar (x : ℝ)
  | vector (x : List ℝ)
  | matrix (rows : List (List ℝ))
  | higher
  | ragged

/-- prediction.py l.22-27: `np.atleast_2d(np.asarray(test_input))`. Arrays of objects and arrays with more dimensions are rejected
by the network. -/
def CurveArg.rows : CurveArg → Res (List (List ℝ))
  | .scalar x => .ok [[x]]
  | .vector x => .ok [x]
  | .matrix rows => .ok rows
  | .higher => .error .valueError
  | .ragged => .error .valueError

/-- prediction.py l.20-32 `predict_labels`. -/
noncomputable def predictLabels (nInput nOutput : Nat) (net : List NetLayer) (names : List Str) (a : CurveArg) : Res (Frame ℝ) := do
  let rows ← a.rows
  let out ← netPredict nInput net rows
  ErrorArg.toFrame names (.array nOutput out)

end Verif.Model
