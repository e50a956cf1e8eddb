import Verif.Py.Basic
import Mathlib.Analysis.Real.Sqrt
import Mathlib.Algebra.BigOperators.Group.List.Basic

/-!
# Model of `InputPreprocessor` (training/preprocessing.py l.12-70)

Numbers are real numbers. Data are 2-D arrays with at least one row (the mean of an empty array is
NaN in numpy and is not modelled).
-/

namespace Verif.Model
open Verif.Py

/-- A 2-D array with at least one row. -/
structure Arr where
  width : Nat
  rows : List (List ℝ)
  wf : ∀ r ∈ rows, r.length = width
  ne : rows ≠ []

/-- `data[:, j]`. -/
def Arr.col (d : Arr) (j : Nat) : List ℝ := d.rows.map fun r => r.getD j 0

/-- `np.mean` of a 1-D array. -/
noncomputable def npMean (l : List ℝ) : ℝ := l.sum / l.length

/-- `np.std` of a 1-D array (population standard deviation). -/
noncomputable def npStd (l : List ℝ) : ℝ := Real.sqrt (npMean (l.map fun x => (x - npMean l) ^ 2))

/-- Broadcasting of a row of a 2-D array against a 1-D array: equal lengths are combined entry by
entry, a single entry is repeated, anything else is a `ValueError`. -/
def bcast (op : ℝ → ℝ → ℝ) (row v : List ℝ) : Res (List ℝ) :=
  if row.length = v.length then .ok (List.zipWith op row v)
  else if row.length = 1 then .ok (v.map (op (row.getD 0 0)))
  else if v.length = 1 then .ok (row.map fun x => op x (v.getD 0 0))
  else .error .valueError

/-- Broadcasting of a 2-D array against a 1-D array. -/
def bcastRows (op : ℝ → ℝ → ℝ) (rows : List (List ℝ)) (v : List ℝ) : Res (List (List ℝ)) :=
  rows.mapM fun r => bcast op r v

/-- The state of an `InputPreprocessor` (l.19-21). -/
structure IPState where
  mean : Option (List ℝ)
  std : Option (List ℝ)

/-- preprocessing.py l.19-21 `__init__`. -/
def IPState.init : IPState := ⟨none, none⟩

/-- preprocessing.py l.23-30 `has_saved_standardization`. -/
def IPState.hasSaved (s : IPState) : Res Bool :=
  if s.std = none ∧ s.mean = none then .ok false
  else if s.std ≠ none ∧ s.mean ≠ none then .ok true
  else .error .valueError

/-- preprocessing.py l.40-57 `standardize`; the second component is the state after the call. -/
noncomputable def IPState.standardize (s : IPState) (d : Arr) : Res (List (List ℝ)) × IPState :=
  match s.hasSaved with
  | .error e => (.error e, s)
  | .ok true =>
    let m := s.mean.getD []
    let sd := s.std.getD []
    (do bcastRows (· / ·) (← bcastRows (· - ·) d.rows m) sd, s)
  | .ok false =>
    let m := (List.range d.width).map fun j => npMean (d.col j)
    match bcastRows (· - ·) d.rows m with
    | .error e => (.error e, s)
    | .ok centered =>
      let sd := (List.range d.width).map fun j => npStd (centered.map fun r => r.getD j 0)
      if (0 : ℝ) ∈ sd then (.error .valueError, s)
      else (bcastRows (· / ·) centered sd, ⟨some m, some sd⟩)

/-- preprocessing.py l.59-65 `revert_standardization`. -/
noncomputable def IPState.revert (s : IPState) (d : Arr) : Res (List (List ℝ)) :=
  match s.hasSaved with
  | .error e => .error e
  | .ok false => .error .valueError
  | .ok true => do
    bcastRows (· + ·) (← bcastRows (· * ·) d.rows (s.std.getD [])) (s.mean.getD [])

/-- preprocessing.py l.67-70 `reset_mean_and_std`. -/
def IPState.reset (_ : IPState) : IPState := ⟨none, none⟩

/-- A call of the public interface. -/
inductive IPOp where
  | standardize (d : Arr)
  | revert (d : Arr)
  | reset

/-- The state after a call. -/
noncomputable def IPState.step (s : IPState) : IPOp → IPState
  | .standardize d => (s.standardize d).2
  | .revert _ => s
  | .reset => s.reset

/-- The state after a history of calls. -/
noncomputable def IPState.run (h : List IPOp) : IPState := h.foldl IPState.step .init

end Verif.Model
