import Verif.Py.Frame
import Verif.Model.Fio

/-!
# Label errors of a prediction

Models `convert_to_dataframe` (`mlreflect/utils/label_helpers.py`) and the two error measures of
`mlreflect/training/prediction.py`. Tables have no column named `index` and no named row index; entries are real
numbers. `predict_labels` is in Model/Networks.lean.
-/

namespace Verif.Model
open Verif.Py

/-- A float: a number, a positive infinity or a NaN. -/
inductive FVal where
  | num (x : ℝ)
  | inf
  | nan

/-- Labels given by the user: an array with its number of columns, a table, or something else. -/
inductive ErrorArg where
  | array (width : Nat) (rows : List (List ℝ))
  | frame (f : Frame ℝ)
  | other

/-- `convert_to_dataframe` (label_helpers.py l.9-17); pandas raises a `ValueError` for a wrong number of
names. -/
def ErrorArg.toFrame (names : List Str) : ErrorArg → Res (Frame ℝ)
  | .array w rows =>
    if w = names.length then .ok (names.zipIdx.map fun (p : Str × Nat) => (p.1, rows.map fun (r : List ℝ) => r.getD p.2 0))
    else .error .valueError
  | .frame f => .ok f
  | .other => .error .typeError

/-- The columns of an operation on two tables: those of both tables if they agree, otherwise the sorted
union. -/
def unionColumns (a b : List Str) : List Str :=
  if a = b then a else (a ++ b.filter fun (c : Str) => c ∉ a).mergeSort strLe

/-- Entry `k` of column `c`, if there is one. -/
def Frame.entry? (f : Frame ℝ) (c : Str) (k : Nat) : Option ℝ :=
  match f.find? (fun (p : Str × List ℝ) => p.1 = c) with
  | some p => p.2[k]?
  | none => none

/-- The number of rows of a table. -/
def Frame.rows (f : Frame ℝ) : Nat :=
  match f with
  | [] => 0
  | p :: _ => p.2.length

/-- `abs(test - predicted)` with the row numbers as index (prediction.py l.40, l.52): NaN where one of the
tables has no entry. -/
noncomputable def absErrorAt (test pred : Frame ℝ) (c : Str) (k : Nat) : FVal :=
  match Frame.entry? test c k, Frame.entry? pred c k with
  | some t, some p => .num |t - p|
  | _, _ => .nan

/-- `abs(test - predicted) / abs(test)` (prediction.py l.40-41). -/
noncomputable def absPercentageErrorAt (test pred : Frame ℝ) (c : Str) (k : Nat) : FVal :=
  match Frame.entry? test c k, Frame.entry? pred c k with
  | some t, some p => if t = 0 then (if p = 0 then .nan else .inf) else .num (|t - p| / |t|)
  | _, _ => .nan

/-- Not a NaN. -/
def FVal.notNan : FVal → Bool
  | .nan => false
  | _ => true

/-- The infinity. -/
def FVal.isInf : FVal → Bool
  | .inf => true
  | _ => false

/-- The value of a number. -/
noncomputable def FVal.toReal : FVal → ℝ
  | .num x => x
  | _ => 0

/-- `Series.mean()`, which skips NaN. -/
noncomputable def seriesMean (l : List FVal) : FVal :=
  let l := l.filter FVal.notNan
  if l.isEmpty then .nan
  else if l.any FVal.isInf then .inf
  else .num ((l.map FVal.toReal).sum / l.length)

/-- The means over the rows of both tables, column by column. -/
noncomputable def meanOver (f : Frame ℝ → Frame ℝ → Str → Nat → FVal) (test pred : Frame ℝ) : List (Str × FVal) :=
  (unionColumns test.columns pred.columns).map fun (c : Str) =>
    (c, seriesMean ((List.range (max (Frame.rows test) (Frame.rows pred))).map (f test pred c)))

/-- `mean_absolute_error` (prediction.py l.47-56). -/
noncomputable def meanAbsoluteError (names : List Str) (pred test : ErrorArg) : Res (List (Str × FVal)) := do
  let t ← test.toFrame names
  let p ← pred.toFrame names
  return meanOver absErrorAt t p

/-- `mean_absolute_percentage_error` (prediction.py l.34-45). -/
noncomputable def meanAbsolutePercentageError (names : List Str) (pred test : ErrorArg) : Res (List (Str × FVal)) := do
  let t ← test.toFrame names
  let p ← pred.toFrame names
  return meanOver absPercentageErrorAt t p

end Verif.Model
