import Verif.Model.CurveFitter

/-!
# A series of scans

Models `ScanSeries` (scans.py l.127-149), a subclass of `list` that overrides `append` only; the other
methods that add entries are those of `list`. Plotting is in Model/ResultPlots.lean.
-/

namespace Verif.Model
open Verif.Py

/-- An entry of the list. -/
inductive SeriesItem where
  | scan (s : Scan)
  | foreign

/-- scans.py l.142-146 `append`. -/
def seriesAppend (l : List SeriesItem) (x : SeriesItem) : Res (List SeriesItem) :=
  match x with
  | .scan s => .ok (l ++ [.scan s])
  | .foreign => .error .typeError

/-- What can happen to a series: `append`, and `extend` (also `+=`), `insert`, item assignment and deletion of `list`. -/
inductive SeriesEvent where
  | append (x : SeriesItem)
  | extend (xs : List SeriesItem)
  | insert (i : Int) (x : SeriesItem)
  | setItem (i : Int) (x : SeriesItem)
  | delete (i : Int)

/-- `del l[i]`. -/
def delItem {α : Type} (l : List α) (i : Int) : Res (List α) :=
  match normIdx l.length i with
  | some k => .ok (l.eraseIdx k)
  | none => .error .indexError

/-- The result of an event. -/
def seriesCall (l : List SeriesItem) : SeriesEvent → Res (List SeriesItem)
  | .append x => seriesAppend l x
  | .extend xs => .ok (l ++ xs)
  | .insert i x => .ok (l.insertIdx (insertPos l.length i) x)
  | .setItem i x => Verif.Py.setItem l i x
  | .delete i => delItem l i

/-- The series after an event; a call that raises changes nothing. -/
def seriesStep (l : List SeriesItem) (e : SeriesEvent) : List SeriesItem :=
  match seriesCall l e with
  | .ok l' => l'
  | .error _ => l

/-- The series after a trace of events. -/
def seriesRun (l : List SeriesItem) (es : List SeriesEvent) : List SeriesItem := es.foldl seriesStep l

/-- One row of the statistics (scans.py l.134-139): `len`, `np.min(scan.q)` and `np.max(scan.q)`. A foreign object is taken as
one without these attributes (`TypeError` from `len`). -/
noncomputable def itemStats : SeriesItem → Res (Nat × ℝ × ℝ)
  | .foreign => .error .typeError
  | .scan s => do
    let q ← s.q
    let a ← npMin q
    let b ← npMax q
    return (s.angle.length, a, b)

/-- scans.py l.130-140 `stats`. -/
noncomputable def seriesStats (l : List SeriesItem) : Res (List Nat × List ℝ × List ℝ) := do
  let r ← l.mapM itemStats
  return (r.map fun (p : Nat × ℝ × ℝ) => p.1, r.map fun (p : Nat × ℝ × ℝ) => p.2.1, r.map fun (p : Nat × ℝ × ℝ) => p.2.2)

/-- The array made of a list of rows: two-dimensional for rows of equal length, otherwise an array of objects. -/
inductive RowArray where
  | empty
  | matrix (width : Nat) (rows : List (List ℝ))
  | objects (rows : List (List ℝ))

/-- `np.array(rows)`. -/
def rowArray : List (List ℝ) → RowArray
  | [] => .empty
  | r :: rs => if rs.all (fun (x : List ℝ) => x.length = r.length) then .matrix r.length (r :: rs) else .objects (r :: rs)

/-- `scan.corrected_intensity`; a foreign object has no such attribute. -/
noncomputable def itemIntensity : SeriesItem → Res (List ℝ)
  | .foreign => .error .attributeError
  | .scan s => s.correctedIntensity

/-- scans.py l.148-150 `to_array`. -/
noncomputable def seriesArray (l : List SeriesItem) : Res RowArray := do
  let rows ← l.mapM itemIntensity
  return rowArray rows

end Verif.Model
