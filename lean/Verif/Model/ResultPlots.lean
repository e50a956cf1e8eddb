import Verif.Model.ResultProfiles
import Verif.Model.ScanSeries

/-!
# The plots of fit results (results.py l.64-101, l.151-211) and of scans (scans.py l.83-95, l.151-168)

A drawn curve is the list of its points; `matplotlib` rejects coordinates of different lengths. Sizes, ticks, legends, the number of
printed digits and the drawing of the colour bar are left out; what the bar stands for is in `barPosition`. A column with complex
numbers, which `float` would reject, is not followed.
-/

namespace Verif.Model
open Verif.Py

/-- The points of `plt.plot(x, y)`: `ValueError` for different lengths. -/
def points {α β : Type} (x : List α) (y : List β) : Res (List (α × β)) :=
  if x.length = y.length then .ok (x.zip y) else .error .valueError

/-- `'sld'`, `'time'` and the units. -/
def sldS : Str := "sld".toList
def timeS : Str := "time".toList
def lengthUnit : Str := "Å".toList
def noteSldUnit : Str := "x 10$^{-6}$ Å$^{-2}$".toList
def axisSldUnit : Str := "10$^{-6}$ Å$^{-2}$".toList

/-- results.py l.82-87 and l.174-179: the unit of a parameter, given the unit that is written for a density. -/
def unitOf (sldUnit p : Str) : Res Str :=
  if isLengthName p then .ok lengthUnit else if contains p sldS then .ok sldUnit else .error .valueError

/-- `float(series)`: only for a single value. -/
def floatOf (col : List Fl) : Res Fl :=
  match col with
  | [x] => .ok x
  | _ => .error .typeError

/-- A line of the annotation: name, value and unit. -/
structure NoteLine where
  name : Str
  value : Fl
  unit : Str

/-- What `plot_prediction` shows. -/
structure PredictionPlot where
  number : Int
  timestamp : Option Str
  data : List (ℝ × ℝ)
  prediction : List (ℝ × Option ℝ)
  lines : List NoteLine
  logMse : FVal

namespace FitResult

/-- results.py l.81-88: a line of the annotation. -/
def noteLine (r : FitResult) (p : Str) : Res NoteLine := do
  let u ← unitOf noteSldUnit p
  let col ← r.params.cols.get p
  let v ← floatOf col
  return ⟨p, v, u⟩

/-- results.py l.64-77 `plot_prediction` with l.79-91 `_annotate_plot`. -/
noncomputable def plotPrediction (r : FitResult) (params : List Str) : Res PredictionPlot := do
  let d ← points r.qInput r.corrected
  let p ← points r.qInput r.predicted
  let lines ← params.mapM r.noteLine
  let e ← r.curveMse
  return ⟨r.number, r.timestamp, d, p, lines, e⟩

/-- results.py l.93-101 `plot_sld_profile`. -/
noncomputable def plotSldProfile (r : FitResult) : Res (List (ℝ × Option ℝ)) := do
  let p ← r.sldProfile
  points p.1 p.2

end FitResult

/-- A panel of `plot_predicted_parameter_range`; `time` tells whether the horizontal axis is labelled as time. -/
structure RangePanel where
  rows : Nat
  number : Nat
  time : Bool
  name : Str
  unit : Str
  curve : List (ℝ × Fl)

namespace Series

/-- results.py l.163-168: the horizontal axis. -/
noncomputable def xAxis (parse : Str → Res ℝ) (s : Series) (xFormat : Str) : Res (Bool × List ℝ) :=
  if xFormat = timeS then do
    let d ← s.deltaT parse
    match d with
    | some t => .ok (true, t)
    | none => .ok (false, s.numbers.map fun (n : Int) => (n : ℝ))
  else .ok (false, s.numbers.map fun (n : Int) => (n : ℝ))

/-- results.py l.172-185: one panel. -/
noncomputable def rangePanel (s : Series) (n : Nat) (x : Bool × List ℝ) (p : Str × Nat) : Res RangePanel := do
  let u ← unitOf axisSldUnit p.1
  let col ← s.params.cols.get p.1
  let c ← points x.2 col
  return ⟨n, p.2 + 1, x.1, p.1, u, c⟩

/-- results.py l.151-187 `plot_predicted_parameter_range`. -/
noncomputable def plotRange (parse : Str → Res ℝ) (s : Series) (params : List Str) (xFormat : Str) : Res (List RangePanel) := do
  let x ← s.xAxis parse xFormat
  params.zipIdx.mapM (s.rangePanel params.length x)

/-- results.py l.197-198, l.203: the colour of curve `i` of `n` as a position on the colour map, `np.linspace(0, 1, n)[i]`. -/
noncomputable def colour (n i : Nat) : ℝ := if n = 1 then 0 else (i : ℝ) / ((n : ℝ) - 1)

/-- results.py l.194-195, l.207-208: the position on the colour map that the colour bar gives for a scan number. -/
noncomputable def barPosition (first last : ℝ) (x : ℝ) : ℝ := (x - first) / (last - first)

/-- results.py l.202-203: a curve and its colour. -/
noncomputable def profileCurve (ps : List (List ℝ × List (Option ℝ))) (i : Nat) : Res (ℝ × List (ℝ × Option ℝ)) := do
  let p ← getItem ps (i : Int)
  let c ← points p.1 p.2
  return (colour ps.length i, c)

/-- results.py l.189-211 `plot_sld_profiles`: the limits of the bar, and the curves with their colours. -/
noncomputable def plotSldProfiles (s : Series) : Res ((ℝ × ℝ) × List (ℝ × List (ℝ × Option ℝ))) := do
  let ps ← s.sldProfiles
  let a ← getItem s.numbers 0
  let b ← getItem s.numbers (-1)
  let cs ← (List.range s.params.rows).mapM (profileCurve ps)
  return (((a : ℝ), (b : ℝ)), cs)

end Series

/-! ### Scans -/

/-- scans.py l.83-88 `plot_raw_intensity`. -/
noncomputable def Scan.plotRaw (s : Scan) (lo hi : Option ℝ) : Res (List (ℝ × ℝ)) := do
  let q ← s.qRange lo hi
  let i ← s.rawRange lo hi
  points q i

/-- scans.py l.90-95 `plot_corrected_intensity`. -/
noncomputable def Scan.plotCorrected (s : Scan) (lo hi : Option ℝ) : Res (List (ℝ × ℝ)) := do
  let q ← s.qRange lo hi
  let i ← s.correctedRange lo hi
  points q i

/-- scans.py l.156-158, l.161-163: the curve of an entry and its label. -/
noncomputable def itemCurve (lo hi : Option ℝ) : SeriesItem → Res (Int × List (ℝ × ℝ))
  | .foreign => .error .attributeError
  | .scan s => do
    let c ← s.plotCorrected lo hi
    return (s.number, c)

/-- scans.py l.160-163: the curve for an entry of `scan_range`. -/
noncomputable def rangeCurve (l : List SeriesItem) (lo hi : Option ℝ) (k : Int) : Res (Int × List (ℝ × ℝ)) := do
  let x ← getItem l k
  itemCurve lo hi x

/-- scans.py l.151-168 `plot_series`; `none` if nothing is drawn. -/
noncomputable def plotSeries (l : List SeriesItem) (range : Option (List Int)) (lo hi : Option ℝ) :
    Res (Option (List (Int × List (ℝ × ℝ)))) :=
  if l.isEmpty then .ok none else do
    let cs ← match range with
      | none => l.mapM (itemCurve lo hi)
      | some ks => ks.mapM (rangeCurve l lo hi)
    return some cs

end Verif.Model
