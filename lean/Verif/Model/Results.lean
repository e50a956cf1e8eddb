import Verif.Model.CurveFitter
import Verif.Model.Fio

/-!
# Model of curve_fitter/results.py

Times are seconds; `datetime.strptime` is an arbitrary function from strings to times that may raise. The text that
`np.savetxt` writes for a number is an arbitrary function. The plots are in Model/ResultPlots.lean.
-/

namespace Verif.Model
open Verif.Py

/-! ### Strings and paths -/

/-- `str(n)` of an integer. -/
def pyStrInt (n : Int) : Str := if 0 ≤ n then natStr n.toNat else '-' :: natStr (-n).toNat

/-- `posixpath.dirname`. -/
def dirname (p : Str) : Str :=
  let head := (p.reverse.dropWhile fun (c : Char) => c != '/').reverse
  if head.all fun (c : Char) => c == '/' then head else rstripBy (fun (c : Char) => c == '/') head

/-- `posixpath.basename`. -/
def basename (p : Str) : Str := (p.reverse.takeWhile fun (c : Char) => c != '/').reverse

/-- `posixpath.join` of two paths. -/
def pathJoin (a b : Str) : Str :=
  match b with
  | '/' :: _ => b
  | _ => if a.isEmpty || a.getLast? == some '/' then a ++ b else a ++ '/' :: b

/-! ### FitResult -/

/-- results.py l.14-30: the attributes of a `FitResult`. -/
structure FitResult where
  number : Int
  timestamp : Option Str
  corrected : List ℝ
  qInput : List ℝ
  predicted : List (Option ℝ)
  qPrediction : List ℝ
  params : Table
  bestShift : Option ℝ
  sample : SampleV ℝ

namespace FitResult

/-- results.py l.37-39 `interpolated_corrected_reflectivity`. -/
noncomputable def interpolated (r : FitResult) : Res (List ℝ) := interpReflectivity r.qPrediction r.qInput r.corrected

/-- `np.rint`: the nearest integer, the even one of two. -/
noncomputable def rint (x : ℝ) : ℤ :=
  if x - ⌊x⌋ < 1 / 2 then ⌊x⌋ else if 1 / 2 < x - ⌊x⌋ then ⌊x⌋ + 1 else if Even ⌊x⌋ then ⌊x⌋ else ⌊x⌋ + 1

/-- `np.round(decimals=6)`. -/
noncomputable def round6 (x : ℝ) : ℝ := rint (x * 10 ^ 6) / 10 ^ 6

/-- `round6` of a float. -/
noncomputable def roundF : FVal → FVal
  | .num x => .num (round6 x)
  | v => v

/-- results.py l.41-44 `curve_mse`: different lengths are rejected by `mean_squared_error`. -/
noncomputable def curveMse (r : FitResult) : Res FVal :=
  if r.predicted.length ≠ r.corrected.length then .error .valueError
  else .ok (roundF (fMean (List.zipWith logSqErr r.predicted (r.corrected.map some))))

/-- results.py l.14-44: the names of the attributes and properties of a `FitResult`. -/
def attributes : List Str :=
  ["scan_number".toList, "timestamp".toList, "corrected_reflectivity".toList, "q_values_input".toList,
   "predicted_reflectivity".toList, "q_values_prediction".toList, "predicted_parameters".toList, "best_q_shift".toList,
   "sample".toList, "FORMAT".toList, "sld_profile".toList, "interpolated_corrected_reflectivity".toList, "curve_mse".toList,
   "save_predicted_parameters".toList, "save_predicted_reflectivity".toList, "save_corrected_reflectivity".toList,
   "plot_prediction".toList, "_annotate_plot".toList, "plot_sld_profile".toList]

/-- results.py l.50-62: the rows that are written (q value and intensity); a column cannot be filled with another number of
values, except with a single one. -/
def rows {α : Type} (q : List ℝ) (values : List α) : Res (List (ℝ × α)) :=
  match values with
  | [v] => .ok (q.map fun (x : ℝ) => (x, v))
  | _ => if values.length = q.length then .ok (q.zip values) else .error .valueError

end FitResult

/-! ### FitResultSeries -/

/-- results.py l.105-116: the attributes of a `FitResultSeries`. -/
structure Series where
  results : List FitResult
  numbers : List Int
  timestamps : List (Option Str)
  corrected : List (List ℝ)
  qInput : List (List ℝ)
  predicted : List (List (Option ℝ))
  qPrediction : List (List ℝ)
  params : Table
  bestShift : List (Option ℝ)
  sample : SampleV ℝ

namespace Series

/-- results.py l.105-116 `__init__`. -/
def init (l : List FitResult) : Res Series := do
  let params ← Table.concat (l.map FitResult.params)
  let first ← getItem l 0
  return ⟨l, l.map FitResult.number, l.map FitResult.timestamp, l.map FitResult.corrected, l.map FitResult.qInput,
    l.map FitResult.predicted, l.map FitResult.qPrediction, params, l.map FitResult.bestShift, first.sample⟩

/-- results.py l.118-124 `delta_t`. -/
noncomputable def deltaT (parse : Str → Res ℝ) (s : Series) : Res (Option (List ℝ)) :=
  match s.timestamps.mapM (fun (t : Option Str) => t) with
  | none => .ok none
  | some ts => do
    let times ← ts.mapM parse
    return some (times.map fun (t : ℝ) => (t - times.headD 0) / 60)

/-- results.py l.126-128 `curve_mse`: the attribute `curve_variant_log_mse` of every result. -/
noncomputable def curveMse (s : Series) : Res (List FVal) :=
  s.results.mapM fun (r : FitResult) =>
    if "curve_variant_log_mse".toList ∈ FitResult.attributes then r.curveMse else .error .attributeError

/-- results.py l.142, l.148: the path for one scan. -/
def savePath (path : Str) (n : Int) : Str :=
  pathJoin (dirname path) ("scan".toList ++ pyStrInt n ++ '_' :: basename path)

/-- results.py l.139-143 `save_predicted_reflectivity`; the files are rows of numbers. -/
def savePredicted (path : Str) (s : Series) (files : Str → Option (List (ℝ × Option ℝ))) :
    Res (Str → Option (List (ℝ × Option ℝ))) :=
  s.results.foldlM (fun fs (r : FitResult) => do
    let rows ← FitResult.rows r.qInput r.predicted
    return Function.update fs (savePath path r.number) (some rows)) files

/-- results.py l.145-149 `save_corrected_reflectivity`; the files are rows of numbers. -/
def saveCorrected (path : Str) (s : Series) (files : Str → Option (List (ℝ × ℝ))) :
    Res (Str → Option (List (ℝ × ℝ))) :=
  s.results.foldlM (fun fs (r : FitResult) => do
    let rows ← FitResult.rows r.qInput r.corrected
    return Function.update fs (savePath path r.number) (some rows)) files

end Series
end Verif.Model
