import Verif.Model.SpecFile
import Verif.Model.Scans
import Verif.Py.Frame

/-!
# The reflectivity loaders

Models `mlreflect/xrrloader/dataloader/reflectivity_loader.py` and `spec_loader.py`. Table values are
real numbers (files with `nan` or `inf` tokens are not modelled); divisions by zero, which numpy turns
into `inf` or `nan`, are reported as `nanResult`.
-/

namespace Verif.Model
open Verif.Py

/-- `apply_attenuation` (reflectivity_loader.py l.28-32). -/
def applyAttenuation (intensity attenuation : List ℝ) : Res (List ℝ) :=
  ew (fun (i a : ℝ) => i * a) intensity attenuation

/-- One round of the loop of `correct_discontinuities` (reflectivity_loader.py l.39-41):
`intensity[(i + 1):] *= intensity[i] / intensity[i + 1]` if the two angles are equal. -/
noncomputable def discStep (angle : List ℝ) (intensity : List ℝ) (i : Nat) : Res (List ℝ) := do
  let a ← getItem angle (i : Int)
  let b ← getItem angle ((i + 1 : Nat) : Int)
  if b - a = 0 then do
    let x ← getItem intensity (i : Int)
    let y ← getItem intensity ((i + 1 : Nat) : Int)
    match fdiv x y with
    | none => .error .nanResult
    | some f => return intensity.take (i + 1) ++ (intensity.drop (i + 1)).map fun (z : ℝ) => z * f
  else return intensity

/-- `correct_discontinuities` (reflectivity_loader.py l.34-42); `np.diff` has one entry less than the
angles. -/
noncomputable def correctDiscontinuities (intensity angle : List ℝ) : Res (List ℝ) :=
  (List.range (angle.length - 1)).foldlM (discStep angle) intensity

/-- `_trim_back` (reflectivity_loader.py l.54-56). -/
def trimBack (angle intensity : List ℝ) (n : Int) : List ℝ × List ℝ :=
  (slice angle none (some (-n)), slice intensity none (some (-n)))

/-- `_trim_front` (reflectivity_loader.py l.58-60). -/
def trimFront (angle intensity : List ℝ) (n : Int) : List ℝ × List ℝ :=
  (slice angle (some n) none, slice intensity (some n) none)

/-- Both trims in the order of `load_scan` (spec_loader.py l.71-74, fio_loader.py l.81-84). -/
def trim (angle intensity : List ℝ) (front back : Option Int) : List ℝ × List ℝ :=
  let p := match back with
    | none => (angle, intensity)
    | some n => trimBack angle intensity n
  match front with
  | none => p
  | some n => trimFront p.1 p.2 n

/-- `scan[name]` of a table with distinct column names (a repeated name, for which pandas returns a
table, is read as its first column). -/
def NumTable.column {F : Type} (t : NumTable F) (name : Str) : Res (List F) :=
  match t.columns.findIdx? (fun c => c = name) with
  | none => .error .keyError
  | some j => t.rows.mapM fun (r : List F) => getItem r (j : Int)

/-- The attributes of a `SpecLoader` (spec_loader.py l.30-42). -/
structure SpecLoader where
  parser : SpecParser
  angleColumns : List Str
  intensityColumn : Str
  wavelength : ℝ
  beamWidth : Option ℝ
  sampleLength : Option ℝ
  beamShape : Option Str
  normalizeTo : Option Str
  attenuatorColumn : Option Str
  divisionColumn : Option Str

/-- `np.sum(np.atleast_2d([abs(scan[c]) for c in angle_columns]), axis=0)` (spec_loader.py l.61-62);
without columns the result is empty. -/
noncomputable def sumAbs (cols : List (List ℝ)) : List ℝ :=
  match cols with
  | [] => []
  | c :: cs => cs.foldl (fun acc d => List.zipWith (fun (x y : ℝ) => x + |y|) acc d) (c.map fun (x : ℝ) => |x|)

/-- `_contains_counters` (spec_loader.py l.91-92). -/
def containsCounters (angleColumns columns : List Str) : Bool := angleColumns.all fun a => a ∈ columns

/-- The attenuation step of `load_scan` (spec_loader.py l.64-66). -/
noncomputable def SpecLoader.attenuate (s : SpecLoader) (t : NumTable ℝ) (angle i : List ℝ) : Res (List ℝ) :=
  match s.attenuatorColumn with
  | none => .ok i
  | some a => do
    let att ← t.column a
    let i ← applyAttenuation i att
    correctDiscontinuities i angle

/-- The division step of `load_scan` (spec_loader.py l.67-69). -/
noncomputable def SpecLoader.divide (s : SpecLoader) (t : NumTable ℝ) (i : List ℝ) : Res (List ℝ) :=
  match s.divisionColumn with
  | none => .ok i
  | some d => do
    let div ← t.column d
    let r ← ew fdiv i div
    finite r

/-- The intensity of `load_scan` (spec_loader.py l.63-69). -/
noncomputable def SpecLoader.intensity (s : SpecLoader) (t : NumTable ℝ) (angle : List ℝ) : Res (List ℝ) := do
  let i ← t.column s.intensityColumn
  let i ← s.attenuate t angle i
  s.divide t i

/-- `scan_info[n]['time']`. -/
def ScanEntry.timeOf (e : ScanEntry) : Res Str :=
  match e.time with
  | some x => .ok x
  | none => .error .keyError

/-- `load_scan` (spec_loader.py l.48-79). The time is looked up before the columns are used; a
missing time is a `KeyError`. -/
noncomputable def SpecLoader.loadScan (pf : Str → Option ℝ) (s : SpecLoader) (n : Int)
    (front back : Option Int) : Res Scan :=
  match s.parser.extractScan pf n with
  | .error .keyError => .error .notReflectivityScan
  | .error .valueError => .error .notReflectivityScan
  | .error e => .error e
  | .ok t =>
    if containsCounters s.angleColumns t.columns then do
      let e ← s.parser.index.get n
      let time ← e.timeOf
      let cols ← s.angleColumns.mapM t.column
      let angle := sumAbs cols
      let i ← s.intensity t angle
      let (angle, i) := trim angle i front back
      return Scan.mk' n angle i s.wavelength s.beamWidth s.sampleLength s.beamShape s.normalizeTo (some time)
    else .error .notReflectivityScan

/-- `load_scans` of both loaders (spec_loader.py l.81-89, fio_loader.py l.89-98): the loop over the
requested numbers with the function that loads one scan. -/
def loadScans {α β : Type} (load : α → Res β) : List α → Res (List β)
  | [] => .ok []
  | n :: ns =>
    match load n with
    | .ok s => do return s :: (← loadScans load ns)
    | .error .notReflectivityScan => loadScans load ns
    | .error e => .error e

end Verif.Model
