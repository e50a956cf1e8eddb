import Verif.Model.Fio
import Verif.Model.Loaders

/-!
# P08 scans and the .fio loader

Models the parts of `mlreflect/xrrloader/p08tools/P08ScanTools.py` that the loader uses
(`Scan.load_scan`, `Scan.remove_double`, `ScanAnalyzer.extract_rois`), `FioParser.extract_scan` and
`mlreflect/xrrloader/dataloader/fio_loader.py`.

Table entries are `Option ℝ`, `none` is `nan`. A column that is neither attenuated nor redrawn reaches the scan as a Python list
and is treated like an array here; only `normalize_to_first` without a footprint correction would make a difference (a `TypeError`
for a list). Reading detector images is left open (`images`) and is modelled in
Model/Images.lean, as are `calc_q`, `combine_scan_image_regions` and the export; the fits are in Model/Peaks.lean and
Model/Fits.lean and the region plots in Model/Plots.lean. A failing in-place operation returns only its error, the partially
updated object is not modelled.
-/

namespace Verif.Model
open Verif.Py

/-- A stack of images (three axes) or of line detector images (two axes). -/
inductive Stack where
  | images (l : List (List (List ℝ)))
  | lines (l : List (List ℝ))

/-- The attributes of a `Scan` (P08ScanTools.py l.27-46, l.50-165). -/
structure P08Scan where
  cmd : Str
  motorNames : List Str
  motors : List (List (Option ℝ))
  positions : List (Str × Option ℝ)
  data : List (Str × List (Option ℝ))
  imageData : List (Str × Stack)
  removeIdxes : Option (List Nat) := none
  doublesRemoved : Bool := false

/-- The scan motors: name and data column (P08ScanTools.py l.97-126). Commands that match no pattern
have no scan motors. -/
def scanMotorColumns (cmd : Str) : Res (List (Str × Str)) :=
  let w := splitWs cmd
  let own := fun (i : Int) => do
    let n ← getItem w i
    return (n, n)
  if contains cmd "lscan".toList && !contains cmd "hklscan".toList then
    .ok [("l".toList, "kozhue6cctrl_l".toList)]
  else if contains cmd "kscan".toList then .ok [("k".toList, "kozhue6cctrl_k".toList)]
  else if contains cmd "hscan".toList then .ok [("h".toList, "kozhue6cctrl_h".toList)]
  else if contains cmd "hklscan".toList then
    .ok [("h".toList, "kozhue6cctrl_h".toList), ("k".toList, "kozhue6cctrl_k".toList), ("l".toList, "kozhue6cctrl_l".toList)]
  else if contains cmd "ascan".toList || contains cmd "dscan".toList then do return [← own 1]
  else if contains cmd "a2scan".toList || contains cmd "d2scan".toList then do return [← own 1, ← own 4]
  else if contains cmd "a3scan".toList || contains cmd "d3scan".toList then do return [← own 1, ← own 4, ← own 7]
  else .ok []

/-- `Scan.load_scan` (P08ScanTools.py l.50-165). `file` is the content of the file, `none` if it does not
exist; `images` loads the stacks of the detectors found in the column names. -/
def p08Load (pf : Str → Option (Option ℝ)) (images : List Str → Res (List (Str × Stack))) (file : Option (List Str)) :
    Res P08Scan :=
  match file with
  | none => .error .fileNotFoundError
  | some lines => do
    let st ← fioRead pf none lines
    match st.cmd with
    | none => .error .attributeError
    | some cmd => do
      let cols ← scanMotorColumns cmd
      let motors ← cols.mapM fun (p : Str × Str) => dictGet st.data p.2
      let imgs ← images st.names
      return { cmd := cmd, motorNames := cols.map Prod.fst, motors := motors, positions := st.motors,
               data := st.data, imageData := imgs }

/-! ### `remove_double` -/

/-- `numpy.abs(a - b) == 0` for floats that may be `nan`. -/
def samePos : Option ℝ → Option ℝ → Prop
  | some a, some b => |a - b| = 0
  | _, _ => False

open Classical in
/-- The loop of `remove_double` (P08ScanTools.py l.380-388) from index `idx > 0` on. -/
noncomputable def doubleIdxes : Nat → Option ℝ → List (Option ℝ) → List Nat
  | _, _, [] => []
  | idx, last, p :: ps =>
    if samePos p last then (idx - 1) :: doubleIdxes (idx + 1) p ps else doubleIdxes (idx + 1) p ps

/-- `numpy.delete(l, idxes)` (along the first axis) for non-negative indices. -/
def npDelete {α : Type} (l : List α) (idxes : List Nat) : Res (List α) :=
  if ∀ i ∈ idxes, i < l.length then .ok ((l.zipIdx.filter fun (p : α × Nat) => p.2 ∉ idxes).map Prod.fst)
  else .error .indexError

/-- `numpy.delete(stack, idxes, axis=0)`. -/
def Stack.delete (s : Stack) (idxes : List Nat) : Res Stack :=
  match s with
  | .images l => do return .images (← npDelete l idxes)
  | .lines l => do return .lines (← npDelete l idxes)

/-- `remove_double` (P08ScanTools.py l.371-405). -/
noncomputable def P08Scan.removeDouble (s : P08Scan) : Res P08Scan :=
  if s.doublesRemoved then .ok s else do
    let pos ← getItem s.motors 0
    let idxes := match pos with
      | [] => []
      | p :: ps => doubleIdxes 1 p ps
    let data ← s.data.mapM fun (p : Str × List (Option ℝ)) => do return (p.1, ← npDelete p.2 idxes)
    let motors ← s.motors.mapM fun (m : List (Option ℝ)) => npDelete m idxes
    let imgs ← s.imageData.mapM fun (p : Str × Stack) => do return (p.1, ← p.2.delete idxes)
    return { s with data := data, motors := motors, imageData := imgs, removeIdxes := some idxes, doublesRemoved := true }

/-! ### `extract_rois` -/

/-- `'all'`. -/
def allKey : Str := ['a', 'l', 'l']
/-- `'atten_position'`. -/
def attenKey : Str := "atten_position".toList

/-- The sum of an image over a region `[x0, y0, x1, y1]`, or over the whole image
(P08ScanTools.py l.511-517). -/
noncomputable def roiSum2 (img : List (List ℝ)) : Option (List Int) → Res ℝ
  | none => .ok (img.map List.sum).sum
  | some r => do
    let y0 ← getItem r 1
    let y1 ← getItem r 3
    let x0 ← getItem r 0
    let x1 ← getItem r 2
    return ((slice img (some y0) (some y1)).map fun (row : List ℝ) => (slice row (some x0) (some x1)).sum).sum

/-- The sum of a line image over a region `[x0, x1, ..]` or over the whole line
(P08ScanTools.py l.540-546). -/
noncomputable def roiSum1 (img : List ℝ) : Option (List Int) → Res ℝ
  | none => .ok img.sum
  | some r => do
    let x0 ← getItem r 0
    let x1 ← getItem r 1
    return (slice img (some x0) (some x1)).sum

/-- The keys of `roi_intensity` in the order of the loops: `'all'`, then the regions. -/
def roiKeys (rois : List (Str × List Int)) : List (Str × Option (List Int)) :=
  (allKey, none) :: rois.map fun (p : Str × List Int) => (p.1, some p.2)

/-- The loop over the images of one stack (P08ScanTools.py l.500-517, l.529-546). -/
def roiLoop {α : Type} (sum : α → Option (List Int) → Res ℝ) (rois : List (Str × List Int)) (stack : List α) :
    Res (List (Str × List ℝ)) :=
  stack.foldlM (fun d (img : α) => (roiKeys rois).foldlM (fun d (p : Str × Option (List Int)) => do
      let v ← sum img p.2
      dictAppend d p.1 v) d)
    ((roiKeys rois).foldl (fun d (p : Str × Option (List Int)) => dictSet d p.1 []) [])

/-- `numpy.array(roi_intensity[key]) * numpy.array(atten)` (P08ScanTools.py l.519-520, l.548-549);
`none` is the scalar 1. -/
noncomputable def roiAttenuate (atten : Option (List ℝ)) (l : List ℝ) : Res (List ℝ) :=
  match atten with
  | none => .ok (l.map fun (x : ℝ) => x * 1)
  | some a => ew (fun (x y : ℝ) => x * y) l a

/-- The column of a table as numbers. -/
def numColumn (data : List (Str × List (Option ℝ))) (name : Str) : Res (List ℝ) := do
  let c ← dictGet data name
  finite c

/-- The attenuation used by `extract_rois` (P08ScanTools.py l.483-486); `none` is the scalar 1. -/
def roiAtten (s : P08Scan) : Res (Option (List ℝ)) :=
  if attenKey ∈ s.data.map Prod.fst then do return some (← numColumn s.data attenKey) else .ok none

/-- The sums over the images of one detector (P08ScanTools.py l.494-517, l.523-547). -/
noncomputable def Stack.roiTable (rois : List (Str × List Int)) : Stack → Res (List (Str × List ℝ))
  | .images l => roiLoop roiSum2 rois l
  | .lines l => roiLoop roiSum1 rois l

/-- `extract_rois` (P08ScanTools.py l.478-553): for every detector a dictionary of intensities. -/
noncomputable def extractRois (s : P08Scan) (rois : List (Str × List Int)) : Res (List (Str × List (Str × List ℝ))) := do
  let atten ← roiAtten s
  s.imageData.mapM fun (p : Str × Stack) => do
    let d ← p.2.roiTable rois
    let d ← d.mapM fun (q : Str × List ℝ) => do return (q.1, ← roiAttenuate atten q.2)
    return (p.1, d)

/-! ### The loader -/

/-- The attributes of a `FioLoader` (fio_loader.py l.33-42) and of its parser. -/
structure FioLoader where
  stem : Str
  theta : Str
  twoTheta : Str
  ttCounter : Str
  roiName : Str
  beamWidth : Option ℝ
  sampleLength : Option ℝ
  beamShape : Option Str
  normalizeTo : Option Str
  attenuator : Option Str
  division : Option Str

/-- `FioParser.extract_scan` (fio_parser.py l.65-70) with the existing files. -/
def FioLoader.extractScan (pf : Str → Option (Option ℝ)) (files : Str → Option (List Str))
    (images : Str → List Str → Res (List (Str × Stack))) (s : FioLoader) (n : Int) : Res (P08Scan × Bool) := do
  let name := fioName s.stem n
  let sc ← p08Load pf (images name) (files name)
  let r ← isTheta2Theta s.theta s.twoTheta (some sc.cmd)
  return (sc, r)

/-- `'custom_roi'`. -/
def customRoi : Str := "custom_roi".toList
/-- `'energyfmb'`. -/
def energyKey : Str := "energyfmb".toList

/-- The intensity before attenuation (fio_loader.py l.69-72, l.100-104). -/
noncomputable def FioLoader.rawIntensity (s : FioLoader) (sc : P08Scan) (roi : Option (List Int)) (detector : Str) : Res (List ℝ) :=
  match roi with
  | none => numColumn sc.data s.roiName
  | some r => do
    let d ← extractRois sc [(customRoi, r)]
    let i ← dictGet d detector
    dictGet i customRoi

/-- The attenuation step (fio_loader.py l.74-76). -/
noncomputable def FioLoader.attenuate (s : FioLoader) (sc : P08Scan) (angle i : List ℝ) : Res (List ℝ) :=
  match s.attenuator with
  | none => .ok i
  | some a => do
    let att ← numColumn sc.data a
    let i ← applyAttenuation i att
    correctDiscontinuities i angle

/-- `load_scan` after the scan has been extracted (fio_loader.py l.62-87): `scan[...]` in the division
step is a `TypeError`. -/
noncomputable def FioLoader.load (s : FioLoader) (sc : P08Scan) (n : Int) (front back : Option Int)
    (roi : Option (List Int)) (detector : Str) : Res Scan := do
  let e ← dictGet sc.positions energyKey
  let energy ← finite [e]
  let energy ← getItem energy 0
  if energy = 0 then .error .zeroDivision else do
    let angle ← numColumn sc.data s.ttCounter
    let i ← s.rawIntensity sc roi detector
    let i ← s.attenuate sc angle i
    match s.division with
    | some _ => .error .typeError
    | none =>
      let p := trim angle i front back
      return Scan.mk' n p.1 p.2 (12380 / energy) s.beamWidth s.sampleLength s.beamShape s.normalizeTo none

/-- `load_scan` (fio_loader.py l.44-87). -/
noncomputable def FioLoader.loadScan (pf : Str → Option (Option ℝ)) (files : Str → Option (List Str))
    (images : Str → List Str → Res (List (Str × Stack))) (s : FioLoader) (n : Int) (front back : Option Int)
    (roi : Option (List Int)) (detector : Str) : Res Scan := do
  let (sc, r) ← s.extractScan pf files images n
  if r then s.load sc n front back roi detector else .error .notReflectivityScan

end Verif.Model
