import Verif.Model.P08

/-!
# Detector images of a scan

Models the image part of `mlreflect/xrrloader/p08tools/P08ScanTools.py`: the detectors found in the
column names, the loading of image stacks, `calc_q`, `export2ascii` and `combine_scan_image_regions`.

Simplifications: image files are given by their pixel values, real numbers (`dtype` and the decoding by
`fabio` and `h5py` are not modelled); images of another shape than the first one are a `ValueError`
(numpy would also accept shapes that can be broadcast). The content of the `.nxs` and `_master.h5`
file of the scan is given directly, without its path. The search for another master file
(l.227-236) is not modelled. Deleting an index that is out of bounds is an `IndexError`
(numpy 1.19 and later; numpy 1.18 ignores such indices with a warning).
-/

namespace Verif.Model
open Verif.Py

/-- The pixel values of an image. -/
abbrev Img := List (List ℝ)

/-- The image files of a scan: the stacks of the `.nxs` and of the `_master.h5` file, the pilatus
images by path and the second columns of the mythen files by path. -/
structure ImageDisk where
  lambdaFile : Option (List Img)
  eigerFile : Option (List Img)
  pilatus : List (Str × Img)
  mythen : List (Str × List ℝ)

/-- `'lambda'`. -/
def lambdaKey : Str := "lambda".toList
/-- `'p100k'`. -/
def p100kKey : Str := "p100k".toList
/-- `'eiger'`. -/
def eigerKey : Str := "eiger".toList
/-- `'mythen'`. -/
def mythenKey : Str := "mythen".toList
/-- `'_index'`. -/
def indexSuffix : Str := "_index".toList

/-- The detector flags (P08ScanTools.py l.37-42). -/
structure DetFlags where
  lambda : Bool := false
  p100k : Bool := false
  p300k : Bool := false
  eiger : Bool := false
  mythen : Bool := false
  pe : Bool := false
  deriving DecidableEq

/-- One column name (P08ScanTools.py l.132-144). -/
def flagStep (f : DetFlags) (col : Str) : DetFlags :=
  if contains col lambdaKey then { f with lambda := true }
  else if contains col p100kKey then { f with p100k := true }
  else if contains col "p300k".toList then { f with p300k := true }
  else if contains col eigerKey then { f with eiger := true }
  else if contains col "mythint".toList || contains col "mythmax".toList || contains col "mythroi1".toList
      || contains col "mythroi2".toList then { f with mythen := true }
  else if contains col "pe_roi".toList || contains col "pe_trigger".toList then { f with pe := true }
  else f

/-- The loop over the column names (P08ScanTools.py l.131-144). -/
def detFlags (columns : List Str) : DetFlags := columns.foldl flagStep {}

/-- The list `detectors` (P08ScanTools.py l.128-129, l.146-157). -/
def detectorList (f : DetFlags) : List Str :=
  (if f.lambda then [lambdaKey] else []) ++ (if f.p100k then [p100kKey] else []) ++
    (if f.p300k then ["p300k".toList] else []) ++ (if f.eiger then [eigerKey] else []) ++
    (if f.mythen then [mythenKey] else []) ++ (if f.pe then ["pe".toList] else [])

/-- `self.scan_name` (P08ScanTools.py l.77-78): what follows the last `/`, up to its last dot. -/
def scanName (file : Str) : Str :=
  let base := (file.reverse.takeWhile (· ≠ '/')).reverse
  if '.' ∈ base then ((base.reverse.dropWhile (· ≠ '.')).drop 1).reverse else base

/-- `self.scan_dir` (P08ScanTools.py l.79): what precedes the last `/`, or the whole name. -/
def scanDir (file : Str) : Str :=
  if '/' ∈ file then ((file.reverse.dropWhile (· ≠ '/')).drop 1).reverse else file

/-- `int(x)` of a number, as done by `'%05d' % x`. -/
noncomputable def truncReal (x : ℝ) : Int := if 0 ≤ x then ⌊x⌋ else ⌈x⌉

/-- `idx in index` for an integer and a column of floats. -/
def indexHas (index : List (Option ℝ)) (k : Nat) : Prop := some (k : ℝ) ∈ index

open Classical in
/-- The stack of a lambda or eiger detector: all images, or those whose number is in the index column
(P08ScanTools.py l.242-258, l.278-294). -/
noncomputable def selectImages (stack : List Img) : Option (List (Option ℝ)) → Res (List Img)
  | none => .ok stack
  | some index => npDelete stack ((List.range stack.length).filter fun (k : Nat) => ¬ indexHas index k)

/-- A column of the scan data that may be missing (P08ScanTools.py l.243-246, l.279-282, l.314-318). -/
def optColumn (data : List (Str × List (Option ℝ))) (name : Str) : Option (List (Option ℝ)) :=
  match dictGet data name with
  | .ok c => some c
  | .error _ => none

/-- `_load_eiger` and `_load_lambda` (P08ScanTools.py l.198-258, l.260-294): a missing file is an `OSError`. -/
noncomputable def loadNexus (file : Option (List Img)) (data : List (Str × List (Option ℝ))) (detector : Str) : Res (List Img) :=
  match file with
  | none => .error .osError
  | some stack => selectImages stack (optColumn data (detector ++ indexSuffix))

/-- Does the path match `prefix*ext` (the star matches no path separator)? -/
def imageMatch (pre ext file : Str) : Bool :=
  startsWith file pre && startsWith (file.drop pre.length).reverse ext.reverse &&
    ((file.drop pre.length).all fun c => c != '/')

/-- `'.tif'`. -/
def tifExt : Str := ".tif".toList
/-- `'.cbf'`. -/
def cbfExt : Str := ".cbf".toList
/-- `'.raw'`. -/
def rawExt : Str := ".raw".toList

/-- `"%s/%s/%s/" % (scan_dir, scan_name, detector)` (P08ScanTools.py l.304, l.345). -/
def detectorDir (dir name detector : Str) : Str := dir ++ ['/'] ++ name ++ ['/'] ++ detector ++ ['/']

/-- The sorted list of image files (P08ScanTools.py l.306-308). -/
def pilatusList (files : List Str) (pre : Str) : List Str :=
  ((files.filter (imageMatch pre tifExt)) ++ (files.filter (imageMatch pre cbfExt))).mergeSort strLe

/-- `fabio.open(path).data`. -/
def openImage (disk : List (Str × Img)) (path : Str) : Res Img :=
  match dictGet disk path with
  | .ok i => .ok i
  | .error _ => .error .osError

/-- The shape of an image. -/
def imgShape (i : Img) : List Nat := i.map List.length

/-- `numpy.zeros` with the shape of an image. -/
def zeroImage (i : Img) : Img := i.map fun (row : List ℝ) => row.map fun _ => (0 : ℝ)

/-- `pilatus_data[cnt, :, :] = image`. -/
def storeImage (first i : Img) (acc : List Img) : Res (List Img) :=
  if imgShape i = imgShape first then .ok (acc ++ [i]) else .error .valueError

/-- `"%s%s_%05d" % (pilatus_dir, scan_name, idx)` (P08ScanTools.py l.327); `ValueError` for `nan`. -/
noncomputable def pilatusName (pre : Str) : Option ℝ → Res Str
  | none => .error .valueError
  | some x => .ok (pre ++ ['_'] ++ pad5 (truncReal x))

/-- One index (P08ScanTools.py l.326-333): a `.cbf` file is looked up as `.tif`. -/
noncomputable def pilatusStep (disk : List (Str × Img)) (list : List Str) (pre : Str) (first : Img) (acc : List Img) (idx : Option ℝ) :
    Res (List Img) := do
  let f ← pilatusName pre idx
  if f ++ tifExt ∈ list then do
    let i ← openImage disk (f ++ tifExt)
    storeImage first i acc
  else if f ++ cbfExt ∈ list then do
    let i ← openImage disk (f ++ tifExt)
    storeImage first i acc
  else .ok acc

/-- `_load_pilatus` (P08ScanTools.py l.296-338). -/
noncomputable def loadPilatus (disk : List (Str × Img)) (dir name : Str) (data : List (Str × List (Option ℝ))) (detector : Str) :
    Res (List Img) := do
  let pre := detectorDir dir name detector ++ name
  let list := pilatusList (disk.map Prod.fst) pre
  let f ← getItem list 0
  let first ← openImage disk f
  match optColumn data (detector ++ indexSuffix) with
  | none => return List.replicate list.length (zeroImage first)
  | some index => do
    let l ← index.foldlM (pilatusStep disk list pre first) []
    return l ++ List.replicate (index.length - l.length) (zeroImage first)

/-- `_load_1D` (P08ScanTools.py l.364-369): the second column of a file; a file with fewer than two lines is read as
an array with one dimension, which has no second column. -/
def load1D (disk : List (Str × List ℝ)) (file : Str) : Res (List ℝ) := do
  let l ← dictGet disk file
  if l.length ≤ 1 then .error .indexError else .ok l

/-- `image[cnt, :] = _load_1D(filename)` (P08ScanTools.py l.359). -/
def storeLine (first : List ℝ) (l : List ℝ) : Res (List ℝ) :=
  if l.length = first.length then .ok l else .error .valueError

/-- `_load_mythen` (P08ScanTools.py l.340-362). -/
def loadMythen (disk : List (Str × List ℝ)) (dir name : Str) : Res (List (List ℝ)) := do
  let pre := detectorDir dir name mythenKey ++ name
  let list := ((disk.map Prod.fst).filter (imageMatch pre rawExt)).mergeSort strLe
  let f ← getItem list 0
  let first ← load1D disk f
  list.mapM fun (p : Str) => do
    let l ← load1D disk p
    storeLine first l

/-- `_remove_double_fromstack` (P08ScanTools.py l.186-196). -/
def P08Scan.thin (s : P08Scan) (l : List Img) : Res (List Img) :=
  match s.removeIdxes with
  | none => .ok l
  | some idxes => npDelete l idxes

/-- A lambda or eiger stack (P08ScanTools.py l.174-175, l.180-181). -/
noncomputable def P08Scan.addNexus (s : P08Scan) (detector : Str) (file : Option (List Img)) : Res P08Scan := do
  let l ← loadNexus file s.data detector
  let l ← s.thin l
  return { s with imageData := dictSet s.imageData detector (.images l) }

/-- The pilatus stack (P08ScanTools.py l.177-178). -/
noncomputable def P08Scan.addPilatus (s : P08Scan) (disk : List (Str × Img)) (dir name : Str) : Res P08Scan := do
  let l ← loadPilatus disk dir name s.data p100kKey
  let l ← s.thin l
  return { s with imageData := dictSet s.imageData p100kKey (.images l) }

/-- The mythen stack (P08ScanTools.py l.183-184): doubled points are not removed. -/
def P08Scan.addMythen (s : P08Scan) (disk : List (Str × List ℝ)) (dir name : Str) : Res P08Scan := do
  let l ← loadMythen disk dir name
  return { s with imageData := dictSet s.imageData mythenKey (.lines l) }

/-- `if flag: ...`. -/
def whenFlag {α : Type} (b : Bool) (f : α → Res α) (s : α) : Res α := if b then f s else .ok s

/-- `load_image_stack` (P08ScanTools.py l.167-184). -/
noncomputable def P08Scan.loadImages (s : P08Scan) (disk : ImageDisk) (dir name : Str) (f : DetFlags) : Res P08Scan := do
  let s ← whenFlag f.lambda (fun s => s.addNexus lambdaKey disk.lambdaFile) s
  let s ← whenFlag f.p100k (fun s => s.addPilatus disk.pilatus dir name) s
  let s ← whenFlag f.eiger (fun s => s.addNexus eigerKey disk.eigerFile) s
  whenFlag f.mythen (fun s => s.addMythen disk.mythen dir name) s

/-! ### `calc_q` -/

/-- `'tt'`. -/
def ttKey : Str := ['t', 't']
/-- `'om'`. -/
def omKey : Str := ['o', 'm']
/-- `'q'`. -/
def qKey : Str := ['q']

/-- The index found by the loop of l.418-420: the first `'tt'`. -/
def ttIndex (names : List Str) : Nat := names.findIdx (· = ttKey)

/-- `2 * k * numpy.sin(pos / 2 * numpy.pi / 180)` for one position. -/
noncomputable def qOfAngle (wavelength : ℝ) : Option ℝ → Option ℝ
  | none => none
  | some x => some (2 * (2 * Real.pi / wavelength) * Real.sin (x / 2 * Real.pi / 180))

/-- `calc_q` (P08ScanTools.py l.407-429); a zero energy is a `ZeroDivisionError` (l.411), a `nan` energy
is not followed. -/
noncomputable def P08Scan.calcQ (s : P08Scan) : Res P08Scan := do
  let e ← dictGet s.positions energyKey
  match e with
  | none => .error .nanResult
  | some e =>
    if e = 0 then .error .zeroDivision
    else if ttKey ∈ s.motorNames ∧ omKey ∈ s.motorNames then do
      let pos ← getItem s.motors (ttIndex s.motorNames)
      return { s with motorNames := s.motorNames ++ [qKey], motors := s.motors ++ [pos.map (qOfAngle (12380 / e))] }
    else .ok s

/-! ### `export2ascii` -/

/-- `'fit_roi'`. -/
def fitRoi : Str := "fit_roi".toList
/-- `'bck_int'`. -/
def bckInt : Str := "bck_int".toList

/-- The column used for x (P08ScanTools.py l.452-458): the first motor if the name is not found. -/
def xColumn (names : List Str) : Option Str → Nat
  | none => 0
  | some n => if n ∈ names then names.findIdx (· = n) else 0

/-- The sums over one region of one detector (P08ScanTools.py l.460-461, l.464-465). -/
noncomputable def roiOf (s : P08Scan) (detector key : Str) (roi : List Int) : Res (List ℝ) := do
  let r ← extractRois s [(key, roi)]
  let d ← dictGet r detector
  dictGet d key

/-- `roi_intensity - bck_int` (P08ScanTools.py l.463-467). -/
noncomputable def subtractBackground (s : P08Scan) (detector : Str) (i : List ℝ) : Option (List Int) → Res (List ℝ)
  | none => .ok i
  | some b => do
    let bi ← roiOf s detector bckInt b
    ew (fun (x y : ℝ) => x - y) i bi

/-- `export2ascii` (P08ScanTools.py l.450-476): the pairs that are written, before formatting. -/
noncomputable def exportRows (s : P08Scan) (detector : Str) (roi : List Int) (xcol : Option Str) (bck : Option (List Int)) :
    Res (List (Option ℝ × ℝ)) := do
  let i ← roiOf s detector fitRoi roi
  let i ← subtractBackground s detector i bck
  let x ← getItem s.motors (xColumn s.motorNames xcol)
  let _ ← getItem s.motorNames (xColumn s.motorNames xcol)
  return x.zip i

/-! ### `combine_scan_image_regions` -/

/-- `l[lo:hi] = new` for an array, whose length cannot change. -/
def sliceAssign {α : Type} (l : List α) (lo hi : Int) (new : List α) : Res (List α) :=
  if new.length = (slice l (some lo) (some hi)).length then
    .ok (l.take (sliceBound l.length lo) ++ new ++ l.drop (max (sliceBound l.length lo) (sliceBound l.length hi)))
  else .error .valueError

/-- `master[y0:y1, x0:x1] = img[y0:y1, x0:x1]`. -/
def pasteRegion (r : List Int) (master img : Img) : Res Img := do
  let y0 ← getItem r 1
  let y1 ← getItem r 3
  let x0 ← getItem r 0
  let x1 ← getItem r 2
  let dst := slice master (some y0) (some y1)
  let src := slice img (some y0) (some y1)
  let rows ← (if dst.length = src.length then .ok (dst.zip src) else .error .valueError : Res (List (List ℝ × List ℝ)))
  let rows ← rows.mapM fun (p : List ℝ × List ℝ) => sliceAssign p.1 x0 x1 (slice p.2 (some x0) (some x1))
  sliceAssign master y0 y1 rows

/-- `master_img[:, …] = atten_image` (P08ScanTools.py l.584-586). -/
def pasteStack (r : List Int) (master imgs : List Img) : Res (List Img) := do
  let ps ← (if master.length = imgs.length then .ok (master.zip imgs) else .error .valueError : Res (List (Img × Img)))
  ps.mapM fun (p : Img × Img) => pasteRegion r p.1 p.2

/-- `atten[idx2] * detector_images[idx2]`. -/
def scaleImage (a : ℝ) (i : Img) : Img := i.map fun (row : List ℝ) => row.map fun (x : ℝ) => a * x

/-- The loop of l.579-580; without an attenuator column `atten` is the number 1, which has no entries. -/
def attenImages : Option (List ℝ) → List Img → Res (List Img)
  | none, [] => .ok []
  | none, _ :: _ => .error .typeError
  | some a, imgs => if imgs.length ≤ a.length then .ok (List.zipWith scaleImage a imgs) else .error .indexError

/-- The three-dimensional stack of a detector; two-dimensional ones cannot be indexed as in l.584. -/
def imagesOf (s : P08Scan) (detector : Str) : Res (List Img) := do
  let st ← dictGet s.imageData detector
  match st with
  | .images l => .ok l
  | .lines _ => .error .indexError

/-- The body of the loop over the scans (P08ScanTools.py l.570-586): the new master images and the scan,
whose images are overwritten. -/
def combineStep (detector : Str) (master : List Img) (s : P08Scan) (roi : List Int) : Res (List Img × P08Scan) := do
  let atten ← roiAtten s
  let imgs ← imagesOf s detector
  let imgs ← attenImages atten imgs
  let m ← pasteStack roi master imgs
  return (m, { s with imageData := dictSet s.imageData detector (.images imgs) })

/-- The loop over the scans (P08ScanTools.py l.570-586): `IndexError` if there are fewer regions than scans. -/
def combineLoop (detector : Str) : List Img → List P08Scan → List (List Int) → Res (List Img × List P08Scan)
  | master, [], _ => .ok (master, [])
  | _, _ :: _, [] => .error .indexError
  | master, s :: ss, r :: rs => do
    let p ← combineStep detector master s r
    let q ← combineLoop detector p.1 ss rs
    return (q.1, p.2 :: q.2)

/-- `combine_scan_image_regions` (P08ScanTools.py l.556-600) for distinct scan objects; `detectors` is the
list of detectors of the first scan. The second component are the scans after the call. -/
noncomputable def combineRegions (detectors : List Str) (scans : List P08Scan) (rois : List (List Int)) :
    Res (P08Scan × List P08Scan) := do
  let scans ← scans.mapM P08Scan.removeDouble
  let first ← getItem scans 0
  match detectors with
  | [] => .error .runtimeError
  | det :: _ => do
    let imgs ← imagesOf first det
    let r ← combineLoop det (imgs.map zeroImage) scans rois
    return ({ cmd := [], motorNames := first.motorNames, motors := first.motors, positions := [], data := [],
              imageData := [(det, .images r.1)], removeIdxes := none, doublesRemoved := true }, r.2)

end Verif.Model
