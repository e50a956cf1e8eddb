import Verif.Model.Images
import Verif.Model.Fio
import Mathlib.Analysis.SpecialFunctions.Pow.NNReal

/-!
# Plots of detector regions

Models `ScanPlot.plotRois` of `mlreflect/xrrloader/p08tools/P08ScanTools.py`. The result is the list of panels
that are drawn, with their place on the grid and the curve in them; how matplotlib draws a curve on the
logarithmic axis is not modelled. Values that are not finite are `none`.
-/

namespace Verif.Model
open Verif.Py

/-- `'background'`. -/
def backgroundKey : Str := "background".toList

/-- One panel: its number, the number of rows and columns of the grid, the labels of the axes and the curve. -/
structure Panel where
  number : Nat
  grid : Nat
  key : Str
  xname : Str
  xs : List (Option ℝ)
  ys : List (Option ℝ)

/-- The area of a region (P08ScanTools.py l.1123-1124, l.1143). -/
def roiArea (r : List Int) : Res Int := do
  let x1 ← getItem r 2
  let x0 ← getItem r 0
  let y1 ← getItem r 3
  let y0 ← getItem r 1
  return (x1 - x0) * (y1 - y0)

/-- The background and its area (P08ScanTools.py l.1121-1133); the number 0 is added to an array element by element. -/
def plotBackground (rois : List (Str × List Int)) (tab : List (Str × List ℝ)) : Res (Option (List ℝ) × Int) :=
  if backgroundKey ∈ tab.map Prod.fst then do
    let r ← dictGet rois backgroundKey
    let a ← roiArea r
    let b ← dictGet tab backgroundKey
    return (some b, a)
  else .ok (none, 1)

/-- `int(numpy.sqrt(nr_plots) + 0.5)` (P08ScanTools.py l.1135). -/
noncomputable def gridSize (n : Nat) : Nat := ⌊Real.sqrt n + 0.5⌋₊

/-- `i / area - b / barea` for one point (P08ScanTools.py l.1149). -/
noncomputable def panelValue (area barea : Int) (i b : ℝ) : Option ℝ :=
  if area = 0 ∨ barea = 0 then none else some (i / area - b / barea)

/-- `numpy.array(roi_intensity[key]) / roi_area - background / background_area` (P08ScanTools.py l.1149). -/
noncomputable def panelValues (area barea : Int) (i : List ℝ) : Option (List ℝ) → Res (List (Option ℝ))
  | none => .ok (i.map fun (x : ℝ) => panelValue area barea x 0)
  | some b => ew (panelValue area barea) i b

/-- The area by which the sums under a key are divided (P08ScanTools.py l.1142-1146): for `'all'` the number of
images, as `img_size` is the first entry of the shape (l.1119). -/
def panelArea (rois : List (Str × List Int)) (images : Nat) (key : Str) : Res Int :=
  if key ≠ allKey then do
    let r ← dictGet rois key
    roiArea r
  else .ok images

/-- One panel (P08ScanTools.py l.1138-1153): `plt.subplot` refuses numbers beyond the grid, `plt.semilogy`
curves of different lengths. -/
noncomputable def plotPanel (rois : List (Str × List Int)) (tab : List (Str × List ℝ)) (images grid : Nat)
    (bck : Option (List ℝ) × Int) (xname : Str) (xs : List (Option ℝ)) (key : Str) (cnt : Nat) : Res Panel :=
  if grid * grid < cnt then .error .valueError
  else do
    let area ← panelArea rois images key
    let i ← dictGet tab key
    let ys ← panelValues area bck.2 i bck.1
    if ys.length = xs.length then return { number := cnt, grid := grid, key := key, xname := xname, xs := xs, ys := ys }
    else .error .valueError

/-- The number of images of a stack, `image_data[detector].shape[0]` (P08ScanTools.py l.1119). -/
def Stack.size : Stack → Nat
  | .images l => l.length
  | .lines l => l.length

/-- `plotRois` (P08ScanTools.py l.1095-1155). -/
noncomputable def plotRois (s : P08Scan) (detector : Str) (rois : List (Str × List Int)) (xcol : Option Str) : Res (List Panel) := do
  let xs ← getItem s.motors (xColumn s.motorNames xcol)
  let xname ← getItem s.motorNames (xColumn s.motorNames xcol)
  let r ← extractRois s rois
  let tab ← dictGet r detector
  let st ← dictGet s.imageData detector
  let bck ← plotBackground rois tab
  let keys := ((tab.map Prod.fst).mergeSort strLe).filter fun (k : Str) => k ≠ backgroundKey
  let grid := gridSize keys.length
  (keys.zipIdx 1).mapM fun (p : Str × Nat) => plotPanel rois tab st.size grid bck xname xs p.1 p.2

end Verif.Model
