import Verif.Py.Basic
import Verif.Model.SldProfile
import Mathlib.Analysis.SpecialFunctions.Log.Base
import Mathlib.Analysis.SpecialFunctions.Trigonometric.Inverse
import Mathlib.Analysis.SpecialFunctions.Pow.Real

/-!
# Model of interpolation.py, transform.py, footprint.py, normalization.py and scans.py

Arrays are lists of reals. Where numpy would produce a NaN or an infinity the model stops with `nanResult`, except in
`qToAngle`, where the entry is `none`. Scalar arguments are Python floats, so dividing by a scalar zero raises
`ZeroDivisionError`.
-/

namespace Verif.Model
open Verif.Py

/-! ### Array helpers -/

/-- Elementwise binary operation on one-dimensional arrays with numpy broadcasting. -/
def ew {α β γ : Type} (f : α → β → γ) (a : List α) (b : List β) : Res (List γ) :=
  if a.length = b.length then .ok (List.zipWith f a b)
  else match a, b with
    | [x], b => .ok (b.map (f x))
    | a, [y] => .ok (a.map fun x => f x y)
    | _, _ => .error .valueError

/-- All entries, or `nanResult` if one is not finite. -/
def finite {α : Type} (l : List (Option α)) : Res (List α) :=
  l.mapM fun (o : Option α) => match o with
    | some a => .ok a
    | none => .error .nanResult

/-- Division of floats in an array: finite unless the divisor is zero. -/
noncomputable def fdiv (a b : ℝ) : Option ℝ := if b = 0 then none else some (a / b)

/-- `np.max`: `ValueError` for an empty array. -/
noncomputable def npMax : List ℝ → Res ℝ
  | [] => .error .valueError
  | a :: l => .ok (l.foldl max a)

/-- `np.argmin`: the first position of the smallest value; `ValueError` for an empty array. -/
noncomputable def npArgmin (l : List ℝ) : Res Nat :=
  match l with
  | [] => .error .valueError
  | a :: l =>
    .ok (l.zipIdx 1 |>.foldl (fun (best : ℝ × Nat) (p : ℝ × Nat) => if p.1 < best.1 then p else best) (a, 0)).2

/-! ### interpolation.py -/

/-- One value of `np.interp(x, xp, fp)`: `j` is the number of sample points that are not larger than `x`. numpy finds
it by bisection, so the model agrees with numpy for increasing `xp`, which numpy asks for. -/
noncomputable def npInterp1 (xp fp : List ℝ) (x : ℝ) : ℝ :=
  let j := (xp.takeWhile (fun (p : ℝ) => decide (p ≤ x))).length
  if j = 0 then fp.getD 0 0
  else if j = xp.length then fp.getD (j - 1) 0
  else if xp.getD (j - 1) 0 = x then fp.getD (j - 1) 0
  else (fp.getD j 0 - fp.getD (j - 1) 0) / (xp.getD j 0 - xp.getD (j - 1) 0) * (x - xp.getD (j - 1) 0) +
    fp.getD (j - 1) 0

/-- `np.interp`: `ValueError` for different lengths or no sample points. -/
noncomputable def npInterp (x xp fp : List ℝ) : Res (List ℝ) :=
  if fp.length ≠ xp.length ∨ xp = [] then .error .valueError
  else .ok (x.map (npInterp1 xp fp))

/-- interpolation.py l.4-6 `interp_reflectivity`. Values that are not positive, whose logarithm is not finite, are not
followed (`nanResult`). -/
noncomputable def interpReflectivity (qInterp q reflectivity : List ℝ) : Res (List ℝ) := do
  let l ← finite (reflectivity.map fun (r : ℝ) => if 0 < r then some (Real.logb 10 r) else none)
  let y ← npInterp qInterp q l
  return y.map fun (v : ℝ) => (10 : ℝ) ^ v

/-! ### transform.py -/

/-- transform.py l.5-7 `angle_to_q`, also scans.py l.48-50 and training/footprint.py l.83-85. -/
noncomputable def angleToQ (angle : List ℝ) (wavelength : ℝ) : Res (List ℝ) :=
  if wavelength = 0 then .error .zeroDivision
  else .ok (angle.map fun (a : ℝ) => 4 * Real.pi / wavelength * Real.sin (a / 2 * Real.pi / 180))

/-- `np.arcsin`: NaN outside of `[-1, 1]`. -/
noncomputable def npArcsin (x : ℝ) : Option ℝ := if -1 ≤ x ∧ x ≤ 1 then some (Real.arcsin x) else none

/-- transform.py l.10-12 `q_to_angle`, also training/footprint.py l.87-89. -/
noncomputable def qToAngle (q : List ℝ) (wavelength : ℝ) : List (Option ℝ) :=
  q.map fun (q : ℝ) => (npArcsin (q * wavelength / (4 * Real.pi))).map fun (a : ℝ) => 2 * a / Real.pi * 180

/-- transform.py l.15-17 `energy_to_wavelength`. -/
noncomputable def energyToWavelength (energy : ℝ) : Res ℝ :=
  if energy = 0 then .error .zeroDivision else .ok (1.2398 / energy * 1e4)

/-- transform.py l.20-22 `wavelength_to_energy`. -/
noncomputable def wavelengthToEnergy (wavelength : ℝ) : Res ℝ :=
  if wavelength = 0 then .error .zeroDivision else .ok (1.2398 / wavelength * 1e4)

/-! ### footprint.py -/

/-- footprint.py l.39-40 `beam_footprint_ratio` (the length is not zero). -/
noncomputable def beamFootprintRatio (angle bw sl : ℝ) : Option ℝ :=
  fdiv (bw / sl) (Real.sin (angle / 2 * Real.pi / 180))

/-- footprint.py l.27-31 `box_factors`. -/
noncomputable def boxFactors (angle : List ℝ) (bw sl : ℝ) : Res (List ℝ) :=
  if sl = 0 then .error .zeroDivision
  else
    let maxAngle := (npArcsin (bw / sl)).map fun (a : ℝ) => 2 * a / Real.pi * 180
    finite (angle.map fun (a : ℝ) =>
      match maxAngle with
      | none => some 1
      | some m => if a < m then beamFootprintRatio a bw sl else some 1)

/-- `1 / erf(√log 2 / ratio)`: for the ratio zero the argument of `erf` is infinite. -/
noncomputable def gaussFactor (ratio : ℝ) (positive : Prop) [Decidable positive] : ℝ :=
  if ratio = 0 then (if positive then 1 else -1)
  else 1 / erf (Real.sqrt (Real.log 2) / ratio)

open Classical in
/-- footprint.py l.34-36 `gaussian_factors`. The sign of a zero ratio is the one of length times sine. -/
noncomputable def gaussianFactors (angle : List ℝ) (bw sl : ℝ) : Res (List ℝ) :=
  if sl = 0 then .error .zeroDivision
  else finite (angle.map fun (a : ℝ) => (beamFootprintRatio a bw sl).map fun (r : ℝ) =>
    gaussFactor r (0 < sl * Real.sin (a / 2 * Real.pi / 180)))

def gaussS : Str := "gauss".toList
def boxS : Str := "box".toList
def maxS : Str := "max".toList
def firstS : Str := "first".toList

/-- footprint.py l.18-24 `_get_factors_by_beam_shape`. -/
noncomputable def getFactors (angle : List ℝ) (bw sl : ℝ) (shape : Str) : Res (List ℝ) :=
  if shape = gaussS then gaussianFactors angle bw sl
  else if shape = boxS then boxFactors angle bw sl
  else .error .valueError

/-- footprint.py l.6-9 `apply_footprint_correction`. -/
noncomputable def applyFootprint (intensity angle : List ℝ) (bw sl : ℝ) (shape : Str) : Res (List ℝ) := do
  let f ← getFactors angle bw sl shape
  ew (fun (i f : ℝ) => i * f) intensity f

/-- footprint.py l.12-15 `remove_footprint_correction`. -/
noncomputable def removeFootprint (intensity angle : List ℝ) (bw sl : ℝ) (shape : Str) : Res (List ℝ) := do
  let f ← getFactors angle bw sl shape
  let r ← ew fdiv intensity f
  finite r

/-! ### normalization.py -/

/-- normalization.py l.5-6 `normalize_to_max`. -/
noncomputable def normalizeToMax (intensity : List ℝ) : Res (List ℝ) := do
  let m ← npMax intensity
  finite (intensity.map fun (i : ℝ) => fdiv i m)

/-- normalization.py l.9-10 `normalize_to_first`. -/
noncomputable def normalizeToFirst (intensity : List ℝ) : Res (List ℝ) := do
  let m ← getItem intensity 0
  finite (intensity.map fun (i : ℝ) => fdiv i m)

/-! ### scans.py -/

/-- scans.py l.27-43: the attributes of a `ReflectivityScan`; `none` is Python's `None`. -/
structure Scan where
  number : Int
  timestamp : Option Str
  angle : List ℝ
  raw : List ℝ
  wavelength : ℝ
  beamWidth : Option ℝ
  sampleLength : Option ℝ
  beamShape : Option Str
  normalizeTo : Option Str

/-- scans.py l.120-124 `_replace_zeros`. -/
noncomputable def replaceZeros (l : List ℝ) : List ℝ := l.map fun (a : ℝ) => if a = 0 then 1e-6 else a

/-- scans.py l.27-43 `__init__`. -/
noncomputable def Scan.mk' (number : Int) (angle intensity : List ℝ) (wavelength : ℝ) (bw sl : Option ℝ)
    (shape normalize timestamp : Option Str) : Scan :=
  ⟨number, timestamp, replaceZeros angle, intensity, wavelength, bw, sl, shape, normalize⟩

namespace Scan

/-- scans.py l.48-50 `q`. -/
noncomputable def q (s : Scan) : Res (List ℝ) := angleToQ s.angle s.wavelength

/-- scans.py l.97-101 `_correct_footprint`. -/
noncomputable def correctFootprint (s : Scan) : Res (List ℝ) :=
  match s.beamWidth, s.sampleLength, s.beamShape with
  | some bw, some sl, some shape => applyFootprint s.raw s.angle bw sl shape
  | _, _, _ => .error .valueError

/-- scans.py l.103-111 `_normalize`. -/
noncomputable def normalize (s : Scan) (intensity : List ℝ) : Res (List ℝ) :=
  match s.normalizeTo with
  | none => .ok intensity
  | some n =>
    if n = maxS then normalizeToMax intensity
    else if n = firstS then normalizeToFirst intensity
    else .error .valueError

/-- scans.py l.52-59 `corrected_intensity`: `try … except ValueError`. -/
noncomputable def correctedIntensity (s : Scan) : Res (List ℝ) :=
  match s.correctFootprint with
  | .ok i => s.normalize i
  | .error .valueError => s.normalize s.raw
  | .error e => .error e

/-- scans.py l.113-118 `_get_closest_index`. -/
noncomputable def closestIndex (value : Option ℝ) (array : List ℝ) : Res (Option Int) :=
  match value with
  | none => .ok none
  | some v => do
    let i ← npArgmin (array.map fun (a : ℝ) => |a - v|)
    return some (i : Int)

/-- scans.py l.61-65 `get_raw_intensity_range`. -/
noncomputable def rawRange (s : Scan) (qMin qMax : Option ℝ) : Res (List ℝ) := do
  let i ← closestIndex qMin (← s.q)
  let j ← closestIndex qMax (← s.q)
  return slice s.raw i j

/-- scans.py l.67-71 `get_corrected_intensity_range`. -/
noncomputable def correctedRange (s : Scan) (qMin qMax : Option ℝ) : Res (List ℝ) := do
  let i ← closestIndex qMin (← s.q)
  let j ← closestIndex qMax (← s.q)
  let c ← s.correctedIntensity
  return slice c i j

/-- scans.py l.73-77 `get_q_range`. -/
noncomputable def qRange (s : Scan) (qMin qMax : Option ℝ) : Res (List ℝ) := do
  let i ← closestIndex qMin (← s.q)
  let j ← closestIndex qMax (← s.q)
  let q ← s.q
  return slice q i j

/-- scans.py l.79-81 `get_interpolated_intensity`. -/
noncomputable def interpolated (s : Scan) (newQ : List ℝ) : Res (List ℝ) := do
  interpReflectivity newQ (← s.q) (← s.correctedIntensity)

end Scan

end Verif.Model
