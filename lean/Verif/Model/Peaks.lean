import Verif.Model.P08
import Mathlib.Analysis.SpecialFunctions.Exp
import Mathlib.Analysis.SpecialFunctions.Trigonometric.Basic

/-!
# Peak functions of the scan fitter

Models the functions of `ScanFitter` in `mlreflect/xrrloader/p08tools/P08ScanTools.py` that describe peaks
(l.961-1086) and the start parameters of the fits (l.634-642, l.690-728). Values that are not finite are `none`.
The fits themselves are in Model/Fits.lean.
-/

namespace Verif.Model
open Verif.Py

/-- A sum of floats, `none` if one of them is not finite. -/
def oadd : Option ℝ → Option ℝ → Option ℝ
  | some a, some b => some (a + b)
  | _, _ => none

/-- `_gauss` for one x value (P08ScanTools.py l.1026-1048); for `sigma = 0` the result is not finite. -/
noncomputable def gaussAt (p : List ℝ) (x : ℝ) : Res (Option ℝ) := do
  let i ← getItem p 2
  let s ← getItem p 0
  let m ← getItem p 1
  let b ← getItem p 3
  return if s = 0 then none else some (i / Real.sqrt (2 * Real.pi * s ^ 2) * Real.exp (-0.5 * ((x - m) / s) ^ 2) + b)

/-- `_lorentzian` for one x value (P08ScanTools.py l.1050-1068). -/
noncomputable def lorentzAt (p : List ℝ) (x : ℝ) : Res (Option ℝ) := do
  let i ← getItem p 2
  let w ← getItem p 0
  let g ← getItem p 1
  let b ← getItem p 3
  let d := (x ^ 2 - w ^ 2) ^ 2 + g ^ 2 * w ^ 2
  return if d = 0 then none else some (i * 1 / d + b)

/-- `_pseudo_voigt` for one x value (P08ScanTools.py l.1070-1086). -/
noncomputable def voigtAt (p : List ℝ) (x : ℝ) : Res (Option ℝ) := do
  let p2 ← getItem p 2
  let p0 ← getItem p 0
  let p1 ← getItem p 1
  let p4 ← getItem p 4
  let p3 ← getItem p 3
  let g ← gaussAt [p2, p0, p1, 0] x
  let l ← lorentzAt [p0, p4, p3, 0] x
  let b ← getItem p 5
  return oadd (oadd g l) (some b)

/-- The loop over the peaks of `_multi_gauss` and `_multi_voigt` (P08ScanTools.py l.967-974, l.990-997). -/
noncomputable def addPeaks (f : List ℝ → ℝ → Res (Option ℝ)) (width : Nat) (p : List ℝ) (x : ℝ) (idxs : List Nat) : Res (Option ℝ) :=
  idxs.foldlM (fun (acc : Option ℝ) (idx : Nat) => do
    let v ← f (slice p (some (idx * width : Nat)) (some (idx * width + width : Nat)) ++ [0]) x
    return oadd acc v) (some 0)

/-- `_multi_gauss` for one x value (P08ScanTools.py l.961-978). -/
noncomputable def multiGaussAt (p : List ℝ) (x : ℝ) : Res (Option ℝ) := do
  let r ← addPeaks gaussAt 3 p x (List.range (p.length / 3))
  let b ← getItem p (-1)
  return oadd r (some b)

/-- `_multi_voigt` for one x value (P08ScanTools.py l.980-1003). -/
noncomputable def multiVoigtAt (p : List ℝ) (x : ℝ) : Res (Option ℝ) := do
  let r ← addPeaks voigtAt 5 p x (List.range (p.length / 5))
  let b ← getItem p (-1)
  return oadd r (some b)

/-- `_gauss_lorentzian` for one x value (P08ScanTools.py l.1005-1024); its `Exception` is written as `runtimeError`. -/
noncomputable def gaussLorentzAt (p : List ℝ) (x : ℝ) : Res (Option ℝ) :=
  if p.length ≠ 7 then .error .runtimeError
  else do
    let l ← lorentzAt (slice p (some 0) (some 3) ++ [0]) x
    let g ← gaussAt (slice p (some 3) (some 6) ++ [0]) x
    let b ← getItem p (-1)
    return oadd (oadd (oadd (some 0) l) g) (some b)

/-! ### Start parameters and single peaks of `simpleFit` -/

/-- `'gauss'`. -/
def gaussType : Str := "gauss".toList
/-- `'lorentzian'`. -/
def lorentzType : Str := "lorentzian".toList

/-- An entry of the dictionary `peaks`. -/
structure Peak where
  type : Str
  params : List ℝ

/-- The start parameters of `simpleFit` and `multiFit` and the names of the peaks (P08ScanTools.py l.630-642): the
background is taken from the last entry, whatever its type (`UnboundLocalError` without entries). -/
def gaussStart (peaks : List (Str × Peak)) : Res (List ℝ × List Str) :=
  match peaks.getLast? with
  | none => .error .unboundLocalError
  | some last => do
    let sel := peaks.filter fun (k : Str × Peak) => k.2.type = gaussType
    let b ← getItem last.2.params 3
    return ((sel.map fun (k : Str × Peak) => slice k.2.params (some 0) (some 3)).flatten ++ [b], sel.map Prod.fst)

/-- The curve drawn for the peak number `idx` (P08ScanTools.py l.667-678). -/
noncomputable def singleGaussAt (p : List ℝ) (idx : Nat) (x : ℝ) : Res (Option ℝ) := do
  let b ← getItem p (-1)
  gaussAt (slice p (some (idx * 3 : Nat)) (some (idx * 3 + 3 : Nat)) ++ [b]) x

/-- One entry in the loop of `gaussLorentzianFit` (P08ScanTools.py l.703-728): the flag of the Lorentzian is never set. -/
def gaussLorentzStep (s : List ℝ × Bool) (k : Str × Peak) : Res (List ℝ × Bool) :=
  if k.2.type = gaussType then
    if s.2 then .error .runtimeError
    else .ok (s.1.take 3 ++ slice k.2.params (some 0) (some 3) ++ s.1.drop 6, true)
  else if k.2.type = lorentzType then do
    let b ← getItem k.2.params 3
    let l := slice k.2.params (some 0) (some 3) ++ s.1.drop 3
    let l ← setItem l 6 b
    return (l, s.2)
  else .ok s

/-- The start parameters of `gaussLorentzianFit` (P08ScanTools.py l.690-728). -/
def gaussLorentzStart (peaks : List (Str × Peak)) : Res (List ℝ) :=
  if peaks.length ≠ 2 then .error .runtimeError
  else do
    let r ← peaks.foldlM gaussLorentzStep ([0, 0, 0, 0, 0, 0, 0], false)
    return r.1

end Verif.Model
