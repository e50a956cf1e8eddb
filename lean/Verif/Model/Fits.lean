import Verif.Model.Peaks
import Verif.Model.Plots
import Mathlib.Analysis.SpecialFunctions.Log.Base

/-!
# Fits of peaks

Models `simpleFit`, `gaussLorentzianFit`, `multiVoigtFit`, `multiFit`, `diff_func` of `ScanFitter` and
`ScanPlot.plotCurves` in `mlreflect/xrrloader/p08tools/P08ScanTools.py`. The search of `scipy.optimize` is left open: it
is a function from the residuals and the start values to the result. The result of a fit are the
curves that are drawn, by label; values that are not finite are `none`. Positions of the motor that are `nan` are not followed.
-/

namespace Verif.Model
open Verif.Py

/-- The residuals at given parameters. -/
abbrev Residual := List ℝ → Res (List (Option ℝ))

/-- A search of `scipy.optimize`. -/
abbrev Search := Residual → List ℝ → List ℝ

/-- The labelled curves handed to `plotCurves`. -/
abbrev Curves := List (Str × List (Option ℝ))

/-- `numpy.log10`, not finite for numbers that are not positive. -/
noncomputable def olog10 : Option ℝ → Option ℝ
  | some x => if 0 < x then some (Real.logb 10 x) else none
  | none => none

/-- `x + c`. -/
def oshift (c : ℝ) : Option ℝ → Option ℝ
  | some x => some (x + c)
  | none => none

/-- `a - b`. -/
def osub : Option ℝ → Option ℝ → Option ℝ
  | some a, some b => some (a - b)
  | _, _ => none

/-- `numpy.abs`. -/
def oabs : Option ℝ → Option ℝ
  | some a => some |a|
  | none => none

/-- `numpy.heaviside(x, 1)`. -/
noncomputable def heaviside (x : ℝ) : ℝ := if x < 0 then 0 else 1

/-- `'data'`. -/
def dataLabel : Str := "data".toList
/-- `'fit'`. -/
def fitLabel : Str := "fit".toList
/-- `'start'`. -/
def startLabel : Str := "start".toList
/-- `'before_fit'`. -/
def beforeLabel : Str := "before_fit".toList
/-- `'log_fit'`. -/
def logLabel : Str := "log_fit".toList
/-- `'voigt'`. -/
def voigtType : Str := "voigt".toList

/-- The intensity of the region and the positions of the first motor (P08ScanTools.py l.625-630, l.686-691). -/
noncomputable def fitData (s : P08Scan) (detector : Str) (roi : List Int) : Res (List ℝ × List ℝ) := do
  let i ← roiOf s detector fitRoi roi
  let xs ← getItem s.motors 0
  let _ ← getItem s.motorNames 0
  let xs ← finite xs
  return (xs, i)

/-- `optimize.leastsq`: the residuals are computed at the start values, and there must not be more parameters than residuals. -/
def leastsq (search : Search) (resid : Residual) (start : List ℝ) : Res (List ℝ) := do
  let r ← resid start
  if r.length < start.length then .error .typeError else .ok (search resid start)

/-- `plotCurves` (P08ScanTools.py l.1157-1174): every curve needs as many points as the axis. -/
def plotCurves (xs : List ℝ) (curves : Curves) : Res Curves :=
  if ∀ c ∈ curves, c.2.length = xs.length then .ok curves else .error .valueError

/-- `for ...: ydata[name] = result`. -/
def addCurves (curves : Curves) (l : Curves) : Curves := l.foldl (fun (d : Curves) (c : Str × List (Option ℝ)) => dictSet d c.1 c.2) curves

/-! ### `simpleFit` -/

/-- The residuals of `simpleFit` (P08ScanTools.py l.651-653). -/
noncomputable def simpleResidual (xs i : List ℝ) : Residual := fun p => do
  let f ← xs.mapM (multiGaussAt p)
  ew (fun (a : Option ℝ) (y : ℝ) => oabs (osub (olog10 a) (olog10 (some y)))) f i

/-- The curve of one peak over all positions (P08ScanTools.py l.665-679). -/
noncomputable def peakCurve (f : ℝ → Res (Option ℝ)) (xs : List ℝ) (name : Str) : Res (Str × List (Option ℝ)) := do
  let l ← xs.mapM f
  return (name, l)

/-- `simpleFit` (P08ScanTools.py l.622-681). -/
noncomputable def simpleFit (search : Search) (s : P08Scan) (detector : Str) (roi : List Int) (peaks : List (Str × Peak)) : Res Curves := do
  let d ← fitData s detector roi
  let start ← gaussStart peaks
  let p ← leastsq search (simpleResidual d.1 d.2) start.1
  let fit ← d.1.mapM (multiGaussAt p)
  let single ← start.2.zipIdx.mapM fun (n : Str × Nat) => peakCurve (singleGaussAt p n.2) d.1 n.1
  plotCurves d.1 (addCurves [(dataLabel, d.2.map some), (fitLabel, fit)] single)

/-! ### `gaussLorentzianFit` -/

/-- `wichtung` for one position (P08ScanTools.py l.734). -/
noncomputable def fitWeight (p : List ℝ) (x : ℝ) : Res ℝ := do
  let h ← getItem p 2
  let lo ← getItem p 0
  let hi ← getItem p 1
  return h * heaviside (x - lo) * heaviside (-x + hi) + 1

/-- `weight * residual`. -/
def oscale (w : ℝ) : Option ℝ → Option ℝ
  | some a => some (w * a)
  | none => none

/-- The residuals of `gaussLorentzianFit` (P08ScanTools.py l.731-740). -/
noncomputable def gaussLorentzResidual (weights : Option (List ℝ)) (xs i : List ℝ) : Residual := fun p => do
  let w ← xs.mapM (fitWeight (weights.getD [0, 1, 0]))
  let f ← xs.mapM (gaussLorentzAt p)
  let r ← ew (fun (a : Option ℝ) (y : ℝ) => oabs (osub (olog10 (oshift 1 a)) (olog10 (some (y + 1))))) f i
  ew oscale w r

/-- The peaks that are drawn (P08ScanTools.py l.703-727). -/
def gaussLorentzPeaks (peaks : List (Str × Peak)) : List (Str × Peak) :=
  peaks.filter fun (k : Str × Peak) => k.2.type = gaussType ∨ k.2.type = lorentzType

/-- One peak of `gaussLorentzianFit` (P08ScanTools.py l.762-771). -/
noncomputable def gaussLorentzSingle (p : List ℝ) (type : Str) (x : ℝ) : Res (Option ℝ) := do
  let b ← getItem p (-1)
  if type = gaussType then gaussAt (slice p (some 3) (some 6) ++ [b]) x
  else lorentzAt (slice p (some 0) (some 3) ++ [b]) x

/-- `gaussLorentzianFit` (P08ScanTools.py l.683-775). -/
noncomputable def gaussLorentzFit (search : Search) (s : P08Scan) (detector : Str) (roi : List Int) (peaks : List (Str × Peak))
    (weights : Option (List ℝ)) : Res Curves := do
  let d ← fitData s detector roi
  let start ← gaussLorentzStart peaks
  let p ← leastsq search (gaussLorentzResidual weights d.1 d.2) start
  let fit ← d.1.mapM (gaussLorentzAt p)
  let before ← d.1.mapM (gaussLorentzAt start)
  let single ← (gaussLorentzPeaks peaks).mapM fun (k : Str × Peak) => peakCurve (gaussLorentzSingle p k.2.type) d.1 k.1
  plotCurves d.1 (addCurves [(dataLabel, d.2.map some), (fitLabel, fit), (startLabel, before)] single)

/-! ### `multiVoigtFit` -/

/-- The start parameters of `multiVoigtFit` (P08ScanTools.py l.787-815). -/
def voigtStart (peaks : List (Str × Peak)) : Res (List ℝ × List Str) :=
  match peaks.getLast? with
  | none => .error .unboundLocalError
  | some last => do
    let sel := peaks.filter fun (k : Str × Peak) => k.2.type = voigtType
    let b ← getItem last.2.params 5
    return ((sel.map fun (k : Str × Peak) => slice k.2.params (some 0) (some 5)).flatten ++ [b], sel.map Prod.fst)

/-- The residuals of `multiVoigtFit` (P08ScanTools.py l.847-852): 1 is added to the model but 0.1 to the data. -/
noncomputable def voigtResidual (xs i : List ℝ) : Residual := fun p => do
  let f ← xs.mapM (multiVoigtAt p)
  ew (fun (a : Option ℝ) (y : ℝ) => osub (olog10 (oshift 1 a)) (olog10 (some (y + 0.1)))) f i

/-- `optimize.curve_fit` with start values; the search may fail. -/
def curveFit (search : Residual → List ℝ → Option (List ℝ)) (resid : Residual) (start : List ℝ) : Res (List ℝ) := do
  let _ ← resid start
  match search resid start with
  | some p => .ok p
  | none => .error .runtimeError

/-- The curve drawn for the peak number `idx` (P08ScanTools.py l.881-887). -/
noncomputable def singleVoigtAt (p : List ℝ) (idx : Nat) (x : ℝ) : Res (Option ℝ) := do
  let b ← getItem p (-1)
  voigtAt (slice p (some (idx * 5 : Nat)) (some (idx * 5 + 5 : Nat)) ++ [b]) x

/-- The part of `multiVoigtFit` behind the search (P08ScanTools.py l.870-891). -/
noncomputable def voigtCurves (xs i : List ℝ) (start p : List ℝ) (names : List Str) : Res Curves := do
  let before ← xs.mapM (multiVoigtAt start)
  let fit ← xs.mapM (multiVoigtAt p)
  let single ← names.zipIdx.mapM fun (n : Str × Nat) => peakCurve (singleVoigtAt p n.2) xs n.1
  plotCurves xs (addCurves [(dataLabel, i.map some), (beforeLabel, before), (logLabel, fit)] single)

/-- `multiVoigtFit` (P08ScanTools.py l.777-891): every error of the search is printed and nothing is drawn (`none`). -/
noncomputable def multiVoigtFit (search : Residual → List ℝ → Option (List ℝ)) (s : P08Scan) (detector : Str) (roi : List Int)
    (peaks : List (Str × Peak)) : Res (Option Curves) := do
  let d ← fitData s detector roi
  let start ← voigtStart peaks
  match curveFit search (voigtResidual d.1 d.2) start.1 with
  | .error _ => .ok none
  | .ok p => do
    let c ← voigtCurves d.1 d.2 start.1 p start.2
    return some c

/-! ### `multiFit` -/

/-- The argument `x` of `_multi_gauss`: an array or a number. -/
inductive XArg where
  | array (l : List ℝ)
  | number (x : ℝ)

/-- `_multi_gauss` (P08ScanTools.py l.961-979) for any argument: a number has no `len`. -/
noncomputable def multiGauss (x : XArg) (p : List ℝ) : Res (List (Option ℝ)) :=
  match x with
  | .array l => l.mapM (multiGaussAt p)
  | .number _ => .error .typeError

/-- `fitfunc` of `multiFit` (P08ScanTools.py l.930). -/
noncomputable def multiFitFunc (p : List ℝ) (x : XArg) : Res (List (Option ℝ)) := multiGauss x p

/-- `optimize.curve_fit(fitfunc, xcol, ydata)` without start values (P08ScanTools.py l.936): the function has two parameters, the first
one is the axis, so that the other one is the only fit parameter, a number that starts at 1. -/
def curveFitOne (search : (ℝ → Res (List (Option ℝ))) → ℝ) (f : List ℝ → XArg → Res (List (Option ℝ))) (xs : List ℝ) : Res (List ℝ) := do
  let _ ← f xs (.number 1)
  return [search fun (c : ℝ) => f xs (.number c)]

/-- `multiFit` (P08ScanTools.py l.904-959). -/
noncomputable def multiFit (search : (ℝ → Res (List (Option ℝ))) → ℝ) (s : P08Scan) (detector : Str) (roi : List Int)
    (peaks : List (Str × Peak)) : Res Curves := do
  let d ← fitData s detector roi
  let start ← gaussStart peaks
  let p ← curveFitOne search multiFitFunc d.1
  let fit ← d.1.mapM (multiGaussAt p)
  let single ← start.2.zipIdx.mapM fun (n : Str × Nat) => peakCurve (singleGaussAt p n.2) d.1 n.1
  plotCurves d.1 (addCurves [(dataLabel, d.2.map some), (fitLabel, fit)] single)

/-- `diff_func` (P08ScanTools.py l.893-902); not used by the fits. -/
noncomputable def diffFunc (a b : List ℝ) : Res (Option ℝ) := do
  let r ← ew (fun (x y : ℝ) => oabs (osub (olog10 (some x)) (olog10 (some y)))) a b
  return r.foldl oadd (some 0)

end Verif.Model
