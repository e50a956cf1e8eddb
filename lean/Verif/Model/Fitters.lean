import Verif.Model.Results
import Verif.Model.Loaders
import Verif.Model.P08

/-!
# Model of curve_fitter/base_fitter.py, spec_fitter.py and fio_fitter.py

The files are a list of paths with the lines of each file; the detector images of a scan are given by an arbitrary function, as
in `Verif.Model.P08`. `reload` is given by keyword or not at all (a positional value is ignored by `reload_scans`). Methods return the changed fitter also if they raise. Plots and messages are not modelled (`plot=False`).
A trained model is a `FitEnv`; `foreign` is an object without the attributes of a `TrainedModel`.
-/

namespace Verif.Model
open Verif.Py

/-! ### The outside world -/

/-- The files at one point in time. -/
structure World where
  files : List (Str × List Str)
  images : Str → List Str → Res (List (Str × Stack))

/-- The lines of a file, `none` if it does not exist. -/
def World.read (w : World) (name : Str) : Option (List Str) := (w.files.find? fun (p : Str × List Str) => p.1 = name).map Prod.snd

/-- What may be given as `trained_model`. -/
inductive ModelArg where
  | trained (env : FitEnv)
  | foreign

/-! ### Parameters and loaders -/

/-- spec_fitter.py l.174-190 `set_import_params`. -/
structure SpecImport where
  angleColumns : List Str
  intensityColumn : Str
  attenuatorColumn : Option Str
  divisionColumn : Option Str

/-- spec_fitter.py l.192-217 `set_footprint_params`. -/
structure SpecFootprint where
  wavelength : ℝ
  beamWidth : Option ℝ
  sampleLength : Option ℝ
  beamShape : Option Str
  normalizeTo : Option Str

/-- fio_fitter.py l.139-157 `set_import_params`. -/
structure FioImport where
  ttCounter : Str
  roiName : Str
  attenuator : Option Str
  division : Option Str

/-- fio_fitter.py l.159-182 `set_footprint_params`. -/
structure FioFootprint where
  beamWidth : Option ℝ
  sampleLength : Option ℝ
  beamShape : Option Str
  normalizeTo : Option Str

/-- `SpecLoader(file, **import_params, **footprint_params)` (spec_loader.py l.30-42, reflectivity_loader.py l.11-21): missing
parameters and a missing file name are a `TypeError`. -/
def newSpecLoader (limit : Nat) (w : World) (file : Option Str) (imp : Option SpecImport) (fp : Option SpecFootprint) :
    Res SpecLoader :=
  match imp, fp, file with
  | some i, some f, some name =>
    match w.read name with
    | none => .error .fileNotFoundError
    | some lines => do
      let parser ← SpecParser.init limit lines
      return ⟨parser, i.angleColumns, i.intensityColumn, f.wavelength, f.beamWidth, f.sampleLength, f.beamShape, f.normalizeTo,
        i.attenuatorColumn, i.divisionColumn⟩
  | _, _, _ => .error .typeError

/-- `'om'`, `'tt'` (fio_parser.py l.20). -/
def omS : Str := ['o', 'm']
def ttS : Str := ['t', 't']
/-- The defaults of `FioLoader` (fio_loader.py l.33-35). -/
def defaultFioImport : FioImport := ⟨ttS, "p100k_roi1".toList, some attenKey, none⟩

/-- `read_fio(file)[3]['scan_cmd']` (fio_parser.py l.32-33). -/
def World.command (pf : Str → Option (Option ℝ)) (w : World) (name : Str) : Res (Option Str) :=
  match w.read name with
  | none => .error .fileNotFoundError
  | some lines => do
    let st ← fioRead pf none lines
    return st.cmd

/-- `FioParser.scan_info` (fio_parser.py l.27-39) for the present files. -/
def World.scanInfo (pf : Str → Option (Option ℝ)) (w : World) (stem : Str) : Res (List (Int × FioInfo)) :=
  fioScanInfo stem omS ttS (w.files.map Prod.fst) (w.command pf)

/-- `FioLoader(stem, **import_params, **footprint_params)` (fio_loader.py l.33-42, fio_parser.py l.20-25): the constructor of the
parser reads the headers of all scans to print their number. -/
def newFioLoader (pf : Str → Option (Option ℝ)) (w : World) (stem : Option Str) (imp : Option FioImport) (fp : Option FioFootprint) :
    Res FioLoader :=
  match fp, stem with
  | some f, some s => do
    let _ ← w.scanInfo pf s
    let i := imp.getD defaultFioImport
    return ⟨s, omS, ttS, i.ttCounter, i.roiName, f.beamWidth, f.sampleLength, f.beamShape, f.normalizeTo, i.attenuator, i.division⟩
  | _, _ => .error .typeError

/-! ### The fitter object -/

/-- base_fitter.py l.41-48: the attributes of a fitter. `specLoader` is the attribute `_spec_loader` of a `SpecFitter`, which
does not exist before `set_file`. -/
structure Fitter (I P L : Type) where
  model : Option ModelArg := none
  curve : Option FitEnv := none
  importParams : Option I := none
  footprint : Option P := none
  loader : Option L := none
  specLoader : Option L := none
  fileName : Option Str := none

namespace Fitter
variable {I P L : Type}

/-- base_fitter.py l.81-93 `set_trained_model`; `load` is `TrainedModel().from_file`. The attributes of a foreign object are
looked up after `_trained_model` has been set (curve_fitter.py l.21-30). -/
def setTrainedModel (load : Str → Res FitEnv) (f : Fitter I P L) (model : Option ModelArg) (path : Option Str) :
    Fitter I P L × Res Unit :=
  match model, path with
  | none, none => (f, .error .valueError)
  | some _, some _ => (f, .error .valueError)
  | none, some p =>
    match load p with
    | .error e => (f, .error e)
    | .ok env => ({ f with model := some (.trained env), curve := some env }, .ok ())
  | some (.trained env), none => ({ f with model := some (.trained env), curve := some env }, .ok ())
  | some .foreign, none => ({ f with model := some .foreign }, .error .attributeError)

/-- `set_import_params`: all entries are replaced. -/
def setImport (f : Fitter I P L) (i : I) : Fitter I P L := { f with importParams := some i }

/-- `set_footprint_params`: all entries are replaced. -/
def setFootprint (f : Fitter I P L) (p : P) : Fitter I P L := { f with footprint := some p }

end Fitter

/-- The arguments of `fit`, and the random numbers drawn for the curve. -/
structure FitArgs where
  front : Option Int := none
  back : Option Int := none
  roi : Option (List Int) := none
  thetaOffset : ℝ := 0
  dq : ℝ := 0
  factor : ℝ := 1
  polish : Bool := true
  fractions : List ℝ := [0.5, 0.5, 0.1]
  optimizeQ : Bool := true
  optimizeScaling : Bool := false

/-- The random numbers drawn in one call of `fit_curve`. -/
structure Draws where
  shifts : Nat → List ℝ
  scalings : Nat → List ℝ

/-- The keyword arguments of `fit_curve` in spec_fitter.py l.74-77, fio_fitter.py l.65-67. -/
def FitArgs.options (a : FitArgs) : FitEnv.Options :=
  ⟨a.dq, a.factor, a.polish, a.fractions, a.optimizeQ, a.optimizeScaling, true⟩

/-- `fit_output['predicted_reflectivity'][0]`. -/
def firstCurve (r : Option (List (List (Option ℝ)))) : Res (List (Option ℝ)) :=
  match r with
  | none => .error .typeError
  | some l => getItem l 0

/-- `fit_output['best_q_shift'][0]`; `checked` if `None` is treated before (spec_fitter.py l.81-84), which fio_fitter.py l.71 does
not. -/
def firstShift (checked : Bool) (r : Option (List ℝ)) : Res (Option ℝ) :=
  match r with
  | none => if checked then .ok none else .error .typeError
  | some l => do return some (← getItem l 0)

/-- The attributes of `self._trained_model` in the construction of the result (spec_fitter.py l.86-94, results.py l.17-30): setting
the index of parameters with another number of rows than one is a `ValueError`. -/
def makeResult (model : Option ModelArg) (n : Int) (timestamp : Option Str) (c q : List ℝ) (refl : List (Option ℝ)) (dq : ℝ)
    (params : Table) (shift : Option ℝ) : Res FitResult :=
  match model with
  | some (.trained m) =>
    if params.rows = 1 then .ok ⟨n, timestamp, c, q, refl, m.trainedQ.map fun (x : ℝ) => x - dq, params, shift, m.sample⟩
    else .error .valueError
  | _ => .error .attributeError

/-- spec_fitter.py l.73-94, l.112-134, fio_fitter.py l.64-81: fit of a loaded scan with the curve fitter `curve` and the attribute
`_trained_model`. -/
noncomputable def fitScan (checked : Bool) (model : Option ModelArg) (curve : Option FitEnv) (scan : Scan) (a : FitArgs) (d : Draws) :
    Res FitResult :=
  match curve with
  | none => .error .attributeError
  | some env => do
    let s : Scan := { scan with angle := scan.angle.map fun (x : ℝ) => x + a.thetaOffset }
    let c ← s.correctedIntensity
    let q ← s.q
    let out ← env.fitCurve [c] q a.options d.shifts d.scalings
    let refl ← firstCurve out.refl
    let shift ← firstShift checked out.bestShift
    makeResult model scan.number scan.timestamp c q refl a.dq out.params shift

/-! ### SpecFitter -/

abbrev SpecFitter := Fitter SpecImport SpecFootprint SpecLoader

namespace SpecFitter

/-- spec_fitter.py l.169-172 `set_file`. -/
def setFile (limit : Nat) (w : World) (f : SpecFitter) (name : Str) : SpecFitter × Res Unit :=
  match newSpecLoader limit w (some name) f.importParams f.footprint with
  | .error e => (f, .error e)
  | .ok l => ({ f with specLoader := some l, fileName := some name }, .ok ())

/-- spec_fitter.py l.219-220 `_reload_loader`. -/
def reloadLoader (limit : Nat) (w : World) (f : SpecFitter) : SpecFitter × Res Unit :=
  match newSpecLoader limit w f.fileName f.importParams f.footprint with
  | .error e => (f, .error e)
  | .ok l => ({ f with loader := some l }, .ok ())

/-- spec_fitter.py l.68-72: `self._spec_file` in the handler of `KeyError` does not exist. -/
noncomputable def getScan (pf : Str → Option ℝ) (f : SpecFitter) (n : Int) (a : FitArgs) : Res Scan :=
  match f.specLoader with
  | none => .error .attributeError
  | some l =>
    match l.loadScan pf n a.front a.back with
    | .error .keyError => .error .attributeError
    | r => r

/-- spec_fitter.py l.68-100: the body of `fit`. -/
noncomputable def fitBody (pf : Str → Option ℝ) (f : SpecFitter) (n : Int) (a : FitArgs) (d : Draws) : Res FitResult := do
  let scan ← getScan pf f n a
  fitScan true f.model f.curve scan a d

/-- spec_fitter.py l.108-139: the body of `fit_range`; the scaling is not optimized. `d k` are the random numbers for the `k`-th
loaded scan. -/
noncomputable def fitRangeBody (pf : Str → Option ℝ) (f : SpecFitter) (ns : List Int) (a : FitArgs) (d : Nat → Draws) : Res Series :=
  match f.specLoader with
  | none => .error .attributeError
  | some l => do
    let scans ← loadScans (fun (n : Int) => l.loadScan pf n a.front a.back) ns
    let results ← scans.zipIdx.mapM fun (p : Scan × Nat) =>
      fitScan true f.model f.curve p.1 { a with optimizeScaling := false } (d p.2)
    Series.init results

/-- base_fitter.py l.18-35 `reload_scans` around a method. -/
def withReload {α : Type} (limit : Nat) (w : World) (f : SpecFitter) (reload : Bool) (body : SpecFitter → Res α) : SpecFitter × Res α :=
  if reload then
    match reloadLoader limit w f with
    | (f', .error e) => (f', .error e)
    | (f', .ok _) => (f', body f')
  else (f, body f)

/-- spec_fitter.py l.26-100 `fit`. -/
noncomputable def fit (limit : Nat) (pf : Str → Option ℝ) (w : World) (f : SpecFitter) (n : Int) (a : FitArgs) (d : Draws) (reload : Bool) :
    SpecFitter × Res FitResult :=
  withReload limit w f reload fun f' => fitBody pf f' n a d

/-- spec_fitter.py l.103-145 `fit_range`. -/
noncomputable def fitRange (limit : Nat) (pf : Str → Option ℝ) (w : World) (f : SpecFitter) (ns : List Int) (a : FitArgs) (d : Nat → Draws)
    (reload : Bool) : SpecFitter × Res Series :=
  withReload limit w f reload fun f' => fitRangeBody pf f' ns a d

end SpecFitter

/-! ### FioFitter -/

abbrev FioFitter := Fitter FioImport FioFootprint FioLoader

namespace FioFitter

/-- fio_fitter.py l.135-137 `set_file`. -/
def setFile (pf : Str → Option (Option ℝ)) (w : World) (f : FioFitter) (name : Str) : FioFitter × Res Unit :=
  match newFioLoader pf w (some name) f.importParams f.footprint with
  | .error e => (f, .error e)
  | .ok l => ({ f with loader := some l, fileName := some name }, .ok ())

/-- fio_fitter.py l.184-185 `_reload_loader`. -/
def reloadLoader (pf : Str → Option (Option ℝ)) (w : World) (f : FioFitter) : FioFitter × Res Unit :=
  match newFioLoader pf w f.fileName f.importParams f.footprint with
  | .error e => (f, .error e)
  | .ok l => ({ f with loader := some l }, .ok ())

/-- `'p100k'`, the default of `detector_name` (fio_loader.py l.45). -/
def p100k : Str := "p100k".toList

/-- fio_fitter.py l.54-63: scans that cannot be found or are no reflectivity scans are reported and give `None`. -/
noncomputable def getScan (pf : Str → Option (Option ℝ)) (w : World) (f : FioFitter) (n : Int) (a : FitArgs) : Res (Option Scan) :=
  match f.loader with
  | none => .error .attributeError
  | some l =>
    match l.loadScan pf w.read w.images n a.front a.back a.roi p100k with
    | .ok s => .ok (some s)
    | .error .notReflectivityScan => .ok none
    | .error .keyError => .ok none
    | .error .fileNotFoundError => .ok none
    | .error e => .error e

/-- fio_fitter.py l.59-81: the fit, or `None` without a scan; the scaling is not optimized. -/
noncomputable def fitLoaded (f : FioFitter) (scan : Option Scan) (a : FitArgs) (d : Draws) : Res (Option FitResult) :=
  match scan with
  | none => .ok none
  | some s =>
    match fitScan false f.model f.curve s { a with optimizeScaling := false } d with
    | .ok r => .ok (some r)
    | .error e => .error e

/-- fio_fitter.py l.54-87: the body of `fit`. -/
noncomputable def fitBody (pf : Str → Option (Option ℝ)) (w : World) (f : FioFitter) (n : Int) (a : FitArgs) (d : Draws) :
    Res (Option FitResult) := do
  let scan ← getScan pf w f n a
  fitLoaded f scan a d

/-- fio_fitter.py l.95-103: the body of `fit_range`; `d k` are the random numbers for the `k`-th number. -/
noncomputable def fitRangeBody (pf : Str → Option (Option ℝ)) (w : World) (f : FioFitter) (ns : List Int) (a : FitArgs) (d : Nat → Draws) :
    Res Series := do
  let results ← ns.zipIdx.mapM fun (p : Int × Nat) => fitBody pf w f p.1 a (d p.2)
  Series.init (results.filterMap id)

/-- base_fitter.py l.18-35 `reload_scans` around a method. -/
def withReload {α : Type} (pf : Str → Option (Option ℝ)) (w : World) (f : FioFitter) (reload : Bool) (body : FioFitter → Res α) :
    FioFitter × Res α :=
  if reload then
    match reloadLoader pf w f with
    | (f', .error e) => (f', .error e)
    | (f', .ok _) => (f', body f')
  else (f, body f)

/-- fio_fitter.py l.16-87 `fit`. -/
noncomputable def fit (pf : Str → Option (Option ℝ)) (w : World) (f : FioFitter) (n : Int) (a : FitArgs) (d : Draws) (reload : Bool) :
    FioFitter × Res (Option FitResult) :=
  withReload pf w f reload fun f' => fitBody pf w f' n a d

/-- fio_fitter.py l.90-111 `fit_range`. -/
noncomputable def fitRange (pf : Str → Option (Option ℝ)) (w : World) (f : FioFitter) (ns : List Int) (a : FitArgs) (d : Nat → Draws)
    (reload : Bool) : FioFitter × Res Series :=
  withReload pf w f reload fun f' => fitRangeBody pf w f' ns a d

end FioFitter

/-! ### show_scans -/

/-- One entry of the output of `show_scans`: a scan with its information, or the message that there is none. -/
inductive ScanLine (α : Type) where
  | found (n : Int) (info : α)
  | notFound (n : Int)

/-- The number in an entry. -/
def ScanLine.number {α : Type} : ScanLine α → Int
  | .found n _ => n
  | .notFound n => n

/-- `range(lo, hi)`. -/
def intRange (lo hi : Int) : List Int := (List.range (hi - lo).toNat).map fun (k : Nat) => lo + (k : Int)

/-- spec_fitter.py l.152-160, fio_fitter.py l.118-126: the numbers from the lower to the upper limit, both limited to the numbers of
the dictionary; `np.max` of an empty array is a `ValueError`. -/
def showNumbers (keys : List Int) (lo hi : Option Int) : Res (List Int) :=
  match keys.max?, keys.min? with
  | some mx, some mn =>
    .ok (intRange (match lo with | none => mn | some a => max a mn) ((match hi with | none => mx | some b => min b mx) + 1))
  | _, _ => .error .valueError

/-- spec_fitter.py l.161-167: the entry of a number; a missing key in the dictionary of the scan is also reported as a missing
scan. -/
def SpecParser.line (p : SpecParser) (n : Int) : ScanLine (Str × Str) :=
  match p.index.get n with
  | .error _ => .notFound n
  | .ok e =>
    match e.command, e.time with
    | some c, some t => .found n (c, t)
    | _, _ => .notFound n

/-- spec_fitter.py l.150-167: the body of `show_scans`. -/
def SpecFitter.showBody (f : SpecFitter) (lo hi : Option Int) : Res (List (ScanLine (Str × Str))) :=
  match f.specLoader with
  | none => .error .attributeError
  | some l => do
    let ns ← showNumbers (l.parser.index.map Prod.fst) lo hi
    return ns.map l.parser.line

/-- fio_fitter.py l.127-133: the entry of a number. -/
def fioLine (info : List (Int × FioInfo)) (n : Int) : ScanLine FioInfo :=
  match dictGet info n with
  | .error _ => .notFound n
  | .ok e => .found n e

/-- fio_fitter.py l.117-133: the body of `show_scans`; `scan_info` reads the present files. -/
def FioFitter.showBody (pf : Str → Option (Option ℝ)) (w : World) (f : FioFitter) (lo hi : Option Int) : Res (List (ScanLine FioInfo)) :=
  match f.loader with
  | none => .error .attributeError
  | some l => do
    let info ← w.scanInfo pf l.stem
    let ns ← showNumbers (info.map Prod.fst) lo hi
    return ns.map (fioLine info)

/-! ### Executions -/

/-- What happens to a fitter: changes of the files, and calls. -/
inductive FitterEvent (I P : Type) where
  | world (w : World)
  | setImport (i : I)
  | setFootprint (p : P)
  | setFile (name : Str)
  | setModel (model : Option ModelArg) (path : Option Str)
  | fit (n : Int) (a : FitArgs) (d : Draws) (reload : Bool)
  | fitRange (ns : List Int) (a : FitArgs) (d : Nat → Draws) (reload : Bool)

/-- One event for a `SpecFitter`; `load` reads model files. Exceptions are caught by the caller. -/
noncomputable def SpecFitter.step (limit : Nat) (pf : Str → Option ℝ) (load : Str → Res FitEnv) (s : World × SpecFitter) :
    FitterEvent SpecImport SpecFootprint → World × SpecFitter
  | .world w => (w, s.2)
  | .setImport i => (s.1, s.2.setImport i)
  | .setFootprint p => (s.1, s.2.setFootprint p)
  | .setFile name => (s.1, (SpecFitter.setFile limit s.1 s.2 name).1)
  | .setModel m p => (s.1, (s.2.setTrainedModel load m p).1)
  | .fit n a d r => (s.1, (SpecFitter.fit limit pf s.1 s.2 n a d r).1)
  | .fitRange ns a d r => (s.1, (SpecFitter.fitRange limit pf s.1 s.2 ns a d r).1)

/-- One event for a `FioFitter`. -/
noncomputable def FioFitter.step (pf : Str → Option (Option ℝ)) (load : Str → Res FitEnv) (s : World × FioFitter) :
    FitterEvent FioImport FioFootprint → World × FioFitter
  | .world w => (w, s.2)
  | .setImport i => (s.1, s.2.setImport i)
  | .setFootprint p => (s.1, s.2.setFootprint p)
  | .setFile name => (s.1, (FioFitter.setFile pf s.1 s.2 name).1)
  | .setModel m p => (s.1, (s.2.setTrainedModel load m p).1)
  | .fit n a d r => (s.1, (FioFitter.fit pf s.1 s.2 n a d r).1)
  | .fitRange ns a d r => (s.1, (FioFitter.fitRange pf s.1 s.2 ns a d r).1)

end Verif.Model
