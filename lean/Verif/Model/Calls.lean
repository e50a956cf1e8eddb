import Verif.Model.Fitters

/-!
# Model of the decorator `reload_scans` with Python's binding of arguments

Models `get_default_kwargs` and `reload_scans` (curve_fitter/base_fitter.py l.9-35) and the signatures of the decorated methods of `SpecFitter` and `FioFitter`; and the
call of `Trainer._prepare_callbacks` (training/training.py l.80-81 and l.126-133).
The bodies of the methods are arguments here; they are modelled in `Verif.Model.Fitters`.
-/

namespace Verif.Model
open Verif.Py

/-- Values of arguments. -/
inductive ArgVal where
  | none
  | bool (b : Bool)
  | int (i : Int)
  | float (x : ℝ)
  | tuple (l : List ℝ)

/-- `bool(value)`. -/
noncomputable def ArgVal.truthy : ArgVal → Bool
  | .none => false
  | .bool b => b
  | .int i => decide (i ≠ 0)
  | .float x => decide (x ≠ 0)
  | .tuple l => !l.isEmpty

/-- The parameters of a method after `self`, with their defaults. -/
abbrev Sig := List (Str × Option ArgVal)

/-- Keyword arguments. -/
abbrev Kwargs := List (Str × ArgVal)

def Kwargs.get (kw : Kwargs) (k : Str) : Option ArgVal := (kw.find? fun p => p.1 == k).map (·.2)

def selfName : Str := "self".toList

def reloadName : Str := "reload".toList

/-- base_fitter.py l.9-15 `get_default_kwargs`. -/
def getDefaultKwargs (sig : Sig) : Kwargs := sig.filterMap fun p => p.2.map fun v => (p.1, v)

/-- base_fitter.py l.23-30: the decision whether the scans are reloaded. -/
def reloadArg (sig : Sig) (kw : Kwargs) : ArgVal :=
  match kw.get reloadName with
  | some v => v
  | none => ((getDefaultKwargs sig).get reloadName).getD (.bool false)

/-- Python's binding of arguments to the parameters of a function without `*args` and `**kwargs`: the value of every parameter in the order of the signature, or
a `TypeError`. -/
def bindCall (sig : Sig) (args : List ArgVal) (kw : Kwargs) : Res (List ArgVal) :=
  if sig.length < args.length then .error .typeError
  else if kw.any fun p => !(sig.map (·.1)).contains p.1 then .error .typeError
  else if (sig.take args.length).any fun p => (kw.get p.1).isSome then .error .typeError
  else sig.zipIdx.mapM fun (p : (Str × Option ArgVal) × ℕ) =>
    match args[p.2]?, kw.get p.1.1, p.1.2 with
    | some v, _, _ => .ok v
    | none, some v, _ => .ok v
    | none, none, some v => .ok v
    | none, none, none => .error .typeError

/-- base_fitter.py l.18-35 `reload_scans`: the call `method(self, *args, **kwargs)` of a decorated method. A keyword `self` collides with the first parameter of
the wrapper. -/
noncomputable def reloadWrapper {S α : Type} (reload : S → S × Res Unit) (sig : Sig) (body : S → List ArgVal → Res α) (args : List ArgVal) (kw : Kwargs)
    (st : S) : S × Res α :=
  if (kw.get selfName).isSome then (st, .error .typeError)
  else if (reloadArg sig kw).truthy then
    match reload st with
    | (st', .error e) => (st', .error e)
    | (st', .ok _) => (st', do body st' (← bindCall sig args kw))
  else (st, do body st (← bindCall sig args kw))

/-- The default of `fraction_bounds`. -/
noncomputable def defaultBounds : ArgVal := .tuple [0.5, 0.5, 0.1]

/-- spec_fitter.py l.26-29: the parameters of `SpecFitter.fit`. -/
noncomputable def specFitSig : Sig :=
  [("scan_number".toList, none), ("trim_front".toList, some .none), ("trim_back".toList, some .none), ("theta_offset".toList, some (.float 0)),
    ("dq".toList, some (.float 0)), ("factor".toList, some (.float 1)), ("plot".toList, some (.bool false)), ("polish".toList, some (.bool true)),
    ("fraction_bounds".toList, some defaultBounds), ("optimize_q".toList, some (.bool true)), ("n_q_samples".toList, some (.int 1000)),
    ("optimize_scaling".toList, some (.bool false)), ("n_scale_samples".toList, some (.int 300)), (reloadName, some (.bool true))]

/-- spec_fitter.py l.103-105: the parameters of `SpecFitter.fit_range`. -/
noncomputable def specFitRangeSig : Sig :=
  [("scan_range".toList, none), ("trim_front".toList, some .none), ("trim_back".toList, some .none), ("theta_offset".toList, some (.float 0)),
    ("dq".toList, some (.float 0)), ("factor".toList, some (.float 1)), ("plot".toList, some (.bool false)), ("polish".toList, some (.bool true)),
    ("fraction_bounds".toList, some defaultBounds), ("optimize_q".toList, some (.bool true)), ("n_q_samples".toList, some (.int 1000)),
    (reloadName, some (.bool true))]

/-- fio_fitter.py l.16-18: the parameters of `FioFitter.fit`. -/
noncomputable def fioFitSig : Sig :=
  [("scan_number".toList, none), ("trim_front".toList, some .none), ("trim_back".toList, some .none), ("roi".toList, some .none),
    ("theta_offset".toList, some (.float 0)), ("dq".toList, some (.float 0)), ("factor".toList, some (.float 1)), ("plot".toList, some (.bool false)),
    ("polish".toList, some (.bool true)), ("fraction_bounds".toList, some defaultBounds), ("optimize_q".toList, some (.bool true)),
    ("n_q_samples".toList, some (.int 1000)), (reloadName, some (.bool true))]

/-- fio_fitter.py l.90-92: the parameters of `FioFitter.fit_range`. -/
noncomputable def fioFitRangeSig : Sig := ("scan_range".toList, none) :: fioFitSig.tail

/-- spec_fitter.py l.148 and fio_fitter.py l.114: the parameters of `show_scans`. -/
def showScansSig : Sig := [("min_scan".toList, some .none), ("max_scan".toList, some .none), (reloadName, some (.bool true))]

/-- training.py l.126-127: the parameters of the static method `_prepare_callbacks(self, verbose=1)`; `self` is an ordinary parameter. -/
def prepareCallbacksSig : Sig := [(selfName, none), ("verbose".toList, some (.int 1))]

/-- training.py l.80-81: the call `self._prepare_callbacks(verbose)`. The method is static, so that no instance is passed. The result is the verbosity of the
callback that reduces the learning rate (l.128). -/
def callbackVerbosity (verbose : ArgVal) : Res ArgVal := do
  let b ← bindCall prepareCallbacksSig [verbose] []
  match b with
  | [_, v] => .ok v
  | _ => .error .typeError

end Verif.Model
