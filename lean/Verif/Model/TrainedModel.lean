import Verif.Model.Multilayer
import Verif.Model.H5

/-!
# models/trained_model.py

The network and the arrays are opaque (`Net`, `V`). Files are HDF5 files written by
`keras.models.save_model`, i.e. names ending in `.h5` or `.hdf5` (for other names keras chooses
another format).

Simplified: keras writes the network in two primitives (truncate the file, write the network), JSON
keeps every finite float exactly, real numbers in a sample are Python numbers or `np.float64` (a
`np.int64` would not be serialisable).
-/

namespace Verif.Model
open Verif.Py

section
variable {K : Type}

/-- `json.loads(json.dumps(v))` for a value in a layer dictionary: `TypeError` for a complex number;
numpy floats come back as Python floats. -/
def DVal.json : DVal K → Res (DVal K)
  | .num (.real x) => .ok (.num (.real x))
  | .num (.cplx _ _ _) => .error .typeError
  | .dict _ a b => .ok (.dict false a b)

/-- Tuples become lists; `Parameter` objects do not occur in dictionaries made by `to_dict` and are
not serialisable. -/
def Arg.json : Arg K → Res (Arg K)
  | .param _ => .error .typeError
  | .iter l => do return .iter (← l.mapM DVal.json)
  | .scalar v => do return .scalar (← v.json)

/-- A key that may be missing. -/
def jsonOpt : Option (Arg K) → Res (Option (Arg K))
  | none => .ok none
  | some a => do return some (← a.json)

def LayerDict.json (d : LayerDict K) : Res (LayerDict K) := do
  let t ← jsonOpt d.thickness
  let r ← jsonOpt d.roughness
  let s ← jsonOpt d.sld
  return ⟨d.name, t, r, s⟩

/-- `json.loads(json.dumps(sample_dict))`. -/
def SampleDict.json (d : SampleDict K) : Res (SampleDict K) := do
  let a ← d.ambient.json
  let ls ← d.layers.mapM LayerDict.json
  let b ← d.substrate.json
  return ⟨a, ls, b⟩

end

/-- A member of the group `prediction_params`. -/
inductive PMember (K V : Type) where
  | json (d : SampleDict K)
  | arr (v : V)

/-- A model file: the network (`none` while it is incomplete) and the group `prediction_params`. -/
structure ModelFile (K Net V : Type) where
  network : Option Net
  params : Option (Str → Option (PMember K V))

/-- trained_model.py l.26-31, l.44-48: the attributes, `none` is `None`. -/
structure TModel (K Net V : Type) where
  net : Option Net
  sample : Option (SampleV K)
  q : Option V
  mean : Option V
  std : Option V

def nSample : Str := "sample".toList
def nMean : Str := "ip_mean".toList
def nStd : Str := "ip_std".toList

section
variable {K : Type} [LinearOrder K] [Zero K] {Net V : Type}

/-- trained_model.py l.73: `json.dumps(self._sample.to_dict())`. -/
def TModel.sampleJson (m : TModel K Net V) : Res (SampleDict K) :=
  match m.sample with
  | none => .error .attributeError
  | some s => do (← s.toDict).json

/-- keras opens the file for writing; a model `None` raises before. -/
def kerasTruncate (m : TModel K Net V) (_ : ModelFile K Net V) : Res (ModelFile K Net V) :=
  match m.net with
  | none => .error .attributeError
  | some _ => .ok ⟨none, none⟩

def kerasWrite (m : TModel K Net V) (f : ModelFile K Net V) : Res (ModelFile K Net V) :=
  match m.net with
  | none => .error .attributeError
  | some n => .ok { f with network := some n }

/-- l.75 `model_file.create_group('prediction_params')`: `ValueError` if it exists. -/
def createParams (f : ModelFile K Net V) : Res (ModelFile K Net V) :=
  match f.params with
  | some _ => .error .valueError
  | none => .ok { f with params := some fun _ => none }

/-- `prediction_params.create_dataset(name, data=…)`: `ValueError` if the name exists. -/
def putParam (name : Str) (v : PMember K V) (f : ModelFile K Net V) : Res (ModelFile K Net V) :=
  match f.params with
  | none => .error .valueError
  | some p =>
    match p name with
    | some _ => .error .valueError
    | none => .ok { f with params := some (Function.update p name (some v)) }

/-- `create_dataset(name, data=array)`; `data=None` raises `TypeError`. -/
def putArray (name : Str) (v : Option V) (f : ModelFile K Net V) : Res (ModelFile K Net V) :=
  match v with
  | none => .error .typeError
  | some v => putParam name (.arr v) f

/-- trained_model.py l.72-79 `save_model` as the sequence of its primitives. -/
def TModel.saveSteps (m : TModel K Net V) : List (ModelFile K Net V → Res (ModelFile K Net V)) :=
  [kerasTruncate m, kerasWrite m,
   fun f => do let _ ← m.sampleJson; return f,
   createParams,
   fun f => do putParam nSample (.json (← m.sampleJson)) f,
   putArray nQ m.q, putArray nMean m.mean, putArray nStd m.std]

/-- The file before the call; `none` network and parameters stand for a file that does not exist
(it cannot be loaded either). -/
def fileAt (d : Str → Option (ModelFile K Net V)) (file : Str) : ModelFile K Net V :=
  (d file).getD ⟨none, none⟩

/-- `save_model`. -/
def TModel.save (m : TModel K Net V) (d : Str → Option (ModelFile K Net V)) (file : Str) :
    (Str → Option (ModelFile K Net V)) × Option PyErr :=
  let r := runSteps m.saveSteps (fileAt d file)
  (Function.update d file (some r.1), r.2)

/-- `save_model`, interrupted after `k` primitives. -/
def TModel.saveInterrupted (m : TModel K Net V) (k : Nat) (d : Str → Option (ModelFile K Net V))
    (file : Str) : Str → Option (ModelFile K Net V) :=
  Function.update d file (some (runSteps (m.saveSteps.take k) (fileAt d file)).1)

/-- `model_file['prediction_params/<name>']`: `KeyError` if missing. -/
def getParam (f : ModelFile K Net V) (name : Str) : Res (PMember K V) :=
  match f.params with
  | none => .error .keyError
  | some p =>
    match p name with
    | none => .error .keyError
    | some v => .ok v

/-- l.59: `json.loads(…[()])`; `TypeError` if it is not text. -/
def getJson (f : ModelFile K Net V) : Res (SampleDict K) := do
  match ← getParam f nSample with
  | .json d => .ok d
  | .arr _ => .error .typeError

/-- `np.array(model_file[…])`. Text data would give a text array, which is not followed. -/
def getArr (f : ModelFile K Net V) (name : Str) : Res V := do
  match ← getParam f name with
  | .arr v => .ok v
  | .json _ => .error .typeError

/-- `models.load_model`: fails for a missing or incomplete file. -/
def loadNet (d : Str → Option (ModelFile K Net V)) (file : Str) : Res Net :=
  match d file with
  | none => .error .osError
  | some f =>
    match f.network with
    | none => .error .osError
    | some n => .ok n

/-- trained_model.py l.50-64 `from_file` as the sequence of its assignments to the object. -/
def fromFileSteps (d : Str → Option (ModelFile K Net V)) (file : Str) :
    List (TModel K Net V → Res (TModel K Net V)) :=
  [fun m => do let n ← loadNet d file; return { m with net := some n },
   fun m => do
    let j ← getJson (fileAt d file)
    let s ← SampleV.fresh.fromDict j
    return { m with sample := some s },
   fun m => do let v ← getArr (fileAt d file) nQ; return { m with q := some v },
   fun m => do let v ← getArr (fileAt d file) nMean; return { m with mean := some v },
   fun m => do let v ← getArr (fileAt d file) nStd; return { m with std := some v }]

/-- `m.from_file(file)`: the object afterwards and the exception. -/
def TModel.fromFile (m : TModel K Net V) (d : Str → Option (ModelFile K Net V)) (file : Str) :
    TModel K Net V × Option PyErr :=
  runSteps (fromFileSteps d file) m

end
end Verif.Model
