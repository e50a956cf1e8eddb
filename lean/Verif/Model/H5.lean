import Verif.Py.Frame
import Mathlib.Data.Real.Basic

/-!
# utils/h5_tools.py

The name helpers (l.88-96) are modelled completely. HDF5 files are modelled on the level of their
top-level members: a data set, a group with attributes (only `info` is created by this module), or a
pandas table. `V` is the type of array contents.

Simplified: HDF5 and pandas primitives are atomic, an interruption happens between two primitives
and the file is closed properly (a crash of the operating system that destroys the HDF5 structure is
not modelled); every existing file is a readable HDF5 file; attribute values are numbers or text.
-/

namespace Verif.Model
open Verif.Py

/-! ## File names -/

/-- `s.endswith(w)`. -/
def endsWith (s w : Str) : Bool := w.isSuffixOf s

def extH5 : Str := ['.', 'h', '5']
def extHdf5 : Str := ['.', 'h', 'd', 'f', '5']

/-- h5_tools.py l.88-92 `ensure_h5_extension`. -/
def ensureH5Extension (f : Str) : Str :=
  if !(endsWith f extH5 || endsWith f extHdf5) then f ++ extH5 else f

/-- `s.rfind(c)` for one character. -/
def rfind (c : Char) : Str → Int
  | [] => -1
  | x :: s => if 0 ≤ rfind c s then rfind c s + 1 else if x = c then 0 else -1

/-- h5_tools.py l.95-96 `strip_file_extension`: `posixpath.splitext(p)[0]` (`genericpath._splitext`):
the last dot counts if it lies behind the last slash and if not all characters between them are
dots. -/
def stripFileExtension (p : Str) : Str :=
  let sep := rfind '/' p
  let dot := rfind '.' p
  if sep < dot ∧ ((p.take dot.toNat).drop (sep + 1).toNat).any (fun c => c ≠ '.') then p.take dot.toNat
  else p

/-! ## Files -/

/-- A value of an HDF5 attribute; `nan` is the minimum of a column without values. -/
inductive Attr where
  | int (n : Int)
  | num (x : ℝ)
  | nan
  | text (s : Str)

/-- A top-level member of an HDF5 file. `partialTable` is a pandas group whose content has not been
written yet. -/
inductive Node (V : Type) where
  | dataset (v : V)
  | group (attrs : Str → Option Attr)
  | table (t : Frame ℝ)
  | partialTable

/-- The members of a file by name. -/
abbrev H5File (V : Type) := Str → Option (Node V)

/-- The files by path. -/
abbrev Disk (V : Type) := Str → Option (H5File V)

variable {V : Type}

def emptyFile : H5File V := fun _ => none

/-- `del file[name]`. -/
def delNode (name : Str) (f : H5File V) : Res (H5File V) :=
  match f name with
  | some _ => .ok (Function.update f name none)
  | none => .error .keyError

/-- `file.create_dataset(name, data=data)`: h5py raises `ValueError` if the name exists. -/
def createDataset (name : Str) (v : V) (f : H5File V) : Res (H5File V) :=
  match f name with
  | some _ => .error .valueError
  | none => .ok (Function.update f name (some (.dataset v)))

/-- l.82-83: `if name in file: del file[name]`. -/
def delIfPresent (name : Str) (f : H5File V) : Res (H5File V) :=
  match f name with
  | some _ => delNode name f
  | none => .ok f

/-- h5_tools.py l.80-85 `create_dataset_with_override` as the sequence of its two primitives. -/
def overrideSteps (name : Str) (v : V) : List (H5File V → Res (H5File V)) :=
  [delIfPresent name, createDataset name v]

/-- `file.require_group(name)`: `TypeError` if the name is taken by something else. -/
def requireGroup (name : Str) (f : H5File V) : Res (H5File V) :=
  match f name with
  | some (.group _) => .ok f
  | none => .ok (Function.update f name (some (.group fun _ => none)))
  | some _ => .error .typeError

/-- `group.attrs[key] = value` on the group `name`. -/
def setAttr (name key : Str) (a : Attr) (f : H5File V) : Res (H5File V) :=
  match f name with
  | some (.group g) => .ok (Function.update f name (some (.group (Function.update g key (some a)))))
  | _ => .error .keyError

/-- `labels.to_hdf(file_name, 'labels')`: pandas removes an existing node, creates the group and
writes the table. -/
def toHdfSteps (name : Str) (t : Frame ℝ) : List (H5File V → Res (H5File V)) :=
  [fun f => .ok (Function.update f name none),
   fun f => .ok (Function.update f name (some .partialTable)),
   fun f => .ok (Function.update f name (some (.table t)))]

def nQ : Str := "q_values".toList
def nInfo : Str := "info".toList
def nReflectivity : Str := "reflectivity".toList
def nLabels : Str := "labels".toList
def nShotNoise : Str := "shot_noise".toList
def nShotNoiseLevels : Str := "shot_noise_levels".toList
def nBackground : Str := "background".toList
def nBackgroundLevels : Str := "background_levels".toList
def kNumberOfLayers : Str := "number_of_layers".toList
def kNumCurves : Str := "num_curves".toList
def kQUnit : Str := "q_unit".toList
def kThicknessUnit : Str := "thickness_unit".toList
def kRoughnessUnit : Str := "roughness_uni".toList
def kSldUnit : Str := "sld_unit".toList
def sufMin : Str := "_min".toList
def sufMax : Str := "_max".toList

/-- `column.min()`. -/
def colMin : List ℝ → Attr
  | [] => .nan
  | x :: l => .num (l.foldl min x)

/-- `column.max()`. -/
def colMax : List ℝ → Attr
  | [] => .nan
  | x :: l => .num (l.foldl max x)

/-- `labels.shape[0]`. -/
def numRows : Frame ℝ → Nat
  | [] => 0
  | c :: _ => c.2.length

/-- l.41-43: the attributes of one label. Column names are taken to be distinct, so that
`labels[label_name]` is the column itself. -/
def labelAttrs (c : Str × List ℝ) : List (Str × Attr) :=
  [(c.1 ++ sufMin, colMin c.2), (c.1 ++ sufMax, colMax c.2)]

/-- l.33-43: the attributes in the order in which they are written. -/
def infoAttrs (t : Frame ℝ) (layers : Int) : List (Str × Attr) :=
  [(kNumberOfLayers, .int layers), (kNumCurves, .int (numRows t)), (kQUnit, .text "1/A".toList),
   (kThicknessUnit, .text "A".toList), (kRoughnessUnit, .text "A".toList),
   (kSldUnit, .text "1e-6 1/A^2".toList)] ++ t.flatMap labelAttrs

/-- h5_tools.py l.25-47 `save_data_as_h5` as the sequence of its primitives on the (opened) file. -/
def saveDataSteps (q r : V) (t : Frame ℝ) (layers : Int) : List (H5File V → Res (H5File V)) :=
  overrideSteps nQ q ++ [requireGroup nInfo] ++
  (infoAttrs t layers).map (fun (a : Str × Attr) => setAttr nInfo a.1 a.2) ++
  overrideSteps nReflectivity r ++ toHdfSteps nLabels t

/-- h5_tools.py l.50-54 `save_noise`. -/
def saveNoiseSteps (a l : V) : List (H5File V → Res (H5File V)) :=
  overrideSteps nShotNoise a ++ overrideSteps nShotNoiseLevels l

/-- h5_tools.py l.57-61 `save_background`. -/
def saveBackgroundSteps (a l : V) : List (H5File V → Res (H5File V)) :=
  overrideSteps nBackground a ++ overrideSteps nBackgroundLevels l

/-- Run primitives one after the other. On an exception the state keeps what was
done before. -/
def runSteps {F : Type} : List (F → Res F) → F → F × Option PyErr
  | [], f => (f, none)
  | s :: ss, f =>
    match s f with
    | .ok f' => runSteps ss f'
    | .error e => (f, some e)

/-- One call of a save function. -/
inductive SaveCall (V : Type) where
  | data (file : Str) (q r : V) (t : Frame ℝ) (layers : Int)
  | noise (file : Str) (a l : V)
  | background (file : Str) (a l : V)

def SaveCall.file : SaveCall V → Str
  | .data f .. => f
  | .noise f .. => f
  | .background f .. => f

def SaveCall.steps : SaveCall V → List (H5File V → Res (H5File V))
  | .data _ q r t n => saveDataSteps q r t n
  | .noise _ a l => saveNoiseSteps a l
  | .background _ a l => saveBackgroundSteps a l

/-- `h5py.File(path, 'a')`: an existing file is opened, otherwise an empty one is created. -/
def openAppend (d : Disk V) (path : Str) : H5File V := (d path).getD emptyFile

/-- A save call: the name is completed, the file is opened for appending and the primitives are run. -/
def SaveCall.run (c : SaveCall V) (d : Disk V) : Disk V × Option PyErr :=
  let path := ensureH5Extension c.file
  let r := runSteps c.steps (openAppend d path)
  (Function.update d path (some r.1), r.2)

/-- A save call that is interrupted after `k` primitives. -/
def SaveCall.interrupted (c : SaveCall V) (k : Nat) (d : Disk V) : Disk V :=
  let path := ensureH5Extension c.file
  Function.update d path (some (runSteps (c.steps.take k) (openAppend d path)).1)

/-- `np.array(data_file.get(name))`: the data, `array(None)` if there is no such member, or the array
of the member names of a group. -/
inductive Loaded (V : Type) where
  | value (v : V)
  | noneArray
  | names

def getArray (f : H5File V) (name : Str) : Loaded V :=
  match f name with
  | some (.dataset v) => .value v
  | none => .noneArray
  | _ => .names

/-- `pd.read_hdf(file_name, 'labels')`: `KeyError` if missing, `TypeError` if it is not a pandas
table. -/
def readHdf (f : H5File V) (name : Str) : Res (Frame ℝ) :=
  match f name with
  | some (.table t) => .ok t
  | none => .error .keyError
  | _ => .error .typeError

/-- l.73-75: `data_file.get('info').attrs`. -/
def readAttrs (f : H5File V) (name : Str) : Res (Str → Option Attr) :=
  match f name with
  | some (.group g) => .ok g
  | none => .error .attributeError
  | _ => .ok fun _ => none

structure DataSet (V : Type) where
  q : Loaded V
  reflectivity : Loaded V
  labels : Frame ℝ
  info : Str → Option Attr

/-- l.67-77 on the content of the file. -/
def loadFile (f : H5File V) : Res (DataSet V) := do
  let labels ← readHdf f nLabels
  let info ← readAttrs f nInfo
  return ⟨getArray f nQ, getArray f nReflectivity, labels, info⟩

/-- h5_tools.py l.64-77 `load_data`; the name is used as given. -/
def loadData (d : Disk V) (file : Str) : Res (DataSet V) :=
  match d file with
  | some f => loadFile f
  | none => .error .fileNotFoundError

end Verif.Model
