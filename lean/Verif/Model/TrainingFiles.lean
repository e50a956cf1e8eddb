import Verif.Model.Results
import Verif.Model.H5

/-!
# The files of a training

Models `make_timestamp` (utils/naming.py l.4-10), `create_save_directory`, `make_save_path` and the directory of
`make_tensorboard_callback` (models/model_helpers.py l.8-37), and `SimpleModel._setup_training` (models/simple_model.py l.62-73).
Paths are compared as they are written; links and permissions are not modelled. The clock is an argument.
-/

namespace Verif.Model
open Verif.Py

/-! ### Time stamps -/

/-- The fields of a date and time. -/
structure DateTime where
  year : Nat
  month : Nat
  day : Nat
  hour : Nat
  minute : Nat
  second : Nat
  microsecond : Nat

/-- `%m`, `%d`, `%H`, `%M`, `%S`: two digits. -/
def twoDigits (n : Nat) : Str := List.replicate (2 - (natStr n).length) '0' ++ natStr n

/-- naming.py l.5-10 `make_timestamp`. -/
def makeTimestamp (style : Str) (now : DateTime) : Res Str :=
  let t := twoDigits now.hour ++ twoDigits now.minute ++ twoDigits now.second
  let y := natStr now.year
  let m := twoDigits now.month
  let d := twoDigits now.day
  if style = "DMY".toList then .ok (d ++ '-' :: m ++ '-' :: y ++ '-' :: t)
  else if style = "MDY".toList then .ok (m ++ '-' :: d ++ '-' :: y ++ '-' :: t)
  else if style = "YMD".toList then .ok (y ++ '-' :: m ++ '-' :: d ++ '-' :: t)
  else .error .keyError

/-! ### Directories -/

/-- What a path names. -/
inductive FsKind where
  | dir
  | file

/-- A file system. -/
abbrev Fs := Str → Option FsKind

/-- `q` is a directory on the way to `p`. -/
def IsAncestor (q p : Str) : Prop := q ≠ [] ∧ ∃ r, p = q ++ '/' :: r

open Classical in
/-- `os.makedirs` of a path that does not exist: creates the directories on the way. -/
noncomputable def makedirs (fs : Fs) (p : Str) : Res Fs :=
  if ∃ q, IsAncestor q p ∧ fs q = some .file then .error .osError
  else .ok fun (q : Str) => if q = p ∨ IsAncestor q p then some .dir else fs q

/-- model_helpers.py l.8-12 `create_save_directory`. -/
noncomputable def createSaveDirectory (fs : Fs) (d : Str) : Res Fs :=
  let d := stripFileExtension d
  match fs d with
  | some _ => .ok fs
  | none => makedirs fs d

/-- `'models'`, `'tb_graphs'` and `'.h5'`. -/
def modelsS : Str := "models".toList
def graphsS : Str := "tb_graphs".toList
def h5S : Str := ".h5".toList

/-- model_helpers.py l.16-20 and l.29-33: `os.path.join(dirname, model_name_wo_ext, sub)`. -/
def modelSubdirectory (dir sub : Str) : Str := pathJoin (pathJoin (dirname dir) (stripFileExtension (basename dir))) sub

/-- model_helpers.py l.15-25 `make_save_path`. -/
noncomputable def makeSavePath (fs : Fs) (dir stamp : Str) : Res (Fs × Str) := do
  let d := modelSubdirectory dir modelsS
  let fs ← createSaveDirectory fs d
  return (fs, pathJoin d (stamp ++ h5S))

/-- model_helpers.py l.28-35: the log directory of `make_tensorboard_callback`. -/
noncomputable def makeLogDirectory (fs : Fs) (dir stamp sub : Str) : Res (Fs × Str) := do
  let d := pathJoin (modelSubdirectory dir sub) stamp
  let fs ← createSaveDirectory fs d
  return (fs, d)

/-- What `_setup_training` prepares. -/
structure Setup where
  fs : Fs
  logDir : Str
  savePath : Str
  stamp : Str

/-- simple_model.py l.62-73 `_setup_training`. -/
noncomputable def setupTraining (fs : Fs) (dir : Str) (now : DateTime) : Res Setup := do
  let stamp ← makeTimestamp "YMD".toList now
  let (fs, logDir) ← makeLogDirectory fs dir stamp graphsS
  let (fs, savePath) ← makeSavePath fs dir stamp
  return ⟨fs, logDir, savePath, stamp⟩

end Verif.Model
