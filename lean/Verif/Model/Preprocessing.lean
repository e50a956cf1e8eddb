import Verif.Py.Frame
import Verif.Model.Multilayer
import Mathlib.Analysis.Complex.Norm

/-!
# Model of `OutputPreprocessor` (training/preprocessing.py l.73-197) and `convert_to_dataframe`
(utils/label_helpers.py l.9-17)

Label values are complex numbers (real labels are complex numbers with zero imaginary part) or a
non-finite float.
-/

namespace Verif.Model
open Verif.Py

/-- A float or complex float as the label code sees it; `none` is `inf` or `nan`. -/
abbrev Fl := Option ℂ

/-- `a / b`: division by zero gives `inf` or `nan`. -/
noncomputable def Fl.div (a : Fl) (b : ℂ) : Fl :=
  a.bind fun x => if b = 0 then none else some (x / b)

/-- The complex number that a Python number denotes. -/
def Num.toC : Num ℝ → ℂ
  | .real x => ⟨x, 0⟩
  | .cplx _ a b => ⟨a, b⟩

/-- The literal `'min_to_zero'`. -/
def minToZeroS : Str := "min_to_zero".toList

/-- The literal `'absolute_max'`. -/
def absoluteMaxS : Str := "absolute_max".toList

/-- A string object: its value, and whether it is the interned literal with that value. -/
structure PyStr where
  val : Str
  literal : Bool
  deriving DecidableEq

/-- `s is 'v'`: identity with the interned literal. -/
def PyStr.isLit (s : PyStr) (v : Str) : Bool := s.literal && decide (s.val = v)

/-- A `DataFrame`: the length of its index and its columns. -/
structure Table where
  rows : Nat
  cols : Frame Fl

/-- What may be passed as labels. Arrays are given by their columns. -/
inductive LabelArg where
  | frame (t : Table)
  | array (rows : Nat) (cols : List (List Fl))
  | other

/-- label_helpers.py l.9-17 `convert_to_dataframe`. -/
def convertToDataframe (labels : LabelArg) (names : List Str) : Res Table :=
  match labels with
  | .frame t => .ok t
  | .array rows cols => if cols.length = names.length then .ok ⟨rows, names.zip cols⟩ else .error .valueError
  | .other => .error .typeError

/-- preprocessing.py l.87-92: the check of `normalization` in `__init__` (by value). -/
def opInit (normalization : PyStr) : Res PyStr :=
  if normalization.val ∈ [minToZeroS, absoluteMaxS] then .ok normalization
  else .error .valueError

/-- preprocessing.py l.101-102 `all_label_parameters`. -/
noncomputable def SampleV.allLabelParameters (s : SampleV ℝ) : Res (List (Param ℝ)) := do
  return (← s.thicknesses) ++ (← s.roughnesses) ++ (← s.slds)

/-- The name of a label parameter (always a string, see `paramNames`). -/
def pname (p : Param ℝ) : Str := p.name.getD []

/-- preprocessing.py l.113-118 `constant_labels`. -/
def constantLabels (ps : List (Param ℝ)) : List (Param ℝ) := ps.filter fun p => p.isConst

/-- preprocessing.py l.121-126 `used_labels`. -/
def usedLabels (ps : List (Param ℝ)) : List (Param ℝ) := ps.filter fun p => !p.isConst

/-- preprocessing.py l.148-158 `normalize_labels`: the loop body for one parameter. -/
noncomputable def normalizeStep (norm : PyStr) (f : Frame Fl) (p : Param ℝ) : Res (Frame Fl) :=
  if p.isConst then .ok f
  else if norm.isLit minToZeroS then do
    let col ← f.get (pname p)
    return f.set (pname p)
      (col.map fun x => Fl.div (x.map fun x => x - p.min.toC) (p.max.toC - p.min.toC))
  else if norm.isLit absoluteMaxS then do
    let col ← f.get (pname p)
    return f.set (pname p) (col.map fun x => Fl.div x (‖p.max.toC‖ : ℝ))
  else .ok f

/-- preprocessing.py l.148-158 `normalize_labels`. -/
noncomputable def normalizeLabels (norm : PyStr) (ps : List (Param ℝ)) (f : Frame Fl) : Res (Frame Fl) :=
  ps.foldlM (normalizeStep norm) f

/-- preprocessing.py l.160-169 `remove_labels`: missing labels are skipped with a warning. -/
def removeLabels (ps : List (Param ℝ)) (f : Frame Fl) : Frame Fl :=
  (constantLabels ps).foldl (fun f p => if pname p ∉ f.columns then f else f.del (pname p)) f

/-- preprocessing.py l.129-146 `apply_preprocessing`. -/
noncomputable def applyPreprocessing (norm : PyStr) (s : SampleV ℝ) (labels : LabelArg) :
    Res (Table × Table) := do
  let names ← s.labelNames
  let df ← convertToDataframe labels names
  let ps ← s.allLabelParameters
  let t ← normalizeLabels norm ps (removeLabels ps df.cols)
  let c ← df.cols.select ((constantLabels ps).map pname)
  return (⟨df.rows, t⟩, ⟨df.rows, c⟩)

/-- preprocessing.py l.181-190 `renormalize_labels`: the loop body for one parameter. -/
noncomputable def renormalizeStep (norm : PyStr) (f : Frame Fl) (p : Param ℝ) : Res (Frame Fl) :=
  if norm.isLit minToZeroS then do
    let col ← f.get (pname p)
    return f.set (pname p)
      (col.map fun x => x.map fun x => x * (p.max.toC - p.min.toC) + p.min.toC)
  else if norm.isLit absoluteMaxS then do
    let col ← f.get (pname p)
    return f.set (pname p) (col.map fun x => x.map fun x => x * (‖p.max.toC‖ : ℝ))
  else .ok f

/-- preprocessing.py l.181-190 `renormalize_labels` (the test of l.185 holds for all used labels). -/
noncomputable def renormalizeLabels (norm : PyStr) (ps : List (Param ℝ)) (f : Frame Fl) : Res (Frame Fl) :=
  (usedLabels ps).foldlM (renormalizeStep norm) f

/-- preprocessing.py l.192-197 `add_constant_labels`: the value is repeated for every row. -/
def addConstantLabels (ps : List (Param ℝ)) (t : Table) : Table :=
  ⟨t.rows, (constantLabels ps).foldl
    (fun f p => f.set (pname p) (List.replicate t.rows (some p.min.toC))) t.cols⟩

/-- preprocessing.py l.171-179 `restore_labels`. -/
noncomputable def restoreLabels (norm : PyStr) (s : SampleV ℝ) (predicted : LabelArg) : Res Table := do
  let ps ← s.allLabelParameters
  let df ← convertToDataframe predicted ((usedLabels ps).map pname)
  let f ← renormalizeLabels norm ps df.cols
  let t := addConstantLabels ps ⟨df.rows, f⟩
  let names ← s.labelNames
  return ⟨t.rows, ← t.cols.select names⟩

end Verif.Model
