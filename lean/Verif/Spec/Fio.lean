import Verif.Py.Text

/-!
# What a .fio file contains

A file consists of comment, parameter and data blocks introduced by lines that contain `%c`, `%p` or
`%d`. Lines with an exclamation mark are remarks. The data blocks contain first the column lines
(`Col 1 om DOUBLE`), then the data lines.
-/

namespace Verif.Spec
open Verif.Py

/-- The lines of the data blocks; `inData` says whether the file is inside a data block. -/
def fioBody : Bool → List Str → List Str
  | _, [] => []
  | inData, l :: ls =>
    if ['%', 'c'] <:+: l ∨ ['%', 'p'] <:+: l then fioBody false ls
    else if ['%', 'd'] <:+: l then fioBody true ls
    else if '!' ∈ l then fioBody inData ls
    else if inData then l :: fioBody inData ls
    else fioBody inData ls

/-- A line that declares a column. -/
def IsColLine (l : Str) : Prop := ['C', 'o', 'l', ' '] <:+: l

instance (l : Str) : Decidable (IsColLine l) := by unfold IsColLine; infer_instance

/-- The column lines: the first consecutive ones of the data blocks. -/
def fioColLines (body : List Str) : List Str := (body.dropWhile fun l => !IsColLine l).takeWhile fun l => IsColLine l

/-- The data lines: everything after the column lines. -/
def fioDataLines (body : List Str) : List Str := (body.dropWhile fun l => !IsColLine l).dropWhile fun l => IsColLine l

/-- Field `i` of a data line as a number, `nan` if it is missing or not a number. -/
def FieldOf {F : Type} (pf : Str → Option F) (nan : F) (l : Str) (i : Nat) (x : F) : Prop :=
  (∃ t, (splitWs l)[i]? = some t ∧ pf t = some x) ∨
  (((splitWs l)[i]? = none ∨ ∃ t, (splitWs l)[i]? = some t ∧ pf t = none) ∧ x = nan)

end Verif.Spec
