import Verif.Model.Results

/-!
# Specification of fit results: errors, files and times
-/

namespace Verif.Spec
open Verif.Py Verif.Model

/-- A directory in the form that `dirname` returns: nothing, only slashes, or a name that does not end with a slash. -/
def IsDir (d : Str) : Prop := (∀ c ∈ d, c = '/') ∨ ∃ e c, d = e ++ [c] ∧ c ≠ '/'

/-- The file `name` in the directory `d`. -/
def InDir (d name p : Str) : Prop :=
  '/' ∉ name ∧ ((d = [] ∧ p = name) ∨ (d ≠ [] ∧ (∀ c ∈ d, c = '/') ∧ p = d ++ name) ∨
    ((∃ e c, d = e ++ [c] ∧ c ≠ '/') ∧ p = d ++ '/' :: name))

end Verif.Spec
