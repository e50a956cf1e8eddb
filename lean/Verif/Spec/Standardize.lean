import Verif.Model.Standardize
import Mathlib.Algebra.BigOperators.Group.Finset.Basic
import Mathlib.Algebra.BigOperators.Fin

/-!
# Specification of the standardization
-/

namespace Verif.Spec
open Verif.Py Verif.Model

/-- The entry in row `i`, column `j`. -/
def entry (rows : List (List ℝ)) (i j : Nat) : ℝ := (rows.getD i []).getD j 0

/-- Arithmetic mean of column `j`. -/
noncomputable def colMean (rows : List (List ℝ)) (j : Nat) : ℝ :=
  (∑ i ∈ Finset.range rows.length, entry rows i j) / rows.length

/-- Population variance of column `j`. -/
noncomputable def colVar (rows : List (List ℝ)) (j : Nat) : ℝ :=
  (∑ i ∈ Finset.range rows.length, (entry rows i j - colMean rows j) ^ 2) / rows.length

/-- No column has the same value in all rows. -/
def NonConstant (d : Arr) : Prop :=
  ∀ j < d.width, ∃ i k, i < d.rows.length ∧ k < d.rows.length ∧ entry d.rows i j ≠ entry d.rows k j

open Classical in
/-- The calls after the last reset. -/
noncomputable def sinceReset (h : List IPOp) : List IPOp :=
  (h.reverse.takeWhile fun o => decide (o ≠ .reset)).reverse

open Classical in
/-- The data of the first call of `standardize` that can be fitted. -/
noncomputable def firstFit (h : List IPOp) : Option Arr :=
  h.findSome? fun
    | .standardize d => if NonConstant d then some d else none
    | _ => none

end Verif.Spec
