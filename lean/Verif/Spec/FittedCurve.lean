import Verif.Model.CurveFitter

/-!
# Specification: the stack that a row of a table of labels describes

Cells are looked up by the names of the columns, whatever their order.
-/

namespace Verif.Spec
open Verif.Py Verif.Model

/-- The column `name` of the table has the finite number `z` in row `i`. -/
def CellIs (t : Table) (name : Str) (i : Nat) (z : ℂ) : Prop := ∃ c ∈ t.cols, c.1 = name ∧ c.2[i]? = some (some z)

/-- The real part of the number in the column `name`. -/
def LengthIs (t : Table) (name : Str) (i : Nat) (x : ℝ) : Prop := ∃ z, CellIs t name i z ∧ z.re = x

/-- Row `i` describes layers (from the bottom to the top) with the thicknesses `th` on a substrate, with roughnesses `ro` and
densities `sl` of the substrate and the layers, below a medium with the density `amb`. -/
structure StackRow (t : Table) (i : Nat) (substrate : Str) (layers : List Str) (ambient : Str) (th ro : List ℝ) (sl : List ℂ) (amb : ℂ) :
    Prop where
  thickness : List.Forall₂ (fun (n : Str) (x : ℝ) => LengthIs t (n ++ "_thickness".toList) i x) layers th
  roughness : List.Forall₂ (fun (n : Str) (x : ℝ) => LengthIs t (n ++ "_roughness".toList) i x) (substrate :: layers) ro
  sld : List.Forall₂ (fun (n : Str) (z : ℂ) => CellIs t (n ++ "_sld".toList) i z) (substrate :: layers) sl
  ambient : CellIs t (ambient ++ "_sld".toList) i amb

end Verif.Spec
