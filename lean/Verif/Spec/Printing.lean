import Verif.Model.Multilayer

/-!
# What a printed sample says

Lines from top to bottom, written down without reference to the model of the special methods.
-/

namespace Verif.Spec
open Verif.Py Verif.Model
variable {K : Type}

/-- Words of the printed text. -/
def tHead : Str := "\tthickness: ".toList
def rHead : Str := "\troughness: ".toList
def dHead : Str := "\tsld: ".toList
def lengthTail : Str := " [Å]".toList
def dTail : Str := " [1e-6 1/Å^2]".toList
def ambientMark : Str := " (ambient):".toList
def substrateMark : Str := " (substrate):".toList

/-- The head line of the layer with the index `i`: `[i] name:`. -/
def layerHead (i : Str) (name : Str) : Str := '[' :: i ++ ']' :: ' ' :: name ++ [':']

/-- A constant is printed as a number, a range as a pair. -/
def valueText (num : Num K → Str) : Param K → Str
  | .const v _ => num v
  | .range a b _ => '(' :: num a ++ ',' :: ' ' :: num b ++ [')']

/-- The lines of a layer with thickness `t`, roughness `r` and density `d` below the head line. -/
def valueLines (num : Num K → Str) (t r : Option (Param K)) (d : Param K) : List Str :=
  (t.toList.map fun (p : Param K) => tHead ++ valueText num p ++ lengthTail) ++
  (r.toList.map fun (p : Param K) => rHead ++ valueText num p ++ lengthTail) ++
  [dHead ++ valueText num d ++ dTail]

/-- Two parameters have the same limits, and both are constant or both are ranges. -/
def SameValues [Zero K] (p p' : Param K) : Prop :=
  p.isConst = p'.isConst ∧ p.min.re = p'.min.re ∧ p.min.im = p'.min.im ∧ p.max.re = p'.max.re ∧ p.max.im = p'.max.im

/-- Both parts lack the parameter or both have it with the same values. -/
def SameAttr [Zero K] : Option (Param K) → Option (Param K) → Prop
  | none, none => True
  | some p, some p' => SameValues p p'
  | _, _ => False

/-- Two parts of samples have the same name and the same values. -/
def SamePart [Zero K] (l l' : LayerV K) : Prop :=
  l.name = l'.name ∧ SameAttr l.thickness l'.thickness ∧ SameAttr l.roughness l'.roughness ∧ SameAttr l.sld l'.sld

end Verif.Spec
