import Verif.Py.Frame
import Mathlib.Data.List.Infix

/-!
# Model of `separate_labels_by_category` (data_generator.py l.208-228)
-/

namespace Verif.Model
open Verif.Py
variable {V : Type}

/-- The three lists of l.210-212. -/
inductive Category where
  | thickness | roughness | sld
  deriving DecidableEq

/-- data_generator.py l.217-222: the branch taken for a column name (`'thickness' in name` is the
substring test). `none`: the column is dropped. -/
def category (name : Str) : Option Category :=
  if "thickness".toList <:+: name then some .thickness
  else if "roughness".toList <:+: name then some .roughness
  else if "sld".toList <:+: name then some .sld
  else none

/-- The columns appended to one of the three lists by the loop of l.216-222. -/
def pick (f : Frame V) (c : Category) : List (List V) :=
  (f.filter fun col => category col.1 = some c).map Prod.snd

/-- data_generator.py l.208-228: the columns of the three returned arrays (the arrays are the
transposed lists of columns). Frames with distinct column names. -/
def separateLabels (f : Frame V) : List (List V) × List (List V) × List (List V) :=
  (pick f .thickness, pick f .roughness, pick f .sld)

end Verif.Model
