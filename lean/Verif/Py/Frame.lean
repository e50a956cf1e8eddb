import Verif.Py.Basic

/-!
# A minimal model of `pandas.DataFrame`

A frame is the list of its columns, each with a name. Only the operations used by the modelled code
are provided. The row index is not modelled (all frames in the code use the default index or are
re-indexed before use).
-/

namespace Verif.Py
variable {V : Type}

/-- Columns in order. -/
abbrev Frame (V : Type) := List (Str × List V)

namespace Frame

/-- `df.columns`. -/
def columns (f : Frame V) : List Str := f.map Prod.fst

/-- `df[name]` for a single name; `KeyError` if there is no such column. -/
def get (f : Frame V) (name : Str) : Res (List V) :=
  match f.find? (fun c => c.1 = name) with
  | some c => .ok c.2
  | none => .error .keyError

/-- `df[name] = col`: replaces the column in place or appends a new one. -/
def set (f : Frame V) (name : Str) (col : List V) : Frame V :=
  if name ∈ f.columns then f.map fun c => if c.1 = name then (name, col) else c
  else f ++ [(name, col)]

/-- `del df[name]`, for an existing column. -/
def del (f : Frame V) (name : Str) : Frame V := f.filter fun c => c.1 ≠ name

/-- `df[[names]]`; `KeyError` if one of the columns is missing. -/
def select (f : Frame V) (names : List Str) : Res (Frame V) :=
  names.mapM fun n => do return (n, ← f.get n)

end Frame
end Verif.Py
