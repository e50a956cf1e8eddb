import Mathlib.Data.List.Basic
import Mathlib.Data.List.Nodup
import Mathlib.Data.List.Perm.Basic
import Mathlib.Data.List.InsertIdx
import Mathlib.Order.Basic
import Mathlib.Algebra.Order.Ring.Int
import Mathlib.Tactic.Ring
import Mathlib.Tactic.Linarith
import Mathlib.Tactic.NormNum
import Mathlib.Tactic.SplitIfs

/-!
# Python primitives

Exceptions as values and the list operations of CPython (`list.__getitem__`, `__setitem__`,
`insert`, `remove`, slices) that the modelled code relies on.
-/

namespace Verif.Py

/-- The exception classes the modelled code can raise. -/
inductive PyErr where
  | valueError | typeError | indexError | keyError | attributeError | notImplementedError
  | recursionError | fileNotFoundError | notReflectivityScan | zeroDivision | runtimeError
  | unboundLocalError | osError | overflowError
  /-- Not an exception: numpy returns an array with NaN entries, which the model does not follow. -/
  | nanResult
  deriving DecidableEq, Repr

/-- A Python computation that returns a value or raises. -/
abbrev Res (α : Type) := Except PyErr α

/-- Strings are lists of characters; literals are written `"abc".toList`. -/
abbrev Str := List Char

variable {α : Type}

/-- Index normalisation of `list.__getitem__`: negative indices count from the end,
`none` means `IndexError`. -/
def normIdx (n : Nat) (i : Int) : Option Nat :=
  if 0 ≤ i then (if i.toNat < n then some i.toNat else none)
  else if 0 ≤ i + n then some (i + n).toNat else none

/-- `l[i]`. -/
def getItem (l : List α) (i : Int) : Res α :=
  match normIdx l.length i with
  | some k => match l[k]? with
    | some a => .ok a
    | none => .error .indexError
  | none => .error .indexError

/-- `l[i] = a`. -/
def setItem (l : List α) (i : Int) (a : α) : Res (List α) :=
  match normIdx l.length i with
  | some k => .ok (l.set k a)
  | none => .error .indexError

/-- The position at which `list.insert(i, ·)` inserts: negative indices count from the end, the
result is clamped to `[0, n]`. -/
def insertPos (n : Nat) (i : Int) : Nat :=
  if 0 ≤ i then min i.toNat n else (i + n).toNat

/-- `l.insert(i, a)`. -/
def insertAt (l : List α) (i : Int) (a : α) : List α :=
  l.take (insertPos l.length i) ++ a :: l.drop (insertPos l.length i)

/-- `l.remove(a)`: removes the first element equal to `a`, `ValueError` if there is none. -/
def remove [DecidableEq α] (l : List α) (a : α) : Res (List α) :=
  if a ∈ l then .ok (l.erase a) else .error .valueError

/-- A slice bound of `l[lo:hi]` (step 1): negative bounds count from the end, clamped to `[0, n]`. -/
def sliceBound (n : Nat) (i : Int) : Nat :=
  if 0 ≤ i then min i.toNat n else (i + n).toNat

/-- `l[lo:hi]`, `none` is an omitted bound. -/
def slice (l : List α) (lo hi : Option Int) : List α :=
  let a := match lo with | none => 0 | some i => sliceBound l.length i
  let b := match hi with | none => l.length | some i => sliceBound l.length i
  (l.take b).drop a

end Verif.Py
