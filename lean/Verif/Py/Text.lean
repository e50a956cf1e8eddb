import Verif.Py.Basic

/-!
# Python string operations

Strings are lists of characters. Only the methods used by the parsers are provided.
-/

namespace Verif.Py

/-- `c.isspace()`: the characters that `str.split()`, `str.strip()` and `str.rstrip()` without
arguments treat as white space. -/
def isSpace (c : Char) : Bool :=
  (9 ≤ c.toNat && c.toNat ≤ 13) || (28 ≤ c.toNat && c.toNat ≤ 32) || c.toNat == 0x85 || c.toNat == 0xa0 ||
  c.toNat == 0x1680 || (0x2000 ≤ c.toNat && c.toNat ≤ 0x200a) || c.toNat == 0x2028 || c.toNat == 0x2029 ||
  c.toNat == 0x202f || c.toNat == 0x205f || c.toNat == 0x3000

/-- `s.lstrip(chars)` with the set of characters given as a predicate. -/
def lstripBy (p : Char → Bool) (s : Str) : Str := s.dropWhile p

/-- `s.rstrip(chars)`. -/
def rstripBy (p : Char → Bool) (s : Str) : Str := (s.reverse.dropWhile p).reverse

/-- `s.strip(chars)`. -/
def stripBy (p : Char → Bool) (s : Str) : Str := rstripBy p (lstripBy p s)

/-- `s.startswith(w)`. -/
def startsWith (s w : Str) : Bool := w.isPrefixOf s

/-- `s.find(w) > -1`. -/
def contains : Str → Str → Bool
  | [], w => w.isEmpty
  | c :: s, w => w.isPrefixOf (c :: s) || contains s w

/-- `s.split()`, `cur` holds the characters of the unfinished word in reverse order. -/
def splitWsAux : Str → Str → List Str
  | [], cur => if cur = [] then [] else [cur.reverse]
  | c :: cs, cur =>
    if isSpace c then (if cur = [] then splitWsAux cs [] else cur.reverse :: splitWsAux cs [])
    else splitWsAux cs (c :: cur)

/-- `s.split()`. -/
def splitWs (s : Str) : List Str := splitWsAux s []

/-- `s.split(sep)` for a non-empty separator: leftmost, non-overlapping occurrences. `skip` is the
number of characters of the current separator that are still to be dropped. -/
def splitOnAux (sep : Str) : Str → Str → Nat → List Str
  | [], cur, _ => [cur.reverse]
  | _ :: cs, cur, k + 1 => splitOnAux sep cs cur k
  | c :: cs, cur, 0 =>
    if sep.isPrefixOf (c :: cs) then cur.reverse :: splitOnAux sep cs [] (sep.length - 1)
    else splitOnAux sep cs (c :: cur) 0

/-- `s.split(sep)`. -/
def splitOn (sep s : Str) : List Str := splitOnAux sep s [] 0

/-- `sep.join(parts)`. -/
def join (sep : Str) : List Str → Str
  | [] => []
  | [p] => p
  | p :: q :: r => p ++ sep ++ join sep (q :: r)

/-- One step of reading a decimal number: the value read so far and whether the last character was
a digit (single underscores are allowed between digits). -/
def digitStep : Option (Nat × Bool) → Char → Option (Nat × Bool)
  | none, _ => none
  | some (a, b), c =>
    if '0' ≤ c ∧ c ≤ '9' then some (10 * a + (c.toNat - 48), true)
    else if c = '_' ∧ b then some (a, false)
    else none

/-- The unsigned part of `int(s)`. -/
def parseNat (s : Str) : Option Nat :=
  match s.foldl digitStep (some (0, false)) with
  | some (a, true) => some a
  | _ => none

/-- `int(s)` for ASCII digits (other Unicode digits and the length limit of CPython are not
modelled), `none` is `ValueError`. -/
def parseInt (s : Str) : Option Int :=
  match stripBy isSpace s with
  | '-' :: r => (parseNat r).map fun (n : Nat) => -(n : Int)
  | '+' :: r => (parseNat r).map fun (n : Nat) => (n : Int)
  | r => (parseNat r).map fun (n : Nat) => (n : Int)

/-- `int(s)` as a Python computation. -/
def pyInt (s : Str) : Res Int :=
  match parseInt s with
  | some n => .ok n
  | none => .error .valueError

end Verif.Py
