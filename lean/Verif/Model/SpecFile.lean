import Verif.Py.Text

/-!
# The SPEC file parser

Models `mlreflect/xrrloader/parser/spec_parser.py`. The file is the list of its lines as the text
layer of Python returns them. Numbers in the data block are read by an arbitrary function `pf`
(`float`), `none` is a token that `float` rejects.
-/

namespace Verif.Model
open Verif.Py

/-- The dictionary `scan` that `_index_scans` stores for a scan (spec_parser.py l.73-92). Missing
keys are `none`. -/
structure ScanEntry where
  /-- `scan_start_line` -/
  start : Nat
  /-- `scan_end_line` -/
  stop : Nat
  /-- `spec_command` -/
  command : Option Str
  /-- `time` -/
  time : Option Str
  /-- `data_start_line` -/
  header : Option Nat
  deriving DecidableEq

/-- `self._scan_index`, an `OrderedDict`. -/
abbrev ScanIndex := List (Int × ScanEntry)

/-- `index[n] = e`: an existing key keeps its position. -/
def ScanIndex.set (idx : ScanIndex) (n : Int) (e : ScanEntry) : ScanIndex :=
  if n ∈ idx.map Prod.fst then idx.map fun p => if p.1 = n then (n, e) else p else idx ++ [(n, e)]

/-- `index[n]`. -/
def ScanIndex.get (idx : ScanIndex) (n : Int) : Res ScanEntry :=
  match idx.find? (fun p => p.1 = n) with
  | some p => .ok p.2
  | none => .error .keyError

/-- `'#S'` -/
def tagS : Str := ['#', 'S']
/-- `'#D'` -/
def tagD : Str := ['#', 'D']
/-- `'#L'` -/
def tagL : Str := ['#', 'L']

/-- The loop of `_search_for_next_scan` (spec_parser.py l.57-67): the index of the first line that
starts with `#S`; `i` is the index of the first line of the list. -/
def searchFrom : List Str → Nat → Option Nat
  | [], _ => none
  | l :: ls, i => if startsWith l tagS then some i else searchFrom ls (i + 1)

/-- `_search_for_next_scan` (spec_parser.py l.57-67). -/
def searchForNextScan (lines : List Str) (start : Nat) : Option Nat := searchFrom (lines.drop start) start

/-- The local variables of the loop of `_index_scans`: `scan_number` (unassigned is `none`) and the
entries of `scan`. -/
structure BlockState where
  number : Option Str
  command : Option Str
  time : Option Str
  header : Option Nat

/-- The loop of `_index_scans` (spec_parser.py l.75-93): reads lines until a blank line or the end
of the file; returns the local variables and the index at which it stopped. -/
def blockLoop : List Str → Nat → BlockState → Res (BlockState × Nat)
  | [], i, s => .ok (s, i)
  | l :: ls, i, s =>
    if startsWith l tagS then do
      let n ← getItem (splitWs l) 1
      blockLoop ls (i + 1) { s with number := some n, command := some (join [' '] ((splitWs l).drop 2)) }
    else if startsWith l tagD then
      blockLoop ls (i + 1) { s with time := some (join [' '] ((splitWs l).drop 1)) }
    else if startsWith l tagL then blockLoop ls (i + 1) { s with header := some i }
    else if stripBy isSpace l = [] then .ok (s, i)
    else blockLoop ls (i + 1) s

/-- `_index_scans` (spec_parser.py l.69-95). The first argument is the number of nested calls that
still fit on the interpreter stack. `scan_end_line` is the index before the stop, never negative
because the first line of the block is not blank. -/
def indexScans : Nat → List Str → Nat → ScanIndex → Res ScanIndex
  | 0, _, _, _ => .error .recursionError
  | limit + 1, lines, from_, idx =>
    match searchForNextScan lines from_ with
    | none => .ok idx
    | some start => do
      let (s, i) ← blockLoop (lines.drop start) start ⟨none, none, none, none⟩
      match s.number with
      | none => .error .unboundLocalError
      | some n =>
        let k ← pyInt n
        indexScans limit lines (i - 1 + 1) (idx.set k ⟨start, i - 1, s.command, s.time, s.header⟩)

/-- A `SpecParser` object. -/
structure SpecParser where
  lines : List Str
  index : ScanIndex

/-- `SpecParser.__init__` (spec_parser.py l.14-21). -/
def SpecParser.init (limit : Nat) (file : List Str) : Res SpecParser := do
  let lines := file.map (rstripBy isSpace)
  let idx ← indexScans limit lines 0 []
  return ⟨lines, idx⟩

/-- A numerical table: a pandas `DataFrame` with a default row index. -/
structure NumTable (F : Type) where
  columns : List Str
  rows : List (List F)

/-- `data_start_line` of a scan, `KeyError` if the number or the key is missing. -/
def SpecParser.headerLine (p : SpecParser) (n : Int) : Res Nat := do
  let e ← p.index.get n
  match e.header with
  | some i => .ok i
  | none => .error .keyError

/-- `_extract_column_names` (spec_parser.py l.37-40). -/
def SpecParser.columnNames (p : SpecParser) (n : Int) : Res (List Str) := do
  let i ← p.headerLine n
  let l ← getItem p.lines (i : Int)
  return splitOn [' ', ' '] (lstripBy (fun c => c = '#' || c = 'L' || c = ' ') l)

/-- The lines read by the loop of `_extract_scan_data` (spec_parser.py l.45-54). -/
def dataLines (lines : List Str) : List Str :=
  lines.takeWhile fun l => !(startsWith l ['#'] || decide (l = []))

/-- `np.array(data, dtype=float)` for a list of lists of strings: `ValueError` if the rows have
different lengths or a token is not a number. -/
def floatArray {F : Type} (pf : Str → Option F) (rows : List (List Str)) : Res (List (List F)) :=
  match rows with
  | [] => .ok []
  | r :: _ =>
    if ∀ s ∈ rows, s.length = r.length then
      rows.mapM fun (row : List Str) => row.mapM fun (t : Str) =>
        match pf t with
        | some x => .ok x
        | none => .error .valueError
    else .error .valueError

/-- `_extract_scan_data` (spec_parser.py l.42-55). -/
def SpecParser.scanData {F : Type} (pf : Str → Option F) (p : SpecParser) (n : Int) : Res (List (List F)) := do
  let i ← p.headerLine n
  floatArray pf ((dataLines (p.lines.drop (i + 1))).map splitWs)

/-- `pd.DataFrame(data=data, columns=names)`: `ValueError` if the shape does not fit; the array of
an empty list has shape `(0,)` and is treated as a single column. -/
def dataFrame {F : Type} (rows : List (List F)) (names : List Str) : Res (NumTable F) :=
  match rows with
  | [] => if names.length = 1 then .ok ⟨names, []⟩ else .error .valueError
  | r :: _ => if r.length = names.length then .ok ⟨names, rows⟩ else .error .valueError

/-- `extract_scan` (spec_parser.py l.31-35). -/
def SpecParser.extractScan {F : Type} (pf : Str → Option F) (p : SpecParser) (n : Int) : Res (NumTable F) := do
  let names ← p.columnNames n
  let data ← p.scanData pf n
  dataFrame data names

end Verif.Model
