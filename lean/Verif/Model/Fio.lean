import Verif.Model.Loaders
import Verif.Py.Text

/-!
# Reading .fio files

Models `mlreflect/xrrloader/p08tools/fio_reader.py` and `mlreflect/xrrloader/parser/fio_parser.py`.
A file is the list of its lines. Reading numbers is left open: `pf` is `float`, `none` is a
`ValueError`, `nan` is `float('nan')`.

Every exception of the parameter block is caught (l.114), its kind is therefore of no importance.
`header_only` is not modelled, it is used nowhere.
-/

namespace Verif.Model
open Verif.Py

/-- `d[k] = v` of an insertion ordered dictionary. -/
def dictSet {κ β : Type} [DecidableEq κ] (d : List (κ × β)) (k : κ) (v : β) : List (κ × β) :=
  match d with
  | [] => [(k, v)]
  | (k', v') :: r => if k' = k then (k, v) :: r else (k', v') :: dictSet r k v

/-- `d[k]`. -/
def dictGet {κ β : Type} [DecidableEq κ] (d : List (κ × β)) (k : κ) : Res β :=
  match d with
  | [] => .error .keyError
  | (k', v) :: r => if k' = k then .ok v else dictGet r k

/-- `d[k].append(x)` for a dictionary of lists. -/
def dictAppend {β : Type} (d : List (Str × List β)) (k : Str) (x : β) : Res (List (Str × List β)) := do
  let l ← dictGet d k
  return dictSet d k (l ++ [x])

/-- The flags `comment_block`, `param_block`, `data_block`, of which at most one is set. -/
inductive FioBlock where
  | start | comment | param | data
  deriving DecidableEq

/-- The local variables of `read` (fio_reader.py l.16-32). -/
structure FioState (F : Type) where
  block : FioBlock := .start
  dataColumns : Bool := false
  names : List Str := []
  cmd : Option Str := none
  motors : List (Str × F) := []
  data : List (Str × List F) := []
  /-- `header_info['ubmatrix']` -/
  ub : Option (List (List F)) := none
  /-- `header_info['signalcounter']` -/
  signal : Option Str := none
  /-- `rois`, that is `header_info['rois']` -/
  rois : List (Str × List (Str × List F)) := []

/-- `float(spl[idx])` with the `nan` of the `except` clause (fio_reader.py l.133-136, l.145-148). -/
def fioField {F : Type} (pf : Str → Option F) (nan : F) (spl : List Str) (idx : Nat) : F :=
  match spl[idx]? with
  | none => nan
  | some t => (pf t).getD nan

/-- `line.find('=', 1) > -1`. -/
def hasEquals (line : Str) : Bool := (line.drop 1).any (· = '=')

/-- The decimal digits of a number, most significant first. -/
def natStr (n : Nat) : Str :=
  if n < 10 then [Char.ofNat (48 + n)] else natStr (n / 10) ++ [Char.ofNat (48 + n % 10)]

/-- `float(t)` inside the `try` statement. -/
def fioFloat {F : Type} (pf : Str → Option F) (t : Str) : Res F :=
  match pf t with
  | some x => .ok x
  | none => .error .valueError

/-- The positions of a character (the loops of fio_reader.py l.76-84). -/
def positions (c : Char) (s : Str) : List Nat := (s.zipIdx.filter fun (p : Char × Nat) => p.1 = c).map Prod.snd

/-- `re.sub(' +', ' ', s)`. -/
def collapse : Str → Str
  | [] => []
  | [c] => [c]
  | c :: d :: s => if c = ' ' ∧ d = ' ' then collapse (d :: s) else c :: collapse (d :: s)

/-- `line.replace(';', ',')`. -/
def semiToComma (line : Str) : Str := line.map fun (c : Char) => if c = ';' then ',' else c

/-- The numbers of a row (fio_reader.py l.87, l.90, l.93). -/
def fioRow {F : Type} (pf : Str → Option F) (t : Str) : Res (List F) := (splitWs t).mapM (fioFloat pf)

/-- The text between an opening and a closing bracket. -/
def between (v : Str) (o c : Nat) : Str := slice v (some ((o : Int) + 1)) (some (c : Int))

/-- The UB matrix (fio_reader.py l.71-97). -/
def fioUb {F : Type} (pf : Str → Option F) (line : Str) : Res (List (List F)) := do
  let v ← getItem (splitOn ['='] (stripBy isSpace (semiToComma line))) 1
  let o1 ← getItem (positions '[' v) 1
  let c1 ← getItem (positions ']' v) 0
  let r1 ← fioRow pf (collapse (stripBy isSpace (between v o1 c1)))
  let o2 ← getItem (positions '[' v) 2
  let c2 ← getItem (positions ']' v) 1
  let r2 ← fioRow pf (stripBy isSpace (collapse (between v o2 c2)))
  let o3 ← getItem (positions '[' v) 3
  let c3 ← getItem (positions ']' v) 2
  let r3 ← fioRow pf (collapse (stripBy isSpace (between v o3 c3)))
  return [r1, r2, r3]

/-- `'roi'`. -/
def roiWord : Str := ['r', 'o', 'i']

/-- `'roi%d' % n`. -/
def roiName (n : Nat) : Str := roiWord ++ natStr n

/-- The groups of four numbers (fio_reader.py l.105-111). -/
def fioGroups {F : Type} (xs : List F) : List (Str × List F) :=
  (List.range ((xs.length + 3) / 4)).foldl
    (fun d (i : Nat) => dictSet d (roiName (i + 1)) (slice xs (some (4 * i : Int)) (some (4 * i + 4 : Int)))) []

/-- The regions of interest (fio_reader.py l.101-113) of the text `k` before and `v` behind the equals
sign: the name of the detector and its regions. -/
def fioRois {F : Type} (pf : Str → Option F) (k v : Str) : Res (Str × List (Str × List F)) := do
  let xs ← (splitOn [','] (slice (stripBy isSpace v) (some 1) (some (-1)))).mapM (fioFloat pf)
  let n ← getItem (splitOn [' '] k) 1
  return (stripBy isSpace n, fioGroups xs)

/-- `s.lower()`. Only comparisons with words of the letters of `ubmatrix` and `signalcounter` are made:
no character outside ASCII is mapped to one of these letters. -/
def lower (s : Str) : Str := s.map Char.toLower

/-- `'ubmatrix'`. -/
def ubWord : Str := ['u', 'b', 'm', 'a', 't', 'r', 'i', 'x']

/-- `'signalcounter'`. -/
def signalWord : Str := ['s', 'i', 'g', 'n', 'a', 'l', 'c', 'o', 'u', 'n', 't', 'e', 'r']

/-- The header entries that are no numbers (fio_reader.py l.67-115) for the text `k` before and `v` behind
the equals sign. -/
def fioHeader {F : Type} (pf : Str → Option F) (s : FioState F) (line k v : Str) : FioState F :=
  if lower (stripBy isSpace k) = ubWord then
    match fioUb pf line with
    | .ok m => { s with ub := some m }
    | .error _ => s
  else if lower (stripBy isSpace k) = signalWord then { s with signal := some (stripBy isSpace v) }
  else if contains (stripBy isSpace k) roiWord then
    match fioRois pf k v with
    | .ok r => { s with rois := dictSet s.rois r.1 r.2 }
    | .error _ => s
  else s

/-- The parameter block (fio_reader.py l.60-116). -/
def fioParam {F : Type} (pf : Str → Option F) (s : FioState F) (line : Str) : FioState F :=
  if hasEquals line then
    match splitOn ['='] (stripBy isSpace line) with
    | k :: v :: _ => match pf v with
      | some x => { s with motors := dictSet s.motors (stripBy isSpace k) x }
      | none => fioHeader pf s line k v
    | _ => s
  else s

/-- `'scan'`, `'mesh'`, `'Col '`. -/
def scanWord : Str := ['s', 'c', 'a', 'n']
/-- See `scanWord`. -/
def meshWord : Str := ['m', 'e', 's', 'h']
/-- See `scanWord`. -/
def colWord : Str := ['C', 'o', 'l', ' ']

/-- The comment block (fio_reader.py l.117-119). -/
def fioComment {F : Type} (s : FioState F) (line : Str) : FioState F :=
  if contains line scanWord || contains line meshWord then { s with cmd := some (stripBy isSpace line) } else s

/-- The first data line (fio_reader.py l.130-138). -/
def fioFirst {F : Type} (pf : Str → Option F) (nan : F) (s : FioState F) (line : Str) : FioState F :=
  let spl := splitWs line
  { s with
    data := (s.names.zipIdx).foldl (fun d (p : Str × Nat) => dictSet d p.1 [fioField pf nan spl p.2]) s.data
    dataColumns := true }

/-- The other data lines (fio_reader.py l.140-148). -/
def fioNext {F : Type} (pf : Str → Option F) (nan : F) (s : FioState F) (line : Str) : Res (FioState F) := do
  let spl := splitWs line
  let d ← (s.names.zipIdx).foldlM (fun d (p : Str × Nat) => dictAppend d p.1 (fioField pf nan spl p.2)) s.data
  return { s with data := d }

/-- The data block (fio_reader.py l.120-148). -/
def fioData {F : Type} (pf : Str → Option F) (nan : F) (s : FioState F) (line : Str) : Res (FioState F) :=
  if s.dataColumns then fioNext pf nan s line
  else if contains line colWord then do
    let n ← getItem (splitWs line) 2
    return { s with names := s.names ++ [n] }
  else if s.names.length > 0 then .ok (fioFirst pf nan s line)
  else .ok s

/-- One line (fio_reader.py l.36-148). -/
def fioStep {F : Type} (pf : Str → Option F) (nan : F) (s : FioState F) (line : Str) : Res (FioState F) :=
  if contains line ['%', 'c'] then .ok { s with block := .comment }
  else if contains line ['%', 'p'] then .ok { s with block := .param }
  else if contains line ['%', 'd'] then .ok { s with block := .data }
  else if contains line ['!'] then .ok s
  else match s.block with
    | .param => .ok (fioParam pf s line)
    | .comment => .ok (fioComment s line)
    | .data => fioData pf nan s line
    | .start => .ok s

/-- `read` (fio_reader.py l.15-157). -/
def fioRead {F : Type} (pf : Str → Option F) (nan : F) (lines : List Str) : Res (FioState F) :=
  lines.foldlM (fioStep pf nan) {}

/-! ### File names -/

/-- `f'{n:05d}'`: zero padding to a width of five characters, the sign included. -/
def pad5 (n : Int) : Str :=
  if 0 ≤ n then List.replicate (5 - (natStr n.toNat).length) '0' ++ natStr n.toNat
  else '-' :: (List.replicate (4 - (natStr (-n).toNat).length) '0' ++ natStr (-n).toNat)

/-- The characters of `strip('.fio')`. -/
def isFioChar (c : Char) : Bool := c = '.' || c = 'f' || c = 'i' || c = 'o'

/-- `'.fio'`. -/
def fioExt : Str := ['.', 'f', 'i', 'o']

/-- `str(self.file_stem) + f'_{scan_number:05d}.fio'` (fio_parser.py l.56, l.68). Normalisation of the
stem by `pathlib` is not modelled: `stem` is `str(self.file_stem)`. -/
def fioName (stem : Str) (n : Int) : Str := stem ++ ['_'] ++ pad5 n ++ fioExt

/-- The scan number of a file name (fio_parser.py l.52). -/
def fioNumber (stem file : Str) : Res Int := do
  let piece ← getItem (splitOn (stem ++ ['_']) file) 1
  pyInt (stripBy isFioChar piece)

/-- `fnmatch` of the pattern `stem*.fio` for a stem without the special characters `*`, `?`, `[`: the
star does not match a path separator. -/
def fioMatch (stem file : Str) : Bool :=
  startsWith file stem && startsWith (file.drop stem.length).reverse fioExt.reverse &&
    ((file.drop stem.length).all fun c => c != '/')

/-- The order of `sorted` for strings. -/
def strLe : Str → Str → Bool
  | [], _ => true
  | _ :: _, [] => false
  | a :: s, b :: t => a.toNat < b.toNat || (a.toNat == b.toNat && strLe s t)

/-- `fio_path_list` (fio_parser.py l.41-44) for the paths `files` of the existing files. -/
def fioPathList (stem : Str) (files : List Str) : List Str := (files.filter (fioMatch stem)).mergeSort strLe

/-- `scan_numbers` (fio_parser.py l.50-52). -/
def fioScanNumbers (stem : Str) (files : List Str) : Res (List Int) := (fioPathList stem files).mapM (fioNumber stem)

/-- `_is_theta2theta_scan` (fio_parser.py l.72-73): `TypeError` for a missing command. -/
def isTheta2Theta (theta tt : Str) : Option Str → Res Bool
  | none => .error .typeError
  | some c => .ok (contains c theta && contains c tt)

/-- An entry of `scan_info` (fio_parser.py l.31-38), without the header. -/
structure FioInfo where
  file : Str
  reflectivity : Bool

/-- `scan_info` (fio_parser.py l.27-39): a dictionary from scan numbers to entries. `command` gives the
scan command read from a file. -/
def fioScanInfo (stem theta tt : Str) (files : List Str) (command : Str → Res (Option Str)) :
    Res (List (Int × FioInfo)) := do
  let ns ← fioScanNumbers stem files
  (ns.zip (fioPathList stem files)).foldlM (fun d (p : Int × Str) => do
    let c ← command p.2
    let r ← isTheta2Theta theta tt c
    return dictSet d p.1 (⟨p.2, r⟩ : FioInfo)) []

end Verif.Model
