import Verif.Lemmas.Text

/-!
# What a SPEC file contains

A description of SPEC files that does not mention the parser: scan blocks with a number, a command, a
time, column names and rows of numbers, written as lines of text.
-/

namespace Verif.Spec
open Verif.Py

/-- A scan as it is written to a SPEC file. Commands, times and data rows are given by their words. -/
structure Block where
  number : Str
  command : List Str
  time : List Str
  /-- further header lines (`#P0 ...`, `#N 3`, comments) -/
  extra : List Str
  columns : List Str
  rows : List (List Str)

/-- The header lines of a block before the column names. -/
def Block.head (b : Block) : List Str :=
  [join [' '] (['#', 'S'] :: b.number :: b.command), join [' '] (['#', 'D'] :: b.time)] ++ b.extra

/-- The lines of a block: `#S number command`, `#D time`, further header lines, `#L` and the column
names separated by two blanks, the data rows. -/
def Block.render (b : Block) : List Str :=
  b.head ++ [(['#', 'L', ' '] ++ join [' ', ' '] b.columns)] ++ b.rows.map (join [' '])

/-- A column name without leading or trailing white space and without two consecutive blanks. -/
structure ColumnName (s : Str) : Prop where
  ne : s ≠ []
  noDouble : ¬ [' ', ' '] <:+: s
  noLead : ∀ c, s.head? = some c → isSpace c = false
  noTrail : NoTrail s

/-- A block that can be read back: all words are words, the further header lines are comment lines
that are not `#S`, `#D` or `#L` lines, there is at least one column, every row has one word per column
and does not start with `#`. -/
structure Block.WellFormed (b : Block) : Prop where
  number : IsWord b.number
  command : ∀ t ∈ b.command, IsWord t
  time : ∀ t ∈ b.time, IsWord t
  extra : ∀ l ∈ b.extra, startsWith l ['#'] = true ∧ startsWith l ['#', 'S'] = false ∧
    startsWith l ['#', 'D'] = false ∧ startsWith l ['#', 'L'] = false
  columns_ne : b.columns ≠ []
  columns : ∀ n ∈ b.columns, ColumnName n
  rows : ∀ r ∈ b.rows, r.length = b.columns.length ∧ (∀ t ∈ r, IsWord t) ∧
    ∀ t, r.head? = some t → startsWith t ['#'] = false

/-- The lines after a block: a blank line first, no `#S` line. -/
def GapOk (gap : List Str) : Prop :=
  (∀ l, gap.head? = some l → ∀ c ∈ l, isSpace c = true) ∧ ∀ l ∈ gap, startsWith l ['#', 'S'] = false

/-- A SPEC file: lines before the first scan, then blocks with the lines that follow them. -/
structure SpecFile where
  preamble : List Str
  items : List (Block × List Str)

/-- The lines of the file. -/
def SpecFile.render (f : SpecFile) : List Str :=
  f.preamble ++ f.items.flatMap fun i => i.1.render ++ i.2

/-- Every scan but the last one is followed by a blank line. -/
structure SpecFile.WellFormed (f : SpecFile) : Prop where
  preamble : ∀ l ∈ f.preamble, startsWith l ['#', 'S'] = false
  blocks : ∀ i ∈ f.items, i.1.WellFormed ∧ GapOk i.2
  separated : ∀ i ∈ f.items.dropLast, i.2 ≠ []

end Verif.Spec
