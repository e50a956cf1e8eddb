import Verif.Model.SpecFile
import Verif.Spec.SpecFile
import Verif.Lemmas.Except
import Verif.Lemmas.PyList

/-!
# C49, C50, C51: the SPEC file parser
-/

namespace Verif.Props
open Verif.Py Verif.Model Verif.Spec

/-! ### C51: column names -/

theorem join_cons_ne {sep p : Str} {l : List Str} (h : l ≠ []) : join sep (p :: l) = p ++ sep ++ join sep l := by
  cases l with
  | nil => exact absurd rfl h
  | cons q r => rfl

theorem splitOnAux_ne_nil (sep s cur : Str) (k : Nat) : splitOnAux sep s cur k ≠ [] := by
  induction s generalizing cur k with
  | nil => simp [splitOnAux]
  | cons c cs ih =>
    cases k with
    | zero =>
      rw [splitOnAux]
      split_ifs
      · simp
      · exact ih _ _
    | succ k => rw [splitOnAux]; exact ih _ _

theorem join_splitOnAux {sep : Str} (hs : sep ≠ []) (s cur : Str) (k : Nat) :
    join sep (splitOnAux sep s cur k) = cur.reverse ++ s.drop k := by
  induction s generalizing cur k with
  | nil => simp [splitOnAux, join]
  | cons c cs ih =>
    cases k with
    | succ k => rw [splitOnAux, ih]; rfl
    | zero =>
      rw [splitOnAux]
      split_ifs with h
      · rw [join_cons_ne (splitOnAux_ne_nil _ _ _ _), ih]
        rw [List.isPrefixOf_iff_prefix] at h
        obtain ⟨t, ht⟩ := h
        obtain ⟨a, sep', rfl⟩ : ∃ a l, sep = a :: l := by
          cases sep with
          | nil => exact absurd rfl hs
          | cons a l => exact ⟨a, l, rfl⟩
        rw [List.cons_append, List.cons.injEq] at ht
        obtain ⟨rfl, rfl⟩ := ht
        simp
      · rw [ih]; simp

/-- Joining the parts of a split gives the text back. -/
theorem join_splitOn {sep : Str} (hs : sep ≠ []) (s : Str) : join sep (splitOn sep s) = s := by
  rw [splitOn, join_splitOnAux hs]; simp

/-- The characters removed by `lstrip('#L ')`. -/
def stripSet (c : Char) : Bool := c = '#' || c = 'L' || c = ' '

theorem columnNames_eq {p : SpecParser} {n : Int} {i : Nat} {l : Str} (h : p.headerLine n = .ok i)
    (hl : p.lines[i]? = some l) : p.columnNames n = .ok (splitOn sep2 (lstripBy stripSet l)) := by
  have h1 : getItem p.lines (i : Int) = .ok l := by
    obtain ⟨hi, he⟩ := List.getElem?_eq_some_iff.1 hl
    rw [getItem_nat hi, he]
  unfold SpecParser.columnNames
  rw [h, bind_ok, h1, bind_ok]
  rfl

theorem head_join {names : List Str} {c : Char} (h : ∀ n ∈ names, n ≠ []) :
    (join sep2 names).head? = some c ↔ ∃ n, names.head? = some n ∧ n.head? = some c := by
  match names with
  | [] => simp [join]
  | [p] => simp [join]
  | p :: q :: r =>
    have hp := h p (by simp)
    rw [join, List.append_assoc, List.head?_append_of_ne_nil _ hp]
    simp

/-- C51, exact criterion: column names without leading, trailing or double blanks are read back
verbatim exactly if the first name does not start with `#` or `L` (these characters are removed
together with the tag of the line). -/
theorem C51_names_iff (p : SpecParser) (n : Int) (i : Nat) (names : List Str) (h : p.headerLine n = .ok i)
    (hne : names ≠ []) (hn : ∀ s ∈ names, ColumnName s)
    (hl : p.lines[i]? = some (['#', 'L', ' '] ++ join [' ', ' '] names)) :
    p.columnNames n = .ok names ↔
      ∀ s c, names.head? = some s → s.head? = some c → c ≠ '#' ∧ c ≠ 'L' := by
  have hsp : ∀ q ∈ names, ¬ sep2 <:+: q ∧ q.getLast? ≠ some ' ' := fun q hq =>
    ⟨(hn q hq).noDouble, fun hc => by
      have := (hn q hq).noTrail ' ' hc
      revert this; decide⟩
  have hstrip : lstripBy stripSet (['#', 'L', ' '] ++ join [' ', ' '] names) =
      (join sep2 names).dropWhile stripSet := by
    unfold lstripBy
    rw [show (['#', 'L', ' '] ++ join [' ', ' '] names : Str) = '#' :: 'L' :: ' ' :: join sep2 names from rfl]
    rw [List.dropWhile_cons, if_pos (by decide), List.dropWhile_cons, if_pos (by decide), List.dropWhile_cons,
      if_pos (by decide)]
  rw [columnNames_eq h hl, hstrip]
  constructor
  · intro hc s c hs hcs
    injection hc with hc
    have h1 : (join sep2 names).dropWhile stripSet = join sep2 names := by
      have := join_splitOn (sep := sep2) (by decide) ((join sep2 names).dropWhile stripSet)
      rw [hc] at this
      exact this.symm
    have h2 : (join sep2 names).head? = some c := (head_join fun m hm => (hn m hm).ne).2 ⟨s, hs, hcs⟩
    obtain ⟨rest, hrest⟩ : ∃ rest, join sep2 names = c :: rest := by
      cases hj : join sep2 names with
      | nil => rw [hj] at h2; cases h2
      | cons d r => rw [hj] at h2; simp only [List.head?_cons, Option.some.injEq] at h2; exact ⟨r, by rw [h2]⟩
    rw [hrest, List.dropWhile_cons] at h1
    by_cases hd : stripSet c = true
    · rw [if_pos hd] at h1
      have := (List.dropWhile_suffix (l := rest) stripSet).length_le
      rw [h1] at this
      simp at this
    · unfold stripSet at hd
      constructor <;> (rintro rfl; exact hd (by decide))
  · intro hc
    have h3 : (join sep2 names).dropWhile stripSet = join sep2 names := by
      cases hj : join sep2 names with
      | nil => rfl
      | cons d r =>
        have h2 : (join sep2 names).head? = some d := by rw [hj]; rfl
        obtain ⟨s, hs, hds⟩ := (head_join fun m hm => (hn m hm).ne).1 h2
        have h4 := hc s d hs hds
        have h5 := (hn s (List.mem_of_head? hs)).noLead d hds
        rw [List.dropWhile_cons, if_neg]
        unfold stripSet
        simp only [Bool.or_eq_true, decide_eq_true_eq, not_or]
        refine ⟨⟨h4.1, h4.2⟩, ?_⟩
        rintro rfl
        revert h5; decide
    rw [h3, splitOn_join hne hsp]

theorem columnName_of {s : Str} (h1 : s ≠ []) (h2 : ¬ [' ', ' '] <:+: s) (h3 : s.head?.any isSpace = false)
    (h4 : s.getLast?.any isSpace = false) : ColumnName s :=
  ⟨h1, h2, fun c hc => by rw [hc] at h3; exact h3, fun c hc => by rw [hc] at h4; exact h4⟩

/-- C51 is false: the first column name `Lambda` is read as `ambda`. -/
theorem C51_leading_l : ∃ p : SpecParser, ∃ n names, names ≠ [] ∧ (∀ s ∈ names, ColumnName s) ∧
    p.lines[0]? = some (['#', 'L', ' '] ++ join [' ', ' '] names) ∧ p.headerLine n = .ok 0 ∧
    p.columnNames n = .ok ["ambda".toList, "det".toList] ∧ names = ["Lambda".toList, "det".toList] := by
  refine ⟨⟨["#L Lambda  det".toList], [(1, ⟨0, 0, none, none, some 0⟩)]⟩, 1, ["Lambda".toList, "det".toList],
    by simp, ?_, by decide, rfl, by decide, rfl⟩
  intro s hs
  simp only [List.mem_cons, List.not_mem_nil, or_false] at hs
  rcases hs with rfl | rfl
  · exact columnName_of (by decide) (by decide) (by decide) (by decide)
  · exact columnName_of (by decide) (by decide) (by decide) (by decide)

/-! ### C50: indexing -/

/-- A line of white space. -/
def Blank (l : Str) : Prop := ∀ c ∈ l, isSpace c = true

theorem strip_eq_nil {l : Str} : stripBy isSpace l = [] ↔ Blank l := by
  unfold stripBy rstripBy lstripBy Blank
  rw [List.reverse_eq_nil_iff, List.dropWhile_eq_nil_iff]
  constructor
  · intro h
    rw [← List.dropWhile_eq_nil_iff (p := isSpace)]
    cases hd : l.dropWhile isSpace with
    | nil => rfl
    | cons c r =>
      have h1 := h c (by rw [hd]; simp)
      have h2 := List.head?_dropWhile_not isSpace l
      rw [hd] at h2
      simp [h1] at h2
  · intro h x hx
    exact h x ((List.dropWhile_suffix _).subset (by simpa using hx))

theorem not_blank_of_tag {l : Str} {c : Char} (h : startsWith l ['#', c] = true) : ¬ Blank l := by
  rw [startsWith_iff] at h
  obtain ⟨t, rfl⟩ := h
  intro hb
  have := hb '#' (by simp)
  revert this; decide

/-- `k` is the last line in `[a, b)` that starts with the tag. -/
structure LastTag (lines : List Str) (tag : Str) (a b k : Nat) (l : Str) : Prop where
  lo : a ≤ k
  hi : k < b
  line : lines[k]? = some l
  tagged : startsWith l tag = true
  last : ∀ j l', k < j → j < b → lines[j]? = some l' → startsWith l' tag = false

/-- No line in `[a, b)` starts with the tag. -/
def NoTag (lines : List Str) (tag : Str) (a b : Nat) : Prop :=
  ∀ j l, a ≤ j → j < b → lines[j]? = some l → startsWith l tag = false

/-- The block with the entry `e` of the scan index, stored under the number `n`: the lines from
`e.start` to `e.stop`. -/
structure BlockAt (lines : List Str) (n : Int) (e : ScanEntry) : Prop where
  /-- not empty -/
  order : e.start ≤ e.stop
  /-- within the file -/
  bound : e.stop < lines.length
  /-- starts with a `#S` line -/
  first : ∃ l, lines[e.start]? = some l ∧ startsWith l tagS = true
  /-- without blank lines -/
  inside : ∀ j l, e.start ≤ j → j ≤ e.stop → lines[j]? = some l → ¬ Blank l
  /-- followed by a blank line or the end of the file -/
  after : ∀ l, lines[e.stop + 1]? = some l → Blank l
  /-- number and command are those of the last `#S` line of the block -/
  number : ∃ k l t, LastTag lines tagS e.start (e.stop + 1) k l ∧ (splitWs l)[1]? = some t ∧
    parseInt t = some n ∧ e.command = some (join [' '] ((splitWs l).drop 2))
  /-- the time is that of the last `#D` line -/
  time : (∃ k l, LastTag lines tagD e.start (e.stop + 1) k l ∧ e.time = some (join [' '] ((splitWs l).drop 1))) ∨
    (NoTag lines tagD e.start (e.stop + 1) ∧ e.time = none)
  /-- the data header is the last `#L` line -/
  header : (∃ k l, LastTag lines tagL e.start (e.stop + 1) k l ∧ e.header = some k) ∨
    (NoTag lines tagL e.start (e.stop + 1) ∧ e.header = none)

variable {lines : List Str} {tag : Str} {a b k : Nat} {l : Str}

theorem LastTag.ext (h : LastTag lines tag a b k l) {l' : Str} (hl : lines[b]? = some l')
    (hn : startsWith l' tag = false) : LastTag lines tag a (b + 1) k l :=
  ⟨h.lo, by have := h.hi; omega, h.line, h.tagged, fun j m h1 h2 h3 => by
    rcases Nat.lt_succ_iff_lt_or_eq.1 h2 with h4 | rfl
    · exact h.last j m h1 h4 h3
    · rw [hl] at h3; cases h3; exact hn⟩

theorem NoTag.ext (h : NoTag lines tag a b) {l' : Str} (hl : lines[b]? = some l')
    (hn : startsWith l' tag = false) : NoTag lines tag a (b + 1) := fun j m h1 h2 h3 => by
  rcases Nat.lt_succ_iff_lt_or_eq.1 h2 with h4 | rfl
  · exact h j m h1 h4 h3
  · rw [hl] at h3; cases h3; exact hn

theorem LastTag.new {l' : Str} (hab : a ≤ b) (hl : lines[b]? = some l') (hn : startsWith l' tag = true) :
    LastTag lines tag a (b + 1) b l' := ⟨hab, by omega, hl, hn, fun j m h1 h2 _ => by omega⟩

/-- The state of the loop after the lines `[a, b)`. -/
structure LoopInv (lines : List Str) (a b : Nat) (s : BlockState) : Prop where
  number : (∃ k l t, LastTag lines tagS a b k l ∧ (splitWs l)[1]? = some t ∧ s.number = some t ∧
      s.command = some (join [' '] ((splitWs l).drop 2))) ∨
    (NoTag lines tagS a b ∧ s.number = none ∧ s.command = none)
  time : (∃ k l, LastTag lines tagD a b k l ∧ s.time = some (join [' '] ((splitWs l).drop 1))) ∨
    (NoTag lines tagD a b ∧ s.time = none)
  header : (∃ k l, LastTag lines tagL a b k l ∧ s.header = some k) ∨
    (NoTag lines tagL a b ∧ s.header = none)
  inside : ∀ j l, a ≤ j → j < b → lines[j]? = some l → ¬ Blank l

theorem tag_cases {c d : Char} (h : startsWith l ['#', c] = true) (hcd : c ≠ d) :
    startsWith l ['#', d] = false := by
  rw [startsWith_iff] at h
  obtain ⟨t, rfl⟩ := h
  by_contra h
  rw [Bool.not_eq_false, startsWith_iff, List.cons_append, List.cons_prefix_cons, List.cons_append,
    List.cons_prefix_cons] at h
  exact hcd h.2.1.symm

theorem blank_no_tag {c : Char} (h : Blank l) : startsWith l ['#', c] = false := by
  by_contra hc
  rw [Bool.not_eq_false] at hc
  exact not_blank_of_tag hc h

theorem blockLoop_spec (ls : List Str) (i : Nat) (s : BlockState) (h : lines.drop i = ls) (hai : a ≤ i)
    (hil : i ≤ lines.length) (inv : LoopInv lines a i s) (s' : BlockState) (e : Nat)
    (hr : blockLoop ls i s = .ok (s', e)) :
    i ≤ e ∧ e ≤ lines.length ∧ LoopInv lines a e s' ∧ (∀ l, lines[e]? = some l → Blank l) := by
  induction ls generalizing i s with
  | nil =>
    rw [blockLoop] at hr
    cases hr
    rw [List.drop_eq_nil_iff] at h
    refine ⟨le_refl _, hil, inv, fun l hl => ?_⟩
    rw [List.getElem?_eq_none h] at hl
    cases hl
  | cons l ls ih =>
    have hi : lines[i]? = some l := by
      have := congrArg (fun x => x[0]?) h
      simpa using this
    have hi' : i < lines.length := (List.getElem?_eq_some_iff.1 hi).1
    have hd : lines.drop (i + 1) = ls := by
      rw [← List.drop_drop, h]; rfl
    have hin : ∀ {P : Prop}, ¬ Blank l → ∀ j m, a ≤ j → j < i + 1 → lines[j]? = some m → ¬ Blank m := by
      intro _ hb j m h1 h2 h3
      rcases Nat.lt_succ_iff_lt_or_eq.1 h2 with h4 | rfl
      · exact inv.inside j m h1 h4 h3
      · rw [hi] at h3; cases h3; exact hb
    rw [blockLoop] at hr
    split_ifs at hr with hS hD hL hB
    · rw [bind_eq_ok] at hr
      obtain ⟨n, hn, hr⟩ := hr
      have hn' : (splitWs l)[1]? = some n := by
        rw [getItem_eq_ok_iff] at hn
        obtain ⟨k, hk, hk'⟩ := hn
        have : k = 1 := by
          unfold normIdx at hk
          rw [if_pos (by omega)] at hk
          split_ifs at hk
          simpa using hk.symm
        rw [← hk', this]
      have := ih (i + 1) _ hd (by omega) (by omega) ⟨Or.inl ⟨i, l, n, .new hai hi hS, hn', rfl, rfl⟩, ?_, ?_,
        hin (P := True) (not_blank_of_tag hS)⟩ hr
      · exact ⟨by omega, this.2⟩
      · rcases inv.time with ⟨k, m, h1, h2⟩ | ⟨h1, h2⟩
        · exact Or.inl ⟨k, m, h1.ext hi (tag_cases hS (by decide)), h2⟩
        · exact Or.inr ⟨h1.ext hi (tag_cases hS (by decide)), h2⟩
      · rcases inv.header with ⟨k, m, h1, h2⟩ | ⟨h1, h2⟩
        · exact Or.inl ⟨k, m, h1.ext hi (tag_cases hS (by decide)), h2⟩
        · exact Or.inr ⟨h1.ext hi (tag_cases hS (by decide)), h2⟩
    · rw [Bool.not_eq_true] at hS
      have := ih (i + 1) _ hd (by omega) (by omega) ⟨?_, Or.inl ⟨i, l, .new hai hi hD, rfl⟩, ?_,
        hin (P := True) (not_blank_of_tag hD)⟩ hr
      · exact ⟨by omega, this.2⟩
      · rcases inv.number with ⟨k, m, t, h1, h2⟩ | ⟨h1, h2⟩
        · exact Or.inl ⟨k, m, t, h1.ext hi hS, h2⟩
        · exact Or.inr ⟨h1.ext hi hS, h2⟩
      · rcases inv.header with ⟨k, m, h1, h2⟩ | ⟨h1, h2⟩
        · exact Or.inl ⟨k, m, h1.ext hi (tag_cases hD (by decide)), h2⟩
        · exact Or.inr ⟨h1.ext hi (tag_cases hD (by decide)), h2⟩
    · rw [Bool.not_eq_true] at hS hD
      have := ih (i + 1) _ hd (by omega) (by omega) ⟨?_, ?_, Or.inl ⟨i, l, .new hai hi hL, rfl⟩,
        hin (P := True) (not_blank_of_tag hL)⟩ hr
      · exact ⟨by omega, this.2⟩
      · rcases inv.number with ⟨k, m, t, h1, h2⟩ | ⟨h1, h2⟩
        · exact Or.inl ⟨k, m, t, h1.ext hi hS, h2⟩
        · exact Or.inr ⟨h1.ext hi hS, h2⟩
      · rcases inv.time with ⟨k, m, h1, h2⟩ | ⟨h1, h2⟩
        · exact Or.inl ⟨k, m, h1.ext hi hD, h2⟩
        · exact Or.inr ⟨h1.ext hi hD, h2⟩
    · cases hr
      refine ⟨le_refl _, hil, inv, fun m hm => ?_⟩
      rw [hi] at hm; cases hm
      exact strip_eq_nil.1 hB
    · rw [Bool.not_eq_true] at hS hD hL
      have := ih (i + 1) _ hd (by omega) (by omega) ⟨?_, ?_, ?_,
        hin (P := True) (fun hb => hB (strip_eq_nil.2 hb))⟩ hr
      · exact ⟨by omega, this.2⟩
      · rcases inv.number with ⟨k, m, t, h1, h2⟩ | ⟨h1, h2⟩
        · exact Or.inl ⟨k, m, t, h1.ext hi hS, h2⟩
        · exact Or.inr ⟨h1.ext hi hS, h2⟩
      · rcases inv.time with ⟨k, m, h1, h2⟩ | ⟨h1, h2⟩
        · exact Or.inl ⟨k, m, h1.ext hi hD, h2⟩
        · exact Or.inr ⟨h1.ext hi hD, h2⟩
      · rcases inv.header with ⟨k, m, h1, h2⟩ | ⟨h1, h2⟩
        · exact Or.inl ⟨k, m, h1.ext hi hL, h2⟩
        · exact Or.inr ⟨h1.ext hi hL, h2⟩

theorem searchFrom_none {ls : List Str} {i : Nat} (h : searchFrom ls i = none) :
    ∀ l ∈ ls, startsWith l tagS = false := by
  induction ls generalizing i with
  | nil => simp
  | cons l ls ih =>
    rw [searchFrom] at h
    split_ifs at h with hS
    intro m hm
    rcases List.mem_cons.1 hm with rfl | hm
    · simpa using hS
    · exact ih h m hm

theorem searchFrom_some {ls : List Str} {i k : Nat} (h : searchFrom ls i = some k) :
    i ≤ k ∧ (∃ l, ls[k - i]? = some l ∧ startsWith l tagS = true) ∧
      ∀ j l, j < k - i → ls[j]? = some l → startsWith l tagS = false := by
  induction ls generalizing i with
  | nil => cases h
  | cons l ls ih =>
    rw [searchFrom] at h
    split_ifs at h with hS
    · cases h
      exact ⟨le_refl _, ⟨l, by simp, hS⟩, fun j m hj => by omega⟩
    · obtain ⟨h1, ⟨m, h2, h3⟩, h4⟩ := ih h
      refine ⟨by omega, ⟨m, ?_, h3⟩, ?_⟩
      · rw [show k - i = (k - (i + 1)) + 1 by omega]; simpa using h2
      · intro j m' hj hm
        cases j with
        | zero => simp at hm; subst hm; simpa using hS
        | succ j => exact h4 j m' (by omega) (by simpa using hm)

theorem search_none {i : Nat} (h : searchForNextScan lines i = none) :
    ∀ j l, i ≤ j → lines[j]? = some l → startsWith l tagS = false := by
  intro j l hj hl
  refine searchFrom_none h l (List.mem_of_getElem? (i := j - i) ?_)
  rw [List.getElem?_drop, show i + (j - i) = j by omega, hl]

theorem search_some {i k : Nat} (h : searchForNextScan lines i = some k) :
    i ≤ k ∧ (∃ l, lines[k]? = some l ∧ startsWith l tagS = true) ∧
      ∀ j l, i ≤ j → j < k → lines[j]? = some l → startsWith l tagS = false := by
  obtain ⟨h1, ⟨l, h2, h3⟩, h4⟩ := searchFrom_some h
  rw [List.getElem?_drop, show i + (k - i) = k by omega] at h2
  refine ⟨h1, ⟨l, h2, h3⟩, fun j m hj hk hm => h4 (j - i) m (by omega) ?_⟩
  rw [List.getElem?_drop, show i + (j - i) = j by omega, hm]

theorem blockLoop_error {ls : List Str} {i : Nat} {s : BlockState} {e : PyErr} (h : blockLoop ls i s = .error e) :
    e = .indexError := by
  induction ls generalizing i s with
  | nil => cases h
  | cons l ls ih =>
    rw [blockLoop] at h
    split_ifs at h
    · cases hg : getItem (splitWs l) 1 with
      | error e' => rw [hg] at h; rw [getItem_error hg] at h; cases h; rfl
      | ok n => rw [hg] at h; exact ih h
    · exact ih h
    · exact ih h
    · exact ih h

/-- Everything that is known about a successful run of `_index_scans`. -/
structure IndexRun (lines : List Str) (from_ : Nat) (bs : ScanIndex) : Prop where
  blocks : ∀ b ∈ bs, BlockAt lines b.1 b.2 ∧ from_ ≤ b.2.start
  ordered : bs.Pairwise fun a b => a.2.stop < b.2.start
  complete : ∀ j l, from_ ≤ j → lines[j]? = some l → startsWith l tagS = true →
    ∃ b ∈ bs, b.2.start ≤ j ∧ j ≤ b.2.stop

/-- One round of `_index_scans`: nothing left, an error, or a block. -/
theorem index_step (lines : List Str) (from_ : Nat) :
    (searchForNextScan lines from_ = none ∧ ∀ limit idx, indexScans (limit + 1) lines from_ idx = .ok idx) ∨
    (∃ e, (e = .indexError ∨ e = .valueError) ∧ ∀ limit idx, indexScans (limit + 1) lines from_ idx = .error e) ∨
    (∃ n e, BlockAt lines n e ∧ from_ ≤ e.start ∧
      (∀ j l, from_ ≤ j → j < e.start → lines[j]? = some l → startsWith l tagS = false) ∧
      ∀ limit idx, indexScans (limit + 1) lines from_ idx = indexScans limit lines (e.stop + 1) (idx.set n e)) := by
  cases hs : searchForNextScan lines from_ with
  | none => exact Or.inl ⟨rfl, fun limit idx => by rw [indexScans, hs]⟩
  | some start =>
    right
    obtain ⟨h1, ⟨l0, h2, h3⟩, h4⟩ := search_some hs
    have hst : start < lines.length := (List.getElem?_eq_some_iff.1 h2).1
    cases hb : blockLoop (lines.drop start) start ⟨none, none, none, none⟩ with
    | error e =>
      exact Or.inl ⟨e, Or.inl (blockLoop_error hb), fun limit idx => by rw [indexScans, hs]; simp only [hb]; rfl⟩
    | ok r =>
      obtain ⟨s, i⟩ := r
      have inv0 : LoopInv lines start start ⟨none, none, none, none⟩ :=
        ⟨Or.inr ⟨fun j l h1 h2 => by omega, rfl, rfl⟩, Or.inr ⟨fun j l h1 h2 => by omega, rfl⟩,
          Or.inr ⟨fun j l h1 h2 => by omega, rfl⟩, fun j l h1 h2 => by omega⟩
      obtain ⟨g1, g2, g3, g4⟩ := blockLoop_spec _ start _ rfl (le_refl _) (by omega) inv0 s i hb
      have hlt : start < i := by
        rcases Nat.lt_or_ge start i with h | h
        · exact h
        · have : i = start := by omega
          subst this
          exact absurd (g4 _ h2) (not_blank_of_tag h3)
      rcases g3.number with ⟨k, m, t, u1, u2, u3, u4⟩ | ⟨u1, -, -⟩
      · cases hn : parseInt t with
        | none =>
          refine Or.inl ⟨.valueError, Or.inr rfl, fun limit idx => ?_⟩
          rw [indexScans, hs]
          simp only [hb, bind_ok, u3]
          rw [show pyInt t = .error .valueError by unfold pyInt; rw [hn]]
          rfl
        | some n =>
          have hi : i - 1 + 1 = i := by omega
          refine Or.inr ⟨n, ⟨start, i - 1, s.command, s.time, s.header⟩, ⟨by simp only; omega, by simp only; omega,
            ⟨l0, h2, h3⟩, ?_, ?_, ?_, ?_, ?_⟩, h1, h4, fun limit idx => ?_⟩
          · intro j m' hj hj' hm
            exact g3.inside j m' hj (by simp only at hj'; omega) hm
          · intro m' hm
            simp only [hi] at hm
            exact g4 m' hm
          · exact ⟨k, m, t, by simpa only [hi] using u1, u2, hn, u4⟩
          · simpa only [hi] using g3.time
          · simpa only [hi] using g3.header
          · rw [indexScans, hs]
            simp only [hb, bind_ok, u3]
            rw [show pyInt t = .ok n by unfold pyInt; rw [hn], bind_ok]
      · exact absurd (u1 start l0 (le_refl _) hlt h2) (by rw [h3]; simp)

theorem index_run {limit : Nat} {lines : List Str} {from_ : Nat} {idx r : ScanIndex}
    (h : indexScans limit lines from_ idx = .ok r) :
    ∃ bs : ScanIndex, r = bs.foldl (fun i b => i.set b.1 b.2) idx ∧ IndexRun lines from_ bs ∧ bs.length < limit ∧
      (∀ lim, bs.length < lim → indexScans lim lines from_ idx = .ok r) ∧
      ∀ lim, lim ≤ bs.length → indexScans lim lines from_ idx = .error .recursionError := by
  induction limit generalizing from_ idx with
  | zero => cases h
  | succ limit ih =>
    rcases index_step lines from_ with ⟨h1, h2⟩ | ⟨e, -, h2⟩ | ⟨n, e, h1, h2, h3, h4⟩
    · rw [h2] at h
      cases h
      refine ⟨[], rfl, ⟨by simp, List.Pairwise.nil, fun j l hj hl hS => ?_⟩, by simp, fun lim hl => ?_, fun lim hl => ?_⟩
      · rw [search_none h1 j l hj hl] at hS; cases hS
      · cases lim with
        | zero => simp at hl
        | succ lim => exact h2 lim _
      · cases lim with
        | zero => rfl
        | succ lim => simp at hl
    · rw [h2] at h; cases h
    · rw [h4] at h
      obtain ⟨bs, g1, g2, g3, g4, g5⟩ := ih h
      refine ⟨(n, e) :: bs, g1, ⟨?_, ?_, ?_⟩, by simpa using g3, fun lim hl => ?_, fun lim hl => ?_⟩
      · intro b hb
        rcases List.mem_cons.1 hb with rfl | hb
        · exact ⟨h1, h2⟩
        · obtain ⟨u, v⟩ := g2.blocks b hb
          have := h1.order
          exact ⟨u, by omega⟩
      · refine List.Pairwise.cons (fun b hb => ?_) g2.ordered
        have := (g2.blocks b hb).2
        simp only; omega
      · intro j l hj hl hS
        rcases Nat.lt_or_ge j e.start with hlt | hge
        · rw [h3 j l hj hlt hl] at hS; cases hS
        · rcases Nat.lt_or_ge e.stop j with hlt' | hge'
          · obtain ⟨b, hb, hb'⟩ := g2.complete j l (by omega) hl hS
            exact ⟨b, List.mem_cons_of_mem _ hb, hb'⟩
          · exact ⟨(n, e), List.mem_cons_self, hge, hge'⟩
      · cases lim with
        | zero => simp at hl
        | succ lim => rw [h4]; exact g4 lim (by simpa using hl)
      · cases lim with
        | zero => rfl
        | succ lim => rw [h4]; exact g5 lim (by simpa using hl)

theorem index_error {limit : Nat} {lines : List Str} {from_ : Nat} {idx : ScanIndex} {e : PyErr}
    (h : indexScans limit lines from_ idx = .error e) :
    e = .indexError ∨ e = .valueError ∨ (e = .recursionError ∧ limit ≤ lines.length - from_) := by
  induction limit generalizing from_ idx with
  | zero => cases h; exact Or.inr (Or.inr ⟨rfl, Nat.zero_le _⟩)
  | succ limit ih =>
    rcases index_step lines from_ with ⟨h1, h2⟩ | ⟨e', he, h2⟩ | ⟨n, e', h1, h2, h3, h4⟩
    · rw [h2] at h; cases h
    · rw [h2] at h; cases h; rcases he with he | he
      · exact Or.inl he
      · exact Or.inr (Or.inl he)
    · rw [h4] at h
      rcases ih h with h | h | ⟨h, h'⟩
      · exact Or.inl h
      · exact Or.inr (Or.inl h)
      · have := h1.order
        have := h1.bound
        exact Or.inr (Or.inr ⟨h, by omega⟩)

/-! The dictionary. -/

theorem ScanIndex.get_set (idx : ScanIndex) (n m : Int) (e : ScanEntry) :
    (idx.set n e).get m = if m = n then .ok e else idx.get m := by
  unfold ScanIndex.set
  by_cases hn : n ∈ idx.map Prod.fst
  · rw [if_pos hn]
    unfold ScanIndex.get
    induction idx with
    | nil => simp at hn
    | cons p idx ih =>
      rw [List.map_cons, List.find?_cons, List.find?_cons]
      by_cases hp : p.1 = n
      · rw [if_pos hp]
        by_cases hm : m = n
        · subst hm; simp
        · rw [if_neg hm]
          have h1 : ¬ n = m := fun h => hm h.symm
          have h2 : ¬ p.1 = m := by rw [hp]; exact h1
          simp only [h1, h2, decide_false]
          by_cases hn' : n ∈ idx.map Prod.fst
          · have := ih hn'
            rw [if_neg hm] at this
            exact this
          · have : idx.map (fun p => if p.1 = n then (n, e) else p) = idx := by
              conv_rhs => rw [← List.map_id idx]
              refine List.map_congr_left fun q hq => ?_
              rw [if_neg (fun h => hn' (List.mem_map.2 ⟨q, hq, h⟩)), id]
            rw [this]
      · rw [if_neg hp]
        have hn' : n ∈ idx.map Prod.fst := by
          rcases List.mem_cons.1 hn with h | h
          · exact absurd h.symm hp
          · exact h
        by_cases hpm : p.1 = m
        · have : ¬ m = n := by rw [← hpm]; exact hp
          simp [hpm, this]
        · simp only [hpm, decide_false]
          exact ih hn'
  · rw [if_neg hn]
    unfold ScanIndex.get
    rw [List.find?_append]
    cases hf : idx.find? (fun p => decide (p.1 = m)) with
    | some p =>
      have h1 := List.find?_some hf
      have h2 := List.mem_of_find?_eq_some hf
      simp only [decide_eq_true_eq] at h1
      have : ¬ m = n := by rintro rfl; exact hn (List.mem_map.2 ⟨p, h2, h1⟩)
      rw [if_neg this]; rfl
    | none =>
      by_cases hm : m = n
      · subst hm; simp
      · have : ¬ n = m := fun h => hm h.symm
        simp [this, hm]

/-- The last block with a number wins. -/
theorem get_foldl (bs idx : ScanIndex) (n : Int) :
    (bs.foldl (fun i b => i.set b.1 b.2) idx).get n =
      match (bs.filter fun b => b.1 = n).getLast? with
      | some b => .ok b.2
      | none => idx.get n := by
  induction bs generalizing idx with
  | nil => rfl
  | cons b bs ih =>
    rw [List.foldl_cons, ih, List.filter_cons]
    by_cases hb : b.1 = n
    · simp only [hb, decide_true, if_true]
      cases hl : bs.filter (fun b => decide (b.1 = n)) with
      | nil =>
        simp only [List.getLast?_nil, List.getLast?_singleton]
        rw [ScanIndex.get_set, if_pos rfl]
      | cons c r =>
        rw [List.getLast?_cons_cons]
        cases hL : (c :: r).getLast? with
        | none => simp at hL
        | some x => rfl
    · simp only [hb, decide_false]
      cases hl : (bs.filter (fun b => decide (b.1 = n))).getLast? with
      | none =>
        simp only [Bool.false_eq_true, if_false, hl]
        rw [ScanIndex.get_set, if_neg (fun h => hb h.symm)]
      | some c => simp only [Bool.false_eq_true, if_false, hl]

/-- C50: a successfully indexed file consists of blocks that are within the file, ordered and
disjoint; a block starts with a `#S` line, contains no blank line, is followed by a blank line or the
end of the file; every `#S` line belongs to one of them. Number, command, time and header line of an
entry are those of the last corresponding line of its block. For a repeated scan number the last
block is found. -/
theorem C50_blocks_partial (limit : Nat) (file : List Str) (p : SpecParser)
    (h : SpecParser.init limit file = .ok p) :
    p.lines = file.map (rstripBy isSpace) ∧
    ∃ bs : List (Int × ScanEntry),
      (∀ b ∈ bs, BlockAt p.lines b.1 b.2) ∧
      (bs.Pairwise fun a b => a.2.stop < b.2.start) ∧
      (∀ j l, p.lines[j]? = some l → startsWith l tagS = true → ∃ b ∈ bs, b.2.start ≤ j ∧ j ≤ b.2.stop) ∧
      (∀ n, p.index.get n = match (bs.filter fun b => b.1 = n).getLast? with
        | some b => .ok b.2
        | none => .error .keyError) ∧
      bs.length < limit ∧
      (∀ lim, bs.length < lim → SpecParser.init lim file = .ok p) ∧
      ∀ lim, lim ≤ bs.length → SpecParser.init lim file = .error .recursionError := by
  unfold SpecParser.init at h
  simp only at h
  rw [bind_eq_ok] at h
  obtain ⟨idx, h1, h2⟩ := h
  cases h2
  obtain ⟨bs, g1, g2, g3, g4, g5⟩ := index_run h1
  refine ⟨rfl, bs, fun b hb => (g2.blocks b hb).1, g2.ordered, fun j l => g2.complete j l (Nat.zero_le _),
    fun n => ?_, g3, fun lim hl => ?_, fun lim hl => ?_⟩
  · simp only [g1]
    exact get_foldl bs [] n
  · unfold SpecParser.init
    simp only [g4 lim hl]
    rfl
  · unfold SpecParser.init
    simp only [g5 lim hl]
    rfl

/-- C50, termination: a failure is an `IndexError` (a `#S` line without a number), a `ValueError` (a
number that is not an integer) or a `RecursionError`, and the latter is impossible if the stack has
room for one call per line of the file. -/
theorem C50_errors (limit : Nat) (file : List Str) (e : PyErr) (h : SpecParser.init limit file = .error e) :
    e = .indexError ∨ e = .valueError ∨ (e = .recursionError ∧ limit ≤ file.length) := by
  unfold SpecParser.init at h
  simp only at h
  cases hi : indexScans limit (file.map (rstripBy isSpace)) 0 [] with
  | ok idx => rw [hi] at h; cases h
  | error e' =>
    rw [hi] at h
    cases h
    simpa using index_error hi

/-- C50 is false: for every size of the interpreter stack there is a regular file, with scans
separated by blank lines, whose indexing exhausts it. -/
theorem C50_recursion (limit : Nat) :
    ∃ file : List Str, SpecParser.init limit file = .error .recursionError ∧
      ∃ p, SpecParser.init (limit + 1) file = .ok p := by
  have key : ∀ (n : Nat) (pre : List Str) (idx : ScanIndex),
      ∃ r, indexScans (n + 1) (pre ++ (List.replicate n [['#', 'S', ' ', '1'], []]).flatten) pre.length idx = .ok r ∧
        indexScans n (pre ++ (List.replicate n [['#', 'S', ' ', '1'], []]).flatten) pre.length idx =
          .error .recursionError := by
    intro n
    induction n with
    | zero =>
      intro pre idx
      refine ⟨idx, ?_, rfl⟩
      rw [indexScans]
      simp [searchForNextScan, searchFrom]
    | succ n ih =>
      intro pre idx
      have e1 : pre ++ (List.replicate (n + 1) [['#', 'S', ' ', '1'], []]).flatten =
          (pre ++ [['#', 'S', ' ', '1']]) ++ ([] :: (List.replicate n [['#', 'S', ' ', '1'], []]).flatten) := by
        rw [List.replicate_succ, List.flatten_cons]; simp
      have e2 : pre ++ (List.replicate (n + 1) [['#', 'S', ' ', '1'], []]).flatten =
          (pre ++ [['#', 'S', ' ', '1'], []]) ++ (List.replicate n [['#', 'S', ' ', '1'], []]).flatten := by
        rw [List.replicate_succ, List.flatten_cons]; simp
      have hstep : ∀ lim, indexScans (lim + 1) (pre ++ (List.replicate (n + 1) [['#', 'S', ' ', '1'], []]).flatten)
          pre.length idx = indexScans lim (pre ++ (List.replicate (n + 1) [['#', 'S', ' ', '1'], []]).flatten)
            (pre.length + 1) (idx.set 1 ⟨pre.length, pre.length, some [], none, none⟩) := by
        intro lim
        have hd : (pre ++ (List.replicate (n + 1) [['#', 'S', ' ', '1'], []]).flatten).drop pre.length =
            ['#', 'S', ' ', '1'] :: [] :: (List.replicate n [['#', 'S', ' ', '1'], []]).flatten := by
          rw [List.drop_left, List.replicate_succ, List.flatten_cons]; rfl
        rw [indexScans]
        have hs : searchForNextScan (pre ++ (List.replicate (n + 1) [['#', 'S', ' ', '1'], []]).flatten) pre.length =
            some pre.length := by
          unfold searchForNextScan
          rw [hd, searchFrom, if_pos (by decide)]
        rw [hs]
        simp only
        rw [hd, blockLoop, if_pos (by decide), show getItem (splitWs ['#', 'S', ' ', '1']) 1 = .ok ['1'] from by decide,
          bind_ok, blockLoop, if_neg (by decide), if_neg (by decide), if_neg (by decide), if_pos (by decide), bind_ok]
        simp only
        rw [show pyInt ['1'] = .ok 1 from by decide, bind_ok]
        rfl
      -- the next search starts at the blank line
      have hblank : ∀ lim idx', indexScans (lim + 1)
          ((pre ++ [['#', 'S', ' ', '1']]) ++ ([] :: (List.replicate n [['#', 'S', ' ', '1'], []]).flatten))
          (pre.length + 1) idx' = indexScans (lim + 1)
          ((pre ++ [['#', 'S', ' ', '1'], []]) ++ (List.replicate n [['#', 'S', ' ', '1'], []]).flatten)
          (pre ++ [['#', 'S', ' ', '1'], []]).length idx' := by
        intro lim idx'
        rw [← e1, e2]
        rw [indexScans, indexScans]
        have : searchForNextScan ((pre ++ [['#', 'S', ' ', '1'], []]) ++
            (List.replicate n [['#', 'S', ' ', '1'], []]).flatten) (pre.length + 1) =
            searchForNextScan ((pre ++ [['#', 'S', ' ', '1'], []]) ++
              (List.replicate n [['#', 'S', ' ', '1'], []]).flatten) (pre ++ [['#', 'S', ' ', '1'], []]).length := by
          unfold searchForNextScan
          rw [List.drop_left, ← e2, e1, show pre.length + 1 = (pre ++ [['#', 'S', ' ', '1']]).length by simp,
            List.drop_left, searchFrom, if_neg (by decide)]
          simp
        rw [this]
      obtain ⟨r, h1, h2⟩ := ih (pre ++ [['#', 'S', ' ', '1'], []])
        (idx.set 1 ⟨pre.length, pre.length, some [], none, none⟩)
      refine ⟨r, ?_, ?_⟩
      · rw [hstep, e1, hblank, h1]
      · cases n with
        | zero => rw [hstep]; rfl
        | succ n => rw [hstep, e1, hblank, h2]
  refine ⟨(List.replicate limit [['#', 'S', ' ', '1'], []]).flatten, ?_, ?_⟩
  all_goals
    have hm : ((List.replicate limit [['#', 'S', ' ', '1'], []]).flatten).map (rstripBy isSpace) =
        (List.replicate limit [['#', 'S', ' ', '1'], []]).flatten := by
      conv_rhs => rw [← List.map_id (List.replicate limit [['#', 'S', ' ', '1'], []]).flatten]
      refine List.map_congr_left fun l hl => ?_
      rw [List.mem_flatten] at hl
      obtain ⟨m, hm, hl⟩ := hl
      rw [List.eq_of_mem_replicate hm] at hl
      simp only [List.mem_cons, List.not_mem_nil, or_false] at hl
      rcases hl with rfl | rfl <;> decide
    obtain ⟨r, h1, h2⟩ := key limit [] []
    rw [List.nil_append, List.length_nil] at h1 h2
  · unfold SpecParser.init
    simp only [hm, h2]
    rfl
  · refine ⟨⟨(List.replicate limit [['#', 'S', ' ', '1'], []]).flatten, r⟩, ?_⟩
    unfold SpecParser.init
    simp only [hm, h1]
    rfl

/-! ### C49: reading a file back -/

section Render

theorem rl_words {l : List Str} (h : ∀ t ∈ l, IsWord t) : rstripBy isSpace (join [' '] l) = join [' '] l :=
  rstrip_eq (noTrail_join fun t ht => ⟨(h t ht).1, noTrail_word (h t ht)⟩)

theorem isWord_tag (c : Char) (h : isSpace c = false) : IsWord ['#', c] :=
  ⟨by simp, fun d hd => by
    rcases List.mem_cons.1 hd with rfl | hd
    · decide
    · rw [List.mem_singleton] at hd; subst hd; exact h⟩

theorem startsWith_join {t w : Str} {l : List Str} (h : startsWith t w = true) : startsWith (join [' '] (t :: l)) w = true := by
  rw [startsWith_iff] at *
  cases l with
  | nil => exact h
  | cons a l => rw [join, List.append_assoc]; exact h.trans (List.prefix_append _ _)

/-- Lines in the middle of a block that are neither tagged nor blank. -/
def PlainLine (l : Str) : Prop :=
  startsWith l tagS = false ∧ startsWith l tagD = false ∧ startsWith l tagL = false ∧ stripBy isSpace l ≠ []

theorem blockLoop_plain {ls : List Str} (h : ∀ l ∈ ls, PlainLine l) (rest : List Str) (i : Nat) (s : BlockState) :
    blockLoop (ls ++ rest) i s = blockLoop rest (i + ls.length) s := by
  induction ls generalizing i with
  | nil => rfl
  | cons l ls ih =>
    obtain ⟨h1, h2, h3, h4⟩ := h l List.mem_cons_self
    rw [List.cons_append, blockLoop, if_neg (by simp [h1]), if_neg (by simp [h2]), if_neg (by simp [h3]), if_neg h4,
      ih (fun m hm => h m (List.mem_cons_of_mem _ hm)), List.length_cons]
    congr 1; omega

theorem plainLine_of_hash {l : Str} (h0 : startsWith l ['#'] = true) (h1 : startsWith l ['#', 'S'] = false)
    (h2 : startsWith l ['#', 'D'] = false) (h3 : startsWith l ['#', 'L'] = false) :
    PlainLine (rstripBy isSpace l) := by
  refine ⟨startsWith_rstrip _ h1, startsWith_rstrip _ h2, startsWith_rstrip _ h3, ?_⟩
  rw [startsWith_iff] at h0
  obtain ⟨t, rfl⟩ := h0
  intro hc
  rw [strip_eq_nil] at hc
  have hne : rstripBy isSpace (['#'] ++ t) ≠ [] := by
    unfold rstripBy
    intro h
    rw [List.reverse_eq_nil_iff, List.dropWhile_eq_nil_iff] at h
    have := h '#' (by simp)
    revert this; decide
  obtain ⟨c, r, hcr⟩ : ∃ c r, rstripBy isSpace (['#'] ++ t) = c :: r := by
    cases h : rstripBy isSpace (['#'] ++ t) with
    | nil => exact absurd h hne
    | cons c r => exact ⟨c, r, rfl⟩
  have hp := rstrip_prefix isSpace (['#'] ++ t)
  rw [hcr, List.singleton_append, List.cons_prefix_cons] at hp
  have := hc c (by rw [hcr]; simp)
  rw [hp.1] at this
  revert this; decide

theorem plainLine_row {r : List Str} (hne : r ≠ []) (h : ∀ t ∈ r, IsWord t)
    (hh : ∀ t, r.head? = some t → startsWith t ['#'] = false) :
    PlainLine (join [' '] r) ∧ startsWith (join [' '] r) ['#'] = false ∧ join [' '] r ≠ [] := by
  obtain ⟨t, r', rfl⟩ : ∃ t r', r = t :: r' := by
    cases r with
    | nil => exact absurd rfl hne
    | cons t r' => exact ⟨t, r', rfl⟩
  have ht := h t List.mem_cons_self
  have hs := hh t rfl
  obtain ⟨c, w, rfl⟩ : ∃ c w, t = c :: w := by
    cases t with
    | nil => exact absurd rfl ht.1
    | cons c w => exact ⟨c, w, rfl⟩
  obtain ⟨rest, hrest⟩ : ∃ rest, join [' '] ((c :: w) :: r') = c :: rest := by
    cases r' with
    | nil => exact ⟨w, rfl⟩
    | cons a l => exact ⟨w ++ [' '] ++ join [' '] (a :: l), rfl⟩
  have hc : c ≠ '#' := by
    rintro rfl
    rw [show startsWith ('#' :: w) ['#'] = true from startsWith_iff.2 (List.prefix_append ['#'] w)] at hs
    cases hs
  have hno : ∀ w', startsWith (c :: rest) ('#' :: w') = false := by
    intro w'
    by_contra hb
    rw [Bool.not_eq_false, startsWith_iff, List.cons_prefix_cons] at hb
    exact hc hb.1.symm
  rw [hrest]
  exact ⟨⟨hno _, hno _, hno _, stripBy_of_noSpaceHead (ht.2 c List.mem_cons_self)⟩, hno _, by simp⟩

variable {b : Block}

/-- The lines of a block as the parser stores them. -/
def storedHead (b : Block) : List Str :=
  [join [' '] (tagS :: b.number :: b.command), join [' '] (tagD :: b.time)] ++ b.extra.map (rstripBy isSpace)

def storedLine (b : Block) : Str := ['#', 'L', ' '] ++ join sep2 b.columns

def stored (b : Block) : List Str := storedHead b ++ [storedLine b] ++ b.rows.map (join [' '])

theorem words_S (h : b.WellFormed) : ∀ t ∈ tagS :: b.number :: b.command, IsWord t := by
  intro t ht
  rcases List.mem_cons.1 ht with rfl | ht
  · exact isWord_tag 'S' (by decide)
  rcases List.mem_cons.1 ht with rfl | ht
  · exact h.number
  · exact h.command t ht

theorem words_D (h : b.WellFormed) : ∀ t ∈ tagD :: b.time, IsWord t := by
  intro t ht
  rcases List.mem_cons.1 ht with rfl | ht
  · exact isWord_tag 'D' (by decide)
  · exact h.time t ht

theorem render_stored (h : b.WellFormed) : b.render.map (rstripBy isSpace) = stored b := by
  unfold Block.render stored storedHead Block.head
  simp only [List.map_append, List.map_cons, List.map_nil]
  rw [show rstripBy isSpace (join [' '] (['#', 'S'] :: b.number :: b.command)) = _ from rl_words (words_S h),
    show rstripBy isSpace (join [' '] (['#', 'D'] :: b.time)) = _ from rl_words (words_D h)]
  have h1 : rstripBy isSpace (['#', 'L', ' '] ++ join [' ', ' '] b.columns) = storedLine b := by
    refine rstrip_eq (noTrail_append (join_ne_nil h.columns_ne fun t ht => (h.columns t ht).ne) ?_)
    exact noTrail_join fun t ht => ⟨(h.columns t ht).ne, (h.columns t ht).noTrail⟩
  rw [h1]
  congr 1
  rw [List.map_map]
  exact List.map_congr_left fun r hr => rl_words (h.rows r hr).2.1

theorem blockLoop_stored (h : b.WellFormed) (tail : List Str) (htail : ∀ l, tail.head? = some l → l = [])
    (i : Nat) (s : BlockState) :
    blockLoop (stored b ++ tail) i s =
      .ok (⟨some b.number, some (join [' '] b.command), some (join [' '] b.time), some (i + (storedHead b).length)⟩,
        i + (stored b).length) := by
  have hrow : ∀ r ∈ b.rows, PlainLine (join [' '] r) := fun r hr => by
    obtain ⟨h1, h2, h3⟩ := h.rows r hr
    refine (plainLine_row ?_ h2 h3).1
    rintro rfl
    exact h.columns_ne (List.length_eq_zero_iff.1 h1.symm)
  have h1 : blockLoop (stored b ++ tail) i s = blockLoop (b.extra.map (rstripBy isSpace) ++ (storedLine b ::
      (b.rows.map (join [' ']) ++ tail))) (i + 1 + 1)
      ⟨some b.number, some (join [' '] b.command), some (join [' '] b.time), s.header⟩ := by
    rw [show stored b ++ tail = join [' '] (tagS :: b.number :: b.command) :: join [' '] (tagD :: b.time) ::
      (b.extra.map (rstripBy isSpace) ++ (storedLine b :: (b.rows.map (join [' ']) ++ tail))) by
        simp [stored, storedHead]]
    rw [blockLoop, if_pos (startsWith_join (by decide)), splitWs_join (words_S h)]
    rw [show getItem (tagS :: b.number :: b.command) 1 = .ok b.number from by
      rw [show (1 : Int) = ((1 : Nat) : Int) from rfl, getItem_nat (by simp)]; rfl, bind_ok]
    rw [blockLoop, if_neg (by
      rw [show startsWith (join [' '] (tagD :: b.time)) tagS = false from
        tag_cases (c := 'D') (d := 'S') (startsWith_join (t := tagD) (by decide)) (by decide)]
      simp),
      if_pos (startsWith_join (by decide)), splitWs_join (words_D h)]
    rfl
  rw [h1, blockLoop_plain (by
    intro l hl
    obtain ⟨m, hm, rfl⟩ := List.mem_map.1 hl
    obtain ⟨u0, u1, u2, u3⟩ := h.extra m hm
    exact plainLine_of_hash u0 u1 u2 u3)]
  have hL : startsWith (storedLine b) tagL = true :=
    startsWith_iff.2 ⟨' ' :: join sep2 b.columns, rfl⟩
  have hLS : startsWith (storedLine b) tagS = false := tag_cases (c := 'L') hL (by decide)
  have hLD : startsWith (storedLine b) tagD = false := tag_cases (c := 'L') hL (by decide)
  rw [blockLoop, if_neg (by rw [hLS]; simp), if_neg (by rw [hLD]; simp), if_pos hL,
    blockLoop_plain (by
      intro l hl
      obtain ⟨r, hr, rfl⟩ := List.mem_map.1 hl
      exact hrow r hr)]
  have hend : ∀ i s, blockLoop tail i s = .ok (s, i) := by
    intro i s
    cases tail with
    | nil => rfl
    | cons l t =>
      have := htail l rfl
      subst this
      rw [blockLoop, if_neg (by decide), if_neg (by decide), if_neg (by decide), if_pos (by decide)]
  rw [hend]
  have e1 : i + 1 + 1 + (b.extra.map (rstripBy isSpace)).length = i + (storedHead b).length := by
    simp only [storedHead, List.length_append, List.length_cons, List.length_nil, List.length_map]; omega
  have e2 : i + (storedHead b).length + 1 + (b.rows.map (join [' '])).length = i + (stored b).length := by
    simp only [stored, List.length_append, List.length_cons, List.length_nil]; omega
  rw [e1, e2]

theorem searchFrom_skip {g : List Str} (h : ∀ l ∈ g, startsWith l tagS = false) (rest : List Str) (i : Nat) :
    searchFrom (g ++ rest) i = searchFrom rest (i + g.length) := by
  induction g generalizing i with
  | nil => rfl
  | cons l g ih =>
    rw [List.cons_append, searchFrom, if_neg (by simp [h l List.mem_cons_self]),
      ih (fun m hm => h m (List.mem_cons_of_mem _ hm)), List.length_cons]
    congr 1; omega

/-- The stored lines of a file. -/
def storedItems (items : List (Block × List Str)) : List Str :=
  items.flatMap fun i => stored i.1 ++ i.2.map (rstripBy isSpace)

/-- What the index contains for a block. -/
def EntryOf (lines : List Str) (item : Block × List Str) (p : Int × ScanEntry) : Prop :=
  parseInt item.1.number = some p.1 ∧ p.2.command = some (join [' '] item.1.command) ∧
    p.2.time = some (join [' '] item.1.time) ∧ ∃ h tail, p.2.header = some h ∧
      lines[h]? = some (storedLine item.1) ∧ lines.drop (h + 1) = item.1.rows.map (join [' ']) ++ tail ∧
      ∀ l, tail.head? = some l → l = []

theorem blank_rstrip {l : Str} (h : ∀ c ∈ l, isSpace c = true) : rstripBy isSpace l = [] := by
  unfold rstripBy
  rw [List.reverse_eq_nil_iff, List.dropWhile_eq_nil_iff]
  intro c hc
  exact h c (by simpa using hc)

theorem index_items (items : List (Block × List Str)) (lines g : List Str) (pos limit : Nat) (idx : ScanIndex)
    (hd : lines.drop pos = g ++ storedItems items) (hg : ∀ l ∈ g, startsWith l tagS = false)
    (hw : ∀ i ∈ items, i.1.WellFormed ∧ GapOk i.2) (hsep : ∀ i ∈ items.dropLast, i.2 ≠ [])
    (nums : List Int) (hnum : List.Forall₂ (fun (i : Block × List Str) n => parseInt i.1.number = some n) items nums)
    (hnd : (idx.map Prod.fst ++ nums).Nodup) (hlim : items.length < limit) :
    ∃ es : ScanIndex, indexScans limit lines pos idx = .ok (idx ++ es) ∧ es.map Prod.fst = nums ∧
      List.Forall₂ (EntryOf lines) items es := by
  induction items generalizing g pos limit idx nums with
  | nil =>
    cases hnum
    obtain ⟨lim, rfl⟩ : ∃ k, limit = k + 1 := ⟨limit - 1, by simp at hlim; omega⟩
    refine ⟨[], ?_, rfl, List.Forall₂.nil⟩
    rw [indexScans]
    have : searchForNextScan lines pos = none := by
      unfold searchForNextScan
      rw [hd, searchFrom_skip hg]; rfl
    rw [this, List.append_nil]
  | cons it items ih =>
    obtain ⟨lim, rfl⟩ : ∃ k, limit = k + 1 := ⟨limit - 1, by simp at hlim; omega⟩
    cases hnum with
    | cons hn hnum =>
    rename_i n nums
    obtain ⟨hwf, hgap⟩ := hw it List.mem_cons_self
    have hsi : storedItems (it :: items) = stored it.1 ++ (it.2.map (rstripBy isSpace) ++ storedItems items) := by
      unfold storedItems; rw [List.flatMap_cons, List.append_assoc]
    have htail : ∀ l, (it.2.map (rstripBy isSpace) ++ storedItems items).head? = some l → l = [] := by
      intro l hl
      cases hg2 : it.2 with
      | nil =>
        cases items with
        | nil => rw [hg2] at hl; simp [storedItems] at hl
        | cons j items => exact absurd hg2 (hsep it (by simp))
      | cons m g2 =>
        rw [hg2] at hl
        simp only [List.map_cons, List.cons_append, List.head?_cons, Option.some.injEq] at hl
        rw [← hl]
        exact blank_rstrip (hgap.1 m (by rw [hg2]; rfl))
    have hs0 : startsWith (join [' '] (tagS :: it.1.number :: it.1.command)) tagS = true :=
      startsWith_join (by decide)
    have hstored : ∃ r, stored it.1 = join [' '] (tagS :: it.1.number :: it.1.command) :: r :=
      ⟨_, by unfold stored storedHead; simp only [List.cons_append, List.append_assoc]; rfl⟩
    obtain ⟨r0, hr0⟩ := hstored
    have hsearch : searchForNextScan lines pos = some (pos + g.length) := by
      unfold searchForNextScan
      rw [hd, searchFrom_skip hg, hsi, hr0, List.cons_append, searchFrom, if_pos hs0]
    have hdrop : lines.drop (pos + g.length) = stored it.1 ++ (it.2.map (rstripBy isSpace) ++ storedItems items) := by
      rw [← List.drop_drop, hd, List.drop_left, hsi]
    have hpos : 0 < (stored it.1).length := by rw [hr0]; simp
    have hstep : indexScans (lim + 1) lines pos idx = indexScans lim lines (pos + g.length + (stored it.1).length)
        (idx ++ [(n, ⟨pos + g.length, pos + g.length + (stored it.1).length - 1, some (join [' '] it.1.command),
          some (join [' '] it.1.time), some (pos + g.length + (storedHead it.1).length)⟩)]) := by
      rw [indexScans, hsearch]
      simp only
      rw [hdrop, blockLoop_stored hwf _ htail, bind_ok]
      simp only
      rw [show pyInt it.1.number = .ok n by unfold pyInt; rw [hn], bind_ok]
      rw [show pos + g.length + (stored it.1).length - 1 + 1 = pos + g.length + (stored it.1).length by omega]
      have hset : n ∉ idx.map Prod.fst := by
        intro hc
        exact List.disjoint_of_nodup_append hnd hc List.mem_cons_self
      unfold ScanIndex.set
      rw [if_neg hset]
    have hd2 : lines.drop (pos + g.length + (stored it.1).length) =
        it.2.map (rstripBy isSpace) ++ storedItems items := by
      rw [← List.drop_drop, hdrop, List.drop_left]
    obtain ⟨es, h1, h2, h3⟩ := ih (it.2.map (rstripBy isSpace)) (pos + g.length + (stored it.1).length) lim
      (idx ++ [(n, ⟨pos + g.length, pos + g.length + (stored it.1).length - 1, some (join [' '] it.1.command),
          some (join [' '] it.1.time), some (pos + g.length + (storedHead it.1).length)⟩)]) hd2
      (by
        intro l hl
        obtain ⟨m, hm, rfl⟩ := List.mem_map.1 hl
        exact startsWith_rstrip _ (hgap.2 m hm))
      (fun i hi => hw i (List.mem_cons_of_mem _ hi))
      (fun i hi => hsep i (by
        cases items with
        | nil => simp at hi
        | cons j items => rw [List.dropLast_cons_cons]; exact List.mem_cons_of_mem _ hi))
      nums hnum (by simpa using hnd) (by simpa using hlim)
    refine ⟨(n, ⟨pos + g.length, pos + g.length + (stored it.1).length - 1, some (join [' '] it.1.command),
          some (join [' '] it.1.time), some (pos + g.length + (storedHead it.1).length)⟩) :: es, ?_, ?_, ?_⟩
    · rw [hstep, h1]; simp
    · simp [h2]
    · refine List.Forall₂.cons ⟨hn, rfl, rfl, _, it.2.map (rstripBy isSpace) ++ storedItems items, rfl, ?_, ?_, htail⟩ h3
      · have : lines[pos + g.length + (storedHead it.1).length]? =
            (lines.drop (pos + g.length))[(storedHead it.1).length]? := by rw [List.getElem?_drop]
        rw [this, hdrop]
        simp [stored]
      · rw [show pos + g.length + (storedHead it.1).length + 1 = (pos + g.length) + ((storedHead it.1).length + 1) by
          omega, ← List.drop_drop, hdrop, stored, List.append_assoc,
          show (storedHead it.1).length + 1 = (storedHead it.1 ++ [storedLine it.1]).length by simp, List.drop_left]

theorem get_of_nodup {idx : ScanIndex} (hn : (idx.map Prod.fst).Nodup) {p : Int × ScanEntry} (hp : p ∈ idx) :
    idx.get p.1 = .ok p.2 := by
  unfold ScanIndex.get
  cases hf : idx.find? (fun q => decide (q.1 = p.1)) with
  | none =>
    have := List.find?_eq_none.1 hf p hp
    simp at this
  | some q =>
    have h1 := List.find?_some hf
    have h2 := List.mem_of_find?_eq_some hf
    simp only [decide_eq_true_eq] at h1
    have : q = p := List.inj_on_of_nodup_map hn h2 hp h1
    rw [this]

variable {F : Type}

theorem dataLines_rows (h : b.WellFormed) (tail : List Str) (htail : ∀ l, tail.head? = some l → l = []) :
    dataLines (b.rows.map (join [' ']) ++ tail) = b.rows.map (join [' ']) := by
  unfold dataLines
  rw [List.takeWhile_append_of_pos]
  · have : tail.takeWhile (fun l => !(startsWith l ['#'] || decide (l = []))) = [] := by
      cases tail with
      | nil => rfl
      | cons l t =>
        have := htail l rfl
        subst this
        rw [List.takeWhile_cons, if_neg (by decide)]
    rw [this, List.append_nil]
  · intro l hl
    obtain ⟨r, hr, rfl⟩ := List.mem_map.1 hl
    obtain ⟨h1, h2, h3⟩ := h.rows r hr
    obtain ⟨-, h4, h5⟩ := plainLine_row (by
      rintro rfl
      exact h.columns_ne (List.length_eq_zero_iff.1 h1.symm)) h2 h3
    simp [h4, h5]

theorem rows_split (h : b.WellFormed) : (b.rows.map (join [' '])).map splitWs = b.rows := by
  rw [List.map_map]
  conv_rhs => rw [← List.map_id b.rows]
  exact List.map_congr_left fun r hr => splitWs_join (h.rows r hr).2.1

theorem floatArray_rows {pf : Str → Option F} {val : Str → F} {rows : List (List Str)} {n : Nat}
    (hlen : ∀ r ∈ rows, r.length = n) (hv : ∀ r ∈ rows, ∀ t ∈ r, pf t = some (val t)) :
    floatArray pf rows = .ok (rows.map (List.map val)) := by
  unfold floatArray
  cases rows with
  | nil => rfl
  | cons r rs =>
    simp only
    rw [if_pos (fun s hs => by rw [hlen s hs, hlen r List.mem_cons_self])]
    refine mapM_eq_ok_map fun s hs => mapM_eq_ok_map fun t ht => ?_
    rw [hv s hs t ht]

theorem extract_of_entry {p : SpecParser} {item : Block × List Str} {q : Int × ScanEntry} {pf : Str → Option F}
    {val : Str → F} (hw : item.1.WellFormed) (he : EntryOf p.lines item q) (hget : p.index.get q.1 = .ok q.2)
    (hfirst : ∀ s c, item.1.columns.head? = some s → s.head? = some c → c ≠ '#' ∧ c ≠ 'L')
    (hv : ∀ r ∈ item.1.rows, ∀ t ∈ r, pf t = some (val t)) :
    p.extractScan pf q.1 = dataFrame (item.1.rows.map (List.map val)) item.1.columns := by
  obtain ⟨-, -, -, h, tail, h1, h2, h3, h4⟩ := he
  have hh : p.headerLine q.1 = .ok h := by
    unfold SpecParser.headerLine
    rw [hget, bind_ok, h1]
  have hc := (C51_names_iff p q.1 h item.1.columns hh hw.columns_ne hw.columns h2).2 hfirst
  unfold SpecParser.extractScan
  rw [hc, bind_ok]
  have hdat : p.scanData pf q.1 = .ok (item.1.rows.map (List.map val)) := by
    unfold SpecParser.scanData
    rw [hh, bind_ok, h3, dataLines_rows hw tail h4, rows_split hw]
    exact floatArray_rows (fun r hr => (hw.rows r hr).1) hv
  rw [hdat, bind_ok]

/-- C49 for well-formed files with distinct scan numbers and less scans than the stack allows calls:
all scans are found in file order with their command and time, and each one with at least one data
row whose first column name does not start with `#` or `L` is read back exactly. A scan without data
rows raises `ValueError` (unless it has a single column). -/
theorem C49_round_trip_partial (f : SpecFile) (hf : f.WellFormed) (limit : Nat) (hlim : f.items.length < limit)
    (nums : List Int) (hnum : List.Forall₂ (fun (i : Block × List Str) n => parseInt i.1.number = some n) f.items nums)
    (hnd : nums.Nodup) (pf : Str → Option F) (val : Str → F)
    (hv : ∀ i ∈ f.items, ∀ r ∈ i.1.rows, ∀ t ∈ r, pf t = some (val t)) :
    ∃ p, SpecParser.init limit f.render = .ok p ∧ p.index.map Prod.fst = nums ∧
      List.Forall₂ (fun (i : Block × List Str) n =>
        (∃ e, p.index.get n = .ok e ∧ e.command = some (join [' '] i.1.command) ∧
          e.time = some (join [' '] i.1.time)) ∧
        ((∀ s c, i.1.columns.head? = some s → s.head? = some c → c ≠ '#' ∧ c ≠ 'L') →
          (i.1.rows ≠ [] → p.extractScan pf n = .ok ⟨i.1.columns, i.1.rows.map (List.map val)⟩) ∧
          (i.1.rows = [] → i.1.columns.length ≠ 1 → p.extractScan pf n = .error .valueError)))
        f.items nums := by
  have hlines : f.render.map (rstripBy isSpace) =
      f.preamble.map (rstripBy isSpace) ++ storedItems f.items := by
    unfold SpecFile.render storedItems
    rw [List.map_append, List.map_flatMap]
    congr 1
    refine List.flatMap_congr fun i hi => ?_
    rw [List.map_append, render_stored (hf.blocks i hi).1]
  obtain ⟨es, h1, h2, h3⟩ := index_items f.items (f.render.map (rstripBy isSpace))
    (f.preamble.map (rstripBy isSpace)) 0 limit [] (by rw [List.drop_zero, hlines])
    (by
      intro l hl
      obtain ⟨m, hm, rfl⟩ := List.mem_map.1 hl
      exact startsWith_rstrip _ (hf.preamble m hm))
    hf.blocks hf.separated nums hnum (by simpa using hnd) hlim
  rw [List.nil_append] at h1
  refine ⟨⟨f.render.map (rstripBy isSpace), es⟩, ?_, h2, ?_⟩
  · unfold SpecParser.init
    simp only [h1]
    rfl
  · have h4 : List.Forall₂ (fun (i : Block × List Str) (q : Int × ScanEntry) =>
        (∃ e, es.get q.1 = .ok e ∧ e.command = some (join [' '] i.1.command) ∧
          e.time = some (join [' '] i.1.time)) ∧
        ((∀ s c, i.1.columns.head? = some s → s.head? = some c → c ≠ '#' ∧ c ≠ 'L') →
          (i.1.rows ≠ [] → SpecParser.extractScan pf ⟨f.render.map (rstripBy isSpace), es⟩ q.1 =
            .ok ⟨i.1.columns, i.1.rows.map (List.map val)⟩) ∧
          (i.1.rows = [] → i.1.columns.length ≠ 1 →
            SpecParser.extractScan pf ⟨f.render.map (rstripBy isSpace), es⟩ q.1 = .error .valueError))) f.items es := by
      rw [List.forall₂_iff_get] at h3 ⊢
      refine ⟨h3.1, fun k hk1 hk2 => ?_⟩
      have he := h3.2 k hk1 hk2
      have hmem : List.get es ⟨k, hk2⟩ ∈ es := List.get_mem _ _
      have himem : f.items.get ⟨k, hk1⟩ ∈ f.items := List.get_mem _ _
      have hget := get_of_nodup (by rw [h2]; exact hnd) hmem
      refine ⟨⟨_, hget, he.2.1, he.2.2.1⟩, fun hfirst => ?_⟩
      have hx := extract_of_entry (p := ⟨f.render.map (rstripBy isSpace), es⟩) (hf.blocks _ himem).1 he hget hfirst
        (hv _ himem)
      refine ⟨fun hne => ?_, fun hnil hone => ?_⟩
      · rw [hx]
        obtain ⟨r, rs, hr⟩ : ∃ r rs, (f.items.get ⟨k, hk1⟩).1.rows = r :: rs := by
          cases h : (f.items.get ⟨k, hk1⟩).1.rows with
          | nil => exact absurd h hne
          | cons r rs => exact ⟨r, rs, rfl⟩
        rw [hr, List.map_cons, dataFrame, if_pos]
        rw [List.length_map]
        exact ((hf.blocks _ himem).1.rows r (by rw [hr]; simp)).1
      · rw [hx, hnil, List.map_nil, dataFrame, if_neg hone]
    rw [← h2, List.forall₂_map_right_iff]
    exact h4

/-- A file with two scans meets the hypotheses of `C49_round_trip_partial`. -/
example : ∃ f : SpecFile, f.WellFormed ∧ f.items.length = 2 ∧
    List.Forall₂ (fun (i : Block × List Str) n => parseInt i.1.number = some n) f.items [7, 12] := by
  have word : ∀ s : Str, s ≠ [] → s.any isSpace = false → IsWord s := fun s h1 h2 =>
    ⟨h1, fun c hc => by
      rw [List.any_eq_false] at h2
      simpa using h2 c hc⟩
  refine ⟨⟨["#F scan.spec".toList], [
    (⟨"7".toList, ["ascan".toList, "om".toList], ["Mon".toList], ["#N 2".toList], ["om".toList, "det 1".toList],
      [["0.1".toList, "5".toList], ["0.2".toList, "4".toList]]⟩, [" ".toList, "#C done".toList]),
    (⟨"12".toList, [], [], [], ["om".toList], []⟩, [])]⟩, ⟨by decide, ?_, by decide⟩, rfl, ?_⟩
  · intro i hi
    simp only [List.mem_cons, List.not_mem_nil, or_false] at hi
    rcases hi with rfl | rfl
    · refine ⟨⟨word _ (by decide) (by decide), ?_, ?_, by decide, by simp, ?_, ?_⟩, by decide, by decide⟩
      · intro t ht
        simp only [List.mem_cons, List.not_mem_nil, or_false] at ht
        rcases ht with rfl | rfl <;> exact word _ (by decide) (by decide)
      · intro t ht
        simp only [List.mem_cons, List.not_mem_nil, or_false] at ht
        rcases ht with rfl; exact word _ (by decide) (by decide)
      · intro t ht
        simp only [List.mem_cons, List.not_mem_nil, or_false] at ht
        rcases ht with rfl | rfl <;> exact columnName_of (by decide) (by decide) (by decide) (by decide)
      · intro r hr
        simp only [List.mem_cons, List.not_mem_nil, or_false] at hr
        rcases hr with rfl | rfl <;> refine ⟨rfl, ?_, by decide⟩ <;>
        · intro t ht
          simp only [List.mem_cons, List.not_mem_nil, or_false] at ht
          rcases ht with rfl | rfl <;> exact word _ (by decide) (by decide)
    · refine ⟨⟨word _ (by decide) (by decide), by simp, by simp, by simp, by simp, ?_, by simp⟩, by decide, by decide⟩
      intro t ht
      simp only [List.mem_cons, List.not_mem_nil, or_false] at ht
      rcases ht with rfl; exact columnName_of (by decide) (by decide) (by decide) (by decide)
  · exact List.Forall₂.cons (by decide) (List.Forall₂.cons (by decide) List.Forall₂.nil)

end Render

end Verif.Props
