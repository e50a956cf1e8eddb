import Verif.Props.SpecFile
import Verif.Model.Loaders

/-!
# C119: a SPEC file that grows keeps its scans
-/

namespace Verif.Props
open Verif.Py Verif.Model Verif.Spec

theorem searchFrom_append (ls ns : List Str) (i : Nat) :
    searchFrom (ls ++ ns) i = match searchFrom ls i with
      | some k => some k
      | none => searchFrom ns (i + ls.length) := by
  induction ls generalizing i with
  | nil => simp [searchFrom]
  | cons l ls ih =>
    rw [List.cons_append, searchFrom, searchFrom]
    by_cases h : startsWith l tagS = true
    · rw [if_pos h, if_pos h]
    · rw [if_neg h, if_neg h, ih, List.length_cons, show i + 1 + ls.length = i + (ls.length + 1) by omega]

theorem searchFrom_shift (ns : List Str) (i d : Nat) : searchFrom ns (i + d) = (searchFrom ns i).map (· + d) := by
  induction ns generalizing i with
  | nil => rfl
  | cons l ls ih =>
    rw [searchFrom, searchFrom]
    by_cases h : startsWith l tagS = true
    · rw [if_pos h, if_pos h]; rfl
    · rw [if_neg h, if_neg h, ← ih, show i + d + 1 = i + 1 + d by omega]

theorem search_append_some {old new : List Str} {i k : Nat} (hi : i ≤ old.length) (h : searchForNextScan old i = some k) :
    searchForNextScan (old ++ new) i = some k := by
  unfold searchForNextScan at *
  rw [List.drop_append_of_le_length hi, searchFrom_append, h]

theorem search_append_none {old new : List Str} {i : Nat} (hi : i ≤ old.length) (h : searchForNextScan old i = none) :
    searchForNextScan (old ++ new) i = searchForNextScan (old ++ new) old.length := by
  unfold searchForNextScan at *
  rw [List.drop_append_of_le_length hi, searchFrom_append, h, List.drop_left]
  simp only [List.length_drop]
  rw [show i + (old.length - i) = old.length by omega]

theorem search_shift (old new : List Str) (i : Nat) :
    searchForNextScan (old ++ new) (i + old.length) = (searchForNextScan new i).map (· + old.length) := by
  unfold searchForNextScan
  rw [← searchFrom_shift, Nat.add_comm i, List.drop_length_add_append]

theorem blockLoop_append {ls : List Str} (ns : List Str) (h : ∃ l ∈ ls, Blank l) (i : Nat) (s : BlockState) :
    blockLoop (ls ++ ns) i s = blockLoop ls i s := by
  induction ls generalizing i s with
  | nil => obtain ⟨l, hl, -⟩ := h; cases hl
  | cons l ls ih =>
    rw [List.cons_append, blockLoop, blockLoop]
    by_cases hb : Blank l
    · have h1 : startsWith l tagS = false := blank_no_tag hb
      have h2 : startsWith l tagD = false := blank_no_tag hb
      have h3 : startsWith l tagL = false := blank_no_tag hb
      simp only [h1, h2, h3, strip_eq_nil.2 hb, Bool.false_eq_true, if_false, if_true]
    · have : ∃ l ∈ ls, Blank l := by
        obtain ⟨m, hm, hmb⟩ := h
        rcases List.mem_cons.1 hm with rfl | hm
        · exact absurd hmb hb
        · exact ⟨m, hm, hmb⟩
      simp only [ih this]

/-- The line numbers of a part of a file that starts at line `d`. -/
def BlockState.shift (d : Nat) (s : BlockState) : BlockState := { s with header := s.header.map (· + d) }

/-- The line numbers of a part of a file that starts at line `d`. -/
def ScanEntry.shift (d : Nat) (e : ScanEntry) : ScanEntry :=
  { e with start := e.start + d, stop := e.stop + d, header := e.header.map (· + d) }

theorem blockLoop_shift (d : Nat) (ls : List Str) (i : Nat) (s : BlockState) :
    blockLoop ls (i + d) (BlockState.shift d s) = (blockLoop ls i s).map fun (r : BlockState × Nat) => (BlockState.shift d r.1, r.2 + d) := by
  induction ls generalizing i s with
  | nil => rfl
  | cons l ls ih =>
    rw [blockLoop, blockLoop]
    have e : i + d + 1 = i + 1 + d := by omega
    by_cases h1 : startsWith l tagS = true
    · rw [if_pos h1, if_pos h1]
      cases getItem (splitWs l) 1 with
      | error e => rfl
      | ok n =>
        simp only [bind_ok]
        rw [e, ← ih]
        rfl
    · rw [if_neg h1, if_neg h1]
      by_cases h2 : startsWith l tagD = true
      · rw [if_pos h2, if_pos h2, e, ← ih]
        rfl
      · rw [if_neg h2, if_neg h2]
        by_cases h3 : startsWith l tagL = true
        · rw [if_pos h3, if_pos h3, e, ← ih]
          rfl
        · rw [if_neg h3, if_neg h3]
          by_cases h4 : stripBy isSpace l = []
          · rw [if_pos h4, if_pos h4]; rfl
          · rw [if_neg h4, if_neg h4, e, ih]

theorem blockLoop_le {ls : List Str} {i j : Nat} {s s' : BlockState} (h : blockLoop ls i s = .ok (s', j)) : i ≤ j := by
  induction ls generalizing i s with
  | nil => cases h; exact le_refl _
  | cons l ls ih =>
    rw [blockLoop] at h
    split_ifs at h
    · obtain ⟨n, -, h⟩ := bind_eq_ok.1 h
      have := ih h
      omega
    · have := ih h; omega
    · have := ih h; omega
    · cases h; exact le_refl _
    · have := ih h; omega

theorem blockLoop_start {lines : List Str} {from_ k j : Nat} {s s' : BlockState} (hs : searchForNextScan lines from_ = some k)
    (h : blockLoop (lines.drop k) k s = .ok (s', j)) : k < j := by
  obtain ⟨-, ⟨l, h2, h3⟩, -⟩ := search_some hs
  have hk := (List.getElem?_eq_some_iff.1 h2).1
  have hd : lines.drop k = l :: lines.drop (k + 1) := by
    rw [List.drop_eq_getElem_cons hk, (List.getElem?_eq_some_iff.1 h2).2]
  rw [hd, blockLoop, if_pos h3] at h
  obtain ⟨n, -, h⟩ := bind_eq_ok.1 h
  have := blockLoop_le h
  omega

/-- The last line is blank. -/
def BlankEnd (lines : List Str) : Prop := ∃ l, lines.getLast? = some l ∧ Blank l

theorem BlankEnd.drop {lines : List Str} (h : BlankEnd lines) {k : Nat} (hk : k < lines.length) : ∃ l ∈ lines.drop k, Blank l := by
  obtain ⟨l, h1, h2⟩ := h
  refine ⟨l, ?_, h2⟩
  have : (lines.drop k).getLast? = some l := by
    rw [List.getLast?_drop, if_neg (by omega), h1]
  exact List.mem_of_getLast? this

/-- Indexing a longer file starts with the scans of the shorter one. -/
theorem index_append {old : List Str} (hb : BlankEnd old) (new : List Str) {a from_ : Nat} {idx r : ScanIndex} (hf : from_ ≤ old.length)
    (h : indexScans a old from_ idx = .ok r) :
    ∃ k < a, (∀ lim, indexScans (lim + 1 + k) (old ++ new) from_ idx = indexScans (lim + 1) (old ++ new) old.length r) ∧
      ∀ lim ≤ k, indexScans lim (old ++ new) from_ idx = .error .recursionError := by
  induction a generalizing from_ idx with
  | zero => cases h
  | succ a ih =>
    rw [indexScans] at h
    cases hs : searchForNextScan old from_ with
    | none =>
      rw [hs] at h
      cases h
      refine ⟨0, by omega, fun lim => ?_, fun lim hl => ?_⟩
      · rw [Nat.add_zero, indexScans, indexScans, search_append_none hf hs]
      · have : lim = 0 := by omega
        subst this
        rfl
    | some start =>
      rw [hs] at h
      simp only at h
      obtain ⟨⟨s, i⟩, h1, h⟩ := bind_eq_ok.1 h
      simp only at h
      obtain ⟨g1, ⟨l, g2, -⟩, -⟩ := search_some hs
      have hst := (List.getElem?_eq_some_iff.1 g2).1
      have hlt := blockLoop_start hs h1
      have hb1 : blockLoop ((old ++ new).drop start) start ⟨none, none, none, none⟩ = .ok (s, i) := by
        rw [List.drop_append_of_le_length hst.le, blockLoop_append new (hb.drop hst), h1]
      have hi : i ≤ old.length := by
        have := blockLoop_spec (lines := old) (a := start) _ start _ rfl (le_refl _) (by omega)
          ⟨Or.inr ⟨fun j l h1 h2 => by omega, rfl, rfl⟩, Or.inr ⟨fun j l h1 h2 => by omega, rfl⟩,
            Or.inr ⟨fun j l h1 h2 => by omega, rfl⟩, fun j l h1 h2 => by omega⟩ s i h1
        exact this.2.1
      cases hn : s.number with
      | none => rw [hn] at h; cases h
      | some n =>
        rw [hn] at h
        simp only at h
        obtain ⟨m, h2, h⟩ := bind_eq_ok.1 h
        obtain ⟨k, k1, k2, k3⟩ := ih (by omega) h
        have step : ∀ lim, indexScans (lim + 1) (old ++ new) from_ idx =
            indexScans lim (old ++ new) (i - 1 + 1) (idx.set m ⟨start, i - 1, s.command, s.time, s.header⟩) := by
          intro lim
          rw [indexScans, search_append_some hf hs]
          simp only [hb1, bind_ok, hn, h2]
        refine ⟨k + 1, by omega, fun lim => ?_, fun lim hl => ?_⟩
        · rw [← k2 lim, ← step]
          rfl
        · cases lim with
          | zero => rfl
          | succ lim => rw [step, k3 lim (by omega)]

/-- Indexing the part of a file behind other lines. -/
theorem index_shift (old new : List Str) {lim from_ : Nat} {idx2 r : ScanIndex} (h : indexScans lim new from_ idx2 = .ok r) :
    ∃ bs : ScanIndex, r = bs.foldl (fun i b => i.set b.1 b.2) idx2 ∧ ∀ idx, indexScans lim (old ++ new) (from_ + old.length) idx =
      .ok ((bs.map fun (b : Int × ScanEntry) => (b.1, ScanEntry.shift old.length b.2)).foldl (fun i b => i.set b.1 b.2) idx) := by
  induction lim generalizing from_ idx2 with
  | zero => cases h
  | succ lim ih =>
    rw [indexScans] at h
    cases hs : searchForNextScan new from_ with
    | none =>
      rw [hs] at h
      cases h
      refine ⟨[], rfl, fun idx => ?_⟩
      rw [indexScans, search_shift, hs]
      rfl
    | some start =>
      rw [hs] at h
      simp only at h
      obtain ⟨⟨s, i⟩, h1, h⟩ := bind_eq_ok.1 h
      simp only at h
      have hlt := blockLoop_start hs h1
      cases hn : s.number with
      | none => rw [hn] at h; cases h
      | some n =>
        rw [hn] at h
        simp only at h
        obtain ⟨m, h2, h⟩ := bind_eq_ok.1 h
        obtain ⟨bs, k1, k2⟩ := ih h
        refine ⟨(m, ⟨start, i - 1, s.command, s.time, s.header⟩) :: bs, k1, fun idx => ?_⟩
        rw [indexScans, search_shift, hs]
        have hb1 : blockLoop ((old ++ new).drop (start + old.length)) (start + old.length) ⟨none, none, none, none⟩ =
            .ok (BlockState.shift old.length s, i + old.length) := by
          rw [Nat.add_comm start, List.drop_length_add_append, Nat.add_comm old.length]
          have := blockLoop_shift old.length (new.drop start) start ⟨none, none, none, none⟩
          rw [h1] at this
          exact this
        simp only [Option.map_some]
        rw [hb1, bind_ok]
        have hn' : (BlockState.shift old.length s).number = some n := hn
        simp only [hn', h2, bind_ok]
        rw [show i + old.length - 1 + 1 = i - 1 + 1 + old.length by omega, k2]
        rw [List.map_cons, List.foldl_cons, show i + old.length - 1 = i - 1 + old.length by omega]
        rfl

theorem index_shift_error (old new : List Str) {lim from_ : Nat} {idx2 : ScanIndex} {e : PyErr} (h : indexScans lim new from_ idx2 = .error e)
    (idx : ScanIndex) : indexScans lim (old ++ new) (from_ + old.length) idx = .error e := by
  induction lim generalizing from_ idx2 idx with
  | zero => exact h
  | succ lim ih =>
    rw [indexScans] at h
    cases hs : searchForNextScan new from_ with
    | none => rw [hs] at h; cases h
    | some start =>
      rw [hs] at h
      simp only at h
      rw [indexScans, search_shift, hs]
      have hb0 := blockLoop_shift old.length (new.drop start) start ⟨none, none, none, none⟩
      have hd : (old ++ new).drop (start + old.length) = new.drop start := by
        rw [Nat.add_comm start, List.drop_length_add_append]
      simp only [Option.map_some, hd]
      have hz : BlockState.shift old.length ⟨none, none, none, none⟩ = ⟨none, none, none, none⟩ := rfl
      rw [hz] at hb0
      rw [hb0]
      cases h1 : blockLoop (new.drop start) start ⟨none, none, none, none⟩ with
      | error e' => rw [h1] at h; exact h
      | ok r =>
        obtain ⟨s, i⟩ := r
        rw [h1] at h
        have hlt := blockLoop_start hs h1
        simp only [bind_ok] at h
        simp only [Except.map, bind_ok]
        have hn' : (BlockState.shift old.length s).number = s.number := rfl
        rw [hn']
        cases hn : s.number with
        | none => rw [hn] at h; exact h
        | some n =>
          rw [hn] at h
          simp only at h ⊢
          cases h2 : pyInt n with
          | error e' => rw [h2] at h; exact h
          | ok m =>
            rw [h2] at h
            simp only [bind_ok] at h ⊢
            rw [show i + old.length - 1 + 1 = i - 1 + 1 + old.length by omega]
            exact ih h _

theorem BlankEnd.rstrip {file : List Str} (h : BlankEnd file) : BlankEnd (file.map (rstripBy isSpace)) := by
  obtain ⟨l, h1, h2⟩ := h
  exact ⟨[], by rw [List.getLast?_map, h1, Option.map_some, blank_rstrip h2], by intro c hc; cases hc⟩

theorem init_ok {limit : Nat} {file : List Str} {p : SpecParser} (h : SpecParser.init limit file = .ok p) :
    p.lines = file.map (rstripBy isSpace) ∧ indexScans limit (file.map (rstripBy isSpace)) 0 [] = .ok p.index := by
  unfold SpecParser.init at h
  obtain ⟨idx, h1, h2⟩ := bind_eq_ok.1 h
  cases h2
  exact ⟨rfl, h1⟩

theorem get_shift (bs idx : ScanIndex) (d : Nat) (n : Int) :
    ((bs.map fun (b : Int × ScanEntry) => (b.1, ScanEntry.shift d b.2)).foldl (fun i b => i.set b.1 b.2) idx).get n =
      match ScanIndex.get (bs.foldl (fun i b => ScanIndex.set i b.1 b.2) []) n with
      | .ok e => .ok (ScanEntry.shift d e)
      | .error _ => idx.get n := by
  rw [get_foldl, get_foldl, List.filter_map, List.getLast?_map]
  have : ((fun (b : Int × ScanEntry) => decide (b.1 = n)) ∘ fun (b : Int × ScanEntry) => (b.1, ScanEntry.shift d b.2)) =
      fun (b : Int × ScanEntry) => decide (b.1 = n) := rfl
  rw [this]
  cases (bs.filter fun (b : Int × ScanEntry) => decide (b.1 = n)).getLast? with
  | none => rfl
  | some b => rfl

/-- The index of a longer file. -/
theorem init_append {a b : Nat} {old new : List Str} {p q : SpecParser} (hb : BlankEnd old) (hp : SpecParser.init a old = .ok p)
    (hq : SpecParser.init b new = .ok q) :
    ∃ r, SpecParser.init (a + b) (old ++ new) = .ok r ∧ r.lines = p.lines ++ q.lines ∧ ∀ n, r.index.get n = match q.index.get n with
      | .ok e => .ok (ScanEntry.shift p.lines.length e)
      | .error _ => p.index.get n := by
  obtain ⟨p1, p2⟩ := init_ok hp
  obtain ⟨q1, q2⟩ := init_ok hq
  rw [← p1] at p2
  rw [← q1] at q2
  have hbp : BlankEnd p.lines := p1 ▸ hb.rstrip
  obtain ⟨k, hk, k1, -⟩ := index_append hbp q.lines (Nat.zero_le _) p2
  obtain ⟨bs0, -, -, l1, l2, -⟩ := index_run q2
  have hlim : ∃ m, a + b = m + 1 + k ∧ bs0.length < m + 1 := ⟨a + b - k - 1, by omega, by omega⟩
  obtain ⟨m, hm, hm'⟩ := hlim
  obtain ⟨bs, b1, b2⟩ := index_shift p.lines q.lines (l2 _ hm')
  have hr := (k1 m).trans ((congrArg (fun x => indexScans (m + 1) (p.lines ++ q.lines) x p.index) (Nat.zero_add p.lines.length).symm).trans (b2 p.index))
  rw [← hm] at hr
  refine ⟨⟨p.lines ++ q.lines, (bs.map fun (b : Int × ScanEntry) => (b.1, ScanEntry.shift p.lines.length b.2)).foldl
    (fun i b => ScanIndex.set i b.1 b.2) p.index⟩, ?_, rfl, fun n => ?_⟩
  · unfold SpecParser.init
    rw [List.map_append, ← p1, ← q1]
    simp only [hr, bind_ok]
    rfl
  · show ScanIndex.get (List.foldl _ _ _) n = _
    rw [get_shift, b1]

theorem dataLines_append {ls : List Str} (ns : List Str) (h : [] ∈ ls) : dataLines (ls ++ ns) = dataLines ls := by
  induction ls with
  | nil => cases h
  | cons l ls ih =>
    unfold dataLines at *
    rw [List.cons_append, List.takeWhile_cons, List.takeWhile_cons]
    by_cases hl : l = []
    · subst hl
      simp
    · rcases List.mem_cons.1 h with h | h
      · exact absurd h.symm hl
      · rw [ih h]

theorem columnNames_of {p : SpecParser} {n : Int} {e : ScanEntry} (h : p.index.get n = .ok e) :
    p.columnNames n = match e.header with
      | some i => (getItem p.lines (i : Int)).map fun (l : Str) => splitOn [' ', ' '] (lstripBy (fun c => c = '#' || c = 'L' || c = ' ') l)
      | none => .error .keyError := by
  unfold SpecParser.columnNames SpecParser.headerLine
  rw [h]
  simp only [bind_ok]
  cases e.header with
  | none => rfl
  | some i =>
    simp only [bind_ok]
    cases getItem p.lines (i : Int) <;> rfl

theorem scanData_of {F : Type} {pf : Str → Option F} {p : SpecParser} {n : Int} {e : ScanEntry} (h : p.index.get n = .ok e) :
    p.scanData pf n = match e.header with
      | some i => floatArray pf ((dataLines (p.lines.drop (i + 1))).map splitWs)
      | none => .error .keyError := by
  unfold SpecParser.scanData SpecParser.headerLine
  rw [h]
  simp only [bind_ok]
  cases e.header <;> rfl

theorem getItem_congr {α : Type} {l m : List α} {i j : Nat} (h : l[i]? = m[j]?) : getItem l (i : Int) = getItem m (j : Int) := by
  cases hm : m[j]? with
  | none =>
    rw [hm] at h
    have h1 := List.getElem?_eq_none_iff.1 h
    have h2 := List.getElem?_eq_none_iff.1 hm
    rw [getItem_error_iff.2 (by omega), getItem_error_iff.2 (by omega)]
  | some x =>
    rw [hm] at h
    obtain ⟨h1, rfl⟩ := List.getElem?_eq_some_iff.1 hm
    obtain ⟨h2, h3⟩ := List.getElem?_eq_some_iff.1 h
    rw [getItem_nat h1, getItem_nat h2, h3]

theorem getItem_append_right {α : Type} (l m : List α) (i : Nat) : getItem (l ++ m) ((i + l.length : Nat) : Int) = getItem m (i : Int) :=
  getItem_congr (by rw [List.getElem?_append_right (by omega), Nat.add_sub_cancel])

theorem getItem_append_left {α : Type} {l : List α} (m : List α) {i : Nat} (h : i < l.length) : getItem (l ++ m) (i : Int) = getItem l (i : Int) :=
  getItem_congr (List.getElem?_append_left h)

/-- What a parser says about the scan `n`: the command and the time of its entry and its table. -/
structure SameScan (r p : SpecParser) (n : Int) : Prop where
  /-- the same table or the same exception -/
  table : ∀ {F : Type} (pf : Str → Option F), r.extractScan pf n = p.extractScan pf n
  /-- the same command and time or the same exception -/
  info : ((r.index.get n).map fun (e : ScanEntry) => (e.command, e.time)) = (p.index.get n).map fun (e : ScanEntry) => (e.command, e.time)

theorem same_right {p q r : SpecParser} (hl : r.lines = p.lines ++ q.lines) {n : Int} {e : ScanEntry} (hq : q.index.get n = .ok e)
    (hr : r.index.get n = .ok (ScanEntry.shift p.lines.length e)) : SameScan r q n := by
  constructor
  · intro F pf
    unfold SpecParser.extractScan
    rw [columnNames_of hr, columnNames_of hq, scanData_of hr, scanData_of hq, hl]
    have hh : (ScanEntry.shift p.lines.length e).header = e.header.map (· + p.lines.length) := rfl
    rw [hh]
    cases e.header with
    | none => rfl
    | some i =>
      simp only [Option.map_some]
      rw [getItem_append_right, show i + p.lines.length + 1 = p.lines.length + (i + 1) by omega, List.drop_length_add_append]
  · rw [hq, hr]; rfl

theorem same_left {p q r : SpecParser} (hl : r.lines = p.lines ++ q.lines) {n : Int} (hb : BlankEnd p.lines)
    (hblank : ∀ l ∈ p.lines, Blank l → l = []) (hpe : ∀ e, p.index.get n = .ok e → BlockAt p.lines n e)
    (hr : r.index.get n = p.index.get n) : SameScan r p n := by
  cases hp : p.index.get n with
  | error x =>
    rw [hp] at hr
    constructor
    · intro F pf
      unfold SpecParser.extractScan SpecParser.columnNames SpecParser.headerLine
      rw [hr, hp]
      rfl
    · rw [hp, hr]
  | ok e =>
    have hB := hpe e hp
    rw [hp] at hr
    constructor
    · intro F pf
      unfold SpecParser.extractScan
      rw [columnNames_of hr, columnNames_of hp, scanData_of hr, scanData_of hp, hl]
      cases hh : e.header with
      | none => rfl
      | some i =>
        simp only
        have hi : i ≤ e.stop ∧ e.start ≤ i := by
          rcases hB.header with ⟨k, l, h1, h2⟩ | ⟨-, h2⟩
          · rw [hh] at h2
            cases h2
            exact ⟨by have := h1.hi; omega, h1.lo⟩
          · rw [hh] at h2; cases h2
        have hlt : i + 1 < p.lines.length := by
          have h1 := hB.bound
          by_contra hcon
          obtain ⟨l, h2, h3⟩ := hb
          have he : p.lines.length - 1 = e.stop := by omega
          rw [List.getLast?_eq_getElem?, he] at h2
          exact hB.inside e.stop l hB.order (le_refl _) h2 h3
        rw [getItem_append_left _ (by omega), List.drop_append_of_le_length (by omega), dataLines_append]
        obtain ⟨l, h2, h3⟩ := hb.drop hlt
        rw [← hblank l (List.mem_of_mem_drop h2) h3]
        exact h2
    · rw [hp, hr]

theorem rstrip_blank {l : Str} (h : Blank (rstripBy isSpace l)) : rstripBy isSpace l = [] := by
  unfold rstripBy at *
  cases hd : l.reverse.dropWhile isSpace with
  | nil => rfl
  | cons c r =>
    have h1 := h c (by rw [hd]; simp)
    have h2 := List.head?_dropWhile_not isSpace l.reverse
    rw [hd] at h2
    simp [h1] at h2

/-- C119: a file whose last line is blank is extended by further lines. If both parts can be read, so can the longer file (with
room on the stack for both); the scans of the new part are those that are read from the new part alone, and all others are read
as before: same table, command and time, or the same exception. -/
theorem C119_append (a b : Nat) (old new : List Str) (p q : SpecParser) (hb : BlankEnd old) (hp : SpecParser.init a old = .ok p)
    (hq : SpecParser.init b new = .ok q) :
    ∃ r, SpecParser.init (a + b) (old ++ new) = .ok r ∧
      ∀ n, ((∃ e, q.index.get n = .ok e) → SameScan r q n) ∧ ((¬ ∃ e, q.index.get n = .ok e) → SameScan r p n) := by
  obtain ⟨r, h1, h2, h3⟩ := init_append hb hp hq
  refine ⟨r, h1, fun n => ⟨fun ⟨e, he⟩ => ?_, fun hn => ?_⟩⟩
  · have := h3 n
    rw [he] at this
    exact same_right h2 he this
  · have hr : r.index.get n = p.index.get n := by
      have := h3 n
      cases hg : q.index.get n with
      | ok e => exact absurd ⟨e, hg⟩ hn
      | error x => rw [hg] at this; exact this
    obtain ⟨g1, bs, g2, -, -, g3, -⟩ := C50_blocks_partial a old p hp
    refine same_left h2 (g1 ▸ hb.rstrip) (fun l hl hbl => ?_) (fun e he => ?_) hr
    · rw [g1] at hl
      obtain ⟨m, -, rfl⟩ := List.mem_map.1 hl
      exact rstrip_blank hbl
    · have h4 := g3 n
      rw [he] at h4
      cases hf : (bs.filter fun (b : Int × ScanEntry) => decide (b.1 = n)).getLast? with
      | none => rw [hf] at h4; cases h4
      | some b =>
        rw [hf] at h4
        cases h4
        obtain ⟨hm, hn'⟩ := List.mem_filter.1 (List.mem_of_getLast? hf)
        have : b.1 = n := by simpa using hn'
        rw [← this]
        exact g2 b hm

theorem loadScan_same {r p : SpecParser} {n : Int} (h : SameScan r p n) (pf : Str → Option ℝ) (s : SpecLoader) (front back : Option Int) :
    SpecLoader.loadScan pf { s with parser := r } n front back = SpecLoader.loadScan pf { s with parser := p } n front back := by
  have h2 : ((r.index.get n).bind ScanEntry.timeOf) = (p.index.get n).bind ScanEntry.timeOf := by
    have h3 := h.info
    cases hr : r.index.get n with
    | error x =>
      rw [hr] at h3
      cases hp : p.index.get n with
      | error y => rw [hp] at h3; cases h3; rfl
      | ok e => rw [hp] at h3; cases h3
    | ok e =>
      rw [hr] at h3
      cases hp : p.index.get n with
      | error y => rw [hp] at h3; cases h3
      | ok e' =>
        rw [hp] at h3
        have : e.time = e'.time := by
          injection h3 with h3
          exact congrArg Prod.snd h3
        show e.timeOf = e'.timeOf
        unfold ScanEntry.timeOf
        rw [this]
  have h2' : ∀ {β : Type} (f : Str → Res β), (do let e ← r.index.get n; let t ← e.timeOf; f t) =
      (do let e ← p.index.get n; let t ← e.timeOf; f t) := by
    intro β f
    have e1 : ∀ x : Res ScanEntry, (do let e ← x; let t ← e.timeOf; f t) = (x.bind ScanEntry.timeOf).bind f := by
      intro x
      cases x <;> rfl
    rw [e1, e1, h2]
  unfold SpecLoader.loadScan
  simp only
  rw [h.table pf]
  cases p.extractScan pf n with
  | error x => cases x <;> rfl
  | ok t =>
    simp only
    by_cases hc : containsCounters s.angleColumns t.columns = true
    · rw [if_pos hc, if_pos hc]
      exact h2' _
    · rw [if_neg hc, if_neg hc]

/-- C119 for a loader: a scan of a file that is not repeated in the appended lines is loaded as before, with any settings. -/
theorem C119_load (a b : Nat) (old new : List Str) (p q r : SpecParser) (hb : BlankEnd old) (hp : SpecParser.init a old = .ok p)
    (hq : SpecParser.init b new = .ok q) (hr : SpecParser.init (a + b) (old ++ new) = .ok r) (pf : Str → Option ℝ) (s : SpecLoader)
    (front back : Option Int) (n : Int) :
    SpecLoader.loadScan pf { s with parser := r } n front back =
      if (q.index.get n).isOk then SpecLoader.loadScan pf { s with parser := q } n front back
      else SpecLoader.loadScan pf { s with parser := p } n front back := by
  obtain ⟨r', h1, h2⟩ := C119_append a b old new p q hb hp hq
  rw [hr] at h1
  cases h1
  cases hg : q.index.get n with
  | ok e => exact loadScan_same ((h2 n).1 ⟨e, hg⟩) pf s front back
  | error x => exact loadScan_same ((h2 n).2 fun ⟨e, he⟩ => by rw [hg] at he; cases he) pf s front back

/-- C119, the limit: whatever the room on the stack, a readable file becomes unreadable by appending scans, all of which can be
read with one more call. -/
theorem C119_exhausted (limit : Nat) (old : List Str) (p : SpecParser) (hb : BlankEnd old) (hp : SpecParser.init limit old = .ok p) :
    ∃ new, SpecParser.init limit (old ++ new) = .error .recursionError ∧ ∃ q, SpecParser.init (limit + 1) new = .ok q := by
  obtain ⟨new, h1, q, h2⟩ := C50_recursion limit
  refine ⟨new, ?_, q, h2⟩
  obtain ⟨p1, p2⟩ := init_ok hp
  obtain ⟨q1, q2⟩ := init_ok h2
  rw [← p1] at p2
  rw [← q1] at q2
  have hbp : BlankEnd p.lines := p1 ▸ hb.rstrip
  obtain ⟨k, hk, k1, k2⟩ := index_append hbp q.lines (Nat.zero_le _) p2
  obtain ⟨bs, -, -, l1, l2, l3⟩ := index_run q2
  have hlen : limit ≤ bs.length := by
    by_contra hcon
    have h4 := l2 limit (by omega)
    unfold SpecParser.init at h1
    rw [← q1] at h1
    simp only [h4] at h1
    cases h1
  unfold SpecParser.init
  rw [List.map_append, ← p1, ← q1]
  have : indexScans limit (p.lines ++ q.lines) 0 [] = .error .recursionError := by
    obtain ⟨m, rfl⟩ : ∃ m, limit = m + 1 + k := ⟨limit - k - 1, by omega⟩
    rw [k1 m]
    have := index_shift_error p.lines q.lines (l3 (m + 1) (by omega)) p.index
    rw [Nat.zero_add] at this
    exact this
  simp only [this]
  rfl

/-- A scan; the file does not end with a blank line. -/
def growOld : List Str := ["#S 1 scan".toList, "#L x  y".toList, "1 3".toList]

/-- A scan that is written later. -/
def growNew : List Str := ["#S 2 scan".toList, "#L x  y".toList, "5 6".toList]

/-- C119, the blank line is needed: without it the appended scan swallows the earlier one. -/
theorem C119_no_blank : ∃ p q r : SpecParser, SpecParser.init 2 growOld = .ok p ∧ SpecParser.init 2 growNew = .ok q ∧
    SpecParser.init 4 (growOld ++ growNew) = .ok r ∧ (∃ e, p.index.get 1 = .ok e) ∧ (q.index.get 1 = .error .keyError) ∧
    r.index.get 1 = .error .keyError :=
  ⟨_, _, _, rfl, rfl, rfl, ⟨_, rfl⟩, rfl, rfl⟩

/-- With the blank line both scans are read. -/
example : BlankEnd (growOld ++ [[]]) ∧ ∃ p q r : SpecParser, SpecParser.init 2 (growOld ++ [[]]) = .ok p ∧ SpecParser.init 2 growNew = .ok q ∧
    SpecParser.init 4 (growOld ++ [[]] ++ growNew) = .ok r ∧ (∃ e, r.index.get 1 = .ok e ∧ e.header = some 1) ∧
    ∃ e, r.index.get 2 = .ok e ∧ e.header = some 5 :=
  ⟨⟨[], rfl, fun c hc => by cases hc⟩, _, _, _, rfl, rfl, rfl, ⟨_, rfl, rfl⟩, ⟨_, rfl, rfl⟩⟩

/-! ### A scan that is still being measured -/

theorem splitWsAux_blank {sp : Str} (h : Blank sp) (s cur : Str) : splitWsAux (s ++ sp) cur = splitWsAux s cur := by
  induction s generalizing cur with
  | nil =>
    have h0 : splitWsAux sp [] = [] := by
      clear cur
      induction sp with
      | nil => rfl
      | cons c sp ih =>
        rw [splitWsAux, if_pos (h c List.mem_cons_self), if_pos rfl]
        exact ih fun d hd => h d (List.mem_cons_of_mem _ hd)
    cases sp with
    | nil => rfl
    | cons c sp =>
      have h1 : splitWsAux sp [] = [] := by
        rw [splitWsAux, if_pos (h c List.mem_cons_self), if_pos rfl] at h0
        exact h0
      simp only [List.nil_append, splitWsAux, h c List.mem_cons_self, if_true, h1]
  | cons c s ih =>
    rw [List.cons_append, splitWsAux, splitWsAux, ih, ih]

theorem splitWs_rstrip (l : Str) : splitWs (rstripBy isSpace l) = splitWs l := by
  have h : l = rstripBy isSpace l ++ (l.reverse.takeWhile isSpace).reverse := by
    unfold rstripBy
    rw [← List.reverse_append, List.takeWhile_append_dropWhile, List.reverse_reverse]
  conv_rhs => rw [h]
  unfold splitWs
  rw [splitWsAux_blank]
  intro c hc
  exact List.mem_takeWhile_imp (List.mem_reverse.1 hc)

/-- A line with data: neither blank nor a comment. -/
def RowLine (l : Str) : Prop := ¬ Blank l ∧ startsWith l ['#'] = false

theorem RowLine.rstrip {l : Str} (h : RowLine l) : RowLine (rstripBy isSpace l) := by
  refine ⟨fun hb => h.1 ?_, startsWith_rstrip _ h.2⟩
  have h1 := rstrip_blank hb
  unfold rstripBy at h1
  rw [List.reverse_eq_nil_iff, List.dropWhile_eq_nil_iff] at h1
  exact fun c hc => h1 c (by simpa using hc)

theorem RowLine.tag {l : Str} (h : RowLine l) (c : Char) : startsWith l ['#', c] = false := by
  have h2 := h.2
  cases l with
  | nil => rfl
  | cons d l =>
    cases hd : startsWith (d :: l) ['#', c] with
    | false => rfl
    | true =>
      rw [startsWith_iff] at hd
      have : startsWith (d :: l) ['#'] = true := startsWith_iff.2 ((List.prefix_append ['#'] [c]).trans hd)
      rw [this] at h2
      cases h2

theorem RowLine.plain {l : Str} (h : RowLine l) : PlainLine l :=
  ⟨h.tag _, h.tag _, h.tag _, fun hn => h.1 (strip_eq_nil.1 hn)⟩

theorem searchFrom_rows {ns : List Str} (h : ∀ l ∈ ns, RowLine l) (i : Nat) : searchFrom ns i = none := by
  induction ns generalizing i with
  | nil => rfl
  | cons l ls ih =>
    rw [searchFrom, if_neg (by rw [show startsWith l tagS = false from (h l List.mem_cons_self).tag _]; simp)]
    exact ih (fun m hm => h m (List.mem_cons_of_mem _ hm)) _

theorem blockLoop_rows {ns : List Str} (hn : ∀ l ∈ ns, RowLine l) (ls : List Str) (i : Nat) (s s' : BlockState) (j : Nat)
    (h : blockLoop ls i s = .ok (s', j)) :
    ∃ j', blockLoop (ls ++ ns) i s = .ok (s', j') ∧ (j' = j ∨ (j = i + ls.length ∧ j' = j + ns.length)) := by
  induction ls generalizing i s with
  | nil =>
    rw [blockLoop] at h
    cases h
    refine ⟨j + ns.length, ?_, Or.inr ⟨rfl, rfl⟩⟩
    have := blockLoop_plain (fun l hl => (hn l hl).plain) [] j s'
    rw [List.append_nil] at this
    exact this
  | cons l ls ih =>
    have hlen : i + (l :: ls).length = i + 1 + ls.length := by rw [List.length_cons]; omega
    rw [hlen]
    rw [blockLoop] at h
    rw [List.cons_append, blockLoop]
    by_cases h1 : startsWith l tagS = true
    · rw [if_pos h1] at h ⊢
      obtain ⟨n, g1, g2⟩ := bind_eq_ok.1 h
      rw [g1]
      exact ih _ _ g2
    · rw [if_neg h1] at h ⊢
      by_cases h2 : startsWith l tagD = true
      · rw [if_pos h2] at h ⊢
        exact ih _ _ h
      · rw [if_neg h2] at h ⊢
        by_cases h3 : startsWith l tagL = true
        · rw [if_pos h3] at h ⊢
          exact ih _ _ h
        · rw [if_neg h3] at h ⊢
          by_cases h4 : stripBy isSpace l = []
          · rw [if_pos h4] at h ⊢
            cases h
            exact ⟨j, rfl, Or.inl rfl⟩
          · rw [if_neg h4] at h ⊢
            exact ih _ _ h

/-- Two entries that differ at most in their last line. -/
def SameEntry (x y : Int × ScanEntry) : Prop :=
  x.1 = y.1 ∧ x.2.command = y.2.command ∧ x.2.time = y.2.time ∧ x.2.header = y.2.header

theorem index_rows {old ns : List Str} (hn : ∀ l ∈ ns, RowLine l) {a from_ : Nat} {idx r : ScanIndex} (hf : from_ ≤ old.length)
    (h : indexScans a old from_ idx = .ok r) :
    ∃ bs bs' : ScanIndex, r = bs.foldl (fun i b => i.set b.1 b.2) idx ∧ List.Forall₂ SameEntry bs bs' ∧
      ∀ idx', indexScans a (old ++ ns) from_ idx' = .ok (bs'.foldl (fun i b => i.set b.1 b.2) idx') := by
  induction a generalizing from_ idx with
  | zero => cases h
  | succ a ih =>
    rw [indexScans] at h
    cases hs : searchForNextScan old from_ with
    | none =>
      rw [hs] at h
      cases h
      refine ⟨[], [], rfl, List.Forall₂.nil, fun idx' => ?_⟩
      rw [indexScans, search_append_none hf hs]
      unfold searchForNextScan
      rw [List.drop_left, searchFrom_rows hn]
      rfl
    | some start =>
      rw [hs] at h
      simp only at h
      obtain ⟨⟨s, i⟩, h1, h⟩ := bind_eq_ok.1 h
      simp only at h
      obtain ⟨g1, ⟨l, g2, -⟩, -⟩ := search_some hs
      have hst := (List.getElem?_eq_some_iff.1 g2).1
      have hlt := blockLoop_start hs h1
      obtain ⟨j, b1, b2⟩ := blockLoop_rows hn _ _ _ _ _ h1
      rw [← List.drop_append_of_le_length hst.le] at b1
      have hi : i ≤ old.length := by
        have := blockLoop_spec (lines := old) (a := start) _ start _ rfl (le_refl _) (by omega)
          ⟨Or.inr ⟨fun j l h1 h2 => by omega, rfl, rfl⟩, Or.inr ⟨fun j l h1 h2 => by omega, rfl⟩,
            Or.inr ⟨fun j l h1 h2 => by omega, rfl⟩, fun j l h1 h2 => by omega⟩ s i h1
        exact this.2.1
      cases hnum : s.number with
      | none => rw [hnum] at h; cases h
      | some n =>
        rw [hnum] at h
        simp only at h
        obtain ⟨m, h2, h⟩ := bind_eq_ok.1 h
        have step : ∀ idx', indexScans (a + 1) (old ++ ns) from_ idx' =
            indexScans a (old ++ ns) (j - 1 + 1) (idx'.set m ⟨start, j - 1, s.command, s.time, s.header⟩) := by
          intro idx'
          rw [indexScans, search_append_some hf hs]
          simp only [b1, bind_ok, hnum, h2]
        rcases b2 with rfl | ⟨e1, e2⟩
        · obtain ⟨bs, bs', k1, k2, k3⟩ := ih (by omega) h
          refine ⟨(m, ⟨start, j - 1, s.command, s.time, s.header⟩) :: bs, (m, ⟨start, j - 1, s.command, s.time, s.header⟩) :: bs',
            k1, List.Forall₂.cons ⟨rfl, rfl, rfl, rfl⟩ k2, fun idx' => ?_⟩
          rw [step, k3]
          rfl
        · have hio : i = old.length := by rw [List.length_drop] at e1; omega
          refine ⟨[(m, ⟨start, i - 1, s.command, s.time, s.header⟩)], [(m, ⟨start, j - 1, s.command, s.time, s.header⟩)], ?_,
            List.Forall₂.cons ⟨rfl, rfl, rfl, rfl⟩ List.Forall₂.nil, fun idx' => ?_⟩
          · cases a with
            | zero => cases h
            | succ a =>
              rw [indexScans] at h
              have : searchForNextScan old (i - 1 + 1) = none := by
                unfold searchForNextScan
                rw [List.drop_of_length_le (by omega)]
                rfl
              rw [this] at h
              cases h
              rfl
          · rw [step]
            cases a with
            | zero => cases h
            | succ a =>
              rw [indexScans]
              have : searchForNextScan (old ++ ns) (j - 1 + 1) = none := by
                unfold searchForNextScan
                rw [List.drop_of_length_le (by rw [List.length_append]; omega)]
                rfl
              rw [this]
              rfl

theorem get_same {bs bs' : ScanIndex} (h : List.Forall₂ SameEntry bs bs') (n : Int) :
    (∃ e e', ScanIndex.get (bs.foldl (fun i b => ScanIndex.set i b.1 b.2) []) n = .ok e ∧
      ScanIndex.get (bs'.foldl (fun i b => ScanIndex.set i b.1 b.2) []) n = .ok e' ∧ SameEntry (n, e) (n, e')) ∨
    (∃ x, ScanIndex.get (bs.foldl (fun i b => ScanIndex.set i b.1 b.2) []) n = .error x ∧
      ScanIndex.get (bs'.foldl (fun i b => ScanIndex.set i b.1 b.2) []) n = .error x) := by
  rw [get_foldl, get_foldl]
  have hf : List.Forall₂ SameEntry (bs.filter fun (b : Int × ScanEntry) => decide (b.1 = n))
      (bs'.filter fun (b : Int × ScanEntry) => decide (b.1 = n)) := by
    induction h with
    | nil => exact List.Forall₂.nil
    | @cons x y l l' hxy _ ih =>
      rw [List.filter_cons, List.filter_cons, hxy.1]
      by_cases hy : y.1 = n
      · simp only [hy, decide_true, if_true]
        exact List.Forall₂.cons hxy ih
      · simp only [hy, decide_false, Bool.false_eq_true, if_false]
        exact ih
  have hl : ∀ {l l' : ScanIndex}, List.Forall₂ SameEntry l l' → (l.getLast? = none ∧ l'.getLast? = none) ∨
      ∃ x y, l.getLast? = some x ∧ l'.getLast? = some y ∧ SameEntry x y := by
    intro l l' h
    induction h with
    | nil => exact Or.inl ⟨rfl, rfl⟩
    | @cons x y l l' hxy h' ih =>
      right
      rcases ih with ⟨i1, i2⟩ | ⟨u, v, i1, i2, i3⟩
      · rw [List.getLast?_eq_none_iff] at i1 i2
        subst i1 i2
        exact ⟨x, y, rfl, rfl, hxy⟩
      · exact ⟨u, v, by rw [List.getLast?_cons, i1]; rfl, by rw [List.getLast?_cons, i2]; rfl, i3⟩
  rcases hl hf with ⟨i1, i2⟩ | ⟨u, v, i1, i2, i3⟩
  · right
    rw [i1, i2]
    exact ⟨_, rfl, rfl⟩
  · left
    rw [i1, i2]
    exact ⟨u.2, v.2, rfl, rfl, rfl, i3.2⟩

theorem dataLines_rows_append {ns : List Str} (hn : ∀ l ∈ ns, RowLine l) (ls : List Str) :
    dataLines (ls ++ ns) = dataLines ls ∨ dataLines (ls ++ ns) = dataLines ls ++ ns := by
  induction ls with
  | nil =>
    right
    unfold dataLines
    rw [List.nil_append, List.takeWhile_eq_self_iff.2]
    · rfl
    · intro l hl
      have h1 := (hn l hl).2
      have h2 : l ≠ [] := fun h => (hn l hl).1 (by rw [h]; intro c hc; cases hc)
      simp [h1, h2]
  | cons l ls ih =>
    unfold dataLines at *
    rw [List.cons_append, List.takeWhile_cons, List.takeWhile_cons]
    split_ifs
    · rcases ih with ih | ih
      · left; rw [ih]
      · right; rw [ih]; rfl
    · left; rfl

/-- The numbers of a line. -/
def RowOf {F : Type} (pf : Str → Option F) (words : List Str) (row : List F) : Prop := List.Forall₂ (fun w x => pf w = some x) words row

theorem floatArray_ok_iff {F : Type} {pf : Str → Option F} {rows : List (List Str)} {x : List (List F)} :
    floatArray pf rows = .ok x ↔ (∀ r ∈ rows, ∀ s ∈ rows, s.length = r.length) ∧ List.Forall₂ (RowOf pf) rows x := by
  have hrow : ∀ (row : List Str) (z : List F), (row.mapM fun (t : Str) => match pf t with
      | some x => (.ok x : Res F)
      | none => .error .valueError) = .ok z ↔ RowOf pf row z := by
    intro row z
    rw [mapM_ok_iff]
    unfold RowOf
    have : (fun (a : Str) (b : F) => (match pf a with
      | some x => (.ok x : Res F)
      | none => .error .valueError) = .ok b) = fun (w : Str) (x : F) => pf w = some x := by
      funext a b
      cases pf a with
      | none => simp
      | some y => simp
    rw [this]
  cases rows with
  | nil =>
    constructor
    · intro h
      cases h
      exact ⟨fun r hr => by (cases hr), List.Forall₂.nil⟩
    · rintro ⟨-, h⟩
      cases h
      rfl
  | cons r rs =>
    unfold floatArray
    simp only
    by_cases hl : ∀ s ∈ r :: rs, s.length = r.length
    · rw [if_pos hl, mapM_ok_iff]
      exact ⟨fun h => ⟨fun u hu v hv => by rw [hl u hu, hl v hv], h.imp fun a b hab => (hrow a b).1 hab⟩,
        fun h => h.2.imp fun a b hab => (hrow a b).2 hab⟩
    · rw [if_neg hl]
      constructor
      · intro h; cases h
      · rintro ⟨h, -⟩
        exact absurd (fun s hs => h r List.mem_cons_self s hs) hl

theorem mapM_error_mem {α β : Type} {f : α → Res β} {l : List α} {e : PyErr} (h : l.mapM f = .error e) : ∃ a ∈ l, f a = .error e := by
  induction l with
  | nil => cases h
  | cons a l ih =>
    rw [mapM_cons] at h
    cases hf : f a with
    | error x => rw [hf] at h; cases h; exact ⟨a, List.mem_cons_self, hf⟩
    | ok y =>
      rw [hf, bind_ok] at h
      cases hm : l.mapM f with
      | error x =>
        rw [hm] at h; cases h
        obtain ⟨b, hb, hb'⟩ := ih hm
        exact ⟨b, List.mem_cons_of_mem _ hb, hb'⟩
      | ok z => rw [hm] at h; cases h

theorem floatArray_error {F : Type} {pf : Str → Option F} {rows : List (List Str)} {e : PyErr} (h : floatArray pf rows = .error e) :
    e = .valueError := by
  cases rows with
  | nil => cases h
  | cons r rs =>
    unfold floatArray at h
    simp only at h
    split_ifs at h
    · obtain ⟨a, -, ha⟩ := mapM_error_mem h
      obtain ⟨b, -, hb⟩ := mapM_error_mem ha
      cases hp : pf b with
      | none => rw [hp] at hb; cases hb; rfl
      | some x => rw [hp] at hb; cases hb
    · cases h; rfl

theorem dataFrame_ok_iff {F : Type} {rows : List (List F)} {names : List Str} {t : NumTable F} : dataFrame rows names = .ok t ↔
    t = ⟨names, rows⟩ ∧ ∀ n, ((rows = [] ∧ n = 1) ∨ ∃ r, rows.head? = some r ∧ n = r.length) → n = names.length := by
  cases rows with
  | nil =>
    unfold dataFrame
    simp only
    by_cases h : names.length = 1
    · rw [if_pos h]
      constructor
      · intro h'; cases h'
        refine ⟨rfl, fun n hn => ?_⟩
        rcases hn with ⟨-, rfl⟩ | ⟨r, hr, -⟩
        · exact h.symm
        · cases hr
      · rintro ⟨rfl, -⟩; rfl
    · rw [if_neg h]
      constructor
      · intro h'; cases h'
      · rintro ⟨-, h'⟩
        exact absurd (h' 1 (by simp)).symm h
  | cons r rs =>
    unfold dataFrame
    simp only
    by_cases h : r.length = names.length
    · rw [if_pos h]
      constructor
      · intro h'; cases h'
        refine ⟨rfl, fun n hn => ?_⟩
        rcases hn with ⟨h0, -⟩ | ⟨r', hr, rfl⟩
        · cases h0
        · cases hr; exact h
      · rintro ⟨rfl, -⟩; rfl
    · rw [if_neg h]
      constructor
      · intro h'; cases h'
      · rintro ⟨-, h'⟩
        exact absurd (h' r.length (Or.inr ⟨r, rfl, rfl⟩)) h

theorem dataFrame_error {F : Type} {rows : List (List F)} {names : List Str} {e : PyErr} (h : dataFrame rows names = .error e) :
    e = .valueError := by
  unfold dataFrame at h
  split at h <;> split_ifs at h <;> cases h <;> rfl

theorem entry_block {limit : Nat} {file : List Str} {p : SpecParser} (hp : SpecParser.init limit file = .ok p) {n : Int} {e : ScanEntry}
    (he : p.index.get n = .ok e) : BlockAt p.lines n e := by
  obtain ⟨g1, bs, g2, -, -, g3, -⟩ := C50_blocks_partial limit file p hp
  have h4 := g3 n
  rw [he] at h4
  cases hf : (bs.filter fun (b : Int × ScanEntry) => decide (b.1 = n)).getLast? with
  | none => rw [hf] at h4; cases h4
  | some b =>
    rw [hf] at h4
    cases h4
    obtain ⟨hm, hn'⟩ := List.mem_filter.1 (List.mem_of_getLast? hf)
    have : b.1 = n := by simpa using hn'
    rw [← this]
    exact g2 b hm

theorem forall₂_map_left {α β γ : Type} {R : β → γ → Prop} {f : α → β} {l : List α} {z : List γ} (h : List.Forall₂ R (l.map f) z) :
    List.Forall₂ (fun a c => R (f a) c) l z := by
  rwa [List.forall₂_map_left_iff] at h

theorem forall₂_split {α β : Type} {R : α → β → Prop} {a b : List α} {z : List β} (h : List.Forall₂ R (a ++ b) z) :
    ∃ x y, z = x ++ y ∧ List.Forall₂ R a x ∧ List.Forall₂ R b y := by
  induction a generalizing z with
  | nil => exact ⟨[], z, rfl, List.Forall₂.nil, h⟩
  | cons c a ih =>
    cases h with
    | @cons _ d _ z h1 h2 =>
      obtain ⟨x, y, rfl, h3, h4⟩ := ih h2
      exact ⟨d :: x, y, rfl, List.Forall₂.cons h1 h3, h4⟩

theorem rowOf_unique {F : Type} {pf : Str → Option F} {rows : List (List Str)} {x y : List (List F)} (hx : List.Forall₂ (RowOf pf) rows x)
    (hy : List.Forall₂ (RowOf pf) rows y) : x = y := by
  have h1 : ∀ {w : List Str} {u v : List F}, RowOf pf w u → RowOf pf w v → u = v := by
    intro w u v hu hv
    induction hu generalizing v with
    | nil => cases hv; rfl
    | cons h _ ih =>
      cases hv with
      | cons h' hv' =>
        rw [h] at h'
        cases h'
        rw [ih hv']
  induction hx generalizing y with
  | nil => cases hy; rfl
  | cons h _ ih =>
    cases hy with
    | cons h' hy' => rw [h1 h h', ih hy']

theorem rowOf_length {F : Type} {pf : Str → Option F} {rows : List (List Str)} {z : List (List F)} {c : Nat}
    (h : List.Forall₂ (RowOf pf) rows z) (hc : ∀ s ∈ rows, s.length = c) : ∀ v ∈ z, v.length = c := by
  induction h with
  | nil => intro v hv; cases hv
  | cons h1 _ ih =>
    intro v hv
    rcases List.mem_cons.1 hv with rfl | hv
    · rw [← hc _ List.mem_cons_self]
      exact (List.Forall₂.length_eq h1).symm
    · exact ih (fun s hs => hc s (List.mem_cons_of_mem _ hs)) v hv

/-- C119 for a scan that is still being measured: lines with data are appended to a file. It stays readable, every scan keeps its
command and time, and a table that could be read keeps its columns and rows. Either nothing or the numbers of all new lines follow,
or the table is refused with a `ValueError`; the latter is impossible if the new lines are complete. -/
theorem C119_rows (a : Nat) (old new : List Str) (p : SpecParser) (hn : ∀ l ∈ new, RowLine l) (hp : SpecParser.init a old = .ok p) :
    ∃ r, SpecParser.init a (old ++ new) = .ok r ∧ ∀ n : Int,
      ((r.index.get n).map fun (e : ScanEntry) => (e.command, e.time)) = ((p.index.get n).map fun (e : ScanEntry) => (e.command, e.time)) ∧
      ∀ (F : Type) (pf : Str → Option F) (t : NumTable F), p.extractScan pf n = .ok t →
        ((∃ extra, r.extractScan pf n = .ok ⟨t.columns, t.rows ++ extra⟩ ∧
            (extra = [] ∨ List.Forall₂ (fun (l : Str) row => RowOf pf (splitWs l) row) new extra)) ∨
          r.extractScan pf n = .error .valueError) ∧
        ((∀ l ∈ new, (splitWs l).length = t.columns.length ∧ ∀ w ∈ splitWs l, ∃ x, pf w = some x) →
          ∃ t', r.extractScan pf n = .ok t') := by
  obtain ⟨p1, p2⟩ := init_ok hp
  have hns : ∀ l ∈ new.map (rstripBy isSpace), RowLine l := by
    intro l hl
    obtain ⟨m, hm, rfl⟩ := List.mem_map.1 hl
    exact (hn m hm).rstrip
  obtain ⟨bs, bs', b1, b2, b3⟩ := index_rows hns (Nat.zero_le _) p2
  refine ⟨⟨(old ++ new).map (rstripBy isSpace), bs'.foldl (fun i b => ScanIndex.set i b.1 b.2) []⟩, ?_, fun n => ?_⟩
  · unfold SpecParser.init
    rw [List.map_append]
    simp only [b3, bind_ok]
    rfl
  · generalize hr : (⟨(old ++ new).map (rstripBy isSpace), bs'.foldl (fun i b => ScanIndex.set i b.1 b.2) []⟩ : SpecParser) = r
    have hrl : r.lines = p.lines ++ new.map (rstripBy isSpace) := by rw [← hr, p1, ← List.map_append]
    have hri : r.index = bs'.foldl (fun i b => ScanIndex.set i b.1 b.2) [] := by rw [← hr]
    have hget := get_same b2 n
    rw [← hri, ← b1] at hget
    rcases hget with ⟨e, e', he, he', -, hc, ht, hh⟩ | ⟨x, hx, hx'⟩
    · refine ⟨?_, ?_⟩
      · rw [he, he']
        simp only at hc ht
        simp only [Except.map, hc, ht]
      · intro F pf t hext
        simp only at hh
        unfold SpecParser.extractScan at hext ⊢
        rw [columnNames_of he, scanData_of he] at hext
        rw [columnNames_of he', scanData_of he', ← hh, hrl]
        cases hd : e.header with
        | none => rw [hd] at hext; cases hext
        | some i =>
          rw [hd] at hext
          simp only at hext ⊢
          have hi : i < p.lines.length := by
            have hB := entry_block hp he
            rcases hB.header with ⟨k, l, h1, h2⟩ | ⟨-, h2⟩
            · rw [hd] at h2
              cases h2
              have := h1.hi
              have := hB.bound
              omega
            · rw [hd] at h2; cases h2
          rw [getItem_append_left _ hi, List.drop_append_of_le_length (by omega)]
          obtain ⟨names, hnames, hext⟩ := bind_eq_ok.1 hext
          obtain ⟨x, hx, hext⟩ := bind_eq_ok.1 hext
          rw [hnames]
          simp only [bind_ok]
          obtain ⟨f1, f2⟩ := floatArray_ok_iff.1 hx
          obtain ⟨rfl, d2⟩ := dataFrame_ok_iff.1 hext
          rcases dataLines_rows_append hns (p.lines.drop (i + 1)) with hdl | hdl
          · rw [hdl, hx]
            simp only [bind_ok]
            rw [hext]
            exact ⟨Or.inl ⟨[], by rw [List.append_nil], Or.inl rfl⟩, fun _ => ⟨_, rfl⟩⟩
          · rw [hdl, List.map_append]
            have hsp : (new.map (rstripBy isSpace)).map splitWs = new.map splitWs := by
              rw [List.map_map]
              exact List.map_congr_left fun l _ => splitWs_rstrip l
            rw [hsp]
            constructor
            · cases hy : floatArray pf ((dataLines (p.lines.drop (i + 1))).map splitWs ++ new.map splitWs) with
              | error z => right; rw [floatArray_error hy]; rfl
              | ok y =>
                simp only [bind_ok]
                obtain ⟨-, g2⟩ := floatArray_ok_iff.1 hy
                obtain ⟨x', extra, rfl, g3, g4⟩ := forall₂_split g2
                rw [rowOf_unique g3 f2]
                cases hz : dataFrame (x ++ extra) names with
                | error z => right; rw [dataFrame_error hz]
                | ok t' =>
                  left
                  rw [(dataFrame_ok_iff.1 hz).1]
                  exact ⟨extra, rfl, Or.inr (forall₂_map_left g4)⟩
            · intro hfull
              have hlen : ∀ s ∈ (dataLines (p.lines.drop (i + 1))).map splitWs, s.length = names.length := by
                intro s hs
                cases hD : (dataLines (p.lines.drop (i + 1))).map splitWs with
                | nil => rw [hD] at hs; cases hs
                | cons u us =>
                  rw [hD] at f1 f2 hs
                  cases f2 with
                  | @cons _ v _ vs hv _ =>
                    have h1 := d2 v.length (Or.inr ⟨v, rfl, rfl⟩)
                    have h2 : u.length = v.length := List.Forall₂.length_eq hv
                    rw [f1 u List.mem_cons_self s hs, h2, h1]
              have hnew : ∃ extra, List.Forall₂ (RowOf pf) (new.map splitWs) extra := by
                have h1 : ∀ w : List Str, (∀ u ∈ w, ∃ x, pf u = some x) → ∃ row, RowOf pf w row := by
                  intro w hw
                  induction w with
                  | nil => exact ⟨[], List.Forall₂.nil⟩
                  | cons u w ih =>
                    obtain ⟨x, hx⟩ := hw u List.mem_cons_self
                    obtain ⟨row, hrow⟩ := ih fun v hv => hw v (List.mem_cons_of_mem _ hv)
                    exact ⟨x :: row, List.Forall₂.cons hx hrow⟩
                clear hp hn hns hsp hdl b2 b3 hr hrl
                induction new with
                | nil => exact ⟨[], List.Forall₂.nil⟩
                | cons l ls ih =>
                  obtain ⟨rows, hrows⟩ := ih fun m hm => hfull m (List.mem_cons_of_mem _ hm)
                  obtain ⟨row, hrow⟩ := h1 (splitWs l) (hfull l List.mem_cons_self).2
                  exact ⟨row :: rows, List.Forall₂.cons hrow hrows⟩
              obtain ⟨extra, hex⟩ := hnew
              have hall : ∀ s ∈ (dataLines (p.lines.drop (i + 1))).map splitWs ++ new.map splitWs, s.length = names.length := by
                intro s hs
                rcases List.mem_append.1 hs with hs | hs
                · exact hlen s hs
                · obtain ⟨l, hl, rfl⟩ := List.mem_map.1 hs
                  exact (hfull l hl).1
              have hy : floatArray pf ((dataLines (p.lines.drop (i + 1))).map splitWs ++ new.map splitWs) = .ok (x ++ extra) :=
                floatArray_ok_iff.2 ⟨fun u hu v hv => by rw [hall u hu, hall v hv], List.rel_append f2 hex⟩
              rw [hy]
              simp only [bind_ok]
              refine ⟨⟨names, x ++ extra⟩, dataFrame_ok_iff.2 ⟨rfl, fun m hm => ?_⟩⟩
              rcases hm with ⟨h0, rfl⟩ | ⟨v, hv, rfl⟩
              · have : x = [] := (List.append_eq_nil_iff.1 h0).1
                exact d2 1 (Or.inl ⟨this, rfl⟩)
              · exact rowOf_length (List.rel_append f2 hex) hall v (List.mem_of_head? hv)
    · refine ⟨by rw [hx, hx'], ?_⟩
      intro F pf t hext
      unfold SpecParser.extractScan SpecParser.columnNames SpecParser.headerLine at hext
      rw [hx] at hext
      cases hext

/-- A value for the words of the examples. -/
def growVal (w : Str) : Option Nat := if w = "1".toList then some 1 else if w = "3".toList then some 3 else none

/-- A complete row is added to the table, half a row makes it unreadable. -/
example : (∀ l ∈ ["3 1".toList], RowLine l) ∧ (∀ l ∈ ["3".toList], RowLine l) ∧ ∃ p r u : SpecParser,
    SpecParser.init 2 growOld = .ok p ∧ SpecParser.init 2 (growOld ++ ["3 1".toList]) = .ok r ∧ SpecParser.init 2 (growOld ++ ["3".toList]) = .ok u ∧
    p.extractScan growVal 1 = .ok ⟨["x".toList, "y".toList], [[1, 3]]⟩ ∧
    r.extractScan growVal 1 = .ok ⟨["x".toList, "y".toList], [[1, 3], [3, 1]]⟩ ∧ u.extractScan growVal 1 = .error .valueError := by
  refine ⟨?_, ?_, _, _, _, rfl, rfl, rfl, rfl, rfl, rfl⟩
  · intro l hl
    rw [List.mem_singleton.1 hl]
    exact ⟨fun h => absurd (h '3' (by decide)) (by decide), by decide⟩
  · intro l hl
    rw [List.mem_singleton.1 hl]
    exact ⟨fun h => absurd (h '3' (by decide)) (by decide), by decide⟩

end Verif.Props
