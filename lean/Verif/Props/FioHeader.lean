import Verif.Props.FioInfo
import Verif.Lemmas.Text
import Mathlib.Data.List.Forall2

/-!
# C99: the header of a .fio file

Motor positions, the regions of interest of the detectors, the UB matrix and the signal counter are read
from the parameter block as they were written, wherever the line stands in the block, as long as no later
line speaks of the same entry. A line that cannot be read changes nothing.
-/

namespace Verif.Props
open Verif.Py Verif.Model

variable {F : Type} (pf : Str → Option F) (nan : F)

/-! ### Text -/

/-- Only white space. -/
def Spaces (s : Str) : Prop := ∀ c ∈ s, isSpace c = true

/-- A text that neither starts nor ends with white space and is not empty. -/
def Trimmed (m : Str) : Prop := m ≠ [] ∧ (∀ c, m.head? = some c → isSpace c = false) ∧ NoTrail m

theorem lstrip_mid {pre m : Str} (h : Spaces pre) (hm : ∀ c, m.head? = some c → isSpace c = false) :
    lstripBy isSpace (pre ++ m) = m := by
  unfold lstripBy
  induction pre with
  | nil =>
    cases m with
    | nil => rfl
    | cons c m => rw [List.nil_append, List.dropWhile_cons, if_neg (by rw [hm c rfl]; simp)]
  | cons c pre ih =>
    rw [List.cons_append, List.dropWhile_cons, if_pos (h c List.mem_cons_self),
      ih fun d hd => h d (List.mem_cons_of_mem _ hd)]

theorem rstrip_mid {m post : Str} (h : Spaces post) (hm : NoTrail m) : rstripBy isSpace (m ++ post) = m := by
  have h1 := lstrip_mid (pre := post.reverse) (m := m.reverse) (fun c hc => h c (List.mem_reverse.1 hc))
    (fun c hc => hm c (by rwa [List.head?_reverse] at hc))
  unfold lstripBy at h1
  unfold rstripBy
  rw [List.reverse_append, h1, List.reverse_reverse]

theorem strip_mid {pre m post : Str} (h1 : Spaces pre) (hm : Trimmed m) (h2 : Spaces post) :
    stripBy isSpace (pre ++ m ++ post) = m := by
  unfold stripBy
  rw [List.append_assoc, lstrip_mid h1, rstrip_mid h2 hm.2.2]
  intro c hc
  obtain ⟨h3, h4, -⟩ := hm
  cases m with
  | nil => exact absurd rfl h3
  | cons d m => exact h4 c (by simpa using hc)

theorem spaces_nil : Spaces [] := fun c hc => by cases hc

theorem strip_left {pre m : Str} (h1 : Spaces pre) (hm : Trimmed m) : stripBy isSpace (pre ++ m) = m := by
  have := strip_mid h1 hm spaces_nil
  rwa [List.append_nil] at this

theorem strip_right {m post : Str} (hm : Trimmed m) (h2 : Spaces post) : stripBy isSpace (m ++ post) = m := by
  have := strip_mid spaces_nil hm h2
  rwa [List.nil_append] at this

theorem word_trimmed {w : Str} (h : IsWord w) : Trimmed w :=
  ⟨h.1, fun c hc => h.2 c (List.mem_of_head? hc), noTrail_word h⟩

theorem trimmed_append {a b : Str} (ha : Trimmed a) (hb : Trimmed b) (m : Str) : Trimmed (a ++ m ++ b) := by
  refine ⟨by simp [ha.1], ?_, noTrail_append hb.1 hb.2.2⟩
  intro c hc
  obtain ⟨h3, h4, -⟩ := ha
  cases a with
  | nil => exact absurd rfl h3
  | cons d a => exact h4 c (by simpa using hc)

theorem strip_infix (p : Char → Bool) (s : Str) : stripBy p s <:+: s := by
  unfold stripBy
  exact (rstrip_prefix p _).isInfix.trans (List.dropWhile_suffix p).isInfix

theorem splitOn1_cons {c : Char} {p : Str} (h : c ∉ p) (r : Str) : splitOn [c] (p ++ c :: r) = p :: splitOn [c] r := by
  have key : ∀ (p cur : Str), c ∉ p →
      splitOnAux [c] (p ++ c :: r) cur 0 = (cur.reverse ++ p) :: splitOnAux [c] r [] 0 := by
    intro p
    induction p with
    | nil =>
      intro cur _
      rw [List.nil_append, splitOnAux, if_pos (by simp [List.isPrefixOf])]
      simp
    | cons d p ih =>
      intro cur h
      rw [List.mem_cons, not_or] at h
      rw [List.cons_append, splitOnAux, if_neg (by simp [List.isPrefixOf, h.1]), ih _ h.2]
      simp
  have := key p [] h
  unfold splitOn
  rw [this]
  rfl

theorem splitOn1_none {c : Char} {p : Str} (h : c ∉ p) : splitOn [c] p = [p] := by
  have := splitOnAux_none (sep := [c]) (t := p) (c := c) (by simp) h []
  unfold splitOn
  rw [this]
  rfl

theorem splitOn1_join {c : Char} {l : List Str} (hl : l ≠ []) (h : ∀ t ∈ l, c ∉ t) : splitOn [c] (join [c] l) = l := by
  induction l with
  | nil => exact absurd rfl hl
  | cons t r ih =>
    cases r with
    | nil => rw [join, splitOn1_none (h t (by simp))]
    | cons u r =>
      rw [join, List.append_assoc, List.singleton_append, splitOn1_cons (h t (by simp)),
        ih (by simp) fun s hs => h s (List.mem_cons_of_mem _ hs)]

theorem splitOn_first_prefix {sep s k : Str} {r : List Str} (hs : sep ≠ []) (h : splitOn sep s = k :: r) : k <+: s := by
  have h1 := join_splitOn hs s
  rw [h] at h1
  cases r with
  | nil => rw [join] at h1; rw [h1]
  | cons u r => rw [join, List.append_assoc] at h1; exact ⟨_, h1⟩

/-! ### One line -/

theorem hasEquals_of {u w : Str} (hu : u ≠ []) : hasEquals (u ++ '=' :: w) = true := by
  unfold hasEquals
  cases u with
  | nil => exact absurd rfl hu
  | cons c u => simp

/-- A line `key = value`: what the reader sees of it. -/
theorem fioParam_line (s : FioState F) {pre k v post : Str} (h1 : Spaces pre) (h2 : Spaces post) (hk : '=' ∉ k)
    (hv : '=' ∉ v) (hm : Trimmed (k ++ '=' :: v)) (hn : k ≠ []) :
    fioParam pf s (pre ++ (k ++ '=' :: v) ++ post) =
      match pf v with
      | some x => { s with motors := dictSet s.motors (stripBy isSpace k) x }
      | none => fioHeader pf s (pre ++ (k ++ '=' :: v) ++ post) k v := by
  have he : hasEquals (pre ++ (k ++ '=' :: v) ++ post) = true := by
    have := hasEquals_of (u := pre ++ k) (w := v ++ post) (by simp [hn])
    simpa using this
  have hs : splitOn ['='] (stripBy isSpace (pre ++ (k ++ '=' :: v) ++ post)) = [k, v] := by
    rw [strip_mid h1 hm h2, splitOn1_cons hk, splitOn1_none hv]
  unfold fioParam
  rw [if_pos he, hs]
  cases hp : pf v <;> simp only [hp]

/-- The line `key = number`. -/
structure MotorLine (line name : Str) (x : F) : Prop where
  ex : ∃ pre a num post : Str, Spaces pre ∧ Spaces a ∧ Spaces post ∧ NoTrail num ∧ num ≠ [] ∧ '=' ∉ num ∧ pf num = some x ∧
    line = pre ++ (name ++ a ++ '=' :: num) ++ post
  trimmed : Trimmed name
  noEq : '=' ∉ name

theorem spaces_no {a : Str} (h : Spaces a) {c : Char} (hc : isSpace c = false) : c ∉ a := by
  intro hm
  rw [h c hm] at hc
  cases hc

theorem trimmed_key {k v : Str} (hk : ∀ c, k.head? = some c → isSpace c = false) (hn : k ≠ []) (hv : NoTrail v) (hv0 : v ≠ []) :
    Trimmed (k ++ '=' :: v) := by
  refine ⟨by simp, ?_, noTrail_append (by simp) ?_⟩
  · intro c hc
    cases k with
    | nil => exact absurd rfl hn
    | cons d k => exact hk c (by simpa using hc)
  · have := noTrail_append (a := ['=']) hv0 hv
    simpa using this

theorem motor_line (s : FioState F) {line name : Str} {x : F} (h : MotorLine pf line name x) :
    fioParam pf s line = { s with motors := dictSet s.motors name x } := by
  obtain ⟨⟨pre, a, num, post, h1, h2, h3, h4, h5, h6, h7, rfl⟩, ht, hq⟩ := h
  have ha : '=' ∉ a := spaces_no h2 (by decide)
  have hhead : ∀ c, (name ++ a).head? = some c → isSpace c = false := by
    intro c hc
    obtain ⟨g1, g2, -⟩ := ht
    cases name with
    | nil => exact absurd rfl g1
    | cons d k => exact g2 c (by simpa using hc)
  rw [fioParam_line pf s h1 h3 (by simp [hq, ha]) h6 (trimmed_key hhead (by simp [ht.1]) h4 h5) (by simp [ht.1]), h7]
  simp only [strip_right ht h2]

/-- The line `word detector = [x₁,x₂,…]` with the numbers in groups. `sh` writes a number. -/
structure RoiLine (sh : F → Str) (line det : Str) (xs : List F) : Prop where
  ex : ∃ pre word a b post : Str, Spaces pre ∧ Spaces a ∧ Spaces b ∧ Spaces post ∧
    roiWord <:+: word ∧ IsWord word ∧ '=' ∉ word ∧
    line = pre ++ (word ++ ' ' :: (det ++ a) ++ '=' :: (b ++ '[' :: join [','] (xs.map sh) ++ [']'])) ++ post
  word : IsWord det
  noEq : '=' ∉ det
  some : xs ≠ []

/-- How numbers are written: `float` reads them back, no commas and equals signs. -/
def Writes (sh : F → Str) : Prop := ∀ x, pf (sh x) = some x ∧ ',' ∉ sh x ∧ '=' ∉ sh x

/-- `float` accepts no text with a bracket. -/
def NoBracket : Prop := ∀ t : Str, '[' ∈ t → pf t = none

theorem mem_join_sep {c d : Char} (hd : c ≠ d) {l : List Str} (h : ∀ t ∈ l, c ∉ t) : c ∉ join [d] l := by
  induction l with
  | nil => simp [join]
  | cons t r ih =>
    cases r with
    | nil => rw [join]; exact h t (by simp)
    | cons u r =>
      rw [join, List.mem_append, List.mem_append]
      rintro ((hc | hc) | hc)
      · exact h t (by simp) hc
      · rw [List.mem_singleton] at hc; exact hd hc
      · exact ih (fun s hs => h s (List.mem_cons_of_mem _ hs)) hc

theorem slice_inner (x y : Char) (body : Str) : slice (x :: body ++ [y]) (some 1) (some (-1)) = body := by
  unfold slice
  simp only [sliceBound]
  rw [if_pos (by omega), if_neg (by omega)]
  have h1 : ((-1 : Int) + ((x :: body ++ [y]).length : Int)).toNat = body.length + 1 := by simp
  have h2 : min (1 : Int).toNat (x :: body ++ [y]).length = 1 := by simp
  rw [h1, h2]
  simp

theorem lower_space {s : Str} (h : ' ' ∈ s) {w : Str} (hw : ' ' ∉ w) : lower s ≠ w := by
  intro he
  apply hw
  rw [← he]
  exact List.mem_map.2 ⟨' ', h, by decide⟩

theorem mapM_float (sh : F → Str) (h : Writes pf sh) (xs : List F) : (xs.map sh).mapM (fioFloat pf) = .ok xs := by
  induction xs with
  | nil => rfl
  | cons x xs ih =>
    rw [List.map_cons, List.mapM_cons, ih]
    unfold fioFloat
    rw [(h x).1]
    rfl

theorem det_piece {det a : Str} (hd : IsWord det) (ha : Spaces a) :
    ∃ (p : Str) (r : List Str), splitOn [' '] (det ++ a) = p :: r ∧ stripBy isSpace p = det := by
  have hdet : ' ' ∉ det := fun h => by have := hd.2 _ h; revert this; decide
  by_cases hs : ' ' ∈ a
  · obtain ⟨u, w, hu, hw⟩ : ∃ u w : Str, a = u ++ ' ' :: w ∧ ' ' ∉ u := by
      clear ha
      induction a with
      | nil => cases hs
      | cons c a ih =>
        by_cases hc : c = ' '
        · exact ⟨[], a, by simp [hc], by simp⟩
        · obtain ⟨u, w, hu, hw⟩ := ih (by rcases List.mem_cons.1 hs with h | h; exact absurd h.symm hc; exact h)
          exact ⟨c :: u, w, by simp [hu], by simp [hw, Ne.symm hc]⟩
    subst hu
    refine ⟨det ++ u, splitOn [' '] w, ?_, ?_⟩
    · rw [← List.append_assoc, splitOn1_cons (by simp [hdet, hw])]
    · exact strip_right (word_trimmed hd) fun c hc => ha c (by simp [hc])
  · exact ⟨det ++ a, [], splitOn1_none (by simp [hdet, hs]), strip_right (word_trimmed hd) ha⟩

theorem roi_line (s : FioState F) {sh : F → Str} (hsh : Writes pf sh) (hb : NoBracket pf) {line det : Str} {xs : List F}
    (h : RoiLine sh line det xs) : fioParam pf s line = { s with rois := dictSet s.rois det (fioGroups xs) } := by
  obtain ⟨⟨pre, word, a, b, post, h1, h2, h3, h4, h5, h6, h7, rfl⟩, hd, hq, hx⟩ := h
  have ha : '=' ∉ a := spaces_no h2 (by decide)
  have hbe : '=' ∉ b := spaces_no h3 (by decide)
  have hws : ' ' ∉ word := fun h => by have := h6.2 _ h; revert this; decide
  have hj : '=' ∉ join [','] (xs.map sh) := mem_join_sep (by decide) (by
    intro t ht
    obtain ⟨x, -, rfl⟩ := List.mem_map.1 ht
    exact (hsh x).2.2)
  have hhead : ∀ c, (word ++ ' ' :: (det ++ a)).head? = some c → isSpace c = false := by
    intro c hc
    obtain ⟨g1, g2⟩ := h6
    cases word with
    | nil => exact absurd rfl g1
    | cons d k => exact g2 c (by simp at hc; simp [hc])
  have htrail : NoTrail (b ++ '[' :: join [','] (xs.map sh) ++ [']']) :=
    noTrail_append (by simp) fun c hc => by simp at hc; subst hc; decide
  rw [fioParam_line pf s h1 h4 (by simp [h7, hq, ha]) (by simp [hbe, hj]) (trimmed_key hhead (by simp) htrail (by simp))
    (by simp), hb _ (by simp)]
  have hk : stripBy isSpace (word ++ ' ' :: (det ++ a)) = word ++ ' ' :: det := by
    have := strip_right (m := word ++ ' ' :: det) (post := a)
      (by have := trimmed_append (word_trimmed h6) (word_trimmed hd) [' ']; simpa using this) h2
    simpa using this
  have hv : stripBy isSpace (b ++ '[' :: join [','] (xs.map sh) ++ [']']) = '[' :: join [','] (xs.map sh) ++ [']'] := by
    have := strip_left (pre := b) (m := '[' :: join [','] (xs.map sh) ++ [']']) h3
      ⟨by simp, by intro c hc; simp at hc; subst hc; decide, noTrail_append (by simp) fun c hc => by simp at hc; subst hc; decide⟩
    simpa using this
  obtain ⟨p, r, hp, hps⟩ := det_piece hd h2
  have hr : fioRois pf (word ++ ' ' :: (det ++ a)) (b ++ '[' :: join [','] (xs.map sh) ++ [']']) = .ok (det, fioGroups xs) := by
    unfold fioRois
    rw [hv, slice_inner, splitOn1_join (by simpa using hx) (by
      intro t ht
      obtain ⟨x, -, rfl⟩ := List.mem_map.1 ht
      exact (hsh x).2.1), mapM_float pf sh hsh, splitOn1_cons hws, hp]
    show Except.ok (stripBy isSpace p, fioGroups xs) = _
    rw [hps]
  show fioHeader pf s _ _ _ = _
  unfold fioHeader
  rw [hk, if_neg (lower_space (by simp) (by decide)), if_neg (lower_space (by simp) (by decide)),
    if_pos (contains_iff.2 (h5.trans ⟨[], ' ' :: det, by simp⟩)), hr]

/-! ### Groups of four -/

theorem natStr_inj {m n : Nat} (h : natStr m = natStr n) : m = n := by
  have h1 := (natStr_spec m).2.2 false
  rw [h, (natStr_spec n).2.2 false] at h1
  cases h1
  rfl

theorem roiName_inj {m n : Nat} (h : roiName m = roiName n) : m = n := natStr_inj (List.append_cancel_left h)

theorem fold_rois {β : Type} (f : Nat → β) (n : Nat) :
    (List.range n).foldl (fun d (i : Nat) => dictSet d (roiName (i + 1)) (f i)) [] =
      (List.range n).map fun (i : Nat) => (roiName (i + 1), f i) := by
  induction n with
  | zero => rfl
  | succ n ih =>
    rw [List.range_succ, List.foldl_append, ih, List.foldl_cons, List.foldl_nil, List.map_append, dictSet_new]
    · rfl
    · intro h
      rw [List.map_map, List.mem_map] at h
      obtain ⟨i, hi, he⟩ := h
      have := roiName_inj he
      rw [List.mem_range] at hi
      omega

theorem piece_of {full : List (List F)} (hf : ∀ g ∈ full, g.length = 4) {last : List F} (hl : last.length ≤ 4) (i : Nat) :
    ((full.flatten ++ last).take (4 * i + 4)).drop (4 * i) =
      if h : i < full.length then full[i] else if i = full.length then last else [] := by
  induction full generalizing i with
  | nil =>
    cases i with
    | zero => simp [List.take_of_length_le hl]
    | succ i =>
      simp
      omega
  | cons g full ih =>
    have hg := hf g List.mem_cons_self
    cases i with
    | zero =>
      simp only [List.flatten_cons, List.append_assoc, Nat.mul_zero, Nat.zero_add, List.drop_zero]
      rw [← hg, List.take_left]
      simp
    | succ i =>
      have e1 : 4 * (i + 1) + 4 = g.length + (4 * i + 4) := by omega
      have e2 : 4 * (i + 1) = g.length + 4 * i := by omega
      rw [List.flatten_cons, List.append_assoc, e1, e2, List.take_length_add_append, List.drop_length_add_append,
        ih (fun x hx => hf x (List.mem_cons_of_mem _ hx))]
      simp

theorem slice_nats (xs : List F) (a b : Nat) (ha : a ≤ xs.length) : slice xs (some (a : Int)) (some (b : Int)) = (xs.take b).drop a := by
  unfold slice
  simp only [sliceBound]
  rw [if_pos (by omega), if_pos (by omega)]
  simp only [Int.toNat_natCast]
  rw [Nat.min_eq_left ha]
  rcases Nat.le_total b xs.length with h | h
  · rw [Nat.min_eq_left h]
  · rw [Nat.min_eq_right h, List.take_of_length_le (le_refl _), List.take_of_length_le h]

theorem flatten_length {full : List (List F)} (hf : ∀ g ∈ full, g.length = 4) : full.flatten.length = 4 * full.length := by
  induction full with
  | nil => rfl
  | cons g full ih =>
    rw [List.flatten_cons, List.length_append, hf g (by simp), ih fun x hx => hf x (List.mem_cons_of_mem _ hx), List.length_cons]
    omega

/-- Regions of four numbers, of which only the last may be incomplete. -/
def Regions (gs : List (List F)) : Prop :=
  ∃ (full : List (List F)) (last : List F), gs = full ++ [last] ∧ (∀ g ∈ full, g.length = 4) ∧ 1 ≤ last.length ∧ last.length ≤ 4

theorem groups_of {gs : List (List F)} (h : Regions gs) :
    fioGroups gs.flatten = gs.zipIdx.map fun (p : List F × Nat) => (roiName (p.2 + 1), p.1) := by
  obtain ⟨full, last, rfl, hf, h1, h4⟩ := h
  have hlen : (full ++ [last]).flatten.length = 4 * full.length + last.length := by
    rw [List.flatten_append, List.length_append, flatten_length hf]
    simp
  have hn : ((full ++ [last]).flatten.length + 3) / 4 = full.length + 1 := by omega
  unfold fioGroups
  rw [fold_rois, hn]
  apply List.ext_getElem (by simp)
  intro i hi hj
  simp only [List.length_map, List.length_range] at hi
  simp only [List.getElem_map, List.getElem_range, List.getElem_zipIdx, Nat.zero_add]
  congr 1
  have hc : slice (full ++ [last]).flatten (some (4 * i : Int)) (some (4 * i + 4 : Int)) =
      ((full ++ [last]).flatten.take (4 * i + 4)).drop (4 * i) := by
    have := slice_nats (full ++ [last]).flatten (4 * i) (4 * i + 4) (by omega)
    push_cast at this
    exact this
  rw [hc, List.flatten_append, show [last].flatten = last by simp, piece_of hf h4]
  split
  · rename_i h
    rw [List.getElem_append_left h]
  · rename_i h
    have : i = full.length := by omega
    subst this
    simp

/-! ### The UB matrix -/

theorem positions_aux (c : Char) (u w : Str) (k : Nat) :
    (((u ++ c :: w).zipIdx k).filter fun (p : Char × Nat) => p.1 = c).map Prod.snd =
      ((u.zipIdx k).filter fun (p : Char × Nat) => p.1 = c).map Prod.snd ++ (k + u.length) ::
        ((w.zipIdx (k + u.length + 1)).filter fun (p : Char × Nat) => p.1 = c).map Prod.snd := by
  rw [List.zipIdx_append, List.filter_append, List.map_append, List.zipIdx_cons, List.filter_cons, if_pos (by simp)]
  rfl

theorem positions_length (c : Char) (u : Str) (k : Nat) :
    (((u.zipIdx k).filter fun (p : Char × Nat) => p.1 = c).map Prod.snd).length = u.count c := by
  induction u generalizing k with
  | nil => rfl
  | cons d u ih =>
    rw [List.zipIdx_cons, List.filter_cons]
    by_cases h : d = c
    · subst h
      rw [if_pos (by simp), List.map_cons, List.length_cons, ih, List.count_cons_self]
    · rw [if_neg (by simp [h]), ih, List.count_cons_of_ne h]

theorem position_of {c : Char} {v u w : Str} {n : Nat} (hv : v = u ++ c :: w) (hn : u.count c = n) :
    getItem (positions c v) (n : Int) = .ok u.length := by
  subst hv hn
  have h1 := positions_aux c u w 0
  have h2 := positions_length c u 0
  have h3 : (positions c (u ++ c :: w))[u.count c]? = some u.length := by
    unfold positions
    rw [h1, List.getElem?_append_right (by omega), h2]
    simp
  obtain ⟨h4, h5⟩ := List.getElem?_eq_some_iff.1 h3
  rw [getItem_nat h4, h5]

theorem between_of {v u r w : Str} {x y : Char} (hv : v = u ++ x :: (r ++ y :: w)) :
    between v u.length (u ++ x :: r).length = r := by
  subst hv
  unfold between
  have h := slice_nats (u ++ x :: (r ++ y :: w)) (u.length + 1) (u ++ x :: r).length (by simp)
  push_cast at h
  rw [h]
  have e : u ++ x :: (r ++ y :: w) = (u ++ x :: r) ++ y :: w := by simp
  rw [e, List.take_left, show u ++ x :: r = (u ++ [x]) ++ r by simp, show u.length + 1 = (u ++ [x]).length by simp,
    List.drop_left]

theorem splitWsAux_spaces {a : Str} (h : Spaces a) (cur : Str) : splitWsAux a cur = splitWsAux [] cur := by
  induction a generalizing cur with
  | nil => rfl
  | cons c a ih =>
    have e : splitWsAux (c :: a) cur = if cur = [] then splitWsAux a [] else cur.reverse :: splitWsAux a [] := by
      rw [splitWsAux, if_pos (h c List.mem_cons_self)]
    rw [e, ih (fun d hd => h d (List.mem_cons_of_mem _ hd)) []]
    simp only [splitWsAux]
    split <;> simp

theorem splitWsAux_trail (t : Str) {a : Str} (h : Spaces a) (cur : Str) : splitWsAux (t ++ a) cur = splitWsAux t cur := by
  induction t generalizing cur with
  | nil => exact splitWsAux_spaces h cur
  | cons c t ih => rw [List.cons_append, splitWsAux, splitWsAux, ih, ih]

theorem splitWs_lead {a : Str} (h : Spaces a) (t : Str) : splitWs (a ++ t) = splitWs t := by
  unfold splitWs
  induction a with
  | nil => rfl
  | cons c a ih =>
    rw [List.cons_append, splitWsAux, if_pos (h c List.mem_cons_self), if_pos rfl, ih fun d hd => h d (List.mem_cons_of_mem _ hd)]

theorem splitWs_strip (t : Str) : splitWs (stripBy isSpace t) = splitWs t := by
  have hr : ∀ t : Str, splitWs (rstripBy isSpace t) = splitWs t := by
    intro t
    have e : t = rstripBy isSpace t ++ (t.reverse.takeWhile isSpace).reverse := by
      unfold rstripBy
      rw [← List.reverse_append, List.takeWhile_append_dropWhile, List.reverse_reverse]
    conv_rhs => rw [e]
    unfold splitWs
    rw [splitWsAux_trail]
    intro c hc
    exact List.mem_takeWhile_imp (List.mem_reverse.1 hc)
  have hl : ∀ t : Str, splitWs (lstripBy isSpace t) = splitWs t := by
    intro t
    have e : t = t.takeWhile isSpace ++ lstripBy isSpace t := (List.takeWhile_append_dropWhile).symm
    conv_rhs => rw [e]
    rw [splitWs_lead]
    intro c hc
    exact List.mem_takeWhile_imp hc
  unfold stripBy
  rw [hr, hl]

theorem splitWs_collapse (t : Str) : splitWs (collapse t) = splitWs t := by
  have key : ∀ (t cur : Str), splitWsAux (collapse t) cur = splitWsAux t cur := by
    intro t
    induction t with
    | nil => intro cur; rfl
    | cons c t ih =>
      intro cur
      cases t with
      | nil => rfl
      | cons d s =>
        rw [collapse]
        split
        · rename_i h
          obtain ⟨rfl, rfl⟩ := h
          have e (r cur : Str) : splitWsAux (' ' :: r) cur = if cur = [] then splitWsAux r [] else cur.reverse :: splitWsAux r [] := by
            rw [splitWsAux, if_pos (show isSpace ' ' = true by decide)]
          rw [ih, e, e (' ' :: s), e s, if_pos rfl]
        · rw [splitWsAux, splitWsAux, ih, ih]
  exact key t []

theorem fioRow_strip (t : Str) : fioRow pf (collapse (stripBy isSpace t)) = fioRow pf t ∧
    fioRow pf (stripBy isSpace (collapse t)) = fioRow pf t := by
  unfold fioRow
  constructor
  · rw [splitWs_collapse, splitWs_strip]
  · rw [splitWs_strip, splitWs_collapse]

/-- No brackets. -/
def Bracketless (s : Str) : Prop := '[' ∉ s ∧ ']' ∉ s

theorem semi_space (c : Char) : isSpace (if c = ';' then ',' else c) = isSpace c := by
  split
  · rename_i h; subst h; decide
  · rfl

theorem semi_spaces {a : Str} (h : Spaces a) : Spaces (semiToComma a) := by
  intro c hc
  obtain ⟨d, hd, rfl⟩ := List.mem_map.1 hc
  show isSpace (if d = ';' then ',' else d) = true
  rw [semi_space]
  exact h d hd

theorem semi_trimmed {m : Str} (h : Trimmed m) : Trimmed (semiToComma m) := by
  obtain ⟨h1, h2, h3⟩ := h
  refine ⟨by simpa [semiToComma] using h1, ?_, ?_⟩
  · intro c hc
    unfold semiToComma at hc
    rw [List.head?_map, Option.map_eq_some_iff] at hc
    obtain ⟨d, hd, rfl⟩ := hc
    rw [semi_space]
    exact h2 d hd
  · intro c hc
    unfold semiToComma at hc
    rw [List.getLast?_map, Option.map_eq_some_iff] at hc
    obtain ⟨d, hd, rfl⟩ := hc
    rw [semi_space]
    exact h3 d hd

theorem semi_not_mem {s : Str} {c : Char} (h : c ∉ s) (hc : c ≠ ',') : c ∉ semiToComma s := by
  intro hm
  obtain ⟨d, hd, he⟩ := List.mem_map.1 hm
  split at he
  · exact hc he.symm
  · subst he; exact h hd

theorem semi_plain {s : Str} (h : Bracketless s) : Bracketless (semiToComma s) :=
  ⟨semi_not_mem h.1 (by decide), semi_not_mem h.2 (by decide)⟩

theorem semi_id {s : Str} (h : ';' ∉ s) : semiToComma s = s := by
  unfold semiToComma
  rw [List.map_congr_left (g := id), List.map_id]
  intro c hc
  rw [if_neg]
  · rfl
  · rintro rfl; exact h hc

theorem semi_cons {c : Char} (h : c ≠ ';') (s : Str) : semiToComma (c :: s) = c :: semiToComma s := by
  unfold semiToComma
  rw [List.map_cons, if_neg h]

theorem semi_append (a b : Str) : semiToComma (a ++ b) = semiToComma a ++ semiToComma b := List.map_append

/-- The text of a matrix: rows in brackets inside of brackets, anything without brackets in between. -/
def matrixText (s₀ r₁ s₁ r₂ s₂ r₃ s₃ : Str) : Str :=
  '[' :: (s₀ ++ '[' :: (r₁ ++ ']' :: (s₁ ++ '[' :: (r₂ ++ ']' :: (s₂ ++ '[' :: (r₃ ++ ']' :: (s₃ ++ [']'])))))))

theorem semi_matrix (s₀ r₁ s₁ r₂ s₂ r₃ s₃ : Str) : semiToComma (matrixText s₀ r₁ s₁ r₂ s₂ r₃ s₃) =
    matrixText (semiToComma s₀) (semiToComma r₁) (semiToComma s₁) (semiToComma r₂) (semiToComma s₂) (semiToComma r₃) (semiToComma s₃) := by
  unfold matrixText
  have h1 : '[' ≠ ';' := by decide
  have h2 : ']' ≠ ';' := by decide
  simp only [semi_append, semi_cons h1, semi_cons h2]
  rfl

/-- The line of the UB matrix. -/
structure UbLine (line s₀ r₁ s₁ r₂ s₂ r₃ s₃ : Str) : Prop where
  ex : ∃ pre name a b post : Str, Spaces pre ∧ Spaces a ∧ Spaces b ∧ Spaces post ∧ IsWord name ∧ '=' ∉ name ∧
    lower name = ubWord ∧ line = pre ++ (name ++ a ++ '=' :: (b ++ matrixText s₀ r₁ s₁ r₂ s₂ r₃ s₃)) ++ post
  plain : ∀ t ∈ [s₀, r₁, s₁, r₂, s₂, r₃, s₃], Bracketless t ∧ '=' ∉ t

theorem count_zero {c : Char} {s : Str} (h : c ∉ s) : s.count c = 0 := List.count_eq_zero.2 h

theorem matrix_rows {v b s₀ r₁ s₁ r₂ s₂ r₃ s₃ : Str} (hv : v = b ++ matrixText s₀ r₁ s₁ r₂ s₂ r₃ s₃) (hb : Bracketless b)
    (hp : ∀ t ∈ [s₀, r₁, s₁, r₂, s₂, r₃, s₃], Bracketless t) :
    ∃ o₁ c₁ o₂ c₂ o₃ c₃ : Nat, getItem (positions '[' v) 1 = .ok o₁ ∧ getItem (positions ']' v) 0 = .ok c₁ ∧ between v o₁ c₁ = r₁ ∧
      getItem (positions '[' v) 2 = .ok o₂ ∧ getItem (positions ']' v) 1 = .ok c₂ ∧ between v o₂ c₂ = r₂ ∧
      getItem (positions '[' v) 3 = .ok o₃ ∧ getItem (positions ']' v) 2 = .ok c₃ ∧ between v o₃ c₃ = r₃ := by
  simp only [List.mem_cons, List.not_mem_nil, or_false, forall_eq_or_imp, forall_eq] at hp
  obtain ⟨p0, p1, q1, p2, q2, p3, q3⟩ := hp
  have z := fun {t : Str} (h : Bracketless t) => And.intro (count_zero h.1) (count_zero h.2)
  have e1 : v = (b ++ '[' :: s₀) ++ '[' :: (r₁ ++ ']' :: (s₁ ++ '[' :: (r₂ ++ ']' :: (s₂ ++ '[' :: (r₃ ++ ']' :: (s₃ ++ [']'])))))) := by
    rw [hv]; simp [matrixText]
  have e2 : v = (b ++ '[' :: s₀ ++ '[' :: r₁ ++ ']' :: s₁) ++ '[' :: (r₂ ++ ']' :: (s₂ ++ '[' :: (r₃ ++ ']' :: (s₃ ++ [']'])))) := by
    rw [hv]; simp [matrixText]
  have e3 : v = (b ++ '[' :: s₀ ++ '[' :: r₁ ++ ']' :: s₁ ++ '[' :: r₂ ++ ']' :: s₂) ++ '[' :: (r₃ ++ ']' :: (s₃ ++ [']'])) := by
    rw [hv]; simp [matrixText]
  refine ⟨_, _, _, _, _, _, position_of (n := 1) e1 ?_, position_of (n := 0) (u := (b ++ '[' :: s₀) ++ '[' :: r₁)
      (w := s₁ ++ '[' :: (r₂ ++ ']' :: (s₂ ++ '[' :: (r₃ ++ ']' :: (s₃ ++ [']']))))) (e1.trans (by simp)) ?_, between_of e1,
    position_of (n := 2) e2 ?_, position_of (n := 1) (u := (b ++ '[' :: s₀ ++ '[' :: r₁ ++ ']' :: s₁) ++ '[' :: r₂)
      (w := s₂ ++ '[' :: (r₃ ++ ']' :: (s₃ ++ [']']))) (e2.trans (by simp)) ?_, between_of e2,
    position_of (n := 3) e3 ?_, position_of (n := 2) (u := (b ++ '[' :: s₀ ++ '[' :: r₁ ++ ']' :: s₁ ++ '[' :: r₂ ++ ']' :: s₂) ++ '[' :: r₃)
      (w := s₃ ++ [']']) (e3.trans (by simp)) ?_,
    between_of e3⟩
  all_goals simp [List.count_append, (z hb).1, (z hb).2, (z p0).1, (z p0).2, (z p1).1, (z p1).2, (z p2).1, (z p2).2,
    (z p3).2, (z q1).1, (z q1).2, (z q2).1, (z q2).2]

theorem getItem_one {α : Type} (a b : α) (r : List α) : getItem (a :: b :: r) 1 = .ok b :=
  getItem_nat (l := a :: b :: r) (k := 1) (by simp)

theorem spaces_plain {b : Str} (h : Spaces b) : Bracketless b := ⟨spaces_no h (by decide), spaces_no h (by decide)⟩

theorem matrix_trail (s₀ r₁ s₁ r₂ s₂ r₃ s₃ : Str) : NoTrail (matrixText s₀ r₁ s₁ r₂ s₂ r₃ s₃) := by
  have e : matrixText s₀ r₁ s₁ r₂ s₂ r₃ s₃ =
      ('[' :: (s₀ ++ '[' :: (r₁ ++ ']' :: (s₁ ++ '[' :: (r₂ ++ ']' :: (s₂ ++ '[' :: (r₃ ++ ']' :: s₃))))))) ++ [']'] := by
    simp [matrixText]
  rw [e]
  exact noTrail_append (by simp) fun c hc => by simp at hc; subst hc; decide

theorem ub_line (s : FioState F) (hb : NoBracket pf) {line s₀ r₁ s₁ r₂ s₂ r₃ s₃ : Str}
    (h : UbLine line s₀ r₁ s₁ r₂ s₂ r₃ s₃) :
    fioParam pf s line =
      match (do
        let x ← fioRow pf (semiToComma r₁)
        let y ← fioRow pf (semiToComma r₂)
        let z ← fioRow pf (semiToComma r₃)
        return [x, y, z] : Res (List (List F))) with
      | .ok m => { s with ub := some m }
      | .error _ => s := by
  obtain ⟨⟨pre, name, a, b, post, h1, h2, h3, h4, h5, h6, h7, hline⟩, hp⟩ := h
  have ha : '=' ∉ a := spaces_no h2 (by decide)
  have hbe : '=' ∉ b := spaces_no h3 (by decide)
  have hme : '=' ∉ matrixText s₀ r₁ s₁ r₂ s₂ r₃ s₃ := by
    simp only [List.mem_cons, List.not_mem_nil, or_false, forall_eq_or_imp, forall_eq] at hp
    simp [matrixText, hp]
  have hhead : ∀ c, (name ++ a).head? = some c → isSpace c = false := by
    intro c hc
    obtain ⟨g1, g2⟩ := h5
    cases name with
    | nil => exact absurd rfl g1
    | cons d k => exact g2 c (by simp at hc; simp [hc])
  have htrim := trimmed_key hhead (by simp [h5.1]) (noTrail_append (a := b) (by simp [matrixText]) (matrix_trail s₀ r₁ s₁ r₂ s₂ r₃ s₃))
    (by simp [matrixText])
  have h0 := fioParam_line pf s h1 h4 (k := name ++ a) (v := b ++ matrixText s₀ r₁ s₁ r₂ s₂ r₃ s₃) (by simp [h6, ha])
    (by rw [List.mem_append, not_or]; exact ⟨hbe, hme⟩) htrim (by simp [h5.1])
  rw [← hline, hb _ (by simp [matrixText])] at h0
  rw [h0]
  obtain ⟨o1, c1, o2, c2, o3, c3, g1, g2, g3, g4, g5, g6, g7, g8, g9⟩ :=
    matrix_rows (v := semiToComma b ++ semiToComma (matrixText s₀ r₁ s₁ r₂ s₂ r₃ s₃)) (by rw [semi_matrix])
      (spaces_plain (semi_spaces h3)) (by
        intro t ht
        simp only [List.mem_cons, List.not_mem_nil, or_false, forall_eq_or_imp, forall_eq] at hp ht
        rcases ht with rfl | rfl | rfl | rfl | rfl | rfl | rfl <;> exact semi_plain (by simp only [hp]))
  have hu : fioUb pf line = (do
        let x ← fioRow pf (semiToComma r₁)
        let y ← fioRow pf (semiToComma r₂)
        let z ← fioRow pf (semiToComma r₃)
        return [x, y, z] : Res (List (List F))) := by
    have hsp : splitOn ['='] (stripBy isSpace (semiToComma line)) =
        [semiToComma (name ++ a), semiToComma b ++ semiToComma (matrixText s₀ r₁ s₁ r₂ s₂ r₃ s₃)] := by
      rw [hline, semi_append, semi_append, strip_mid (semi_spaces h1) (semi_trimmed htrim) (semi_spaces h4), semi_append,
        semi_cons (by decide), semi_append b, splitOn1_cons (semi_not_mem (by simp [h6, ha]) (by decide)), splitOn1_none]
      rw [List.mem_append, not_or]
      exact ⟨semi_not_mem hbe (by decide), semi_not_mem hme (by decide)⟩
    unfold fioUb
    rw [hsp]
    simp only [getItem_one, bind_ok, g1, g2, g3, g4, g5, g6, g7, g8, g9, (fioRow_strip pf _).1, (fioRow_strip pf _).2]
  show fioHeader pf s _ _ _ = _
  unfold fioHeader
  rw [strip_right (word_trimmed h5) h2, if_pos h7, ← hu]
  cases fioUb pf line <;> rfl

theorem row_read {t : Str} {row : List F} (h : List.Forall₂ (fun (w : Str) (x : F) => pf w = some x) (splitWs t) row) :
    fioRow pf t = .ok row := by
  unfold fioRow
  rw [mapM_ok_iff]
  exact h.imp fun w x hw => by unfold fioFloat; rw [hw]

theorem splitWsAux_mem {c : Char} (hc : isSpace c = false) (t cur : Str) (h : c ∈ t ∨ c ∈ cur) :
    ∃ w ∈ splitWsAux t cur, c ∈ w := by
  induction t generalizing cur with
  | nil =>
    have h : c ∈ cur := by simpa using h
    rw [splitWsAux, if_neg (List.ne_nil_of_mem h)]
    exact ⟨_, List.mem_singleton_self _, List.mem_reverse.2 h⟩
  | cons d t ih =>
    rw [splitWsAux]
    by_cases hd : isSpace d = true
    · have hne : c ≠ d := by rintro rfl; rw [hc] at hd; cases hd
      rw [if_pos hd]
      by_cases hcur : c ∈ cur
      · rw [if_neg (List.ne_nil_of_mem hcur)]
        exact ⟨_, List.mem_cons_self, List.mem_reverse.2 hcur⟩
      · have ht : c ∈ t := by
          rcases h with h | h
          · rcases List.mem_cons.1 h with h | h
            · exact absurd h hne
            · exact h
          · exact absurd h hcur
        obtain ⟨w, hw, hcw⟩ := ih [] (.inl ht)
        split
        · exact ⟨w, hw, hcw⟩
        · exact ⟨w, List.mem_cons_of_mem _ hw, hcw⟩
    · rw [if_neg hd]
      apply ih
      rcases h with h | h
      · rcases List.mem_cons.1 h with h | h
        · exact .inr (by simp [h])
        · exact .inl h
      · exact .inr (List.mem_cons_of_mem _ h)

theorem row_comma (hpf : ∀ w : Str, ',' ∈ w → pf w = none) {t : Str} (h : ',' ∈ t ∨ ';' ∈ t) :
    ∃ e, fioRow pf (semiToComma t) = .error e := by
  have hm : ',' ∈ semiToComma t := by
    rcases h with h | h
    · exact List.mem_map.2 ⟨',', h, by decide⟩
    · exact List.mem_map.2 ⟨';', h, by decide⟩
  obtain ⟨w, hw, hc⟩ := splitWsAux_mem (c := ',') (by decide) (semiToComma t) [] (.inl hm)
  cases hr : fioRow pf (semiToComma t) with
  | error e => exact ⟨e, rfl⟩
  | ok row =>
    unfold fioRow at hr
    rw [mapM_ok_iff] at hr
    have hall : ∀ (l : List Str) (row : List F), List.Forall₂ (fun (a : Str) (b : F) => fioFloat pf a = .ok b) l row →
        ∀ w ∈ l, ∃ x, fioFloat pf w = .ok x := by
      intro l row h
      induction h with
      | nil => intro w hw; cases hw
      | @cons a b l l' h _ ih =>
        intro w hw
        rcases List.mem_cons.1 hw with rfl | hw
        · exact ⟨b, h⟩
        · exact ih w hw
    obtain ⟨x, hx⟩ := hall _ _ hr w hw
    unfold fioFloat at hx
    rw [hpf w hc] at hx
    cases hx

/-- The line `signalcounter = value`. -/
structure SignalLine (line value : Str) : Prop where
  ex : ∃ pre name a b post : Str, Spaces pre ∧ Spaces a ∧ Spaces b ∧ Spaces post ∧ IsWord name ∧ '=' ∉ name ∧
    lower name = signalWord ∧ pf (b ++ value) = none ∧ line = pre ++ (name ++ a ++ '=' :: (b ++ value)) ++ post
  trimmed : Trimmed value
  noEq : '=' ∉ value

theorem signal_line (s : FioState F) {line value : Str} (h : SignalLine pf line value) :
    fioParam pf s line = { s with signal := some value } := by
  obtain ⟨⟨pre, name, a, b, post, h1, h2, h3, h4, h5, h6, h7, h8, rfl⟩, ht, hq⟩ := h
  have ha : '=' ∉ a := spaces_no h2 (by decide)
  have hbe : '=' ∉ b := spaces_no h3 (by decide)
  have hhead : ∀ c, (name ++ a).head? = some c → isSpace c = false := by
    intro c hc
    obtain ⟨g1, g2⟩ := h5
    cases name with
    | nil => exact absurd rfl g1
    | cons d k => exact g2 c (by simp at hc; simp [hc])
  rw [fioParam_line pf s h1 h4 (by simp [h6, ha]) (by simp [hbe, hq])
    (trimmed_key hhead (by simp [h5.1]) (noTrail_append ht.1 ht.2.2) (by simp [ht.1])) (by simp [h5.1]), h8]
  show fioHeader pf s _ _ _ = _
  unfold fioHeader
  rw [strip_right (word_trimmed h5) h2, if_neg (by rw [h7]; decide), if_pos h7, strip_left h3 ht]

/-! ### The whole file -/

/-- A line of the parameter block that does not start another block and is no comment. -/
def Ordinary (l : Str) : Prop := ¬ ['%', 'c'] <:+: l ∧ ¬ ['%', 'p'] <:+: l ∧ ¬ ['%', 'd'] <:+: l ∧ '!' ∉ l

/-- The file: some lines, the start of the parameter block, lines of the parameter block, `line`, more lines. -/
structure InBlock (lines : List Str) (line : Str) (after : List Str) : Prop where
  ex : ∃ (before block : List Str) (p : Str), lines = before ++ p :: block ++ line :: after ∧ ['%', 'p'] <:+: p ∧
    ¬ ['%', 'c'] <:+: p ∧ ∀ l ∈ block, ¬ ['%', 'c'] <:+: l ∧ ¬ ['%', 'd'] <:+: l
  ordinary : Ordinary line

theorem contains_neg {l w : Str} (h : ¬ w <:+: l) : ¬ contains l w = true := fun hc => h (contains_iff.1 hc)

theorem step_ordinary {s : FioState F} {l : Str} (h : Ordinary l) (hb : s.block = .param) :
    fioStep pf nan s l = .ok (fioParam pf s l) := by
  obtain ⟨h1, h2, h3, h4⟩ := h
  unfold fioStep
  rw [if_neg (contains_neg h1), if_neg (contains_neg h2), if_neg (contains_neg h3), if_neg (contains_neg fun hc => h4 ?_), hb]
  exact hc.subset (by simp)

theorem step_param {s s' : FioState F} {l : Str} (h1 : ¬ ['%', 'c'] <:+: l) (h2 : ¬ ['%', 'd'] <:+: l) (hb : s.block = .param)
    (h : fioStep pf nan s l = .ok s') : s'.block = .param := by
  unfold fioStep at h
  rw [if_neg (contains_neg h1)] at h
  split at h
  · cases h; rfl
  · rw [if_neg (contains_neg h2)] at h
    split at h
    · cases h; exact hb
    · rw [hb] at h
      cases h
      exact (fioParam_core pf s l).2.trans hb

theorem fold_keeps {P : FioState F → Prop} {ls : List Str} (hk : ∀ l ∈ ls, ∀ s s', P s → fioStep pf nan s l = .ok s' → P s')
    {s r : FioState F} (h : ls.foldlM (fioStep pf nan) s = .ok r) (hs : P s) : P r := by
  induction ls generalizing s with
  | nil => cases h; exact hs
  | cons l ls ih =>
    rw [List.foldlM_cons] at h
    obtain ⟨t, h1, h2⟩ := bind_eq_ok.1 h
    exact ih (fun x hx => hk x (List.mem_cons_of_mem _ hx)) h2 (hk l List.mem_cons_self s t hs h1)

/-- What a file says is what the line says, when the later lines keep it. -/
theorem file_line {lines after : List Str} {line : Str} (hin : InBlock lines line after) {r : FioState F}
    (hr : fioRead pf nan lines = .ok r) {P : FioState F → Prop} (hline : ∀ s : FioState F, P (fioParam pf s line))
    (hk : ∀ l ∈ after, ∀ s s', P s → fioStep pf nan s l = .ok s' → P s') : P r := by
  obtain ⟨⟨before, block, p, rfl, hp, hpc, hblock⟩, hord⟩ := hin
  unfold fioRead at hr
  rw [List.foldlM_append, List.foldlM_append] at hr
  obtain ⟨s2, h2, h3⟩ := bind_eq_ok.1 hr
  obtain ⟨s1, h1, h1'⟩ := bind_eq_ok.1 h2
  rw [List.foldlM_cons] at h1' h3
  obtain ⟨s1b, h4, h5⟩ := bind_eq_ok.1 h1'
  obtain ⟨s3, h6, h7⟩ := bind_eq_ok.1 h3
  have hb1 : s1b.block = .param := by
    unfold fioStep at h4
    rw [if_neg (contains_neg hpc), if_pos (contains_iff.2 hp)] at h4
    cases h4
    rfl
  have hb2 : s2.block = .param := fold_keeps pf nan (P := fun s => s.block = .param)
    (fun l hl s s' hs h => step_param pf nan (hblock l hl).1 (hblock l hl).2 hs h) h5 hb1
  rw [step_ordinary pf nan hord hb2] at h6
  cases h6
  exact fold_keeps pf nan hk h7 (hline s2)

theorem infix_map {a b : Str} (f : Char → Char) (h : a <:+: b) : a.map f <:+: b.map f := by
  obtain ⟨u, v, rfl⟩ := h
  exact ⟨u.map f, v.map f, by simp⟩

/-- What a line can change depends on the text before the first equals sign. -/
theorem param_cases (s : FioState F) (l : Str) : fioParam pf s l = s ∨
    ∃ k : Str, stripBy isSpace k <:+: l ∧ ((∃ x, fioParam pf s l = { s with motors := dictSet s.motors (stripBy isSpace k) x }) ∨
      (lower (stripBy isSpace k) = ubWord ∧ ∃ m, fioParam pf s l = { s with ub := some m }) ∨
      (lower (stripBy isSpace k) = signalWord ∧ ∃ m, fioParam pf s l = { s with signal := some m }) ∨
      (roiWord <:+: stripBy isSpace k ∧ ∃ d m, fioParam pf s l = { s with rois := dictSet s.rois d m })) := by
  unfold fioParam
  split
  · split
    · rename_i k v r hs
      have hk : stripBy isSpace k <:+: l :=
        (strip_infix _ k).trans ((splitOn_first_prefix (by simp) hs).isInfix.trans (strip_infix _ l))
      split
      · rename_i x hx
        exact .inr ⟨k, hk, .inl ⟨x, rfl⟩⟩
      · unfold fioHeader
        split
        · rename_i h
          split
          · rename_i m _
            exact .inr ⟨k, hk, .inr (.inl ⟨h, m, rfl⟩)⟩
          · exact .inl rfl
        · split
          · rename_i h
            exact .inr ⟨k, hk, .inr (.inr (.inl ⟨h, _, rfl⟩))⟩
          · split
            · rename_i h
              split
              · rename_i m _
                exact .inr ⟨k, hk, .inr (.inr (.inr ⟨contains_iff.1 h, m.1, m.2, rfl⟩))⟩
              · exact .inl rfl
            · exact .inl rfl
    · exact .inl rfl
  · exact .inl rfl

/-- The header entries read so far. -/
def entries (s : FioState F) : List (Str × F) × Option (List (List F)) × Option Str × List (Str × List (Str × List F)) :=
  (s.motors, s.ub, s.signal, s.rois)

/-- A line outside of the parameter block does not touch the header. -/
theorem step_cases {s s' : FioState F} {l : Str} (h : fioStep pf nan s l = .ok s') :
    entries s' = entries s ∨ s' = fioParam pf s l := by
  have hd : ∀ t : FioState F, fioData pf nan s l = .ok t → entries t = entries s := by
    intro t ht
    unfold fioData at ht
    split at ht
    · unfold fioNext at ht
      obtain ⟨d, -, h2⟩ := bind_eq_ok.1 ht
      cases h2; rfl
    · split at ht
      · obtain ⟨d, -, h2⟩ := bind_eq_ok.1 ht
        cases h2; rfl
      · split at ht
        · cases ht; rfl
        · cases ht; rfl
  unfold fioStep at h
  split at h
  · cases h; exact .inl rfl
  split at h
  · cases h; exact .inl rfl
  split at h
  · cases h; exact .inl rfl
  split at h
  · cases h; exact .inl rfl
  split at h
  · cases h; exact .inr rfl
  · cases h
    refine .inl ?_
    unfold fioComment
    split <;> rfl
  · exact .inl (hd s' h)
  · cases h; exact .inl rfl

theorem entries_eq {s t : FioState F} (h : entries t = entries s) :
    t.motors = s.motors ∧ t.ub = s.ub ∧ t.signal = s.signal ∧ t.rois = s.rois := by
  unfold entries at h
  simp only [Prod.mk.injEq] at h
  exact h

theorem lower_infix {w l : Str} {k : Str} (hk : stripBy isSpace k <:+: l) (h : lower (stripBy isSpace k) = w) : w <:+: lower l := by
  rw [← h]
  exact infix_map _ hk

/-- **C99 (motors).** The position of a motor is the number of the last line with its name. -/
theorem C99_motor {lines after : List Str} {line name : Str} {x : F} (hin : InBlock lines line after)
    (hline : MotorLine pf line name x) (hafter : ∀ l ∈ after, ¬ name <:+: l) {r : FioState F}
    (hr : fioRead pf nan lines = .ok r) : dictGet r.motors name = .ok x := by
  refine file_line pf nan hin hr (P := fun s => dictGet s.motors name = .ok x) ?_ ?_
  · intro s
    rw [motor_line pf s hline]
    show dictGet (dictSet s.motors name x) name = _
    rw [dictGet_dictSet, if_pos rfl]
  · intro l hl s s' hs h
    rcases step_cases pf nan h with h | rfl
    · rw [(entries_eq h).1]; exact hs
    · rcases param_cases pf s l with h | ⟨k, hk, ⟨y, h⟩ | ⟨-, m, h⟩ | ⟨-, m, h⟩ | ⟨-, d, m, h⟩⟩
      · rw [h]; exact hs
      · rw [h]
        show dictGet (dictSet s.motors (stripBy isSpace k) y) name = _
        rw [dictGet_dictSet, if_neg]
        · exact hs
        · intro he
          rw [he] at hk
          exact hafter l hl hk
      all_goals rw [h]; exact hs

/-- **C99 (regions of interest).** A line `word detector = [x₁,x₂,…]` whose word contains `roi` gives the
regions `roi1`, `roi2`, … of the detector, four numbers each in the order of the line. -/
theorem C99_rois {sh : F → Str} (hsh : Writes pf sh) (hb : NoBracket pf) {lines after : List Str} {line det : Str}
    {gs : List (List F)} (hgs : Regions gs) (hin : InBlock lines line after) (hline : RoiLine sh line det gs.flatten)
    (hafter : ∀ l ∈ after, ¬ ['r', 'o', 'i'] <:+: l) {r : FioState F} (hr : fioRead pf nan lines = .ok r) :
    dictGet r.rois det = .ok (gs.zipIdx.map fun (p : List F × Nat) => ('r' :: 'o' :: 'i' :: natStr (p.2 + 1), p.1)) := by
  refine file_line pf nan hin hr (P := fun s => dictGet s.rois det = _) ?_ ?_
  · intro s
    rw [roi_line pf s hsh hb hline]
    show dictGet (dictSet s.rois det _) det = _
    rw [dictGet_dictSet, if_pos rfl, groups_of hgs]
    rfl
  · intro l hl s s' hs h
    rcases step_cases pf nan h with h | rfl
    · rw [(entries_eq h).2.2.2]; exact hs
    · rcases param_cases pf s l with h | ⟨k, hk, ⟨y, h⟩ | ⟨-, m, h⟩ | ⟨-, m, h⟩ | ⟨hroi, d, m, h⟩⟩
      iterate 4 rw [h]; exact hs
      exact absurd (hroi.trans hk) (hafter l hl)

/-- **C99 (UB matrix).** The three rows are read, whatever stands between them. -/
theorem C99_ub (hb : NoBracket pf) {lines after : List Str} {line s₀ r₁ s₁ r₂ s₂ r₃ s₃ : Str} {x y z : List F}
    (hin : InBlock lines line after) (hline : UbLine line s₀ r₁ s₁ r₂ s₂ r₃ s₃) (hsemi : ∀ t ∈ [r₁, r₂, r₃], ';' ∉ t)
    (h₁ : List.Forall₂ (fun (w : Str) (v : F) => pf w = some v) (splitWs r₁) x)
    (h₂ : List.Forall₂ (fun (w : Str) (v : F) => pf w = some v) (splitWs r₂) y)
    (h₃ : List.Forall₂ (fun (w : Str) (v : F) => pf w = some v) (splitWs r₃) z)
    (hafter : ∀ l ∈ after, ¬ ubWord <:+: l.map Char.toLower) {r : FioState F} (hr : fioRead pf nan lines = .ok r) :
    r.ub = some [x, y, z] := by
  refine file_line pf nan hin hr (P := fun s => s.ub = _) ?_ ?_
  · intro s
    rw [ub_line pf s hb hline, semi_id (hsemi r₁ (by simp)), semi_id (hsemi r₂ (by simp)), semi_id (hsemi r₃ (by simp)),
      row_read pf h₁, row_read pf h₂, row_read pf h₃]
    rfl
  · intro l hl s s' hs h
    rcases step_cases pf nan h with h | rfl
    · rw [(entries_eq h).2.1]; exact hs
    · rcases param_cases pf s l with h | ⟨k, hk, ⟨y, h⟩ | ⟨hw, m, h⟩ | ⟨-, m, h⟩ | ⟨-, d, m, h⟩⟩
      · rw [h]; exact hs
      · rw [h]; exact hs
      · exact absurd (lower_infix hk hw) (hafter l hl)
      · rw [h]; exact hs
      · rw [h]; exact hs

/-- **C99 (signal counter).** -/
theorem C99_signal {lines after : List Str} {line value : Str} (hin : InBlock lines line after) (hline : SignalLine pf line value)
    (hafter : ∀ l ∈ after, ¬ signalWord <:+: l.map Char.toLower) {r : FioState F} (hr : fioRead pf nan lines = .ok r) :
    r.signal = some value := by
  refine file_line pf nan hin hr (P := fun s => s.signal = _) ?_ ?_
  · intro s
    rw [signal_line pf s hline]
  · intro l hl s s' hs h
    rcases step_cases pf nan h with h | rfl
    · rw [(entries_eq h).2.2.1]; exact hs
    · rcases param_cases pf s l with h | ⟨k, hk, ⟨y, h⟩ | ⟨-, m, h⟩ | ⟨hw, m, h⟩ | ⟨-, d, m, h⟩⟩
      · rw [h]; exact hs
      · rw [h]; exact hs
      · rw [h]; exact hs
      · exact absurd (lower_infix hk hw) (hafter l hl)
      · rw [h]; exact hs

/-- **C99 (matrix with commas).** A UB matrix whose numbers are separated by commas or semicolons is not
read: the line changes nothing. -/
theorem C99_ub_commas (hb : NoBracket pf) (hc : ∀ w : Str, ',' ∈ w → pf w = none) {line s₀ r₁ s₁ r₂ s₂ r₃ s₃ : Str}
    (hline : UbLine line s₀ r₁ s₁ r₂ s₂ r₃ s₃) (hsep : ∃ t ∈ [r₁, r₂, r₃], ',' ∈ t ∨ ';' ∈ t) (s : FioState F) :
    fioParam pf s line = s := by
  rw [ub_line pf s hb hline]
  obtain ⟨t, ht, hs⟩ := hsep
  obtain ⟨e, he⟩ := row_comma pf hc hs
  simp only [List.mem_cons, List.not_mem_nil, or_false] at ht
  cases h1 : fioRow pf (semiToComma r₁) with
  | error e1 => rfl
  | ok x =>
    cases h2 : fioRow pf (semiToComma r₂) with
    | error e2 => rfl
    | ok y =>
      cases h3 : fioRow pf (semiToComma r₃) with
      | error e3 => rfl
      | ok z =>
        rcases ht with rfl | rfl | rfl
        · rw [h1] at he; cases he
        · rw [h2] at he; cases he
        · rw [h3] at he; cases he

/-- **C99 (unnamed detector).** Of a line `detector_rois = [x₁,x₂,…]` the detector is lost: its regions are
stored under the empty name, those of several detectors overwrite each other. -/
theorem C99_unnamed {sh : F → Str} (hsh : Writes pf sh) (hb : NoBracket pf) {word b : Str} {gs : List (List F)}
    (hgs : Regions gs) (hw : IsWord word) (he : '=' ∉ word) (hroi : roiWord <:+: word) (hs : Spaces b)
    (hu : lower word ≠ ubWord ∧ lower word ≠ signalWord) (s : FioState F) :
    fioParam pf s (word ++ [' '] ++ '=' :: (b ++ '[' :: join [','] (gs.flatten.map sh) ++ [']'])) =
      { s with rois := dictSet s.rois [] (gs.zipIdx.map fun (p : List F × Nat) => ('r' :: 'o' :: 'i' :: natStr (p.2 + 1), p.1)) } := by
  have hx : gs.flatten ≠ [] := by
    obtain ⟨full, last, rfl, -, h1, -⟩ := hgs
    intro h0
    rw [List.flatten_append, List.append_eq_nil_iff] at h0
    have : last = [] := by simpa using h0.2
    rw [this] at h1
    simp at h1
  have hbe : '=' ∉ b := spaces_no hs (by decide)
  have hws : ' ' ∉ word := fun h => by have := hw.2 _ h; revert this; decide
  have hj : '=' ∉ join [','] (gs.flatten.map sh) := mem_join_sep (by decide) (by
    intro t ht
    obtain ⟨x, -, rfl⟩ := List.mem_map.1 ht
    exact (hsh x).2.2)
  have hhead : ∀ c, (word ++ [' ']).head? = some c → isSpace c = false := by
    intro c hc
    obtain ⟨g1, g2⟩ := hw
    cases word with
    | nil => exact absurd rfl g1
    | cons d k => exact g2 c (by simp at hc; simp [hc])
  have htrail : NoTrail (b ++ '[' :: join [','] (gs.flatten.map sh) ++ [']']) :=
    noTrail_append (by simp) fun c hc => by simp at hc; subst hc; decide
  have h0 := fioParam_line pf s spaces_nil spaces_nil (k := word ++ [' ']) (v := b ++ '[' :: join [','] (gs.flatten.map sh) ++ [']'])
    (by simp [he]) (by have h := hj; generalize join [','] (gs.flatten.map sh) = t at h ⊢; simp [hbe, h]) (trimmed_key hhead (by simp) htrail (by simp)) (by simp)
  rw [List.nil_append, List.append_nil] at h0
  rw [h0, hb _ (by simp)]
  have hsp : Spaces [' '] := fun c hc => by rw [List.mem_singleton] at hc; subst hc; decide
  have hv : stripBy isSpace (b ++ '[' :: join [','] (gs.flatten.map sh) ++ [']']) = '[' :: join [','] (gs.flatten.map sh) ++ [']'] := by
    have := strip_left (pre := b) (m := '[' :: join [','] (gs.flatten.map sh) ++ [']']) hs
      ⟨by simp, by intro c hc; simp at hc; subst hc; decide, noTrail_append (by simp) fun c hc => by simp at hc; subst hc; decide⟩
    simpa using this
  have hr : fioRois pf (word ++ [' ']) (b ++ '[' :: join [','] (gs.flatten.map sh) ++ [']']) = .ok ([], fioGroups gs.flatten) := by
    unfold fioRois
    rw [hv, slice_inner, splitOn1_join (by simpa using hx) (by
      intro t ht
      obtain ⟨x, -, rfl⟩ := List.mem_map.1 ht
      exact (hsh x).2.1), mapM_float pf sh hsh, splitOn1_cons hws]
    rfl
  show fioHeader pf s _ _ _ = _
  unfold fioHeader
  rw [strip_right (word_trimmed hw) hsp, if_neg hu.1, if_neg hu.2, if_pos (contains_iff.2 hroi), hr, groups_of hgs]
  rfl

/-! ### A concrete file -/

/-- Numbers `0` and `1`. -/
def bitRead (t : Str) : Option Bool := if t = ['1'] then some true else if t = ['0'] then some false else none

/-- See `bitRead`. -/
def bitWrite (x : Bool) : Str := if x then ['1'] else ['0']

theorem bit_writes : Writes bitRead bitWrite := by
  intro x
  cases x <;> decide

theorem bit_bracket : NoBracket bitRead := by
  intro t ht
  unfold bitRead
  rw [if_neg, if_neg]
  · rintro rfl; revert ht; decide
  · rintro rfl; revert ht; decide

/-- The lines of the file. -/
def headerFile : List Str :=
  ["%c".toList, "ascan om 0 1".toList, "%p".toList, " om =1 ".toList, "rois p100k = [0,1,0,1,1,1]".toList,
    "UBmatrix = [[1 0 0];[0 1 0];[0  0 1]]".toList, "SignalCounter = p100k".toList, "%d".toList]

theorem headerFile_read : ∃ r, fioRead bitRead false headerFile = .ok r := by
  refine ⟨_, rfl⟩

/-- **C99 (not vacuous).** The hypotheses of the four theorems hold for the lines of `headerFile`. -/
theorem C99_example : ∃ r, fioRead bitRead false headerFile = .ok r ∧
    dictGet r.motors "om".toList = .ok true ∧
    dictGet r.rois "p100k".toList = .ok [("roi1".toList, [false, true, false, true]), ("roi2".toList, [true, true])] ∧
    r.ub = some [[true, false, false], [false, true, false], [false, false, true]] ∧ r.signal = some "p100k".toList := by
  obtain ⟨r, hr⟩ := headerFile_read
  have hsp : Spaces [' '] := fun c hc => by rw [List.mem_singleton] at hc; subst hc; decide
  have ninf : ∀ {w l : Str}, contains l w = false → ¬ w <:+: l := fun h hc => by rw [contains_iff.2 hc] at h; cases h
  have ord : ∀ {l : Str}, contains l ['%', 'c'] = false → contains l ['%', 'p'] = false → contains l ['%', 'd'] = false →
      decide ('!' ∈ l) = false → Ordinary l := fun h1 h2 h3 h4 => ⟨ninf h1, ninf h2, ninf h3, of_decide_eq_false h4⟩
  have wrd : ∀ {w : Str}, w ≠ [] → (w.all fun c => isSpace c = false) = true → IsWord w := by
    intro w h0 h
    exact ⟨h0, fun c hc => by simpa using List.all_eq_true.1 h c hc⟩
  refine ⟨r, hr, ?_, ?_, ?_, ?_⟩
  · refine C99_motor bitRead false (line := " om =1 ".toList) (after := headerFile.drop 4)
      ⟨⟨headerFile.take 2, [], "%p".toList, rfl, contains_iff.1 (by decide), ninf (by decide), by simp⟩, ord rfl rfl rfl rfl⟩
      ⟨⟨[' '], [' '], ['1'], [' '], hsp, hsp, hsp, noTrail_word (wrd (by decide) (by decide)), by decide, by decide, rfl, rfl⟩,
        word_trimmed (wrd (by decide) (by decide)), by decide⟩ ?_ hr
    have : ((headerFile.drop 4).all fun l => !contains l "om".toList) = true := by decide
    intro l hl
    exact ninf (by simpa using List.all_eq_true.1 this l hl)
  · have hn : ∀ k < 10, natStr k = [Char.ofNat (48 + k)] := by
      intro k hk
      unfold natStr
      rw [if_pos hk]
    have e : [("roi1".toList, [false, true, false, true]), ("roi2".toList, [true, true])] =
        [[false, true, false, true], [true, true]].zipIdx.map
          fun (p : List Bool × Nat) => ('r' :: 'o' :: 'i' :: natStr (p.2 + 1), p.1) := by
      show _ = [('r' :: 'o' :: 'i' :: natStr 1, [false, true, false, true]), ('r' :: 'o' :: 'i' :: natStr 2, [true, true])]
      rw [hn 1 (by omega), hn 2 (by omega)]
      rfl
    rw [e]
    refine C99_rois bitRead false bit_writes bit_bracket (gs := [[false, true, false, true], [true, true]])
      (det := "p100k".toList) (line := "rois p100k = [0,1,0,1,1,1]".toList) (after := headerFile.drop 5)
      ⟨[[false, true, false, true]], [true, true], rfl, by decide, by decide, by decide⟩
      ⟨⟨headerFile.take 2, (headerFile.drop 3).take 1, "%p".toList, rfl, contains_iff.1 (by decide), ninf (by decide), ?_⟩, ord rfl rfl rfl rfl⟩
      ⟨⟨[], "rois".toList, [' '], [' '], [], spaces_nil, hsp, hsp, spaces_nil, contains_iff.1 (by decide),
        wrd (by decide) (by decide), by decide, rfl⟩, wrd (by decide) (by decide), by decide, by decide⟩ ?_ hr
    · have : (((headerFile.drop 3).take 1).all fun l => !contains l ['%', 'c'] && !contains l ['%', 'd']) = true := by decide
      intro l hl
      have h := List.all_eq_true.1 this l hl
      rw [Bool.and_eq_true] at h
      exact ⟨ninf (by simpa using h.1), ninf (by simpa using h.2)⟩
    · have : ((headerFile.drop 5).all fun l => !contains l ['r', 'o', 'i']) = true := by decide
      intro l hl
      exact ninf (by simpa using List.all_eq_true.1 this l hl)
  · refine C99_ub bitRead false bit_bracket (line := "UBmatrix = [[1 0 0];[0 1 0];[0  0 1]]".toList) (after := headerFile.drop 6)
      (s₀ := []) (r₁ := "1 0 0".toList) (s₁ := [';']) (r₂ := "0 1 0".toList) (s₂ := [';']) (r₃ := "0  0 1".toList) (s₃ := [])
      ⟨⟨headerFile.take 2, (headerFile.drop 3).take 2, "%p".toList, rfl, contains_iff.1 (by decide), ninf (by decide), ?_⟩, ord rfl rfl rfl rfl⟩
      ⟨⟨[], "UBmatrix".toList, [' '], [' '], [], spaces_nil, hsp, hsp, spaces_nil, wrd (by decide) (by decide), by decide, by decide, rfl⟩,
        by unfold Bracketless; decide⟩ (by decide) ?_ ?_ ?_ ?_ hr
    · have : (((headerFile.drop 3).take 2).all fun l => !contains l ['%', 'c'] && !contains l ['%', 'd']) = true := by decide
      intro l hl
      have h := List.all_eq_true.1 this l hl
      rw [Bool.and_eq_true] at h
      exact ⟨ninf (by simpa using h.1), ninf (by simpa using h.2)⟩
    · exact .cons rfl (.cons rfl (.cons rfl .nil))
    · exact .cons rfl (.cons rfl (.cons rfl .nil))
    · exact .cons rfl (.cons rfl (.cons rfl .nil))
    · have : ((headerFile.drop 6).all fun l => !contains (l.map Char.toLower) ubWord) = true := by decide
      intro l hl
      exact ninf (by simpa using List.all_eq_true.1 this l hl)
  · refine C99_signal bitRead false (line := "SignalCounter = p100k".toList) (after := headerFile.drop 7)
      ⟨⟨headerFile.take 2, (headerFile.drop 3).take 3, "%p".toList, rfl, contains_iff.1 (by decide), ninf (by decide), ?_⟩, ord rfl rfl rfl rfl⟩
      ⟨⟨[], "SignalCounter".toList, [' '], [' '], [], spaces_nil, hsp, hsp, spaces_nil, wrd (by decide) (by decide), by decide, by decide, rfl, rfl⟩,
        word_trimmed (wrd (by decide) (by decide)), by decide⟩ ?_ hr
    · have : (((headerFile.drop 3).take 3).all fun l => !contains l ['%', 'c'] && !contains l ['%', 'd']) = true := by decide
      intro l hl
      have h := List.all_eq_true.1 this l hl
      rw [Bool.and_eq_true] at h
      exact ⟨ninf (by simpa using h.1), ninf (by simpa using h.2)⟩
    · have : ((headerFile.drop 7).all fun l => !contains (l.map Char.toLower) signalWord) = true := by decide
      intro l hl
      exact ninf (by simpa using List.all_eq_true.1 this l hl)

end Verif.Props
