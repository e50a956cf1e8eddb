import Verif.Py.Text
import Mathlib.Data.List.TakeWhile

/-! # Lemmas about the string operations -/

namespace Verif.Py

/-- A word: not empty and without white space. -/
def IsWord (t : Str) : Prop := t ≠ [] ∧ ∀ c ∈ t, isSpace c = false

theorem splitWsAux_word {w : Str} (h : ∀ c ∈ w, isSpace c = false) (rest cur : Str) :
    splitWsAux (w ++ rest) cur = splitWsAux rest (w.reverse ++ cur) := by
  induction w generalizing cur with
  | nil => rfl
  | cons c w ih =>
    rw [List.cons_append, splitWsAux, if_neg (by rw [h c List.mem_cons_self]; simp),
      ih (fun d hd => h d (List.mem_cons_of_mem _ hd))]
    simp

theorem splitWs_join {l : List Str} (h : ∀ t ∈ l, IsWord t) : splitWs (join [' '] l) = l := by
  unfold splitWs
  induction l with
  | nil => rfl
  | cons t r ih =>
    have ht := h t List.mem_cons_self
    cases r with
    | nil =>
      have := splitWsAux_word ht.2 [] []
      rw [List.append_nil] at this
      rw [join, this, List.append_nil, splitWsAux, if_neg (by simpa using ht.1), List.reverse_reverse]
    | cons u r =>
      rw [join, List.append_assoc, splitWsAux_word ht.2, List.append_nil, List.singleton_append, splitWsAux,
        if_pos (by decide), if_neg (by simpa using ht.1), List.reverse_reverse,
        ih (fun s hs => h s (List.mem_cons_of_mem _ hs))]

/-- A text that does not end with white space. -/
def NoTrail (s : Str) : Prop := ∀ c, s.getLast? = some c → isSpace c = false

theorem rstrip_eq {s : Str} (h : NoTrail s) : rstripBy isSpace s = s := by
  unfold rstripBy
  cases hs : s.reverse with
  | nil => rw [List.reverse_eq_nil_iff] at hs; simp [hs]
  | cons c r =>
    have h0 : s = r.reverse ++ [c] := by
      rw [← List.reverse_reverse s, hs]; simp
    have h1 : isSpace c = false := h c (by rw [h0]; simp)
    rw [List.dropWhile_cons, if_neg (by rw [h1]; simp), h0]
    simp

theorem rstrip_prefix (p : Char → Bool) (s : Str) : rstripBy p s <+: s := by
  unfold rstripBy
  rw [← List.reverse_suffix, List.reverse_reverse]
  exact List.dropWhile_suffix _

theorem startsWith_iff {s w : Str} : startsWith s w = true ↔ w <+: s := by
  unfold startsWith; exact List.isPrefixOf_iff_prefix

theorem startsWith_rstrip {s w : Str} (p : Char → Bool) (h : startsWith s w = false) :
    startsWith (rstripBy p s) w = false := by
  by_contra hc
  rw [Bool.not_eq_false, startsWith_iff] at hc
  have := hc.trans (rstrip_prefix p s)
  rw [← startsWith_iff, h] at this
  cases this

theorem noTrail_append {a b : Str} (hb : b ≠ []) (h : NoTrail b) : NoTrail (a ++ b) := by
  intro c hc
  rw [List.getLast?_append_of_ne_nil _ hb] at hc
  exact h c hc

theorem noTrail_word {t : Str} (h : IsWord t) : NoTrail t :=
  fun c hc => h.2 c (List.mem_of_getLast? hc)

theorem join_ne_nil {sep : Str} {l : List Str} (hl : l ≠ []) (h : ∀ t ∈ l, t ≠ []) : join sep l ≠ [] := by
  match l with
  | [] => exact absurd rfl hl
  | [p] => exact h p (by simp)
  | p :: q :: r => rw [join]; simp [h p]

theorem noTrail_join {sep : Str} {l : List Str} (h : ∀ t ∈ l, t ≠ [] ∧ NoTrail t) : NoTrail (join sep l) := by
  induction l with
  | nil => intro c hc; simp [join] at hc
  | cons p r ih =>
    cases r with
    | nil => exact (h p (by simp)).2
    | cons q r =>
      rw [join]
      exact noTrail_append (join_ne_nil (by simp) fun t ht => (h t (List.mem_cons_of_mem _ ht)).1)
        (ih fun t ht => h t (List.mem_cons_of_mem _ ht))

theorem stripBy_of_noSpaceHead {c : Char} {s : Str} (hc : isSpace c = false) : stripBy isSpace (c :: s) ≠ [] := by
  unfold stripBy lstripBy
  rw [List.dropWhile_cons, if_neg (by rw [hc]; simp)]
  unfold rstripBy
  intro h
  rw [List.reverse_eq_nil_iff, List.dropWhile_eq_nil_iff] at h
  have := h c (by simp)
  rw [hc] at this
  cases this

/-! ### Splitting at a separator of two blanks -/

/-- The separator `'  '`. -/
def sep2 : Str := [' ', ' ']

theorem splitOnAux_piece {p : Str} (h1 : ¬ sep2 <:+: p) (h2 : p.getLast? ≠ some ' ') (rest cur : Str) :
    splitOnAux sep2 (p ++ rest) cur 0 = splitOnAux sep2 rest (p.reverse ++ cur) 0 := by
  induction p generalizing cur with
  | nil => rfl
  | cons c p ih =>
    have h3 : ¬ sep2.isPrefixOf (c :: (p ++ rest)) = true := by
      rw [List.isPrefixOf_iff_prefix]
      intro hp
      unfold sep2 at hp
      rw [List.cons_prefix_cons] at hp
      obtain ⟨hc, hp⟩ := hp
      cases p with
      | nil => exact h2 (by simp [← hc])
      | cons d p =>
        rw [List.cons_append, List.cons_prefix_cons] at hp
        apply h1
        refine ⟨[], p, ?_⟩
        simp [sep2, ← hc, ← hp.1]
    rw [List.cons_append, splitOnAux, if_neg h3,
      ih (fun h => h1 (h.trans (List.suffix_cons c p).isInfix)) ?_]
    · simp
    · cases p with
      | nil => simp
      | cons d p => rw [List.getLast?_cons_cons] at h2; exact h2

theorem splitOn_join {l : List Str} (hl : l ≠ []) (h : ∀ p ∈ l, ¬ sep2 <:+: p ∧ p.getLast? ≠ some ' ') :
    splitOn sep2 (join sep2 l) = l := by
  unfold splitOn
  induction l with
  | nil => exact absurd rfl hl
  | cons p r ih =>
    have hp := h p List.mem_cons_self
    cases r with
    | nil =>
      have := splitOnAux_piece hp.1 hp.2 [] []
      rw [List.append_nil] at this
      rw [join, this, splitOnAux]
      simp
    | cons q r =>
      rw [join, List.append_assoc, splitOnAux_piece hp.1 hp.2]
      rw [show sep2 ++ join sep2 (q :: r) = ' ' :: ' ' :: join sep2 (q :: r) from rfl, splitOnAux, if_pos,
        show sep2.length - 1 = 1 from rfl, splitOnAux, ih (by simp) (fun s hs => h s (List.mem_cons_of_mem _ hs))]
      · simp
      · rw [List.isPrefixOf_iff_prefix]
        exact ⟨join sep2 (q :: r), rfl⟩

end Verif.Py
