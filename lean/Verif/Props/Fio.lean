import Verif.Model.Fio
import Verif.Spec.Fio
import Verif.Lemmas.Except
import Verif.Lemmas.PyList
import Verif.Lemmas.Text
import Mathlib.Data.List.TakeWhile
import Mathlib.Data.List.Nodup

/-!
# C52, C53: reading .fio files
-/

namespace Verif.Props
open Verif.Py Verif.Model Verif.Spec

section Read
variable {F : Type} (pf : Str → Option F) (nan : F)

/-- The part of the state that belongs to the table. -/
def fioCore (s : FioState F) : List Str × Bool × List (Str × List F) := (s.names, s.dataColumns, s.data)

/-- A state with a given table. -/
def fioOf (c : List Str × Bool × List (Str × List F)) : FioState F :=
  { names := c.1, dataColumns := c.2.1, data := c.2.2 }

/-- A data line acting on the table. -/
def coreStep (c : List Str × Bool × List (Str × List F)) (l : Str) : Res (List Str × Bool × List (Str × List F)) :=
  (fioData pf nan (fioOf c) l).map fioCore

theorem fioData_core (s : FioState F) (l : Str) : (fioData pf nan s l).map fioCore = coreStep pf nan (fioCore s) l := by
  unfold coreStep fioData
  have h1 : (fioOf (fioCore s)).dataColumns = s.dataColumns := rfl
  have h2 : (fioOf (fioCore s)).names = s.names := rfl
  rw [h1, h2]
  split
  · unfold fioNext
    rw [h2]
    have h3 : (fioOf (fioCore s)).data = s.data := rfl
    rw [h3]
    simp only
    generalize ((s.names.zipIdx).foldlM (fun d (p : Str × Nat) => dictAppend d p.1 (fioField pf nan (splitWs l) p.2)) s.data) = x
    cases x <;> rfl
  · split
    · cases getItem (splitWs l) 2 <;> rfl
    · split <;> rfl

theorem fioData_block {s s' : FioState F} {l : Str} (h : fioData pf nan s l = .ok s') : s'.block = s.block := by
  unfold fioData at h
  split at h
  · unfold fioNext at h
    obtain ⟨d, -, h⟩ := bind_eq_ok.1 h
    cases h; rfl
  · split at h
    · obtain ⟨d, -, h⟩ := bind_eq_ok.1 h
      cases h; rfl
    · split at h
      · cases h; rfl
      · cases h; rfl

theorem contains_iff {l w : Str} : contains l w = true ↔ w <:+: l := by
  induction l with
  | nil => simp [contains, List.infix_nil]
  | cons c l ih => rw [contains, Bool.or_eq_true, ih, List.infix_cons_iff, List.isPrefixOf_iff_prefix]

theorem fioHeader_core (s : FioState F) (l k v : Str) :
    fioCore (fioHeader pf s l k v) = fioCore s ∧ (fioHeader pf s l k v).block = s.block := by
  unfold fioHeader
  split
  · split <;> exact ⟨rfl, rfl⟩
  · split
    · exact ⟨rfl, rfl⟩
    · split
      · split <;> exact ⟨rfl, rfl⟩
      · exact ⟨rfl, rfl⟩

theorem fioParam_core (s : FioState F) (l : Str) : fioCore (fioParam pf s l) = fioCore s ∧ (fioParam pf s l).block = s.block := by
  unfold fioParam
  split
  · split
    · split
      · exact ⟨rfl, rfl⟩
      · exact fioHeader_core pf s l _ _
    · exact ⟨rfl, rfl⟩
  · exact ⟨rfl, rfl⟩

theorem fioComment_core (s : FioState F) (l : Str) : fioCore (fioComment s l) = fioCore s ∧ (fioComment s l).block = s.block := by
  unfold fioComment
  split <;> exact ⟨rfl, rfl⟩

theorem read_core (lines : List Str) (s : FioState F) :
    (lines.foldlM (fioStep pf nan) s).map fioCore =
      (fioBody (decide (s.block = .data)) lines).foldlM (coreStep pf nan) (fioCore s) := by
  induction lines generalizing s with
  | nil => rfl
  | cons l ls ih =>
    rw [List.foldlM_cons, fioBody, fioStep]
    by_cases hc : ['%', 'c'] <:+: l
    · rw [if_pos (contains_iff.2 hc), if_pos (Or.inl hc), bind_ok, ih]
      rfl
    · rw [if_neg (fun h => hc (contains_iff.1 h))]
      by_cases hp : ['%', 'p'] <:+: l
      · rw [if_pos (contains_iff.2 hp), if_pos (Or.inr hp), bind_ok, ih]
        rfl
      · rw [if_neg (fun h => hp (contains_iff.1 h)), if_neg (not_or.2 ⟨hc, hp⟩)]
        by_cases hd : ['%', 'd'] <:+: l
        · rw [if_pos (contains_iff.2 hd), if_pos hd, bind_ok, ih]
          rfl
        · rw [if_neg (fun h => hd (contains_iff.1 h)), if_neg hd]
          by_cases he : '!' ∈ l
          · have he' : ['!'] <:+: l := (List.singleton_infix_iff _ _).2 he
            rw [if_pos (contains_iff.2 he'), if_pos he, bind_ok, ih]
          · have he' : ¬ ['!'] <:+: l := fun h => he ((List.singleton_infix_iff _ _).1 h)
            rw [if_neg (fun h => he' (contains_iff.1 h)), if_neg he]
            cases hb : s.block with
            | start =>
              rw [if_neg (by simp)]
              simp only [bind_ok]
              rw [ih, hb]
            | comment =>
              rw [if_neg (by simp)]
              simp only [bind_ok]
              rw [ih, (fioComment_core s l).1, (fioComment_core s l).2, hb]
            | param =>
              rw [if_neg (by simp)]
              simp only [bind_ok]
              rw [ih, (fioParam_core pf s l).1, (fioParam_core pf s l).2, hb]
            | data =>
              rw [if_pos (by simp)]
              simp only
              rw [List.foldlM_cons, ← fioData_core]
              cases hs : fioData pf nan s l with
              | error e => rfl
              | ok s' =>
                rw [bind_ok, ih, fioData_block pf nan hs, hb]
                rfl

theorem isCol_iff {l : Str} : contains l colWord = true ↔ IsColLine l := contains_iff

theorem fold_pre {pre : List Str} (h : ∀ l ∈ pre, ¬ IsColLine l) (rest : List Str) :
    (pre ++ rest).foldlM (coreStep pf nan) ([], false, []) = rest.foldlM (coreStep pf nan) ([], false, []) := by
  induction pre with
  | nil => rfl
  | cons l ls ih =>
    have h1 : coreStep pf nan ([], false, []) l = .ok ([], false, []) := by
      unfold coreStep fioData fioOf
      rw [if_neg (by simp), if_neg (fun h' => h l (List.mem_cons_self ..) (isCol_iff.1 h')), if_neg (by simp)]
      rfl
    rw [List.cons_append, List.foldlM_cons, h1, bind_ok, ih fun l hl => h l (List.mem_cons_of_mem _ hl)]

theorem fold_cols {cols : List Str} (h : ∀ l ∈ cols, IsColLine l) (names : List Str) (rest : List Str) :
    (cols ++ rest).foldlM (coreStep pf nan) (names, false, []) =
      (cols.mapM fun (l : Str) => getItem (splitWs l) 2) >>= fun ns =>
        rest.foldlM (coreStep pf nan) (names ++ ns, false, []) := by
  induction cols generalizing names with
  | nil => simp
  | cons l ls ih =>
    rw [List.cons_append, List.foldlM_cons, mapM_cons]
    have h1 : coreStep pf nan (names, false, []) l = (do
        let n ← getItem (splitWs l) 2
        return (names ++ [n], false, [])) := by
      unfold coreStep fioData fioOf
      rw [if_neg (by simp), if_pos (isCol_iff.2 (h l (List.mem_cons_self ..)))]
      cases getItem (splitWs l) 2 <;> rfl
    rw [h1]
    cases getItem (splitWs l) 2 with
    | error e => rfl
    | ok n =>
      simp only [bind_ok]
      show (List.foldlM (coreStep pf nan) (names ++ [n], false, []) (ls ++ rest)) = _
      rw [ih fun l hl => h l (List.mem_cons_of_mem _ hl)]
      cases List.mapM (fun (l : Str) => getItem (splitWs l) 2) ls with
      | error e => rfl
      | ok ns =>
        show _ = List.foldlM (coreStep pf nan) (names ++ (n :: ns), false, []) rest
        rw [bind_ok, List.append_assoc]
        rfl

theorem dictSet_new {κ β : Type} [DecidableEq κ] {d : List (κ × β)} {k : κ} (v : β) (h : k ∉ d.map Prod.fst) :
    dictSet d k v = d ++ [(k, v)] := by
  induction d with
  | nil => rfl
  | cons p d ih =>
    obtain ⟨k', v'⟩ := p
    simp only [List.map_cons, List.mem_cons, not_or] at h
    unfold dictSet
    rw [if_neg (fun e => h.1 e.symm), ih h.2]
    rfl

theorem foldl_dictSet {β τ : Type} (g : Str × τ → β) (l : List (Str × τ)) (d : List (Str × β))
    (hn : (l.map Prod.fst).Nodup) (hd : ∀ p ∈ l, p.1 ∉ d.map Prod.fst) :
    l.foldl (fun d (p : Str × τ) => dictSet d p.1 (g p)) d = d ++ l.map fun p => (p.1, g p) := by
  induction l generalizing d with
  | nil => simp
  | cons p l ih =>
    rw [List.foldl_cons, dictSet_new _ (hd p (List.mem_cons_self ..))]
    rw [List.map_cons, List.nodup_cons] at hn
    rw [ih _ hn.2, List.append_assoc, List.map_cons]
    · rfl
    · intro q hq
      rw [List.map_append, List.mem_append, not_or]
      refine ⟨hd q (List.mem_cons_of_mem _ hq), ?_⟩
      intro h
      simp only [List.map_cons, List.map_nil, List.mem_singleton] at h
      exact hn.1 (h ▸ List.mem_map_of_mem hq)

theorem dictGet_mid {κ β : Type} [DecidableEq κ] {a b : List (κ × β)} {k : κ} {v : β} (h : k ∉ a.map Prod.fst) :
    dictGet (a ++ (k, v) :: b) k = .ok v := by
  induction a with
  | nil => simp [dictGet]
  | cons p a ih =>
    obtain ⟨k', v'⟩ := p
    simp only [List.map_cons, List.mem_cons, not_or] at h
    rw [List.cons_append, dictGet, if_neg (fun e => h.1 e.symm), ih h.2]

theorem dictSet_mid {κ β : Type} [DecidableEq κ] {a b : List (κ × β)} {k : κ} {v w : β} (h : k ∉ a.map Prod.fst) :
    dictSet (a ++ (k, v) :: b) k w = a ++ (k, w) :: b := by
  induction a with
  | nil => simp [dictSet]
  | cons p a ih =>
    obtain ⟨k', v'⟩ := p
    simp only [List.map_cons, List.mem_cons, not_or] at h
    rw [List.cons_append, dictSet, if_neg (fun e => h.1 e.symm), ih h.2]
    rfl

theorem foldlM_dictAppend {β τ : Type} (col : Str × τ → List β) (x : Str × τ → β) (pre suf : List (Str × τ))
    (hn : ((pre ++ suf).map Prod.fst).Nodup) :
    suf.foldlM (fun d (p : Str × τ) => dictAppend d p.1 (x p))
      ((pre.map fun p => (p.1, col p ++ [x p])) ++ suf.map fun p => (p.1, col p)) =
    .ok ((pre ++ suf).map fun p => (p.1, col p ++ [x p])) := by
  induction suf generalizing pre with
  | nil => simp; rfl
  | cons p suf ih =>
    have hp : p.1 ∉ (pre.map fun p => (p.1, col p ++ [x p])).map Prod.fst := by
      rw [List.map_map]
      rw [List.map_append, List.nodup_append] at hn
      intro h
      have h' : p.1 ∈ pre.map Prod.fst := h
      exact hn.2.2 _ h' _ (by rw [List.map_cons]; exact List.mem_cons_self ..) rfl
    rw [List.foldlM_cons, List.map_cons]
    unfold dictAppend
    rw [dictGet_mid hp, bind_ok, dictSet_mid hp]
    have := ih (pre ++ [p]) (by simpa using hn)
    rw [List.map_append, List.append_assoc, List.append_assoc] at this
    exact this

theorem fold_next {names : List Str} (hn : names.Nodup) (col : Nat → List F) (rest : List Str) :
    rest.foldlM (coreStep pf nan) (names, true, names.zipIdx.map fun p => (p.1, col p.2)) =
      .ok (names, true, names.zipIdx.map fun p => (p.1, col p.2 ++ rest.map fun l => fioField pf nan (splitWs l) p.2)) := by
  induction rest generalizing col with
  | nil => simp; rfl
  | cons l rest ih =>
    have h1 : coreStep pf nan (names, true, names.zipIdx.map fun p => (p.1, col p.2)) l =
        .ok (names, true, names.zipIdx.map fun p => (p.1, col p.2 ++ [fioField pf nan (splitWs l) p.2])) := by
      unfold coreStep fioData fioOf fioNext
      rw [if_pos rfl]
      have := foldlM_dictAppend (fun p => col p.2) (fun p => fioField pf nan (splitWs l) p.2) [] names.zipIdx
        (by simpa using hn)
      simp only [List.map_nil, List.nil_append] at this
      simp only
      rw [this]
      rfl
    rw [List.foldlM_cons, h1, bind_ok, ih (fun i => col i ++ [fioField pf nan (splitWs l) i])]
    simp

theorem fold_data {names : List Str} (hne : names ≠ []) (hn : names.Nodup) {l : Str} (hl : ¬ IsColLine l) (rest : List Str) :
    (l :: rest).foldlM (coreStep pf nan) (names, false, []) =
      .ok (names, true, names.zipIdx.map fun p => (p.1, (l :: rest).map fun l => fioField pf nan (splitWs l) p.2)) := by
  have h1 : coreStep pf nan (names, false, []) l =
      .ok (names, true, names.zipIdx.map fun p => (p.1, [fioField pf nan (splitWs l) p.2])) := by
    unfold coreStep fioData fioOf
    rw [if_neg (by simp), if_neg (fun h => hl (isCol_iff.1 h)), if_pos (List.length_pos_iff.2 hne)]
    unfold fioFirst
    simp only
    rw [foldl_dictSet (fun p => [fioField pf nan (splitWs l) p.2]) _ _ (by simpa using hn) (by simp)]
    rfl
  rw [List.foldlM_cons, h1, bind_ok, fold_next pf nan hn (fun i => [fioField pf nan (splitWs l) i])]
  simp

theorem body_split (body : List Str) : ∃ pre, (∀ l ∈ pre, ¬ IsColLine l) ∧ (∀ l ∈ fioColLines body, IsColLine l) ∧
    body = pre ++ (fioColLines body ++ fioDataLines body) ∧
    (∀ l r, fioDataLines body = l :: r → ¬ IsColLine l) ∧ (fioColLines body = [] → fioDataLines body = []) := by
  refine ⟨body.takeWhile fun l => !IsColLine l, ?_, ?_, ?_, ?_, ?_⟩
  · intro l hl
    have := List.mem_takeWhile_imp hl
    simpa using this
  · intro l hl
    have := List.mem_takeWhile_imp hl
    simpa using this
  · unfold fioColLines fioDataLines
    rw [List.takeWhile_append_dropWhile, List.takeWhile_append_dropWhile]
  · intro l r h
    unfold fioDataLines at h
    have h2 := List.head_dropWhile_not (fun l => decide (IsColLine l)) (l := body.dropWhile fun l => !IsColLine l)
      (by rw [h]; simp)
    simp only [h, List.head_cons] at h2
    simpa using h2
  · intro h
    unfold fioColLines at h
    unfold fioDataLines
    cases hd : body.dropWhile fun l => !IsColLine l with
    | nil => rfl
    | cons x xs =>
      have h2 := List.head_dropWhile_not (fun l => !decide (IsColLine l)) (l := body) (by rw [hd]; simp)
      simp only [hd, List.head_cons] at h2
      rw [hd, List.takeWhile_cons, if_pos (by simpa using h2)] at h
      cases h

theorem fioField_spec (l : Str) (i : Nat) : FieldOf pf nan l i (fioField pf nan (splitWs l) i) := by
  unfold FieldOf fioField
  cases (splitWs l)[i]? with
  | none => exact Or.inr ⟨Or.inl rfl, rfl⟩
  | some t =>
    cases h : pf t with
    | none => exact Or.inr ⟨Or.inr ⟨t, rfl, h⟩, by simp [h]⟩
    | some x => exact Or.inl ⟨t, rfl, by simp [h]⟩

theorem coreStep_true {names : List Str} {d : List (Str × List F)} {l : Str} {c}
    (h : coreStep pf nan (names, true, d) l = .ok c) : c.1 = names ∧ c.2.1 = true := by
  unfold coreStep fioData fioOf fioNext at h
  rw [if_pos rfl] at h
  simp only at h
  generalize (names.zipIdx.foldlM (fun d (p : Str × Nat) => dictAppend d p.1 (fioField pf nan (splitWs l) p.2)) d) = x at h
  cases x with
  | error e => cases h
  | ok d' => cases h; exact ⟨rfl, rfl⟩

theorem fold_true {names : List Str} {d : List (Str × List F)} {rest : List Str} {c}
    (h : rest.foldlM (coreStep pf nan) (names, true, d) = .ok c) : c.1 = names := by
  induction rest generalizing d with
  | nil => cases h; rfl
  | cons l rest ih =>
    rw [List.foldlM_cons] at h
    obtain ⟨⟨n', b', d'⟩, h1, h2⟩ := bind_eq_ok.1 h
    obtain ⟨rfl, rfl⟩ := coreStep_true pf nan h1
    exact ih h2

theorem first_step {names : List Str} (hne : names ≠ []) {l : Str} (hl : ¬ IsColLine l) :
    ∃ d, coreStep pf nan (names, false, []) l = .ok (names, true, d) ∧ ∀ n ∈ names, n ∈ d.map Prod.fst := by
  unfold coreStep fioData fioOf
  rw [if_neg (by simp), if_neg (fun h => hl (isCol_iff.1 h)), if_pos (List.length_pos_iff.2 hne)]
  refine ⟨_, rfl, ?_⟩
  have keys : ∀ (d : List (Str × List F)) k v n, n ∈ (dictSet d k v).map Prod.fst ↔ n = k ∨ n ∈ d.map Prod.fst := by
    intro d k v n
    induction d with
    | nil => simp [dictSet]
    | cons p d ih =>
      obtain ⟨k', v'⟩ := p
      unfold dictSet
      split
      · rename_i he
        subst he
        simp only [List.map_cons, List.mem_cons]
        tauto
      · simp only [List.map_cons, List.mem_cons, ih]
        tauto
  have key : ∀ (q : List (Str × Nat)) (d : List (Str × List F)) n, (n ∈ q.map Prod.fst ∨ n ∈ d.map Prod.fst) →
      n ∈ (q.foldl (fun d (p : Str × Nat) => dictSet d p.1 [fioField pf nan (splitWs l) p.2]) d).map Prod.fst := by
    intro q
    induction q with
    | nil => intro d n h; simpa using h
    | cons p q ih =>
      intro d n h
      rw [List.foldl_cons]
      refine ih _ n ?_
      rw [keys]
      simp only [List.map_cons, List.mem_cons] at h
      tauto
  intro n hn
  exact key _ _ n (Or.inl (by simpa using hn))

theorem core_result (lines : List Str) : ∃ pre : List Str, (∀ l ∈ pre, ¬ IsColLine l) ∧
    (fioRead pf nan lines).map fioCore =
      ((fioColLines (fioBody false lines)).mapM fun (l : Str) => getItem (splitWs l) 2) >>= fun ns =>
        (fioDataLines (fioBody false lines)).foldlM (coreStep pf nan) (ns, false, []) := by
  obtain ⟨pre, h1, h2, h3, h4, h5⟩ := body_split (fioBody false lines)
  refine ⟨pre, h1, ?_⟩
  have hc := read_core pf nan lines ({} : FioState F)
  have hb : decide (({} : FioState F).block = .data) = false := rfl
  have h0 : fioCore ({} : FioState F) = ([], false, []) := rfl
  rw [hb, h0, h3, fold_pre pf nan h1, fold_cols pf nan h2] at hc
  exact hc

theorem token2 {l n : Str} : getItem (splitWs l) 2 = .ok n ↔ (splitWs l)[2]? = some n := by
  rw [getItem_eq_ok_iff]
  constructor
  · rintro ⟨k, hk, h⟩
    unfold normIdx at hk
    rw [if_pos (by decide)] at hk
    split at hk
    · cases hk; exact h
    · cases hk
  · intro h
    refine ⟨2, ?_, h⟩
    have hl : 2 < (splitWs l).length := (List.getElem?_eq_some_iff.1 h).1
    unfold normIdx
    rw [if_pos (by decide), if_pos (by simpa using hl)]
    rfl

/-- C52 for files with distinct column names: the reader returns one column per column line, with one
entry per data line, the number in the field of the column or `nan` (an empty table without data
lines). -/
theorem C52_rectangular_partial (lines : List Str) (r : FioState F) (h : fioRead pf nan lines = .ok r)
    (hn : r.names.Nodup) :
    List.Forall₂ (fun l n => (splitWs l)[2]? = some n) (fioColLines (fioBody false lines)) r.names ∧
    (fioDataLines (fioBody false lines) = [] → r.data = []) ∧
    (fioDataLines (fioBody false lines) ≠ [] → r.data.map Prod.fst = r.names ∧
      ∀ (i : Nat) (hi : i < r.data.length),
        List.Forall₂ (fun l x => FieldOf pf nan l i x) (fioDataLines (fioBody false lines)) (r.data[i]).2) := by
  obtain ⟨-, -, hc⟩ := core_result pf nan lines
  obtain ⟨-, -, -, -, h4, h5⟩ := body_split (fioBody false lines)
  rw [h] at hc
  obtain ⟨ns, g1, g2⟩ := bind_eq_ok.1 hc.symm
  have hF : List.Forall₂ (fun l n => (splitWs l)[2]? = some n) (fioColLines (fioBody false lines)) ns :=
    (mapM_ok_iff.1 g1).imp fun l n hln => token2.1 hln
  cases hd : fioDataLines (fioBody false lines) with
  | nil =>
    rw [hd] at g2
    have e := Except.ok.inj g2
    have e1 : ns = r.names := congrArg Prod.fst e
    have e2 : [] = r.data := congrArg (fun c => c.2.2) e
    exact ⟨e1 ▸ hF, fun _ => e2.symm, fun hne => absurd rfl hne⟩
  | cons l rest =>
    have hne : ns ≠ [] := by
      intro h0
      rw [h0] at hF
      have := h5 (List.length_eq_zero_iff.1 (by rw [hF.length_eq]; rfl))
      rw [hd] at this
      cases this
    have hl := h4 l rest hd
    rw [hd] at g2
    have e1 : r.names = ns := by
      obtain ⟨d, k1, -⟩ := first_step pf nan hne hl
      rw [List.foldlM_cons, k1, bind_ok] at g2
      exact fold_true pf nan g2
    rw [e1] at hn
    rw [fold_data pf nan hne hn hl] at g2
    have e2 := congrArg (fun c => c.2.2) (Except.ok.inj g2)
    have e3 : r.data = ns.zipIdx.map fun p => (p.1, (l :: rest).map fun l => fioField pf nan (splitWs l) p.2) := e2.symm
    refine ⟨e1 ▸ hF, fun h => (by cases h), fun _ => ⟨?_, fun i hi => ?_⟩⟩
    · rw [e3, e1, List.map_map]
      show ns.zipIdx.map Prod.fst = ns
      simp
    · have e4 : (r.data[i]).2 = (l :: rest).map fun l => fioField pf nan (splitWs l) i := by
        simp only [e3, List.getElem_map, List.getElem_zipIdx, Nat.zero_add]
      rw [e4, List.forall₂_map_right_iff]
      exact List.forall₂_same.2 fun l _ => fioField_spec pf nan l i

theorem dictSet_keys {κ β : Type} [DecidableEq κ] {d : List (κ × β)} {k : κ} {v : β} (h : k ∈ d.map Prod.fst) :
    (dictSet d k v).map Prod.fst = d.map Prod.fst := by
  induction d with
  | nil => cases h
  | cons p d ih =>
    obtain ⟨k', v'⟩ := p
    unfold dictSet
    split
    · rename_i he; subst he; rfl
    · rename_i he
      simp only [List.map_cons, List.mem_cons] at h ⊢
      rw [ih (h.resolve_left fun e => he e.symm)]

theorem dictGet_of_mem {κ β : Type} [DecidableEq κ] {d : List (κ × β)} {k : κ} (h : k ∈ d.map Prod.fst) :
    ∃ v, dictGet d k = .ok v := by
  induction d with
  | nil => cases h
  | cons p d ih =>
    obtain ⟨k', v'⟩ := p
    unfold dictGet
    split
    · exact ⟨_, rfl⟩
    · rename_i he
      simp only [List.map_cons, List.mem_cons] at h
      exact ih (h.resolve_left fun e => he e.symm)

theorem fold_total {names : List Str} (d : List (Str × List F)) (hk : ∀ n ∈ names, n ∈ d.map Prod.fst) (rest : List Str) :
    ∃ c, rest.foldlM (coreStep pf nan) (names, true, d) = .ok c := by
  induction rest generalizing d with
  | nil => exact ⟨_, rfl⟩
  | cons l rest ih =>
    have key : ∀ (q : List (Str × Nat)) (d : List (Str × List F)), (∀ p ∈ q, p.1 ∈ d.map Prod.fst) →
        ∃ d', q.foldlM (fun d (p : Str × Nat) => dictAppend d p.1 (fioField pf nan (splitWs l) p.2)) d = .ok d' ∧
          d'.map Prod.fst = d.map Prod.fst := by
      intro q
      induction q with
      | nil => intro d _; exact ⟨d, rfl, rfl⟩
      | cons p q ih =>
        intro d h
        obtain ⟨v, hv⟩ := dictGet_of_mem (h p (List.mem_cons_self ..))
        rw [List.foldlM_cons]
        unfold dictAppend
        rw [hv, bind_ok]
        have hkeys := dictSet_keys (v := v ++ [fioField pf nan (splitWs l) p.2]) (h p (List.mem_cons_self ..))
        obtain ⟨d', h1, h2⟩ := ih (dictSet d p.1 (v ++ [fioField pf nan (splitWs l) p.2])) (fun p' hp' => by
          rw [hkeys]; exact h p' (List.mem_cons_of_mem _ hp'))
        exact ⟨d', h1, h2.trans hkeys⟩
    obtain ⟨d', h1, h2⟩ := key names.zipIdx d (fun p hp => hk _ (by
      have : p.1 ∈ names.zipIdx.map Prod.fst := List.mem_map_of_mem hp
      simpa using this))
    have h3 : coreStep pf nan (names, true, d) l = .ok (names, true, d') := by
      unfold coreStep fioData fioOf fioNext
      rw [if_pos rfl]
      simp only
      rw [h1]
      rfl
    rw [List.foldlM_cons, h3, bind_ok]
    exact ih d' (fun n hn => by rw [h2]; exact hk n hn)

/-- C52, errors: reading fails exactly if a column line has less than three words, with an
`IndexError`. -/
theorem C52_errors (lines : List Str) :
    ((∃ e, fioRead pf nan lines = .error e) ↔ ∃ l ∈ fioColLines (fioBody false lines), (splitWs l).length < 3) ∧
    ∀ e, fioRead pf nan lines = .error e → e = .indexError := by
  obtain ⟨-, -, hc⟩ := core_result pf nan lines
  obtain ⟨-, -, -, -, h4, h5⟩ := body_split (fioBody false lines)
  by_cases hall : ∀ l ∈ fioColLines (fioBody false lines), 3 ≤ (splitWs l).length
  · have hok : ∃ r, fioRead pf nan lines = .ok r := by
      have h6 : ((fioColLines (fioBody false lines)).mapM fun (l : Str) => getItem (splitWs l) 2) =
          .ok ((fioColLines (fioBody false lines)).map fun l => (splitWs l).getD 2 []) := by
        refine mapM_eq_ok_map fun l hl => ?_
        have h3 := hall l hl
        rw [token2, List.getElem?_eq_getElem (by omega), List.getD_eq_getElem?_getD, List.getElem?_eq_getElem (by omega)]
        rfl
      rw [h6, bind_ok] at hc
      have : ∃ c, (fioRead pf nan lines).map fioCore = .ok c := by
        rw [hc]
        cases hd : fioDataLines (fioBody false lines) with
        | nil => exact ⟨_, rfl⟩
        | cons l rest =>
          have hne : ((fioColLines (fioBody false lines)).map fun l => (splitWs l).getD 2 []) ≠ [] := by
            intro h0
            have := h5 (List.map_eq_nil_iff.1 h0)
            rw [hd] at this
            cases this
          obtain ⟨d, k1, k2⟩ := first_step pf nan hne (h4 l rest hd)
          rw [List.foldlM_cons, k1, bind_ok]
          exact fold_total pf nan d k2 rest
      obtain ⟨c, hc'⟩ := this
      cases hr : fioRead pf nan lines with
      | error e => rw [hr] at hc'; cases hc'
      | ok r => exact ⟨r, rfl⟩
    obtain ⟨r, hr⟩ := hok
    rw [hr]
    refine ⟨⟨fun ⟨e, he⟩ => (by cases he), fun ⟨l, hl, h⟩ => ?_⟩, fun e he => by cases he⟩
    have := hall l hl
    omega
  · push Not at hall
    have herr : fioRead pf nan lines = .error .indexError := by
      have h6 : ((fioColLines (fioBody false lines)).mapM fun (l : Str) => getItem (splitWs l) 2) = .error .indexError := by
        obtain ⟨l, hl, hlt⟩ := hall
        generalize fioColLines (fioBody false lines) = cols at hl
        induction cols with
        | nil => cases hl
        | cons a cols ih =>
          rw [mapM_cons]
          by_cases ha : (splitWs a).length < 3
          · have : getItem (splitWs a) 2 = .error .indexError := by
              unfold getItem normIdx
              rw [if_pos (by decide), if_neg (by simp; omega)]
            rw [this]
            rfl
          · rcases List.mem_cons.1 hl with rfl | hl
            · exact absurd hlt ha
            · have : ∃ x, getItem (splitWs a) 2 = .ok x := by
                refine ⟨(splitWs a)[2]'(by omega), ?_⟩
                rw [token2, List.getElem?_eq_getElem]
              obtain ⟨x, hx⟩ := this
              rw [hx, bind_ok, ih hl]
              rfl
      rw [h6] at hc
      cases hr : fioRead pf nan lines with
      | error e => rw [hr] at hc; cases hc; rfl
      | ok r => rw [hr] at hc; cases hc
    rw [herr]
    exact ⟨⟨fun _ => hall, fun _ => ⟨_, rfl⟩⟩, fun e he => by cases he; rfl⟩

end Read

/-- A float parser for single letters, to compute examples. -/
def letterTokens (s : Str) : Option Nat := (parseInt s).map Int.toNat

/-- A file with two data blocks lines, remarks and a missing and an unreadable field. -/
def exampleFio : List Str :=
  ["%c".toList, "ascan om 0 1 2".toList, "%p".toList, "om = 3".toList, "%d".toList, " Col 1 om DOUBLE".toList,
   " Col 2 det DOUBLE".toList, "! remark".toList, " 1 7".toList, " 2".toList, " x 9".toList]

/-- The hypotheses of `C52_rectangular_partial` are met by a file with data. -/
example : ∃ r, fioRead letterTokens 99 exampleFio = .ok r ∧ r.names.Nodup ∧
    r.data = [("om".toList, [1, 2, 99]), ("det".toList, [7, 99, 9])] := ⟨_, rfl, by decide, by decide⟩

/-- C52 is false if a column name is repeated: the columns get different lengths. -/
theorem C52_duplicate_names : ∃ lines : List Str, ∃ r, fioRead letterTokens 99 lines = .ok r ∧
    ∃ c d, ("om".toList, c) ∈ r.data ∧ ("det".toList, d) ∈ r.data ∧ c.length ≠ d.length :=
  ⟨["%d".toList, "Col 1 om DOUBLE".toList, "Col 2 om DOUBLE".toList, "Col 3 det DOUBLE".toList, "1 2 3".toList, "4 5 6".toList],
    _, rfl, [2, 4, 5], [3, 6], by decide, by decide, by decide⟩

/-! ### C53: file names -/

/-- The decimal digits. -/
def IsDigit (c : Char) : Prop := '0' ≤ c ∧ c ≤ '9'

theorem digit_ofNat : ∀ d < 10, IsDigit (Char.ofNat (48 + d)) ∧ (Char.ofNat (48 + d)).toNat - 48 = d := by
  unfold IsDigit
  decide

theorem digit_facts {c : Char} (h : IsDigit c) : isFioChar c = false ∧ isSpace c = false ∧ c ≠ '_' ∧ c ≠ '-' ∧ c ≠ '+' ∧ c ≠ '/' := by
  have h1 : 48 ≤ c.toNat := h.1
  have h2 : c.toNat ≤ 57 := h.2
  have ne : ∀ d : Char, (d.toNat < 48 ∨ 57 < d.toNat) → c ≠ d := by
    rintro d hd rfl
    omega
  refine ⟨?_, ?_, ne _ (by decide), ne _ (by decide), ne _ (by decide), ne _ (by decide)⟩
  · unfold isFioChar
    simp [ne '.' (by decide), ne 'f' (by decide), ne 'i' (by decide), ne 'o' (by decide)]
  · unfold isSpace
    simp only [Bool.or_eq_false_iff, Bool.and_eq_false_iff, decide_eq_false_iff_not, beq_eq_false_iff_ne]
    omega

theorem natStr_spec (n : Nat) : natStr n ≠ [] ∧ (∀ c ∈ natStr n, IsDigit c) ∧
    ∀ b, (natStr n).foldl digitStep (some (0, b)) = some (n, true) := by
  induction n using Nat.strong_induction_on with
  | _ n ih =>
    unfold natStr
    split
    · rename_i h
      obtain ⟨h1, h2⟩ := digit_ofNat n h
      refine ⟨by simp, by simpa using h1, fun b => ?_⟩
      rw [List.foldl_cons, List.foldl_nil, digitStep, if_pos (show _ ∧ _ from h1), h2]
      simp
    · rename_i h
      obtain ⟨h1, h2⟩ := digit_ofNat (n % 10) (by omega)
      obtain ⟨i1, i2, i3⟩ := ih (n / 10) (by omega)
      refine ⟨by simp, ?_, fun b => ?_⟩
      · intro c hc
        rcases List.mem_append.1 hc with hc | hc
        · exact i2 c hc
        · rw [List.mem_singleton] at hc
          rw [hc]; exact h1
      · rw [List.foldl_append, i3, List.foldl_cons, List.foldl_nil, digitStep, if_pos (show _ ∧ _ from h1), h2]
        congr 2
        omega

theorem padded_spec (k n : Nat) : (∀ c ∈ List.replicate k '0' ++ natStr n, IsDigit c) ∧
    List.replicate k '0' ++ natStr n ≠ [] ∧ parseNat (List.replicate k '0' ++ natStr n) = some n := by
  obtain ⟨h1, h2, h3⟩ := natStr_spec n
  have h0 : IsDigit '0' := by unfold IsDigit; decide
  refine ⟨?_, by simp [h1], ?_⟩
  · intro c hc
    rcases List.mem_append.1 hc with hc | hc
    · rw [(List.mem_replicate.1 hc).2]; exact h0
    · exact h2 c hc
  · have hz : ∀ b, ∃ b', (List.replicate k '0').foldl digitStep (some (0, b)) = some (0, b') := by
      induction k with
      | zero => intro b; exact ⟨b, rfl⟩
      | succ k ih =>
        intro b
        rw [List.replicate_succ, List.foldl_cons, digitStep, if_pos (show _ ∧ _ from h0)]
        exact ih _
    obtain ⟨b', hb⟩ := hz false
    unfold parseNat
    rw [List.foldl_append, hb, h3]

theorem stripBy_id {p : Char → Bool} {s : Str} (h : ∀ c ∈ s, p c = false) : stripBy p s = s := by
  have hd : ∀ t : Str, (∀ c ∈ t, p c = false) → t.dropWhile p = t := by
    intro t ht
    cases t with
    | nil => rfl
    | cons c t => rw [List.dropWhile_cons, if_neg (by simp [ht c (List.mem_cons_self ..)])]
  unfold stripBy lstripBy rstripBy
  rw [hd s h, hd _ (fun c hc => h c (List.mem_reverse.1 hc)), List.reverse_reverse]

/-- The characters of a padded number are digits after an optional sign. -/
theorem pad5_spec (n : Int) : pad5 n ≠ [] ∧ (∀ c ∈ pad5 n, isFioChar c = false ∧ isSpace c = false ∧ c ≠ '_' ∧ c ≠ '/') ∧
    parseInt (pad5 n) = some n := by
  unfold pad5
  split
  · rename_i h
    obtain ⟨h1, h2, h3⟩ := padded_spec (5 - (natStr n.toNat).length) n.toNat
    refine ⟨h2, fun c hc => ⟨(digit_facts (h1 c hc)).1, (digit_facts (h1 c hc)).2.1, (digit_facts (h1 c hc)).2.2.1, (digit_facts (h1 c hc)).2.2.2.2.2⟩, ?_⟩
    unfold parseInt
    rw [stripBy_id fun c hc => (digit_facts (h1 c hc)).2.1]
    generalize List.replicate (5 - (natStr n.toNat).length) '0' ++ natStr n.toNat = s at *
    cases s with
    | nil => exact absurd rfl h2
    | cons c s =>
      have hf := digit_facts (h1 c (List.mem_cons_self ..))
      split
      · rename_i heq; cases heq; exact absurd rfl hf.2.2.2.1
      · rename_i heq; cases heq; exact absurd rfl hf.2.2.2.2.1
      · rw [h3, Option.map_some]
        congr 1
        omega
  · rename_i h
    obtain ⟨h1, h2, h3⟩ := padded_spec (4 - (natStr (-n).toNat).length) (-n).toNat
    have hm : isFioChar '-' = false ∧ isSpace '-' = false ∧ '-' ≠ '_' ∧ '-' ≠ '/' := by decide
    have hall : ∀ c ∈ '-' :: (List.replicate (4 - (natStr (-n).toNat).length) '0' ++ natStr (-n).toNat),
        isFioChar c = false ∧ isSpace c = false ∧ c ≠ '_' ∧ c ≠ '/' := by
      intro c hc
      rcases List.mem_cons.1 hc with rfl | hc
      · exact hm
      · exact ⟨(digit_facts (h1 c hc)).1, (digit_facts (h1 c hc)).2.1, (digit_facts (h1 c hc)).2.2.1, (digit_facts (h1 c hc)).2.2.2.2.2⟩
    refine ⟨by simp, hall, ?_⟩
    unfold parseInt
    rw [stripBy_id fun c hc => (hall c hc).2.1]
    simp only [h3, Option.map_some]
    congr 1
    omega

theorem splitOnAux_skip (sep u t cur : Str) : splitOnAux sep (u ++ t) cur u.length = splitOnAux sep t cur 0 := by
  induction u with
  | nil => rfl
  | cons c u ih =>
    rw [List.cons_append, List.length_cons, splitOnAux]
    exact ih

theorem splitOnAux_none {sep t : Str} {c : Char} (hc : c ∈ sep) (ht : c ∉ t) (cur : Str) :
    splitOnAux sep t cur 0 = [cur.reverse ++ t] := by
  induction t generalizing cur with
  | nil => simp [splitOnAux]
  | cons d t ih =>
    rw [splitOnAux, if_neg, ih (fun h => ht (List.mem_cons_of_mem _ h))]
    · simp
    · intro h
      rw [List.isPrefixOf_iff_prefix] at h
      exact ht (h.subset hc)

theorem splitOn_head {sep t : Str} {c : Char} (hc : c ∈ sep) (ht : c ∉ t) : splitOn sep (sep ++ t) = [[], t] := by
  unfold splitOn
  cases sep with
  | nil => cases hc
  | cons d sep =>
    rw [List.cons_append, splitOnAux, if_pos]
    · rw [List.length_cons, Nat.add_sub_cancel, splitOnAux_skip, splitOnAux_none hc ht]
      rfl
    · rw [List.isPrefixOf_iff_prefix, ← List.cons_append]
      exact List.prefix_append _ _

/-- C53: the number of a scan is recovered from its file name, for every stem and every number. -/
theorem C53_number (stem : Str) (n : Int) : fioNumber stem (fioName stem n) = .ok n := by
  obtain ⟨h1, h2, h3⟩ := pad5_spec n
  have he : ∀ c ∈ fioExt, c ≠ '_' := by decide
  unfold fioNumber fioName
  rw [List.append_assoc, splitOn_head (c := '_') (by simp) (by
    intro h
    rcases List.mem_append.1 h with h | h
    · exact (h2 _ h).2.2.1 rfl
    · exact he _ h rfl)]
  show pyInt (stripBy isFioChar (pad5 n ++ fioExt)) = .ok n
  have hs : stripBy isFioChar (pad5 n ++ fioExt) = pad5 n := by
    have hid := stripBy_id (p := isFioChar) (s := pad5 n) fun c hc => (h2 c hc).1
    have hl : lstripBy isFioChar (pad5 n ++ fioExt) = pad5 n ++ fioExt := by
      cases hp : pad5 n with
      | nil => exact absurd hp h1
      | cons c s =>
        unfold lstripBy
        rw [List.cons_append, List.dropWhile_cons, if_neg (by simp [(h2 c (by rw [hp]; exact List.mem_cons_self ..)).1])]
    have hl' : lstripBy isFioChar (pad5 n) = pad5 n := by
      cases hp : pad5 n with
      | nil => exact absurd hp h1
      | cons c s =>
        unfold lstripBy
        rw [List.dropWhile_cons, if_neg (by simp [(h2 c (by rw [hp]; exact List.mem_cons_self ..)).1])]
    unfold stripBy at hid ⊢
    rw [hl'] at hid
    rw [hl]
    unfold rstripBy at hid ⊢
    rw [List.reverse_append]
    exact hid
  rw [hs]
  unfold pyInt
  rw [h3]

theorem fioMatch_name (stem : Str) (n : Int) : fioMatch stem (fioName stem n) = true := by
  obtain ⟨-, h2, -⟩ := pad5_spec n
  unfold fioMatch startsWith
  have hd : (fioName stem n).drop stem.length = ['_'] ++ pad5 n ++ fioExt := by
    unfold fioName
    rw [List.append_assoc, List.append_assoc, List.drop_left, List.append_assoc]
  rw [hd, Bool.and_eq_true, Bool.and_eq_true, List.isPrefixOf_iff_prefix, List.isPrefixOf_iff_prefix, List.all_eq_true]
  refine ⟨⟨?_, ?_⟩, ?_⟩
  · unfold fioName
    rw [List.append_assoc, List.append_assoc]
    exact List.prefix_append _ _
  · rw [List.reverse_append]
    exact List.prefix_append _ _
  · have he : ∀ c ∈ fioExt, c ≠ '/' := by decide
    intro c hc
    rw [bne_iff_ne]
    rcases List.mem_append.1 hc with hc | hc
    · rcases List.mem_append.1 hc with hc | hc
      · rw [List.mem_singleton] at hc; rw [hc]; decide
      · exact (h2 c hc).2.2.2
    · exact he c hc

/-- C53, listing: if all files with the prefix belong to the experiment, the listing succeeds, contains
exactly the numbers of the existing files, and every number belongs to the file that is read for it. -/
theorem C53_listing_partial (stem : Str) (files : List Str)
    (h : ∀ f ∈ files, fioMatch stem f = true → ∃ n, f = fioName stem n) :
    ∃ ns, fioScanNumbers stem files = .ok ns ∧
      List.Forall₂ (fun f n => f = fioName stem n) (fioPathList stem files) ns ∧
      ∀ n, n ∈ ns ↔ fioName stem n ∈ files := by
  have hmem : ∀ f, f ∈ fioPathList stem files ↔ f ∈ files ∧ fioMatch stem f = true := by
    intro f
    unfold fioPathList
    rw [List.mem_mergeSort, List.mem_filter]
  have hall : ∀ f ∈ fioPathList stem files, ∃ n, f = fioName stem n := fun f hf => h f ((hmem f).1 hf).1 ((hmem f).1 hf).2
  have key : ∀ l : List Str, (∀ f ∈ l, ∃ n, f = fioName stem n) → ∃ ns, l.mapM (fioNumber stem) = .ok ns ∧
      List.Forall₂ (fun f n => f = fioName stem n) l ns := by
    intro l
    induction l with
    | nil => intro _; exact ⟨[], rfl, List.Forall₂.nil⟩
    | cons f l ih =>
      intro hl
      obtain ⟨n, rfl⟩ := hl f (List.mem_cons_self ..)
      obtain ⟨ns, h1, h2⟩ := ih fun f hf => hl f (List.mem_cons_of_mem _ hf)
      refine ⟨n :: ns, ?_, List.Forall₂.cons rfl h2⟩
      rw [mapM_cons, C53_number, bind_ok, h1]
      rfl
  obtain ⟨ns, h1, h2⟩ := key _ hall
  refine ⟨ns, h1, h2, fun n => ?_⟩
  constructor
  · intro hn
    have hx : ∃ f ∈ fioPathList stem files, f = fioName stem n := by
      clear h1 hall hmem
      generalize fioPathList stem files = l at h2
      induction h2 with
      | nil => cases hn
      | cons e _ ih =>
        rcases List.mem_cons.1 hn with rfl | hn
        · exact ⟨_, List.mem_cons_self .., e⟩
        · obtain ⟨f, hf, e⟩ := ih hn
          exact ⟨f, List.mem_cons_of_mem _ hf, e⟩
    obtain ⟨f, hf, rfl⟩ := hx
    exact ((hmem _).1 hf).1
  · intro hn
    have hf := (hmem _).2 ⟨hn, fioMatch_name stem n⟩
    have hx : ∃ m ∈ ns, fioName stem n = fioName stem m := by
      clear h1 hall hmem hn
      generalize fioPathList stem files = l at h2 hf
      induction h2 with
      | nil => cases hf
      | cons e _ ih =>
        rcases List.mem_cons.1 hf with rfl | hf
        · exact ⟨_, List.mem_cons_self .., e⟩
        · obtain ⟨m, hm, e⟩ := ih hf
          exact ⟨m, List.mem_cons_of_mem _ hm, e⟩
    obtain ⟨m, hm, e⟩ := hx
    have h3 := C53_number stem n
    rw [e, C53_number] at h3
    cases h3
    exact hm

/-- The hypothesis of `C53_listing_partial` is met by a folder with scans and another file. -/
example : ∀ f ∈ [fioName "my_data".toList 42, fioName "my_data".toList 123456, "other.fio".toList],
    fioMatch "my_data".toList f = true → ∃ n, f = fioName "my_data".toList n := by
  intro f hf hm
  simp only [List.mem_cons, List.not_mem_nil, or_false] at hf
  rcases hf with rfl | rfl | rfl
  · exact ⟨_, rfl⟩
  · exact ⟨_, rfl⟩
  · exact absurd hm (by decide)

/-- C53 is false for folders with several experiments: a file of another experiment with a common
prefix makes the listing fail, or yields the number of a scan that does not exist. -/
theorem C53_shared_prefix :
    fioScanNumbers "my_data".toList ["my_data2_00001.fio".toList] = .error .indexError ∧
    fioScanNumbers "my_data".toList ["my_data_1_00001.fio".toList] = .ok [100001] := by
  have h : ∀ f : Str, fioMatch "my_data".toList f = true → fioPathList "my_data".toList [f] = [f] := by
    intro f hf
    unfold fioPathList
    rw [List.filter_cons, if_pos hf, List.filter_nil, List.mergeSort_singleton]
  unfold fioScanNumbers
  rw [h _ (by decide), h _ (by decide)]
  exact ⟨rfl, rfl⟩

end Verif.Props
