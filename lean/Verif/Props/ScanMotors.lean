import Verif.Props.FioHeader
import Verif.Props.FioInfo

/-!
# C111: the scan motors of a P08 scan
-/

namespace Verif.Props
open Verif.Py Verif.Model Verif.Spec

/-! ### Words of a text -/

theorem infix_sep {k a b : Str} {c : Char} (hc : c ∉ k) (h : k <:+: a ++ c :: b) : k <:+: a ∨ k <:+: b := by
  obtain ⟨x, y, h⟩ := h
  rw [List.append_assoc] at h
  rcases List.append_eq_append_iff.1 h with ⟨u, h1, h2⟩ | ⟨u, h1, h2⟩
  · -- `a = x ++ u`
    rcases List.append_eq_append_iff.1 h2.symm with ⟨v, h3, h4⟩ | ⟨v, h3, h4⟩
    · cases v with
      | nil =>
        left
        refine ⟨x, [], ?_⟩
        rw [h1, h3]
        simp
      | cons d v =>
        exfalso
        rw [List.cons_append, List.cons.injEq] at h4
        apply hc
        rw [h3, h4.1]
        simp
    · left
      exact ⟨x, v, by rw [h1, h3, List.append_assoc]⟩
  · -- `x = a ++ u`
    cases u with
    | nil =>
      rw [List.nil_append] at h2
      cases k with
      | nil => exact Or.inl (List.nil_infix)
      | cons d k =>
        rw [List.cons_append, List.cons.injEq] at h2
        exact absurd (by rw [h2.1]; simp) hc
    | cons d u =>
      rw [List.cons_append, List.cons.injEq] at h2
      exact Or.inr ⟨u, y, by rw [h2.2, List.append_assoc]⟩

theorem infix_splitAux {k : Str} (hk : k ≠ []) (hs : ∀ c ∈ k, isSpace c = false) (t cur : Str) :
    k <:+: cur.reverse ++ t ↔ ∃ w ∈ splitWsAux t cur, k <:+: w := by
  induction t generalizing cur with
  | nil =>
    unfold splitWsAux
    split_ifs with h
    · subst h
      simp [hk]
    · simp
  | cons c t ih =>
    unfold splitWsAux
    split_ifs with hsp h
    · subst h
      rw [← ih []]
      constructor
      · intro h
        rcases infix_sep (fun hc => by rw [hs c hc] at hsp; cases hsp) h with h | h
        · simp only [List.reverse_nil, List.infix_nil] at h
          exact absurd h hk
        · exact h
      · intro h
        exact h.trans (List.suffix_append [c] t).isInfix
    · rw [show (∃ w ∈ List.reverse cur :: splitWsAux t [], k <:+: w) ↔ k <:+: List.reverse cur ∨ ∃ w ∈ splitWsAux t [], k <:+: w by simp,
        ← ih []]
      constructor
      · intro h'
        exact infix_sep (fun hc => by rw [hs c hc] at hsp; cases hsp) h'
      · rintro (h' | h')
        · exact h'.trans (List.prefix_append _ _).isInfix
        · exact h'.trans ((List.suffix_append [c] t).isInfix.trans (List.suffix_append _ _).isInfix)
    · rw [← ih (c :: cur)]
      simp

/-- A text without spaces occurs in a text if and only if it occurs in one of its words. -/
theorem infix_words {k : Str} (hk : k ≠ []) (hs : ∀ c ∈ k, isSpace c = false) (t : Str) : k <:+: t ↔ ∃ w ∈ splitWs t, k <:+: w :=
  infix_splitAux hk hs t []

def scanS : Str := "scan".toList

theorem command_contains {cmd ty : Str} {args : List Str} (hw : splitWs cmd = ty :: args) (hf : ∀ a ∈ args, ¬ scanS <:+: a) {k : Str}
    (hk : k ≠ []) (hs : ∀ c ∈ k, isSpace c = false) (hsub : scanS <:+: k) : contains cmd k = contains ty k := by
  rw [Bool.eq_iff_iff, contains_iff, contains_iff, infix_words hk hs, hw]
  constructor
  · rintro ⟨w, hw, h⟩
    rcases List.mem_cons.1 hw with rfl | hw
    · exact h
    · exact absurd (hsub.trans h) (hf w hw)
  · intro h
    exact ⟨ty, by simp, h⟩

/-- The scan motors as a function of the words of the command. -/
def motorsOf (ty : Str) (args : List Str) : Res (List (Str × Str)) :=
  let own := fun (i : Int) => do
    let n ← getItem (ty :: args) i
    return (n, n)
  if contains ty "lscan".toList && !contains ty "hklscan".toList then
    .ok [("l".toList, "kozhue6cctrl_l".toList)]
  else if contains ty "kscan".toList then .ok [("k".toList, "kozhue6cctrl_k".toList)]
  else if contains ty "hscan".toList then .ok [("h".toList, "kozhue6cctrl_h".toList)]
  else if contains ty "hklscan".toList then
    .ok [("h".toList, "kozhue6cctrl_h".toList), ("k".toList, "kozhue6cctrl_k".toList), ("l".toList, "kozhue6cctrl_l".toList)]
  else if contains ty "ascan".toList || contains ty "dscan".toList then do return [← own 1]
  else if contains ty "a2scan".toList || contains ty "d2scan".toList then do return [← own 1, ← own 4]
  else if contains ty "a3scan".toList || contains ty "d3scan".toList then do return [← own 1, ← own 4, ← own 7]
  else .ok []

theorem scanMotorColumns_words {cmd ty : Str} {args : List Str} (hw : splitWs cmd = ty :: args) (hf : ∀ a ∈ args, ¬ scanS <:+: a) :
    scanMotorColumns cmd = motorsOf ty args := by
  have h := fun (k : Str) hk hs hsub => command_contains hw hf (k := k) hk hs hsub
  unfold scanMotorColumns motorsOf
  rw [hw, h "lscan".toList (by decide) (by decide) (by decide), h "kscan".toList (by decide) (by decide) (by decide),
    h "hscan".toList (by decide) (by decide) (by decide), h "hklscan".toList (by decide) (by decide) (by decide),
    h "ascan".toList (by decide) (by decide) (by decide), h "dscan".toList (by decide) (by decide) (by decide),
    h "a2scan".toList (by decide) (by decide) (by decide), h "d2scan".toList (by decide) (by decide) (by decide),
    h "a3scan".toList (by decide) (by decide) (by decide), h "d3scan".toList (by decide) (by decide) (by decide)]

/-! ### C111 -/

theorem own_motor {ty m : Str} {args : List Str} {j : Nat} (h : args[j]? = some m) : getItem (ty :: args) ((j + 1 : Nat) : Int) = .ok m :=
  getItem_eq_ok_iff.2 ⟨j + 1, normIdx_nat (by simp; exact (List.getElem?_eq_some_iff.1 h).1), by simpa using h⟩

theorem own_missing {ty : Str} {args : List Str} {j : Nat} (h : args.length ≤ j) :
    getItem (ty :: args) ((j + 1 : Nat) : Int) = .error .indexError := by
  have : normIdx (ty :: args).length ((j + 1 : Nat) : Int) = none := by
    unfold normIdx
    rw [if_pos (Int.natCast_nonneg _), if_neg (by simp; omega)]
  unfold getItem
  rw [this]

/-- C111: the columns of the scan motors are the ones that the command names, for every command in which `scan` occurs in the first word
only. -/
theorem C111_motors (cmd ty : Str) (args : List Str) (hw : splitWs cmd = ty :: args) (hf : ∀ a ∈ args, ¬ "scan".toList <:+: a) :
    (ty = "hscan".toList → scanMotorColumns cmd = .ok [("h".toList, "kozhue6cctrl_h".toList)]) ∧
    (ty = "kscan".toList → scanMotorColumns cmd = .ok [("k".toList, "kozhue6cctrl_k".toList)]) ∧
    (ty = "lscan".toList → scanMotorColumns cmd = .ok [("l".toList, "kozhue6cctrl_l".toList)]) ∧
    (ty = "hklscan".toList → scanMotorColumns cmd =
      .ok [("h".toList, "kozhue6cctrl_h".toList), ("k".toList, "kozhue6cctrl_k".toList), ("l".toList, "kozhue6cctrl_l".toList)]) ∧
    (ty = "ascan".toList ∨ ty = "dscan".toList → ∀ m, args[0]? = some m → scanMotorColumns cmd = .ok [(m, m)]) ∧
    (ty = "a2scan".toList ∨ ty = "d2scan".toList → ∀ m n, args[0]? = some m → args[3]? = some n →
      scanMotorColumns cmd = .ok [(m, m), (n, n)]) ∧
    (ty = "a3scan".toList ∨ ty = "d3scan".toList → ∀ m n p, args[0]? = some m → args[3]? = some n → args[6]? = some p →
      scanMotorColumns cmd = .ok [(m, m), (n, n), (p, p)]) ∧
    (¬ "scan".toList <:+: ty → scanMotorColumns cmd = .ok []) := by
  rw [scanMotorColumns_words hw hf]
  refine ⟨fun h => ?_, fun h => ?_, fun h => ?_, fun h => ?_, fun h m hm => ?_, fun h m n hm hn => ?_, fun h m n p hm hn hp => ?_, fun h => ?_⟩
  · subst h; rfl
  · subst h; rfl
  · subst h; rfl
  · subst h; rfl
  · have h1 := own_motor (ty := ty) hm
    rcases h with rfl | rfl
    · show (getItem (_ :: args) ((0 + 1 : Nat) : Int) >>= _) >>= _ = _
      rw [h1]; rfl
    · show (getItem (_ :: args) ((0 + 1 : Nat) : Int) >>= _) >>= _ = _
      rw [h1]; rfl
  · have h1 := own_motor (ty := ty) hm
    have h2 := own_motor (ty := ty) hn
    rcases h with rfl | rfl
    all_goals
      show (getItem (_ :: args) ((0 + 1 : Nat) : Int) >>= _) >>= (fun a => (getItem (_ :: args) ((3 + 1 : Nat) : Int) >>= _) >>= _) = _
      rw [h1, h2]; rfl
  · have h1 := own_motor (ty := ty) hm
    have h2 := own_motor (ty := ty) hn
    have h3 := own_motor (ty := ty) hp
    rcases h with rfl | rfl
    all_goals
      show (getItem (_ :: args) ((0 + 1 : Nat) : Int) >>= _) >>= (fun a => (getItem (_ :: args) ((3 + 1 : Nat) : Int) >>= _) >>=
        (fun b => (getItem (_ :: args) ((6 + 1 : Nat) : Int) >>= _) >>= _)) = _
      rw [h1, h2, h3]; rfl
  · have hno : ∀ k, scanS <:+: k → contains ty k = false := fun k hk => by
      rw [← Bool.not_eq_true, contains_iff]
      exact fun hc => h (hk.trans hc)
    unfold motorsOf
    rw [hno "lscan".toList (by decide), hno "kscan".toList (by decide), hno "hscan".toList (by decide), hno "hklscan".toList (by decide),
      hno "ascan".toList (by decide), hno "dscan".toList (by decide), hno "a2scan".toList (by decide), hno "d2scan".toList (by decide),
      hno "a3scan".toList (by decide), hno "d3scan".toList (by decide)]
    rfl

/-- C111, incomplete commands: a command that ends before the name of a motor is rejected. -/
theorem C111_incomplete (cmd ty : Str) (args : List Str) (hw : splitWs cmd = ty :: args) (hf : ∀ a ∈ args, ¬ "scan".toList <:+: a) :
    (ty = "ascan".toList ∨ ty = "dscan".toList → args.length < 1 → scanMotorColumns cmd = .error .indexError) ∧
    (ty = "a2scan".toList ∨ ty = "d2scan".toList → args.length < 4 → scanMotorColumns cmd = .error .indexError) ∧
    (ty = "a3scan".toList ∨ ty = "d3scan".toList → args.length < 7 → scanMotorColumns cmd = .error .indexError) := by
  rw [scanMotorColumns_words hw hf]
  have key : ∀ j : Nat, args[j]? = none ∨ ∃ m, args[j]? = some m := fun j => by
    cases args[j]? with
    | none => exact Or.inl rfl
    | some m => exact Or.inr ⟨m, rfl⟩
  refine ⟨fun h hl => ?_, fun h hl => ?_, fun h hl => ?_⟩
  · have h1 := own_missing (ty := ty) (show args.length ≤ 0 by omega)
    rcases h with rfl | rfl
    all_goals
      show (getItem (_ :: args) ((0 + 1 : Nat) : Int) >>= _) >>= _ = _
      rw [h1]; rfl
  · have h2 := own_missing (ty := ty) (show args.length ≤ 3 by omega)
    rcases key 0 with h0 | ⟨m, hm⟩
    · have h1 := own_missing (ty := ty) (List.getElem?_eq_none_iff.1 h0)
      rcases h with rfl | rfl
      all_goals
        show (getItem (_ :: args) ((0 + 1 : Nat) : Int) >>= _) >>= _ = _
        rw [h1]; rfl
    · have h1 := own_motor (ty := ty) hm
      rcases h with rfl | rfl
      all_goals
        show (getItem (_ :: args) ((0 + 1 : Nat) : Int) >>= _) >>= (fun a => (getItem (_ :: args) ((3 + 1 : Nat) : Int) >>= _) >>= _) = _
        rw [h1, h2]; rfl
  · have h3 := own_missing (ty := ty) (show args.length ≤ 6 by omega)
    rcases key 0 with h0 | ⟨m, hm⟩
    · have h1 := own_missing (ty := ty) (List.getElem?_eq_none_iff.1 h0)
      rcases h with rfl | rfl
      all_goals
        show (getItem (_ :: args) ((0 + 1 : Nat) : Int) >>= _) >>= _ = _
        rw [h1]; rfl
    · have h1 := own_motor (ty := ty) hm
      rcases key 3 with h0 | ⟨n, hn⟩
      · have h2 := own_missing (ty := ty) (List.getElem?_eq_none_iff.1 h0)
        rcases h with rfl | rfl
        all_goals
          show (getItem (_ :: args) ((0 + 1 : Nat) : Int) >>= _) >>= (fun a => (getItem (_ :: args) ((3 + 1 : Nat) : Int) >>= _) >>= _) = _
          rw [h1, h2]; rfl
      · have h2 := own_motor (ty := ty) hn
        rcases h with rfl | rfl
        all_goals
          show (getItem (_ :: args) ((0 + 1 : Nat) : Int) >>= _) >>= (fun a => (getItem (_ :: args) ((3 + 1 : Nat) : Int) >>= _) >>=
            (fun b => (getItem (_ :: args) ((6 + 1 : Nat) : Int) >>= _) >>= _)) = _
          rw [h1, h2, h3]; rfl

theorem p08Load_motors {pf : Str → Option (Option ℝ)} {images : List Str → Res (List (Str × Stack))} {file : Option (List Str)}
    {sc : P08Scan} (h : p08Load pf images file = .ok sc) :
    ∃ cols, scanMotorColumns sc.cmd = .ok cols ∧ sc.motorNames = cols.map Prod.fst ∧
      List.Forall₂ (fun (p : Str × Str) (m : List (Option ℝ)) => dictGet sc.data p.2 = .ok m) cols sc.motors := by
  unfold p08Load at h
  cases file with
  | none => cases h
  | some lines =>
    simp only at h
    obtain ⟨st, -, h⟩ := bind_eq_ok.1 h
    cases hc : st.cmd with
    | none => rw [hc] at h; cases h
    | some cmd =>
      simp only [hc] at h
      obtain ⟨cols, h1, h⟩ := bind_eq_ok.1 h
      obtain ⟨motors, h2, h⟩ := bind_eq_ok.1 h
      obtain ⟨imgs, -, h⟩ := bind_eq_ok.1 h
      cases h
      exact ⟨cols, h1, rfl, mapM_ok_iff.1 h2⟩

/-- C111, the loaded scan: its motor positions are the data columns of the motors that the command names. -/
theorem C111_loaded (pf : Str → Option (Option ℝ)) (images : List Str → Res (List (Str × Stack))) (file : Option (List Str)) (sc : P08Scan)
    (h : p08Load pf images file = .ok sc) (ty : Str) (args : List Str) (hw : splitWs sc.cmd = ty :: args)
    (hf : ∀ a ∈ args, ¬ "scan".toList <:+: a) :
    (ty = "ascan".toList ∨ ty = "dscan".toList → ∃ m x, args[0]? = some m ∧ sc.motorNames = [m] ∧ sc.motors = [x] ∧
      dictGet sc.data m = .ok x) ∧
    (ty = "a2scan".toList ∨ ty = "d2scan".toList → ∃ m n x y, args[0]? = some m ∧ args[3]? = some n ∧ sc.motorNames = [m, n] ∧
      sc.motors = [x, y] ∧ dictGet sc.data m = .ok x ∧ dictGet sc.data n = .ok y) ∧
    (ty = "a3scan".toList ∨ ty = "d3scan".toList → ∃ m n p x y z, args[0]? = some m ∧ args[3]? = some n ∧ args[6]? = some p ∧
      sc.motorNames = [m, n, p] ∧ sc.motors = [x, y, z] ∧ dictGet sc.data m = .ok x ∧ dictGet sc.data n = .ok y ∧
      dictGet sc.data p = .ok z) ∧
    (ty = "hklscan".toList → ∃ x y z, sc.motorNames = ["h".toList, "k".toList, "l".toList] ∧ sc.motors = [x, y, z] ∧
      dictGet sc.data "kozhue6cctrl_h".toList = .ok x ∧ dictGet sc.data "kozhue6cctrl_k".toList = .ok y ∧
      dictGet sc.data "kozhue6cctrl_l".toList = .ok z) ∧
    (¬ "scan".toList <:+: ty → sc.motorNames = [] ∧ sc.motors = []) := by
  obtain ⟨cols, h1, h2, h3⟩ := p08Load_motors h
  obtain ⟨-, -, -, m4, m5, m6, m7, m8⟩ := C111_motors sc.cmd ty args hw hf
  obtain ⟨i1, i2, i3⟩ := C111_incomplete sc.cmd ty args hw hf
  generalize sc.motors = motors at h3 ⊢
  have get : ∀ {j n : Nat}, j < n → ¬ args.length < n → ∃ m, args[j]? = some m := fun hj hn =>
    ⟨_, List.getElem?_eq_getElem (by omega)⟩
  refine ⟨fun ht => ?_, fun ht => ?_, fun ht => ?_, fun ht => ?_, fun ht => ?_⟩
  · have hl : ¬ args.length < 1 := fun hl => by rw [i1 ht hl] at h1; cases h1
    obtain ⟨m, hm⟩ := get (show 0 < 1 by omega) hl
    rw [m5 ht m hm] at h1
    cases h1
    cases h3 with
    | cons a h3 =>
      cases h3
      exact ⟨m, _, hm, h2, rfl, a⟩
  · have hl : ¬ args.length < 4 := fun hl => by rw [i2 ht hl] at h1; cases h1
    obtain ⟨m, hm⟩ := get (show 0 < 4 by omega) hl
    obtain ⟨n, hn⟩ := get (show 3 < 4 by omega) hl
    rw [m6 ht m n hm hn] at h1
    cases h1
    cases h3 with
    | cons a h3 =>
      cases h3 with
      | cons b h3 =>
        cases h3
        exact ⟨m, n, _, _, hm, hn, h2, rfl, a, b⟩
  · have hl : ¬ args.length < 7 := fun hl => by rw [i3 ht hl] at h1; cases h1
    obtain ⟨m, hm⟩ := get (show 0 < 7 by omega) hl
    obtain ⟨n, hn⟩ := get (show 3 < 7 by omega) hl
    obtain ⟨p, hp⟩ := get (show 6 < 7 by omega) hl
    rw [m7 ht m n p hm hn hp] at h1
    cases h1
    cases h3 with
    | cons a h3 =>
      cases h3 with
      | cons b h3 =>
        cases h3 with
        | cons c h3 =>
          cases h3
          exact ⟨m, n, p, _, _, _, hm, hn, hp, h2, rfl, a, b, c⟩
  · rw [m4 ht] at h1
    cases h1
    cases h3 with
    | cons a h3 =>
      cases h3 with
      | cons b h3 =>
        cases h3 with
        | cons c h3 =>
          cases h3
          exact ⟨_, _, _, h2, rfl, a, b, c⟩
  · rw [m8 ht] at h1
    cases h1
    cases h3
    exact ⟨h2, rfl⟩

/-- C111, why the other words must not contain `scan`: a motor with such a name is taken for another kind of scan. -/
theorem C111_confused : scanMotorColumns "ascan hscanner 0 1 10 1".toList = .ok [("h".toList, "kozhue6cctrl_h".toList)] ∧
    splitWs "ascan hscanner 0 1 10 1".toList = ["ascan".toList, "hscanner".toList, "0".toList, "1".toList, "10".toList, "1".toList] :=
  ⟨rfl, rfl⟩

example : splitWs "a2scan om 0 1 tt 0 2 10 1".toList = "a2scan".toList :: ["om".toList, "0".toList, "1".toList, "tt".toList, "0".toList, "2".toList, "10".toList, "1".toList] ∧
    (∀ a ∈ ["om".toList, "0".toList, "1".toList, "tt".toList, "0".toList, "2".toList, "10".toList, "1".toList], ¬ "scan".toList <:+: a) ∧
    scanMotorColumns "a2scan om 0 1 tt 0 2 10 1".toList = .ok [("om".toList, "om".toList), ("tt".toList, "tt".toList)] :=
  ⟨rfl, by decide, rfl⟩

end Verif.Props
