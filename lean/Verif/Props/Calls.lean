import Verif.Spec.Calls
import Verif.Props.Fitters

/-!
# C133: the argument `reload`
-/

namespace Verif.Props
open Verif.Py Verif.Model Verif.Spec

theorem kwargs_get_some {kw : Kwargs} (hn : (kw.map (·.1)).Nodup) (k : Str) (v : ArgVal) : kw.get k = some v ↔ (k, v) ∈ kw := by
  unfold Kwargs.get
  induction kw with
  | nil => simp
  | cons p kw ih =>
    obtain ⟨k', v'⟩ := p
    rw [List.map_cons, List.nodup_cons] at hn
    by_cases h : k' = k
    · subst h
      have hno : (k', v) ∉ kw := fun hm => hn.1 (List.mem_map.2 ⟨_, hm, rfl⟩)
      simp [hno, eq_comm]
    · rw [List.find?_cons_of_neg (by simpa using h), ih hn.2]
      simp only [List.mem_cons, Prod.mk.injEq]
      exact ⟨Or.inr, fun o => o.resolve_left fun e => h e.1.symm⟩

theorem kwargs_get_none {kw : Kwargs} (k : Str) : kw.get k = none ↔ ∀ v, (k, v) ∉ kw := by
  unfold Kwargs.get
  rw [Option.map_eq_none_iff, List.find?_eq_none]
  constructor
  · intro h v hm
    exact h _ hm (by simp)
  · rintro h ⟨k', v⟩ hm he
    have : k' = k := by simpa using he
    subst this
    exact h v hm

theorem mapM_ok_iff {α β : Type} {f : α → Res β} {l : List α} (g : α → β) (h : ∀ a ∈ l, f a = .ok (g a)) : l.mapM f = .ok (l.map g) := by
  induction l with
  | nil => rfl
  | cons a l ih =>
    rw [List.mapM_cons, h a (by simp), ih fun b hb => h b (by simp [hb])]
    rfl

theorem mapM_error {α β : Type} {f : α → Res β} {l : List α} {e : PyErr} (h : ∀ a ∈ l, (∃ b, f a = .ok b) ∨ f a = .error e) {a : α} (ha : a ∈ l)
    (hf : f a = .error e) : l.mapM f = .error e := by
  induction l with
  | nil => cases ha
  | cons b l ih =>
    rw [List.mapM_cons]
    rcases h b (by simp) with ⟨c, hc⟩ | hb
    · rw [hc]
      have ha' : a ∈ l := by
        rcases List.mem_cons.1 ha with rfl | h'
        · rw [hf] at hc; cases hc
        · exact h'
      rw [show ((Except.ok c : Res β) >>= fun r => l.mapM f >>= fun rs => pure (r :: rs)) = (l.mapM f >>= fun rs => pure (c :: rs)) from rfl,
        ih (fun d hd => h d (by simp [hd])) ha']
      rfl
    · rw [hb]; rfl

/-- **C133** (binding of arguments): Python's binding gives every parameter its argument, or raises a `TypeError` if the call is not acceptable. -/
theorem C133_binding (sig : Sig) (args : List ArgVal) (kw : Kwargs) (hn : (kw.map (·.1)).Nodup) :
    (CallOk sig args kw → ∃ b, bindCall sig args kw = .ok b ∧ b.length = sig.length ∧ ∀ i v, b[i]? = some v ↔ i < sig.length ∧ ArgIs sig args kw i v) ∧
    (¬ CallOk sig args kw → bindCall sig args kw = .error .typeError) := by
  have known : (∀ k v, (k, v) ∈ kw → ∃ d, (k, d) ∈ sig) ↔ ¬ (kw.any fun p => !(sig.map (·.1)).contains p.1) = true := by
    simp
  have once : (∀ (i : ℕ) (k : Str) (d : Option ArgVal), i < args.length → sig[i]? = some (k, d) → ∀ v, (k, v) ∉ kw) ↔
      ¬ ((sig.take args.length).any fun p => (kw.get p.1).isSome) = true := by
    rw [List.any_eq_true]
    constructor
    · rintro h ⟨⟨k, d⟩, hm, hs⟩
      obtain ⟨i, hi, e⟩ := List.mem_take_iff_getElem.1 hm
      have := (kwargs_get_none k).2 (h i k d (by omega) (by rw [List.getElem?_eq_getElem (by omega), e]))
      simp [this] at hs
    · intro h i k d hi e v hv
      apply h
      obtain ⟨hlt, e'⟩ := List.getElem?_eq_some_iff.1 e
      refine ⟨(k, d), List.mem_take_iff_getElem.2 ⟨i, by omega, e'⟩, ?_⟩
      cases hg : kw.get k with
      | none => exact absurd hv ((kwargs_get_none k).1 hg v)
      | some w => rfl
  set step : (Str × Option ArgVal) × ℕ → Res ArgVal := fun p =>
    match args[p.2]?, kw.get p.1.1, p.1.2 with
    | some v, _, _ => .ok v
    | none, some v, _ => .ok v
    | none, none, some v => .ok v
    | none, none, none => .error .typeError with hstep
  have hdef : bindCall sig args kw = if sig.length < args.length then .error .typeError
      else if kw.any fun p => !(sig.map (·.1)).contains p.1 then .error .typeError
      else if (sig.take args.length).any fun p => (kw.get p.1).isSome then .error .typeError
      else sig.zipIdx.mapM step := rfl
  have cases_step : ∀ p, (∃ v, step p = .ok v) ∨ step p = .error .typeError := by
    rintro ⟨⟨k, d⟩, i⟩
    simp only [hstep]
    cases args[i]? with
    | some v => exact Or.inl ⟨v, rfl⟩
    | none =>
      cases kw.get k with
      | some v => exact Or.inl ⟨v, rfl⟩
      | none => cases d with
        | some v => exact Or.inl ⟨v, rfl⟩
        | none => exact Or.inr rfl
  have step_iff : ∀ k d i, sig[i]? = some (k, d) → ∀ v, step ((k, d), i) = .ok v ↔ ArgIs sig args kw i v := by
    intro k d i hs v
    simp only [hstep]
    cases ha : args[i]? with
    | some w =>
      have hi : i < args.length := (List.getElem?_eq_some_iff.1 ha).1
      constructor
      · intro h; cases h; exact .position _ ha
      · intro h
        cases h with
        | position _ h => rw [ha] at h; cases h; rfl
        | keyword _ _ _ h => omega
        | default _ _ h => omega
    | none =>
      have hi : args.length ≤ i := List.getElem?_eq_none_iff.1 ha
      cases hg : kw.get k with
      | some w =>
        have hw := (kwargs_get_some hn k w).1 hg
        constructor
        · intro h; cases h; exact .keyword k d _ hi hs hw
        · intro h
          cases h with
          | position _ h => rw [ha] at h; cases h
          | keyword k' d' _ _ h1 h2 =>
            rw [hs] at h1; cases h1
            rw [(kwargs_get_some hn k v).2 h2] at hg
            cases hg; rfl
          | default k' _ _ h1 h2 =>
            rw [hs] at h1; cases h1
            exact absurd hw (h2 w)
      | none =>
        have hno := (kwargs_get_none k).1 hg
        cases d with
        | some w =>
          constructor
          · intro h; cases h; exact .default k _ hi hs hno
          · intro h
            cases h with
            | position _ h => rw [ha] at h; cases h
            | keyword k' d' _ _ h1 h2 => rw [hs] at h1; cases h1; exact absurd h2 (hno _)
            | default k' _ _ h1 h2 => rw [hs] at h1; cases h1; rfl
        | none =>
          constructor
          · intro h; cases h
          · intro h
            cases h with
            | position _ h => rw [ha] at h; cases h
            | keyword k' d' _ _ h1 h2 => rw [hs] at h1; cases h1; exact absurd h2 (hno _)
            | default k' _ _ h1 h2 => rw [hs] at h1; cases h1
  have mem_idx : ∀ p ∈ sig.zipIdx, sig[p.2]? = some p.1 := fun p hp => List.mem_zipIdx_iff_getElem?.1 hp
  constructor
  · rintro ⟨h1, h2, h3, h4⟩
    have tot : ∀ p ∈ sig.zipIdx, ∃ v, step p = .ok v := by
      rintro ⟨⟨k, d⟩, i⟩ hp
      have hs := mem_idx _ hp
      by_cases hi : i < args.length
      · exact ⟨args[i], (step_iff k d i hs _).2 (.position _ (List.getElem?_eq_getElem hi))⟩
      · cases hg : kw.get k with
        | some w => exact ⟨w, (step_iff k d i hs _).2 (.keyword k d w (not_lt.1 hi) hs ((kwargs_get_some hn k w).1 hg))⟩
        | none =>
          cases d with
          | some w => exact ⟨w, (step_iff k _ i hs _).2 (.default k w (not_lt.1 hi) hs ((kwargs_get_none k).1 hg))⟩
          | none =>
            obtain ⟨v, hv⟩ := h4 i k (not_lt.1 hi) hs
            exact absurd hv ((kwargs_get_none k).1 hg v)
    let g : (Str × Option ArgVal) × ℕ → ArgVal := fun p => match step p with
      | .ok v => v
      | .error _ => .none
    have hg : ∀ p ∈ sig.zipIdx, step p = .ok (g p) := by
      intro p hp
      obtain ⟨v, hv⟩ := tot p hp
      simp only [g, hv]
    refine ⟨sig.zipIdx.map g, ?_, by simp, fun i v => ?_⟩
    · rw [hdef, if_neg (not_lt.2 h1), if_neg (known.1 h2), if_neg (once.1 h3)]
      exact mapM_ok_iff g hg
    · rw [List.getElem?_map, List.getElem?_zipIdx, Nat.zero_add]
      cases hs : sig[i]? with
      | none =>
        have : sig.length ≤ i := List.getElem?_eq_none_iff.1 hs
        constructor
        · intro h; cases h
        · rintro ⟨h, -⟩; omega
      | some p =>
        obtain ⟨k, d⟩ := p
        have hi : i < sig.length := (List.getElem?_eq_some_iff.1 hs).1
        have hp : ((k, d), i) ∈ sig.zipIdx := List.mem_zipIdx_iff_getElem?.2 hs
        simp only [Option.map_some, Option.some.injEq]
        rw [← step_iff k d i hs v, hg _ hp]
        exact ⟨fun h => ⟨hi, by rw [h]⟩, fun h => Except.ok.inj h.2⟩
  · intro hno
    rw [hdef]
    by_cases h1 : sig.length < args.length
    · rw [if_pos h1]
    rw [if_neg h1]
    by_cases h2 : (kw.any fun p => !(sig.map (·.1)).contains p.1) = true
    · rw [if_pos h2]
    rw [if_neg h2]
    by_cases h3 : ((sig.take args.length).any fun p => (kw.get p.1).isSome) = true
    · rw [if_pos h3]
    rw [if_neg h3]
    have h4 : ¬ ∀ (i : ℕ) (k : Str), args.length ≤ i → sig[i]? = some (k, none) → ∃ v, (k, v) ∈ kw := fun h4 =>
      hno ⟨not_lt.1 h1, known.2 h2, once.2 h3, h4⟩
    push Not at h4
    obtain ⟨i, k, hi, hs, hk⟩ := h4
    refine mapM_error (fun p _ => cases_step p) (List.mem_zipIdx_iff_getElem?.2 hs : ((k, none), i) ∈ sig.zipIdx) ?_
    rcases cases_step ((k, none), i) with ⟨v, hv⟩ | he
    · have := (step_iff k none i hs v).1 hv
      cases this with
      | position _ h => rw [List.getElem?_eq_none_iff.2 hi] at h; cases h
      | keyword k' d' _ _ h1 h2 => rw [hs] at h1; cases h1; exact absurd h2 (hk _)
      | default k' _ _ h1 h2 => rw [hs] at h1; cases h1
    · exact he

theorem default_get {sig : Sig} (hs : (sig.map (·.1)).Nodup) {j : ℕ} {d : ArgVal} {k : Str} (hj : sig[j]? = some (k, some d)) :
    (getDefaultKwargs sig).get k = some d := by
  have hn : ((getDefaultKwargs sig).map (·.1)).Nodup := by
    refine hs.sublist ?_
    unfold getDefaultKwargs
    clear hs hj
    induction sig with
    | nil => exact List.Sublist.slnil
    | cons p l ih =>
      obtain ⟨a, b⟩ := p
      cases b with
      | none => exact ih.cons _
      | some v => exact ih.cons_cons _
  rw [kwargs_get_some hn]
  exact List.mem_filterMap.2 ⟨(k, some d), List.mem_of_getElem? hj, rfl⟩

/-- **C133** (what decides about reading the files again): if `reload` is passed by keyword or not at all, its value decides. -/
theorem C133_keyword (sig : Sig) (hs : (sig.map (·.1)).Nodup) (args : List ArgVal) (kw : Kwargs) (hn : (kw.map (·.1)).Nodup) (j : ℕ) (d : ArgVal)
    (hj : sig[j]? = some (reloadName, some d)) (ha : args.length ≤ j) (v : ArgVal) (hv : ArgIs sig args kw j v) : reloadArg sig kw = v := by
  unfold reloadArg
  cases hv with
  | position _ h => rw [List.getElem?_eq_none_iff.2 ha] at h; cases h
  | keyword k' d' _ _ h1 h2 =>
    rw [hj] at h1; cases h1
    rw [(kwargs_get_some hn _ v).2 h2]
  | default k' _ _ h1 h2 =>
    rw [hj] at h1; cases h1
    rw [(kwargs_get_none _).2 h2]
    simp only [default_get hs hj, Option.getD_some]

/-- **C133** (false): if `reload` is passed by position, its value is ignored, and the default decides. -/
theorem C133_position (sig : Sig) (hs : (sig.map (·.1)).Nodup) (args : List ArgVal) (kw : Kwargs) (j : ℕ) (d : ArgVal)
    (hj : sig[j]? = some (reloadName, some d)) (ha : j < args.length) (hok : CallOk sig args kw) : reloadArg sig kw = d := by
  unfold reloadArg
  rw [(kwargs_get_none _).2 (hok.once j _ _ ha hj)]
  simp only [default_get hs hj, Option.getD_some]

/-- The decorated methods of the fitters. -/
noncomputable def methodSigs : List Sig := [specFitSig, specFitRangeSig, fioFitSig, fioFitRangeSig, showScansSig]

theorem methods_names : ∀ sig ∈ methodSigs, (sig.map (·.1)).Nodup ∧ ∃ j, sig.length = j + 1 ∧ sig[j]? = some (reloadName, some (.bool true)) := by
  intro sig h
  simp only [methodSigs, List.mem_cons, List.not_mem_nil, or_false] at h
  rcases h with rfl | rfl | rfl | rfl | rfl
  · refine ⟨?_, 13, rfl, rfl⟩
    simp only [specFitSig, reloadName, List.map_cons, List.map_nil]
    decide
  · refine ⟨?_, 11, rfl, rfl⟩
    simp only [specFitRangeSig, reloadName, List.map_cons, List.map_nil]
    decide
  · refine ⟨?_, 12, rfl, rfl⟩
    simp only [fioFitSig, reloadName, List.map_cons, List.map_nil]
    decide
  · refine ⟨?_, 12, rfl, rfl⟩
    simp only [fioFitRangeSig, fioFitSig, reloadName, List.map_cons, List.map_nil, List.tail_cons]
    decide
  · refine ⟨?_, 2, rfl, rfl⟩
    simp only [showScansSig, reloadName, List.map_cons, List.map_nil]
    decide

/-- `self` is no parameter after `self`. -/
theorem methods_self : ∀ sig ∈ methodSigs, ∀ d, (selfName, d) ∉ sig := by
  have key : ∀ sig ∈ methodSigs, selfName ∉ sig.map (·.1) := by
    intro sig h
    simp only [methodSigs, List.mem_cons, List.not_mem_nil, or_false] at h
    rcases h with rfl | rfl | rfl | rfl | rfl
    · simp only [specFitSig, reloadName, selfName, List.map_cons, List.map_nil]; decide
    · simp only [specFitRangeSig, reloadName, selfName, List.map_cons, List.map_nil]; decide
    · simp only [fioFitSig, reloadName, selfName, List.map_cons, List.map_nil]; decide
    · simp only [fioFitRangeSig, fioFitSig, reloadName, selfName, List.map_cons, List.map_nil, List.tail_cons]; decide
    · simp only [showScansSig, reloadName, selfName, List.map_cons, List.map_nil]; decide
  intro sig h d hm
  exact key sig h (List.mem_map.2 ⟨_, hm, rfl⟩)

/-- The wrapper for acceptable calls: `read` says whether the files are read again. -/
def ReadsIf {S α : Type} (reload : S → S × Res Unit) (read : Bool) (st : S) (run : S → Res α) (out : S × Res α) : Prop :=
  if read then
    (∀ st' e, reload st = (st', .error e) → out = (st', .error e)) ∧ ∀ st', reload st = (st', .ok ()) → out = (st', run st')
  else out = (st, run st)

/-- **C133** (calls of the methods): the methods of the fitters read the files again exactly if the value of `reload` is true, unless it is passed by position;
after that they run with their arguments. -/
theorem C133_call_partial {S α : Type} (reload : S → S × Res Unit) (sig : Sig) (hsig : sig ∈ methodSigs) (body : S → List ArgVal → Res α)
    (args : List ArgVal) (kw : Kwargs) (hn : (kw.map (·.1)).Nodup) (st : S) (hok : CallOk sig args kw) (hpos : args.length < sig.length) (v : ArgVal)
    (hv : ArgIs sig args kw (sig.length - 1) v) :
    ∃ b : List ArgVal, b.length = sig.length ∧ (∀ i w, b[i]? = some w ↔ i < sig.length ∧ ArgIs sig args kw i w) ∧
      ReadsIf reload v.truthy st (fun st' => body st' b) (reloadWrapper reload sig body args kw st) := by
  obtain ⟨hs, j, hlen, hj⟩ := methods_names sig hsig
  obtain ⟨b, hb, hbl, hbv⟩ := (C133_binding sig args kw hn).1 hok
  rw [hlen, Nat.add_sub_cancel] at hv
  have hself : kw.get selfName = none := (kwargs_get_none _).2 fun w hw => by
    obtain ⟨d, hd⟩ := hok.known _ _ hw
    exact methods_self sig hsig d hd
  refine ⟨b, hbl, hbv, ?_⟩
  unfold ReadsIf reloadWrapper
  rw [hself, C133_keyword sig hs args kw hn j _ hj (by omega) v hv, hb]
  simp only [Option.isSome_none, Bool.false_eq_true, if_false]
  by_cases ht : v.truthy = true
  · rw [if_pos ht, if_pos ht]
    refine ⟨fun st' e h => by rw [h], fun st' h => by rw [h]; rfl⟩
  · rw [if_neg ht, if_neg ht]
    rfl

/-- **C133** (methods without `reload`): a decorated method that has no parameter `reload` never reads the files again; it only runs with its arguments. -/
theorem C133_unasked {S α : Type} (reload : S → S × Res Unit) (sig : Sig) (hno : ∀ d, (reloadName, d) ∉ sig) (hself : ∀ d, (selfName, d) ∉ sig)
    (body : S → List ArgVal → Res α) (args : List ArgVal) (kw : Kwargs) (hn : (kw.map (·.1)).Nodup) (st : S) (hok : CallOk sig args kw) :
    ∃ b : List ArgVal, b.length = sig.length ∧ (∀ i w, b[i]? = some w ↔ i < sig.length ∧ ArgIs sig args kw i w) ∧
      reloadWrapper reload sig body args kw st = (st, body st b) := by
  obtain ⟨b, hb, hbl, hbv⟩ := (C133_binding sig args kw hn).1 hok
  refine ⟨b, hbl, hbv, ?_⟩
  have h1 : kw.get selfName = none := (kwargs_get_none _).2 fun w hw => by
    obtain ⟨d, hd⟩ := hok.known _ _ hw
    exact hself d hd
  have h2 : kw.get reloadName = none := (kwargs_get_none _).2 fun w hw => by
    obtain ⟨d, hd⟩ := hok.known _ _ hw
    exact hno d hd
  have h3 : Kwargs.get (getDefaultKwargs sig) reloadName = none := (kwargs_get_none _).2 fun w hw => by
    unfold getDefaultKwargs at hw
    obtain ⟨p, hp, he⟩ := List.mem_filterMap.1 hw
    obtain ⟨d, hd, he⟩ := Option.map_eq_some_iff.1 he
    have : p.1 = reloadName := congrArg Prod.fst he
    exact hno p.2 (this ▸ hp)
  have h4 : reloadArg sig kw = .bool false := by
    unfold reloadArg
    rw [h2]
    simp only [h3, Option.getD_none]
  have h5 : (ArgVal.bool false).truthy = false := rfl
  unfold reloadWrapper
  rw [h1, h4, h5, hb]
  rfl

/-- The hypotheses hold for a method with one required parameter and a call with one argument. -/
example : (∀ d, (reloadName, d) ∉ ([("scan".toList, none)] : Sig)) ∧ (∀ d, (selfName, d) ∉ ([("scan".toList, none)] : Sig)) ∧
    CallOk [("scan".toList, none)] [.int 3] [] := by
  refine ⟨fun d h => ?_, fun d h => ?_, by simp, fun _ _ h => (List.not_mem_nil h).elim, fun _ _ _ _ _ _ h => List.not_mem_nil h, fun i k hi h => ?_⟩
  · have h := congrArg Prod.fst (List.mem_singleton.1 h)
    exact absurd h (by show ¬ (reloadName = "scan".toList); unfold reloadName; decide)
  · have h := congrArg Prod.fst (List.mem_singleton.1 h)
    exact absurd h (by show ¬ (selfName = "scan".toList); unfold selfName; decide)
  · have hi : 1 ≤ i := hi
    rw [List.getElem?_eq_none_iff.2 (by simpa using hi)] at h
    cases h

theorem callOk_positions {sig : Sig} {args : List ArgVal} (h : args.length = sig.length) : CallOk sig args [] := by
  refine ⟨h.le, fun _ _ h => (List.not_mem_nil h).elim, fun _ _ _ _ _ _ h => List.not_mem_nil h, fun i k hi h' => ?_⟩
  rw [List.getElem?_eq_none_iff.2 (by omega)] at h'
  cases h'

/-- **C133** (false for arguments by position): a call with all arguments by position reads the files again, also with the value `False` for `reload`. -/
theorem C133_ignored {S α : Type} (reload : S → S × Res Unit) (sig : Sig) (hsig : sig ∈ methodSigs) (body : S → List ArgVal → Res α)
    (args : List ArgVal) (hlen : args.length = sig.length) (st : S) : ReadsIf reload true st (fun st' => body st' args) (reloadWrapper reload sig body args [] st) := by
  obtain ⟨hs, j, hl, hj⟩ := methods_names sig hsig
  have hok := callOk_positions hlen
  obtain ⟨b, hb, hbl, hbv⟩ := (C133_binding sig args [] (by simp)).1 hok
  obtain rfl : b = args := by
    apply List.ext_getElem (by omega)
    intro i h1 h2
    have := (hbv i args[i]).2 ⟨by omega, .position _ (List.getElem?_eq_getElem h2)⟩
    exact (List.getElem?_eq_some_iff.1 this).2
  have ht : (ArgVal.bool true).truthy = true := rfl
  have hself : ¬ (Kwargs.get [] selfName).isSome = true := Bool.false_ne_true
  unfold ReadsIf reloadWrapper
  rw [C133_position sig hs b [] j _ hj (by omega) hok, hb, if_pos rfl, if_neg hself, if_pos ht]
  exact ⟨fun st' e h => by rw [h], fun st' h => by rw [h]; rfl⟩

/-- **C133** (false): `fitter.show_scans(None, None, False)` reads the files again. -/
theorem C133_not_always : ¬ ∀ (reload : ℕ → ℕ × Res Unit) (sig : Sig), sig ∈ methodSigs → ∀ (body : ℕ → List ArgVal → Res Unit) (args : List ArgVal) (kw : Kwargs),
    (kw.map (·.1)).Nodup → ∀ st, CallOk sig args kw → ∀ v, ArgIs sig args kw (sig.length - 1) v → v.truthy = false →
    (reloadWrapper reload sig body args kw st).1 = st := by
  intro h
  have hm : showScansSig ∈ methodSigs := by simp [methodSigs]
  have hi := C133_ignored (fun n : ℕ => (n + 1, .ok ())) showScansSig hm (fun _ _ => .ok ()) [.none, .none, .bool false] rfl 0
  unfold ReadsIf at hi
  rw [if_pos rfl] at hi
  have hi := hi.2 1 rfl
  have := h (fun n : ℕ => (n + 1, .ok ())) showScansSig hm (fun _ _ => .ok ()) [.none, .none, .bool false] [] (by simp) 0
    (callOk_positions rfl) (.bool false) (.position _ rfl) rfl
  rw [hi] at this
  cases this

/-- **C133** (calls that are not acceptable): such a call raises a `TypeError`, after the files were read again if `reload` asks for it. -/
theorem C133_bad_call {S α : Type} (reload : S → S × Res Unit) (sig : Sig) (body : S → List ArgVal → Res α) (args : List ArgVal) (kw : Kwargs)
    (hn : (kw.map (·.1)).Nodup) (st st' : S) (hbad : ¬ CallOk sig args kw) (hr : reload st = (st', .ok ())) :
    reloadWrapper reload sig body args kw st = (st, .error .typeError) ∨ reloadWrapper reload sig body args kw st = (st', .error .typeError) ∧
      (reloadArg sig kw).truthy = true := by
  have hb := (C133_binding sig args kw hn).2 hbad
  unfold reloadWrapper
  rw [hb]
  by_cases h1 : (kw.get selfName).isSome = true
  · rw [if_pos h1]; exact Or.inl rfl
  rw [if_neg h1]
  by_cases h2 : (reloadArg sig kw).truthy = true
  · rw [if_pos h2, hr]; exact Or.inr ⟨rfl, h2⟩
  · rw [if_neg h2]; exact Or.inl rfl

/-- The wrapper around the methods of `SpecFitter` and `FioFitter` is the one of the models of these classes. -/
theorem C133_spec (limit : Nat) (w : World) (f : SpecFitter) {α : Type} (read : Bool) (run : SpecFitter → Res α) (out : SpecFitter × Res α) :
    ReadsIf (SpecFitter.reloadLoader limit w) read f run out ↔ out = SpecFitter.withReload limit w f read run := by
  unfold ReadsIf SpecFitter.withReload
  cases read with
  | false => simp
  | true =>
    simp only [if_true]
    rcases h : SpecFitter.reloadLoader limit w f with ⟨f', _ | _⟩ <;> simp

theorem C133_fio (pf : Str → Option (Option ℝ)) (w : World) (f : FioFitter) {α : Type} (read : Bool) (run : FioFitter → Res α) (out : FioFitter × Res α) :
    ReadsIf (FioFitter.reloadLoader pf w) read f run out ↔ out = FioFitter.withReload pf w f read run := by
  unfold ReadsIf FioFitter.withReload
  cases read with
  | false => simp
  | true =>
    simp only [if_true]
    rcases h : FioFitter.reloadLoader pf w f with ⟨f', _ | _⟩ <;> simp

/-- **C133** (false for `verbose`): the callback of `Trainer.train` that reduces the learning rate prints its messages with every value of `verbose`. -/
theorem C133_verbose (v : ArgVal) : callbackVerbosity v = .ok (.int 1) := rfl

theorem C133_not_silent : ¬ ∀ v, callbackVerbosity v = .ok v := by
  intro h
  have := Except.ok.inj ((C133_verbose (.int 0)).symm.trans (h (.int 0)))
  cases this

/-- The hypotheses hold: `fitter.fit(5, plot=True, reload=False)`. -/
example : CallOk specFitSig [.int 5] [("plot".toList, .bool true), (reloadName, .bool false)] ∧
    ArgIs specFitSig [.int 5] [("plot".toList, .bool true), (reloadName, .bool false)] (specFitSig.length - 1) (.bool false) := by
  constructor
  · refine ⟨by simp [specFitSig], ?_, ?_, ?_⟩
    · intro k v h
      rcases List.mem_cons.1 h with h | h
      · cases h; exact ⟨_, List.mem_of_getElem? (i := 6) rfl⟩
      · rcases List.mem_cons.1 h with h | h
        · cases h; exact ⟨_, List.mem_of_getElem? (i := 13) rfl⟩
        · cases h
    · intro i k d hi h v hv
      obtain rfl : i = 0 := by simpa using hi
      cases h
      rcases List.mem_cons.1 hv with h | h
      · exact absurd (congrArg (fun p : Str × ArgVal => p.1) h) (show ¬ "scan_number".toList = "plot".toList by decide)
      · rcases List.mem_cons.1 h with h | h
        · exact absurd (congrArg (fun p : Str × ArgVal => p.1) h) (show ¬ "scan_number".toList = reloadName by decide)
        · cases h
    · intro i k hi h
      match i, hi with
      | i + 1, _ =>
        have hall : ∀ p ∈ specFitSig.tail, p.2 ≠ none := by
          unfold specFitSig
          simp only [List.tail_cons, List.mem_cons, List.not_mem_nil, or_false]
          rintro p (rfl | rfl | rfl | rfl | rfl | rfl | rfl | rfl | rfl | rfl | rfl | rfl | rfl) <;> exact Option.some_ne_none _
        have : specFitSig.tail[i]? = some (k, none) := by rw [List.getElem?_tail]; exact h
        exact absurd rfl (hall _ (List.mem_of_getElem? this))
  · exact .keyword reloadName (some (.bool true)) _ (by simp [specFitSig]) rfl (by simp)

end Verif.Props
