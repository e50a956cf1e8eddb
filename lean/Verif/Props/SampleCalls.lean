import Verif.Model.SampleCalls
import Verif.Props.OnSubstrate
import Verif.Props.Reorder

/-!
# Property C151: the state of a sample after a call that raises
-/

namespace Verif.Props
open Verif.Py Verif.Model Verif.Spec
variable {K : Type} [LinearOrder K] [Zero K]

theorem addLayer_raises (c : SampleClass) (s : SampleV K) (l : LayerV K) (i : AddIndex) (e : PyErr) (h : (c.addLayer s l i).2 = .error e) :
    (c.addLayer s l i).1 = s := by
  have key : ∀ r : Res (List (LayerV K)), (match r with | .ok ls => (({ s with layers := ls } : SampleV K), (Except.ok () : Res Unit)) | .error e => (s, .error e)).2 = .error e →
      (match r with | .ok ls => (({ s with layers := ls } : SampleV K), (Except.ok () : Res Unit)) | .error e => (s, .error e)).1 = s := by
    intro r hr
    cases r with
    | ok _ => exact absurd hr (by simp)
    | error _ => rfl
  cases c with
  | multilayer => exact key _ h
  | onSubstrate =>
    unfold SampleClass.addLayer at h ⊢
    simp only at h ⊢
    split_ifs at h ⊢ with h1 h2
    · exact key _ h
    · rfl
    · exact key _ h

/-- C151 (partial): a call of any method other than `from_dict` that raises leaves the sample as it was. Missing: `from_dict`
(`C151_from_dict`, `C151_not_always`). -/
theorem C151_unchanged_partial (c : SampleClass) (s : SampleV K) (x : SampleCall K) (hx : ∀ d, x ≠ .fromDict d) (e : PyErr)
    (h : (c.call s x).2 = .error e) : (c.call s x).1 = s := by
  cases x with
  | setAmbient l => cases l with
    | none => rfl
    | some l => exact absurd h (by simp [SampleClass.call])
  | setSubstrate l => cases l with
    | none => rfl
    | some l => exact absurd h (by simp [SampleClass.call])
  | addLayer l i => cases l with
    | none => rfl
    | some l => exact addLayer_raises c s l i e h
  | rename i name => cases i with
    | none => rfl
    | some i =>
      unfold SampleClass.call at h ⊢
      cases hg : getItem s.layers i with
      | error e' => simp only [hg]
      | ok l =>
        simp only [hg] at h ⊢
        cases hs : setItem s.layers i { l with name := name } with
        | error e' => simp only [hs]
        | ok ls => simp only [hs] at h; exact absurd h (by simp)
  | swap i j =>
    cases i with
    | none => rfl
    | some i => cases j with
      | none => rfl
      | some j =>
        have hl : (swapLayers s.layers i j).2 = s.layers := by
          obtain ⟨h1, h2⟩ := C03_swap_atomic s.layers i j
          have h' : (swapLayers s.layers i j).1 = .error e := h
          refine (h1.2 fun hv => ?_).2
          rw [h2.2 hv] at h'
          exact absurd h' (by simp)
        simp only [SampleClass.call, hl]
  | move i j =>
    cases i with
    | none => rfl
    | some i => cases j with
      | none => rfl
      | some j => simp only [SampleClass.call, (C03_move_atomic s.layers i j e h).1]
  | fromDict d => exact absurd rfl (hx d)

theorem session_append (c : SampleClass) (s : SampleV K) (xs ys : List (SampleCall K)) :
    c.session s (xs ++ ys) = ((c.session (c.session s xs).1 ys).1, (c.session s xs).2 ++ (c.session (c.session s xs).1 ys).2) := by
  induction xs generalizing s with
  | nil => rfl
  | cons x xs ih => simp only [List.cons_append, SampleClass.session, ih]

/-- C151 (partial): the calls after one that raised end in the same sample and have the same outcomes as without it. Missing: `from_dict`. -/
theorem C151_later_partial (c : SampleClass) (s : SampleV K) (before after : List (SampleCall K)) (x : SampleCall K) (hx : ∀ d, x ≠ .fromDict d) (e : PyErr)
    (h : (c.call (c.session s before).1 x).2 = .error e) :
    (c.session s (before ++ x :: after)).1 = (c.session s (before ++ after)).1 ∧
    (c.session s (before ++ x :: after)).2 = (c.session s before).2 ++ .error e :: (c.session (c.session s before).1 after).2 := by
  have hs := C151_unchanged_partial c _ x hx e h
  simp only [session_append, SampleClass.session, hs, h, and_self]

theorem addDicts_raises (c : SampleClass) (s : SampleV K) (ds : List (LayerDict K)) (e : PyErr) (h : (c.addDicts s ds).2 = .error e) :
    ∃ n ls, n < ds.length ∧ (ds.take n).mapM layerOfDict = .ok ls ∧ (c.addDicts s ds).1 = { s with layers := s.layers ++ ls } := by
  induction ds generalizing s with
  | nil => exact absurd h (by simp [SampleClass.addDicts])
  | cons d ds ih =>
    unfold SampleClass.addDicts at h ⊢
    cases hd : layerOfDict d with
    | error e' => exact ⟨0, [], by simp, rfl, by simp⟩
    | ok l =>
      simp only [hd] at h ⊢
      cases ha : c.addLayer s l .next with
      | mk s' r =>
        cases r with
        | error e' =>
          simp only [ha] at h ⊢
          have := addLayer_raises c s l .next e' (by rw [ha])
          rw [ha] at this
          simp only at this
          exact ⟨0, [], by simp, rfl, by simp [this]⟩
        | ok u =>
          simp only [ha] at h ⊢
          have hs' : s' = { s with layers := s.layers ++ [l] } := by
            cases c with
            | multilayer =>
              simp only [SampleClass.addLayer, Verif.Model.addLayer] at ha
              exact (Prod.mk.inj ha).1.symm
            | onSubstrate =>
              simp only [SampleClass.addLayer, Verif.Model.addLayer] at ha
              split_ifs at ha
              · exact (Prod.mk.inj ha).1.symm
              · exact absurd (Prod.mk.inj ha).2 (by simp)
              · exact (Prod.mk.inj ha).1.symm
          obtain ⟨n, ls, hn, hls, he⟩ := ih s' h
          refine ⟨n + 1, l :: ls, by simpa using hn, ?_, ?_⟩
          · rw [List.take_succ_cons, mapM_cons, hd, hls]; rfl
          · rw [he, hs']; simp

/-- C151: what a call of `from_dict` that raises leaves behind. The ambient layer is the new one as soon as it could be read, the substrate as soon as
both could be read, and the layers read before the one that raised are on top of the old ones. -/
theorem C151_from_dict (c : SampleClass) (s : SampleV K) (d : RawSampleDict K) (e : PyErr) (h : (c.fromRawDict s d).2 = .error e) :
    ((c.fromRawDict s d).1 = s ∧ ∀ da, d.ambient = some da → ∃ e', ambientOfDict da = .error e') ∨
    ∃ da a, d.ambient = some da ∧ ambientOfDict da = .ok a ∧
      (((c.fromRawDict s d).1 = { s with ambient := a } ∧ ∀ db, d.substrate = some db → ∃ e', substrateOfDict db = .error e') ∨
      ∃ db b, d.substrate = some db ∧ substrateOfDict db = .ok b ∧
        ∃ n ls, ((d.layers.getD []).reverse.take n).mapM layerOfDict = .ok ls ∧ (d.layers = none ∨ n < (d.layers.getD []).length) ∧
          (c.fromRawDict s d).1 = ⟨a, b, s.layers ++ ls⟩) := by
  obtain ⟨da, db, ds⟩ := d
  unfold SampleClass.fromRawDict at h ⊢
  cases da with
  | none => exact Or.inl ⟨rfl, by simp⟩
  | some da =>
    simp only at h ⊢
    cases ha : ambientOfDict da with
    | error e' => exact Or.inl ⟨rfl, fun _ hd => ⟨e', by cases hd; exact ha⟩⟩
    | ok a =>
      refine Or.inr ⟨da, a, rfl, ha, ?_⟩
      simp only [ha] at h ⊢
      cases db with
      | none => exact Or.inl ⟨rfl, by simp⟩
      | some db =>
        simp only at h ⊢
        cases hb : substrateOfDict db with
        | error e' => exact Or.inl ⟨rfl, fun _ hd => ⟨e', by cases hd; exact hb⟩⟩
        | ok b =>
          refine Or.inr ⟨db, b, rfl, hb, ?_⟩
          simp only [hb] at h ⊢
          cases ds with
          | none => exact ⟨0, [], rfl, Or.inl rfl, by simp⟩
          | some ds =>
            obtain ⟨n, ls, hn, hls, hr⟩ := addDicts_raises c _ _ e h
            exact ⟨n, ls, hls, Or.inr (by simpa using hn), hr⟩

/-- The layers of a `MultilayerStructure` after a loop of `from_dict` that meets a dictionary it cannot read. -/
theorem addDicts_unreadable {good : List (LayerDict K)} {ls : List (LayerV K)} (hg : good.mapM layerOfDict = .ok ls) {bad : LayerDict K} {e : PyErr}
    (hb : layerOfDict bad = .error e) (rest : List (LayerDict K)) (s : SampleV K) :
    SampleClass.multilayer.addDicts s (good ++ bad :: rest) = ({ s with layers := s.layers ++ ls }, .error e) := by
  induction good generalizing s ls with
  | nil => cases hg; simp [SampleClass.addDicts, hb]
  | cons d ds ih =>
    rw [mapM_cons] at hg
    obtain ⟨l, hl, hg⟩ := bind_eq_ok.1 hg
    obtain ⟨ls', hls, hg⟩ := bind_eq_ok.1 hg
    cases hg
    simp only [List.cons_append, SampleClass.addDicts, hl, SampleClass.addLayer, Verif.Model.addLayer, ih hls, List.append_assoc, List.cons_append,
      List.nil_append]

/-- C151: the full claim is false. A dictionary without substrate raises a `KeyError` and has replaced the ambient layer, and one without layers has also
replaced the substrate; the calls that follow work on the mixture. -/
theorem C151_not_always (c : SampleClass) (s : SampleV K) (da db : LayerDict K) (a b : LayerV K) (ha : ambientOfDict da = .ok a)
    (hb : substrateOfDict db = .ok b) (ds : Option (List (LayerDict K))) (after : List (SampleCall K)) :
    c.session s (.fromDict ⟨some da, none, ds⟩ :: after) =
      ((c.session ⟨a, s.substrate, s.layers⟩ after).1, .error .keyError :: (c.session ⟨a, s.substrate, s.layers⟩ after).2) ∧
    c.session s (.fromDict ⟨some da, some db, none⟩ :: after) =
      ((c.session ⟨a, b, s.layers⟩ after).1, .error .keyError :: (c.session ⟨a, b, s.layers⟩ after).2) := by
  simp only [SampleClass.session, SampleClass.call, SampleClass.fromRawDict, ha, hb, and_self]

/-- C151: a dictionary with a mistake in one layer, then the corrected one, on a new sample: the first call raises, the second returns, but the layers
below the mistake are in the sample twice. -/
theorem C151_leftover (above below : List (LayerDict K)) (bad : LayerDict K) (da db : LayerDict K) (a b : LayerV K) (ha : ambientOfDict da = .ok a)
    (hb : substrateOfDict db = .ok b) (ls : List (LayerV K)) (hls : below.reverse.mapM layerOfDict = .ok ls) (e : PyErr) (hbad : layerOfDict bad = .error e)
    (good : LayerDict K) (l : LayerV K) (hgood : layerOfDict good = .ok l) (ls' : List (LayerV K)) (habove : above.reverse.mapM layerOfDict = .ok ls') :
    SampleClass.multilayer.session SampleV.fresh [.fromDict ⟨some da, some db, some (above ++ good :: below)⟩] = (⟨a, b, ls ++ l :: ls'⟩, [.ok ()]) ∧
    SampleClass.multilayer.session SampleV.fresh
        [.fromDict ⟨some da, some db, some (above ++ bad :: below)⟩, .fromDict ⟨some da, some db, some (above ++ good :: below)⟩] =
      (⟨a, b, ls ++ (ls ++ l :: ls')⟩, [.error e, .ok ()]) := by
  have hall : (above ++ good :: below).reverse.mapM layerOfDict = .ok (ls ++ l :: ls') := by
    rw [mapM_ok_iff] at hls habove ⊢
    rw [List.reverse_append, List.reverse_cons, List.append_assoc]
    exact List.rel_append hls (.cons hgood habove)
  have e1 : (above ++ bad :: below).reverse = below.reverse ++ bad :: above.reverse := by simp
  simp only [SampleClass.session, SampleClass.call, SampleClass.fromRawDict, ha, hb, e1, addDicts_unreadable hls hbad, addDicts_multilayer hall,
    SampleV.fresh, List.nil_append, and_self]

/-! ### Samples and dictionaries that meet the hypotheses -/

/-- A dictionary of an ambient layer, of a substrate, of a layer, and of a layer with a negative thickness. -/
example : ambientOfDict (K := ℚ) ⟨"air".toList, none, none, some (.scalar (.num (.real 0)))⟩ =
      .ok ⟨.ambient, "air".toList, none, none, some (.const (.real 0) (some "sld".toList))⟩ ∧
    (∃ b, substrateOfDict (K := ℚ) ⟨"Si".toList, none, some (.scalar (.num (.real 1))), some (.scalar (.num (.real 20)))⟩ = .ok b) ∧
    (∃ l, layerOfDict (K := ℚ) ⟨"film".toList, some (.iter [.num (.real 20), .num (.real 100)]), some (.scalar (.num (.real 1))), some (.scalar (.num (.real 8)))⟩ = .ok l) ∧
    ∃ e, layerOfDict (K := ℚ) ⟨"film".toList, some (.iter [.num (.real (-20)), .num (.real 100)]), some (.scalar (.num (.real 1))), some (.scalar (.num (.real 8)))⟩ = .error e :=
  ⟨rfl, ⟨_, rfl⟩, ⟨_, rfl⟩, ⟨_, rfl⟩⟩

/-- Calls that raise. -/
example (s : SampleV ℚ) (h : s.layers = []) : ((SampleClass.multilayer.call s (.swap (some 0) (some 1))).2 = .error .indexError) ∧
    (SampleClass.multilayer.call s (.move (some 0) none)).2 = .error .valueError := by
  refine ⟨?_, rfl⟩
  simp only [SampleClass.call, h]; rfl

end Verif.Props
