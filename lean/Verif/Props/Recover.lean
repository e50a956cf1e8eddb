import Verif.Props.FitterCases

/-!
# C147: calls that raise an exception can be repeated

A client of a fitter catches exceptions and carries on. The outcomes of all later calls are compared with those of a client that did not make the call.
-/

namespace Verif.Props
open Verif.Py Verif.Model Verif.Spec

/-- What a client sees of an event. -/
inductive Outcome where
  | silent
  | unit (r : Res Unit)
  | fit (r : Res FitResult)
  | maybe (r : Res (Option FitResult))
  | series (r : Res Series)

/-- An exception was raised. -/
def Outcome.Raised : Outcome → Prop
  | .silent => False
  | .unit r => ∃ e, r = .error e
  | .fit r => ∃ e, r = .error e
  | .maybe r => ∃ e, r = .error e
  | .series r => ∃ e, r = .error e

/-- What a client of a `SpecFitter` sees of an event. -/
noncomputable def specOutcome (limit : Nat) (pf : Str → Option ℝ) (load : Str → Res FitEnv) (s : World × SpecFitter) :
    FitterEvent SpecImport SpecFootprint → Outcome
  | .world _ => .silent
  | .setImport _ => .silent
  | .setFootprint _ => .silent
  | .setFile name => .unit (SpecFitter.setFile limit s.1 s.2 name).2
  | .setModel m p => .unit (s.2.setTrainedModel load m p).2
  | .fit n a d r => .fit (SpecFitter.fit limit pf s.1 s.2 n a d r).2
  | .fitRange ns a d r => .series (SpecFitter.fitRange limit pf s.1 s.2 ns a d r).2

/-- What a client of a `FioFitter` sees of an event. -/
noncomputable def fioOutcome (pf : Str → Option (Option ℝ)) (load : Str → Res FitEnv) (s : World × FioFitter) :
    FitterEvent FioImport FioFootprint → Outcome
  | .world _ => .silent
  | .setImport _ => .silent
  | .setFootprint _ => .silent
  | .setFile name => .unit (FioFitter.setFile pf s.1 s.2 name).2
  | .setModel m p => .unit (s.2.setTrainedModel load m p).2
  | .fit n a d r => .maybe (FioFitter.fit pf s.1 s.2 n a d r).2
  | .fitRange ns a d r => .series (FioFitter.fitRange pf s.1 s.2 ns a d r).2

/-- The outcomes of all events of a trace. -/
def outcomes {S E : Type} (step : S → E → S) (see : S → E → Outcome) (s : S) : List E → List Outcome
  | [] => []
  | e :: l => see s e :: outcomes step see (step s e) l

/-- An object that is no trained model is given to `set_trained_model`. -/
def GivesForeign {I P : Type} : FitterEvent I P → Prop
  | .setModel (some .foreign) none => True
  | _ => False

/-- The scans are read again before every fit. -/
def Reads {I P : Type} : FitterEvent I P → Prop
  | .fit _ _ _ r => r = true
  | .fitRange _ _ _ r => r = true
  | _ => True

theorem outcomes_eq {S E : Type} {step : S → E → S} {see : S → E → Outcome} {ok : E → Prop} {R : S → S → Prop}
    (h : ∀ s s' e, R s s' → ok e → see s e = see s' e ∧ R (step s e) (step s' e)) :
    ∀ (l : List E) (s s' : S), (∀ e ∈ l, ok e) → R s s' → outcomes step see s l = outcomes step see s' l
  | [], _, _, _, _ => rfl
  | e :: l, s, s', hl, hr => by
    obtain ⟨h1, h2⟩ := h s s' e hr (hl e (by simp))
    unfold outcomes
    rw [h1, outcomes_eq h l _ _ (fun e he => hl e (List.mem_cons_of_mem _ he)) h2]

/-! ### SpecFitter -/

/-- Two `SpecFitter` objects that differ at most in the attribute `_loader`, which no method reads. -/
def SpecSame (s s' : World × SpecFitter) : Prop := s.1 = s'.1 ∧ ∃ l, s'.2 = { s.2 with loader := l }

theorem spec_reload_loader (limit : Nat) (w : World) (f : SpecFitter) :
    (∃ l, (SpecFitter.reloadLoader limit w f).1 = { f with loader := l }) := by
  unfold SpecFitter.reloadLoader
  split
  · exact ⟨f.loader, rfl⟩
  · exact ⟨_, rfl⟩

theorem spec_withReload_loader {α : Type} (limit : Nat) (w : World) (f : SpecFitter) (r : Bool) (body : SpecFitter → Res α) :
    ∃ l, (SpecFitter.withReload limit w f r body).1 = { f with loader := l } := by
  unfold SpecFitter.withReload
  split
  · obtain ⟨l, hl⟩ := spec_reload_loader limit w f
    split
    · rename_i h
      rw [h] at hl
      exact ⟨l, hl⟩
    · rename_i h
      rw [h] at hl
      exact ⟨l, hl⟩
  · exact ⟨f.loader, rfl⟩

theorem spec_withReload_same {α : Type} (limit : Nat) (w : World) (f : SpecFitter) (l : Option SpecLoader) (r : Bool) (body : SpecFitter → Res α)
    (hb : ∀ l l' : Option SpecLoader, body { f with loader := l } = body { f with loader := l' }) :
    (SpecFitter.withReload limit w { f with loader := l } r body).2 = (SpecFitter.withReload limit w f r body).2 := by
  unfold SpecFitter.withReload SpecFitter.reloadLoader
  split
  · simp only
    cases newSpecLoader limit w f.fileName f.importParams f.footprint <;> rfl
  · exact hb l f.loader

theorem spec_step_same (limit : Nat) (pf : Str → Option ℝ) (load : Str → Res FitEnv) (s s' : World × SpecFitter)
    (e : FitterEvent SpecImport SpecFootprint) (h : SpecSame s s') :
    specOutcome limit pf load s e = specOutcome limit pf load s' e ∧ SpecSame (SpecFitter.step limit pf load s e) (SpecFitter.step limit pf load s' e) := by
  obtain ⟨w, f⟩ := s
  obtain ⟨w', f'⟩ := s'
  obtain ⟨h1, l, h2⟩ := h
  simp only at h1 h2
  subst h1 h2
  cases e with
  | world v => exact ⟨rfl, rfl, l, rfl⟩
  | setImport i => exact ⟨rfl, rfl, l, rfl⟩
  | setFootprint p => exact ⟨rfl, rfl, l, rfl⟩
  | setFile name =>
    simp only [specOutcome, SpecFitter.step, SpecFitter.setFile]
    cases newSpecLoader limit w (some name) f.importParams f.footprint <;> exact ⟨rfl, rfl, l, rfl⟩
  | setModel m p =>
    simp only [specOutcome, SpecFitter.step]
    unfold Fitter.setTrainedModel
    rcases m with - | (env | -) <;> rcases p with - | p <;> try exact ⟨rfl, rfl, l, rfl⟩
    simp only
    cases load p <;> exact ⟨rfl, rfl, l, rfl⟩
  | fit n a d r =>
    simp only [specOutcome, SpecFitter.step, SpecFitter.fit]
    refine ⟨congrArg Outcome.fit (spec_withReload_same limit w f l r _ fun _ _ => rfl).symm, rfl, ?_⟩
    obtain ⟨l1, e1⟩ := spec_withReload_loader limit w f r fun f' => SpecFitter.fitBody pf f' n a d
    obtain ⟨l2, e2⟩ := spec_withReload_loader limit w { f with loader := l } r fun f' => SpecFitter.fitBody pf f' n a d
    exact ⟨l2, by simp only [e1, e2]⟩
  | fitRange ns a d r =>
    simp only [specOutcome, SpecFitter.step, SpecFitter.fitRange]
    refine ⟨congrArg Outcome.series (spec_withReload_same limit w f l r _ fun _ _ => rfl).symm, rfl, ?_⟩
    obtain ⟨l1, e1⟩ := spec_withReload_loader limit w f r fun f' => SpecFitter.fitRangeBody pf f' ns a d
    obtain ⟨l2, e2⟩ := spec_withReload_loader limit w { f with loader := l } r fun f' => SpecFitter.fitRangeBody pf f' ns a d
    exact ⟨l2, by simp only [e1, e2]⟩

theorem setModel_failed {I P L : Type} (load : Str → Res FitEnv) (f : Fitter I P L) (m : Option ModelArg) (p : Option Str)
    (hf : ¬ GivesForeign (I := I) (P := P) (.setModel m p)) (h : ∃ e, (f.setTrainedModel load m p).2 = .error e) :
    (f.setTrainedModel load m p).1 = f := by
  obtain ⟨e, h⟩ := h
  unfold Fitter.setTrainedModel at h ⊢
  rcases m with - | (env | -) <;> rcases p with - | p <;> try rfl
  · simp only at h ⊢
    cases hl : load p with
    | error x => rfl
    | ok x => rw [hl] at h; cases h
  · cases h
  · exact absurd trivial hf

/-- **C147** (`SpecFitter`): after a call that raises an exception, every sequence of later calls and changes of the files has the outcomes it would have had
without that call, unless the call gave an object that is no model to `set_trained_model`. -/
theorem C147_spec_partial (limit : Nat) (pf : Str → Option ℝ) (load : Str → Res FitEnv) (s : World × SpecFitter) (e : FitterEvent SpecImport SpecFootprint)
    (he : (specOutcome limit pf load s e).Raised) (hf : ¬ GivesForeign e) (later : List (FitterEvent SpecImport SpecFootprint)) :
    outcomes (SpecFitter.step limit pf load) (specOutcome limit pf load) (SpecFitter.step limit pf load s e) later =
      outcomes (SpecFitter.step limit pf load) (specOutcome limit pf load) s later := by
  refine (outcomes_eq (ok := fun _ => True) (R := SpecSame) (fun s s' e h _ => spec_step_same limit pf load s s' e h) later _ _ (fun _ _ => trivial) ?_).symm
  cases e with
  | world v => exact he.elim
  | setImport i => exact he.elim
  | setFootprint p => exact he.elim
  | setFile name =>
    obtain ⟨x, hx⟩ := he
    refine ⟨rfl, s.2.loader, ?_⟩
    simp only [SpecFitter.step]
    unfold SpecFitter.setFile at hx ⊢
    cases hn : newSpecLoader limit s.1 (some name) s.2.importParams s.2.footprint with
    | error y => rfl
    | ok y => rw [hn] at hx; cases hx
  | setModel m p => exact ⟨rfl, s.2.loader, setModel_failed load s.2 m p hf he⟩
  | fit n a d r =>
    obtain ⟨l, hl⟩ := spec_withReload_loader limit s.1 s.2 r fun f' => SpecFitter.fitBody pf f' n a d
    exact ⟨rfl, l, hl⟩
  | fitRange ns a d r =>
    obtain ⟨l, hl⟩ := spec_withReload_loader limit s.1 s.2 r fun f' => SpecFitter.fitRangeBody pf f' ns a d
    exact ⟨rfl, l, hl⟩

/-! ### FioFitter -/

/-- Two `FioFitter` objects that differ at most in the loader. -/
def FioSame (s s' : World × FioFitter) : Prop := s.1 = s'.1 ∧ ∃ l, s'.2 = { s.2 with loader := l }

theorem fio_withReload_loader {α : Type} (pf : Str → Option (Option ℝ)) (w : World) (f : FioFitter) (r : Bool) (body : FioFitter → Res α) :
    (FioFitter.withReload pf w f r body).1 = f ∨ ∃ l, newFioLoader pf w f.fileName f.importParams f.footprint = .ok l ∧
      (FioFitter.withReload pf w f r body).1 = { f with loader := some l } := by
  unfold FioFitter.withReload FioFitter.reloadLoader
  split
  · cases hn : newFioLoader pf w f.fileName f.importParams f.footprint with
    | error e => exact Or.inl rfl
    | ok l => exact Or.inr ⟨l, rfl, rfl⟩
  · exact Or.inl rfl

theorem fio_withReload_same {α : Type} (pf : Str → Option (Option ℝ)) (w : World) (f : FioFitter) (l : Option FioLoader) (body : FioFitter → Res α) :
    (FioFitter.withReload pf w { f with loader := l } true body).2 = (FioFitter.withReload pf w f true body).2 := by
  unfold FioFitter.withReload FioFitter.reloadLoader
  rw [if_pos rfl, if_pos rfl]
  simp only
  cases newFioLoader pf w f.fileName f.importParams f.footprint <;> rfl

theorem fio_step_same (pf : Str → Option (Option ℝ)) (load : Str → Res FitEnv) (s s' : World × FioFitter) (e : FitterEvent FioImport FioFootprint)
    (h : FioSame s s') (hr : Reads e) :
    fioOutcome pf load s e = fioOutcome pf load s' e ∧ FioSame (FioFitter.step pf load s e) (FioFitter.step pf load s' e) := by
  obtain ⟨w, f⟩ := s
  obtain ⟨w', f'⟩ := s'
  obtain ⟨h1, l, h2⟩ := h
  simp only at h1 h2
  subst h1 h2
  cases e with
  | world v => exact ⟨rfl, rfl, l, rfl⟩
  | setImport i => exact ⟨rfl, rfl, l, rfl⟩
  | setFootprint p => exact ⟨rfl, rfl, l, rfl⟩
  | setFile name =>
    simp only [fioOutcome, FioFitter.step, FioFitter.setFile]
    cases newFioLoader pf w (some name) f.importParams f.footprint with
    | error x => exact ⟨rfl, rfl, l, rfl⟩
    | ok x => exact ⟨rfl, rfl, some x, rfl⟩
  | setModel m p =>
    simp only [fioOutcome, FioFitter.step]
    unfold Fitter.setTrainedModel
    rcases m with - | (env | -) <;> rcases p with - | p <;> try exact ⟨rfl, rfl, l, rfl⟩
    simp only
    cases load p <;> exact ⟨rfl, rfl, l, rfl⟩
  | fit n a d r =>
    obtain rfl : r = true := hr
    simp only [fioOutcome, FioFitter.step, FioFitter.fit]
    refine ⟨congrArg Outcome.maybe (fio_withReload_same pf w f l _).symm, rfl, ?_⟩
    rcases fio_withReload_loader pf w f true fun f' => FioFitter.fitBody pf w f' n a d with h | ⟨l1, -, h⟩ <;>
      rcases fio_withReload_loader pf w { f with loader := l } true fun f' => FioFitter.fitBody pf w f' n a d with h' | ⟨l2, -, h'⟩ <;>
      rw [h, h'] <;> exact ⟨_, rfl⟩
  | fitRange ns a d r =>
    obtain rfl : r = true := hr
    simp only [fioOutcome, FioFitter.step, FioFitter.fitRange]
    refine ⟨congrArg Outcome.series (fio_withReload_same pf w f l _).symm, rfl, ?_⟩
    rcases fio_withReload_loader pf w f true fun f' => FioFitter.fitRangeBody pf w f' ns a d with h | ⟨l1, -, h⟩ <;>
      rcases fio_withReload_loader pf w { f with loader := l } true fun f' => FioFitter.fitRangeBody pf w f' ns a d with h' | ⟨l2, -, h'⟩ <;>
      rw [h, h'] <;> exact ⟨_, rfl⟩

/-- **C147** (`FioFitter`, state): a call that raises an exception leaves the fitter as it is, unless it is a fit that has read the scans again with the
present files and settings, which then stay loaded, or an object that is no model was given. -/
theorem C147_fio_state_partial (pf : Str → Option (Option ℝ)) (load : Str → Res FitEnv) (s : World × FioFitter) (e : FitterEvent FioImport FioFootprint)
    (he : (fioOutcome pf load s e).Raised) (hf : ¬ GivesForeign e) :
    FioFitter.step pf load s e = s ∨ ∃ l, newFioLoader pf s.1 s.2.fileName s.2.importParams s.2.footprint = .ok l ∧
      FioFitter.step pf load s e = (s.1, { s.2 with loader := some l }) := by
  cases e with
  | world v => exact he.elim
  | setImport i => exact he.elim
  | setFootprint p => exact he.elim
  | setFile name =>
    obtain ⟨x, hx⟩ := he
    left
    simp only [FioFitter.step]
    unfold FioFitter.setFile at hx ⊢
    cases hn : newFioLoader pf s.1 (some name) s.2.importParams s.2.footprint with
    | error y => rfl
    | ok y => rw [hn] at hx; cases hx
  | setModel m p => exact Or.inl (Prod.ext rfl (setModel_failed load s.2 m p hf he))
  | fit n a d r =>
    rcases fio_withReload_loader pf s.1 s.2 r fun f' => FioFitter.fitBody pf s.1 f' n a d with h | ⟨l, hn, h⟩
    · exact Or.inl (Prod.ext rfl h)
    · exact Or.inr ⟨l, hn, Prod.ext rfl h⟩
  | fitRange ns a d r =>
    rcases fio_withReload_loader pf s.1 s.2 r fun f' => FioFitter.fitRangeBody pf s.1 f' ns a d with h | ⟨l, hn, h⟩
    · exact Or.inl (Prod.ext rfl h)
    · exact Or.inr ⟨l, hn, Prod.ext rfl h⟩

/-- **C147** (`FioFitter`): after a call that raises an exception, every sequence of later calls that read the scans again (the default) has the outcomes it
would have had without that call. -/
theorem C147_fio_partial (pf : Str → Option (Option ℝ)) (load : Str → Res FitEnv) (s : World × FioFitter) (e : FitterEvent FioImport FioFootprint)
    (he : (fioOutcome pf load s e).Raised) (hf : ¬ GivesForeign e) (later : List (FitterEvent FioImport FioFootprint)) (hl : ∀ x ∈ later, Reads x) :
    outcomes (FioFitter.step pf load) (fioOutcome pf load) (FioFitter.step pf load s e) later =
      outcomes (FioFitter.step pf load) (fioOutcome pf load) s later := by
  refine (outcomes_eq (ok := Reads) (R := FioSame) (fun s s' e h hr => fio_step_same pf load s s' e h hr) later _ _ hl ?_).symm
  rcases C147_fio_state_partial pf load s e he hf with h | ⟨l, -, h⟩
  · rw [h]; exact ⟨rfl, s.2.loader, rfl⟩
  · rw [h]; exact ⟨rfl, some l, rfl⟩

/-! ### An object that is no model -/

theorem fitScan_foreign (checked : Bool) (curve : Option FitEnv) (sc : Scan) (a : FitArgs) (d : Draws) :
    ∃ e, fitScan checked (some .foreign) curve sc a d = .error e := by
  unfold fitScan
  cases curve with
  | none => exact ⟨_, rfl⟩
  | some env =>
    simp only
    cases Scan.correctedIntensity { sc with angle := sc.angle.map fun (x : ℝ) => x + a.thetaOffset } with
    | error e => exact ⟨e, rfl⟩
    | ok c =>
      simp only [bind_ok]
      cases Scan.q { sc with angle := sc.angle.map fun (x : ℝ) => x + a.thetaOffset } with
      | error e => exact ⟨e, rfl⟩
      | ok q =>
        simp only [bind_ok]
        cases env.fitCurve [c] q a.options d.shifts d.scalings with
        | error e => exact ⟨e, rfl⟩
        | ok out =>
          simp only [bind_ok]
          cases firstCurve out.refl with
          | error e => exact ⟨e, rfl⟩
          | ok refl =>
            simp only [bind_ok]
            cases firstShift checked out.bestShift with
            | error e => exact ⟨e, rfl⟩
            | ok shift => exact ⟨_, rfl⟩

/-- A model is given. -/
def SetsModel {I P : Type} : FitterEvent I P → Prop
  | .setModel _ _ => True
  | _ => False

/-- **C147** (an object that is no model): the `AttributeError` of `set_trained_model` leaves a fitter that has forgotten its model: whatever it could fit
before, every later `fit` raises until a model is set again. -/
theorem C147_foreign (limit : Nat) (pf : Str → Option ℝ) (load : Str → Res FitEnv) (s : World × SpecFitter)
    (later : List (FitterEvent SpecImport SpecFootprint)) (hl : ∀ x ∈ later, ¬ SetsModel x) (n : Int) (a : FitArgs) (d : Draws) (r : Bool) :
    specOutcome limit pf load s (.setModel (some .foreign) none) = .unit (.error .attributeError) ∧
      (specOutcome limit pf load (later.foldl (SpecFitter.step limit pf load) (SpecFitter.step limit pf load s (.setModel (some .foreign) none)))
        (.fit n a d r)).Raised := by
  refine ⟨rfl, ?_⟩
  have key : ∀ (l : List (FitterEvent SpecImport SpecFootprint)) (t : World × SpecFitter), (∀ x ∈ l, ¬ SetsModel x) → t.2.model = some .foreign →
      (l.foldl (SpecFitter.step limit pf load) t).2.model = some .foreign := by
    intro l
    induction l with
    | nil => exact fun t _ h => h
    | cons x l ih =>
      intro t hx ht
      refine ih _ (fun y hy => hx y (List.mem_cons_of_mem _ hy)) ?_
      cases x with
      | world v => exact ht
      | setImport i => exact ht
      | setFootprint p => exact ht
      | setFile name =>
        simp only [SpecFitter.step, SpecFitter.setFile]
        cases newSpecLoader limit t.1 (some name) t.2.importParams t.2.footprint <;> exact ht
      | setModel m p => exact (hx (.setModel m p) (by simp) trivial).elim
      | fit n a d r =>
        obtain ⟨k, hk⟩ := spec_withReload_loader limit t.1 t.2 r fun f' => SpecFitter.fitBody pf f' n a d
        simp only [SpecFitter.step, SpecFitter.fit, hk]
        exact ht
      | fitRange ns a d r =>
        obtain ⟨k, hk⟩ := spec_withReload_loader limit t.1 t.2 r fun f' => SpecFitter.fitRangeBody pf f' ns a d
        simp only [SpecFitter.step, SpecFitter.fitRange, hk]
        exact ht
  have hm := key later (SpecFitter.step limit pf load s (.setModel (some .foreign) none)) hl rfl
  generalize later.foldl (SpecFitter.step limit pf load) (SpecFitter.step limit pf load s (.setModel (some .foreign) none)) = t at hm
  have body : ∀ f : SpecFitter, f.model = some .foreign → ∃ e, SpecFitter.fitBody pf f n a d = .error e := by
    intro f hf
    unfold SpecFitter.fitBody
    cases SpecFitter.getScan pf f n a with
    | error e => exact ⟨e, rfl⟩
    | ok sc => rw [bind_ok, hf]; exact fitScan_foreign true _ sc a d
  show ∃ e, (SpecFitter.withReload limit t.1 t.2 r fun f' => SpecFitter.fitBody pf f' n a d).2 = .error e
  unfold SpecFitter.withReload SpecFitter.reloadLoader
  split
  · cases newSpecLoader limit t.1 t.2.fileName t.2.importParams t.2.footprint with
    | error e => exact ⟨e, rfl⟩
    | ok l => exact body _ hm
  · exact body _ hm

/-- **C147** is false of the code: there are a fitter, a call that raises and a fit that succeeds before and fails afterwards. -/
theorem C147_not_always (load : Str → Res FitEnv) (d : Draws) : ¬ ∀ (s : World × SpecFitter) (e : FitterEvent SpecImport SpecFootprint),
    (specOutcome 10 intTokens load s e).Raised → ∀ later, outcomes (SpecFitter.step 10 intTokens load) (specOutcome 10 intTokens load)
      (SpecFitter.step 10 intTokens load s e) later = outcomes (SpecFitter.step 10 intTokens load) (specOutcome 10 intTokens load) s later := by
  intro h
  have hs := h (demoWorld demoLines, ⟨some (.trained (toyEnv (prepSample 0 1))), some (toyEnv (prepSample 0 1)), none, none, none,
    some demoLoader, none⟩) (.setModel (some .foreign) none) ⟨_, rfl⟩ [.fit 1 plainArgs d false]
  obtain ⟨r, hr, -⟩ := demo_fit d ⟨some (.trained (toyEnv (prepSample 0 1))), some (toyEnv (prepSample 0 1)), none, none, none,
    some demoLoader, none⟩ rfl rfl rfl
  have hf := (C147_foreign 10 intTokens load (demoWorld demoLines, ⟨some (.trained (toyEnv (prepSample 0 1))), some (toyEnv (prepSample 0 1)), none, none, none,
    some demoLoader, none⟩) [] (by simp) 1 plainArgs d false).2
  have hs := List.head_eq_of_cons_eq hs
  rw [List.foldl_nil, hs] at hf
  obtain ⟨e, he⟩ := hf
  change SpecFitter.fitBody intTokens _ 1 plainArgs d = _ at he
  rw [hr] at he
  cases he

/-- Not vacuous: `set_file` raises because no parameters are set; the fit of a scan that is already loaded succeeds as before. -/
example (load : Str → Res FitEnv) (d : Draws) : ∃ (s : World × SpecFitter) (r : FitResult),
    (specOutcome 10 intTokens load s (.setFile ['x'])).Raised ∧
    outcomes (SpecFitter.step 10 intTokens load) (specOutcome 10 intTokens load) (SpecFitter.step 10 intTokens load s (.setFile ['x'])) [.fit 1 plainArgs d false] =
      [.fit (.ok r)] := by
  obtain ⟨r, hr, -⟩ := demo_fit d ⟨some (.trained (toyEnv (prepSample 0 1))), some (toyEnv (prepSample 0 1)), none, none, none,
    some demoLoader, none⟩ rfl rfl rfl
  refine ⟨(demoWorld demoLines, ⟨some (.trained (toyEnv (prepSample 0 1))), some (toyEnv (prepSample 0 1)), none, none, none,
    some demoLoader, none⟩), r, ⟨_, rfl⟩, ?_⟩
  refine (C147_spec_partial 10 intTokens load _ (.setFile ['x']) ⟨_, rfl⟩ id _).trans ?_
  show [Outcome.fit (SpecFitter.fitBody intTokens _ 1 plainArgs d)] = _
  rw [hr]

end Verif.Props
