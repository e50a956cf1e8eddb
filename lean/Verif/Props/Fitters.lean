import Verif.Spec.Fitters
import Verif.Props.Results
import Verif.Props.CurveFitterCases
import Verif.Props.Interpolation
import Verif.Props.Loaders

/-!
# C59, C64, C68 and C81 to C83: the file fitters
-/

namespace Verif.Props
open Verif.Py Verif.Model Verif.Spec

/-! ### The loaders -/

theorem newSpecLoader_ok (limit : Nat) (w : World) (imp : Option SpecImport) (fp : Option SpecFootprint) (name : Str) :
    (∃ l, newSpecLoader limit w (some name) imp fp = .ok l) ↔ SpecGood limit w imp fp name := by
  unfold newSpecLoader SpecGood
  cases imp with
  | none => simp
  | some i =>
    cases fp with
    | none => simp
    | some f =>
      cases hr : w.read name with
      | none => simp only [hr]; simp
      | some lines =>
        simp only [hr]
        cases hp : SpecParser.init limit lines with
        | error e => simp [hp, bind, Except.bind]
        | ok p => simp [hp, bind, Except.bind, pure, Except.pure]

theorem newFioLoader_ok (pf : Str → Option (Option ℝ)) (w : World) (imp : Option FioImport) (fp : Option FioFootprint) (name : Str) :
    (∃ l, newFioLoader pf w (some name) imp fp = .ok l) ↔ FioGood pf w imp fp name := by
  unfold newFioLoader FioGood
  cases fp with
  | none => simp
  | some f =>
    cases hp : w.scanInfo pf name with
    | error e => simp [hp, bind, Except.bind]
    | ok p => simp [hp, bind, Except.bind, pure, Except.pure]

/-! ### FioFitter -/

theorem fio_withReload_keeps {α : Type} (pf : Str → Option (Option ℝ)) (w : World) (f : FioFitter) (r : Bool) (body : FioFitter → Res α) :
    (FioFitter.withReload pf w f r body).1.importParams = f.importParams ∧
    (FioFitter.withReload pf w f r body).1.footprint = f.footprint ∧
    (FioFitter.withReload pf w f r body).1.fileName = f.fileName ∧
    (FioFitter.withReload pf w f r body).1.model = f.model ∧ (FioFitter.withReload pf w f r body).1.curve = f.curve := by
  unfold FioFitter.withReload FioFitter.reloadLoader
  cases r with
  | false => simp
  | true =>
    cases newFioLoader pf w f.fileName f.importParams f.footprint with
    | error e => simp
    | ok l => simp

theorem setModel_keeps {I P L : Type} (load : Str → Res FitEnv) (f : Fitter I P L) (m : Option ModelArg) (p : Option Str) :
    (f.setTrainedModel load m p).1.importParams = f.importParams ∧ (f.setTrainedModel load m p).1.footprint = f.footprint ∧
    (f.setTrainedModel load m p).1.fileName = f.fileName ∧ (f.setTrainedModel load m p).1.specLoader = f.specLoader := by
  unfold Fitter.setTrainedModel
  rcases m with _ | ⟨env⟩ | _ <;> rcases p with _ | p <;> try simp
  split <;> simp

theorem fio_invariant (pf : Str → Option (Option ℝ)) (load : Str → Res FitEnv) (w : World) (trace : List (FitterEvent FioImport FioFootprint)) :
    let s := trace.foldl (FioFitter.step pf load) (w, {})
    let u := Setup.run (FioGood pf) w trace
    s.1 = u.world ∧ s.2.importParams = u.imp ∧ s.2.footprint = u.fp ∧ s.2.fileName = u.file := by
  have main : ∀ (trace : List (FitterEvent FioImport FioFootprint)) (s : World × FioFitter) (u : Setup FioImport FioFootprint),
      (s.1 = u.world ∧ s.2.importParams = u.imp ∧ s.2.footprint = u.fp ∧ s.2.fileName = u.file) →
      ((trace.foldl (FioFitter.step pf load) s).1 = (trace.foldl (Setup.after (FioGood pf)) u).world ∧
       (trace.foldl (FioFitter.step pf load) s).2.importParams = (trace.foldl (Setup.after (FioGood pf)) u).imp ∧
       (trace.foldl (FioFitter.step pf load) s).2.footprint = (trace.foldl (Setup.after (FioGood pf)) u).fp ∧
       (trace.foldl (FioFitter.step pf load) s).2.fileName = (trace.foldl (Setup.after (FioGood pf)) u).file) := by
    intro trace
    induction trace with
    | nil => exact fun s u h => h
    | cons e trace ih =>
      intro s u h
      rw [List.foldl_cons, List.foldl_cons]
      apply ih
      obtain ⟨h1, h2, h3, h4⟩ := h
      cases e with
      | world w => exact ⟨rfl, h2, h3, h4⟩
      | setImport i => exact ⟨h1, rfl, h3, h4⟩
      | setFootprint p => exact ⟨h1, h2, rfl, h4⟩
      | setModel m p =>
        obtain ⟨k1, k2, k3, -⟩ := setModel_keeps load s.2 m p
        exact ⟨h1, k1.trans h2, k2.trans h3, k3.trans h4⟩
      | fit n a d r =>
        obtain ⟨k1, k2, k3, -⟩ := fio_withReload_keeps pf s.1 s.2 r fun f' => FioFitter.fitBody pf s.1 f' n a d
        exact ⟨h1, k1.trans h2, k2.trans h3, k3.trans h4⟩
      | fitRange ns a d r =>
        obtain ⟨k1, k2, k3, -⟩ := fio_withReload_keeps pf s.1 s.2 r fun f' => FioFitter.fitRangeBody pf s.1 f' ns a d
        exact ⟨h1, k1.trans h2, k2.trans h3, k3.trans h4⟩
      | setFile name =>
        have hg := newFioLoader_ok pf s.1 s.2.importParams s.2.footprint name
        simp only [FioFitter.step, FioFitter.setFile, Setup.after]
        rw [← h1, ← h2, ← h3]
        by_cases hgood : FioGood pf s.1 s.2.importParams s.2.footprint name
        · obtain ⟨l, hl⟩ := hg.2 hgood
          rw [hl, if_pos hgood]
          exact ⟨rfl, rfl, rfl, rfl⟩
        · rw [if_neg hgood]
          cases hl : newFioLoader pf s.1 (some name) s.2.importParams s.2.footprint with
          | error e => exact ⟨h1, h2, h3, h4⟩
          | ok l => exact absurd (hg.1 ⟨l, hl⟩) hgood
  exact main trace (w, {}) ⟨w, none, none, none⟩ ⟨rfl, rfl, rfl, rfl⟩

theorem fio_body_congr (pf : Str → Option (Option ℝ)) (w : World) (f g : FioFitter) (h1 : f.loader = g.loader) (h2 : f.model = g.model)
    (h3 : f.curve = g.curve) :
    (∀ n a d, FioFitter.fitBody pf w f n a d = FioFitter.fitBody pf w g n a d) ∧
    ∀ ns a d, FioFitter.fitRangeBody pf w f ns a d = FioFitter.fitRangeBody pf w g ns a d := by
  have h : ∀ n a d, FioFitter.fitBody pf w f n a d = FioFitter.fitBody pf w g n a d := by
    intro n a d
    unfold FioFitter.fitBody FioFitter.getScan FioFitter.fitLoaded
    rw [h1, h2, h3]
  refine ⟨h, fun ns a d => ?_⟩
  unfold FioFitter.fitRangeBody
  simp only [h]

/-- C59 for `FioFitter`: after every sequence of file changes and calls, successful or not, `fit(..., reload=True)` and
`fit_range(..., reload=True)` are the fit with a loader that is made from the present files with the parameters set last and the file
set last, and it reads the scans from the present files. -/
theorem C59_fio (pf : Str → Option (Option ℝ)) (load : Str → Res FitEnv) (w : World) (trace : List (FitterEvent FioImport FioFootprint)) :
    let s := trace.foldl (FioFitter.step pf load) (w, {})
    let u := Setup.run (FioGood pf) w trace
    s.1 = u.world ∧
    (∀ n a d, (FioFitter.fit pf s.1 s.2 n a d true).2 = (do
      let l ← newFioLoader pf u.world u.file u.imp u.fp
      FioFitter.fitBody pf u.world { model := s.2.model, curve := s.2.curve, loader := some l } n a d)) ∧
    ∀ ns a d, (FioFitter.fitRange pf s.1 s.2 ns a d true).2 = (do
      let l ← newFioLoader pf u.world u.file u.imp u.fp
      FioFitter.fitRangeBody pf u.world { model := s.2.model, curve := s.2.curve, loader := some l } ns a d) := by
  intro s u
  obtain ⟨h1, h2, h3, h4⟩ := fio_invariant pf load w trace
  refine ⟨h1, fun n a d => ?_, fun ns a d => ?_⟩
  · show (FioFitter.fit pf s.1 s.2 n a d true).2 = _
    unfold FioFitter.fit FioFitter.withReload FioFitter.reloadLoader
    rw [if_pos rfl]
    have e1 : s.1 = u.world := h1
    have e2 : s.2.importParams = u.imp := h2
    have e3 : s.2.footprint = u.fp := h3
    have e4 : s.2.fileName = u.file := h4
    rw [e1, e2, e3, e4]
    cases newFioLoader pf u.world u.file u.imp u.fp with
    | error e => rfl
    | ok l => exact (fio_body_congr pf u.world _ _ rfl rfl rfl).1 n a d
  · show (FioFitter.fitRange pf s.1 s.2 ns a d true).2 = _
    unfold FioFitter.fitRange FioFitter.withReload FioFitter.reloadLoader
    rw [if_pos rfl]
    have e1 : s.1 = u.world := h1
    have e2 : s.2.importParams = u.imp := h2
    have e3 : s.2.footprint = u.fp := h3
    have e4 : s.2.fileName = u.file := h4
    rw [e1, e2, e3, e4]
    cases newFioLoader pf u.world u.file u.imp u.fp with
    | error e => rfl
    | ok l => exact (fio_body_congr pf u.world _ _ rfl rfl rfl).2 ns a d

/-! ### SpecFitter -/

theorem spec_withReload_keeps {α : Type} (limit : Nat) (w : World) (f : SpecFitter) (r : Bool) (body : SpecFitter → Res α) :
    (SpecFitter.withReload limit w f r body).1.importParams = f.importParams ∧
    (SpecFitter.withReload limit w f r body).1.footprint = f.footprint ∧
    (SpecFitter.withReload limit w f r body).1.fileName = f.fileName ∧
    (SpecFitter.withReload limit w f r body).1.specLoader = f.specLoader ∧
    (SpecFitter.withReload limit w f r body).1.model = f.model ∧ (SpecFitter.withReload limit w f r body).1.curve = f.curve := by
  unfold SpecFitter.withReload SpecFitter.reloadLoader
  cases r with
  | false => simp
  | true =>
    cases newSpecLoader limit w f.fileName f.importParams f.footprint with
    | error e => simp
    | ok l => simp

/-- The loader made under the circumstances of the last successful `set_file`. -/
def Snapshot (limit : Nat) (u : Setup SpecImport SpecFootprint) (l : Option SpecLoader) : Prop :=
  match u.loaded with
  | none => l = none
  | some x => ∃ l', newSpecLoader limit x.1 (some x.2.2.2) x.2.1 x.2.2.1 = .ok l' ∧ l = some l'

theorem spec_invariant (limit : Nat) (pf : Str → Option ℝ) (load : Str → Res FitEnv) (w : World)
    (trace : List (FitterEvent SpecImport SpecFootprint)) :
    let s := trace.foldl (SpecFitter.step limit pf load) (w, {})
    let u := Setup.run (SpecGood limit) w trace
    s.1 = u.world ∧ s.2.importParams = u.imp ∧ s.2.footprint = u.fp ∧ s.2.fileName = u.file ∧ Snapshot limit u s.2.specLoader := by
  have main : ∀ (trace : List (FitterEvent SpecImport SpecFootprint)) (s : World × SpecFitter) (u : Setup SpecImport SpecFootprint),
      (s.1 = u.world ∧ s.2.importParams = u.imp ∧ s.2.footprint = u.fp ∧ s.2.fileName = u.file ∧ Snapshot limit u s.2.specLoader) →
      ((trace.foldl (SpecFitter.step limit pf load) s).1 = (trace.foldl (Setup.after (SpecGood limit)) u).world ∧
       (trace.foldl (SpecFitter.step limit pf load) s).2.importParams = (trace.foldl (Setup.after (SpecGood limit)) u).imp ∧
       (trace.foldl (SpecFitter.step limit pf load) s).2.footprint = (trace.foldl (Setup.after (SpecGood limit)) u).fp ∧
       (trace.foldl (SpecFitter.step limit pf load) s).2.fileName = (trace.foldl (Setup.after (SpecGood limit)) u).file ∧
       Snapshot limit (trace.foldl (Setup.after (SpecGood limit)) u) (trace.foldl (SpecFitter.step limit pf load) s).2.specLoader) := by
    intro trace
    induction trace with
    | nil => exact fun s u h => h
    | cons e trace ih =>
      intro s u h
      rw [List.foldl_cons, List.foldl_cons]
      apply ih
      obtain ⟨h1, h2, h3, h4, h5⟩ := h
      cases e with
      | world w => exact ⟨rfl, h2, h3, h4, h5⟩
      | setImport i => exact ⟨h1, rfl, h3, h4, h5⟩
      | setFootprint p => exact ⟨h1, h2, rfl, h4, h5⟩
      | setModel m p =>
        obtain ⟨k1, k2, k3, k4⟩ := setModel_keeps load s.2 m p
        exact ⟨h1, k1.trans h2, k2.trans h3, k3.trans h4, by simp only [SpecFitter.step]; rw [k4]; exact h5⟩
      | fit n a d r =>
        obtain ⟨k1, k2, k3, k4, -⟩ := spec_withReload_keeps limit s.1 s.2 r fun f' => SpecFitter.fitBody pf f' n a d
        exact ⟨h1, k1.trans h2, k2.trans h3, k3.trans h4, by simp only [SpecFitter.step, SpecFitter.fit]; rw [k4]; exact h5⟩
      | fitRange ns a d r =>
        obtain ⟨k1, k2, k3, k4, -⟩ := spec_withReload_keeps limit s.1 s.2 r fun f' => SpecFitter.fitRangeBody pf f' ns a d
        exact ⟨h1, k1.trans h2, k2.trans h3, k3.trans h4, by simp only [SpecFitter.step, SpecFitter.fitRange]; rw [k4]; exact h5⟩
      | setFile name =>
        have hg := newSpecLoader_ok limit s.1 s.2.importParams s.2.footprint name
        simp only [SpecFitter.step, SpecFitter.setFile, Setup.after]
        rw [← h1, ← h2, ← h3]
        by_cases hgood : SpecGood limit s.1 s.2.importParams s.2.footprint name
        · obtain ⟨l, hl⟩ := hg.2 hgood
          rw [hl, if_pos hgood]
          exact ⟨rfl, rfl, rfl, rfl, l, hl, rfl⟩
        · rw [if_neg hgood]
          cases hl : newSpecLoader limit s.1 (some name) s.2.importParams s.2.footprint with
          | error e => exact ⟨h1, h2, h3, h4, h5⟩
          | ok l => exact absurd (hg.1 ⟨l, hl⟩) hgood
  exact main trace (w, {}) ⟨w, none, none, none⟩ ⟨rfl, rfl, rfl, rfl, rfl⟩

theorem spec_body_congr (pf : Str → Option ℝ) (f g : SpecFitter) (h1 : f.specLoader = g.specLoader) (h2 : f.model = g.model)
    (h3 : f.curve = g.curve) :
    (∀ n a d, SpecFitter.fitBody pf f n a d = SpecFitter.fitBody pf g n a d) ∧
    ∀ ns a d, SpecFitter.fitRangeBody pf f ns a d = SpecFitter.fitRangeBody pf g ns a d := by
  refine ⟨fun n a d => ?_, fun ns a d => ?_⟩
  · unfold SpecFitter.fitBody SpecFitter.getScan
    rw [h1, h2, h3]
  · unfold SpecFitter.fitRangeBody
    rw [h1, h2, h3]

/-- C59 for `SpecFitter`, what is really fitted: after every sequence of file changes and calls, `fit(..., reload=True)` reads the
present file with the present parameters, raising if that fails, and then fits with the loader of the last successful `set_file`:
the file content and the parameters of that time. Missing: the present content and parameters (`C59_false`). -/
theorem C59_spec_partial (limit : Nat) (pf : Str → Option ℝ) (load : Str → Res FitEnv) (w : World)
    (trace : List (FitterEvent SpecImport SpecFootprint)) :
    let s := trace.foldl (SpecFitter.step limit pf load) (w, {})
    let u := Setup.run (SpecGood limit) w trace
    (u.loaded = none → ∀ n a d, (SpecFitter.fit limit pf s.1 s.2 n a d true).2 = .error .typeError) ∧
    ∀ w' i' p' name, u.loaded = some (w', i', p', name) →
      (∀ n a d, (SpecFitter.fit limit pf s.1 s.2 n a d true).2 = (do
        let _ ← newSpecLoader limit u.world (some name) u.imp u.fp
        let l ← newSpecLoader limit w' (some name) i' p'
        SpecFitter.fitBody pf { model := s.2.model, curve := s.2.curve, specLoader := some l } n a d)) ∧
      ∀ ns a d, (SpecFitter.fitRange limit pf s.1 s.2 ns a d true).2 = (do
        let _ ← newSpecLoader limit u.world (some name) u.imp u.fp
        let l ← newSpecLoader limit w' (some name) i' p'
        SpecFitter.fitRangeBody pf { model := s.2.model, curve := s.2.curve, specLoader := some l } ns a d) := by
  intro s u
  obtain ⟨h1, h2, h3, h4, h5⟩ := spec_invariant limit pf load w trace
  have e1 : s.1 = u.world := h1
  have e2 : s.2.importParams = u.imp := h2
  have e3 : s.2.footprint = u.fp := h3
  have e4 : s.2.fileName = u.file := h4
  have e5 : Snapshot limit u s.2.specLoader := h5
  refine ⟨fun h n a d => ?_, fun w' i' p' name h => ⟨fun n a d => ?_, fun ns a d => ?_⟩⟩
  · unfold SpecFitter.fit SpecFitter.withReload SpecFitter.reloadLoader
    have hn : u.file = none := by unfold Setup.file; rw [h]; rfl
    have : newSpecLoader limit s.1 s.2.fileName s.2.importParams s.2.footprint = .error .typeError := by
      rw [e4, hn]
      unfold newSpecLoader
      rcases s.2.importParams with _ | i <;> rcases s.2.footprint with _ | p <;> rfl
    rw [if_pos rfl, this]
  · unfold Snapshot at e5
    rw [h] at e5
    obtain ⟨l, k1, k2⟩ := e5
    simp only at k1
    unfold SpecFitter.fit SpecFitter.withReload SpecFitter.reloadLoader
    have hn : u.file = some name := by unfold Setup.file; rw [h]; rfl
    rw [if_pos rfl, e1, e2, e3, e4, hn]
    cases newSpecLoader limit u.world (some name) u.imp u.fp with
    | error e => rfl
    | ok l' =>
      simp only [bind_ok]
      rw [k1, bind_ok]
      refine (spec_body_congr pf _ _ ?_ ?_ ?_).1 n a d
      · exact k2
      · rfl
      · rfl
  · unfold Snapshot at e5
    rw [h] at e5
    obtain ⟨l, k1, k2⟩ := e5
    simp only at k1
    unfold SpecFitter.fitRange SpecFitter.withReload SpecFitter.reloadLoader
    have hn : u.file = some name := by unfold Setup.file; rw [h]; rfl
    rw [if_pos rfl, e1, e2, e3, e4, hn]
    cases newSpecLoader limit u.world (some name) u.imp u.fp with
    | error e => rfl
    | ok l' =>
      simp only [bind_ok]
      rw [k1, bind_ok]
      refine (spec_body_congr pf _ _ ?_ ?_ ?_).2 ns a d
      · exact k2
      · rfl
      · rfl

/-- C59 for `SpecFitter` as long as neither the file nor the parameters change after the last successful `set_file`: then the fit
is the one with a loader that is made now. -/
theorem C59_spec_unchanged_partial (limit : Nat) (pf : Str → Option ℝ) (load : Str → Res FitEnv) (w : World)
    (trace : List (FitterEvent SpecImport SpecFootprint)) :
    let s := trace.foldl (SpecFitter.step limit pf load) (w, {})
    let u := Setup.run (SpecGood limit) w trace
    ∀ w' name, u.loaded = some (w', u.imp, u.fp, name) → w'.read name = u.world.read name →
      ∀ n a d, (SpecFitter.fit limit pf s.1 s.2 n a d true).2 = (do
        let l ← newSpecLoader limit u.world (some name) u.imp u.fp
        SpecFitter.fitBody pf { model := s.2.model, curve := s.2.curve, specLoader := some l } n a d) := by
  intro s u w' name h hr n a d
  have := (C59_spec_partial limit pf load w trace).2 w' u.imp u.fp name h
  have h1 := this.1 n a d
  refine h1.trans ?_
  have he : newSpecLoader limit w' (some name) u.imp u.fp = newSpecLoader limit u.world (some name) u.imp u.fp := by
    unfold newSpecLoader
    rcases u.imp with _ | i <;> rcases u.fp with _ | p <;> simp only
    rw [hr]
  have e : newSpecLoader limit w' (some name) (Setup.run (SpecGood limit) w trace).imp (Setup.run (SpecGood limit) w trace).fp =
    newSpecLoader limit u.world (some name) u.imp u.fp := he
  show (newSpecLoader limit u.world (some name) u.imp u.fp >>= fun _ => newSpecLoader limit w' (some name) u.imp u.fp >>= _) = _
  rw [he]
  cases newSpecLoader limit u.world (some name) u.imp u.fp <;> rfl

/-- C59 is false for `SpecFitter`: whatever the files and the parameters are changed to after `set_file`, as long as they can be read,
`fit(..., reload=True)` is the same as without the changes. -/
theorem C59_spec_stale (limit : Nat) (pf : Str → Option ℝ) (w w' : World) (f : SpecFitter) (name : Str) (i : SpecImport)
    (p : SpecFootprint) (hf : f.fileName = some name) (h : SpecGood limit w f.importParams f.footprint name)
    (h' : SpecGood limit w' (some i) (some p) name) (n : Int) (a : FitArgs) (d : Draws) :
    (SpecFitter.fit limit pf w' ((f.setImport i).setFootprint p) n a d true).2 = (SpecFitter.fit limit pf w f n a d true).2 := by
  obtain ⟨l, hl⟩ := (newSpecLoader_ok limit w f.importParams f.footprint name).2 h
  obtain ⟨l', hl'⟩ := (newSpecLoader_ok limit w' (some i) (some p) name).2 h'
  have e1 : (SpecFitter.fit limit pf w f n a d true).2 = SpecFitter.fitBody pf f n a d := by
    unfold SpecFitter.fit SpecFitter.withReload SpecFitter.reloadLoader
    rw [if_pos rfl, hf, hl]
    exact (spec_body_congr pf _ _ rfl rfl rfl).1 n a d
  rw [e1]
  unfold SpecFitter.fit SpecFitter.withReload SpecFitter.reloadLoader
  have : newSpecLoader limit w' ((f.setImport i).setFootprint p).fileName ((f.setImport i).setFootprint p).importParams
      ((f.setImport i).setFootprint p).footprint = .ok l' := by
    show newSpecLoader limit w' f.fileName (some i) (some p) = _
    rw [hf, hl']
  rw [if_pos rfl, this]
  exact (spec_body_congr pf _ _ rfl rfl rfl).1 n a d

/-! ### The trained model -/

/-- C68, one call: it raises if both or neither of the arguments are given, and then nothing changes; a file that cannot be loaded
raises, and nothing changes; an accepted model is used by the fitter and by its curve fitter. Nothing else of the fitter changes. -/
theorem C68_step_partial {I P L : Type} (load : Str → Res FitEnv) (f : Fitter I P L) (m : Option ModelArg) (p : Option Str) :
    ((m = none ↔ p = none) → f.setTrainedModel load m p = (f, .error .valueError)) ∧
    (∀ path e, m = none → p = some path → load path = .error e → f.setTrainedModel load m p = (f, .error e)) ∧
    (∀ env, AcceptedModel load m p env →
      f.setTrainedModel load m p = ({ f with model := some (.trained env), curve := some env }, .ok ())) ∧
    ((f.setTrainedModel load m p).2 = .ok () ↔ ∃ env, AcceptedModel load m p env) := by
  refine ⟨?_, ?_, ?_, ?_⟩
  · intro h
    unfold Fitter.setTrainedModel
    rcases m with _ | m <;> rcases p with _ | p <;> simp at h ⊢
  · rintro path e rfl rfl he
    unfold Fitter.setTrainedModel
    simp only
    rw [he]
  · rintro env (⟨rfl, rfl⟩ | ⟨rfl, path, rfl, he⟩)
    · rfl
    · unfold Fitter.setTrainedModel
      simp only
      rw [he]
  · unfold Fitter.setTrainedModel AcceptedModel
    rcases m with _ | ⟨env⟩ | _ <;> rcases p with _ | p <;> try simp
    cases load p <;> simp

/-- C68: with an object that is no trained model the call raises after the model has been replaced, and the curve fitter keeps the
old one. -/
theorem C68_foreign {I P L : Type} (load : Str → Res FitEnv) (f : Fitter I P L) :
    f.setTrainedModel load (some .foreign) none = ({ f with model := some .foreign }, .error .attributeError) := rfl

/-- C68 is false: a rejected call changes the fitter. -/
theorem C68_false {I P L : Type} (load : Str → Res FitEnv) (f : Fitter I P L) (env : FitEnv) (h : f.model = some (.trained env)) :
    ∃ e, (f.setTrainedModel load (some .foreign) none).2 = .error e ∧ (f.setTrainedModel load (some .foreign) none).1 ≠ f := by
  refine ⟨_, rfl, fun h' => ?_⟩
  have := congrArg Fitter.model h'
  rw [h] at this
  exact absurd this (by simp [Fitter.setTrainedModel])

theorem setModel_consistent {I P L : Type} (load : Str → Res FitEnv) (f : Fitter I P L) (m : Option ModelArg) (p : Option Str)
    (hm : m ≠ some .foreign) (h : f.model = f.curve.map ModelArg.trained) :
    (f.setTrainedModel load m p).1.model = (f.setTrainedModel load m p).1.curve.map ModelArg.trained := by
  unfold Fitter.setTrainedModel
  rcases m with _ | ⟨env⟩ | _ <;> rcases p with _ | p
  · exact h
  · cases hl : load p with
    | error e => simpa [hl] using h
    | ok env => simp [hl]
  · rfl
  · exact h
  · exact absurd rfl hm
  · exact absurd rfl hm

/-- C68, all executions: as long as only trained models are given, the fitter and its curve fitter refer to the same model after
every sequence of events, or neither has one. -/
theorem C68_consistent (limit : Nat) (pf : Str → Option ℝ) (pf' : Str → Option (Option ℝ)) (load : Str → Res FitEnv) (w : World) :
    (∀ trace, NoForeign trace → (trace.foldl (SpecFitter.step limit pf load) (w, {})).2.model =
      (trace.foldl (SpecFitter.step limit pf load) (w, {})).2.curve.map ModelArg.trained) ∧
    ∀ trace, NoForeign trace → (trace.foldl (FioFitter.step pf' load) (w, {})).2.model =
      (trace.foldl (FioFitter.step pf' load) (w, {})).2.curve.map ModelArg.trained := by
  constructor
  · have main : ∀ (trace : List (FitterEvent SpecImport SpecFootprint)) (s : World × SpecFitter), NoForeign trace →
        s.2.model = s.2.curve.map ModelArg.trained →
        (trace.foldl (SpecFitter.step limit pf load) s).2.model = (trace.foldl (SpecFitter.step limit pf load) s).2.curve.map ModelArg.trained := by
      intro trace
      induction trace with
      | nil => exact fun s _ h => h
      | cons e trace ih =>
        intro s hn h
        rw [List.foldl_cons]
        refine ih _ (fun p hp => hn p (List.mem_cons_of_mem _ hp)) ?_
        cases e with
        | world w => exact h
        | setImport i => exact h
        | setFootprint p => exact h
        | setModel m p =>
          refine setModel_consistent load s.2 m p ?_ h
          rintro rfl
          exact hn p (List.mem_cons_self ..)
        | fit n a d r =>
          obtain ⟨-, -, -, -, k1, k2⟩ := spec_withReload_keeps limit s.1 s.2 r fun f' => SpecFitter.fitBody pf f' n a d
          simp only [SpecFitter.step, SpecFitter.fit]
          rw [k1, k2, h]
        | fitRange ns a d r =>
          obtain ⟨-, -, -, -, k1, k2⟩ := spec_withReload_keeps limit s.1 s.2 r fun f' => SpecFitter.fitRangeBody pf f' ns a d
          simp only [SpecFitter.step, SpecFitter.fitRange]
          rw [k1, k2, h]
        | setFile name =>
          simp only [SpecFitter.step, SpecFitter.setFile]
          cases newSpecLoader limit s.1 (some name) s.2.importParams s.2.footprint <;> exact h
    exact fun trace hn => main trace (w, {}) hn rfl
  · have main : ∀ (trace : List (FitterEvent FioImport FioFootprint)) (s : World × FioFitter), NoForeign trace →
        s.2.model = s.2.curve.map ModelArg.trained →
        (trace.foldl (FioFitter.step pf' load) s).2.model = (trace.foldl (FioFitter.step pf' load) s).2.curve.map ModelArg.trained := by
      intro trace
      induction trace with
      | nil => exact fun s _ h => h
      | cons e trace ih =>
        intro s hn h
        rw [List.foldl_cons]
        refine ih _ (fun p hp => hn p (List.mem_cons_of_mem _ hp)) ?_
        cases e with
        | world w => exact h
        | setImport i => exact h
        | setFootprint p => exact h
        | setModel m p =>
          refine setModel_consistent load s.2 m p ?_ h
          rintro rfl
          exact hn p (List.mem_cons_self ..)
        | fit n a d r =>
          obtain ⟨-, -, -, k1, k2⟩ := fio_withReload_keeps pf' s.1 s.2 r fun f' => FioFitter.fitBody pf' s.1 f' n a d
          simp only [FioFitter.step, FioFitter.fit]
          rw [k1, k2, h]
        | fitRange ns a d r =>
          obtain ⟨-, -, -, k1, k2⟩ := fio_withReload_keeps pf' s.1 s.2 r fun f' => FioFitter.fitRangeBody pf' s.1 f' ns a d
          simp only [FioFitter.step, FioFitter.fitRange]
          rw [k1, k2, h]
        | setFile name =>
          simp only [FioFitter.step, FioFitter.setFile]
          cases newFioLoader pf' s.1 (some name) s.2.importParams s.2.footprint <;> exact h
    exact fun trace hn => main trace (w, {}) hn rfl

/-! ### Results of fits -/

theorem fitScan_ok {checked : Bool} {model : Option ModelArg} {curve : Option FitEnv} {scan : Scan} {a : FitArgs} {d : Draws} {r : FitResult}
    (h : fitScan checked model curve scan a d = .ok r) :
    ∃ env m c q out refl shift, curve = some env ∧ model = some (.trained m) ∧
      Scan.correctedIntensity { scan with angle := scan.angle.map fun (x : ℝ) => x + a.thetaOffset } = .ok c ∧
      Scan.q { scan with angle := scan.angle.map fun (x : ℝ) => x + a.thetaOffset } = .ok q ∧
      env.fitCurve [c] q a.options d.shifts d.scalings = .ok out ∧ firstCurve out.refl = .ok refl ∧
      firstShift checked out.bestShift = .ok shift ∧ out.params.rows = 1 ∧
      r = ⟨scan.number, scan.timestamp, c, q, refl, m.trainedQ.map fun (x : ℝ) => x - a.dq, out.params, shift, m.sample⟩ := by
  unfold fitScan at h
  cases curve with
  | none => cases h
  | some env =>
    simp only at h
    obtain ⟨c, h1, h⟩ := bind_eq_ok.1 h
    obtain ⟨q, h2, h⟩ := bind_eq_ok.1 h
    obtain ⟨out, h3, h⟩ := bind_eq_ok.1 h
    obtain ⟨refl, h4, h⟩ := bind_eq_ok.1 h
    obtain ⟨shift, h5, h⟩ := bind_eq_ok.1 h
    unfold makeResult at h
    rcases model with _ | ⟨m⟩ | _
    · cases h
    · simp only at h
      split at h
      · rename_i hr
        simp only [Except.ok.injEq] at h
        exact ⟨env, m, c, q, out, refl, shift, rfl, rfl, h1, h2, h3, h4, h5, hr, h.symm⟩
      · cases h
    · cases h

theorem fitLoaded_ok {f : FioFitter} {s : Scan} {a : FitArgs} {d : Draws} {r : FitResult}
    (h : FioFitter.fitLoaded f (some s) a d = .ok (some r)) :
    fitScan false f.model f.curve s { a with optimizeScaling := false } d = .ok r := by
  unfold FioFitter.fitLoaded at h
  simp only at h
  split at h
  · rename_i r' hr
    simp only [Except.ok.injEq, Option.some.injEq] at h
    rw [hr, h]
  · cases h

/-- C64 for a loaded scan. -/
theorem C64_scan {checked : Bool} {env : FitEnv} {scan : Scan} {a : FitArgs} {d : Draws} {r : FitResult}
    (hf : a.factor = 1) (hp : a.polish = false) (ho : ¬ (a.optimizeQ = true ∧ a.optimizeScaling = true))
    (h : fitScan checked (some (.trained env)) (some env) scan a d = .ok r) :
    ∃ row, r.interpolated = .ok row ∧ env.networkInput [r.corrected] r.qInput a.dq a.factor = .ok [row] ∧
      env.predict [row] = .ok r.params := by
  obtain ⟨env', m, c, q, out, refl, shift, e1, e2, -, -, h3, -, -, -, rfl⟩ := fitScan_ok h
  simp only [Option.some.injEq, ModelArg.trained.injEq] at e1 e2
  subst e1
  subst e2
  obtain ⟨rows, k1, k2⟩ := C60_plain env [c] q a.options d.shifts d.scalings out ho hp h3
  have hin : env.networkInput [c] q a.dq a.factor =
      (interpReflectivity (env.trainedQ.map fun (x : ℝ) => x - a.dq) q c).bind fun row => .ok [row] := by
    unfold FitEnv.networkInput FitEnv.interpolate
    rw [hf]
    simp only [mul_one, List.map_id', List.map_cons, List.map_nil]
    rw [mapM_cons, C43_shift]
    cases interpReflectivity (env.trainedQ.map fun (x : ℝ) => x - a.dq) q c <;> rfl
  have k1' : env.networkInput [c] q a.dq a.factor = .ok rows := k1
  rw [hin] at k1'
  cases hi : interpReflectivity (env.trainedQ.map fun (x : ℝ) => x - a.dq) q c with
  | error e => rw [hi] at k1'; cases k1'
  | ok row =>
    rw [hi] at k1'
    have hrow : [row] = rows := by simpa [Except.bind] using k1'
    refine ⟨row, hi, ?_, ?_⟩
    · rw [hin, hi]; rfl
    · rw [hrow]; exact k2

/-- C64: in every execution in which only trained models are given, the interpolated reflectivity of the result of a successful fit
without refinement and with factor 1 is the curve that was given to the network for it, and the parameters of the result are the
prediction for that curve. This holds for every q shift, for both fitters. -/
theorem C64_network_input (limit : Nat) (pf : Str → Option ℝ) (pf' : Str → Option (Option ℝ)) (load : Str → Res FitEnv) (w : World)
    (n : Int) (a : FitArgs) (d : Draws) (reload : Bool) (r : FitResult) (hf : a.factor = 1) (hp : a.polish = false) :
    (∀ trace, NoForeign trace → ¬ (a.optimizeQ = true ∧ a.optimizeScaling = true) →
      (SpecFitter.fit limit pf (trace.foldl (SpecFitter.step limit pf load) (w, {})).1
        (trace.foldl (SpecFitter.step limit pf load) (w, {})).2 n a d reload).2 = .ok r →
      ∃ env row, (trace.foldl (SpecFitter.step limit pf load) (w, {})).2.model = some (.trained env) ∧ r.interpolated = .ok row ∧
        env.networkInput [r.corrected] r.qInput a.dq a.factor = .ok [row] ∧ env.predict [row] = .ok r.params) ∧
    ∀ trace, NoForeign trace →
      (FioFitter.fit pf' (trace.foldl (FioFitter.step pf' load) (w, {})).1
        (trace.foldl (FioFitter.step pf' load) (w, {})).2 n a d reload).2 = .ok (some r) →
      ∃ env row, (trace.foldl (FioFitter.step pf' load) (w, {})).2.model = some (.trained env) ∧ r.interpolated = .ok row ∧
        env.networkInput [r.corrected] r.qInput a.dq a.factor = .ok [row] ∧ env.predict [row] = .ok r.params := by
  constructor
  · intro trace hn ho h
    have hc := (C68_consistent limit pf pf' load w).1 trace hn
    generalize trace.foldl (SpecFitter.step limit pf load) (w, {}) = s at h hc ⊢
    have hb : ∃ f : SpecFitter, f.model = s.2.model ∧ f.curve = s.2.curve ∧ SpecFitter.fitBody pf f n a d = .ok r := by
      unfold SpecFitter.fit SpecFitter.withReload SpecFitter.reloadLoader at h
      cases reload with
      | false => exact ⟨s.2, rfl, rfl, h⟩
      | true =>
        rw [if_pos rfl] at h
        cases hl : newSpecLoader limit s.1 s.2.fileName s.2.importParams s.2.footprint with
        | error e => rw [hl] at h; cases h
        | ok l => rw [hl] at h; exact ⟨_, rfl, rfl, h⟩
    obtain ⟨f, f1, f2, hb⟩ := hb
    obtain ⟨scan, -, hs⟩ := bind_eq_ok.1 hb
    obtain ⟨env, m, c, q, out, refl, shift, e1, e2, -⟩ := fitScan_ok hs
    have hm : f.model = some (.trained env) := by rw [f1, hc, ← f2, e1]; rfl
    rw [hm, e1] at hs
    obtain ⟨row, g1, g2, g3⟩ := C64_scan hf hp ho hs
    exact ⟨env, row, f1 ▸ hm, g1, g2, g3⟩
  · intro trace hn h
    have hc := (C68_consistent limit pf pf' load w).2 trace hn
    generalize trace.foldl (FioFitter.step pf' load) (w, {}) = s at h hc ⊢
    have hb : ∃ f : FioFitter, f.model = s.2.model ∧ f.curve = s.2.curve ∧ FioFitter.fitBody pf' s.1 f n a d = .ok (some r) := by
      unfold FioFitter.fit FioFitter.withReload FioFitter.reloadLoader at h
      cases reload with
      | false => exact ⟨s.2, rfl, rfl, h⟩
      | true =>
        rw [if_pos rfl] at h
        cases hl : newFioLoader pf' s.1 s.2.fileName s.2.importParams s.2.footprint with
        | error e => rw [hl] at h; cases h
        | ok l => rw [hl] at h; exact ⟨{ s.2 with loader := some l }, rfl, rfl, h⟩
    obtain ⟨f, f1, f2, hb⟩ := hb
    obtain ⟨scan, -, hs⟩ := bind_eq_ok.1 hb
    cases scan with
    | none => cases hs
    | some sc =>
      replace hs := fitLoaded_ok hs
      obtain ⟨env, m, c, q, out, refl, shift, e1, e2, -⟩ := fitScan_ok hs
      have hm : f.model = some (.trained env) := by rw [f1, hc, ← f2, e1]; rfl
      rw [hm, e1] at hs
      obtain ⟨row, g1, g2, g3⟩ := C64_scan (a := { a with optimizeScaling := false }) hf hp (by simp) hs
      exact ⟨env, row, f1 ▸ hm, g1, g2, g3⟩

/-- C59, the loader of a `SpecFitter`: it parses the present content of the file, and every setting is the one of the parameter
with this name. -/
theorem C59_spec_loader (limit : Nat) (w : World) (file : Option Str) (imp : Option SpecImport) (fp : Option SpecFootprint) (l : SpecLoader)
    (h : newSpecLoader limit w file imp fp = .ok l) :
    ∃ name lines i f, file = some name ∧ w.read name = some lines ∧ imp = some i ∧ fp = some f ∧
      SpecParser.init limit lines = .ok l.parser ∧
      l.angleColumns = i.angleColumns ∧ l.intensityColumn = i.intensityColumn ∧ l.attenuatorColumn = i.attenuatorColumn ∧
      l.divisionColumn = i.divisionColumn ∧ l.wavelength = f.wavelength ∧ l.beamWidth = f.beamWidth ∧
      l.sampleLength = f.sampleLength ∧ l.beamShape = f.beamShape ∧ l.normalizeTo = f.normalizeTo := by
  cases imp with
  | none => cases h
  | some i =>
    cases fp with
    | none => cases h
    | some f =>
      cases file with
      | none => cases h
      | some name =>
        unfold newSpecLoader at h
        simp only at h
        cases hr : w.read name with
        | none => rw [hr] at h; cases h
        | some lines =>
          rw [hr] at h
          obtain ⟨p, h1, h2⟩ := bind_eq_ok.1 h
          cases h2
          exact ⟨name, lines, i, f, rfl, hr, rfl, rfl, h1, rfl, rfl, rfl, rfl, rfl, rfl, rfl, rfl, rfl⟩

/-- C59, the loader of a `FioFitter`: every setting is the one of the parameter with this name; without import parameters the
defaults of `FioLoader` are used (motors `om` and `tt`, counter `tt`, ROI `p100k_roi1`, attenuation `atten_position`). -/
theorem C59_fio_loader (pf : Str → Option (Option ℝ)) (w : World) (stem : Option Str) (imp : Option FioImport) (fp : Option FioFootprint)
    (l : FioLoader) (h : newFioLoader pf w stem imp fp = .ok l) :
    ∃ f, stem = some l.stem ∧ fp = some f ∧ l.theta = "om".toList ∧ l.twoTheta = "tt".toList ∧
      l.beamWidth = f.beamWidth ∧ l.sampleLength = f.sampleLength ∧ l.beamShape = f.beamShape ∧ l.normalizeTo = f.normalizeTo ∧
      (∀ i, imp = some i → l.ttCounter = i.ttCounter ∧ l.roiName = i.roiName ∧ l.attenuator = i.attenuator ∧ l.division = i.division) ∧
      (imp = none → l.ttCounter = "tt".toList ∧ l.roiName = "p100k_roi1".toList ∧ l.attenuator = some "atten_position".toList ∧ l.division = none) := by
  cases fp with
  | none => cases h
  | some f =>
    cases stem with
    | none => cases h
    | some s =>
      unfold newFioLoader at h
      obtain ⟨_, -, h2⟩ := bind_eq_ok.1 h
      cases h2
      refine ⟨f, rfl, rfl, rfl, rfl, rfl, rfl, rfl, rfl, ?_, ?_⟩
      · rintro i rfl
        exact ⟨rfl, rfl, rfl, rfl⟩
      · rintro rfl
        exact ⟨rfl, rfl, rfl, rfl⟩

end Verif.Props
