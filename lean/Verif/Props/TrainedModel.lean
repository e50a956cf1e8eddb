import Verif.Props.Dict
import Verif.Props.H5
import Verif.Model.TrainedModel

/-!
# C72: trained models in files
-/

set_option linter.unusedSectionVars false

namespace Verif.Props
open Verif.Py Verif.Model Verif.Spec
variable {K : Type} [LinearOrder K] [Zero K] {Net V : Type}

/-! ## Vocabulary -/

/-- The same number as a Python number (`np.complex128` becomes `complex`). -/
def plainNum : Num K → Num K
  | .real x => .real x
  | .cplx _ a b => .cplx false a b

/-- The same parameter with Python numbers. -/
def plainParam : Param K → Param K
  | .range a b n => .range (plainNum a) (plainNum b) n
  | .const v n => .const (plainNum v) n

/-- Both limits are real numbers. -/
def RealLimits (p : Param K) : Prop := (∃ x, p.min = .real x) ∧ ∃ y, p.max = .real y

/-- A parameter that survives JSON: real limits, or a constant with a non-zero imaginary part. -/
def FileParam (p : Param K) : Prop := RealLimits p ∨ (p.isConst ∧ p.min.im ≠ 0)

/-- A layer that survives JSON. -/
structure FileLayer (l : LayerV K) : Prop where
  thickness : ∀ p, l.thickness = some p → RealLimits p
  roughness : ∀ p, l.roughness = some p → RealLimits p
  sld : ∀ p, l.sld = some p → FileParam p

/-- A sample that survives JSON. -/
structure FileSample (s : SampleV K) : Prop where
  ambient : FileLayer s.ambient
  substrate : FileLayer s.substrate
  layers : ∀ l ∈ s.layers, FileLayer l

/-- Two layers describe the same thing: same name and parameters, up to the class of complex
numbers. -/
def SameLayer (l l' : LayerV K) : Prop :=
  l'.name = l.name ∧ l'.thickness = l.thickness ∧ l'.roughness = l.roughness ∧
    l'.sld = l.sld.map plainParam

/-- Two samples describe the same thing, layer by layer from bottom to top. -/
def SameSample (s s' : SampleV K) : Prop :=
  SameLayer s.ambient s'.ambient ∧ SameLayer s.substrate s'.substrate ∧
    List.Forall₂ SameLayer s.layers s'.layers

/-! ## JSON -/

def plainLayer (l : LayerV K) : LayerV K := { l with sld := l.sld.map plainParam }

def plainSample (s : SampleV K) : SampleV K :=
  ⟨plainLayer s.ambient, plainLayer s.substrate, s.layers.map plainLayer⟩

theorem plain_real {p : Param K} (h : RealLimits p) : plainParam p = p := by
  obtain ⟨⟨x, hx⟩, ⟨y, hy⟩⟩ := h
  cases p with
  | range a b n =>
    simp only [Param.min, Param.max] at hx hy
    subst hx hy; rfl
  | const v n =>
    simp only [Param.min] at hx
    subst hx; rfl

theorem json_num {v : Num K} (h : (∃ x, v = .real x) ∨ v.im ≠ 0) :
    (ifComplexToDict v).json = .ok (ifComplexToDict (plainNum v)) := by
  cases v with
  | real x => simp [ifComplexToDict, Num.isComplex, Num.im, plainNum, DVal.json]
  | cplx np a b =>
    rcases h with ⟨x, h⟩ | h
    · cases h
    · simp only [Num.im] at h
      simp [ifComplexToDict, Num.isComplex, Num.im, plainNum, DVal.json, h, Num.re, Num.isNp]

theorem json_param {p : Param K} (h : FileParam p) :
    (parseParameter p).json = .ok (parseParameter (plainParam p)) := by
  cases p with
  | range a b n =>
    rcases h with ⟨⟨x, hx⟩, ⟨y, hy⟩⟩ | ⟨h, -⟩
    · simp only [Param.min, Param.max] at hx hy
      have h1 := json_num (v := a) (.inl ⟨x, hx⟩)
      have h2 := json_num (v := b) (.inl ⟨y, hy⟩)
      simp only [parseParameter, Arg.json, plainParam, mapM_cons, h1, h2]
      rfl
    · simp [Param.isConst] at h
  | const v n =>
    have h1 : (ifComplexToDict v).json = .ok (ifComplexToDict (plainNum v)) := by
      apply json_num
      rcases h with ⟨⟨x, hx⟩, -⟩ | ⟨-, h⟩
      · exact .inl ⟨x, hx⟩
      · exact .inr h
    simp only [parseParameter, Arg.json, plainParam, h1]
    rfl

/-- The dictionary of a layer whose SLD is set. -/
def dictOf (l : LayerV K) : LayerDict K :=
  ⟨l.name, l.thickness.map parseParameter, l.roughness.map parseParameter, l.sld.map parseParameter⟩

theorem toDict_eq {l : LayerV K} (h : l.sld ≠ none) : l.toDict = .ok (dictOf l) := by
  unfold LayerV.toDict dictOf
  cases hs : l.sld with
  | none => exact absurd hs h
  | some s => rfl

theorem json_layer {l : LayerV K} (h : FileLayer l) : (dictOf l).json = .ok (dictOf (plainLayer l)) := by
  have key : ∀ o : Option (Param K), (∀ p, o = some p → FileParam p) →
      jsonOpt (o.map parseParameter) = .ok ((o.map plainParam).map parseParameter) := by
    intro o ho
    cases o with
    | none => rfl
    | some p => simp only [Option.map_some, jsonOpt, json_param (ho p rfl)]; rfl
  have fix : ∀ o : Option (Param K), (∀ p, o = some p → RealLimits p) → o.map plainParam = o := by
    intro o ho
    cases o with
    | none => rfl
    | some p => simp [plain_real (ho p rfl)]
  unfold LayerDict.json dictOf plainLayer
  simp only
  rw [key _ fun p hp => .inl (h.thickness p hp), key _ fun p hp => .inl (h.roughness p hp), key _ h.sld,
    fix _ h.thickness, fix _ h.roughness]
  rfl

theorem plainLayer_sld {l : LayerV K} (h : l.sld ≠ none) : (plainLayer l).sld ≠ none := by
  unfold plainLayer
  cases hs : l.sld with
  | none => exact absurd hs h
  | some s => simp

theorem json_sample {s : SampleV K} (h : FileSample s) (ha : s.ambient.sld ≠ none) (hb : s.substrate.sld ≠ none)
    (hl : ∀ l ∈ s.layers, l.sld ≠ none) :
    ∃ d d', s.toDict = .ok d ∧ d.json = .ok d' ∧ (plainSample s).toDict = .ok d' := by
  refine ⟨⟨dictOf s.ambient, s.layers.reverse.map dictOf, dictOf s.substrate⟩,
    ⟨dictOf (plainLayer s.ambient), s.layers.reverse.map (fun l => dictOf (plainLayer l)),
      dictOf (plainLayer s.substrate)⟩, ?_, ?_, ?_⟩
  · unfold SampleV.toDict
    rw [toDict_eq ha, toDict_eq hb, mapM_eq_ok_map (g := dictOf) fun l hm => toDict_eq (hl l (List.mem_reverse.1 hm))]
    rfl
  · unfold SampleDict.json
    simp only
    rw [json_layer h.ambient, json_layer h.substrate]
    have : (s.layers.reverse.map dictOf).mapM LayerDict.json =
        .ok (s.layers.reverse.map (fun l => dictOf (plainLayer l))) := by
      have : ∀ ls : List (LayerV K), (∀ l ∈ ls, FileLayer l) → (ls.map dictOf).mapM LayerDict.json =
          .ok (ls.map (fun l => dictOf (plainLayer l))) := by
        intro ls hls
        induction ls with
        | nil => rfl
        | cons l ls ih =>
          rw [List.map_cons, mapM_cons, json_layer (hls l (by simp)), ih fun l hl => hls l (by simp [hl])]
          rfl
      exact this _ fun l hm => h.layers l (List.mem_reverse.1 hm)
    rw [this]
    rfl
  · unfold SampleV.toDict plainSample
    simp only
    rw [toDict_eq (plainLayer_sld ha), toDict_eq (plainLayer_sld hb), ← List.map_reverse,
      mapM_eq_ok_map (g := dictOf) fun l hm => by
        obtain ⟨l', hl', rfl⟩ := List.mem_map.1 hm
        exact toDict_eq (plainLayer_sld (hl l' (List.mem_reverse.1 hl')))]
    simp only [bind_ok, List.map_map]
    rfl

theorem plain_regular_param {p : Param K} {nm : Str} (h : ParamRegular nm p) (hf : FileParam p) :
    ParamRegular nm (plainParam p) := by
  rcases hf with hf | ⟨hf, -⟩
  · rw [plain_real hf]; exact h
  · cases p with
    | range a b n => simp [Param.isConst] at hf
    | const v n => exact ⟨h.1, trivial⟩

theorem plain_const {p : Param K} (h : p.isConst) : (plainParam p).isConst := by
  cases p with
  | range a b n => simp [Param.isConst] at h
  | const v n => rfl

theorem plain_regular {s : SampleV K} (h : SampleRegular s) (hf : FileSample s) :
    SampleRegular (plainSample s) := by
  refine ⟨⟨h.substrate.kind, h.substrate.thickness, h.substrate.roughness, ?_⟩,
    ⟨h.ambient.kind, h.ambient.thickness, h.ambient.roughness, ?_⟩, ?_⟩
  · obtain ⟨p, hp, hr⟩ := h.substrate.sld
    exact ⟨plainParam p, by simp [plainSample, plainLayer, hp], plain_regular_param hr (hf.substrate.sld p hp)⟩
  · obtain ⟨p, hp, hr⟩ := h.ambient.sld
    exact ⟨plainParam p, by simp [plainSample, plainLayer, hp], plain_regular_param hr (hf.ambient.sld p hp)⟩
  · intro l hl
    obtain ⟨l', hl', rfl⟩ := List.mem_map.1 hl
    have hr := h.layers l' hl'
    obtain ⟨p, hp, hpr⟩ := hr.sld
    exact ⟨hr.kind, hr.thickness, hr.roughness,
      ⟨plainParam p, by simp [plainLayer, hp], plain_regular_param hpr ((hf.layers l' hl').sld p hp)⟩⟩

theorem plain_ends {s : SampleV K} (h : EndsConst s) : EndsConst (plainSample s) := by
  refine ⟨⟨h.substrate.1, h.substrate.2.1, ?_⟩, ⟨h.ambient.1, h.ambient.2.1, ?_⟩⟩
  · obtain ⟨p, hp, hc⟩ := h.substrate.2.2
    exact ⟨plainParam p, by simp [plainSample, plainLayer, hp], plain_const hc⟩
  · obtain ⟨p, hp, hc⟩ := h.ambient.2.2
    exact ⟨plainParam p, by simp [plainSample, plainLayer, hp], plain_const hc⟩

/-- The sample survives `to_dict`, JSON and `from_dict`. -/
theorem sample_json_roundtrip {s : SampleV K} (h : SampleRegular s) (hc : EndsConst s) (hf : FileSample s) :
    ∃ d d' s', s.toDict = .ok d ∧ d.json = .ok d' ∧ SampleV.fresh.fromDict d' = .ok s' ∧ SameSample s s' := by
  obtain ⟨pa, hpa, -⟩ := h.ambient.sld
  obtain ⟨pb, hpb, -⟩ := h.substrate.sld
  obtain ⟨d, d', h1, h2, h3⟩ := json_sample hf (by rw [hpa]; simp) (by rw [hpb]; simp) (by
    intro l hl
    obtain ⟨p, hp, -⟩ := (h.layers l hl).sld
    rw [hp]; simp)
  obtain ⟨d'', h4, h5⟩ := toDict_fromDict (plainSample s) SampleV.fresh (plain_regular h hf) (plain_ends hc)
  rw [h3] at h4
  cases h4
  refine ⟨d, d', _, h1, h2, h5, ⟨rfl, rfl, rfl, rfl⟩, ⟨rfl, rfl, rfl, rfl⟩, ?_⟩
  simp only [dictImage, SampleV.fresh, plainSample, List.nil_append, List.map_map]
  generalize s.layers = ls
  induction ls with
  | nil => exact .nil
  | cons l ls ih => exact .cons ⟨rfl, rfl, rfl, rfl⟩ ih

/-! ## C72 -/

/-- C72 (partial): whatever the file and the object contained before, a complete model is saved and
loaded back: the same network, q values and standardization values, and a sample that describes the
same thing.

Missing: samples with complex ranges or with a complex number whose imaginary part is zero
(`C72_complex_range`, `C72_zero_imaginary`). -/
theorem C72_roundtrip_partial (net : Net) (s : SampleV K) (q mean std : V)
    (h : SampleRegular s) (hc : EndsConst s) (hf : FileSample s)
    (d : Str → Option (ModelFile K Net V)) (file : Str) (m₀ : TModel K Net V) :
    let r := (⟨some net, some s, some q, some mean, some std⟩ : TModel K Net V).save d file
    r.2 = none ∧ ∃ s', SameSample s s' ∧
      m₀.fromFile r.1 file = (⟨some net, some s', some q, some mean, some std⟩, none) := by
  obtain ⟨dd, dj, s', h1, h2, h3, h4⟩ := sample_json_roundtrip h hc hf
  intro r
  have hj : (⟨some net, some s, some q, some mean, some std⟩ : TModel K Net V).sampleJson = .ok dj := by
    simp only [TModel.sampleJson, h1, bind_ok, h2]
  have e1 : nQ ≠ nSample := by decide
  have e2 : nMean ≠ nQ := by decide
  have e3 : nMean ≠ nSample := by decide
  have e4 : nStd ≠ nMean := by decide
  have e5 : nStd ≠ nQ := by decide
  have e6 : nStd ≠ nSample := by decide
  have hrun : runSteps (⟨some net, some s, some q, some mean, some std⟩ : TModel K Net V).saveSteps (fileAt d file) =
      (⟨some net, some (Function.update (Function.update (Function.update (Function.update (fun _ => none)
        nSample (some (.json dj))) nQ (some (.arr q))) nMean (some (.arr mean))) nStd (some (.arr std)))⟩, none) := by
    unfold TModel.saveSteps
    simp only [runSteps, hj, kerasTruncate, kerasWrite, createParams, putArray, putParam, bind_ok,
      pure, Except.pure, Function.update_of_ne e1, Function.update_of_ne e2, Function.update_of_ne e3,
      Function.update_of_ne e4, Function.update_of_ne e5, Function.update_of_ne e6]
  have hr : r = (Function.update d file (some ⟨some net, some (Function.update (Function.update (Function.update
      (Function.update (fun _ => none) nSample (some (.json dj))) nQ (some (.arr q))) nMean (some (.arr mean)))
      nStd (some (.arr std)))⟩), none) := by
    simp only [r, TModel.save, hrun]
  rw [hr]
  refine ⟨rfl, s', h4, ?_⟩
  simp only [TModel.fromFile, fromFileSteps, runSteps, loadNet, fileAt, Function.update_self, Option.getD_some,
    getJson, getArr, getParam, bind_ok, Function.update_of_ne e1.symm, Function.update_of_ne e2.symm,
    Function.update_of_ne e3.symm, Function.update_of_ne e4.symm, Function.update_of_ne e5.symm,
    Function.update_of_ne e6.symm, h3, pure, Except.pure]

/-- A file in which the standard deviations are missing. -/
def NoStd (f : ModelFile K Net V) : Prop := ∀ p, f.params = some p → p "ip_std".toList = none

theorem getArr_std_error {f : ModelFile K Net V} (h : NoStd f) : ∃ e, getArr f nStd = .error e := by
  unfold getArr getParam
  cases hp : f.params with
  | none => exact ⟨.keyError, rfl⟩
  | some p => simp only [show p nStd = none from h p hp]; exact ⟨.keyError, rfl⟩

theorem runSteps_last_error {F : Type} (l : List (F → Res F)) (s : F → Res F)
    (h : ∀ m, ∃ e, s m = .error e) (f : F) : (runSteps (l ++ [s]) f).2 ≠ none := by
  induction l generalizing f with
  | nil =>
    obtain ⟨e, he⟩ := h f
    simp [runSteps, he]
  | cons x l ih =>
    simp only [List.cons_append, runSteps]
    cases hx : x f with
    | ok f' => exact ih f'
    | error e => simp

theorem fromFile_noStd {d : Str → Option (ModelFile K Net V)} {file : Str}
    (h : NoStd (fileAt d file)) (m : TModel K Net V) : (m.fromFile d file).2 ≠ none := by
  have : fromFileSteps d file = ([fun m => do let n ← loadNet d file; return { m with net := some n },
   fun m => do
    let j ← getJson (fileAt d file)
    let s ← SampleV.fresh.fromDict j
    return { m with sample := some s },
   fun m => do let v ← getArr (fileAt d file) nQ; return { m with q := some v },
   fun m => do let v ← getArr (fileAt d file) nMean; return { m with mean := some v }] ++
   [fun (m : TModel K Net V) => do let v ← getArr (fileAt d file) nStd; return { m with std := some v }] : List _) := rfl
  unfold TModel.fromFile
  rw [this]
  apply runSteps_last_error
  intro m
  obtain ⟨e, he⟩ := getArr_std_error h
  exact ⟨e, by rw [he]; rfl⟩

theorem runSteps_keeps {F : Type} (P : F → Prop) {l : List (F → Res F)}
    (h : ∀ s ∈ l, ∀ f f', P f → s f = .ok f' → P f') {f : F} (hf : P f) : P (runSteps l f).1 := by
  induction l generalizing f with
  | nil => exact hf
  | cons s l ih =>
    unfold runSteps
    cases hs : s f with
    | ok f' => exact ih (fun s hs => h s (by simp [hs])) (h s (by simp) f f' hf hs)
    | error e => exact hf

theorem put_noStd {name : Str} (hn : nStd ≠ name) {v : PMember K V} {f f' : ModelFile K Net V}
    (h : NoStd f) (hs : putParam name v f = .ok f') : NoStd f' := by
  unfold putParam at hs
  cases hp : f.params with
  | none => rw [hp] at hs; cases hs
  | some p =>
    simp only [hp] at hs
    cases hq : p name with
    | some _ => simp only [hq] at hs; cases hs
    | none =>
      simp only [hq] at hs
      cases hs
      intro p' hp'
      cases hp'
      exact (Function.update_of_ne hn _ _).trans (h p hp)

/-- All primitives but the last leave a file without standard deviations in that state. -/
theorem step_noStd {m : TModel K Net V} {s : ModelFile K Net V → Res (ModelFile K Net V)}
    (hs : s ∈ m.saveSteps.take 7) {f f' : ModelFile K Net V} (h : NoStd f) (e : s f = .ok f') : NoStd f' := by
  have arr : ∀ name o, nStd ≠ name → putArray name o f = .ok f' → NoStd f' := by
    intro name o hn ho
    unfold putArray at ho
    cases o with
    | none => cases ho
    | some v => exact put_noStd hn h ho
  simp only [TModel.saveSteps, List.take_succ_cons, List.take_zero, List.mem_cons, List.not_mem_nil, or_false] at hs
  rcases hs with rfl | rfl | rfl | rfl | rfl | rfl | rfl
  · unfold kerasTruncate at e
    cases hm : m.net with
    | none => rw [hm] at e; cases e
    | some n => rw [hm] at e; cases e; intro p hp; cases hp
  · unfold kerasWrite at e
    cases hm : m.net with
    | none => rw [hm] at e; cases e
    | some n => rw [hm] at e; cases e; exact h
  · obtain ⟨j, -, e⟩ := bind_eq_ok.1 e
    cases e; exact h
  · unfold createParams at e
    cases hp : f.params with
    | some _ => simp only [hp] at e; cases e
    | none => simp only [hp] at e; cases e; intro p hp; cases hp; rfl
  · obtain ⟨j, -, e⟩ := bind_eq_ok.1 e
    exact put_noStd (by decide) h e
  · exact arr _ _ (by decide) e
  · exact arr _ _ (by decide) e

/-- C72: an interrupted save is never loaded as a complete model: whatever the file contained, if
`save_model` is interrupted after it has begun to write and before it has finished, `from_file`
raises. -/
theorem C72_interrupted (m : TModel K Net V) (net : Net) (hm : m.net = some net) (k : Nat) (h0 : 0 < k)
    (hk : k < m.saveSteps.length) (d : Str → Option (ModelFile K Net V)) (file : Str) (m₀ : TModel K Net V) :
    (m₀.fromFile (m.saveInterrupted k d file) file).2 ≠ none := by
  apply fromFile_noStd
  have hk' : k ≤ 7 := by
    simp only [TModel.saveSteps, List.length_cons, List.length_nil] at hk; omega
  unfold fileAt TModel.saveInterrupted
  rw [Function.update_self, Option.getD_some]
  obtain ⟨j, rfl⟩ : ∃ j, k = j + 1 := ⟨k - 1, by omega⟩
  have hsub : ∀ s ∈ m.saveSteps.take (j + 1), s ∈ m.saveSteps.take 7 := by
    intro s hs
    have : m.saveSteps.take (j + 1) = (m.saveSteps.take 7).take (j + 1) := by
      rw [List.take_take, min_eq_left hk']
    rw [this] at hs
    exact List.mem_of_mem_take hs
  have hfirst : runSteps (m.saveSteps.take (j + 1)) (fileAt d file) =
      runSteps (m.saveSteps.tail.take j) ⟨none, none⟩ := by
    unfold TModel.saveSteps
    simp only [List.take_succ_cons, runSteps, kerasTruncate, hm, List.tail_cons]
  rw [hfirst]
  refine runSteps_keeps NoStd (fun s hs f f' hf he => step_noStd (hsub s ?_) hf he) (by intro p hp; cases hp)
  have : m.saveSteps.take (j + 1) = kerasTruncate m :: m.saveSteps.tail.take j := by
    unfold TModel.saveSteps; simp
  rw [this]; simp [hs]

/-- C72: the same if `save_model` itself raises, for instance because the sample is not
serialisable. -/
theorem C72_failed_save (m : TModel K Net V) (net : Net) (hm : m.net = some net)
    (d : Str → Option (ModelFile K Net V)) (file : Str) (m₀ : TModel K Net V)
    (h : (m.save d file).2 ≠ none) : (m₀.fromFile (m.save d file).1 file).2 ≠ none := by
  apply fromFile_noStd
  unfold fileAt
  simp only [TModel.save] at h ⊢
  rw [Function.update_self, Option.getD_some]
  have hsplit : m.saveSteps = m.saveSteps.take 7 ++ [putArray nStd m.std] := rfl
  have hfirst : (runSteps (m.saveSteps.take 7) (fileAt d file)) =
      runSteps (m.saveSteps.tail.take 6) ⟨none, none⟩ := by
    unfold TModel.saveSteps
    simp only [List.take_succ_cons, runSteps, kerasTruncate, hm, List.tail_cons]
  have hstd : NoStd (runSteps (m.saveSteps.take 7) (fileAt d file)).1 := by
    rw [hfirst]
    refine runSteps_keeps NoStd (fun s hs f f' hf he => step_noStd (m := m) ?_ hf he) (by intro p hp; cases hp)
    have : m.saveSteps.take 7 = kerasTruncate m :: m.saveSteps.tail.take 6 := rfl
    rw [this]; simp [hs]
  have main : ∀ (l : List (ModelFile K Net V → Res (ModelFile K Net V))) (s : ModelFile K Net V → Res (ModelFile K Net V))
      (f : ModelFile K Net V), (runSteps (l ++ [s]) f).2 ≠ none → (runSteps (l ++ [s]) f).1 = (runSteps l f).1 := by
    intro l s
    induction l with
    | nil =>
      intro f hf
      simp only [List.nil_append, runSteps] at hf ⊢
      cases hs : s f with
      | ok f' => rw [hs] at hf; exact absurd rfl hf
      | error e => rfl
    | cons x l ih =>
      intro f hf
      simp only [List.cons_append, runSteps] at hf ⊢
      cases hx : x f with
      | ok f' => simp only [hx] at hf ⊢; exact ih f' hf
      | error e => rfl
  rw [hsplit] at h ⊢
  have hF : fileAt d file = (d file).getD ⟨none, none⟩ := rfl
  rw [main _ _ _ h]
  exact hstd

/-- But a load that raises can leave the object half updated: here the network is the new one and
everything else is the old one. -/
theorem C72_half_updated (net net₀ : Net) (s s₀ : SampleV K) (q q₀ mean mean₀ std std₀ : V)
    (d : Str → Option (ModelFile K Net V)) (file : Str) :
    (⟨some net₀, some s₀, some q₀, some mean₀, some std₀⟩ : TModel K Net V).fromFile
      ((⟨some net, some s, some q, some mean, some std⟩ : TModel K Net V).saveInterrupted 2 d file) file =
    (⟨some net, some s₀, some q₀, some mean₀, some std₀⟩, some .keyError) := by
  simp [TModel.fromFile, TModel.saveInterrupted, fromFileSteps, TModel.saveSteps, runSteps, loadNet, fileAt,
    kerasTruncate, kerasWrite, getJson, getParam, pure, Except.pure, bind, Except.bind]

/-! ## Samples that do not survive -/

/-- A sample with one film whose SLD is the parameter `p`. -/
def filmSample (p : Param Int) : SampleV Int :=
  { ambient := ⟨.ambient, "air".toList, none, none, some (.const (.real 0) (some "sld".toList))⟩
    substrate := ⟨.substrate, "Si".toList, none, some (.const (.real 1) (some "roughness".toList)),
      some (.const (.cplx true 20 1) (some "sld".toList))⟩
    layers := [
      ⟨.layer, "film".toList, some (.range (.real 20) (.real 1000) (some "thickness".toList)),
        some (.range (.real 0) (.real 100) (some "roughness".toList)), some p⟩] }

theorem filmSample_regular {p : Param Int} (h : ParamRegular "sld".toList p) : SampleRegular (filmSample p) := by
  refine ⟨⟨rfl, rfl, ⟨_, rfl, ⟨rfl, trivial⟩, rfl⟩, ⟨_, rfl, ⟨rfl, trivial⟩⟩⟩,
    ⟨rfl, rfl, rfl, ⟨_, rfl, ⟨rfl, trivial⟩⟩⟩, ?_⟩
  intro l hl
  simp only [filmSample, List.mem_cons, List.not_mem_nil, or_false] at hl
  subst hl
  exact ⟨Or.inl rfl, ⟨_, rfl, ⟨rfl, rfl⟩, rfl⟩, ⟨_, rfl, ⟨rfl, rfl⟩, rfl⟩, ⟨p, rfl, h⟩⟩

theorem filmSample_ends (p : Param Int) : EndsConst (filmSample p) :=
  ⟨⟨fun p hp => (by cases hp), fun p hp => (by cases hp; rfl), _, rfl, rfl⟩,
   ⟨fun p hp => (by cases hp), fun p hp => (by cases hp), _, rfl, rfl⟩⟩

/-- C72 does not hold: a sample whose SLD range is complex is saved, but the file cannot be loaded
(the limits come back as Python complex numbers, which cannot be compared). -/
theorem C72_complex_range : ∃ s : SampleV Int, SampleRegular s ∧ EndsConst s ∧
    ∀ (net : Net) (q mean std : V) (d : Str → Option (ModelFile Int Net V)) (file : Str) (m₀ : TModel Int Net V),
      ((⟨some net, some s, some q, some mean, some std⟩ : TModel Int Net V).save d file).2 = none ∧
      (m₀.fromFile ((⟨some net, some s, some q, some mean, some std⟩ : TModel Int Net V).save d file).1 file).2 =
        some .typeError := by
  refine ⟨filmSample (.range (.cplx true 1 1) (.cplx true 14 3) (some "sld".toList)),
    filmSample_regular ⟨rfl, rfl⟩, filmSample_ends _, ?_⟩
  intro net q mean std d file m₀
  refine ⟨rfl, ?_⟩
  simp only [TModel.fromFile, fromFileSteps, loadNet, fileAt, TModel.save, Function.update_self, Option.getD_some]
  rfl

/-- C72 does not hold: a sample with a complex SLD limit without imaginary part cannot be saved; the
call raises `TypeError` after the network has been written. -/
theorem C72_zero_imaginary : ∃ s : SampleV Int, SampleRegular s ∧ EndsConst s ∧
    ∀ (net : Net) (q mean std : V) (d : Str → Option (ModelFile Int Net V)) (file : Str),
      (⟨some net, some s, some q, some mean, some std⟩ : TModel Int Net V).save d file =
        (Function.update d file (some ⟨some net, none⟩), some .typeError) := by
  refine ⟨filmSample (.range (.cplx true 1 0) (.cplx true 14 3) (some "sld".toList)),
    filmSample_regular ⟨rfl, rfl⟩, filmSample_ends _, ?_⟩
  intro net q mean std d file
  rfl

/-- **C72** (incomplete models): a model without network is refused before the file is touched, and a model that lacks the q values or
one of the standardization values is refused with `TypeError`. -/
theorem C72_incomplete (m : TModel K Net V) (d : Str → Option (ModelFile K Net V)) (file : Str) :
    (m.net = none → m.save d file = (Function.update d file (some (fileAt d file)), some .attributeError)) ∧
    (∀ net s, m.net = some net → m.sample = some s → SampleRegular s → EndsConst s → FileSample s →
      (m.q = none ∨ m.mean = none ∨ m.std = none) → (m.save d file).2 = some .typeError) := by
  obtain ⟨mn, ms, mq, mm, mstd⟩ := m
  refine ⟨?_, ?_⟩
  · intro h
    simp only at h
    subst h
    rfl
  · intro net s h1 h2 h hc hf hv
    simp only at h1 h2 hv
    subst h1 h2
    obtain ⟨dd, dj, s', k1, k2, k3, k4⟩ := sample_json_roundtrip h hc hf
    have hj : (⟨some net, some s, mq, mm, mstd⟩ : TModel K Net V).sampleJson = .ok dj := by
      simp only [TModel.sampleJson, k1, bind_ok, k2]
    have e1 : nQ ≠ nSample := by decide
    have e2 : nMean ≠ nQ := by decide
    have e3 : nMean ≠ nSample := by decide
    have e4 : nStd ≠ nMean := by decide
    have e5 : nStd ≠ nQ := by decide
    have e6 : nStd ≠ nSample := by decide
    unfold TModel.save TModel.saveSteps
    rcases mq with _ | q
    · simp only [runSteps, hj, kerasTruncate, kerasWrite, createParams, putArray, putParam, bind_ok, pure, Except.pure]
    · rcases mm with _ | mean
      · simp only [runSteps, hj, kerasTruncate, kerasWrite, createParams, putArray, putParam, bind_ok,
          pure, Except.pure, Function.update_of_ne e1]
      · rcases mstd with _ | std
        · simp only [runSteps, hj, kerasTruncate, kerasWrite, createParams, putArray, putParam, bind_ok,
            pure, Except.pure, Function.update_of_ne e1, Function.update_of_ne e2, Function.update_of_ne e3]
        · simp at hv

/-- The hypotheses of `C72_roundtrip_partial` are met by a sample with a complex substrate. -/
example : FileSample (filmSample (.range (.real 1) (.real 14) (some "sld".toList))) := by
  refine ⟨⟨fun p hp => (by cases hp), fun p hp => (by cases hp), fun p hp => ?_⟩,
    ⟨fun p hp => (by cases hp), fun p hp => ?_, fun p hp => ?_⟩, ?_⟩
  · cases hp; exact .inl ⟨⟨0, rfl⟩, ⟨0, rfl⟩⟩
  · cases hp; exact ⟨⟨1, rfl⟩, ⟨1, rfl⟩⟩
  · cases hp; exact .inr ⟨rfl, by decide⟩
  · intro l hl
    simp only [filmSample, List.mem_cons, List.not_mem_nil, or_false] at hl
    subst hl
    refine ⟨fun p hp => ?_, fun p hp => ?_, fun p hp => ?_⟩
    · cases hp; exact ⟨⟨20, rfl⟩, ⟨1000, rfl⟩⟩
    · cases hp; exact ⟨⟨0, rfl⟩, ⟨100, rfl⟩⟩
    · cases hp; exact .inl ⟨⟨1, rfl⟩, ⟨14, rfl⟩⟩

end Verif.Props
