import Verif.Model.LoadedFit
import Verif.Props.TrainedModel
import Verif.Props.Counts
import Verif.Props.Copy
import Verif.Props.Preprocessing

/-!
# C116: a loaded model fits like the saved one
-/

namespace Verif.Props
open Verif.Py Verif.Model Verif.Spec
variable {Net : Type}

/-! ### The label parameters -/

theorem plain_copy {p : Param ℝ} (h : FileParam p) : (plainParam p).copy = Except.map plainParam p.copy := by
  rcases h with h | ⟨h, -⟩
  · rw [plain_real h]
    cases hc : p.copy with
    | error e => rfl
    | ok r => rw [copy_eq hc]; exact congrArg Except.ok (plain_real h).symm
  · cases p with
    | range a b n => cases h
    | const v n => rfl

theorem plain_name (p : Param ℝ) : (plainParam p).name = p.name := by cases p <;> rfl

theorem plain_setName (n : Option Str) (p : Param ℝ) : (plainParam p).setName n = plainParam (p.setName n) := by cases p <;> rfl

theorem plain_pname (p : Param ℝ) : pname (plainParam p) = pname p := by unfold pname; rw [plain_name]

theorem plain_isConst (p : Param ℝ) : (plainParam p).isConst = p.isConst := by cases p <;> rfl

theorem plain_toC (v : Num ℝ) : (plainNum v).toC = v.toC := by cases v <;> rfl

theorem plain_min (p : Param ℝ) : (plainParam p).min.toC = p.min.toC := by cases p <;> exact plain_toC _

theorem plain_max (p : Param ℝ) : (plainParam p).max.toC = p.max.toC := by cases p <;> exact plain_toC _

theorem structure_same {s s' : SampleV ℝ} (h : SameSample s s') : List.Forall₂ SameLayer s.structure_ s'.structure_ := by
  unfold SampleV.structure_
  exact List.rel_append (List.rel_append (.cons h.2.1 .nil) h.2.2) (.cons h.1 .nil)

theorem structure_file {s : SampleV ℝ} (h : FileSample s) : ∀ l ∈ s.structure_, FileLayer l := by
  intro l hl
  unfold SampleV.structure_ at hl
  simp only [List.mem_append, List.mem_singleton] at hl
  rcases hl with (rfl | hl) | rfl
  · exact h.substrate
  · exact h.layers l hl
  · exact h.ambient

theorem thicknesses_same {s s' : SampleV ℝ} (h : SameSample s s') : s'.thicknesses = s.thicknesses := by
  unfold SampleV.thicknesses
  have := structure_same h
  generalize s.structure_ = a at this
  generalize s'.structure_ = b at this
  induction this with
  | nil => rfl
  | cons hl _ ih =>
    rw [List.filter_cons, List.filter_cons, hl.2.1]
    split
    · rw [mapM_cons, mapM_cons, ih, hl.1, hl.2.1]
    · exact ih

theorem roughnesses_same {s s' : SampleV ℝ} (h : SameSample s s') : s'.roughnesses = s.roughnesses := by
  unfold SampleV.roughnesses
  have := structure_same h
  generalize s.structure_ = a at this
  generalize s'.structure_ = b at this
  induction this with
  | nil => rfl
  | cons hl _ ih =>
    rw [List.filter_cons, List.filter_cons, hl.2.2.1]
    split
    · rw [mapM_cons, mapM_cons, ih, hl.1, hl.2.2.1]
    · exact ih

theorem slds_same {s s' : SampleV ℝ} (h : SameSample s s') (hf : FileSample s) : s'.slds = Except.map (List.map plainParam) s.slds := by
  unfold SampleV.slds
  have h1 := structure_same h
  have h2 := structure_file hf
  generalize s.structure_ = a at h1 h2
  generalize s'.structure_ = b at h1
  induction h1 with
  | nil => rfl
  | @cons l l' _ _ hl _ ih =>
    rw [mapM_cons, mapM_cons, ih fun x hx => h2 x (List.mem_cons_of_mem _ hx), hl.1, hl.2.2.2]
    cases hs : l.sld with
    | none => rfl
    | some p =>
      simp only [Option.map_some]
      rw [plain_copy ((h2 l List.mem_cons_self).sld p hs)]
      cases p.copy with
      | error e => rfl
      | ok r =>
        simp only [Except.map, bind_ok, plain_name, plain_setName]
        generalize (List.mapM _ _ : Res (List (Param ℝ))) = t
        cases t <;> rfl

theorem real_setName {p : Param ℝ} (h : RealLimits p) (n : Option Str) : plainParam (p.setName n) = p.setName n := by
  rw [← plain_setName, plain_real h]

theorem real_list {f : LayerV ℝ → Option (Param ℝ)} {a : List (LayerV ℝ)} (h : ∀ l ∈ a, ∀ p, f l = some p → RealLimits p)
    {g : LayerV ℝ → Res (Param ℝ)} (hg : ∀ l r, g l = .ok r → ∃ p n, f l = some p ∧ r = p.setName n) :
    a.mapM g = Except.map (List.map plainParam) (a.mapM g) := by
  induction a with
  | nil => rfl
  | cons l a ih =>
    rw [mapM_cons]
    cases hl : g l with
    | error e => rfl
    | ok r =>
      obtain ⟨p, n, hp, rfl⟩ := hg l r hl
      rw [bind_ok, bind_map]
      conv_lhs => rw [ih fun x hx => h x (List.mem_cons_of_mem _ hx)]
      rw [map_bind]
      congr 1
      funext t
      show Except.ok _ = Except.ok _
      rw [List.map_cons, real_setName (h l List.mem_cons_self p hp)]

theorem copy_setName {p : Param ℝ} {g : Param ℝ → Option Str} {r : Param ℝ} (h : (p.copy >>= fun c => .ok (c.setName (g c))) = .ok r) :
    ∃ n, r = p.setName n := by
  obtain ⟨c, hc, h⟩ := bind_eq_ok.1 h
  rw [copy_eq hc] at h
  exact ⟨_, (Except.ok.inj h).symm⟩

theorem thicknesses_real {s : SampleV ℝ} (hf : FileSample s) : s.thicknesses = Except.map (List.map plainParam) s.thicknesses := by
  unfold SampleV.thicknesses
  refine real_list (f := LayerV.thickness) (fun l hl p hp => (structure_file hf l (List.mem_filter.1 hl).1).thickness p hp) ?_
  intro l r hr
  cases ht : l.thickness with
  | none => rw [ht] at hr; cases hr
  | some p =>
    rw [ht] at hr
    obtain ⟨n, hn⟩ := copy_setName (g := fun c => some (prefixedName l.name c.name)) hr
    exact ⟨p, n, rfl, hn⟩

theorem roughnesses_real {s : SampleV ℝ} (hf : FileSample s) : s.roughnesses = Except.map (List.map plainParam) s.roughnesses := by
  unfold SampleV.roughnesses
  refine real_list (f := LayerV.roughness) (fun l hl p hp => (structure_file hf l (List.mem_filter.1 hl).1).roughness p hp) ?_
  intro l r hr
  cases ht : l.roughness with
  | none => rw [ht] at hr; cases hr
  | some p =>
    rw [ht] at hr
    obtain ⟨n, hn⟩ := copy_setName (g := fun c => some (prefixedName l.name c.name)) hr
    exact ⟨p, n, rfl, hn⟩

/-- The label parameters of a sample that describes the same: the same up to the class of complex numbers. -/
theorem allLabelParameters_same {s s' : SampleV ℝ} (h : SameSample s s') (hf : FileSample s) :
    s'.allLabelParameters = Except.map (List.map plainParam) s.allLabelParameters := by
  unfold SampleV.allLabelParameters
  rw [thicknesses_same h, roughnesses_same h, slds_same h hf]
  have ht := thicknesses_real hf
  have hr := roughnesses_real hf
  generalize s.thicknesses = t at *
  generalize s.roughnesses = r at *
  generalize s.slds = d at *
  cases t with
  | error e => rfl
  | ok t =>
    cases r with
    | error e => rfl
    | ok r =>
      cases d with
      | error e => rfl
      | ok d =>
        have ht : t = t.map plainParam := Except.ok.inj ht
        have hr : r = r.map plainParam := Except.ok.inj hr
        show Except.ok (t ++ r ++ d.map plainParam) = Except.ok ((t ++ r ++ d).map plainParam)
        rw [List.map_append, List.map_append, ← ht, ← hr]

theorem paramNames_plain (l : List (Param ℝ)) : paramNames (l.map plainParam) = paramNames l := by
  unfold paramNames
  rw [List.map_map]
  exact List.map_congr_left fun p _ => congrArg (fun (n : Option Str) => n.getD []) (plain_name p)

theorem labelNames_same {s s' : SampleV ℝ} (h : SameSample s s') (hf : FileSample s) : s'.labelNames = s.labelNames := by
  unfold SampleV.labelNames
  rw [thicknesses_same h, roughnesses_same h, slds_same h hf]
  simp only [map_bind, paramNames_plain]

/-! ### Labels -/

theorem constantLabels_plain (ps : List (Param ℝ)) : constantLabels (ps.map plainParam) = (constantLabels ps).map plainParam := by
  unfold constantLabels
  rw [List.filter_map]
  exact congrArg (List.map plainParam) (List.filter_congr fun p _ => plain_isConst p)

theorem usedLabels_plain (ps : List (Param ℝ)) : usedLabels (ps.map plainParam) = (usedLabels ps).map plainParam := by
  unfold usedLabels
  rw [List.filter_map]
  exact congrArg (List.map plainParam) (List.filter_congr fun p _ => congrArg (!·) (plain_isConst p))

theorem map_pname_plain (ps : List (Param ℝ)) : (ps.map plainParam).map pname = ps.map pname := by
  rw [List.map_map]
  exact List.map_congr_left fun p _ => plain_pname p

theorem restoreLabels_same {s s' : SampleV ℝ} (h : SameSample s s') (hf : FileSample s) (norm : PyStr) :
    restoreLabels norm s' = restoreLabels norm s := by
  funext y
  unfold restoreLabels
  rw [allLabelParameters_same h hf, labelNames_same h hf, map_bind]
  have h1 : ∀ ps f, renormalizeLabels norm (ps.map plainParam) f = renormalizeLabels norm ps f := by
    intro ps f
    unfold renormalizeLabels
    rw [usedLabels_plain, List.foldlM_map]
    congr 1
    funext g p
    unfold renormalizeStep
    rw [plain_pname, plain_min, plain_max]
  have h2 : ∀ ps t, addConstantLabels (ps.map plainParam) t = addConstantLabels ps t := by
    intro ps t
    unfold addConstantLabels
    rw [constantLabels_plain, List.foldl_map]
    simp only [plain_pname, plain_min]
  simp only [usedLabels_plain, map_pname_plain, h1, h2]

theorem applyPreprocessing_same {s s' : SampleV ℝ} (h : SameSample s s') (hf : FileSample s) (norm : PyStr) :
    applyPreprocessing norm s' = applyPreprocessing norm s := by
  funext y
  unfold applyPreprocessing
  rw [allLabelParameters_same h hf, labelNames_same h hf]
  have h1 : ∀ ps f, normalizeLabels norm (ps.map plainParam) f = normalizeLabels norm ps f := by
    intro ps f
    unfold normalizeLabels
    rw [List.foldlM_map]
    congr 1
    funext g p
    unfold normalizeStep
    rw [plain_isConst, plain_pname, plain_min, plain_max]
  have h2 : ∀ ps f, removeLabels (ps.map plainParam) f = removeLabels ps f := by
    intro ps f
    unfold removeLabels
    rw [constantLabels_plain, List.foldl_map]
    simp only [plain_pname]
  simp only [map_bind, constantLabels_plain, map_pname_plain, h1, h2]

/-! ### Fits -/

/-- Only the labels of the sample take part in a fit. -/
theorem fitCurve_same (env : FitEnv) (s' : SampleV ℝ) (h1 : restoreLabels fitNorm s' = restoreLabels fitNorm env.sample)
    (h2 : applyPreprocessing fitNorm s' = applyPreprocessing fitNorm env.sample) :
    FitEnv.fitCurve { env with sample := s' } = FitEnv.fitCurve env := by
  have hp : FitEnv.predict { env with sample := s' } = FitEnv.predict env := by
    funext rows; unfold FitEnv.predict; simp only [h1]; rfl
  have hf : FitEnv.fitPlain { env with sample := s' } = FitEnv.fitPlain env := by
    funext c q dq f; unfold FitEnv.fitPlain; rw [hp]; rfl
  have hq : FitEnv.optimizeQ { env with sample := s' } = FitEnv.optimizeQ env := by
    funext q c sh; unfold FitEnv.optimizeQ; rw [hf]
  have hs : FitEnv.optimizeScaling { env with sample := s' } = FitEnv.optimizeScaling env := by
    funext q lo hi c sc dq; unfold FitEnv.optimizeScaling; rw [hf]
  have hm : FitEnv.fittingModel { env with sample := s' } = FitEnv.fittingModel env := by
    funext q p; unfold FitEnv.fittingModel; simp only [h1]
  have hl : FitEnv.leastLogFit { env with sample := s' } = FitEnv.leastLogFit env := by
    funext q d l f; unfold FitEnv.leastLogFit; simp only [h1, h2, hm]; rfl
  funext curves q o shifts scalings
  unfold FitEnv.fitCurve FitEnv.qStep FitEnv.scalingStep FitEnv.chooseParams FitEnv.polishStep
  rw [hp, hq, hs, hl]
  rfl

variable (engine : Option Engine) (run : Net → List (List ℝ) → Res LabelArg)
  (optimizer : (List ℝ → Res (List (Option ℝ))) → List ℝ → List ℝ → List ℝ → List ℝ → Res (List ℝ))

/-- C116: a model that was saved and loaded, by any model object, gives a curve fitter whose fits agree with those of the saved
model in every entry, for all curves, options and random numbers; errors are the same, too. -/
theorem C116_fit (net : Net) (s : SampleV ℝ) (q mean std : List ℝ) (h : SampleRegular s) (hc : EndsConst s) (hf : FileSample s)
    (d : Str → Option (ModelFile ℝ Net (List ℝ))) (file : Str) (m m₀ : TModel ℝ Net (List ℝ))
    (hm : m = ⟨some net, some s, some q, some mean, some std⟩) :
    (m.save d file).2 = none ∧ (m₀.fromFile (m.save d file).1 file).2 = none ∧
    ∃ env env', m.curveFitter engine run optimizer = .ok env ∧
      (m₀.fromFile (m.save d file).1 file).1.curveFitter engine run optimizer = .ok env' ∧
      ∀ curves qs o shifts scalings, env'.fitCurve curves qs o shifts scalings = env.fitCurve curves qs o shifts scalings := by
  subst hm
  obtain ⟨h1, s', hs, h2⟩ := C72_roundtrip_partial net s q mean std h hc hf d file m₀
  have hn := labelNames_eq h
  have hn' := (labelNames_same hs hf).trans hn
  rw [h2]
  refine ⟨h1, rfl, ⟨q, mean, std, run net, s, generatorSimulate engine ((labelParams s).map (·.1)), optimizer⟩,
    ⟨q, mean, std, run net, s', generatorSimulate engine ((labelParams s).map (·.1)), optimizer⟩, ?_, ?_, ?_⟩
  · unfold TModel.curveFitter
    simp only [hn, bind_ok]
    rfl
  · unfold TModel.curveFitter
    simp only [hn', bind_ok]
    rfl
  · intro curves qs o shifts scalings
    have := fitCurve_same ⟨q, mean, std, run net, s, generatorSimulate engine ((labelParams s).map (·.1)), optimizer⟩ s'
      (restoreLabels_same hs hf _) (applyPreprocessing_same hs hf _)
    exact congrFun (congrFun (congrFun (congrFun (congrFun this curves) qs) o) shifts) scalings

/-- C116: the results for a scan, made with the saved and with the loaded model, agree in every entry but the sample, and the
samples describe the same. -/
theorem C116_result (net : Net) (s : SampleV ℝ) (q mean std : List ℝ) (h : SampleRegular s) (hc : EndsConst s) (hf : FileSample s)
    (d : Str → Option (ModelFile ℝ Net (List ℝ))) (file : Str) (m m₀ : TModel ℝ Net (List ℝ))
    (hm : m = ⟨some net, some s, some q, some mean, some std⟩) (env env' : FitEnv) (he : m.curveFitter engine run optimizer = .ok env)
    (he' : (m₀.fromFile (m.save d file).1 file).1.curveFitter engine run optimizer = .ok env') (checked : Bool) (scan : Scan) (a : FitArgs)
    (dr : Draws) :
    SameSample env.sample env'.sample ∧ fitScan checked (some (.trained env')) (some env') scan a dr =
      Except.map (fun (r : FitResult) => { r with sample := env'.sample }) (fitScan checked (some (.trained env)) (some env) scan a dr) := by
  subst hm
  obtain ⟨-, s', hs, h2⟩ := C72_roundtrip_partial net s q mean std h hc hf d file m₀
  have hn := labelNames_eq h
  have hn' := (labelNames_same hs hf).trans hn
  rw [h2] at he'
  unfold TModel.curveFitter at he he'
  simp only [hn, bind_ok] at he
  simp only [hn', bind_ok] at he'
  cases he
  cases he'
  refine ⟨hs, ?_⟩
  have := fitCurve_same ⟨q, mean, std, run net, s, generatorSimulate engine ((labelParams s).map (·.1)), optimizer⟩ s'
    (restoreLabels_same hs hf _) (applyPreprocessing_same hs hf _)
  unfold fitScan
  simp only [bind_map]
  simp only at this
  rw [this]
  congr 1; funext c
  congr 1; funext qs
  congr 1; funext out
  congr 1; funext refl
  congr 1; funext shift
  unfold makeResult
  simp only
  split <;> rfl

/-- C116: saving or trying to save any model under another name does not change what is loaded. -/
theorem C116_other_file (m m₀ : TModel ℝ Net (List ℝ)) (d : Str → Option (ModelFile ℝ Net (List ℝ))) (file other : Str) (hne : other ≠ file) :
    m₀.fromFile (m.save d other).1 file = m₀.fromFile d file := by
  have h : (m.save d other).1 file = d file := Function.update_of_ne hne.symm _ _
  unfold TModel.fromFile fromFileSteps loadNet fileAt
  rw [h]

/-- A film on silicon with absorption; the SLD of the substrate is a `np.complex128`. -/
def savedSample : SampleV ℝ :=
  { ambient := ⟨.ambient, "air".toList, none, none, some (.const (.real 0) (some "sld".toList))⟩
    substrate := ⟨.substrate, "Si".toList, none, some (.const (.real 1) (some "roughness".toList)),
      some (.const (.cplx true 20 1) (some "sld".toList))⟩
    layers := [⟨.layer, "film".toList, some (.range (.real 20) (.real 1000) (some "thickness".toList)),
      some (.range (.real 0) (.real 100) (some "roughness".toList)), some (.range (.real 1) (.real 14) (some "sld".toList))⟩] }

/-- The hypotheses of `C116_fit` can be met, with a sample that is not read back literally. -/
example : SampleRegular savedSample ∧ EndsConst savedSample ∧ FileSample savedSample ∧ plainSample savedSample ≠ savedSample := by
  have hge : ∀ x y : ℝ, x < y → (Num.real x).ge (.real y) = .ok false := fun x y h => congrArg Except.ok (decide_eq_false (not_le.2 h))
  have hlt : ∀ x : ℝ, 0 ≤ x → (Num.real x).ltZero = .ok false := fun x h => congrArg Except.ok (decide_eq_false (not_lt.2 h))
  refine ⟨⟨⟨rfl, rfl, ⟨_, rfl, ⟨rfl, trivial⟩, hlt 1 (by norm_num)⟩, ⟨_, rfl, ⟨rfl, trivial⟩⟩⟩, ⟨rfl, rfl, rfl, ⟨_, rfl, ⟨rfl, trivial⟩⟩⟩, ?_⟩,
    ⟨?_, ?_⟩, ⟨⟨fun p hp => (by cases hp), fun p hp => (by cases hp), fun p hp => ?_⟩,
    ⟨fun p hp => (by cases hp), fun p hp => ?_, fun p hp => ?_⟩, ?_⟩, ?_⟩
  · intro l hl
    cases List.mem_singleton.1 hl
    exact ⟨.inl rfl, ⟨_, rfl, ⟨rfl, hge 20 1000 (by norm_num)⟩, hlt 20 (by norm_num)⟩,
      ⟨_, rfl, ⟨rfl, hge 0 100 (by norm_num)⟩, hlt 0 le_rfl⟩, ⟨_, rfl, ⟨rfl, hge 1 14 (by norm_num)⟩⟩⟩
  · exact ⟨fun p hp => (by cases hp), fun p hp => (by cases hp; rfl), ⟨_, rfl, rfl⟩⟩
  · exact ⟨fun p hp => (by cases hp), fun p hp => (by cases hp), ⟨_, rfl, rfl⟩⟩
  · cases hp; exact .inl ⟨⟨0, rfl⟩, ⟨0, rfl⟩⟩
  · cases hp; exact ⟨⟨1, rfl⟩, ⟨1, rfl⟩⟩
  · cases hp; exact .inr ⟨rfl, one_ne_zero⟩
  · intro l hl
    cases List.mem_singleton.1 hl
    refine ⟨fun p hp => ?_, fun p hp => ?_, fun p hp => ?_⟩
    · cases hp; exact ⟨⟨20, rfl⟩, ⟨1000, rfl⟩⟩
    · cases hp; exact ⟨⟨0, rfl⟩, ⟨100, rfl⟩⟩
    · cases hp; exact .inl ⟨⟨1, rfl⟩, ⟨14, rfl⟩⟩
  · intro h
    have h : (plainSample savedSample).substrate.sld = savedSample.substrate.sld := by rw [h]
    cases h

end Verif.Props
