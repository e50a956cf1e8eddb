import Verif.Props.Layers

/-!
# C08, C09: dictionary representation of a sample
-/

set_option linter.unusedSectionVars false

namespace Verif.Props
open Verif.Py Verif.Model Verif.Spec
variable {K : Type} [LinearOrder K] [Zero K]

/-- Substrate and ambient hold constants, as documented (layers.py l.156-158, l.189-190). -/
structure EndsConst (s : SampleV K) : Prop where
  substrate : AllConst s.substrate
  ambient : AllConst s.ambient

theorem dict_num_roundtrip (v : Num K) : ifDictToComplex (ifComplexToDict v) = v := by
  unfold ifComplexToDict
  cases v with
  | real x => simp [Num.isComplex, Num.im, ifDictToComplex]
  | cplx np a b => split <;> rfl

theorem setParameter_parse {p : Param K} {nm : Str} (h : ParamRegular nm p) :
    setParameter (parseParameter p) nm = .ok (some p) := by
  obtain ⟨hn, hv⟩ := h
  cases p with
  | range a b n =>
    simp only [Param.name] at hn
    subst hn
    simp only [ParamValid] at hv
    have e : setParameter (parseParameter (.range a b (some nm))) nm = (do
        return some (← Param.mk (ifDictToComplex (ifComplexToDict a)) (ifDictToComplex (ifComplexToDict b))
          (some nm)) : Res (Option (Param K))) := rfl
    rw [e, dict_num_roundtrip, dict_num_roundtrip]
    simp [Param.mk, hv, pure, Except.pure]
  | const v n =>
    simp only [Param.name] at hn
    subst hn
    simp [parseParameter, setParameter, dict_num_roundtrip]

theorem setParameterConstant_parse {p : Param K} {nm : Str} (h : ParamRegular nm p) (hc : p.isConst) :
    setParameterConstant (parseParameter p) nm = .ok (some p) := by
  obtain ⟨hn, -⟩ := h
  cases p with
  | range a b n => simp [Param.isConst] at hc
  | const v n =>
    simp only [Param.name] at hn
    subst hn
    simp [parseParameter, setParameterConstant, dict_num_roundtrip]

theorem checkNonneg_of {p : Param K} (h : p.min.ltZero = .ok false) : checkNonneg (some p) = .ok p := by
  simp [checkNonneg, h]

theorem film_roundtrip {l : LayerV K} (h : FilmRegular l) :
    ∃ d, l.toDict = .ok d ∧ layerOfDict d = .ok { l with kind := .layer } := by
  obtain ⟨t, ht, ht1, ht2⟩ := h.thickness
  obtain ⟨r, hr, hr1, hr2⟩ := h.roughness
  obtain ⟨s, hs, hs1⟩ := h.sld
  refine ⟨⟨l.name, some (parseParameter t), some (parseParameter r), some (parseParameter s)⟩, ?_, ?_⟩
  · simp only [LayerV.toDict, hs, ht, hr]; rfl
  · have e : layerOfDict ⟨l.name, some (parseParameter t), some (parseParameter r),
        some (parseParameter s)⟩ = mkLayer l.name (parseParameter t) (parseParameter r) (parseParameter s) := rfl
    rw [e]
    unfold mkLayer
    rw [setParameter_parse ht1, setParameter_parse hr1, setParameter_parse hs1]
    simp only [bind_ok]
    rw [checkNonneg_of ht2, checkNonneg_of hr2]
    simp only [bind_ok, ← ht, ← hr, ← hs]
    rfl

theorem substrate_roundtrip {l : LayerV K} (h : SubstrateRegular l) (hc : AllConst l) :
    ∃ d, l.toDict = .ok d ∧ substrateOfDict d = .ok l := by
  obtain ⟨r, hr, hr1, hr2⟩ := h.roughness
  obtain ⟨s, hs, hs1⟩ := h.sld
  have hcr := hc.2.1 r hr
  have hcs : s.isConst := by
    obtain ⟨q, hq, hqc⟩ := hc.2.2
    rw [hs] at hq; cases hq; exact hqc
  refine ⟨⟨l.name, none, some (parseParameter r), some (parseParameter s)⟩, ?_, ?_⟩
  · simp only [LayerV.toDict, hs, hr, h.thickness]; rfl
  · have e : substrateOfDict ⟨l.name, none, some (parseParameter r), some (parseParameter s)⟩ =
        mkSubstrate l.name (parseParameter r) (parseParameter s) := rfl
    rw [e]
    unfold mkSubstrate
    rw [setParameterConstant_parse hr1 hcr, setParameterConstant_parse hs1 hcs]
    simp only [bind_ok]
    rw [checkNonneg_of hr2]
    simp only [bind_ok, ← hr, ← hs, ← h.kind, ← h.thickness]
    rfl

theorem ambient_roundtrip {l : LayerV K} (h : AmbientRegular l) (hc : AllConst l) :
    ∃ d, l.toDict = .ok d ∧ ambientOfDict d = .ok l := by
  obtain ⟨s, hs, hs1⟩ := h.sld
  have hcs : s.isConst := by
    obtain ⟨q, hq, hqc⟩ := hc.2.2
    rw [hs] at hq; cases hq; exact hqc
  refine ⟨⟨l.name, none, none, some (parseParameter s)⟩, ?_, ?_⟩
  · simp only [LayerV.toDict, hs, h.roughness, h.thickness]; rfl
  · have e : ambientOfDict ⟨l.name, none, none, some (parseParameter s)⟩ =
        mkAmbient l.name (parseParameter s) := rfl
    rw [e]
    unfold mkAmbient
    rw [setParameterConstant_parse hs1 hcs]
    simp only [bind_ok]
    rcases l with ⟨k, n, t, r, s'⟩
    obtain ⟨h1, h2, h3, -⟩ := h
    simp only at h1 h2 h3 hs
    subst h1 h2 h3 hs
    rfl

theorem films_roundtrip {ls : List (LayerV K)} (h : ∀ l ∈ ls, FilmRegular l) :
    ∃ ds, ls.mapM LayerV.toDict = .ok ds ∧
      ds.mapM layerOfDict = .ok (ls.map fun l => { l with kind := .layer }) := by
  induction ls with
  | nil => exact ⟨[], rfl, rfl⟩
  | cons l ls ih =>
    obtain ⟨d, h1, h2⟩ := film_roundtrip (h l (by simp))
    obtain ⟨ds, h3, h4⟩ := ih fun l hl => h l (by simp [hl])
    refine ⟨d :: ds, ?_, ?_⟩
    · rw [mapM_cons, h1, h3]; rfl
    · rw [mapM_cons, h2, h4]; rfl

theorem mapM_reverse {α β : Type} {f : α → Res β} {l : List α} {r : List β} (h : l.mapM f = .ok r) :
    l.reverse.mapM f = .ok r.reverse := by
  rw [mapM_ok_iff] at h ⊢
  exact List.forall₂_reverse_iff.2 h

/-- What `from_dict` reproduces of a sample: everything except the class `ConstantLayer`, which is
not part of the dictionary. -/
def dictImage (s : SampleV K) : SampleV K :=
  { s with layers := s.layers.map fun l => { l with kind := .layer } }

theorem toDict_fromDict (s t : SampleV K) (h : SampleRegular s) (hc : EndsConst s) :
    ∃ d, s.toDict = .ok d ∧
      t.fromDict d = .ok { dictImage s with layers := t.layers ++ (dictImage s).layers } := by
  obtain ⟨a, ha, ha'⟩ := ambient_roundtrip h.ambient hc.ambient
  obtain ⟨b, hb, hb'⟩ := substrate_roundtrip h.substrate hc.substrate
  obtain ⟨ds, hds, hds'⟩ := films_roundtrip h.layers
  refine ⟨⟨a, ds.reverse, b⟩, ?_, ?_⟩
  · unfold SampleV.toDict
    rw [ha, hb, mapM_reverse hds]; rfl
  · unfold SampleV.fromDict
    simp only [ha', hb', List.reverse_reverse, hds', bind_ok]
    rfl

/-- C08: `from_dict(to_dict(s))` on a new structure reproduces substrate, ambient and all layers in
order, with names, constants, ranges and complex values. -/
theorem C08_dict_roundtrip (s : SampleV K) (h : SampleRegular s) (hc : EndsConst s) :
    ∃ d s', s.toDict = .ok d ∧ SampleV.fresh.fromDict d = .ok s' ∧
      s'.ambient = s.ambient ∧ s'.substrate = s.substrate ∧
      s'.layers.map (·.name) = s.layers.map (·.name) ∧
      s'.layers.map (·.thickness) = s.layers.map (·.thickness) ∧
      s'.layers.map (·.roughness) = s.layers.map (·.roughness) ∧
      s'.layers.map (·.sld) = s.layers.map (·.sld) := by
  obtain ⟨d, h1, h2⟩ := toDict_fromDict s SampleV.fresh h hc
  refine ⟨d, _, h1, h2, rfl, rfl, ?_, ?_, ?_, ?_⟩ <;>
    simp [dictImage, SampleV.fresh, Function.comp_def]

/-- C09 (partial): `from_dict` gives exactly the described layers if the structure had no layers.
Missing: on a structure with layers the described layers are added to the existing ones
(`C09_from_dict_appends`). -/
theorem C09_from_dict_sets_partial (t : SampleV K) (ht : t.layers = []) (d : SampleDict K)
    (s' : SampleV K) (h : SampleV.fresh.fromDict d = .ok s') : t.fromDict d = .ok s' := by
  unfold SampleV.fromDict at h ⊢
  rw [ht]
  exact h

/-- The full claim C09 does not hold for the code: `from_dict` keeps whatever layers were there
before, below the described ones. -/
theorem C09_from_dict_appends (t : SampleV K) (d : SampleDict K) (s' : SampleV K)
    (h : SampleV.fresh.fromDict d = .ok s') :
    ∃ s'', t.fromDict d = .ok s'' ∧ s''.layers = t.layers ++ s'.layers ∧
      s''.ambient = s'.ambient ∧ s''.substrate = s'.substrate := by
  unfold SampleV.fromDict at h ⊢
  obtain ⟨a, ha, h⟩ := bind_eq_ok.1 h
  obtain ⟨b, hb, h⟩ := bind_eq_ok.1 h
  obtain ⟨ls, hl, h⟩ := bind_eq_ok.1 h
  cases h
  rw [ha, hb, hl]
  exact ⟨_, rfl, rfl, rfl, rfl⟩

/-- A sample with one complex range, one real range and a constant layer, as instance of the
hypotheses. -/
def exampleSample : SampleV Int :=
  { ambient := ⟨.ambient, "air".toList, none, none, some (.const (.real 0) (some "sld".toList))⟩
    substrate := ⟨.substrate, "Si".toList, none, some (.const (.real 1) (some "roughness".toList)),
      some (.const (.cplx false 20 1) (some "sld".toList))⟩
    layers := [
      ⟨.constantLayer, "SiOx".toList, some (.const (.real 10) (some "thickness".toList)),
        some (.const (.real 2) (some "roughness".toList)), some (.const (.real 17) (some "sld".toList))⟩,
      ⟨.layer, "film".toList, some (.range (.real 20) (.real 1000) (some "thickness".toList)),
        some (.range (.real 0) (.real 100) (some "roughness".toList)),
        some (.range (.cplx true 1 0) (.cplx true 14 3) (some "sld".toList))⟩] }

theorem exampleSample_regular : SampleRegular exampleSample := by
  refine ⟨⟨rfl, rfl, ⟨_, rfl, ⟨rfl, trivial⟩, rfl⟩, ⟨_, rfl, ⟨rfl, trivial⟩⟩⟩,
    ⟨rfl, rfl, rfl, ⟨_, rfl, ⟨rfl, trivial⟩⟩⟩, ?_⟩
  intro l hl
  simp only [exampleSample, List.mem_cons, List.not_mem_nil, or_false] at hl
  rcases hl with rfl | rfl
  · exact ⟨Or.inr rfl, ⟨_, rfl, ⟨rfl, trivial⟩, rfl⟩, ⟨_, rfl, ⟨rfl, trivial⟩, rfl⟩,
      ⟨_, rfl, ⟨rfl, trivial⟩⟩⟩
  · exact ⟨Or.inl rfl, ⟨_, rfl, ⟨rfl, rfl⟩, rfl⟩, ⟨_, rfl, ⟨rfl, rfl⟩, rfl⟩, ⟨_, rfl, ⟨rfl, rfl⟩⟩⟩

example : EndsConst exampleSample :=
  ⟨⟨fun p hp => (by cases hp), fun p hp => (by cases hp; rfl), _, rfl, rfl⟩,
   ⟨fun p hp => (by cases hp), fun p hp => (by cases hp), _, rfl, rfl⟩⟩

example : (partNames exampleSample).Nodup := by decide

end Verif.Props
