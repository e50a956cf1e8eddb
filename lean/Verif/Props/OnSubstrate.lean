import Verif.Model.OnSubstrate
import Verif.Props.Dict
import Verif.Props.Copy

/-!
# Property C143: saving, restoring and copying a `LayerOnSubstrate`
-/

namespace Verif.Props
open Verif.Py Verif.Model Verif.Spec
variable {K : Type} [LinearOrder K] [Zero K]

/-- The parts of the dictionary of a sample can be read back one by one. -/
theorem dict_parts (s : SampleV K) (h : SampleRegular s) (hc : EndsConst s) :
    ∃ d, s.toDict = .ok d ∧ ambientOfDict d.ambient = .ok s.ambient ∧ substrateOfDict d.substrate = .ok s.substrate ∧
      d.layers.reverse.mapM layerOfDict = .ok (dictImage s).layers := by
  obtain ⟨a, ha, ha'⟩ := ambient_roundtrip h.ambient hc.ambient
  obtain ⟨b, hb, hb'⟩ := substrate_roundtrip h.substrate hc.substrate
  obtain ⟨ds, hds, hds'⟩ := films_roundtrip h.layers
  refine ⟨⟨a, ds.reverse, b⟩, ?_, ha', hb', ?_⟩
  · unfold SampleV.toDict
    rw [ha, hb, mapM_reverse hds]; rfl
  · rw [List.reverse_reverse]
    exact hds'

theorem addDicts_multilayer {ds : List (LayerDict K)} {ls : List (LayerV K)} (h : ds.mapM layerOfDict = .ok ls) (s : SampleV K) :
    SampleClass.multilayer.addDicts s ds = ({ s with layers := s.layers ++ ls }, .ok ()) := by
  induction ds generalizing s ls with
  | nil => cases h; simp [SampleClass.addDicts]
  | cons d ds ih =>
    rw [mapM_cons] at h
    obtain ⟨l, hl, h⟩ := bind_eq_ok.1 h
    obtain ⟨ls', hls, h⟩ := bind_eq_ok.1 h
    cases h
    simp only [SampleClass.addDicts, hl, SampleClass.addLayer, Verif.Model.addLayer, ih hls, List.append_assoc, List.cons_append, List.nil_append]

theorem addDicts_constant {ds : List (LayerDict K)} {ls : List (LayerV K)} (h : ds.mapM layerOfDict = .ok ls) (s : SampleV K) {c : LayerV K}
    {rest : List (LayerV K)} (hs : s.layers = c :: rest) (hc : c.kind.isConstantLayer = true) :
    SampleClass.onSubstrate.addDicts s ds = ({ s with layers := s.layers ++ ls }, .ok ()) := by
  induction ds generalizing s ls rest with
  | nil => cases h; simp [SampleClass.addDicts]
  | cons d ds ih =>
    rw [mapM_cons] at h
    obtain ⟨l, hl, h⟩ := bind_eq_ok.1 h
    obtain ⟨ls', hls, h⟩ := bind_eq_ok.1 h
    cases h
    have hv : hasVariableLayer (s.layers.map LayerV.kind) = false := by rw [hs, List.map_cons, hasVariableLayer, hc]; rfl
    have e : SampleClass.onSubstrate.addLayer s l .next = ({ s with layers := s.layers ++ [l] }, .ok ()) := by
      simp only [SampleClass.addLayer, Verif.Model.addLayer, hv]
      split_ifs <;> first | rfl | contradiction
    have hs' : ({ s with layers := s.layers ++ [l] } : SampleV K).layers = c :: (rest ++ [l]) := by simp [hs]
    simp only [SampleClass.addDicts, hl, e, ih hls _ hs', List.append_assoc, List.cons_append, List.nil_append]

theorem addDicts_variable {d : LayerDict K} {ds : List (LayerDict K)} {l : LayerV K} (hl : layerOfDict d = .ok l) (hk : l.kind.isConstantLayer = false)
    (s : SampleV K) {c : LayerV K} {rest : List (LayerV K)} (hs : s.layers = c :: rest) (hc : c.kind.isConstantLayer = false) :
    SampleClass.onSubstrate.addDicts s (d :: ds) = (s, .error .valueError) := by
  have hv : hasVariableLayer (s.layers.map LayerV.kind) = true := by rw [hs, List.map_cons, hasVariableLayer, hc]; rfl
  simp only [SampleClass.addDicts, hl, SampleClass.addLayer, hk, hv, if_true, Bool.false_eq_true, if_false]

theorem addDicts_first {d : LayerDict K} {ds : List (LayerDict K)} {l : LayerV K} (hl : layerOfDict d = .ok l)
    (s : SampleV K) (hs : s.layers = []) : SampleClass.onSubstrate.addDicts s (d :: ds) = SampleClass.onSubstrate.addDicts { s with layers := [l] } ds := by
  have e : SampleClass.onSubstrate.addLayer s l .next = ({ s with layers := [l] }, .ok ()) := by
    simp only [SampleClass.addLayer, Verif.Model.addLayer, hs, List.map_nil, hasVariableLayer, List.nil_append]
    split_ifs
    · rfl
    · contradiction
    · rfl
  simp only [SampleClass.addDicts, hl, e]

/-- C143 (partial): a sample with at most one layer is restored on a new `LayerOnSubstrate`, up to the class of a constant layer. Missing: samples with
two or more layers (`C143_not_restored`). -/
theorem C143_restored_partial (s : SampleV K) (h : SampleRegular s) (hc : EndsConst s) (hlen : s.layers.length ≤ 1) :
    ∃ d, s.toDict = .ok d ∧ SampleClass.onSubstrate.fromDict SampleV.fresh d = (dictImage s, .ok ()) := by
  obtain ⟨d, h1, h2, h3, h4⟩ := dict_parts s h hc
  refine ⟨d, h1, ?_⟩
  unfold SampleClass.fromDict
  rw [h2, h3]
  simp only
  have hl : (dictImage s).layers.length = s.layers.length := by simp [dictImage]
  match hd : d.layers.reverse, h4 with
  | [], h4 =>
    have e : (dictImage s).layers = [] := (Except.ok.inj h4).symm
    simp only [SampleClass.addDicts]
    rw [show dictImage s = ⟨s.ambient, s.substrate, (dictImage s).layers⟩ from rfl, e]
    rfl
  | [x], h4 =>
    rw [mapM_cons] at h4
    obtain ⟨l, hx, h4⟩ := bind_eq_ok.1 h4
    obtain ⟨ls', hls, h4⟩ := bind_eq_ok.1 h4
    cases hls
    have e : (dictImage s).layers = [l] := (Except.ok.inj h4).symm
    rw [addDicts_first hx _ rfl]
    simp only [SampleClass.addDicts]
    rw [show dictImage s = ⟨s.ambient, s.substrate, (dictImage s).layers⟩ from rfl, e]
  | x :: y :: ds, h4 =>
    have e := (mapM_ok_iff.1 h4).length_eq
    rw [hl] at e
    simp only [List.length_cons] at e
    omega

/-- The full claim C143 does not hold for the code: no `LayerOnSubstrate` with two or more layers can be restored from its own dictionary, because
all layers of the dictionary become variable layers. The call raises `ValueError`, after the ends and the lowest layer were set. -/
theorem C143_not_restored (s : SampleV K) (h : SampleRegular s) (hc : EndsConst s) (hlen : 2 ≤ s.layers.length) :
    ∃ d, s.toDict = .ok d ∧ SampleClass.onSubstrate.fromDict SampleV.fresh d =
      ({ dictImage s with layers := (dictImage s).layers.take 1 }, .error .valueError) := by
  obtain ⟨d, h1, h2, h3, h4⟩ := dict_parts s h hc
  refine ⟨d, h1, ?_⟩
  unfold SampleClass.fromDict
  rw [h2, h3]
  simp only
  have hl : (dictImage s).layers.length = s.layers.length := by simp [dictImage]
  have hlen' := (mapM_ok_iff.1 h4).length_eq
  rw [hl] at hlen'
  match hd : d.layers.reverse, h4 with
  | [], _ => rw [hd] at hlen'; simp only [List.length_nil] at hlen'; omega
  | [x], _ => rw [hd] at hlen'; simp only [List.length_cons, List.length_nil] at hlen'; omega
  | x :: y :: ds, h4 =>
    rw [mapM_cons] at h4
    obtain ⟨l, hx, h4⟩ := bind_eq_ok.1 h4
    obtain ⟨ls, hls, h4⟩ := bind_eq_ok.1 h4
    rw [mapM_cons] at hls
    obtain ⟨l', hy, hls⟩ := bind_eq_ok.1 hls
    obtain ⟨ls', -, hls⟩ := bind_eq_ok.1 hls
    have e : (dictImage s).layers = l :: l' :: ls' := by
      cases hls
      exact (Except.ok.inj h4).symm
    have kind : ∀ m ∈ (dictImage s).layers, m.kind.isConstantLayer = false := by
      intro m hm
      simp only [dictImage, List.mem_map] at hm
      obtain ⟨m', -, rfl⟩ := hm
      rfl
    rw [addDicts_first hx _ rfl, addDicts_variable hy (kind l' (by simp [e])) _ (rest := []) rfl (kind l (by simp [e]))]
    rw [show dictImage s = ⟨s.ambient, s.substrate, (dictImage s).layers⟩ from rfl, e]
    rfl

/-- C143: on a `MultilayerStructure` the same dictionary gives the whole sample. -/
theorem C143_multilayer (s : SampleV K) (h : SampleRegular s) (hc : EndsConst s) :
    ∃ d, s.toDict = .ok d ∧ SampleClass.multilayer.fromDict SampleV.fresh d = (dictImage s, .ok ()) := by
  obtain ⟨d, h1, h2, h3, h4⟩ := dict_parts s h hc
  refine ⟨d, h1, ?_⟩
  unfold SampleClass.fromDict
  rw [h2, h3]
  simp only
  rw [addDicts_multilayer h4]
  rfl

/-- C143: read into a `LayerOnSubstrate` whose lowest layer is constant, a dictionary adds all its layers as variable layers, however many they are; if
the lowest layer is variable, the call raises and adds none. In both cases the ambient medium and the substrate are replaced. -/
theorem C143_into (s t : SampleV K) (h : SampleRegular s) (hc : EndsConst s) (c : LayerV K) (rest : List (LayerV K)) (ht : t.layers = c :: rest)
    (hne : s.layers ≠ []) :
    ∃ d, s.toDict = .ok d ∧ SampleClass.onSubstrate.fromDict t d =
      if c.kind.isConstantLayer then (⟨s.ambient, s.substrate, t.layers ++ (dictImage s).layers⟩, .ok ())
      else (⟨s.ambient, s.substrate, t.layers⟩, .error .valueError) := by
  obtain ⟨d, h1, h2, h3, h4⟩ := dict_parts s h hc
  refine ⟨d, h1, ?_⟩
  unfold SampleClass.fromDict
  rw [h2, h3]
  simp only
  split_ifs with hk
  · rw [addDicts_constant h4 ⟨s.ambient, s.substrate, t.layers⟩ ht hk]
  · have hlen := (mapM_ok_iff.1 h4).length_eq
    match hd : d.layers.reverse, h4 with
    | [], _ =>
      rw [hd] at hlen
      simp only [dictImage, List.length_nil, List.length_map] at hlen
      exact absurd (List.length_eq_zero_iff.1 hlen.symm) hne
    | x :: ds, h4 =>
      rw [mapM_cons] at h4
      obtain ⟨l, hx, h4⟩ := bind_eq_ok.1 h4
      obtain ⟨ls, -, h4⟩ := bind_eq_ok.1 h4
      have e : (dictImage s).layers = l :: ls := (Except.ok.inj h4).symm
      have kl : l.kind.isConstantLayer = false := by
        have hm : l ∈ (dictImage s).layers := by simp [e]
        simp only [dictImage, List.mem_map] at hm
        obtain ⟨m', -, rfl⟩ := hm
        rfl
      exact addDicts_variable hx kl ⟨s.ambient, s.substrate, t.layers⟩ ht (by simpa using hk)

/-- C143: a copy has the same parts, but is a `MultilayerStructure`, which takes any further layer. -/
theorem C143_copy (s : SampleV K) (h : SampleRegular s) (cl : SampleClass) :
    ∃ cl', cl.copy s = .ok (cl', s) ∧ ∀ l : LayerV K, cl'.addLayer s l .next = ({ s with layers := s.layers ++ [l] }, .ok ()) := by
  refine ⟨.multilayer, ?_, fun l => rfl⟩
  unfold SampleClass.copy
  rw [C10_copy_equal s h]
  rfl

/-- The usual sample, an oxide and a film on silicon, is one that cannot be restored. -/
example : ∃ d, exampleSample.toDict = .ok d ∧ SampleClass.onSubstrate.fromDict SampleV.fresh d =
    ({ dictImage exampleSample with layers := (dictImage exampleSample).layers.take 1 }, .error .valueError) :=
  C143_not_restored exampleSample exampleSample_regular ⟨⟨by simp [exampleSample], by intro p hp; cases hp; rfl, _, rfl, rfl⟩,
    ⟨by simp [exampleSample], by simp [exampleSample], _, rfl, rfl⟩⟩ (by simp [exampleSample])

/-- Hypotheses of the other theorems. -/
example : ∃ d, exampleSample.toDict = .ok d ∧ SampleClass.onSubstrate.fromDict exampleSample d =
    (⟨exampleSample.ambient, exampleSample.substrate, exampleSample.layers ++ (dictImage exampleSample).layers⟩, .ok ()) :=
  C143_into exampleSample exampleSample exampleSample_regular ⟨⟨by simp [exampleSample], by intro p hp; cases hp; rfl, _, rfl, rfl⟩,
    ⟨by simp [exampleSample], by simp [exampleSample], _, rfl, rfl⟩⟩ _ _ rfl (by simp [exampleSample])

end Verif.Props
