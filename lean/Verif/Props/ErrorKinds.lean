import Verif.Props.Dict
import Verif.Model.Fitters
import Verif.Model.Networks
import Verif.Model.Noise
import Verif.Model.TrainedModel
import Verif.Model.Compare
import Verif.Props.Simulate

/-!
# C128: arguments that cannot be used raise the exception of their kind

A caller decides by the kind of the exception what to do. The statements are about the public functions (or, where a function
reads files first, about the step that raises), and say for which arguments the exception is raised.
-/

namespace Verif.Props
open Verif.Py Verif.Model

variable {K : Type} [LinearOrder K] [Zero K]

/-- **C128** (keys of the dictionaries): `AmbientLayer(**d)`, `Substrate(**d)` and `Layer(**d)` raise `TypeError` if `d` has a key
that the class does not take, or lacks one. -/
theorem C128_keys (d : LayerDict K) :
    (d.thickness ≠ none ∨ d.roughness ≠ none ∨ d.sld = none → ambientOfDict d = .error .typeError) ∧
    (d.thickness ≠ none ∨ d.roughness = none ∨ d.sld = none → substrateOfDict d = .error .typeError) ∧
    (d.thickness = none ∨ d.roughness = none ∨ d.sld = none → layerOfDict d = .error .typeError) := by
  obtain ⟨n, t, r, s⟩ := d
  rcases t with _ | t <;> rcases r with _ | r <;> rcases s with _ | s <;>
    simp [ambientOfDict, substrateOfDict, layerOfDict]

/-- **C128** (keys that fit): with the right keys the constructors of the classes are called, so that any error is theirs. -/
theorem C128_right_keys (n : Str) (t r s : Arg K) :
    ambientOfDict ⟨n, none, none, some s⟩ = mkAmbient n s ∧ substrateOfDict ⟨n, none, some r, some s⟩ = mkSubstrate n r s ∧
    layerOfDict ⟨n, some t, some r, some s⟩ = mkLayer n t r s := ⟨rfl, rfl, rfl⟩

/-- **C128** (noise functions): everything but one- and two-dimensional arrays is refused with `ValueError` before a random number is
drawn. -/
theorem C128_noise {G : Type} (rng : NoiseRng G) (s : SpreadArg) (lo hi : ℝ) (g : G) :
    applyPoissonNoise rng .other s g = .error .valueError ∧ applyUniformNoise rng .other lo hi g = .error .valueError ∧
    applyScalingFactor rng .other lo hi g = .error .valueError := ⟨rfl, rfl, rfl⟩

/-- **C128** (prediction): `predict_labels` raises `ValueError` exactly for inputs that are no table of curves with the number of
points of the network, and for column names of the wrong number. -/
theorem C128_predict (nInput nOutput : Nat) (net : List NetLayer) (names : List Str) :
    predictLabels nInput nOutput net names .ragged = .error .valueError ∧
    predictLabels nInput nOutput net names .higher = .error .valueError ∧
    (∀ rows, rows = [] ∨ (∃ r ∈ rows, r.length ≠ nInput) ∨ nOutput ≠ names.length →
      predictLabels nInput nOutput net names (.matrix rows) = .error .valueError) ∧
    (∀ rows, rows ≠ [] → (∀ r ∈ rows, r.length = nInput) → nOutput = names.length →
      ∃ f, predictLabels nInput nOutput net names (.matrix rows) = .ok f) := by
  refine ⟨rfl, rfl, ?_, ?_⟩
  · intro rows h
    show (netPredict nInput net rows >>= fun out => ErrorArg.toFrame names (.array nOutput out)) = _
    unfold netPredict
    by_cases h1 : rows = [] ∨ ∃ r ∈ rows, r.length ≠ nInput
    · rw [if_pos h1]; rfl
    · rw [if_neg h1, bind_ok]
      have h2 : nOutput ≠ names.length := by
        rcases h with h | h | h
        · exact absurd (Or.inl h) h1
        · exact absurd (Or.inr h) h1
        · exact h
      show (if nOutput = names.length then _ else _) = _
      rw [if_neg h2]
  · intro rows h1 h2 h3
    have hn : netPredict nInput net rows = .ok (rows.map (netOut net)) := by
      unfold netPredict
      rw [if_neg]
      rintro (h | ⟨r, hr, hn⟩)
      · exact h1 h
      · exact hn (h2 r hr)
    have hf : ∃ f, ErrorArg.toFrame names (.array nOutput (rows.map (netOut net))) = .ok f := by
      unfold ErrorArg.toFrame
      simp only
      rw [if_pos h3]
      exact ⟨_, rfl⟩
    obtain ⟨f, hf⟩ := hf
    refine ⟨f, ?_⟩
    show (netPredict nInput net rows >>= fun out => ErrorArg.toFrame names (.array nOutput out)) = _
    rw [hn, bind_ok, hf]

/-- The last hypotheses hold for one curve with one point. -/
example : ([[1]] : List (List ℝ)) ≠ [] ∧ (∀ r ∈ ([[1]] : List (List ℝ)), r.length = 1) ∧ 1 = (["a".toList] : List Str).length :=
  ⟨by simp, by simp, rfl⟩

/-- **C128** (listing scans): before a file is set, `show_scans` raises `AttributeError`. -/
theorem C128_show (f : SpecFitter) (h : f.specLoader = none) (lo hi : Option Int) : f.showBody lo hi = .error .attributeError := by
  unfold SpecFitter.showBody
  rw [h]

/-- The hypothesis holds for a new fitter. -/
example : ({ } : SpecFitter).specLoader = none := rfl

/-- **C128** (scan commands): a `.fio` file without a command makes `scan_info` raise `TypeError`, unless a file listed before it
raises. -/
theorem C128_command (stem theta tt : Str) (files : List Str) (command : Str → Res (Option Str)) (ns : List Int)
    (hn : fioScanNumbers stem files = .ok ns) (pre post : List Str) (p : Str) (hp : fioPathList stem files = pre ++ p :: post)
    (hpre : ∀ x ∈ pre, ∃ c, command x = .ok (some c)) (hc : command p = .ok none) :
    fioScanInfo stem theta tt files command = .error .typeError := by
  have hl : ns.length = (pre ++ p :: post).length := by
    rw [← hp]
    unfold fioScanNumbers at hn
    exact (mapM_ok_iff.1 hn).length_eq.symm
  unfold fioScanInfo
  rw [hn, bind_ok, hp]
  clear hn hp
  generalize ([] : List (Int × FioInfo)) = acc
  induction pre generalizing ns acc with
  | nil =>
    rcases ns with _ | ⟨n, ns⟩
    · simp at hl
    · simp only [List.nil_append, List.zip_cons_cons, List.foldlM_cons]
      rw [hc]
      rfl
  | cons x pre ih =>
    rcases ns with _ | ⟨n, ns⟩
    · simp at hl
    · obtain ⟨c, hx⟩ := hpre x (List.mem_cons_self ..)
      simp only [List.cons_append, List.zip_cons_cons, List.foldlM_cons]
      rw [hx]
      exact ih ns (fun y hy => hpre y (List.mem_cons_of_mem _ hy)) (by simpa using hl) _

/-- The hypotheses hold for a single file. -/
example : ∃ ns, fioScanNumbers "s".toList ["s_00001.fio".toList] = .ok ns ∧
    fioPathList "s".toList ["s_00001.fio".toList] = [] ++ "s_00001.fio".toList :: [] := by
  have h : fioPathList "s".toList ["s_00001.fio".toList] = ["s_00001.fio".toList] := by
    unfold fioPathList
    rw [List.filter_cons, if_pos (by decide), List.filter_nil, List.mergeSort_singleton]
  refine ⟨[1], ?_, h⟩
  unfold fioScanNumbers
  rw [h]
  rfl

omit [LinearOrder K] [Zero K] in
/-- **C128** (loading a model): a data set that holds text instead of numbers, or numbers instead of text, raises `TypeError`, a
missing one `KeyError`. -/
theorem C128_members {Net V : Type} (f : ModelFile K Net V) (p : Str → Option (PMember K V)) (hp : f.params = some p) (name : Str) :
    (∀ t, p name = some (.json t) → getArr f name = .error .typeError) ∧
    (∀ v, p nSample = some (.arr v) → getJson f = .error .typeError) ∧
    (p name = none → getArr f name = .error .keyError) ∧ (p nSample = none → getJson f = .error .keyError) := by
  unfold getArr getJson getParam
  rw [hp]
  refine ⟨fun t h => ?_, fun v h => ?_, fun h => ?_, fun h => ?_⟩ <;> simp only [h] <;> rfl

/-- **C128** (spread of the q values): a text that is no number makes `simulate_reflectivity` of the generator raise `ValueError`
before anything is simulated. -/
theorem C128_spread {G : Type} (rng : Rng G) (pf : Str → Option ℝ) (q : List ℝ) (s : Str) (h : pf s = none) (n : Nat) (g : G) :
    makeNoisyQ rng pf q (.str s) n g = .error .valueError := by
  have e : (SpreadVal.str s).toFloat pf = .error .valueError := by
    simp only [SpreadVal.toFloat, h]
  unfold makeNoisyQ
  rw [e]
  rfl

/-- The hypothesis holds for a conversion that knows no numbers. -/
example : (fun _ : Str => (none : Option ℝ)) refl1dS = none := rfl

end Verif.Props
