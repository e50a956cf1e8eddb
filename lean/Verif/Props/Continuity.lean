import Verif.Props.Flux
import Mathlib.Topology.Instances.Matrix
import Mathlib.Analysis.SpecialFunctions.Pow.Continuity

/-!
# C107: simulated curves depend continuously on all parameters
-/

namespace Verif.Props
open Verif.Py Verif.Model Verif.Spec Complex Filter Topology
variable {X : Type} [TopologicalSpace X]

theorem codeWave_continuous {q : X → ℝ} {ρ : X → ℂ} (hq : Continuous q) (hρ : Continuous ρ) (h : ∀ x, 0 ≤ (ρ x).im) :
    Continuous fun x => codeWave (q x) (ρ x) := by
  rw [continuous_iff_continuousAt]
  intro x
  have harg : Continuous fun x => ((q x : ℂ) / 2) ^ 2 - 4 * (Real.pi : ℂ) * (ρ x + delta) := by fun_prop
  have him : (((q x : ℂ) / 2) ^ 2 - 4 * (Real.pi : ℂ) * (ρ x + delta)).im < 0 := by
    rw [codeWave_arg_im]
    have := Real.pi_pos
    have h' : (0 : ℝ) < (ρ x).im + 1e-30 := by
      have : (0 : ℝ) < 1e-30 := by norm_num
      linarith [h x]
    nlinarith
  have hs : (((q x : ℂ) / 2) ^ 2 - 4 * (Real.pi : ℂ) * (ρ x + delta)) ∈ slitPlane := Or.inr him.ne
  exact ContinuousAt.comp (f := fun x => ((q x : ℂ) / 2) ^ 2 - 4 * (Real.pi : ℂ) * (ρ x + delta)) (g := fun z : ℂ => z ^ (1 / 2 : ℂ))
    (continuousAt_id.cpow continuousAt_const hs) harg.continuousAt

theorem interfaceMatrix_continuous {k k' : X → ℂ} {σ : X → ℝ} (hk : Continuous k) (hk' : Continuous k') (hσ : Continuous σ)
    (h : ∀ x, k x ≠ 0) : Continuous fun x => interfaceMatrix (k x) (k' x) (σ x) := by
  have h2 : ∀ x, 2 * k x ≠ 0 := fun x => mul_ne_zero two_ne_zero (h x)
  refine continuous_matrix fun i j => ?_
  unfold interfaceMatrix
  fin_cases i <;> fin_cases j <;> simp <;> fun_prop (disch := assumption)

theorem layerMatrix_continuous {k : X → ℂ} {d : X → ℝ} (hk : Continuous k) (hd : Continuous d) :
    Continuous fun x => layerMatrix (k x) (d x) := by
  refine continuous_matrix fun i j => ?_
  unfold layerMatrix
  fin_cases i <;> fin_cases j <;> simp <;> fun_prop

/-- A family of stacks: all numbers are continuous and the media physical. -/
structure ContSlab (a : X → Slab) : Prop where
  roughness : Continuous fun x => (a x).roughness
  sld : Continuous fun x => (a x).sld
  thickness : Continuous fun x => (a x).thickness
  physical : ∀ x, 0 ≤ (a x).sld.im

theorem stack_continuous {q : X → ℝ} (hq : Continuous q) (l : List (X → Slab)) (hl : ∀ a ∈ l, ContSlab a) {ρ : X → ℂ} (hρ : Continuous ρ)
    (h : ∀ x, 0 ≤ (ρ x).im) :
    Continuous fun x => stackMatrix (codeWave (q x)) (codeWave (q x) (ρ x)) (l.map fun (a : X → Slab) => a x) := by
  induction l generalizing ρ with
  | nil => exact continuous_const
  | cons a l ih =>
    have ha := hl a (by simp)
    have k0 := codeWave_continuous hq hρ h
    have k1 := codeWave_continuous hq ha.sld ha.physical
    exact ((interfaceMatrix_continuous k0 k1 ha.roughness fun x => codeWave_ne_zero _ (h x)).matrix_mul
      (layerMatrix_continuous k1 ha.thickness)).matrix_mul
      (ih (fun b hb => hl b (by simp [hb])) ha.sld ha.physical)

/-- The values of a list of functions. -/
def at_ {α : Type} (l : List (X → α)) (x : X) : List α := l.map fun (f : X → α) => f x

omit [TopologicalSpace X] in
theorem slabs_at (t r : List (X → ℝ)) (s : List (X → ℂ)) (x : X) :
    slabs (at_ t x) (at_ r x) (at_ s x) =
      (List.zipWith (fun (p : (X → ℝ) × (X → ℂ)) (d : X → ℝ) (x : X) => (⟨p.1 x, p.2 x, d x⟩ : Slab)) (r.zip s)
        ((fun _ => 0) :: t)).reverse.map fun (a : X → Slab) => a x := by
  unfold slabs at_
  rw [List.map_reverse, List.map_zipWith, List.zip_map]
  have : (0 : ℝ) :: t.map (fun f => f x) = ((fun _ => 0) :: t).map fun (f : X → ℝ) => f x := rfl
  rw [this, List.zipWith_map]
  rfl

theorem familyMatrix_continuous {q : X → ℝ} (hq : Continuous q) (t r : List (X → ℝ)) (s : List (X → ℂ)) (ht : ∀ f ∈ t, Continuous f)
    (hr : ∀ f ∈ r, Continuous f) (hs : ∀ f ∈ s, Continuous f) (hp : ∀ f ∈ s, ∀ x, 0 ≤ (f x).im) :
    Continuous fun x => stackMatrix (codeWave (q x)) (codeWave (q x) 0) (slabs (at_ t x) (at_ r x) (at_ s x)) := by
  simp only [slabs_at]
  refine stack_continuous hq _ ?_ continuous_const (by simp)
  intro a ha
  rw [List.mem_reverse] at ha
  obtain ⟨p, hp', d, hd, rfl⟩ := mem_zipWith ha
  have hz := List.of_mem_zip (show (p.1, p.2) ∈ r.zip s from hp')
  refine ⟨hr _ hz.1, hs _ hz.2, ?_, hp _ hz.2⟩
  rcases List.mem_cons.1 hd with rfl | hd
  · exact continuous_const
  · exact ht _ hd

/-- C107: let thicknesses, roughnesses, densities and the q value depend continuously on a parameter. Where the simulated value is a
number, it is a number for all nearby parameters as well, and close to it. -/
theorem C107_continuous (q : X → ℝ) (hq : Continuous q) (t r : List (X → ℝ)) (s : List (X → ℂ)) (h1 : t.length + 1 = r.length)
    (h2 : r.length = s.length) (ht : ∀ f ∈ t, Continuous f) (hr : ∀ f ∈ r, Continuous f) (hs : ∀ f ∈ s, Continuous f)
    (hp : ∀ f ∈ s, ∀ x, 0 ≤ (f x).im) (x₀ : X) (v₀ : ℝ)
    (h₀ : multilayerReflectivity [q x₀] (at_ t x₀) (at_ r x₀) (at_ s x₀) 0 = .ok [some v₀]) (ε : ℝ) (hε : 0 < ε) :
    ∀ᶠ x in 𝓝 x₀, ∃ v, multilayerReflectivity [q x] (at_ t x) (at_ r x) (at_ s x) 0 = .ok [some v] ∧ |v - v₀| < ε := by
  set M : X → Matrix (Fin 2) (Fin 2) ℂ :=
    fun x => stackMatrix (codeWave (q x)) (codeWave (q x) 0) (slabs (at_ t x) (at_ r x) (at_ s x)) with hM
  have hval : ∀ x, multilayerReflectivity [q x] (at_ t x) (at_ r x) (at_ s x) 0 = .ok [intensity (M x)] := by
    intro x
    rw [C35_transfer [q x] _ _ _ (by simpa [at_] using h1) (by simpa [at_] using h2)
      (by intro ρ hρ; obtain ⟨f, hf, rfl⟩ := List.mem_map.1 hρ; exact hp f hf x) codeWave fun q ρ h => (codeWave_isWave q h).1]
    rfl
  have hc : Continuous M := familyMatrix_continuous hq t r s ht hr hs hp
  have c01 : Continuous fun x => M x 0 1 := hc.matrix_elem 0 1
  have c11 : Continuous fun x => M x 1 1 := hc.matrix_elem 1 1
  rw [hval] at h₀
  have h₀' : intensity (M x₀) = some v₀ := by simpa using h₀
  unfold intensity at h₀'
  split_ifs at h₀' with hne
  have hv₀ : min (‖M x₀ 0 1 / M x₀ 1 1‖ ^ 2) 1 = v₀ := by simpa using h₀'
  have hcont : ContinuousAt (fun x => min (‖M x 0 1 / M x 1 1‖ ^ 2) 1) x₀ :=
    (((c01.continuousAt.div c11.continuousAt hne).norm).pow 2).min continuousAt_const
  filter_upwards [c11.continuousAt.eventually_ne hne, Metric.continuousAt_iff'.1 hcont ε hε] with x hx hx'
  refine ⟨min (‖M x 0 1 / M x 1 1‖ ^ 2) 1, ?_, ?_⟩
  · rw [hval]
    unfold intensity
    rw [if_neg hx]
  · rw [← hv₀]
    exact hx'

/-- C107: with sharp interfaces the value is a continuous function of all parameters. -/
theorem C107_sharp (q : X → ℝ) (hq : Continuous q) (t : List (X → ℝ)) (s : List (X → ℂ)) (h1 : t.length + 1 = s.length)
    (ht : ∀ f ∈ t, Continuous f) (h0 : ∀ f ∈ t, ∀ x, 0 ≤ f x) (hs : ∀ f ∈ s, Continuous f) (hp : ∀ f ∈ s, ∀ x, 0 ≤ (f x).im) :
    ∃ v : X → ℝ, Continuous v ∧ ∀ x, multilayerReflectivity [q x] (at_ t x) (List.replicate s.length 0) (at_ s x) 0 = .ok [some (v x)] := by
  have hrep : ∀ x, List.replicate s.length (0 : ℝ) = at_ (List.replicate s.length (fun _ : X => (0 : ℝ))) x := fun x => by
    unfold at_; rw [List.map_replicate]
  have hex : ∀ x, ∃ v, multilayerReflectivity [q x] (at_ t x) (List.replicate s.length 0) (at_ s x) 0 = .ok [some v] := by
    intro x
    obtain ⟨c, hc, hl, -⟩ := C34_sharp [q x] (at_ t x) (List.replicate s.length 0) (at_ s x) (by simpa [at_] using h1) (by simp [at_])
      (by intro ρ hρ; obtain ⟨f, hf, rfl⟩ := List.mem_map.1 hρ; exact hp f hf x) (by intro y hy; exact (List.mem_replicate.1 hy).2)
      (by intro d hd; obtain ⟨f, hf, rfl⟩ := List.mem_map.1 hd; exact h0 f hf x)
    obtain ⟨v, rfl⟩ := List.length_eq_one_iff.1 hl
    exact ⟨v, hc⟩
  choose v hv using hex
  refine ⟨v, ?_, hv⟩
  rw [continuous_iff_continuousAt]
  intro x
  rw [Metric.continuousAt_iff']
  intro ε hε
  have := C107_continuous q hq t (List.replicate s.length (fun _ : X => (0 : ℝ))) s (by simpa using h1) (by simp) ht
    (by intro f hf; rw [(List.mem_replicate.1 hf).2]; exact continuous_const) hs hp x (v x) (by rw [← hrep]; exact hv x) ε hε
  filter_upwards [this] with y hy
  obtain ⟨w, hw, hlt⟩ := hy
  rw [← hrep, hv y] at hw
  have : v y = w := by simpa using hw
  rw [this]
  exact hlt

/-- The hypotheses hold: a layer whose thickness grows with the parameter on a fixed substrate, at a fixed q value. -/
example : ∃ v : ℝ → ℝ, Continuous v ∧ ∀ x, multilayerReflectivity [1] [x ^ 2] [0, 0] [2, 1] 0 = .ok [some (v x)] := by
  obtain ⟨v, h1, h2⟩ := C107_sharp (X := ℝ) (fun _ => 1) continuous_const [fun x => x ^ 2] [fun _ => 2, fun _ => 1] rfl
    (by simpa using continuous_pow 2) (by simpa using fun x => sq_nonneg x) (by simpa using ⟨continuous_const, continuous_const⟩)
    (by simp)
  exact ⟨v, h1, fun x => h2 x⟩

end Verif.Props
