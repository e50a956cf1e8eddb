import Verif.Props.Irreducible
import Mathlib.Analysis.Analytic.IsolatedZeros
import Mathlib.Analysis.Analytic.Constructions
import Mathlib.Analysis.SpecialFunctions.Complex.Analytic
import Mathlib.Topology.Compactness.Lindelof
import Mathlib.LinearAlgebra.Lagrange
import Mathlib.Topology.Algebra.Polynomial

/-!
# Property C144: no two random samples have the same value

The reflectivity at a momentum transfer is an analytic function of the thickness of a layer. A value is therefore taken for countably many thicknesses
only, unless the thickness has no effect at all. Since the thicknesses of random samples have continuous distributions, two samples of a training
set have different values at every momentum transfer, with probability one.
-/

namespace Verif.Props
open Verif.Py Verif.Model Verif.Spec Verif.Lemmas Complex MeasureTheory ProbabilityTheory

/-! ### The waves of a layer -/

/-- The wave behind a layer as a function of its thickness. -/
noncomputable def twoWaves (α β k : ℂ) (d : ℝ) : ℂ := α * cexp (-(I * k * d)) + β * cexp (I * k * d)

theorem twoWaves_normSq (α β k : ℂ) (d : ℝ) :
    normSq (twoWaves α β k d) = normSq α * Real.exp (2 * k.im * d) + normSq β * Real.exp (-(2 * k.im * d)) +
      2 * (α * (starRingEnd ℂ) β * cexp (-(2 * k.re * d) * I)).re := by
  unfold twoWaves
  rw [normSq_add]
  have e1 : normSq (cexp (-(I * k * d))) = Real.exp (2 * k.im * d) := by
    rw [normSq_eq_norm_sq, Complex.norm_exp, ← Real.exp_nat_mul]
    congr 1
    simp
    ring
  have e2 : normSq (cexp (I * k * d)) = Real.exp (-(2 * k.im * d)) := by
    rw [normSq_eq_norm_sq, Complex.norm_exp, ← Real.exp_nat_mul]
    congr 1
    simp
    ring
  have e3 : α * cexp (-(I * k * d)) * (starRingEnd ℂ) (β * cexp (I * k * d)) = α * (starRingEnd ℂ) β * cexp (-(2 * k.re * d) * I) := by
    rw [map_mul, ← Complex.exp_conj]
    have : cexp (-(2 * k.re * d) * I) = cexp (-(I * k * d)) * cexp ((starRingEnd ℂ) (I * k * d)) := by
      rw [← Complex.exp_add]
      congr 1
      apply Complex.ext <;> simp <;> ring
    rw [this]
    ring
  rw [normSq_mul, normSq_mul, e1, e2, e3]

theorem twoWaves_analytic (α β k : ℂ) : AnalyticOnNhd ℝ (twoWaves α β k) Set.univ := by
  intro d _
  have h1 : AnalyticAt ℝ (fun d : ℝ => (d : ℂ)) d := Complex.ofRealCLM.analyticAt d
  have h2 : AnalyticAt ℝ (fun d : ℝ => I * k * (d : ℂ)) d := analyticAt_const.mul h1
  have ex : ∀ z : ℂ, AnalyticAt ℝ cexp z := fun z => analyticAt_cexp.restrictScalars
  unfold twoWaves
  exact (analyticAt_const.mul ((ex _).comp h2.neg)).add (analyticAt_const.mul ((ex _).comp h2))

/-- An analytic function vanishes everywhere or at countably many places. -/
theorem analytic_zeros {f : ℝ → ℝ} (h : AnalyticOnNhd ℝ f Set.univ) : {d | f d = 0}.Countable ∨ ∀ d, f d = 0 := by
  rcases h.eqOn_zero_or_eventually_ne_zero_of_preconnected isPreconnected_univ with h0 | h0
  · exact Or.inr fun d => h0 (Set.mem_univ d)
  · left
    have iso : ∀ d, ∀ᶠ x in nhdsWithin d {d}ᶜ, f x ≠ 0 := by
      intro d
      have := h0
      rw [Filter.Eventually, mem_codiscreteWithin] at this
      have := this d (Set.mem_univ d)
      rw [Filter.disjoint_principal_right] at this
      filter_upwards [this] with x hx
      simpa using hx
    have : DiscreteTopology {d | f d = 0} := by
      rw [discreteTopology_subtype_iff]
      intro d _
      rw [Filter.inf_principal_eq_bot]
      exact iso d
    exact Set.countable_coe_iff.1 (countable_of_Lindelof_of_discrete (X := {d | f d = 0}))

/-- The ratio of two waves has a value for countably many thicknesses only, or for all. -/
theorem waves_dichotomy (α β γ δ k : ℂ) (v : ℝ) :
    {d | normSq (twoWaves α β k d) = v * normSq (twoWaves γ δ k d)}.Countable ∨ ∀ d, normSq (twoWaves α β k d) = v * normSq (twoWaves γ δ k d) := by
  have an : ∀ α β : ℂ, AnalyticOnNhd ℝ (fun d => normSq (twoWaves α β k d)) Set.univ := by
    intro α β d hd
    have h := twoWaves_analytic α β k d hd
    have h1 : AnalyticAt ℝ (fun d => (twoWaves α β k d).re) d := (Complex.reCLM.analyticAt _).comp h
    have h2 : AnalyticAt ℝ (fun d => (twoWaves α β k d).im) d := (Complex.imCLM.analyticAt _).comp h
    simp only [normSq_apply]
    exact (h1.mul h1).add (h2.mul h2)
  rcases analytic_zeros ((an α β).sub (analyticOnNhd_const.mul (an γ δ)) (f := fun d => normSq (twoWaves α β k d)) (g := fun d => v * normSq (twoWaves γ δ k d)))
    with h | h
  · left
    convert h using 3 with d
    exact sub_eq_zero.symm
  · exact Or.inr fun d => sub_eq_zero.1 (h d)

/-- With absorption, a ratio that does not depend on the thickness is the one of both waves. -/
theorem waves_constant {α β γ δ k : ℂ} (hi : k.im ≠ 0) (hr : k.re ≠ 0) {v : ℝ}
    (h : ∀ d, normSq (twoWaves α β k d) = v * normSq (twoWaves γ δ k d)) : normSq α = v * normSq γ ∧ normSq β = v * normSq δ := by
  set E := Real.exp (2 * k.im * (Real.pi / k.re)) with hE
  have E0 : 0 < E := Real.exp_pos _
  have E1 : E ≠ 1 := by
    rw [hE, Ne, Real.exp_eq_one_iff]
    have := Real.pi_ne_zero
    positivity
  have per : ∀ (z : ℂ) (n : ℕ), z * cexp (-(2 * k.re * ((n * (Real.pi / k.re) : ℝ) : ℂ)) * I) = z := by
    intro z n
    have : (-(2 * k.re * ((n * (Real.pi / k.re) : ℝ) : ℂ)) * I) = -(n * (2 * Real.pi * I)) := by
      have : (k.re : ℂ) ≠ 0 := by exact_mod_cast hr
      push_cast
      field_simp
    rw [this, Complex.exp_neg, Complex.exp_nat_mul_two_pi_mul_I, inv_one, mul_one]
  have val : ∀ n : ℕ, normSq α * E ^ n + normSq β * (E ^ n)⁻¹ + 2 * (α * (starRingEnd ℂ) β).re =
      v * (normSq γ * E ^ n + normSq δ * (E ^ n)⁻¹ + 2 * (γ * (starRingEnd ℂ) δ).re) := by
    intro n
    have := h (n * (Real.pi / k.re))
    rw [twoWaves_normSq, twoWaves_normSq, per, per] at this
    have e : Real.exp (2 * k.im * (n * (Real.pi / k.re))) = E ^ n := by
      rw [hE, ← Real.exp_nat_mul]
      congr 1
      ring
    rw [Real.exp_neg, e] at this
    exact this
  have v0 := val 0
  have v1 := val 1
  have v2 := val 2
  simp only [pow_zero, pow_one, inv_one, mul_one] at v0 v1
  generalize (α * (starRingEnd ℂ) β).re = x at v0 v1 v2
  generalize (γ * (starRingEnd ℂ) δ).re = y at v0 v1 v2
  field_simp at v1 v2
  have E1' : E - 1 ≠ 0 := sub_ne_zero.2 E1
  have E2 : E + 1 ≠ 0 := by positivity
  have k1 : (normSq α - v * normSq γ) * E = normSq β - v * normSq δ := by
    apply mul_left_cancel₀ E1'
    linear_combination v1 - E * v0
  have k2 : (normSq α - v * normSq γ) * E ^ 3 = normSq β - v * normSq δ := by
    apply mul_left_cancel₀ E1'
    linear_combination v2 - E * v1
  have k3 : (normSq α - v * normSq γ) * (E * (E - 1) * (E + 1)) = 0 := by linear_combination k2 - k1
  have k4 : normSq α - v * normSq γ = 0 := by
    rcases mul_eq_zero.1 k3 with h | h
    · exact h
    · exact absurd h (mul_ne_zero (mul_ne_zero E0.ne' E1') E2)
  rw [k4, zero_mul] at k1
  exact ⟨by linarith, by linarith⟩

/-- With absorption, two waves cancel each other for one thickness at most. -/
theorem waves_cancel {α β k : ℂ} (hi : k.im ≠ 0) (h0 : α ≠ 0 ∨ β ≠ 0) : {d | twoWaves α β k d = 0}.Countable := by
  refine Set.Subsingleton.countable ?_
  intro d hd d' hd'
  have key : ∀ d, twoWaves α β k d = 0 → normSq α * Real.exp (2 * (2 * k.im * d)) = normSq β := by
    intro d hd
    unfold twoWaves at hd
    have h1 := congrArg normSq (eq_neg_of_add_eq_zero_left hd)
    rw [normSq_neg, normSq_mul, normSq_mul] at h1
    have e1 : normSq (cexp (-(I * k * d))) = Real.exp (2 * k.im * d) := by
      rw [normSq_eq_norm_sq, Complex.norm_exp, ← Real.exp_nat_mul]
      congr 1
      simp
      ring
    have e2 : normSq (cexp (I * k * d)) = Real.exp (-(2 * k.im * d)) := by
      rw [normSq_eq_norm_sq, Complex.norm_exp, ← Real.exp_nat_mul]
      congr 1
      simp
      ring
    rw [e1, e2, Real.exp_neg] at h1
    rw [two_mul, Real.exp_add]
    have := Real.exp_pos (2 * k.im * d)
    field_simp at h1
    linarith
  have hα : α ≠ 0 := by
    rcases h0 with h | h
    · exact h
    · intro h'
      have := key d hd
      rw [h', map_zero, zero_mul] at this
      exact h (normSq_eq_zero.1 this.symm)
  have e := (key d hd).trans (key d' hd').symm
  have := mul_left_cancel₀ (by simpa using hα) e
  have := Real.exp_injective this
  have h4 : 2 * (2 * k.im) ≠ 0 := by simpa using hi
  apply mul_left_cancel₀ h4
  linarith

/-! ### A layer of a stack -/

/-- The total matrix as a function of the thickness of a layer. -/
theorem codeStack_layer (k0 : ℂ) (top rest : List Slab) (σ : ℝ) (ρ : ℂ) (k : ℂ) :
    ∃ A B : Mat, ∀ d, codeStack k0 k (top ++ ⟨σ, ρ, d⟩ :: rest) = A * ptT (ptK ρ k0) d * B := by
  induction top generalizing k with
  | nil => exact ⟨ptR k (ptK ρ k0) σ, codeStack k0 (ptK ρ k0) rest, fun d => by simp only [List.nil_append, codeStack]⟩
  | cons a top ih =>
    obtain ⟨A, B, h⟩ := ih (ptK a.sld k0)
    exact ⟨ptR k (ptK a.sld k0) a.roughness * ptT (ptK a.sld k0) a.thickness * A, B, fun d => by
      simp only [List.cons_append, codeStack, h, Matrix.mul_assoc]⟩

theorem layer_waves (A B : Mat) (k : ℂ) (d : ℝ) (i j : Fin 2) : (A * ptT k d * B) i j = twoWaves (A i 0 * B 0 j) (A i 1 * B 1 j) k d := by
  rw [Matrix.mul_apply]
  simp only [Fin.sum_univ_two, Matrix.mul_apply, ptT, Matrix.of_apply, Matrix.cons_val', Matrix.cons_val_one, Matrix.cons_val_zero, Matrix.cons_val_fin_one,
    mul_zero, add_zero, zero_add, twoWaves]
  rw [neg_mul, neg_mul]
  ring

theorem value_below {m : Mat} {v : ℝ} (hv : v < 1) : reflectivityOf m = some v ↔ m 1 1 ≠ 0 ∧ normSq (m 0 1) = v * normSq (m 1 1) := by
  unfold reflectivityOf
  by_cases h : m 1 1 = 0
  · simp [h]
  · have h0 : normSq (m 1 1) ≠ 0 := by simpa using h
    rw [if_neg h, Option.some_inj, norm_div, div_pow, ← normSq_eq_norm_sq, ← normSq_eq_norm_sq]
    constructor
    · intro e
      refine ⟨h, ?_⟩
      rcases min_choice (normSq (m 0 1) / normSq (m 1 1)) 1 with hc | hc
      · rw [hc, div_eq_iff h0] at e
        exact e
      · rw [hc] at e
        exact absurd e hv.ne'
    · rintro ⟨-, e⟩
      rw [e, mul_div_assoc, div_self h0, mul_one, min_eq_left hv.le]

theorem value_range {m : Mat} {v : ℝ} (h : reflectivityOf m = some v) : 0 ≤ v := by
  unfold reflectivityOf at h
  split_ifs at h
  rw [← Option.some_inj.1 h]
  positivity

/-- **C144** (a value for few thicknesses, or for all): at every momentum transfer and for every layer of every stack, a reflectivity below one is the
value for countably many thicknesses of the layer only, or for all thicknesses for which the value is a number. (`t₁`, `r₁`, `s₁` describe what is below
the layer, `t₂`, `r₂`, `s₂` what is above.) -/
theorem C144_thickness (q : ℝ) (t₁ t₂ r₁ r₂ : List ℝ) (s₁ s₂ : List ℂ) (ρ : ℂ) (σ : ℝ) (h1 : t₁.length + 1 = r₁.length) (h2 : r₁.length = s₁.length)
    (h3 : t₂.length = r₂.length) (h4 : r₂.length = s₂.length) (v : ℝ) (hv : v < 1) :
    {d | multilayerReflectivity [q] (t₁ ++ d :: t₂) (r₁ ++ σ :: r₂) (s₁ ++ ρ :: s₂) 0 = .ok [some v]}.Countable ∨
      ∀ d, multilayerReflectivity [q] (t₁ ++ d :: t₂) (r₁ ++ σ :: r₂) (s₁ ++ ρ :: s₂) 0 = .ok [some v] ∨
        multilayerReflectivity [q] (t₁ ++ d :: t₂) (r₁ ++ σ :: r₂) (s₁ ++ ρ :: s₂) 0 = .ok [none] := by
  obtain ⟨top, rest, k, hs⟩ : ∃ (top rest : List Slab) (k : ℂ), ∀ d, multilayerReflectivity [q] (t₁ ++ d :: t₂) (r₁ ++ σ :: r₂) (s₁ ++ ρ :: s₂) 0 =
      .ok [reflectivityOf (codeStack ((q : ℂ) / 2) k (top ++ ⟨σ, ρ + delta, d⟩ :: rest))] := by
    refine ⟨shifted (List.zipWith (fun (p : ℝ × ℂ) d => (⟨p.1, p.2, d⟩ : Slab)) (r₂.zip s₂) t₂).reverse, shifted (slabs t₁ r₁ s₁), ptK (0 + delta) ((q : ℂ) / 2), fun d => ?_⟩
    rw [multilayer_eq [q] _ _ _ (by simp; omega) (by simp; omega), List.map_cons, List.map_nil, codePoint, slabs_append t₁ _ r₁ _ s₁ _ h1 h2]
    simp only [List.zip_cons_cons, List.zipWith_cons_cons, List.reverse_cons, List.append_assoc, List.cons_append,
      List.nil_append, shifted_append, shifted_cons]
  obtain ⟨A, B, hAB⟩ := codeStack_layer ((q : ℂ) / 2) top rest σ (ρ + delta) k
  simp only [hs, hAB]
  have key : ∀ d, ((.ok [reflectivityOf (A * ptT (ptK (ρ + delta) ((q : ℂ) / 2)) d * B)] : Res (List (Option ℝ))) = .ok [some v]) ↔ _ := fun d => by
    rw [Except.ok.injEq, List.cons.injEq, value_below hv, layer_waves, layer_waves]
  rcases waves_dichotomy (A 0 0 * B 0 1) (A 0 1 * B 1 1) (A 1 0 * B 0 1) (A 1 1 * B 1 1) (ptK (ρ + delta) ((q : ℂ) / 2)) v with h | h
  · left
    refine h.mono fun d hd => ?_
    exact ((key d).1 hd).1.2
  · right
    intro d
    by_cases h0 : (A * ptT (ptK (ρ + delta) ((q : ℂ) / 2)) d * B) 1 1 = 0
    · right
      unfold reflectivityOf
      rw [if_pos h0]
    · left
      rw [key d]
      rw [layer_waves] at h0
      exact ⟨⟨h0, h d⟩, rfl⟩

/-! ### The layer at the top -/

/-- Waves come back from a stack and reach it. -/
def Reflects (q : ℝ) (k : ℂ) (L : List Slab) : Prop := stackMatrix (codeWave q) k L 0 1 ≠ 0 ∧ stackMatrix (codeWave q) k L 1 1 ≠ 0

theorem layerMatrix_ptT (k : ℂ) (d : ℝ) : layerMatrix k d = ptT k d := by
  unfold layerMatrix ptT
  rw [neg_mul, neg_mul]

theorem top_waves (q : ℝ) (k : ℂ) (x : Slab) (L : List Slab) (i j : Fin 2) : stackMatrix (codeWave q) k (x :: L) i j =
    twoWaves (interfaceMatrix k (codeWave q x.sld) x.roughness i 0 * stackMatrix (codeWave q) (codeWave q x.sld) L 0 j)
      (interfaceMatrix k (codeWave q x.sld) x.roughness i 1 * stackMatrix (codeWave q) (codeWave q x.sld) L 1 j) (codeWave q x.sld) x.thickness := by
  show (interfaceMatrix k (codeWave q x.sld) x.roughness * layerMatrix (codeWave q x.sld) x.thickness * stackMatrix (codeWave q) (codeWave q x.sld) L) i j = _
  rw [layerMatrix_ptT, layer_waves]

theorem wave_parts (q : ℝ) {ρ : ℂ} (h : 0 ≤ ρ.im) : (codeWave q ρ).im ≠ 0 ∧ 0 < (codeWave q ρ).re :=
  ⟨(codeWave_isWave q h).2.ne, (codeWave_isWave q h).1.2⟩

theorem wave_injective (q : ℝ) {ρ ρ' : ℂ} (h : 0 ≤ ρ.im) (h' : 0 ≤ ρ'.im) (e : codeWave q ρ = codeWave q ρ') : ρ = ρ' := by
  have e1 := (codeWave_isWave q h).1.1
  have e2 := (codeWave_isWave q h').1.1
  rw [e, e2] at e1
  have pi0 : (4 * (Real.pi : ℂ)) ≠ 0 := mul_ne_zero (by norm_num) (by exact_mod_cast Real.pi_ne_zero)
  have := sub_right_injective e1
  exact (add_right_cancel (mul_left_cancel₀ pi0 this)).symm

theorem interface_entries {k k' : ℂ} (hk : 0 < k.re) (hk' : 0 < k'.re) (σ : ℝ) : interfaceMatrix k k' σ 0 0 ≠ 0 ∧
    interfaceMatrix k k' σ 1 1 = interfaceMatrix k k' σ 0 0 ∧ interfaceMatrix k k' σ 1 0 = interfaceMatrix k k' σ 0 1 ∧
    (k ≠ k' → interfaceMatrix k k' σ 0 1 ≠ 0) := by
  have h0 : 2 * k ≠ 0 := by
    refine mul_ne_zero two_ne_zero fun h => ?_
    rw [h] at hk
    exact lt_irrefl _ hk
  have h1 : k + k' ≠ 0 := fun h => by
    have := congrArg Complex.re h
    rw [Complex.add_re, Complex.zero_re] at this
    linarith
  refine ⟨?_, rfl, rfl, fun h => ?_⟩
  · exact mul_ne_zero (div_ne_zero h1 h0) (Complex.exp_ne_zero _)
  · exact mul_ne_zero (div_ne_zero (sub_ne_zero.2 h) h0) (Complex.exp_ne_zero _)

/-- The layer at the top of a stack that reflects: countably many thicknesses for every value below one. -/
theorem top_countable {q : ℝ} {k : ℂ} (hk : 0 < k.re) {σ : ℝ} {ρ : ℂ} (hρ : 0 ≤ ρ.im) {L : List Slab} (hL : Reflects q (codeWave q ρ) L) {v : ℝ} (hv : v < 1) :
    {d | reflectivityOf (stackMatrix (codeWave q) k (⟨σ, ρ, d⟩ :: L)) = some v}.Countable := by
  by_cases hv0 : 0 ≤ v
  · obtain ⟨hi, hr⟩ := wave_parts q hρ
    obtain ⟨p0, p1, p2, -⟩ := interface_entries hk hr σ
    rcases waves_dichotomy (interfaceMatrix k (codeWave q ρ) σ 0 0 * stackMatrix (codeWave q) (codeWave q ρ) L 0 1)
      (interfaceMatrix k (codeWave q ρ) σ 0 1 * stackMatrix (codeWave q) (codeWave q ρ) L 1 1)
      (interfaceMatrix k (codeWave q ρ) σ 1 0 * stackMatrix (codeWave q) (codeWave q ρ) L 0 1)
      (interfaceMatrix k (codeWave q ρ) σ 1 1 * stackMatrix (codeWave q) (codeWave q ρ) L 1 1) (codeWave q ρ) v with h | h
    · refine h.mono fun d hd => ?_
      have := ((value_below hv).1 hd).2
      rw [top_waves, top_waves] at this
      exact this
    · exfalso
      obtain ⟨e1, e2⟩ := waves_constant hi hr.ne' h
      rw [p2] at e1
      rw [p1] at e2
      simp only [normSq_mul] at e1 e2
      have x0 : normSq (stackMatrix (codeWave q) (codeWave q ρ) L 0 1) ≠ 0 := by simpa using hL.1
      have y0 : normSq (stackMatrix (codeWave q) (codeWave q ρ) L 1 1) ≠ 0 := by simpa using hL.2
      have P0 : 0 < normSq (interfaceMatrix k (codeWave q ρ) σ 0 0) := normSq_pos.2 p0
      have f1 := mul_right_cancel₀ x0 (e1.trans (mul_assoc _ _ _).symm)
      have f2 := mul_right_cancel₀ y0 (e2.trans (mul_assoc _ _ _).symm)
      have M0 := normSq_nonneg (interfaceMatrix k (codeWave q ρ) σ 0 1)
      nlinarith
  · convert Set.countable_empty
    ext d
    simp only [Set.mem_ofPred_eq, Set.mem_empty_iff_false, iff_false]
    intro h
    exact hv0 (value_range h)

/-- A stack of a layer and a stack that reflects reflects, except for countably many thicknesses. -/
theorem reflects_countable {q : ℝ} {k : ℂ} (hk : 0 < k.re) {σ : ℝ} {ρ : ℂ} (hρ : 0 ≤ ρ.im) {L : List Slab}
    (hL : Reflects q (codeWave q ρ) L) : {d | ¬ Reflects q k (⟨σ, ρ, d⟩ :: L)}.Countable := by
  obtain ⟨hi, hr⟩ := wave_parts q hρ
  obtain ⟨p0, p1, -, -⟩ := interface_entries hk hr σ
  have c1 := waves_cancel (β := interfaceMatrix k (codeWave q ρ) σ 0 1 * stackMatrix (codeWave q) (codeWave q ρ) L 1 1) hi (Or.inl (mul_ne_zero p0 hL.1))
  have c2 := waves_cancel (α := interfaceMatrix k (codeWave q ρ) σ 1 0 * stackMatrix (codeWave q) (codeWave q ρ) L 0 1)
    (β := interfaceMatrix k (codeWave q ρ) σ 1 1 * stackMatrix (codeWave q) (codeWave q ρ) L 1 1) hi (Or.inr (mul_ne_zero (p1 ▸ p0) hL.2))
  refine (c1.union c2).mono fun d hd => ?_
  by_contra hc
  simp only [Set.mem_union, Set.mem_ofPred_eq, not_or] at hc
  refine hd ⟨?_, ?_⟩
  · rw [top_waves]
    exact hc.1
  · rw [top_waves]
    exact hc.2

/-- A substrate reflects. -/
theorem base_reflects {q : ℝ} {k : ℂ} (hk : 0 < k.re) {σ : ℝ} {ρ : ℂ} (hρ : 0 ≤ ρ.im) (hne : k ≠ codeWave q ρ) : Reflects q k [⟨σ, ρ, 0⟩] := by
  obtain ⟨-, hr⟩ := wave_parts q hρ
  obtain ⟨p0, p1, p2, p3⟩ := interface_entries hk hr σ
  have e : ∀ i j, stackMatrix (codeWave q) k [⟨σ, ρ, 0⟩] i j = interfaceMatrix k (codeWave q ρ) σ i j := by
    intro i j
    show (interfaceMatrix k (codeWave q ρ) σ * layerMatrix (codeWave q ρ) 0 * (1 : Mat)) i j = _
    rw [layerMatrix_ptT, ptT_zero, mul_one, mul_one]
  refine ⟨?_, ?_⟩
  · rw [e]
    exact p3 hne
  · rw [e, p1]
    exact p0

/-- **C144** (a value for few thicknesses of a film): the reflectivity of a film on a substrate of another density has each value below one for countably
many thicknesses only, at every momentum transfer, above and below the critical edges, and for all roughnesses. -/
theorem C144_film (q σ₁ σ₂ : ℝ) (ρ₁ ρ₂ : ℂ) (h1 : 0 ≤ ρ₁.im) (h2 : 0 ≤ ρ₂.im) (hne : ρ₁ ≠ ρ₂) (v : ℝ) (hv : v < 1) :
    {d | multilayerReflectivity [q] [d] [σ₂, σ₁] [ρ₂, ρ₁] 0 = .ok [some v]}.Countable := by
  have hL : Reflects q (codeWave q ρ₁) [⟨σ₂, ρ₂, 0⟩] :=
    base_reflects (wave_parts q h1).2 h2 fun e => hne (wave_injective q h1 h2 e)
  refine (top_countable (k := codeWave q 0) (σ := σ₁) (wave_parts q (by simp)).2 h1 hL hv).mono fun d hd => ?_
  have hd : multilayerReflectivity [q] [d] [σ₂, σ₁] [ρ₂, ρ₁] 0 = .ok [some v] := hd
  rw [multilayer_eq [q] _ _ _ rfl rfl, List.map_cons, List.map_nil,
    codePoint_eq [d] [σ₂, σ₁] [ρ₂, ρ₁] (by simp [h1, h2]) q (codeWave q) fun ρ h => (codeWave_isWave q h).1] at hd
  exact (List.cons.inj (Except.ok.inj hd)).1

/-- The hypotheses of `C144_film` for a film of 7 on a substrate of 20, with roughness. -/
example : 0 ≤ (7e14 : ℂ).im ∧ 0 ≤ (20e14 : ℂ).im ∧ (7e14 : ℂ) ≠ 20e14 ∧ (0.5 : ℝ) < 1 := by
  refine ⟨by norm_num, by norm_num, by norm_num, by norm_num⟩

/-! ### One number at a time -/

/-- Drawing one of many independent numbers once more changes nothing. -/
theorem update_preserving {ι : Type} [DecidableEq ι] (c : ι) :
    MeasurePreserving (fun x : (ι → ℝ) × ℝ => Function.update x.1 c x.2) ((iid ι).prod unif) (iid ι) := by
  have m : Measurable fun x : (ι → ℝ) × ℝ => Function.update x.1 c x.2 := by
    refine measurable_pi_iff.2 fun j => ?_
    by_cases h : j = c
    · subst h
      simpa using measurable_snd
    · simp only [Function.update_of_ne h]
      exact (measurable_pi_apply j).comp measurable_fst
  refine ⟨m, ?_⟩
  refine Measure.eq_infinitePi _ fun s t ht => ?_
  have ms : MeasurableSet (Set.pi (s : Set ι) t) := MeasurableSet.pi s.countable_toSet fun j _ => ht j
  rw [Measure.map_apply m ms]
  have law : ∀ s : Finset ι, iid ι (Set.pi s t) = ∏ j ∈ s, unif (t j) := fun s => by
    unfold iid
    exact Measure.infinitePi_pi _ fun j _ => ht j
  by_cases hc : c ∈ s
  · have e : (fun x : (ι → ℝ) × ℝ => Function.update x.1 c x.2) ⁻¹' Set.pi s t = Set.pi (s.erase c : Finset ι) t ×ˢ t c := by
      ext ⟨v, u⟩
      simp only [Set.mem_preimage, Set.mem_pi, Finset.mem_coe, Finset.mem_erase, Set.mem_prod]
      constructor
      · intro h
        refine ⟨fun j hj => ?_, ?_⟩
        · have := h j hj.2
          rwa [Function.update_of_ne hj.1] at this
        · have := h c hc
          rwa [Function.update_self] at this
      · rintro ⟨h1, h2⟩ j hj
        by_cases hjc : j = c
        · subst hjc
          rwa [Function.update_self]
        · rw [Function.update_of_ne hjc]
          exact h1 j ⟨hjc, hj⟩
    rw [e, Measure.prod_prod, law, Finset.prod_erase_mul _ _ hc]
  · have e : (fun x : (ι → ℝ) × ℝ => Function.update x.1 c x.2) ⁻¹' Set.pi s t = Set.pi s t ×ˢ Set.univ := by
      ext ⟨v, u⟩
      simp only [Set.mem_preimage, Set.mem_pi, Finset.mem_coe, Set.mem_prod, Set.mem_univ, and_true]
      refine forall₂_congr fun j hj => ?_
      have : j ≠ c := fun h => hc (h ▸ hj)
      rw [Function.update_of_ne this]
    rw [e, Measure.prod_prod, law, measure_univ, mul_one]

theorem ae_of_update {ι : Type} [DecidableEq ι] (c : ι) {p : (ι → ℝ) → Prop} (hp : MeasurableSet {v | p v})
    (h : ∀ᵐ v ∂iid ι, ∀ᵐ u ∂unif, p (Function.update v c u)) : ∀ᵐ v ∂iid ι, p v := by
  have mp := update_preserving c
  rw [← mp.map_eq, ae_map_iff mp.measurable.aemeasurable hp]
  exact (Measure.ae_prod_iff_ae_ae (mp.measurable hp)).2 h

theorem ae_update {ι : Type} [DecidableEq ι] (c : ι) {p : (ι → ℝ) → Prop} (h : ∀ᵐ v ∂iid ι, p v) : ∀ᵐ v ∂iid ι, ∀ᵐ u ∂unif, p (Function.update v c u) :=
  Measure.ae_ae_of_ae_prod ((update_preserving c).quasiMeasurePreserving.ae h)

theorem unif_countable {S : Set ℝ} (h : S.Countable) : ∀ᵐ u ∂unif, u ∉ S := by
  unfold unif
  exact ae_restrict_of_ae (h.ae_notMem volume)

theorem drawFrom_injective {d : DistKind} {a b : ℝ} (hab : a < b) (hd : d = .uniform ∨ d = .logarithmic ∧ 0 < a) : Function.Injective (drawFrom d a b) := by
  intro x y h
  rcases hd with rfl | ⟨rfl, h0⟩
  · simp only [drawFrom] at h
    have : b - a ≠ 0 := by linarith
    exact mul_left_cancel₀ this (by linarith)
  · simp only [drawFrom] at h
    have hl := Real.logb_lt_logb (b := 10) (by norm_num) h0 hab
    have := (Real.strictMono_rpow_of_base_gt_one (by norm_num)).injective h
    have h1 : Real.logb 10 b - Real.logb 10 a ≠ 0 := by linarith
    exact mul_left_cancel₀ h1 (by linarith)

/-! ### The stack of a row -/

/-- The scattering length density of a medium of the row `y`, in SI units. -/
noncomputable def densityOf (y : Str → ℝ × ℝ) (l : LayerV ℝ) : ℂ := (⟨(y (l.name ++ "_sld".toList)).1, (y (l.name ++ "_sld".toList)).2⟩ : ℂ) * 1e14

/-- The stack, listed from the top, of the row `y` of a sample with the layers `L`, listed from the top. -/
noncomputable def stackOf (s : SampleV ℝ) (y : Str → ℝ × ℝ) : List (LayerV ℝ) → List Slab
  | [] => [⟨(y (s.substrate.name ++ "_roughness".toList)).1 * 1e-10, densityOf y s.substrate, 0⟩]
  | l :: L => ⟨(y (l.name ++ "_roughness".toList)).1 * 1e-10, densityOf y l, (y (l.name ++ "_thickness".toList)).1 * 1e-10⟩ :: stackOf s y L

theorem stackOf_eq (s : SampleV ℝ) (y : Str → ℝ × ℝ) (L : List (LayerV ℝ)) : stackOf s y L =
    L.map (fun l => (⟨(y (l.name ++ "_roughness".toList)).1 * 1e-10, densityOf y l, (y (l.name ++ "_thickness".toList)).1 * 1e-10⟩ : Slab)) ++
      [⟨(y (s.substrate.name ++ "_roughness".toList)).1 * 1e-10, densityOf y s.substrate, 0⟩] := by
  induction L with
  | nil => rfl
  | cons l L ih => rw [stackOf, ih]; rfl

/-- The value of the row `y`. -/
theorem row_value {s : SampleV ℝ} {y : Str → ℝ × ℝ} (h0 : y (s.ambient.name ++ "_sld".toList) = (0, 0))
    (him : ∀ l ∈ s.substrate :: s.layers, 0 ≤ (densityOf y l).im) (u : ℝ) :
    curveFor s [u] y = .ok [reflectivityOf (stackMatrix (codeWave (u * 1e10)) (codeWave (u * 1e10) 0) (stackOf s y s.layers.reverse))] := by
  unfold curveFor
  rw [h0]
  have z0 : (⟨((0, 0) : ℝ × ℝ).1, ((0, 0) : ℝ × ℝ).2⟩ : ℂ) * 1e14 = 0 := by
    rw [show (⟨((0, 0) : ℝ × ℝ).1, ((0, 0) : ℝ × ℝ).2⟩ : ℂ) = 0 from rfl, zero_mul]
  rw [z0, multilayer_eq _ _ _ _ (by simp) (by simp)]
  show Except.ok [codePoint _ _ _ (u * 1e10)] = _
  rw [codePoint_eq _ _ _ _ (u * 1e10) (codeWave (u * 1e10)) fun ρ h => (codeWave_isWave _ h).1]
  · rw [slabs_map, stackOf_eq, List.map_reverse]
    rfl
  · intro ρ hρ
    obtain ⟨l, hl, rfl⟩ := List.mem_map.1 hρ
    exact him l hl

theorem codeWave_measurable (q : ℝ) : Measurable (codeWave q) := by
  unfold codeWave npSqrt
  fun_prop

theorem stack_measurable {X : Type} [MeasurableSpace X] (s : SampleV ℝ) {y : X → Str → ℝ × ℝ} (hy : ∀ label, Measurable fun x => y x label) (q : ℝ)
    (L : List (LayerV ℝ)) {k : X → ℂ} (hk : Measurable k) (i j : Fin 2) : Measurable fun x => stackMatrix (codeWave q) (k x) (stackOf s (y x) L) i j := by
  have md : ∀ l, Measurable fun x => densityOf (y x) l := by
    intro l
    unfold densityOf
    have e : (fun x => (⟨(y x (l.name ++ "_sld".toList)).1, (y x (l.name ++ "_sld".toList)).2⟩ : ℂ) * 1e14) =
        fun x => (((y x (l.name ++ "_sld".toList)).1 : ℂ) + ((y x (l.name ++ "_sld".toList)).2 : ℂ) * I) * 1e14 := by
      funext x
      rw [Complex.mk_eq_add_mul_I]
    rw [e]
    have := hy (l.name ++ "_sld".toList)
    exact ((Complex.measurable_ofReal.comp this.fst).add ((Complex.measurable_ofReal.comp this.snd).mul_const _)).mul_const _
  have mi : ∀ {k k' : X → ℂ} {σ : X → ℝ}, Measurable k → Measurable k' → Measurable σ → ∀ i j, Measurable fun x => interfaceMatrix (k x) (k' x) (σ x) i j := by
    intro k k' σ h1 h2 h3 i j
    unfold interfaceMatrix
    fin_cases i <;> fin_cases j <;> simp only [Fin.zero_eta, Fin.mk_one, Matrix.of_apply, Matrix.cons_val', Matrix.cons_val_zero, Matrix.cons_val_one,
      Matrix.cons_val_fin_one] <;> fun_prop
  have mw : ∀ {α β k : X → ℂ} {d : X → ℝ}, Measurable α → Measurable β → Measurable k → Measurable d → Measurable fun x => twoWaves (α x) (β x) (k x) (d x) := by
    intro α β k d h1 h2 h3 h4
    unfold twoWaves
    fun_prop
  have mr : ∀ l : LayerV ℝ, ∀ t : Str, Measurable fun x => (y x (l.name ++ t)).1 * 1e-10 := fun l t => (hy _).fst.mul_const _
  induction L generalizing k i j with
  | nil =>
    simp only [stackOf, top_waves]
    have mk := (codeWave_measurable q).comp (md s.substrate)
    refine mw ((mi hk mk (mr _ _) _ _).mul ?_) ((mi hk mk (mr _ _) _ _).mul ?_) mk measurable_const
    · exact measurable_const
    · exact measurable_const
  | cons l L ih =>
    simp only [stackOf, top_waves]
    have mk := (codeWave_measurable q).comp (md l)
    exact mw ((mi hk mk (mr _ _) _ _).mul (ih mk _ _)) ((mi hk mk (mr _ _) _ _).mul (ih mk _ _)) mk (mr _ _)

/-! ### Rows with one number drawn again -/

variable {Ω : Type} [MeasurableSpace Ω] {P : Measure Ω}

/-- What is needed for a random sample to have values of its own: vacuum above, nothing with gain, another density in the lowest layer than
in the substrate, and layers whose thicknesses are drawn from ranges and do not limit the roughnesses. -/
structure Varied (s : SampleV ℝ) : Prop where
  ambient : ∃ nm, s.ambient.sld = some (.const (.real 0) nm)
  absorption : ∀ l ∈ s.substrate :: s.layers, ∀ p, l.sld = some p → 0 ≤ p.min.im ∧ 0 ≤ p.max.im
  layers : s.layers ≠ []
  thickness : ∀ l ∈ s.layers, ∃ a b nm, l.thickness = some (.range (.real a) (.real b) nm) ∧ a < b ∧ ∀ p, l.roughness = some p → 2 * p.max.re ≤ a
  contrast : ∀ l rest, s.layers = l :: rest → ∀ p p', l.sld = some p → s.substrate.sld = some p' →
    ∀ z z', InRange p z → InRange p' z' → ¬ (z.re = z'.re ∧ z.im = z'.im)

theorem ae_admissible (C : Chance Ω P) (s : SampleV ℝ) (hs : SampleRegular s) (hn : (partNames s).Nodup) (d : DistArgs)
    (hl : ∀ l ∈ s.structure_, LayerDrawable l ∧ LayerKindOk d.kind l) (n k : ℕ) (T : Ω → Frame (Num ℝ))
    (hT : ∀ ω, ∃ g', generateRandomLabels C.rng.toRng s n d (ω, k) = .ok (T ω, g')) (i : Fin n) :
    ∀ᵐ v ∂iid Cell, Admissible s (rowFor s d.kind n i v) := by
  classical
  obtain ⟨W, mW, lW, hW⟩ := rows_numbers C s hs hn d hl n i.pos k T hT
  set labels := expectedLabels s.substrate.name (s.layers.map (·.name)) s.ambient.name with hlabels
  let x : (Cell → ℝ) → LabelSpace labels := fun v key => rowFor s d.kind n i v key.1
  have mx : Measurable x := measurable_pi_iff.2 fun key => rowFor_measurable s d.kind n i key.1
  have hx : ∀ v, ∀ key ∈ labels, atLabel (x v) key = rowFor s d.kind n i v key := fun v key hkey => dif_pos hkey
  have mK : MeasurableSet {x : LabelSpace labels | Admissible s (atLabel x)} := (admissible_compact s hs).measurableSet
  have aeK : ∀ᵐ v ∂iid Cell, Admissible s (atLabel (x v)) := by
    rw [← lW]
    refine (ae_map_iff mW.aemeasurable (p := fun v => Admissible s (atLabel (x v))) (mx mK)).2 (Filter.Eventually.of_forall fun ω => ?_)
    obtain ⟨g', hg⟩ := hT ω
    have tame : Tame C.rng.toRng d := by
      intro hk
      obtain ⟨p, hp, -⟩ := hs.substrate.sld
      rcases (hl s.substrate (by simp [SampleV.structure_])).2.sld p hp with h | ⟨h, -⟩ <;> rw [hk] at h <;> cases h
    obtain ⟨y, hy, e⟩ := row_within hs (within_of_tame C.rng_ok.toOk hs hn (fun l hm => (hl l hm).1) tame hg) i
    refine (row_admissible hy).congr fun key hkey => ?_
    rw [← e, hW ω i key hkey, hx _ key hkey]
  filter_upwards [aeK] with v hv
  exact hv.congr fun key hkey => hx v key hkey

section Update
variable {s : SampleV ℝ} (hs : SampleRegular s) (hn : (partNames s).Nodup) (d : DistKind) {n : ℕ}
include hs hn

theorem update_sld (i i' : Fin n) (j : ℕ) (v : Cell → ℝ) (u : ℝ) {m : LayerV ℝ} (hm : m ∈ s.structure_) :
    rowFor s d n i' (Function.update v (j, (i : ℕ), Part.thickness) u) (m.name ++ "_sld".toList) = rowFor s d n i' v (m.name ++ "_sld".toList) := by
  obtain ⟨jm, hj, e⟩ := List.mem_iff_getElem.1 hm
  have hj' : s.structure_[jm]? = some m := by rw [List.getElem?_eq_getElem hj, e]
  obtain ⟨p, hp⟩ : ∃ p, m.sld = some p := by
    simp only [SampleV.structure_, List.cons_append, List.nil_append, List.mem_cons, List.mem_append, List.not_mem_nil, or_false] at hm
    rcases hm with rfl | hm | rfl
    · obtain ⟨p, hp, -⟩ := hs.substrate.sld; exact ⟨p, hp⟩
    · obtain ⟨p, hp, -⟩ := (hs.layers m hm).sld; exact ⟨p, hp⟩
    · obtain ⟨p, hp, -⟩ := hs.ambient.sld; exact ⟨p, hp⟩
  have e : ∀ v, rowFor s d n i' v (m.name ++ "_sld".toList) = _ := fun v => rowOf_ofFn ((rowFor_columns hs hn d n v hj').sld p hp) i'
  rw [e, e, Function.update_of_ne (by simp), Function.update_of_ne (by simp)]

theorem update_thickness (i i' : Fin n) (j : ℕ) (v : Cell → ℝ) (u : ℝ) {m : LayerV ℝ} (hm : m ∈ s.layers) {jm : ℕ} (hj : s.structure_[jm]? = some m)
    (hne : jm ≠ j ∨ i' ≠ i) : rowFor s d n i' (Function.update v (j, (i : ℕ), Part.thickness) u) (m.name ++ "_thickness".toList) =
      rowFor s d n i' v (m.name ++ "_thickness".toList) := by
  obtain ⟨p, hp, -⟩ := (hs.layers m hm).thickness
  have e : ∀ v, rowFor s d n i' v (m.name ++ "_thickness".toList) = _ := fun v => rowOf_ofFn ((rowFor_columns hs hn d n v hj).thickness p hp) i'
  have hc : ((jm, ((i' : ℕ), Part.thickness)) : Cell) ≠ (j, ((i : ℕ), Part.thickness)) := by
    intro h
    simp only [Prod.mk.injEq, and_true] at h
    rcases hne with h' | h'
    · exact h' h.1
    · exact h' (Fin.ext h.2)
  rw [e, e, Function.update_of_ne hc]

theorem update_roughness (i i' : Fin n) (j : ℕ) (v : Cell → ℝ) (u : ℝ) {m : LayerV ℝ} (hm : m ∈ s.layers) {jm : ℕ} (hj : s.structure_[jm]? = some m)
    (hne : jm ≠ j ∨ i' ≠ i) : rowFor s d n i' (Function.update v (j, (i : ℕ), Part.thickness) u) (m.name ++ "_roughness".toList) =
      rowFor s d n i' v (m.name ++ "_roughness".toList) := by
  obtain ⟨p, hp, -⟩ := (hs.layers m hm).thickness
  obtain ⟨r, hr, -⟩ := (hs.layers m hm).roughness
  have e : ∀ v, rowFor s d n i' v (m.name ++ "_roughness".toList) = _ := fun v => rowOf_ofFn ((rowFor_columns hs hn d n v hj).film p r hp hr) i'
  have hc : ((jm, ((i' : ℕ), Part.thickness)) : Cell) ≠ (j, ((i : ℕ), Part.thickness)) := by
    intro h
    simp only [Prod.mk.injEq, and_true] at h
    rcases hne with h' | h'
    · exact h' h.1
    · exact h' (Fin.ext h.2)
  rw [e, e, Function.update_of_ne hc, Function.update_of_ne (by simp)]

theorem update_base (i i' : Fin n) (j : ℕ) (v : Cell → ℝ) (u : ℝ) :
    rowFor s d n i' (Function.update v (j, (i : ℕ), Part.thickness) u) (s.substrate.name ++ "_roughness".toList) =
      rowFor s d n i' v (s.substrate.name ++ "_roughness".toList) := by
  obtain ⟨p, hp, -⟩ := hs.substrate.roughness
  have e : ∀ v, rowFor s d n i' v (s.substrate.name ++ "_roughness".toList) = _ :=
    fun v => rowOf_ofFn ((rowFor_columns hs hn d n v (j := 0) (by simp [SampleV.structure_])).roughness p hp hs.substrate.thickness) i'
  rw [e, e, Function.update_of_ne (by simp)]

theorem update_density (i i' : Fin n) (j : ℕ) (v : Cell → ℝ) (u : ℝ) {m : LayerV ℝ} (hm : m ∈ s.structure_) :
    densityOf (rowFor s d n i' (Function.update v (j, (i : ℕ), Part.thickness) u)) m = densityOf (rowFor s d n i' v) m := by
  unfold densityOf
  rw [update_sld hs hn d i i' j v u hm]

/-- The stack below a layer, or in another row, stays as it is. -/
theorem update_stack (i i' : Fin n) (j : ℕ) (v : Cell → ℝ) (u : ℝ) (L post : List (LayerV ℝ)) (hL : s.layers.reverse = post ++ L) (hne : L.length < j ∨ i' ≠ i) :
    stackOf s (rowFor s d n i' (Function.update v (j, (i : ℕ), Part.thickness) u)) L = stackOf s (rowFor s d n i' v) L := by
  induction L generalizing post with
  | nil =>
    simp only [stackOf]
    rw [update_base hs hn, update_density hs hn d i i' j v u (by simp [SampleV.structure_])]
  | cons l L ih =>
    have hml : l ∈ s.layers := by rw [← List.mem_reverse, hL]; simp
    have hj : s.structure_[L.length + 1]? = some l := by
      have : s.layers = L.reverse ++ l :: post.reverse := by
        rw [← List.reverse_reverse s.layers, hL]
        simp
      simp [SampleV.structure_, this]
    have hne' : L.length + 1 ≠ j ∨ i' ≠ i := by
      rcases hne with h | h
      · left
        simp only [List.length_cons] at h
        omega
      · exact Or.inr h
    simp only [stackOf]
    rw [ih (post ++ [l]) (by simpa using hL) (by
        rcases hne with h | h
        · left
          simp only [List.length_cons] at h
          omega
        · exact Or.inr h),
      update_density hs hn d i i' j v u (by simp [SampleV.structure_, hml]), update_thickness hs hn d i i' j v u hml hj hne',
      update_roughness hs hn d i i' j v u hml hj hne']

/-- Drawing the thickness of a layer again changes its thickness only. -/
theorem update_layer (hl : ∀ l ∈ s.structure_, LayerDrawable l) (i : Fin n) (v : Cell → ℝ) (u : ℝ) (l : LayerV ℝ) (L post : List (LayerV ℝ))
    (hL : s.layers.reverse = post ++ l :: L) (h1 : Admissible s (rowFor s d n i v))
    (h2 : Admissible s (rowFor s d n i (Function.update v (L.length + 1, (i : ℕ), Part.thickness) u))) {a b : ℝ} {nm : Option Str}
    (ht : l.thickness = some (.range (.real a) (.real b) nm)) (ha : ∀ p, l.roughness = some p → 2 * p.max.re ≤ a) (hab : a < b) :
    stackOf s (rowFor s d n i (Function.update v (L.length + 1, (i : ℕ), Part.thickness) u)) (l :: L) =
      ⟨(rowFor s d n i v (l.name ++ "_roughness".toList)).1 * 1e-10, densityOf (rowFor s d n i v) l, drawFrom d a b u * 1e-10⟩ :: stackOf s (rowFor s d n i v) L := by
  have hml : l ∈ s.layers := by rw [← List.mem_reverse, hL]; simp
  have hj : s.structure_[L.length + 1]? = some l := by
    have : s.layers = L.reverse ++ l :: post.reverse := by
      rw [← List.reverse_reverse s.layers, hL]
      simp
    simp [SampleV.structure_, this]
  have et : ∀ v, rowFor s d n i v (l.name ++ "_thickness".toList) = (drawFrom d a b (v (L.length + 1, (i : ℕ), Part.thickness)), 0) :=
    fun v => rowOf_ofFn ((rowFor_columns hs hn d n v hj).thickness _ ht) i
  obtain ⟨r, hr, -⟩ := (hs.layers l hml).roughness
  have er : ∀ v, rowFor s d n i v (l.name ++ "_roughness".toList) =
      (roughnessValue d r (drawFrom d a b (v (L.length + 1, (i : ℕ), Part.thickness))) (v (L.length + 1, (i : ℕ), Part.roughness)), 0) :=
    fun v => rowOf_ofFn ((rowFor_columns hs hn d n v hj).film _ r ht hr) i
  have low : ∀ v, Admissible s (rowFor s d n i v) → a ≤ drawFrom d a b (v (L.length + 1, (i : ℕ), Part.thickness)) := by
    intro v hv
    have := (hv.thickness l hml _ ht).1
    rw [et] at this
    exact (Set.uIcc_of_le hab.le ▸ this : _ ∈ Set.Icc a b).1
  obtain ⟨x, y, hx, hy, hxy⟩ := (hl l (by simp [SampleV.structure_, hml])).roughness r hr
  have hq : r.min.re ≤ r.max.re := by rw [hx, hy]; exact hxy
  have hb := ha r hr
  simp only [stackOf]
  rw [update_stack hs hn d i i _ v u L (post ++ [l]) (by simpa using hL) (Or.inl (Nat.lt_succ_self _)),
    update_density hs hn d i i _ v u (by simp [SampleV.structure_, hml]), et, Function.update_self, er, er,
    roughness_free d hq (hb.trans (low _ h2)) (hb.trans (low _ h1)), Function.update_of_ne (by simp)]

end Update

/-! ### Values of random samples -/

theorem admissible_im {s : SampleV ℝ} (hs : SampleRegular s) (hv : Varied s) {y : Str → ℝ × ℝ} (hy : Admissible s y) {l : LayerV ℝ}
    (hm : l ∈ s.substrate :: s.layers) : 0 ≤ (densityOf y l).im := by
  obtain ⟨p, hp⟩ : ∃ p, l.sld = some p := by
    rcases List.mem_cons.1 hm with rfl | hm
    · obtain ⟨p, hp, -⟩ := hs.substrate.sld; exact ⟨p, hp⟩
    · obtain ⟨p, hp, -⟩ := (hs.layers l hm).sld; exact ⟨p, hp⟩
  have h := (hy.sld l (List.mem_append_left _ hm) p hp).2
  obtain ⟨h1, h2⟩ := hv.absorption l hm p hp
  have h3 : 0 ≤ (y (l.name ++ "_sld".toList)).2 := (le_min h1 h2).trans h.1
  have e : densityOf y l = ((((y (l.name ++ "_sld".toList)).1 * 1e14 : ℝ) : ℂ) + (((y (l.name ++ "_sld".toList)).2 * 1e14 : ℝ) : ℂ) * I) := by
    unfold densityOf
    rw [Complex.mk_eq_add_mul_I]
    push_cast
    ring
  rw [e, Complex.add_im, Complex.ofReal_im, Complex.im_ofReal_mul, Complex.I_im, zero_add, mul_one]
  positivity

theorem admissible_contrast {s : SampleV ℝ} (hs : SampleRegular s) (hl : ∀ l ∈ s.structure_, LayerDrawable l) (hv : Varied s) {y : Str → ℝ × ℝ}
    (hy : Admissible s y) {rest : List (LayerV ℝ)} {l : LayerV ℝ} (e : s.layers = l :: rest) :
    densityOf y l ≠ densityOf y s.substrate := by
  have key : ∀ m ∈ s.substrate :: s.layers, ∃ p, m.sld = some p ∧ ∃ z : Num ℝ, InRange p z ∧ (z.re, z.im) = y (m.name ++ "_sld".toList) := by
    intro m hm
    obtain ⟨p, hp⟩ : ∃ p, m.sld = some p := by
      rcases List.mem_cons.1 hm with rfl | hm
      · obtain ⟨p, hp, -⟩ := hs.substrate.sld; exact ⟨p, hp⟩
      · obtain ⟨p, hp, -⟩ := (hs.layers m hm).sld; exact ⟨p, hp⟩
    have hm' : m ∈ s.structure_ := by
      simp only [SampleV.structure_, List.cons_append, List.nil_append]
      exact List.mem_append_left (as := s.substrate :: s.layers) _ hm
    have := toNum_inRange ((hl m hm').sld p hp) (hy.sld m (List.mem_append_left _ hm) p hp)
    exact ⟨p, hp, _, this⟩
  obtain ⟨p, hp, z, hz, ez⟩ := key l (by rw [e]; simp)
  obtain ⟨p', hp', z', hz', ez'⟩ := key s.substrate (by simp)
  intro h
  unfold densityOf at h
  have h := mul_right_cancel₀ (by norm_num) h
  rw [← ez, ← ez'] at h
  exact hv.contrast l rest e p p' hp hp' z z' hz hz' ⟨congrArg Complex.re h, congrArg Complex.im h⟩

section Values
variable (C : Chance Ω P) {s : SampleV ℝ} (hs : SampleRegular s) (hn : (partNames s).Nodup) (d : DistArgs)
  (hl : ∀ l ∈ s.structure_, LayerDrawable l ∧ LayerKindOk d.kind l) (hv : Varied s) {n k : ℕ} {T : Ω → Frame (Num ℝ)}
  (hT : ∀ ω, ∃ g', generateRandomLabels C.rng.toRng s n d (ω, k) = .ok (T ω, g')) (i : Fin n) (q : ℝ)
include C hs hn hl hv hT

omit hs hn hT in
theorem drawn_countable {l : LayerV ℝ} (hm : l ∈ s.layers) : ∃ a b nm, l.thickness = some (.range (.real a) (.real b) nm) ∧ a < b ∧
    (∀ p, l.roughness = some p → 2 * p.max.re ≤ a) ∧ ∀ S : Set ℝ, S.Countable → ∀ᵐ u ∂unif, drawFrom d.kind a b u * 1e-10 ∉ S := by
  obtain ⟨a, b, nm, ht, hab, ha⟩ := hv.thickness l hm
  refine ⟨a, b, nm, ht, hab, ha, fun S hS => ?_⟩
  have hd : d.kind = .uniform ∨ d.kind = .logarithmic ∧ 0 < a := by
    rcases (hl l (by simp [SampleV.structure_, hm])).2.thickness _ ht with h | ⟨h, h0⟩
    · exact Or.inl h
    · refine Or.inr ⟨h, ?_⟩
      exact h0.1
  have inj : Function.Injective fun u => drawFrom d.kind a b u * 1e-10 := by
    intro x y h
    exact drawFrom_injective hab hd (mul_right_cancel₀ (by norm_num) h)
  exact unif_countable (hS.preimage_of_injOn inj.injOn)

/-- The stack below a layer reflects, with probability one. -/
theorem reflects_ae (L : List (LayerV ℝ)) : ∀ post l, s.layers.reverse = post ++ l :: L →
    ∀ᵐ v ∂iid Cell, Reflects q (codeWave q (densityOf (rowFor s d.kind n i v) l)) (stackOf s (rowFor s d.kind n i v) L) := by
  classical
  have adm := ae_admissible C s hs hn d hl n k T hT i
  have hl' : ∀ l ∈ s.structure_, LayerDrawable l := fun l hm => (hl l hm).1
  have pos : ∀ {v} {l : LayerV ℝ}, Admissible s (rowFor s d.kind n i v) → l ∈ s.substrate :: s.layers → 0 < (codeWave q (densityOf (rowFor s d.kind n i v) l)).re :=
    fun h hm => (wave_parts q (admissible_im hs hv h hm)).2
  induction L with
  | nil =>
    intro post l hL
    have hml : l ∈ s.layers := by rw [← List.mem_reverse, hL]; simp
    have e : s.layers = l :: post.reverse := by
      rw [← List.reverse_reverse s.layers, hL]
      simp
    filter_upwards [adm] with v hA
    refine base_reflects (pos hA (List.mem_cons_of_mem _ hml)) (admissible_im hs hv hA (by simp)) fun h => ?_
    exact (admissible_contrast hs hl' hv hA e) (wave_injective q (admissible_im hs hv hA (List.mem_cons_of_mem _ hml)) (admissible_im hs hv hA (by simp)) h)
  | cons l' L ih =>
    intro post l hL
    have hL' : s.layers.reverse = (post ++ [l]) ++ l' :: L := by simpa using hL
    have hml : l ∈ s.layers := by rw [← List.mem_reverse, hL]; simp
    have hml' : l' ∈ s.layers := by rw [← List.mem_reverse, hL]; simp
    obtain ⟨a, b, nm, ht, hab, ha, hS⟩ := drawn_countable C d hl hv hml'
    have mrow : ∀ label, Measurable fun v => rowFor s d.kind n i v label := rowFor_measurable s d.kind n i
    have mk : Measurable fun v => codeWave q (densityOf (rowFor s d.kind n i v) l) := by
      refine (codeWave_measurable q).comp ?_
      unfold densityOf
      have e : (fun v => (⟨(rowFor s d.kind n i v (l.name ++ "_sld".toList)).1, (rowFor s d.kind n i v (l.name ++ "_sld".toList)).2⟩ : ℂ) * 1e14) =
          fun v => (((rowFor s d.kind n i v (l.name ++ "_sld".toList)).1 : ℂ) + ((rowFor s d.kind n i v (l.name ++ "_sld".toList)).2 : ℂ) * I) * 1e14 := by
        funext x
        rw [Complex.mk_eq_add_mul_I]
      rw [e]
      have := mrow (l.name ++ "_sld".toList)
      exact ((Complex.measurable_ofReal.comp this.fst).add ((Complex.measurable_ofReal.comp this.snd).mul_const _)).mul_const _
    have me := fun i' j' => stack_measurable s mrow q (l' :: L) mk i' j'
    refine ae_of_update (L.length + 1, (i : ℕ), Part.thickness) ?_ ?_
    · exact ((me 0 1) (measurableSet_singleton 0)).compl.inter ((me 1 1) (measurableSet_singleton 0)).compl
    · filter_upwards [ih (post ++ [l]) l' hL', adm, ae_update (L.length + 1, (i : ℕ), Part.thickness) adm] with v hR hA hU
      have him' := admissible_im hs hv hA (List.mem_cons_of_mem _ hml')
      filter_upwards [hU, hS _ (reflects_countable (σ := (rowFor s d.kind n i v (l'.name ++ "_roughness".toList)).1 * 1e-10)
        (pos hA (List.mem_cons_of_mem _ hml)) him' hR)] with u hAu hu
      rw [update_layer hs hn d.kind hl' i v u l' L _ hL' hA hAu ht ha hab, update_density hs hn d.kind i i _ v u (by simp [SampleV.structure_, hml])]
      exact not_not.1 hu

/-- The value of a random sample differs from every number below one that does not depend on the thickness of its uppermost layer. -/
theorem value_ae (g : (Cell → ℝ) → ℝ) (mg : Measurable g)
    (hg : ∀ v u, g (Function.update v (s.layers.length, (i : ℕ), Part.thickness) u) = g v) :
    ∀ᵐ v ∂iid Cell, g v < 1 →
      reflectivityOf (stackMatrix (codeWave q) (codeWave q 0) (stackOf s (rowFor s d.kind n i v) s.layers.reverse)) ≠ some (g v) := by
  classical
  have adm := ae_admissible C s hs hn d hl n k T hT i
  have hl' : ∀ l ∈ s.structure_, LayerDrawable l := fun l hm => (hl l hm).1
  obtain ⟨l, L, hL⟩ : ∃ l L, s.layers.reverse = l :: L := List.exists_cons_of_ne_nil (by simpa using hv.layers)
  have hL' : s.layers.reverse = [] ++ l :: L := hL
  have hlen : s.layers.length = L.length + 1 := by rw [← List.length_reverse, hL, List.length_cons]
  have hml : l ∈ s.layers := by rw [← List.mem_reverse, hL]; simp
  obtain ⟨a, b, nm, ht, hab, ha, hS⟩ := drawn_countable C d hl hv hml
  have mrow : ∀ label, Measurable fun v => rowFor s d.kind n i v label := rowFor_measurable s d.kind n i
  have me := fun i' j' => stack_measurable s mrow q s.layers.reverse (measurable_const (a := codeWave q 0)) i' j'
  have mn := fun i' j' => Complex.continuous_normSq.measurable.comp (me i' j')
  refine ae_of_update (s.layers.length, (i : ℕ), Part.thickness) ?_ ?_
  · have m : MeasurableSet ({v | g v < 1} ∩ {v | stackMatrix (codeWave q) (codeWave q 0) (stackOf s (rowFor s d.kind n i v) s.layers.reverse) 1 1 = 0}ᶜ ∩
        {v | normSq (stackMatrix (codeWave q) (codeWave q 0) (stackOf s (rowFor s d.kind n i v) s.layers.reverse) 0 1) =
          g v * normSq (stackMatrix (codeWave q) (codeWave q 0) (stackOf s (rowFor s d.kind n i v) s.layers.reverse) 1 1)}) :=
      ((measurableSet_lt mg measurable_const).inter ((me 1 1) (measurableSet_singleton 0)).compl).inter (measurableSet_eq_fun (mn 0 1) (mg.mul (mn 1 1)))
    convert m.compl using 1
    ext v
    simp only [Set.mem_ofPred_eq, Set.mem_compl_iff, Set.mem_inter_iff, not_and]
    constructor
    · intro h h1 h2
      exact h h1.1 ((value_below h1.1).2 ⟨h1.2, h2⟩)
    · intro h h1 h2
      obtain ⟨h3, h4⟩ := (value_below h1).1 h2
      exact h ⟨h1, h3⟩ h4
  · rw [hlen]
    filter_upwards [reflects_ae C hs hn d hl hv hT i q L [] l hL', adm, ae_update (L.length + 1, (i : ℕ), Part.thickness) adm] with v hR hA hU
    by_cases hw : g v < 1
    · filter_upwards [hU, hS _ (top_countable (k := codeWave q 0) (σ := (rowFor s d.kind n i v (l.name ++ "_roughness".toList)).1 * 1e-10)
        (wave_parts q (by simp)).2 (admissible_im hs hv hA (List.mem_cons_of_mem _ hml)) hR hw)] with u hAu hu
      intro _
      rw [hL, update_layer hs hn d.kind hl' i v u l L [] hL' hA hAu ht ha hab, ← hlen, hg v u]
      exact hu
    · refine Filter.Eventually.of_forall fun u h => ?_
      rw [← hlen, hg v u] at h
      exact absurd h hw

end Values

/-! ### The training data -/

theorem row_ambient {s : SampleV ℝ} (hs : SampleRegular s) (hn : (partNames s).Nodup) (d : DistKind) {n : ℕ} (i : Fin n) {nm : Option Str}
    (hamb : s.ambient.sld = some (.const (.real 0) nm)) (v : Cell → ℝ) : rowFor s d n i v (s.ambient.name ++ "_sld".toList) = (0, 0) := by
  have hj : s.structure_[s.layers.length + 1]? = some s.ambient := by simp [SampleV.structure_]
  exact rowOf_ofFn ((rowFor_columns hs hn d n v hj).sld _ hamb) i

/-- **C144** (no value is certain): the reflectivity of a random training sample at a momentum transfer has any given value below one with probability
zero, for uniform and logarithmic sampling. -/
theorem C144_value (C : Chance Ω P) (s : SampleV ℝ) (hs : SampleRegular s) (hn : (partNames s).Nodup) (d : DistArgs)
    (hl : ∀ l ∈ s.structure_, LayerDrawable l ∧ LayerKindOk d.kind l) (hv : Varied s) (n k : ℕ) (T : Ω → Frame (Num ℝ))
    (hT : ∀ ω, ∃ g', generateRandomLabels C.rng.toRng s n d (ω, k) = .ok (T ω, g')) (i : Fin n) (u w : ℝ) (hw : w < 1) :
    ∀ᵐ ω ∂P, curveFor s [u] (rowOf (T ω) i) ≠ .ok [some w] := by
  obtain ⟨W, mW, lW, hW⟩ := rows_numbers C s hs hn d hl n i.pos k T hT
  obtain ⟨nm, hamb⟩ := hv.ambient
  have h := value_ae C hs hn d hl hv hT i (u * 1e10) (fun _ => w) measurable_const fun _ _ => rfl
  have adm := ae_admissible C s hs hn d hl n k T hT i
  rw [← lW] at h adm
  filter_upwards [ae_of_ae_map mW.aemeasurable h, ae_of_ae_map mW.aemeasurable adm] with ω h1 h2
  rw [curveFor_congr s [u] fun key hkey => hW ω i key hkey, row_value (row_ambient hs hn d.kind i hamb _) fun l hm => admissible_im hs hv h2 hm]
  intro e
  exact h1 hw (List.cons.inj (Except.ok.inj e)).1

/-- **C144** (no two training samples have the same value): with probability one, any two rows of a table of random labels have different reflectivities
at every momentum transfer of the data, except for values of one, at which the code cuts off. -/
theorem C144_distinct (C : Chance Ω P) (s : SampleV ℝ) (hs : SampleRegular s) (hn : (partNames s).Nodup) (d : DistArgs)
    (hl : ∀ l ∈ s.structure_, LayerDrawable l ∧ LayerKindOk d.kind l) (hv : Varied s) (n k : ℕ) (T : Ω → Frame (Num ℝ))
    (hT : ∀ ω, ∃ g', generateRandomLabels C.rng.toRng s n d (ω, k) = .ok (T ω, g')) (q : List ℝ) :
    ∀ᵐ ω ∂P, ∀ i i' : Fin n, i ≠ i' → ∀ u ∈ q, ∀ w < 1, curveFor s [u] (rowOf (T ω) i) = .ok [some w] → curveFor s [u] (rowOf (T ω) i') ≠ .ok [some w] := by
  rw [ae_all_iff]
  intro i
  rw [ae_all_iff]
  intro i'
  by_cases hne : i = i'
  · exact Filter.Eventually.of_forall fun ω h => absurd hne h
  suffices key : ∀ u ∈ q, ∀ᵐ ω ∂P, ∀ w < 1, curveFor s [u] (rowOf (T ω) i) = .ok [some w] → curveFor s [u] (rowOf (T ω) i') ≠ .ok [some w] by
    have := (List.finite_toSet q).countable
    filter_upwards [(ae_ball_iff this).2 key] with ω h _
    exact h
  intro u _
  obtain ⟨W, mW, lW, hW⟩ := rows_numbers C s hs hn d hl n i.pos k T hT
  obtain ⟨nm, hamb⟩ := hv.ambient
  set M : Fin n → (Cell → ℝ) → Mat := fun j v => stackMatrix (codeWave (u * 1e10)) (codeWave (u * 1e10) 0) (stackOf s (rowFor s d.kind n j v) s.layers.reverse) with hM
  have me := fun (j : Fin n) a b => stack_measurable s (rowFor_measurable s d.kind n j) (u * 1e10) s.layers.reverse (measurable_const (a := codeWave (u * 1e10) 0)) a b
  have mn : ∀ (j : Fin n) a b, Measurable fun v => normSq (M j v a b) := fun j a b => Complex.continuous_normSq.measurable.comp (me j a b)
  have h := value_ae C hs hn d hl hv hT i (u * 1e10) (fun v => normSq (M i' v 0 1) / normSq (M i' v 1 1)) ((mn i' 0 1).div (mn i' 1 1)) fun v x => by
    simp only [hM]
    rw [update_stack hs hn d.kind i i' _ v x s.layers.reverse [] rfl (Or.inr (Ne.symm hne))]
  have adm := ae_admissible C s hs hn d hl n k T hT i
  have adm' := ae_admissible C s hs hn d hl n k T hT i'
  rw [← lW] at h adm adm'
  filter_upwards [ae_of_ae_map mW.aemeasurable h, ae_of_ae_map mW.aemeasurable adm, ae_of_ae_map mW.aemeasurable adm'] with ω h1 h2 h3
  intro w hw e1 e2
  rw [curveFor_congr s [u] fun key hkey => hW ω i key hkey, row_value (row_ambient hs hn d.kind i hamb _) fun l hm => admissible_im hs hv h2 hm] at e1
  rw [curveFor_congr s [u] fun key hkey => hW ω i' key hkey, row_value (row_ambient hs hn d.kind i' hamb _) fun l hm => admissible_im hs hv h3 hm] at e2
  have e1 := (List.cons.inj (Except.ok.inj e1)).1
  have e2 := (List.cons.inj (Except.ok.inj e2)).1
  obtain ⟨f1, f2⟩ := (value_below hw).1 e2
  have f3 : normSq (M i' (W ω) 1 1) ≠ 0 := by simpa using f1
  have f4 : normSq (M i' (W ω) 0 1) / normSq (M i' (W ω) 1 1) = w := by rw [div_eq_iff f3]; exact f2
  have := h1 (by rw [f4]; exact hw)
  rw [f4] at this
  exact this e1

/-- **C144** (the training data do not contradict themselves): with probability one, if some momentum transfer has reflectivities below one in all
samples, then some continuous function of the curves gives all labels of all training samples exactly, for every label. So the loss of a network on its
training data is bounded by its size and its training only, also for labels that cannot be determined from curves (`C130_unlearnable`, `C142_loss`). -/
theorem C144_consistent (C : Chance Ω P) (s : SampleV ℝ) (hs : SampleRegular s) (hn : (partNames s).Nodup) (d : DistArgs)
    (hl : ∀ l ∈ s.structure_, LayerDrawable l ∧ LayerKindOk d.kind l) (hv : Varied s) (n k : ℕ) (T : Ω → Frame (Num ℝ))
    (hT : ∀ ω, ∃ g', generateRandomLabels C.rng.toRng s n d (ω, k) = .ok (T ω, g')) (q : List ℝ) (c : Fin q.length) :
    ∀ᵐ ω ∂P, ∀ curve : Fin n → Fin q.length → ℝ, (∀ i : Fin n, curveFor s q (rowOf (T ω) i) = .ok (List.ofFn fun j => some (curve i j))) → (∀ i, curve i c < 1) →
      ∀ label : Str, ∃ N : (Fin q.length → ℝ) → ℝ, Continuous N ∧ ∀ i : Fin n, N (curve i) = (rowOf (T ω) i label).1 := by
  obtain ⟨nm, hamb⟩ := hv.ambient
  filter_upwards [C144_distinct C s hs hn d hl hv n k T hT q] with ω h curve hcurve hlt label
  have pt : ∀ i : Fin n, curveFor s [q.get c] (rowOf (T ω) i) = .ok [some (curve i c)] := by
    intro i
    have hi := hcurve i
    obtain ⟨g', hg⟩ := hT ω
    have tame : Tame C.rng.toRng d := by
      intro hk
      obtain ⟨p, hp, -⟩ := hs.substrate.sld
      rcases (hl s.substrate (by simp [SampleV.structure_])).2.sld p hp with h | ⟨h, -⟩ <;> rw [hk] at h <;> cases h
    obtain ⟨y, hy, e⟩ := row_within hs (within_of_tame C.rng_ok.toOk hs hn (fun l hm => (hl l hm).1) tame hg) i
    have e' : rowOf (T ω) i = pairs y := funext e
    rw [e', curveFor_points hamb q hy] at hi
    rw [e', curveFor_points hamb [q.get c] hy]
    have hi := congrArg (fun l => l[(c : ℕ)]?) (Except.ok.inj hi)
    simp only [List.getElem?_map, List.getElem?_eq_getElem c.2, Option.map_some, List.getElem?_ofFn, c.2, dif_pos, Option.some_inj] at hi
    rw [List.map_cons, List.map_nil, List.get_eq_getElem, hi]
  have inj : Function.Injective fun i => curve i c := by
    intro i i' e
    by_contra hne
    refine h i i' hne (q.get c) (List.get_mem q c) _ (hlt i) (pt i) ?_
    rw [pt i', ← show curve i c = curve i' c from e]
  -- a polynomial in one value
  refine ⟨fun x => (Lagrange.interpolate Finset.univ (fun i => curve i c) (fun i => (rowOf (T ω) i label).1)).eval (x c), ?_, fun i => ?_⟩
  · exact (Polynomial.continuous _).comp (continuous_apply c)
  · exact Lagrange.eval_interpolate_at_node _ inj.injOn (Finset.mem_univ i)

/-! ### An example -/

theorem exampleTwins_varied : Varied exampleTwins := by
  refine ⟨⟨_, rfl⟩, ?_, by simp [exampleTwins], ?_, ?_⟩
  · intro l hl
    simp only [exampleTwins, List.mem_cons, List.not_mem_nil, or_false] at hl
    rcases hl with rfl | rfl | rfl <;> rintro p ⟨⟩ <;> exact ⟨le_refl (0 : ℝ), le_refl (0 : ℝ)⟩
  · intro l hl
    simp only [exampleTwins, List.mem_cons, List.not_mem_nil, or_false] at hl
    rcases hl with rfl | rfl <;>
    · refine ⟨20, 140, _, rfl, by norm_num, ?_⟩
      rintro p ⟨⟩
      show 2 * (0 : ℝ) ≤ 20
      norm_num
  · intro l rest e p p' hp hp' z z' hz hz'
    obtain ⟨rfl, -⟩ := List.cons.inj e
    cases hp
    cases hp'
    cases hz
    cases hz'
    rintro ⟨h, -⟩
    have h : (10 : ℝ) = 20 := h
    norm_num at h

/-- The hypotheses hold for the two films of `exampleTwins`, where no network can learn the thickness of the lower one: still, all random training samples
have different values. -/
example (n : ℕ) (hpos : 0 < n) (q : List ℝ) : ∃ T : (ChanceIdx → ℝ) → Frame (Num ℝ),
    (∀ ω, ∃ g', generateRandomLabels Chance.product.rng.toRng exampleTwins n ⟨.uniform, none, none⟩ (ω, 0) = .ok (T ω, g')) ∧
    ∀ᵐ ω ∂Measure.infinitePi ChanceIdx.law, ∀ i i' : Fin n, i ≠ i' → ∀ u ∈ q, ∀ w < 1,
      curveFor exampleTwins [u] (rowOf (T ω) i) = .ok [some w] → curveFor exampleTwins [u] (rowOf (T ω) i') ≠ .ok [some w] := by
  have H : ∀ l ∈ exampleTwins.structure_, LayerDrawable l ∧ LayerKindOk .uniform l := fun l hl =>
    ⟨exampleTwins_drawable l hl, fun _ _ => Or.inl rfl, fun _ _ => Or.inl rfl, fun _ _ => Or.inl rfl⟩
  have hnd : (partNames exampleTwins).Nodup := by simp only [partNames, exampleTwins]; decide
  obtain ⟨T, hT, -⟩ := C124_rows Chance.product exampleTwins exampleTwins_regular hnd ⟨.uniform, none, none⟩ H n hpos 0
  exact ⟨T, hT, C144_distinct Chance.product exampleTwins exampleTwins_regular hnd ⟨.uniform, none, none⟩ H exampleTwins_varied n 0 T hT q⟩

end Verif.Props
