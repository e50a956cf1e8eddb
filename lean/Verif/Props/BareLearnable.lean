import Verif.Props.SmoothSurface

/-!
# Property C161: roughness and density of a bare substrate can be learned from finitely many points of the curve
-/

namespace Verif.Props
open Verif.Py Verif.Model Verif.Spec Complex Filter Topology

/-- A substrate without layers below vacuum, of unknown positive density and unknown roughness. -/
structure BareSubstrate (s : SampleV ℝ) (lo hi r₁ r₂ : ℝ) : Prop where
  layers : s.layers = []
  density : ∃ nm, s.substrate.sld = some (.range (.real lo) (.real hi) nm)
  roughness : ∃ nm, s.substrate.roughness = some (.range (.real r₁) (.real r₂) nm)
  ambient : ∃ nm, s.ambient.sld = some (.const (.real 0) nm)
  dense : 0 < lo
  rough : 0 ≤ r₁

theorem BareSubstrate.vacuum {s : SampleV ℝ} {lo hi r₁ r₂ : ℝ} (h : BareSubstrate s lo hi r₁ r₂) : BelowVacuum s := by
  refine ⟨h.ambient, ?_⟩
  obtain ⟨n1, f1⟩ := h.density
  intro x hx p hp
  rw [h.layers] at hx
  simp only [List.mem_cons, List.not_mem_nil, or_false] at hx
  subst hx
  rw [f1] at hp
  cases hp
  exact ⟨le_refl (0 : ℝ), le_refl (0 : ℝ)⟩

theorem BareSubstrate.labels {s : SampleV ℝ} {lo hi r₁ r₂ : ℝ} (h : BareSubstrate s lo hi r₁ r₂) {y : Str → Num ℝ} (hy : RowWithin s y) :
    ∃ x σ, y (s.substrate.name ++ "_sld".toList) = .real x ∧ y (s.substrate.name ++ "_roughness".toList) = .real σ ∧ 0 < x ∧ 0 ≤ σ := by
  obtain ⟨n1, f1⟩ := h.density
  obtain ⟨n2, f2⟩ := h.roughness
  obtain ⟨x, hx, x1, -⟩ := hy.sld s.substrate (by simp) _ f1
  obtain ⟨σ, hσ, s1, -⟩ := hy.roughness s.substrate (by simp) _ f2
  exact ⟨x, σ, hx, hσ, h.dense.trans_le x1, h.rough.trans s1⟩

/-- **C161** (determined): the points above any momentum transfer determine roughness and density of the substrate. -/
theorem C161_determined {s : SampleV ℝ} {lo hi r₁ r₂ : ℝ} (hs : SampleRegular s) (h : BareSubstrate s lo hi r₁ r₂) (U : ℝ) {y y' : Str → Num ℝ} (hy : RowWithin s y)
    (hy' : RowWithin s y') (e : ∀ u ≥ U, curveFor s [u] (pairs y) = curveFor s [u] (pairs y')) :
    (y (s.substrate.name ++ "_roughness".toList)).re = (y' (s.substrate.name ++ "_roughness".toList)).re ∧
      (y (s.substrate.name ++ "_sld".toList)).re = (y' (s.substrate.name ++ "_sld".toList)).re := by
  obtain ⟨x, σ, ex, er, x0, s0⟩ := h.labels hy
  obtain ⟨x', σ', ex', er', x0', s0'⟩ := h.labels hy'
  have stack : ∀ {y : Str → Num ℝ} {x σ : ℝ}, y (s.substrate.name ++ "_sld".toList) = .real x → y (s.substrate.name ++ "_roughness".toList) = .real σ →
      labelStack s y = ⟨σ * 1e-10, siDensity (.real x), 0⟩ :: [] := by
    intro y x σ h1 h2
    rw [labelStack, h.layers, h1, h2]
    rfl
  obtain ⟨a, b⟩ := C156_sample hs h.vacuum hs h.vacuum hy hy' σ σ' x x' 0 0 [] [] (stack ex er) (stack ex' er') x0 x0' (by simp [roughSteps]) (by simp [roughSteps]) U e
  rw [abs_of_nonneg s0, abs_of_nonneg s0'] at a
  exact ⟨by rw [er, er', a], by rw [ex, ex', b]⟩

/-- **C161** (learning): for every tolerance and every momentum transfer there are finitely many larger momentum transfers, a continuous function of the curve at these points and
a size of measurement errors such that the function gives roughness (or density) of every admissible substrate up to the tolerance. -/
theorem C161_learnable (s : SampleV ℝ) (lo hi r₁ r₂ : ℝ) (hs : SampleRegular s) (hn : (partNames s).Nodup) (hl : ∀ l ∈ s.structure_, LayerDrawable l)
    (h : BareSubstrate s lo hi r₁ r₂) (U : ℝ) (key : Str)
    (hkey : key = s.substrate.name ++ "_roughness".toList ∨ key = s.substrate.name ++ "_sld".toList) (ε : ℝ) (hε : 0 < ε) :
    ∃ q : List ℝ, (∀ u ∈ q, U ≤ u) ∧ ∃ N : (Fin q.length → ℝ) → ℝ, Continuous N ∧ ∃ δ > 0, ∀ y, RowWithin s y →
      (∃ v : Fin q.length → ℝ, curveFor s q (pairs y) = .ok (List.ofFn fun j => some (v j))) ∧
      ∀ v w : Fin q.length → ℝ, curveFor s q (pairs y) = .ok (List.ofFn fun j => some (v j)) → (∀ j, |w j - v j| < δ) → |N w - (y key).re| < ε := by
  obtain ⟨nm, hamb⟩ := h.ambient
  have := finite_points_on s hs hn hl nm hamb h.vacuum.absorption (Set.Ici U) (fun u hu y hy => ?_) [key] ?_ ?_ ε hε
  · simpa using this
  · obtain ⟨x, σ, ex, er, -, -⟩ := h.labels hy
    have im : 0 ≤ (siDensity (.real x)).im := by rw [siDensity_real, Complex.ofReal_im]
    have c := C39_substrate (u * 1e10) (σ * 1e-10) (siDensity (.real x)) _ _ im (codeWave_isWave (u * 1e10) (ρ := 0) (by simp)).1 (codeWave_isWave (u * 1e10) im).1
    refine ⟨_, Eq.trans ?_ c⟩
    rw [curveFor_points hamb [u] hy, h.layers, multilayer_eq _ _ _ _ (by simp) (by simp)]
    simp only [List.map_cons, List.map_nil]
    rw [ex, er]
    rfl
  · simp only [List.mem_singleton, forall_eq]
    rcases hkey with rfl | rfl
    · exact mem_labels.2.1 s.substrate (by simp)
    · exact mem_labels.2.2 s.substrate (by simp)
  · intro y y' hy hy' e
    obtain ⟨a, b⟩ := C161_determined hs h U hy hy' e
    simp only [List.map_cons, List.map_nil, List.sum_cons, List.sum_nil, add_zero]
    rcases hkey with rfl | rfl
    · exact a
    · exact b

/-- Not vacuous: the roughness of a bare substrate can be learned up to 0.1 Å; labels within the ranges exist (see `exampleBare`). -/
example : ∃ q : List ℝ, (∀ u ∈ q, 0.1 ≤ u) ∧ ∃ N : (Fin q.length → ℝ) → ℝ, Continuous N ∧ ∃ δ > 0, ∀ y, RowWithin exampleBare y →
      (∃ v : Fin q.length → ℝ, curveFor exampleBare q (pairs y) = .ok (List.ofFn fun j => some (v j))) ∧
      ∀ v w : Fin q.length → ℝ, curveFor exampleBare q (pairs y) = .ok (List.ofFn fun j => some (v j)) → (∀ j, |w j - v j| < δ) →
        |N w - (y ("Si".toList ++ "_roughness".toList)).re| < 0.1 := by
  refine C161_learnable exampleBare 5 25 1 5 exampleBare_ok.1 ?_ ?_ ⟨rfl, ⟨_, rfl⟩, ⟨_, rfl⟩, ⟨_, rfl⟩, by norm_num, by norm_num⟩ 0.1 _ (.inl rfl) 0.1 (by norm_num)
  · simp only [partNames, exampleBare]; decide
  · intro l hl
    simp only [SampleV.structure_, exampleBare, List.cons_append, List.nil_append, List.mem_cons, List.not_mem_nil, or_false] at hl
    rcases hl with rfl | rfl
    · refine ⟨?_, by simp, ?_⟩ <;> rintro p ⟨⟩
      · exact ⟨show (5 : ℝ) ≤ 25 by norm_num, le_refl (0 : ℝ), Or.inl ⟨_, _, rfl, rfl⟩⟩
      · exact ⟨1, 5, rfl, rfl, by norm_num⟩
    · refine ⟨?_, by simp, by simp⟩
      rintro p ⟨⟩
      trivial

end Verif.Props
