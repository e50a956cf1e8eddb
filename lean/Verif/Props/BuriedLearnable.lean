import Verif.Props.RoughLearnable
import Verif.Props.BuriedInterface

/-!
# Property C162: the roughness of a buried interface and the density of the film above it can be learned above the critical edge
-/

namespace Verif.Props
open Verif.Py Verif.Model Verif.Spec Complex Filter Topology

/-- A film of unknown thickness, density and roughness on a denser substrate of known density and unknown roughness, the surface rougher than the interface below;
the roughness of the latter within the bound of C157. -/
structure SmootherBuried (s : SampleV ℝ) (l : LayerV ℝ) (d₁ d₂ lo hi r₁ r₂ z t₁ t₂ : ℝ) : Prop where
  layers : s.layers = [l]
  thickness : ∃ nm, l.thickness = some (.range (.real d₁) (.real d₂) nm)
  film : ∃ nm, l.sld = some (.range (.real lo) (.real hi) nm)
  upper : ∃ nm, l.roughness = some (.range (.real r₁) (.real r₂) nm)
  substrate : ∃ nm, s.substrate.sld = some (.const (.real z) nm)
  lower : ∃ nm, s.substrate.roughness = some (.range (.real t₁) (.real t₂) nm)
  ambient : ∃ nm, s.ambient.sld = some (.const (.real 0) nm)
  thick : 0 < d₁
  light : 0 ≤ lo ∧ hi < z
  smooth : 0 ≤ t₁ ∧ t₂ < r₁
  bound : 4 * Real.pi * t₂ ^ 2 * (z * 1e-6) ≤ 1

theorem SmootherBuried.vacuum {s : SampleV ℝ} {l : LayerV ℝ} {d₁ d₂ lo hi r₁ r₂ z t₁ t₂ : ℝ} (h : SmootherBuried s l d₁ d₂ lo hi r₁ r₂ z t₁ t₂) :
    BelowVacuum s := by
  refine ⟨h.ambient, ?_⟩
  obtain ⟨n1, f1⟩ := h.film
  obtain ⟨n2, f2⟩ := h.substrate
  intro x hx p hp
  rw [h.layers] at hx
  simp only [List.mem_cons, List.not_mem_nil, or_false] at hx
  rcases hx with rfl | rfl
  · rw [f2] at hp
    cases hp
    exact ⟨le_refl (0 : ℝ), le_refl (0 : ℝ)⟩
  · rw [f1] at hp
    cases hp
    exact ⟨le_refl (0 : ℝ), le_refl (0 : ℝ)⟩

/-- The labels within the ranges. -/
theorem SmootherBuried.labels {s : SampleV ℝ} {l : LayerV ℝ} {d₁ d₂ lo hi r₁ r₂ z t₁ t₂ : ℝ} (h : SmootherBuried s l d₁ d₂ lo hi r₁ r₂ z t₁ t₂)
    {y : Str → Num ℝ} (hy : RowWithin s y) :
    ∃ x τ σ, y (l.name ++ "_sld".toList) = .real x ∧ y (l.name ++ "_roughness".toList) = .real τ ∧ y (s.substrate.name ++ "_sld".toList) = .real z ∧
      y (s.substrate.name ++ "_roughness".toList) = .real σ ∧ 0 ≤ x ∧ x < z ∧ 0 ≤ σ ∧ σ < τ ∧ σ ≤ t₂ ∧ 0 < (y (l.name ++ "_thickness".toList)).re := by
  have ml : l ∈ s.layers := by rw [h.layers]; exact List.mem_singleton_self l
  obtain ⟨n0, f0⟩ := h.thickness
  obtain ⟨n1, f1⟩ := h.film
  obtain ⟨n2, f2⟩ := h.upper
  obtain ⟨n3, f3⟩ := h.substrate
  obtain ⟨n4, f4⟩ := h.lower
  obtain ⟨x, hx, x1, x2⟩ := hy.sld l (List.mem_append_left _ (List.mem_cons_of_mem _ ml)) _ f1
  obtain ⟨d, hd, e1, -⟩ := hy.thickness l ml _ f0
  obtain ⟨τ, hτ, s1, -⟩ := hy.roughness l (List.mem_cons_of_mem _ ml) _ f2
  obtain ⟨σ, hσ, u1, u2⟩ := hy.roughness s.substrate (by simp) _ f4
  refine ⟨x, τ, σ, hx, hτ, hy.sld s.substrate (by simp) _ f3, hσ, h.light.1.trans x1, x2.trans_lt h.light.2, h.smooth.1.trans u1, by linarith [h.smooth.2], u2, ?_⟩
  rw [hd]
  exact h.thick.trans_le e1

/-- **C162** (determined): the points above any momentum transfer determine the roughness of the substrate and the density of the film. -/
theorem C162_determined {s : SampleV ℝ} {l : LayerV ℝ} {d₁ d₂ lo hi r₁ r₂ z t₁ t₂ : ℝ}
    (h : SmootherBuried s l d₁ d₂ lo hi r₁ r₂ z t₁ t₂) (U : ℝ) {y y' : Str → Num ℝ} (hy : RowWithin s y)
    (hy' : RowWithin s y') (e : ∀ u ≥ U, curveFor s [u] (pairs y) = curveFor s [u] (pairs y')) :
    (y (s.substrate.name ++ "_roughness".toList)).re = (y' (s.substrate.name ++ "_roughness".toList)).re ∧
      (y (l.name ++ "_sld".toList)).re = (y' (l.name ++ "_sld".toList)).re := by
  obtain ⟨x, τ, σ, ex, et, ez, er, x0, x1, s0, st, s2, -⟩ := h.labels hy
  obtain ⟨x', τ', σ', ex', et', ez', er', x0', x1', s0', st', -, -⟩ := h.labels hy'
  have less : ∀ {σ τ : ℝ}, 0 ≤ σ → σ < τ → |σ| < |τ| := fun h1 h2 => by rwa [abs_of_nonneg h1, abs_of_pos (h1.trans_lt h2)]
  have small : 4 * Real.pi * σ ^ 2 * (z * 1e-6) ≤ 1 := by
    refine le_trans ?_ h.bound
    have z0 : 0 ≤ z * 1e-6 := by linarith
    have := pow_le_pow_left₀ s0 s2 2
    gcongr
  obtain ⟨a, b⟩ := C157_sample h.vacuum h.vacuum h.layers h.layers hy hy' x x' z σ σ' τ τ' ex ex' ez ez' x0 x1 x0' x1' (by rw [et]; rfl) (by rw [er]; rfl)
    (by rw [et']; rfl) (by rw [er']; rfl) (less s0 st) (less s0' st') small U e
  rw [abs_of_nonneg s0, abs_of_nonneg s0'] at a
  exact ⟨by rw [er, er', a], by rw [ex, ex', b]⟩

/-- **C162** (learning): for every tolerance and every momentum transfer above the critical edges there are finitely many larger momentum transfers, a continuous function of the
curve at these points and a size of measurement errors such that the function gives the roughness of the substrate (or the density of the film) of every admissible sample up to the tolerance. -/
theorem C162_learnable (s : SampleV ℝ) (l : LayerV ℝ) (d₁ d₂ lo hi r₁ r₂ z t₁ t₂ : ℝ) (hs : SampleRegular s) (hn : (partNames s).Nodup)
    (hl : ∀ l ∈ s.structure_, LayerDrawable l) (h : SmootherBuried s l d₁ d₂ lo hi r₁ r₂ z t₁ t₂) (U : ℝ) (hU : 0 < U)
    (hc : 16 * Real.pi * (z * 1e-6) < U ^ 2) (key : Str)
    (hkey : key = s.substrate.name ++ "_roughness".toList ∨ key = l.name ++ "_sld".toList) (ε : ℝ) (hε : 0 < ε) :
    ∃ q : List ℝ, (∀ u ∈ q, U ≤ u) ∧ ∃ N : (Fin q.length → ℝ) → ℝ, Continuous N ∧ ∃ δ > 0, ∀ y, RowWithin s y →
      (∃ v : Fin q.length → ℝ, curveFor s q (pairs y) = .ok (List.ofFn fun j => some (v j))) ∧
      ∀ v w : Fin q.length → ℝ, curveFor s q (pairs y) = .ok (List.ofFn fun j => some (v j)) → (∀ j, |w j - v j| < δ) → |N w - (y key).re| < ε := by
  obtain ⟨nm, hamb⟩ := h.ambient
  have ml : l ∈ s.layers := by rw [h.layers]; exact List.mem_singleton_self l
  have := finite_points_on s hs hn hl nm hamb h.vacuum.absorption (Set.Ici U) (fun u hu y hy => ?_) [key] ?_ ?_ ε hε
  · simpa using this
  · obtain ⟨x, -, -, ex, -, ez, -, -, x1, -, -, -, t0⟩ := h.labels hy
    have hu : U ≤ u := hu
    have u0 : 0 < u := hU.trans_le hu
    have uu : U ^ 2 ≤ u ^ 2 := pow_le_pow_left₀ hU.le hu 2
    have pi := Real.pi_pos
    have edge : ∀ {a : ℝ}, a ≤ z → 16 * Real.pi * (siDensity (.real a)).re < (u * 1e10) ^ 2 := by
      intro a ha
      rw [siDensity_real, Complex.ofReal_re]
      have : 16 * Real.pi * (a * 1e-6) ≤ 16 * Real.pi * (z * 1e-6) := by
        refine mul_le_mul_of_nonneg_left ?_ (by positivity)
        linarith
      nlinarith
    have im : ∀ a : ℝ, 0 ≤ (siDensity (.real a)).im := fun a => by rw [siDensity_real, Complex.ofReal_im]
    have num := film_number (u * 1e10) ((y (l.name ++ "_thickness".toList)).re * 1e-10) ((y (s.substrate.name ++ "_roughness".toList)).re * 1e-10)
      ((y (l.name ++ "_roughness".toList)).re * 1e-10) (siDensity (.real x)) (siDensity (.real z)) (im x) (im z) (by positivity) (by positivity) (edge x1.le) (edge le_rfl)
    rw [← ex, ← ez] at num
    obtain ⟨v, hv, -⟩ := num
    refine ⟨v, ?_⟩
    rw [curveFor_points hamb [u] hy, h.layers]
    simp only [List.map_cons, List.map_nil]
    exact congrArg (fun o => Except.ok [o]) hv
  · simp only [List.mem_singleton, forall_eq]
    rcases hkey with rfl | rfl
    · exact mem_labels.2.1 s.substrate (by simp)
    · exact mem_labels.2.2 l (List.mem_append_left _ (List.mem_cons_of_mem _ ml))
  · intro y y' hy hy' e
    obtain ⟨a, b⟩ := C162_determined h U hy hy' e
    simp only [List.map_cons, List.map_nil, List.sum_cons, List.sum_nil, add_zero]
    rcases hkey with rfl | rfl
    · exact a
    · exact b

/-- A film with a rough surface on a smoother substrate of known density. -/
noncomputable def exampleBuriedFilm : SampleV ℝ where
  substrate := ⟨.substrate, "Si".toList, none, some (.range (.real 1) (.real 4) (some "roughness".toList)), some (.const (.real 20) (some "sld".toList))⟩
  ambient := ⟨.ambient, "air".toList, none, none, some (.const (.real 0) (some "sld".toList))⟩
  layers := [⟨.layer, "film".toList, some (.range (.real 20) (.real 1000) (some "thickness".toList)), some (.range (.real 5) (.real 8) (some "roughness".toList)),
    some (.range (.real 5) (.real 15) (some "sld".toList))⟩]

/-- Not vacuous: the roughness of the buried interface can be learned up to 0.1 Å from finitely many points above 0.1/Å. -/
example : ∃ q : List ℝ, (∀ u ∈ q, 0.1 ≤ u) ∧ ∃ N : (Fin q.length → ℝ) → ℝ, Continuous N ∧ ∃ δ > 0, ∀ y, RowWithin exampleBuriedFilm y →
      (∃ v : Fin q.length → ℝ, curveFor exampleBuriedFilm q (pairs y) = .ok (List.ofFn fun j => some (v j))) ∧
      ∀ v w : Fin q.length → ℝ, curveFor exampleBuriedFilm q (pairs y) = .ok (List.ofFn fun j => some (v j)) → (∀ j, |w j - v j| < δ) →
        |N w - (y ("Si".toList ++ "_roughness".toList)).re| < 0.1 := by
  refine C162_learnable exampleBuriedFilm (exampleBuriedFilm.layers.head (by simp [exampleBuriedFilm])) 20 1000 5 15 5 8 20 1 4 ?_ ?_ ?_
    ⟨rfl, ⟨_, rfl⟩, ⟨_, rfl⟩, ⟨_, rfl⟩, ⟨_, rfl⟩, ⟨_, rfl⟩, ⟨_, rfl⟩, by norm_num, by norm_num, by norm_num, by nlinarith [Real.pi_le_four]⟩ 0.1 (by norm_num)
    (by nlinarith [Real.pi_le_four]) _ (.inl rfl) 0.1 (by norm_num)
  · refine ⟨⟨rfl, rfl, ⟨_, rfl, ⟨rfl, ?_⟩, ?_⟩, ⟨_, rfl, rfl, trivial⟩⟩, ⟨rfl, rfl, rfl, ⟨_, rfl, rfl, trivial⟩⟩, ?_⟩
    · simp only [ParamValid, Num.ge]; norm_num
    · simp only [Param.min, Num.ltZero]; norm_num
    · intro l hl
      rw [show exampleBuriedFilm.layers = [_] from rfl, List.mem_singleton] at hl
      subst hl
      refine ⟨Or.inl rfl, ⟨_, rfl, ⟨rfl, ?_⟩, ?_⟩, ⟨_, rfl, ⟨rfl, ?_⟩, ?_⟩, ⟨_, rfl, rfl, ?_⟩⟩
      · simp only [ParamValid, Num.ge]; norm_num
      · simp only [Param.min, Num.ltZero]; norm_num
      · simp only [ParamValid, Num.ge]; norm_num
      · simp only [Param.min, Num.ltZero]; norm_num
      · simp only [ParamValid, Num.ge]; norm_num
  · simp only [partNames, exampleBuriedFilm]; decide
  · intro l hl
    simp only [SampleV.structure_, exampleBuriedFilm, List.cons_append, List.nil_append, List.mem_cons, List.not_mem_nil, or_false] at hl
    rcases hl with rfl | rfl | rfl
    · refine ⟨?_, by simp, ?_⟩ <;> rintro p ⟨⟩
      · trivial
      · exact ⟨1, 4, rfl, rfl, by norm_num⟩
    · refine ⟨?_, ?_, ?_⟩ <;> rintro p ⟨⟩
      · exact ⟨show (5 : ℝ) ≤ 15 by norm_num, le_refl (0 : ℝ), Or.inl ⟨_, _, rfl, rfl⟩⟩
      · exact ⟨20, 1000, rfl, rfl, by norm_num⟩
      · exact ⟨5, 8, rfl, rfl, by norm_num⟩
    · refine ⟨?_, by simp, by simp⟩
      rintro p ⟨⟩
      trivial

/-- Labels within the ranges exist. -/
example : RowWithin exampleBuriedFilm (fun k => if k = "film_roughness".toList then .real 6 else if k = "Si_roughness".toList then .real 2 else
    if k = "air_sld".toList then .real 0 else if k = "Si_sld".toList then .real 20 else if k = "film_thickness".toList then .real 100 else .real 15) := by
  refine ⟨?_, ?_, ?_, ?_⟩ <;> intro l hl p hp <;>
    simp only [exampleBuriedFilm, List.cons_append, List.nil_append, List.mem_cons, List.not_mem_nil, or_false] at hl
  · rcases hl with rfl | rfl | rfl <;> cases hp
    · show (if _ then _ else _) = _
      rw [if_neg (by decide), if_neg (by decide), if_neg (by decide), if_pos (by decide)]
    · exact ⟨15, by rw [if_neg (by decide), if_neg (by decide), if_neg (by decide), if_neg (by decide), if_neg (by decide)], by norm_num, by norm_num⟩
    · show (if _ then _ else _) = _
      rw [if_neg (by decide), if_neg (by decide), if_pos (by decide)]
  · rcases hl with rfl | rfl <;> cases hp
    · exact ⟨2, by rw [if_neg (by decide), if_pos (by decide)], by norm_num, by norm_num⟩
    · exact ⟨6, by rw [if_pos (by decide)], by norm_num, by norm_num⟩
  · subst hl; cases hp
    exact ⟨100, by rw [if_neg (by decide), if_neg (by decide), if_neg (by decide), if_neg (by decide), if_pos (by decide)], by norm_num, by norm_num⟩
  · subst hl; cases hp
    exact ⟨5, 100, 6, rfl, by rw [if_neg (by decide), if_neg (by decide), if_neg (by decide), if_neg (by decide), if_pos (by decide)], by rw [if_pos (by decide)],
      le_max_of_le_right (by norm_num)⟩

end Verif.Props
