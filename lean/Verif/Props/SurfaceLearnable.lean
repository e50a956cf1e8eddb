import Verif.Props.RoughLearnable
import Verif.Props.SmoothSurface

/-!
# Property C160: roughness and density of a film with a smooth surface can be learned above the critical edge, on an unknown substrate
-/

namespace Verif.Props
open Verif.Py Verif.Model Verif.Spec Complex Filter Topology

/-- A film of unknown thickness, density and roughness on a substrate of unknown density and roughness, the surface smoother than the interface below. -/
structure SmootherSurface (s : SampleV ℝ) (l : LayerV ℝ) (d₁ d₂ lo hi r₁ r₂ z₁ z₂ t₁ t₂ : ℝ) : Prop where
  layers : s.layers = [l]
  thickness : ∃ nm, l.thickness = some (.range (.real d₁) (.real d₂) nm)
  film : ∃ nm, l.sld = some (.range (.real lo) (.real hi) nm)
  upper : ∃ nm, l.roughness = some (.range (.real r₁) (.real r₂) nm)
  substrate : ∃ nm, s.substrate.sld = some (.range (.real z₁) (.real z₂) nm)
  lower : ∃ nm, s.substrate.roughness = some (.range (.real t₁) (.real t₂) nm)
  ambient : ∃ nm, s.ambient.sld = some (.const (.real 0) nm)
  thick : 0 < d₁
  dense : 0 < lo
  smooth : 0 ≤ r₁ ∧ r₂ < t₁

theorem SmootherSurface.vacuum {s : SampleV ℝ} {l : LayerV ℝ} {d₁ d₂ lo hi r₁ r₂ z₁ z₂ t₁ t₂ : ℝ} (h : SmootherSurface s l d₁ d₂ lo hi r₁ r₂ z₁ z₂ t₁ t₂) :
    BelowVacuum s := by
  refine ⟨h.ambient, ?_⟩
  obtain ⟨n1, f1⟩ := h.film
  obtain ⟨n2, f2⟩ := h.substrate
  intro x hx p hp
  rw [h.layers] at hx
  simp only [List.mem_cons, List.not_mem_nil, or_false] at hx
  rcases hx with rfl | rfl
  · rw [f2] at hp
    cases hp
    exact ⟨le_refl (0 : ℝ), le_refl (0 : ℝ)⟩
  · rw [f1] at hp
    cases hp
    exact ⟨le_refl (0 : ℝ), le_refl (0 : ℝ)⟩

/-- The labels within the ranges. -/
theorem SmootherSurface.labels {s : SampleV ℝ} {l : LayerV ℝ} {d₁ d₂ lo hi r₁ r₂ z₁ z₂ t₁ t₂ : ℝ} (h : SmootherSurface s l d₁ d₂ lo hi r₁ r₂ z₁ z₂ t₁ t₂)
    {y : Str → Num ℝ} (hy : RowWithin s y) :
    ∃ x σ z τ, y (l.name ++ "_sld".toList) = .real x ∧ y (l.name ++ "_roughness".toList) = .real σ ∧ y (s.substrate.name ++ "_sld".toList) = .real z ∧
      y (s.substrate.name ++ "_roughness".toList) = .real τ ∧ 0 < x ∧ x ≤ hi ∧ 0 ≤ σ ∧ σ < τ ∧ z ≤ z₂ ∧ 0 < (y (l.name ++ "_thickness".toList)).re := by
  have ml : l ∈ s.layers := by rw [h.layers]; exact List.mem_singleton_self l
  obtain ⟨n0, f0⟩ := h.thickness
  obtain ⟨n1, f1⟩ := h.film
  obtain ⟨n2, f2⟩ := h.upper
  obtain ⟨n3, f3⟩ := h.substrate
  obtain ⟨n4, f4⟩ := h.lower
  obtain ⟨x, hx, x1, x2⟩ := hy.sld l (List.mem_append_left _ (List.mem_cons_of_mem _ ml)) _ f1
  obtain ⟨d, hd, e1, -⟩ := hy.thickness l ml _ f0
  obtain ⟨σ, hσ, s1, s2⟩ := hy.roughness l (List.mem_cons_of_mem _ ml) _ f2
  obtain ⟨z, hz, -, z2⟩ := hy.sld s.substrate (by simp) _ f3
  obtain ⟨τ, hτ, u1, -⟩ := hy.roughness s.substrate (by simp) _ f4
  refine ⟨x, σ, z, τ, hx, hσ, hz, hτ, h.dense.trans_le x1, x2, h.smooth.1.trans s1, by linarith [h.smooth.2], z2, ?_⟩
  rw [hd]
  exact h.thick.trans_le e1

/-- **C160** (determined): the points above any momentum transfer determine roughness and density of the film. -/
theorem C160_determined {s : SampleV ℝ} {l : LayerV ℝ} {d₁ d₂ lo hi r₁ r₂ z₁ z₂ t₁ t₂ : ℝ} (hs : SampleRegular s)
    (h : SmootherSurface s l d₁ d₂ lo hi r₁ r₂ z₁ z₂ t₁ t₂) (U : ℝ) {y y' : Str → Num ℝ} (hy : RowWithin s y)
    (hy' : RowWithin s y') (e : ∀ u ≥ U, curveFor s [u] (pairs y) = curveFor s [u] (pairs y')) :
    (y (l.name ++ "_roughness".toList)).re = (y' (l.name ++ "_roughness".toList)).re ∧ (y (l.name ++ "_sld".toList)).re = (y' (l.name ++ "_sld".toList)).re := by
  obtain ⟨x, σ, z, τ, ex, er, ez, et, x0, -, s0, st, -, -⟩ := h.labels hy
  obtain ⟨x', σ', z', τ', ex', er', ez', et', x0', -, s0', st', -, -⟩ := h.labels hy'
  have stack : ∀ {y : Str → Num ℝ} {x σ z τ : ℝ}, y (l.name ++ "_sld".toList) = .real x → y (l.name ++ "_roughness".toList) = .real σ →
      y (s.substrate.name ++ "_sld".toList) = .real z → y (s.substrate.name ++ "_roughness".toList) = .real τ →
      labelStack s y = ⟨σ * 1e-10, siDensity (.real x), (y (l.name ++ "_thickness".toList)).re * 1e-10⟩ :: [⟨τ * 1e-10, siDensity (.real z), 0⟩] := by
    intro y x σ z τ h1 h2 h3 h4
    rw [labelStack, h.layers, h3, h4]
    simp only [List.map_cons, List.map_nil, List.reverse_cons, List.reverse_nil, List.nil_append, List.cons_append]
    rw [h1, h2]
    rfl
  have below : ∀ {x σ z τ : ℝ}, 0 ≤ σ → σ < τ → ∀ p ∈ roughSteps (siDensity (.real x)) [⟨τ * 1e-10, siDensity (.real z), 0⟩], p.1 = 0 ∨ |σ * 1e-10| < |p.2| := by
    intro x σ z τ h1 h2 p hp
    simp only [roughSteps, List.mem_singleton] at hp
    subst hp
    right
    show |σ * 1e-10| < |τ * 1e-10|
    rw [abs_of_nonneg (by positivity), abs_of_pos (by linarith)]
    linarith
  obtain ⟨a, b⟩ := C156_sample hs h.vacuum hs h.vacuum hy hy' σ σ' x x' _ _ _ _ (stack ex er ez et) (stack ex' er' ez' et') x0 x0' (below s0 st) (below s0' st') U e
  rw [abs_of_nonneg s0, abs_of_nonneg s0'] at a
  exact ⟨by rw [er, er', a], by rw [ex, ex', b]⟩

/-- **C160** (learning): for every tolerance and every momentum transfer above the critical edges there are finitely many larger momentum transfers, a continuous function of the
curve at these points and a size of measurement errors such that the function gives roughness (or density) of the film of every admissible sample up to the tolerance. -/
theorem C160_learnable (s : SampleV ℝ) (l : LayerV ℝ) (d₁ d₂ lo hi r₁ r₂ z₁ z₂ t₁ t₂ : ℝ) (hs : SampleRegular s) (hn : (partNames s).Nodup)
    (hl : ∀ l ∈ s.structure_, LayerDrawable l) (h : SmootherSurface s l d₁ d₂ lo hi r₁ r₂ z₁ z₂ t₁ t₂) (U : ℝ) (hU : 0 < U)
    (hc : 16 * Real.pi * (max hi z₂ * 1e-6) < U ^ 2) (key : Str)
    (hkey : key = l.name ++ "_roughness".toList ∨ key = l.name ++ "_sld".toList) (ε : ℝ) (hε : 0 < ε) :
    ∃ q : List ℝ, (∀ u ∈ q, U ≤ u) ∧ ∃ N : (Fin q.length → ℝ) → ℝ, Continuous N ∧ ∃ δ > 0, ∀ y, RowWithin s y →
      (∃ v : Fin q.length → ℝ, curveFor s q (pairs y) = .ok (List.ofFn fun j => some (v j))) ∧
      ∀ v w : Fin q.length → ℝ, curveFor s q (pairs y) = .ok (List.ofFn fun j => some (v j)) → (∀ j, |w j - v j| < δ) → |N w - (y key).re| < ε := by
  obtain ⟨nm, hamb⟩ := h.ambient
  have ml : l ∈ s.layers := by rw [h.layers]; exact List.mem_singleton_self l
  have := finite_points_on s hs hn hl nm hamb h.vacuum.absorption (Set.Ici U) (fun u hu y hy => ?_) [key] ?_ ?_ ε hε
  · simpa using this
  · obtain ⟨x, -, z, -, ex, -, ez, -, -, x1, -, -, z1, t0⟩ := h.labels hy
    have hu : U ≤ u := hu
    have u0 : 0 < u := hU.trans_le hu
    have uu : U ^ 2 ≤ u ^ 2 := pow_le_pow_left₀ hU.le hu 2
    have pi := Real.pi_pos
    have edge : ∀ {a : ℝ}, a ≤ max hi z₂ → 16 * Real.pi * (siDensity (.real a)).re < (u * 1e10) ^ 2 := by
      intro a ha
      rw [siDensity_real, Complex.ofReal_re]
      have : 16 * Real.pi * (a * 1e-6) ≤ 16 * Real.pi * (max hi z₂ * 1e-6) := by
        refine mul_le_mul_of_nonneg_left ?_ (by positivity)
        linarith
      nlinarith
    have im : ∀ a : ℝ, 0 ≤ (siDensity (.real a)).im := fun a => by rw [siDensity_real, Complex.ofReal_im]
    have num := film_number (u * 1e10) ((y (l.name ++ "_thickness".toList)).re * 1e-10) ((y (s.substrate.name ++ "_roughness".toList)).re * 1e-10)
      ((y (l.name ++ "_roughness".toList)).re * 1e-10) (siDensity (.real x)) (siDensity (.real z)) (im x) (im z) (by positivity) (by positivity) (edge (x1.trans (le_max_left _ _))) (edge (z1.trans (le_max_right _ _)))
    rw [← ex, ← ez] at num
    obtain ⟨v, hv, -⟩ := num
    refine ⟨v, ?_⟩
    rw [curveFor_points hamb [u] hy, h.layers]
    simp only [List.map_cons, List.map_nil]
    exact congrArg (fun o => Except.ok [o]) hv
  · simp only [List.mem_singleton, forall_eq]
    rcases hkey with rfl | rfl
    · exact mem_labels.2.1 l (List.mem_cons_of_mem _ ml)
    · exact mem_labels.2.2 l (List.mem_append_left _ (List.mem_cons_of_mem _ ml))
  · intro y y' hy hy' e
    obtain ⟨a, b⟩ := C160_determined hs h U hy hy' e
    simp only [List.map_cons, List.map_nil, List.sum_cons, List.sum_nil, add_zero]
    rcases hkey with rfl | rfl
    · exact a
    · exact b

/-- A film with a smooth surface on a rough substrate; all five labels are unknown. -/
noncomputable def exampleSmoothFilm : SampleV ℝ where
  substrate := ⟨.substrate, "Si".toList, none, some (.range (.real 5) (.real 8) (some "roughness".toList)), some (.range (.real 15) (.real 25) (some "sld".toList))⟩
  ambient := ⟨.ambient, "air".toList, none, none, some (.const (.real 0) (some "sld".toList))⟩
  layers := [⟨.layer, "film".toList, some (.range (.real 20) (.real 1000) (some "thickness".toList)), some (.range (.real 1) (.real 4) (some "roughness".toList)),
    some (.range (.real 5) (.real 15) (some "sld".toList))⟩]

/-- Not vacuous: the roughness of the surface can be learned up to 0.1 Å from finitely many points above 0.1/Å. -/
example : ∃ q : List ℝ, (∀ u ∈ q, 0.1 ≤ u) ∧ ∃ N : (Fin q.length → ℝ) → ℝ, Continuous N ∧ ∃ δ > 0, ∀ y, RowWithin exampleSmoothFilm y →
      (∃ v : Fin q.length → ℝ, curveFor exampleSmoothFilm q (pairs y) = .ok (List.ofFn fun j => some (v j))) ∧
      ∀ v w : Fin q.length → ℝ, curveFor exampleSmoothFilm q (pairs y) = .ok (List.ofFn fun j => some (v j)) → (∀ j, |w j - v j| < δ) →
        |N w - (y ("film".toList ++ "_roughness".toList)).re| < 0.1 := by
  refine C160_learnable exampleSmoothFilm (exampleSmoothFilm.layers.head (by simp [exampleSmoothFilm])) 20 1000 5 15 1 4 15 25 5 8 ?_ ?_ ?_
    ⟨rfl, ⟨_, rfl⟩, ⟨_, rfl⟩, ⟨_, rfl⟩, ⟨_, rfl⟩, ⟨_, rfl⟩, ⟨_, rfl⟩, by norm_num, by norm_num, by norm_num⟩ 0.1 (by norm_num)
    (by rw [max_eq_right (by norm_num)]; nlinarith [Real.pi_le_four]) _ (.inl rfl) 0.1 (by norm_num)
  · refine ⟨⟨rfl, rfl, ⟨_, rfl, ⟨rfl, ?_⟩, ?_⟩, ⟨_, rfl, rfl, ?_⟩⟩, ⟨rfl, rfl, rfl, ⟨_, rfl, rfl, trivial⟩⟩, ?_⟩
    · simp only [ParamValid, Num.ge]; norm_num
    · simp only [Param.min, Num.ltZero]; norm_num
    · simp only [ParamValid, Num.ge]; norm_num
    · intro l hl
      rw [show exampleSmoothFilm.layers = [_] from rfl, List.mem_singleton] at hl
      subst hl
      refine ⟨Or.inl rfl, ⟨_, rfl, ⟨rfl, ?_⟩, ?_⟩, ⟨_, rfl, ⟨rfl, ?_⟩, ?_⟩, ⟨_, rfl, rfl, ?_⟩⟩
      · simp only [ParamValid, Num.ge]; norm_num
      · simp only [Param.min, Num.ltZero]; norm_num
      · simp only [ParamValid, Num.ge]; norm_num
      · simp only [Param.min, Num.ltZero]; norm_num
      · simp only [ParamValid, Num.ge]; norm_num
  · simp only [partNames, exampleSmoothFilm]; decide
  · intro l hl
    simp only [SampleV.structure_, exampleSmoothFilm, List.cons_append, List.nil_append, List.mem_cons, List.not_mem_nil, or_false] at hl
    rcases hl with rfl | rfl | rfl
    · refine ⟨?_, by simp, ?_⟩ <;> rintro p ⟨⟩
      · exact ⟨show (15 : ℝ) ≤ 25 by norm_num, le_refl (0 : ℝ), Or.inl ⟨_, _, rfl, rfl⟩⟩
      · exact ⟨5, 8, rfl, rfl, by norm_num⟩
    · refine ⟨?_, ?_, ?_⟩ <;> rintro p ⟨⟩
      · exact ⟨show (5 : ℝ) ≤ 15 by norm_num, le_refl (0 : ℝ), Or.inl ⟨_, _, rfl, rfl⟩⟩
      · exact ⟨20, 1000, rfl, rfl, by norm_num⟩
      · exact ⟨1, 4, rfl, rfl, by norm_num⟩
    · refine ⟨?_, by simp, by simp⟩
      rintro p ⟨⟩
      trivial

/-- Labels within the ranges exist. -/
example : RowWithin exampleSmoothFilm (fun k => if k = "film_roughness".toList then .real 2 else if k = "Si_roughness".toList then .real 6 else
    if k = "air_sld".toList then .real 0 else if k = "film_thickness".toList then .real 100 else .real 15) := by
  refine ⟨?_, ?_, ?_, ?_⟩ <;> intro l hl p hp <;>
    simp only [exampleSmoothFilm, List.cons_append, List.nil_append, List.mem_cons, List.not_mem_nil, or_false] at hl
  · rcases hl with rfl | rfl | rfl <;> cases hp
    · exact ⟨15, by rw [if_neg (by decide), if_neg (by decide), if_neg (by decide), if_neg (by decide)], by norm_num, by norm_num⟩
    · exact ⟨15, by rw [if_neg (by decide), if_neg (by decide), if_neg (by decide), if_neg (by decide)], by norm_num, by norm_num⟩
    · show (if _ then _ else _) = _
      rw [if_neg (by decide), if_neg (by decide), if_pos (by decide)]
  · rcases hl with rfl | rfl <;> cases hp
    · exact ⟨6, by rw [if_neg (by decide), if_pos (by decide)], by norm_num, by norm_num⟩
    · exact ⟨2, by rw [if_pos (by decide)], by norm_num, by norm_num⟩
  · subst hl; cases hp
    exact ⟨100, by rw [if_neg (by decide), if_neg (by decide), if_neg (by decide), if_pos (by decide)], by norm_num, by norm_num⟩
  · subst hl; cases hp
    exact ⟨1, 100, 2, rfl, by rw [if_neg (by decide), if_neg (by decide), if_neg (by decide), if_pos (by decide)], by rw [if_pos (by decide)],
      le_max_of_le_right (by norm_num)⟩

end Verif.Props
