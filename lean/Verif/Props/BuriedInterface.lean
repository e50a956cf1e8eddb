import Verif.Props.SmoothSurface

/-!
# Property C157: if a buried interface is the smoothest one, the tail of the curve belongs to it; for which roughness it determines the density of a film
-/

namespace Verif.Props
open Verif.Py Verif.Model Verif.Spec Complex Filter Topology

/-- If all other interfaces are rougher or have no step, the sum has the modulus of the weight of the remaining one at every momentum transfer. -/
theorem roughSum_buried (σ : ℝ) (b : ℂ) (d : ℝ) (above below : List Slab) (ρ : ℂ) (ha : ∀ p ∈ roughSteps ρ above, p.1 = 0 ∨ |σ| < |p.2|)
    (hb : ∀ p ∈ roughSteps b below, p.1 = 0 ∨ |σ| < |p.2|) (q : ℝ) :
    ‖roughSum σ ρ (above ++ ⟨σ, b, d⟩ :: below) q‖ = ‖roughWeight σ ((above.map Slab.sld).getLastD ρ) ⟨σ, b, d⟩‖ := by
  induction above generalizing ρ with
  | nil =>
    rw [List.nil_append, roughSum, roughSum_rougher σ below _ hb, mul_zero, add_zero]
    rfl
  | cons s rest ih =>
    have w : roughWeight σ ρ s = 0 := by
      unfold roughWeight
      rcases ha (s.sld - ρ, s.roughness) List.mem_cons_self with h | h
      · rw [show s.sld - ρ = 0 from h]
        simp
      · rw [if_neg]
        exact ne_of_gt h
    have n : ‖cexp (-(I * (q * s.thickness : ℝ)))‖ = 1 := by
      rw [show -(I * ((q * s.thickness : ℝ) : ℂ)) = ((-(q * s.thickness) : ℝ) : ℂ) * I by push_cast; ring]
      exact Complex.norm_exp_ofReal_mul_I _
    rw [List.cons_append, roughSum, w, zero_add, norm_mul, n, one_mul, ih s.sld fun p hp => ha p (List.mem_cons_of_mem _ hp), List.map_cons, List.getLastD_cons]

theorem roughSteps_append (ρ : ℂ) (l m : List Slab) : roughSteps ρ (l ++ m) = roughSteps ρ l ++ roughSteps ((l.map Slab.sld).getLastD ρ) m := by
  induction l generalizing ρ with
  | nil => rfl
  | cons s rest ih => simp only [List.cons_append, roughSteps, ih, List.map_cons, List.getLastD_cons]

/-- **C157**: a stack below vacuum with one interface, between the real densities `a` above and `b` below, that is smoother than all others with a step. The curve over
`exp(-(σq)²)/q⁴` tends to a constant that depends on the two densities and the roughness of this interface only, however deep it is buried. -/
theorem C157_tail (t r : List ℝ) (s : List ℂ) (h1 : t.length + 1 = r.length) (h2 : r.length = s.length) (hp : ∀ ρ ∈ s, 0 ≤ ρ.im) (σ a b d : ℝ) (above below : List Slab)
    (e : slabs t r s = above ++ ⟨σ, (b : ℂ), d⟩ :: below) (ea : (above.map Slab.sld).getLastD 0 = (a : ℂ))
    (ha : ∀ p ∈ roughSteps 0 above, p.1 = 0 ∨ |σ| < |p.2|) (hb : ∀ p ∈ roughSteps b below, p.1 = 0 ∨ |σ| < |p.2|) :
    ∃ R : ℝ → ℝ, (∀ᶠ q in atTop, multilayerReflectivity [q] t r s 0 = .ok [some (R q)]) ∧
      Tendsto (fun q => R q / gaussTail σ q) atTop (𝓝 ((4 * Real.pi * (b - a) * Real.exp (4 * Real.pi * σ ^ 2 * (a + b))) ^ 2)) := by
  obtain ⟨R, hR, lim⟩ := rough_limit t r s h1 h2 hp σ (by
    rw [e, roughSteps_append]
    intro p hp
    rcases List.mem_append.1 hp with hp | hp
    · exact (ha p hp).imp_right le_of_lt
    · rcases List.mem_cons.1 hp with rfl | hp
      · exact .inr le_rfl
      · exact (hb p hp).imp_right le_of_lt)
  refine ⟨R, hR, ?_⟩
  obtain ⟨u, hu, hw⟩ := film_weight σ
  have w : ∀ q, ‖roughSum σ 0 (slabs t r s) q‖ ^ 2 = (4 * Real.pi * (b - a) * Real.exp (4 * Real.pi * σ ^ 2 * (a + b))) ^ 2 := by
    intro q
    rw [e, roughSum_buried σ b d above below 0 ha hb, ea, hw a b d, norm_mul, hu, mul_one, Complex.norm_real, Real.norm_eq_abs, sq_abs]
    ring
  have := lim.add_const ((4 * Real.pi * (b - a) * Real.exp (4 * Real.pi * σ ^ 2 * (a + b))) ^ 2)
  rw [zero_add] at this
  refine this.congr fun q => ?_
  rw [w q]
  ring

/-! ### Films whose interface with the substrate is the smoother one -/

/-- The tail of a film whose lower interface is the smoother one. -/
theorem C157_film_tail (s ρ d σ τ : ℝ) (hτ : |σ| < |τ|) :
    ∃ R : ℝ → ℝ, (∀ᶠ q in atTop, multilayerReflectivity [q] [d] [σ, τ] [(s : ℂ), (ρ : ℂ)] 0 = .ok [some (R q)]) ∧
      Tendsto (fun q => R q / gaussTail σ q) atTop (𝓝 ((4 * Real.pi * (s - ρ) * Real.exp (4 * Real.pi * σ ^ 2 * (ρ + s))) ^ 2)) :=
  C157_tail [d] [σ, τ] [(s : ℂ), (ρ : ℂ)] rfl rfl (by
    intro r hr
    simp only [List.mem_cons, List.not_mem_nil, or_false] at hr
    rcases hr with rfl | rfl <;> simp) σ ρ s 0 [⟨τ, (ρ : ℂ), d⟩] [] (by simp [slabs]) rfl (by simpa [roughSteps] using .inr hτ) (by simp [roughSteps])

theorem buried_anti {c s x x' : ℝ} (hc : 0 ≤ c) (hcs : c * s ≤ 1) (h0 : 0 ≤ x) (h : x < x') (h1 : x' < s) :
    (s - x') * Real.exp (c * (x' + s)) < (s - x) * Real.exp (c * (x + s)) := by
  have y0 : 0 < s - x := by linarith
  rcases hc.eq_or_lt with rfl | hc
  · simpa using h
  have l : -(c * (x' - x)) + 1 < Real.exp (-(c * (x' - x))) := Real.add_one_lt_exp (by have := mul_pos hc (sub_pos.2 h); linarith)
  have e : Real.exp (c * (x + s)) = Real.exp (-(c * (x' - x))) * Real.exp (c * (x' + s)) := by
    rw [← Real.exp_add]
    congr 1
    ring
  rw [e, ← mul_assoc]
  refine mul_lt_mul_of_pos_right ?_ (Real.exp_pos _)
  have k := mul_lt_mul_of_pos_left l y0
  have : c * (s - x) ≤ 1 := by nlinarith
  nlinarith [mul_le_mul_of_nonneg_right this (sub_pos.2 h).le]

theorem buried_mono {c s x x' : ℝ} (h : x < x') (hc : 0 < c) (h1 : 1 ≤ c * (s - x')) : (s - x) * Real.exp (c * (x + s)) < (s - x') * Real.exp (c * (x' + s)) := by
  have y0 : 0 < s - x' := by
    by_contra hn
    have := mul_nonpos_of_nonneg_of_nonpos hc.le (not_lt.1 hn)
    linarith
  have l : c * (x' - x) + 1 < Real.exp (c * (x' - x)) := Real.add_one_lt_exp (mul_pos hc (sub_pos.2 h)).ne'
  have e : Real.exp (c * (x' + s)) = Real.exp (c * (x' - x)) * Real.exp (c * (x + s)) := by
    rw [← Real.exp_add]
    congr 1
    ring
  rw [e, ← mul_assoc]
  refine mul_lt_mul_of_pos_right ?_ (Real.exp_pos _)
  have k := mul_lt_mul_of_pos_left l y0
  nlinarith [mul_le_mul_of_nonneg_right h1 (sub_pos.2 h).le]

/-- **C157**: films on the same substrate whose lower interface is the smoother one, with a roughness `σ` such that `4πσ²` times the density of the substrate is at most one.
If their curves agree beyond some momentum transfer, they have the same roughness of the lower interface and the same density. -/
theorem C157_film (ρ ρ' s d d' σ τ σ' τ' : ℝ) (h0 : 0 ≤ ρ) (h1 : ρ < s) (h0' : 0 ≤ ρ') (h1' : ρ' < s) (hτ : |σ| < |τ|) (hτ' : |σ'| < |τ'|)
    (hσ : 4 * Real.pi * σ ^ 2 * s ≤ 1) (U : ℝ)
    (h : ∀ q ≥ U, multilayerReflectivity [q] [d] [σ, τ] [(s : ℂ), (ρ : ℂ)] 0 = multilayerReflectivity [q] [d'] [σ', τ'] [(s : ℂ), (ρ' : ℂ)] 0) :
    |σ| = |σ'| ∧ ρ = ρ' := by
  have im : ∀ (x : ℝ), ∀ r ∈ [(s : ℂ), (x : ℂ)], 0 ≤ r.im := by
    intro x r hr
    simp only [List.mem_cons, List.not_mem_nil, or_false] at hr
    rcases hr with rfl | rfl <;> simp
  have smooth : ∀ {σ τ ρ d : ℝ}, ρ < s → |σ| < |τ| → Smoothest σ (roughSteps 0 (slabs [d] [σ, τ] [(s : ℂ), (ρ : ℂ)])) := by
    intro σ τ ρ d h1 hτ
    refine ⟨[((ρ : ℂ) - 0, τ)], [], (s : ℂ) - ρ, by simp [slabs, roughSteps], ?_, ?_⟩
    · exact sub_ne_zero.2 (by exact_mod_cast h1.ne')
    · intro p hp
      simp only [List.append_nil, List.mem_singleton] at hp
      subst hp
      exact .inr hτ
  have eσ := C152_determined [d] [σ, τ] [d'] [σ', τ'] [(s : ℂ), (ρ : ℂ)] [(s : ℂ), (ρ' : ℂ)] rfl rfl (im ρ) rfl rfl (im ρ') σ σ' (smooth h1 hτ) (smooth h1' hτ') U h
  have sq : σ' ^ 2 = σ ^ 2 := ((sq_eq_sq_iff_abs_eq_abs _ _).2 eσ).symm
  have eg : ∀ q, gaussTail σ' q = gaussTail σ q := by
    intro q
    unfold gaussTail
    rw [mul_pow, mul_pow, sq]
  obtain ⟨R, hR, lim⟩ := C157_film_tail s ρ d σ τ hτ
  obtain ⟨R', hR', lim'⟩ := C157_film_tail s ρ' d' σ' τ' hτ'
  rw [sq] at lim'
  have e : (4 * Real.pi * (s - ρ) * Real.exp (4 * Real.pi * σ ^ 2 * (ρ + s))) ^ 2 = (4 * Real.pi * (s - ρ') * Real.exp (4 * Real.pi * σ ^ 2 * (ρ' + s))) ^ 2 := by
    refine tendsto_nhds_unique lim (lim'.congr' ?_)
    filter_upwards [hR, hR', eventually_ge_atTop U] with q a a' hq
    have := h q hq
    rw [a, a'] at this
    have : R q = R' q := by simpa using this
    rw [this, eg]
  have y0 : 0 < s - ρ := by linarith
  have y0' : 0 < s - ρ' := by linarith
  have e := (pow_left_inj₀ (by positivity) (by positivity) two_ne_zero).1 e
  rw [mul_assoc (4 * Real.pi) (s - ρ), mul_assoc (4 * Real.pi) (s - ρ')] at e
  have e := mul_left_cancel₀ (show 4 * Real.pi ≠ 0 by positivity) e
  refine ⟨eσ, ?_⟩
  have c0 : 0 ≤ 4 * Real.pi * σ ^ 2 := by positivity
  rcases lt_trichotomy ρ ρ' with hlt | he | hlt
  · exact absurd e (buried_anti c0 hσ h0 hlt h1').ne'
  · exact he
  · exact absurd e (buried_anti c0 hσ h0' hlt h1).ne

/-- **C157** (too rough): if `4πσ²` times the density of the substrate is larger than one, two different densities of the film have the same tail, whatever the thicknesses and
the roughnesses of the surfaces are: the ratio of the two curves tends to one. -/
theorem C157_blind (s σ : ℝ) (h : 1 < 4 * Real.pi * σ ^ 2 * s) :
    ∃ ρ ρ' : ℝ, 0 < ρ ∧ ρ < ρ' ∧ ρ' < s ∧ ∀ d d' τ τ' : ℝ, |σ| < |τ| → |σ| < |τ'| → ∃ R R' : ℝ → ℝ,
      (∀ᶠ q in atTop, multilayerReflectivity [q] [d] [σ, τ] [(s : ℂ), (ρ : ℂ)] 0 = .ok [some (R q)]) ∧
      (∀ᶠ q in atTop, multilayerReflectivity [q] [d'] [σ, τ'] [(s : ℂ), (ρ' : ℂ)] 0 = .ok [some (R' q)]) ∧ Tendsto (fun q => R q / R' q) atTop (𝓝 1) := by
  have cn : 0 ≤ 4 * Real.pi * σ ^ 2 := by positivity
  set c := 4 * Real.pi * σ ^ 2 with hc
  have c0 : 0 < c := by
    rcases cn.eq_or_lt with e | e
    · rw [← e] at h; linarith
    · exact e
  set m := s - 1 / c with hm
  have m0 : 0 < m := by
    rw [hm, sub_pos, div_lt_iff₀ c0]
    linarith
  have ms : m < s := by
    have : 0 < 1 / c := by positivity
    linarith
  have cm : c * (s - m) = 1 := by
    rw [hm]
    field_simp
    ring
  have up : (s - m / 2) * Real.exp (c * (m / 2 + s)) < (s - m) * Real.exp (c * (m + s)) := buried_mono (by linarith) c0 cm.ge
  have pos : 0 < (s - m / 2) * Real.exp (c * (m / 2 + s)) := mul_pos (by linarith) (Real.exp_pos _)
  have cont : ContinuousOn (fun x => (s - x) * Real.exp (c * (x + s))) (Set.Icc m s) := by fun_prop
  obtain ⟨x, hx, ex⟩ := intermediate_value_Icc' ms.le cont (show (s - m / 2) * Real.exp (c * (m / 2 + s)) ∈ _ from ⟨by simpa using pos.le, up.le⟩)
  have ex : (s - x) * Real.exp (c * (x + s)) = (s - m / 2) * Real.exp (c * (m / 2 + s)) := ex
  have xs : x < s := by
    rcases hx.2.eq_or_lt with e | e
    · rw [e, sub_self, zero_mul] at ex
      linarith
    · exact e
  refine ⟨m / 2, x, by linarith, by linarith [hx.1], xs, fun d d' τ τ' hτ hτ' => ?_⟩
  obtain ⟨R, hR, lim⟩ := C157_film_tail s (m / 2) d σ τ hτ
  obtain ⟨R', hR', lim'⟩ := C157_film_tail s x d' σ τ' hτ'
  refine ⟨R, R', hR, hR', ?_⟩
  rw [← hc, mul_assoc (4 * Real.pi)] at lim lim'
  rw [ex] at lim'
  have L0 : (4 * Real.pi * ((s - m / 2) * Real.exp (c * (m / 2 + s)))) ^ 2 ≠ 0 := by
    have := mul_pos (show 0 < 4 * Real.pi by positivity) pos
    positivity
  have := lim.div lim' L0
  rw [div_self L0] at this
  refine this.congr' ?_
  filter_upwards [eventually_gt_atTop 0] with q hq
  have : gaussTail σ q ≠ 0 := by
    unfold gaussTail
    positivity
  exact div_div_div_cancel_right₀ this _ _

/-- Not vacuous: a film of density 0.01 with the roughness 3 at the surface and 1 at the substrate of density 0.05. -/
example (x : ℝ) (h0 : 0 ≤ x) (h1 : x < 0.05) (d : ℝ) (U : ℝ)
    (h : ∀ q ≥ U, multilayerReflectivity [q] [d] [1, 3] [((0.05 : ℝ) : ℂ), (x : ℂ)] 0 = multilayerReflectivity [q] [50] [1, 3] [((0.05 : ℝ) : ℂ), ((0.01 : ℝ) : ℂ)] 0) :
    x = 0.01 :=
  (C157_film x 0.01 0.05 d 50 1 3 1 3 h0 h1 (by norm_num) (by norm_num) (by norm_num) (by norm_num) (by nlinarith [Real.pi_le_four]) U h).2

example : (1 : ℝ) < 4 * Real.pi * 1 ^ 2 * 2 := by nlinarith [Real.two_le_pi]

/-! ### Samples -/

/-- **C157** (samples): films of real density on substrates of the same density, both with the smoother interface at the substrate; if `4πσ²` times the density of the
substrate (label `z` in 10⁻⁶ Å⁻²) is at most one and the simulated curves agree beyond some momentum transfer, roughness of the substrate and density of the film agree. -/
theorem C157_sample {s s' : SampleV ℝ} (hv : BelowVacuum s) (hv' : BelowVacuum s') {f f' : LayerV ℝ} (hf : s.layers = [f]) (hf' : s'.layers = [f'])
    {y y' : Str → Num ℝ} (hy : RowWithin s y) (hy' : RowWithin s' y') (x x' z σ σ' τ τ' : ℝ) (ex : y (f.name ++ "_sld".toList) = .real x)
    (ex' : y' (f'.name ++ "_sld".toList) = .real x') (ez : y (s.substrate.name ++ "_sld".toList) = .real z)
    (ez' : y' (s'.substrate.name ++ "_sld".toList) = .real z) (h0 : 0 ≤ x) (h1 : x < z) (h0' : 0 ≤ x') (h1' : x' < z)
    (hr : (y (f.name ++ "_roughness".toList)).re = τ) (hrs : (y (s.substrate.name ++ "_roughness".toList)).re = σ)
    (hr' : (y' (f'.name ++ "_roughness".toList)).re = τ') (hrs' : (y' (s'.substrate.name ++ "_roughness".toList)).re = σ') (hτ : |σ| < |τ|) (hτ' : |σ'| < |τ'|)
    (hσ : 4 * Real.pi * σ ^ 2 * (z * 1e-6) ≤ 1) (U : ℝ) (e : ∀ u ≥ U, curveFor s [u] (pairs y) = curveFor s' [u] (pairs y')) : |σ| = |σ'| ∧ x = x' := by
  obtain ⟨nm, hamb⟩ := hv.ambient
  obtain ⟨nm', hamb'⟩ := hv'.ambient
  have dx := siDensity_real x
  have dx' := siDensity_real x'
  have dz := siDensity_real z
  rw [← ex] at dx
  rw [← ex'] at dx'
  have dz' := dz
  rw [← ez] at dz
  rw [← ez'] at dz'
  have small : ∀ {a b : ℝ}, |a| < |b| → |a * 1e-10| < |b * 1e-10| := by
    intro a b hab
    rw [abs_mul, abs_mul]
    exact mul_lt_mul_of_pos_right hab (by norm_num)
  obtain ⟨a, c⟩ := C157_film (x * 1e14) (x' * 1e14) (z * 1e14) ((y (f.name ++ "_thickness".toList)).re * 1e-10) ((y' (f'.name ++ "_thickness".toList)).re * 1e-10)
    (σ * 1e-10) (τ * 1e-10) (σ' * 1e-10) (τ' * 1e-10) (by positivity) (by linarith) (by positivity) (by linarith) (small hτ) (small hτ')
    (by rw [show 4 * Real.pi * (σ * 1e-10) ^ 2 * (z * 1e14) = 4 * Real.pi * σ ^ 2 * (z * 1e-6) by ring]; exact hσ) (U * 1e10) (by
      intro q hq
      have := e (q * 1e-10) (by linarith)
      rw [curveFor_points hamb [q * 1e-10] hy, curveFor_points hamb' [q * 1e-10] hy', hf, hf'] at this
      rw [multilayer_eq _ _ _ _ (by simp) (by simp), multilayer_eq _ _ _ _ (by simp) (by simp), ← dx, ← dx', ← dz]
      have same : siDensity (y (s.substrate.name ++ "_sld".toList)) = siDensity (y' (s'.substrate.name ++ "_sld".toList)) := dz.trans dz'.symm
      simp only [List.map_cons, List.map_nil, show q * 1e-10 * 1e10 = q by ring, hr, hrs, hr', hrs'] at this ⊢
      refine this.trans ?_
      rw [same]
      rfl)
  rw [abs_mul, abs_mul] at a
  exact ⟨mul_right_cancel₀ (by norm_num) a, by linarith⟩

/-- A film of unknown thickness and density whose surface is rougher than the substrate. -/
noncomputable def exampleRoughSurface : SampleV ℝ where
  substrate := exampleRoughFilm.substrate
  ambient := exampleRoughFilm.ambient
  layers := [⟨.layer, "film".toList, some (.range (.real 20) (.real 1000) (some "thickness".toList)), some (.const (.real 6) (some "roughness".toList)),
    some (.range (.real 5) (.real 15) (some "sld".toList))⟩]

/-- Labels of `exampleRoughSurface`: density `x`, thickness 100 Å. -/
noncomputable def roughSurfaceLabels (x : ℝ) (k : Str) : Num ℝ := if k = "film_roughness".toList then .real 6 else roughFilmLabels x k

theorem roughSurfaceLabels_values (x : ℝ) :
    roughSurfaceLabels x ("film".toList ++ "_thickness".toList) = .real 100 ∧ roughSurfaceLabels x ("film".toList ++ "_sld".toList) = .real x ∧
    roughSurfaceLabels x ("Si".toList ++ "_sld".toList) = .real 20 ∧ roughSurfaceLabels x ("air".toList ++ "_sld".toList) = .real 0 ∧
    roughSurfaceLabels x ("Si".toList ++ "_roughness".toList) = .real 2 ∧ roughSurfaceLabels x ("film".toList ++ "_roughness".toList) = .real 6 := by
  obtain ⟨e1, e2, e3, e4, e5, -⟩ := roughFilmLabels_values x
  unfold roughSurfaceLabels
  refine ⟨?_, ?_, ?_, ?_, ?_, ?_⟩
  · rw [if_neg (by decide)]; exact e1
  · rw [if_neg (by decide)]; exact e2
  · rw [if_neg (by decide)]; exact e3
  · rw [if_neg (by decide)]; exact e4
  · rw [if_neg (by decide)]; exact e5
  · rw [if_pos (by decide)]

theorem roughSurfaceLabels_within {x : ℝ} (h1 : 5 ≤ x) (h2 : x ≤ 15) : RowWithin exampleRoughSurface (roughSurfaceLabels x) := by
  obtain ⟨e1, e2, e3, e4, e5, e6⟩ := roughSurfaceLabels_values x
  refine ⟨?_, ?_, ?_, ?_⟩ <;> intro l hl p hp <;>
    simp only [exampleRoughSurface, exampleRoughFilm, List.cons_append, List.nil_append, List.mem_cons, List.not_mem_nil, or_false] at hl
  · rcases hl with rfl | rfl | rfl <;> cases hp
    · exact e3
    · exact ⟨_, e2, h1, h2⟩
    · exact e4
  · rcases hl with rfl | rfl <;> cases hp
    · exact e5
    · exact e6
  · subst hl; cases hp
    exact ⟨_, e1, by norm_num, by norm_num⟩
  · subst hl; cases hp
    exact ⟨6, _, _, rfl, e1, e6, le_max_left _ _⟩

/-- Not vacuous: of all labels of this sample only the ones with the density 8 have the tail of the curve of the labels with this density. -/
example (y : Str → Num ℝ) (hy : RowWithin exampleRoughSurface y) (U : ℝ)
    (e : ∀ u ≥ U, curveFor exampleRoughSurface [u] (pairs y) = curveFor exampleRoughSurface [u] (pairs (roughSurfaceLabels 8))) :
    y ("film".toList ++ "_sld".toList) = .real 8 := by
  obtain ⟨-, e2, e3, -, e5, e6⟩ := roughSurfaceLabels_values 8
  have hv : BelowVacuum exampleRoughSurface := by
    refine ⟨⟨_, rfl⟩, ?_⟩
    intro l hl
    simp only [exampleRoughSurface, exampleRoughFilm, List.mem_cons, List.not_mem_nil, or_false] at hl
    rcases hl with rfl | rfl <;> rintro p ⟨⟩ <;> exact ⟨le_refl (0 : ℝ), le_refl (0 : ℝ)⟩
  have film : exampleRoughSurface.layers = [exampleRoughSurface.layers.head (by simp [exampleRoughSurface])] := rfl
  obtain ⟨x, hx, x1, x2⟩ : ∃ x : ℝ, y ("film".toList ++ "_sld".toList) = .real x ∧ 5 ≤ x ∧ x ≤ 15 :=
    hy.sld (exampleRoughSurface.layers.head (by simp [exampleRoughSurface])) (by simp [exampleRoughSurface]) _ rfl
  have s1 : y ("Si".toList ++ "_sld".toList) = .real 20 := hy.sld exampleRoughSurface.substrate (by simp) _ rfl
  have r1 : y ("Si".toList ++ "_roughness".toList) = .real 2 := hy.roughness exampleRoughSurface.substrate (by simp) _ rfl
  have r2 : y ("film".toList ++ "_roughness".toList) = .real 6 :=
    hy.roughness (exampleRoughSurface.layers.head (by simp [exampleRoughSurface])) (by simp [exampleRoughSurface]) _ rfl
  obtain ⟨-, b⟩ := C157_sample hv hv film film hy (roughSurfaceLabels_within (x := 8) (by norm_num) (by norm_num))
    x 8 20 2 2 6 6 hx e2 s1 e3 (by linarith) (by linarith) (by norm_num) (by norm_num)
    (by show (y ("film".toList ++ "_roughness".toList)).re = 6; rw [r2]; rfl)
    (by show (y ("Si".toList ++ "_roughness".toList)).re = 2; rw [r1]; rfl)
    (by show (roughSurfaceLabels 8 ("film".toList ++ "_roughness".toList)).re = 6; rw [e6]; rfl)
    (by show (roughSurfaceLabels 8 ("Si".toList ++ "_roughness".toList)).re = 2; rw [e5]; rfl) (by norm_num) (by norm_num)
    (by nlinarith [Real.pi_le_four]) U e
  rw [hx, b]

end Verif.Props
