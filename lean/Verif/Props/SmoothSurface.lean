import Verif.Props.RoughFilm

/-!
# Property C156: if the surface is the smoothest interface, the tail of the curve determines its roughness and the density of the uppermost layer
-/

namespace Verif.Props
open Verif.Py Verif.Model Verif.Spec Complex Filter Topology

/-- Interfaces rougher than `σ` or without a step do not contribute. -/
theorem roughSum_rougher (σ : ℝ) (l : List Slab) (ρ : ℂ) (h : ∀ p ∈ roughSteps ρ l, p.1 = 0 ∨ |σ| < |p.2|) (q : ℝ) : roughSum σ ρ l q = 0 := by
  induction l generalizing ρ with
  | nil => rfl
  | cons s rest ih =>
    rw [roughSum, ih s.sld fun p hp => h p (List.mem_cons_of_mem _ hp), mul_zero, add_zero]
    unfold roughWeight
    rcases h (s.sld - ρ, s.roughness) List.mem_cons_self with h | h
    · rw [show s.sld - ρ = 0 from h]
      simp
    · rw [if_neg]
      exact ne_of_gt h

/-- The modulus of the weight of the surface. -/
theorem surface_weight (σ ρ d : ℝ) : ‖roughWeight σ 0 ⟨σ, (ρ : ℂ), d⟩‖ ^ 2 = (4 * Real.pi * ρ * Real.exp (4 * Real.pi * σ ^ 2 * ρ)) ^ 2 := by
  obtain ⟨u, hu, hw⟩ := film_weight σ
  have w := hw 0 ρ d
  rw [Complex.ofReal_zero, sub_zero, zero_add] at w
  rw [w, norm_mul, hu, mul_one, Complex.norm_real, Real.norm_eq_abs, sq_abs]
  ring

/-- **C156**: a stack below vacuum whose uppermost layer has the real density `ρ` and whose other interfaces are rougher than the surface or have no step. The curve over
`exp(-(σq)²)/q⁴` tends to a constant that depends on the density of the uppermost layer and the roughness of the surface only. -/
theorem C156_tail (t r : List ℝ) (s : List ℂ) (h1 : t.length + 1 = r.length) (h2 : r.length = s.length) (hp : ∀ ρ ∈ s, 0 ≤ ρ.im) (σ ρ d : ℝ) (rest : List Slab)
    (e : slabs t r s = ⟨σ, (ρ : ℂ), d⟩ :: rest) (hs : ∀ p ∈ roughSteps ρ rest, p.1 = 0 ∨ |σ| < |p.2|) :
    ∃ R : ℝ → ℝ, (∀ᶠ q in atTop, multilayerReflectivity [q] t r s 0 = .ok [some (R q)]) ∧
      Tendsto (fun q => R q / gaussTail σ q) atTop (𝓝 ((4 * Real.pi * ρ * Real.exp (4 * Real.pi * σ ^ 2 * ρ)) ^ 2)) := by
  obtain ⟨R, hR, lim⟩ := rough_limit t r s h1 h2 hp σ (by
    rw [e]
    intro p hp
    rcases List.mem_cons.1 hp with rfl | hp
    · exact .inr le_rfl
    · exact (hs p hp).imp_right le_of_lt)
  refine ⟨R, hR, ?_⟩
  have := lim.add_const ((4 * Real.pi * ρ * Real.exp (4 * Real.pi * σ ^ 2 * ρ)) ^ 2)
  rw [zero_add] at this
  refine this.congr fun q => ?_
  rw [e, roughSum, roughSum_rougher σ rest _ hs, mul_zero, add_zero, surface_weight]
  ring

/-- The constant of the tail determines a positive density. -/
theorem surface_density {c x x' : ℝ} (hc : 0 ≤ c) (h0 : 0 < x) (h0' : 0 < x') (e : (4 * Real.pi * x * Real.exp (c * x)) ^ 2 = (4 * Real.pi * x' * Real.exp (c * x')) ^ 2) :
    x = x' := by
  have e := (pow_left_inj₀ (by positivity) (by positivity) two_ne_zero).1 e
  have mono : ∀ {a b : ℝ}, 0 < a → a < b → 4 * Real.pi * a * Real.exp (c * a) < 4 * Real.pi * b * Real.exp (c * b) := by
    intro a b ha hab
    have hb := ha.trans hab
    exact mul_lt_mul (mul_lt_mul_of_pos_left hab (by positivity)) (Real.exp_le_exp.2 (mul_le_mul_of_nonneg_left hab.le hc)) (Real.exp_pos _) (by positivity)
  rcases lt_trichotomy x x' with h | h | h
  · exact absurd e (mono h0 h).ne
  · exact h
  · exact absurd e (mono h0' h).ne'

/-- **C156**: stacks with uppermost layers of positive density whose surface is the smoothest interface; if their curves agree beyond some momentum transfer, the surfaces
have the same roughness and the uppermost layers the same density, whatever lies below. -/
theorem C156_surface (t r t' r' : List ℝ) (s s' : List ℂ) (h1 : t.length + 1 = r.length) (h2 : r.length = s.length) (hp : ∀ ρ ∈ s, 0 ≤ ρ.im)
    (h1' : t'.length + 1 = r'.length) (h2' : r'.length = s'.length) (hp' : ∀ ρ ∈ s', 0 ≤ ρ.im) (σ σ' ρ ρ' d d' : ℝ) (rest rest' : List Slab)
    (e : slabs t r s = ⟨σ, (ρ : ℂ), d⟩ :: rest) (e' : slabs t' r' s' = ⟨σ', (ρ' : ℂ), d'⟩ :: rest') (h0 : 0 < ρ) (h0' : 0 < ρ')
    (hs : ∀ p ∈ roughSteps ρ rest, p.1 = 0 ∨ |σ| < |p.2|) (hs' : ∀ p ∈ roughSteps ρ' rest', p.1 = 0 ∨ |σ'| < |p.2|) (U : ℝ)
    (h : ∀ q ≥ U, multilayerReflectivity [q] t r s 0 = multilayerReflectivity [q] t' r' s' 0) : |σ| = |σ'| ∧ ρ = ρ' := by
  have smooth : ∀ {σ ρ d : ℝ} {rest : List Slab}, 0 < ρ → (∀ p ∈ roughSteps ρ rest, p.1 = 0 ∨ |σ| < |p.2|) →
      Smoothest σ (roughSteps 0 (⟨σ, (ρ : ℂ), d⟩ :: rest)) := by
    intro σ ρ d rest h0 hs
    refine ⟨[], roughSteps ρ rest, (ρ : ℂ) - 0, rfl, ?_, by simpa using hs⟩
    rw [sub_zero]
    exact_mod_cast h0.ne'
  have eσ := C152_determined t r t' r' s s' h1 h2 hp h1' h2' hp' σ σ' (by rw [e]; exact smooth h0 hs) (by rw [e']; exact smooth h0' hs') U h
  have sq : σ' ^ 2 = σ ^ 2 := ((sq_eq_sq_iff_abs_eq_abs _ _).2 eσ).symm
  have eg : ∀ q, gaussTail σ' q = gaussTail σ q := by
    intro q
    unfold gaussTail
    rw [mul_pow, mul_pow, sq]
  obtain ⟨R, hR, lim⟩ := C156_tail t r s h1 h2 hp σ ρ d rest e hs
  obtain ⟨R', hR', lim'⟩ := C156_tail t' r' s' h1' h2' hp' σ' ρ' d' rest' e' hs'
  refine ⟨eσ, surface_density (c := 4 * Real.pi * σ ^ 2) (by positivity) h0 h0' ?_⟩
  rw [sq] at lim'
  refine tendsto_nhds_unique lim (lim'.congr' ?_)
  filter_upwards [hR, hR', eventually_ge_atTop U] with q a a' hq
  have := h q hq
  rw [a, a'] at this
  have : R q = R' q := by simpa using this
  rw [this, eg]

/-- Not vacuous: a film of density 1 with a rougher interface to the substrate, and any bare substrate. -/
example (x : ℝ) (hx : 0 < x) (U : ℝ) (h : ∀ q ≥ U, multilayerReflectivity [q] [50] [3, 2] [2, 1] 0 = multilayerReflectivity [q] [] [2] [(x : ℂ)] 0) : 1 = x := by
  refine (C156_surface [50] [3, 2] [] [2] [2, 1] [(x : ℂ)] rfl rfl (by simp) rfl rfl (by simp) 2 2 1 x 50 0 [⟨3, 2, 0⟩] [] (by simp [slabs]) (by simp [slabs])
    one_pos hx ?_ (by simp [roughSteps]) U h).2
  intro p hp
  simp only [roughSteps, List.mem_singleton] at hp
  subst hp
  right
  norm_num

/-! ### Samples -/

/-- **C156** (samples): labels for which the uppermost layer has a positive real density and the surface is the smoothest interface. If the simulated curves agree beyond
some momentum transfer, roughness and density of the uppermost layer agree. -/
theorem C156_sample {s s' : SampleV ℝ} (hs : SampleRegular s) (hv : BelowVacuum s) (hs' : SampleRegular s') (hv' : BelowVacuum s') {y y' : Str → Num ℝ}
    (hy : RowWithin s y) (hy' : RowWithin s' y') (σ σ' x x' d d' : ℝ) (rest rest' : List Slab) (el : labelStack s y = ⟨σ * 1e-10, siDensity (.real x), d⟩ :: rest)
    (el' : labelStack s' y' = ⟨σ' * 1e-10, siDensity (.real x'), d'⟩ :: rest') (h0 : 0 < x) (h0' : 0 < x')
    (h : ∀ p ∈ roughSteps (siDensity (.real x)) rest, p.1 = 0 ∨ |σ * 1e-10| < |p.2|)
    (h' : ∀ p ∈ roughSteps (siDensity (.real x')) rest', p.1 = 0 ∨ |σ' * 1e-10| < |p.2|) (U : ℝ)
    (e : ∀ u ≥ U, curveFor s [u] (pairs y) = curveFor s' [u] (pairs y')) : |σ| = |σ'| ∧ x = x' := by
  obtain ⟨nm, hamb⟩ := hv.ambient
  obtain ⟨nm', hamb'⟩ := hv'.ambient
  obtain ⟨-, im⟩ := within_physical hs hamb hv.absorption hy
  obtain ⟨-, im'⟩ := within_physical hs' hamb' hv'.absorption hy'
  rw [siDensity_real] at el el' h h'
  obtain ⟨a, b⟩ := C156_surface (s.layers.map fun (l : LayerV ℝ) => (y (l.name ++ "_thickness".toList)).re * 1e-10)
    ((s.substrate :: s.layers).map fun (l : LayerV ℝ) => (y (l.name ++ "_roughness".toList)).re * (1e-10 : ℝ))
    (s'.layers.map fun (l : LayerV ℝ) => (y' (l.name ++ "_thickness".toList)).re * 1e-10)
    ((s'.substrate :: s'.layers).map fun (l : LayerV ℝ) => (y' (l.name ++ "_roughness".toList)).re * (1e-10 : ℝ))
    ((s.substrate :: s.layers).map fun (l : LayerV ℝ) => siDensity (y (l.name ++ "_sld".toList)))
    ((s'.substrate :: s'.layers).map fun (l : LayerV ℝ) => siDensity (y' (l.name ++ "_sld".toList))) (by simp) (by simp)
    (by
      intro ρ hρ
      obtain ⟨l, hm, rfl⟩ := List.mem_map.1 hρ
      exact siDensity_im (im l hm)) (by simp) (by simp)
    (by
      intro ρ hρ
      obtain ⟨l, hm, rfl⟩ := List.mem_map.1 hρ
      exact siDensity_im (im' l hm)) (σ * 1e-10) (σ' * 1e-10) (x * 1e14) (x' * 1e14) d d' rest rest'
    (by rw [slabs_map]; exact el) (by rw [slabs_map]; exact el') (by positivity) (by positivity) h h' (U * 1e10) (by
      intro q hq
      have := e (q * 1e-10) (by linarith)
      rw [curveFor_points hamb [q * 1e-10] hy, curveFor_points hamb' [q * 1e-10] hy'] at this
      rw [multilayer_eq _ _ _ _ (by simp) (by simp), multilayer_eq _ _ _ _ (by simp) (by simp)]
      simp only [List.map_cons, List.map_nil, show q * 1e-10 * 1e10 = q by ring] at this ⊢
      exact this)
  rw [abs_mul, abs_mul] at a
  exact ⟨mul_right_cancel₀ (by norm_num) a, by linarith⟩

/-- A bare substrate of unknown roughness and density. -/
noncomputable def exampleBare : SampleV ℝ where
  substrate := ⟨.substrate, "Si".toList, none, some (.range (.real 1) (.real 5) (some "roughness".toList)), some (.range (.real 5) (.real 25) (some "sld".toList))⟩
  ambient := ⟨.ambient, "air".toList, none, none, some (.const (.real 0) (some "sld".toList))⟩
  layers := []

theorem exampleBare_ok : SampleRegular exampleBare ∧ BelowVacuum exampleBare := by
  refine ⟨⟨⟨rfl, rfl, ⟨_, rfl, ⟨rfl, ?_⟩, ?_⟩, ⟨_, rfl, rfl, ?_⟩⟩, ⟨rfl, rfl, rfl, ⟨_, rfl, rfl, trivial⟩⟩, ?_⟩, ⟨_, rfl⟩, ?_⟩
  · simp only [ParamValid, Num.ge]; norm_num
  · simp only [Param.min, Num.ltZero]; norm_num
  · simp only [ParamValid, Num.ge]; norm_num
  · intro l hl
    exact absurd hl (by simp [exampleBare])
  · intro l hl
    simp only [exampleBare, List.mem_cons, List.not_mem_nil, or_false] at hl
    subst hl
    rintro p ⟨⟩
    exact ⟨le_refl (0 : ℝ), le_refl (0 : ℝ)⟩

/-- Not vacuous: the tail of the curve of a bare substrate determines both of its labels. -/
example (y y' : Str → Num ℝ) (hy : RowWithin exampleBare y) (hy' : RowWithin exampleBare y') (U : ℝ)
    (e : ∀ u ≥ U, curveFor exampleBare [u] (pairs y) = curveFor exampleBare [u] (pairs y')) :
    y ("Si".toList ++ "_roughness".toList) = y' ("Si".toList ++ "_roughness".toList) ∧ y ("Si".toList ++ "_sld".toList) = y' ("Si".toList ++ "_sld".toList) := by
  obtain ⟨hs, hv⟩ := exampleBare_ok
  have dens : ∀ {y : Str → Num ℝ}, RowWithin exampleBare y → ∃ x : ℝ, y ("Si".toList ++ "_sld".toList) = .real x ∧ 5 ≤ x ∧ x ≤ 25 :=
    fun hy => hy.sld exampleBare.substrate (by simp) _ rfl
  have rough : ∀ {y : Str → Num ℝ}, RowWithin exampleBare y → ∃ x : ℝ, y ("Si".toList ++ "_roughness".toList) = .real x ∧ 1 ≤ x ∧ x ≤ 5 :=
    fun hy => hy.roughness exampleBare.substrate (by simp) _ rfl
  have stack : ∀ {y : Str → Num ℝ} {σ x : ℝ}, y ("Si".toList ++ "_roughness".toList) = .real σ → y ("Si".toList ++ "_sld".toList) = .real x →
      labelStack exampleBare y = ⟨σ * 1e-10, siDensity (.real x), 0⟩ :: [] := by
    intro y σ x h1 h2
    show [(⟨(y ("Si".toList ++ "_roughness".toList)).re * 1e-10, siDensity (y ("Si".toList ++ "_sld".toList)), 0⟩ : Slab)] = _
    rw [h1, h2]
    rfl
  obtain ⟨x, ex, x1, -⟩ := dens hy
  obtain ⟨x', ex', x1', -⟩ := dens hy'
  obtain ⟨σ, er, r1, -⟩ := rough hy
  obtain ⟨σ', er', r1', -⟩ := rough hy'
  obtain ⟨a, b⟩ := C156_sample hs hv hs hv hy hy' σ σ' x x' 0 0 [] [] (stack er ex) (stack er' ex') (by linarith) (by linarith) (by simp [roughSteps])
    (by simp [roughSteps]) U e
  rw [abs_of_pos (by linarith), abs_of_pos (by linarith)] at a
  exact ⟨by rw [er, er', a], by rw [ex, ex', b]⟩

/-- Labels within the ranges exist. -/
example : RowWithin exampleBare (fun k => if k = "Si_roughness".toList then .real 2 else if k = "Si_sld".toList then .real 20 else .real 0) := by
  refine ⟨?_, ?_, ?_, ?_⟩ <;> intro l hl p hp <;>
    simp only [exampleBare, List.cons_append, List.nil_append, List.mem_cons, List.not_mem_nil, or_false] at hl
  · rcases hl with rfl | rfl <;> cases hp
    · exact ⟨20, by rw [if_neg (by decide), if_pos (by decide)], by norm_num, by norm_num⟩
    · show (if _ then _ else _) = _
      rw [if_neg (by decide), if_neg (by decide)]
  · subst hl; cases hp
    exact ⟨2, by rw [if_pos (by decide)], by norm_num, by norm_num⟩

end Verif.Props
