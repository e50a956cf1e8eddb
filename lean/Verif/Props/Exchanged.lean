import Verif.Props.RoughFilm

/-!
# Property C159: without knowledge of the substrate every film with equally rough interfaces has a partner with the same tail
-/

namespace Verif.Props
open Verif.Py Verif.Model Verif.Spec Complex Filter Topology

/-- The waves from the two interfaces of the film of density `x'` on a substrate of density `s'` have the strengths of the ones of the other film, the other way round. -/
def Exchanged (σ x s x' s' : ℝ) : Prop :=
  x' * Real.exp (4 * Real.pi * σ ^ 2 * x') = (s - x) * Real.exp (4 * Real.pi * σ ^ 2 * (x + s)) ∧
    (s' - x') * Real.exp (4 * Real.pi * σ ^ 2 * (x' + s')) = x * Real.exp (4 * Real.pi * σ ^ 2 * x)

theorem exchanged_upper {c x x' : ℝ} (hc : 0 ≤ c) (h0 : 0 ≤ x) (h : x < x') : x * Real.exp (c * x) < x' * Real.exp (c * x') :=
  mul_lt_mul h (Real.exp_le_exp.2 (mul_le_mul_of_nonneg_left h.le hc)) (Real.exp_pos _) (h0.trans h.le)

theorem exchanged_lower {c x s s' : ℝ} (hc : 0 ≤ c) (h0 : x ≤ s) (h : s < s') : (s - x) * Real.exp (c * (x + s)) < (s' - x) * Real.exp (c * (x + s')) :=
  mul_lt_mul (by linarith) (Real.exp_le_exp.2 (mul_le_mul_of_nonneg_left (by linarith) hc)) (Real.exp_pos _) (by linarith)

/-- **C159** (classification): films of density between zero and the one of their substrate, with the same roughness at both interfaces. If their curves agree beyond some
momentum transfer, they have the same roughness and thickness, and either the same densities of film and substrate or exchanged waves. -/
theorem C159_classified (ρ ρ' s s' d d' σ σ' : ℝ) (h0 : 0 < ρ) (h1 : ρ < s) (h0' : 0 < ρ') (h1' : ρ' < s') (hd : 0 < d) (hd' : 0 < d') (U : ℝ)
    (h : ∀ q ≥ U, multilayerReflectivity [q] [d] [σ, σ] [(s : ℂ), (ρ : ℂ)] 0 = multilayerReflectivity [q] [d'] [σ', σ'] [(s' : ℂ), (ρ' : ℂ)] 0) :
    |σ| = |σ'| ∧ d = d' ∧ ((ρ = ρ' ∧ s = s') ∨ Exchanged σ ρ s ρ' s') := by
  have e : ∀ d σ ρ s : ℝ, slabs [d] [σ, σ] [(s : ℂ), (ρ : ℂ)] = [⟨σ, (ρ : ℂ), d⟩, ⟨σ, (s : ℂ), 0⟩] := fun d σ ρ s => by simp [slabs]
  have c0 : ∀ {x : ℝ}, 0 < x → (x : ℂ) ≠ 0 := fun hx => by exact_mod_cast hx.ne'
  have c1 : ∀ {x s : ℝ}, x < s → (s : ℂ) ≠ (x : ℂ) := fun hx => by exact_mod_cast hx.ne'
  have im : ∀ (s x : ℝ), ∀ r ∈ [(s : ℂ), (x : ℂ)], 0 ≤ r.im := by
    intro s x r hr
    simp only [List.mem_cons, List.not_mem_nil, or_false] at hr
    rcases hr with rfl | rfl <;> simp
  obtain ⟨l, a, b⟩ := film_depths σ σ d (ρ : ℂ) (s : ℂ) 0 rfl hd (c0 h0) (c1 h1)
  obtain ⟨l', a', b'⟩ := film_depths σ' σ' d' (ρ' : ℂ) (s' : ℂ) 0 rfl hd' (c0 h0') (c1 h1')
  rw [← e] at l a b l' a' b'
  obtain ⟨eσ, lim⟩ := rough_agree [d] [σ, σ] [d'] [σ', σ'] [(s : ℂ), (ρ : ℂ)] [(s' : ℂ), (ρ' : ℂ)] rfl rfl (im s ρ) (by simpa using hd) rfl rfl (im s' ρ')
    (by simpa using hd') σ σ' l l' U h
  have ed := C154_span [d] [σ, σ] [d'] [σ', σ'] [(s : ℂ), (ρ : ℂ)] [(s' : ℂ), (ρ' : ℂ)] rfl rfl (im s ρ) (by simpa using hd) rfl rfl (im s' ρ')
    (by simpa using hd') σ σ' l l' 0 d 0 d' a b a' b' U h
  rw [sub_zero, sub_zero] at ed
  refine ⟨eσ, ed, ?_⟩
  subst ed
  have sq : σ' ^ 2 = σ ^ 2 := ((sq_eq_sq_iff_abs_eq_abs _ _).2 eσ).symm
  simp only [e, film_sum, sq] at lim
  have pi0 : (0 : ℝ) < 16 * Real.pi ^ 2 := by positivity
  have cc : 0 ≤ 4 * Real.pi * σ ^ 2 := by positivity
  unfold Exchanged
  set c := 4 * Real.pi * σ ^ 2 with hc
  obtain ⟨z1, z2⟩ := wave_zero (r := 0) (d := d) hd (lim.congr fun q => show _ = 16 * Real.pi ^ 2 * ((ρ * Real.exp (c * ρ)) ^ 2 +
    ((s - ρ) * Real.exp (c * (ρ + s))) ^ 2 - ((ρ' * Real.exp (c * ρ')) ^ 2 + ((s' - ρ') * Real.exp (c * (ρ' + s'))) ^ 2)) +
    (16 * Real.pi ^ 2 * (2 * (ρ * Real.exp (c * ρ) * ((s - ρ) * Real.exp (c * (ρ + s)))) - 2 * (ρ' * Real.exp (c * ρ') *
    ((s' - ρ') * Real.exp (c * (ρ' + s'))))) * Real.cos (q * d) + 0 * Real.sin (q * d)) by ring)
  have z1 := (mul_eq_zero.1 z1).resolve_left pi0.ne'
  have z2 := (mul_eq_zero.1 z2).resolve_left pi0.ne'
  have y0 : 0 < s - ρ := by linarith
  have y0' : 0 < s' - ρ' := by linarith
  set P := ρ * Real.exp (c * ρ) with hP
  set Q := (s - ρ) * Real.exp (c * (ρ + s)) with hQ
  set P' := ρ' * Real.exp (c * ρ') with hP'
  set Q' := (s' - ρ') * Real.exp (c * (ρ' + s')) with hQ'
  have p0 : 0 < P := by positivity
  have q0 : 0 < Q := by positivity
  have p0' : 0 < P' := by positivity
  have q0' : 0 < Q' := by positivity
  have sum : P + Q = P' + Q' := by
    have : (P + Q) ^ 2 = (P' + Q') ^ 2 := by linear_combination z1 + z2
    exact (pow_left_inj₀ (by positivity) (by positivity) two_ne_zero).1 this
  have alt : (P - P') * (P - Q') = 0 := by linear_combination P * sum - z2 / 2
  rcases mul_eq_zero.1 alt with hp | hp
  · left
    have ePP : P = P' := by linarith
    have eQQ : Q = Q' := by linarith
    have er : ρ = ρ' := by
      rcases lt_trichotomy ρ ρ' with hlt | he | hlt
      · exact absurd ePP (exchanged_upper cc h0.le hlt).ne
      · exact he
      · exact absurd ePP (exchanged_upper cc h0'.le hlt).ne'
    refine ⟨er, ?_⟩
    subst er
    rcases lt_trichotomy s s' with hlt | he | hlt
    · exact absurd eQQ (exchanged_lower cc h1.le hlt).ne
    · exact he
    · exact absurd eQQ (exchanged_lower cc h1'.le hlt).ne'
  · right
    exact ⟨by linarith, by linarith⟩

/-- **C159** (partner): every film has such a partner, for every roughness, and only one. -/
theorem C159_partner (σ ρ s : ℝ) (h0 : 0 < ρ) (h1 : ρ < s) :
    ∃ x z : ℝ, (0 < x ∧ x < z ∧ Exchanged σ ρ s x z) ∧ ∀ x' z' : ℝ, 0 < x' → x' < z' → Exchanged σ ρ s x' z' → x' = x ∧ z' = z := by
  have cc : 0 ≤ 4 * Real.pi * σ ^ 2 := by positivity
  unfold Exchanged
  set c := 4 * Real.pi * σ ^ 2 with hc
  have y0 : 0 < s - ρ := by linarith
  have p0 : 0 < ρ * Real.exp (c * ρ) := by positivity
  have q0 : 0 < (s - ρ) * Real.exp (c * (ρ + s)) := by positivity
  set P := ρ * Real.exp (c * ρ) with hP
  set Q := (s - ρ) * Real.exp (c * (ρ + s)) with hQ
  obtain ⟨x, hx, ex⟩ := intermediate_value_Icc q0.le (show ContinuousOn (fun x => x * Real.exp (c * x)) (Set.Icc 0 Q) by fun_prop)
    (show Q ∈ _ from ⟨by simpa using q0.le, le_mul_of_one_le_right q0.le (Real.one_le_exp (by positivity))⟩)
  have ex : x * Real.exp (c * x) = Q := ex
  have x0 : 0 < x := by
    rcases hx.1.eq_or_lt with e | e
    · rw [← e, zero_mul] at ex
      linarith
    · exact e
  obtain ⟨z, hz, ez⟩ := intermediate_value_Icc (show x ≤ x + P by linarith) (show ContinuousOn (fun z => (z - x) * Real.exp (c * (x + z))) (Set.Icc x (x + P)) by fun_prop)
    (show P ∈ _ from ⟨by simpa using p0.le, by
      simp only [add_sub_cancel_left]
      exact le_mul_of_one_le_right p0.le (Real.one_le_exp (by positivity))⟩)
  have ez : (z - x) * Real.exp (c * (x + z)) = P := ez
  have xz : x < z := by
    rcases hz.1.eq_or_lt with e | e
    · rw [← e, sub_self, zero_mul] at ez
      linarith
    · exact e
  refine ⟨x, z, ⟨x0, xz, ex, ez⟩, fun x' z' h0' h1' h => ?_⟩
  have er : x' = x := by
    rcases lt_trichotomy x' x with hlt | he | hlt
    · exact absurd (h.1.trans ex.symm) (exchanged_upper cc h0'.le hlt).ne
    · exact he
    · exact absurd (h.1.trans ex.symm) (exchanged_upper cc x0.le hlt).ne'
  refine ⟨er, ?_⟩
  subst er
  rcases lt_trichotomy z' z with hlt | he | hlt
  · exact absurd (h.2.trans ez.symm) (exchanged_lower cc h1'.le hlt).ne
  · exact he
  · exact absurd (h.2.trans ez.symm) (exchanged_lower cc xz.le hlt).ne'

/-- **C159** (same tail): the curves of partners of the same thickness and roughness differ by less than every multiple of the tail, for every thickness. -/
theorem C159_blind (σ ρ s x z d : ℝ) (h0 : 0 < ρ) (h1 : ρ < s) (x0 : 0 < x) (xz : x < z) (hd : 0 < d) (h : Exchanged σ ρ s x z) :
    ∃ R R' : ℝ → ℝ, (∀ᶠ q in atTop, multilayerReflectivity [q] [d] [σ, σ] [(s : ℂ), (ρ : ℂ)] 0 = .ok [some (R q)]) ∧
      (∀ᶠ q in atTop, multilayerReflectivity [q] [d] [σ, σ] [(z : ℂ), (x : ℂ)] 0 = .ok [some (R' q)]) ∧
      Tendsto (fun q => (R q - R' q) / gaussTail σ q) atTop (𝓝 0) := by
  have e : ∀ ρ s : ℝ, slabs [d] [σ, σ] [(s : ℂ), (ρ : ℂ)] = [⟨σ, (ρ : ℂ), d⟩, ⟨σ, (s : ℂ), 0⟩] := fun ρ s => by simp [slabs]
  have im : ∀ (s x : ℝ), ∀ r ∈ [(s : ℂ), (x : ℂ)], 0 ≤ r.im := by
    intro s x r hr
    simp only [List.mem_cons, List.not_mem_nil, or_false] at hr
    rcases hr with rfl | rfl <;> simp
  have c0 : ∀ {x : ℝ}, 0 < x → (x : ℂ) ≠ 0 := fun hx => by exact_mod_cast hx.ne'
  have c1 : ∀ {x s : ℝ}, x < s → (s : ℂ) ≠ (x : ℂ) := fun hx => by exact_mod_cast hx.ne'
  obtain ⟨l, -⟩ := film_depths σ σ d (ρ : ℂ) (s : ℂ) 0 rfl hd (c0 h0) (c1 h1)
  obtain ⟨l', -⟩ := film_depths σ σ d (x : ℂ) (z : ℂ) 0 rfl hd (c0 x0) (c1 xz)
  rw [← e] at l l'
  obtain ⟨R, hR, lim⟩ := rough_limit [d] [σ, σ] [(s : ℂ), (ρ : ℂ)] rfl rfl (im s ρ) σ l.2
  obtain ⟨R', hR', lim'⟩ := rough_limit [d] [σ, σ] [(z : ℂ), (x : ℂ)] rfl rfl (im z x) σ l'.2
  refine ⟨R, R', hR, hR', ?_⟩
  have := lim.sub lim'
  rw [sub_self] at this
  refine this.congr fun q => ?_
  rw [e, e, film_sum, film_sum, h.1, h.2]
  ring

/-- **C159** (another film): with roughness a film of at most half the density of its substrate is never its own partner. -/
theorem C159_other (σ ρ s : ℝ) (hσ : σ ≠ 0) (h0 : 0 < ρ) (h1 : 2 * ρ ≤ s) : ¬ Exchanged σ ρ s ρ s := by
  intro h
  have cc : 0 < 4 * Real.pi * σ ^ 2 := by positivity
  have lt : ρ * Real.exp (4 * Real.pi * σ ^ 2 * ρ) < (s - ρ) * Real.exp (4 * Real.pi * σ ^ 2 * (ρ + s)) :=
    mul_lt_mul' (by linarith) (Real.exp_lt_exp.2 (mul_lt_mul_of_pos_left (by linarith) cc)) (Real.exp_pos _).le (by linarith)
  exact absurd h.1 lt.ne

/-- **C159** (samples): films of real density between the ones of vacuum and of their substrate, each with the same roughness at both interfaces; if the simulated
curves agree beyond some momentum transfer, roughness and thickness agree, and the densities agree or have exchanged waves. -/
theorem C159_sample {s s' : SampleV ℝ} (hv : BelowVacuum s) (hv' : BelowVacuum s') {f f' : LayerV ℝ} (hf : s.layers = [f]) (hf' : s'.layers = [f'])
    {y y' : Str → Num ℝ} (hy : RowWithin s y) (hy' : RowWithin s' y') (x x' z z' σ σ' : ℝ) (ex : y (f.name ++ "_sld".toList) = .real x)
    (ex' : y' (f'.name ++ "_sld".toList) = .real x') (ez : y (s.substrate.name ++ "_sld".toList) = .real z)
    (ez' : y' (s'.substrate.name ++ "_sld".toList) = .real z') (h0 : 0 < x) (h1 : x < z) (h0' : 0 < x') (h1' : x' < z')
    (ht : 0 < (y (f.name ++ "_thickness".toList)).re) (ht' : 0 < (y' (f'.name ++ "_thickness".toList)).re)
    (hr : (y (f.name ++ "_roughness".toList)).re = σ) (hrs : (y (s.substrate.name ++ "_roughness".toList)).re = σ)
    (hr' : (y' (f'.name ++ "_roughness".toList)).re = σ') (hrs' : (y' (s'.substrate.name ++ "_roughness".toList)).re = σ')
    (U : ℝ) (e : ∀ u ≥ U, curveFor s [u] (pairs y) = curveFor s' [u] (pairs y')) :
    |σ| = |σ'| ∧ (y (f.name ++ "_thickness".toList)).re = (y' (f'.name ++ "_thickness".toList)).re ∧
      ((x = x' ∧ z = z') ∨ Exchanged (σ * 1e-10) (x * 1e14) (z * 1e14) (x' * 1e14) (z' * 1e14)) := by
  obtain ⟨nm, hamb⟩ := hv.ambient
  obtain ⟨nm', hamb'⟩ := hv'.ambient
  have dx := siDensity_real x
  have dx' := siDensity_real x'
  have dz := siDensity_real z
  have dz' := siDensity_real z'
  rw [← ex] at dx
  rw [← ex'] at dx'
  rw [← ez] at dz
  rw [← ez'] at dz'
  obtain ⟨a, b, c⟩ := C159_classified (x * 1e14) (x' * 1e14) (z * 1e14) (z' * 1e14) ((y (f.name ++ "_thickness".toList)).re * 1e-10)
    ((y' (f'.name ++ "_thickness".toList)).re * 1e-10)
    (σ * 1e-10) (σ' * 1e-10) (by positivity) (by linarith) (by positivity) (by linarith) (by positivity) (by positivity) (U * 1e10) (by
      intro q hq
      have := e (q * 1e-10) (by linarith)
      rw [curveFor_points hamb [q * 1e-10] hy, curveFor_points hamb' [q * 1e-10] hy', hf, hf'] at this
      rw [multilayer_eq _ _ _ _ (by simp) (by simp), multilayer_eq _ _ _ _ (by simp) (by simp), ← dx, ← dx', ← dz, ← dz']
      simp only [List.map_cons, List.map_nil, show q * 1e-10 * 1e10 = q by ring, hr, hrs, hr', hrs'] at this ⊢
      exact this)
  rw [abs_mul, abs_mul] at a
  exact ⟨mul_right_cancel₀ (by norm_num) a, by linarith, c.imp_left fun h => ⟨by linarith [h.1], by linarith [h.2]⟩⟩

/-- Not vacuous: the labels of `exampleRoughFilm` with thickness 100 and density 8 meet the hypotheses, and the partner of this film is another one. -/
example : BelowVacuum exampleRoughFilm ∧ RowWithin exampleRoughFilm (roughFilmLabels 8) ∧ ¬ Exchanged (2 * 1e-10) (8 * 1e14) (20 * 1e14) (8 * 1e14) (20 * 1e14) :=
  ⟨exampleRoughFilm_vacuum, roughFilmLabels_within (by norm_num) (by norm_num), C159_other _ _ _ (by norm_num) (by norm_num) (by norm_num)⟩

/-- Not vacuous, and the partner is in general another film: without roughness the partner of a film of density 1 on a substrate of density 3 is a film of density 2. -/
example : Exchanged 0 1 3 2 3 := by
  constructor <;> norm_num

/-- With roughness the substrate of the partner has another density: the partner of a film on a substrate of the same density is the film itself (C155). -/
example (σ ρ s x : ℝ) (hσ : σ ≠ 0) (h0 : 0 < ρ) (h1 : ρ < s) (h0' : 0 < x) (h1' : x < s) (h : Exchanged σ ρ s x s) : ρ = x :=
  film_amplitudes (c := 4 * Real.pi * σ ^ 2) (by positivity) h0 h1 h0' h1' (by rw [h.1, h.2]; ring) (by rw [h.1, h.2]; ring)

end Verif.Props
