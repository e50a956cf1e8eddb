import Verif.Props.RoughFilm

/-!
# Property C158: above the critical edge every point of the curve of a rough film is a number, and thickness and density can be learned from finitely many of them
-/

namespace Verif.Props
open Verif.Py Verif.Model Verif.Spec Complex Filter Topology

/-! ### Numbers above the critical edge -/

/-- Above the critical edge of a medium the imaginary part of its wave number is smaller than the real part. -/
theorem wave_edge {q : ℝ} {ρ k : ℂ} (hk : IsWave q ρ k) (h : 16 * Real.pi * ρ.re < q ^ 2) : |k.im| < k.re := by
  have e := congrArg Complex.re hk.1
  have r : (4 * (Real.pi : ℂ) * (ρ + ((10 ^ (-30 : ℤ) : ℝ) : ℂ) * I)).re = 4 * Real.pi * ρ.re := by
    generalize (10 ^ (-30 : ℤ) : ℝ) = ε
    simp
  rw [Complex.sub_re, r, show ((q : ℂ) ^ 2 / 4) = ((q ^ 2 / 4 : ℝ) : ℂ) by push_cast; ring, Complex.ofReal_re, sq, Complex.mul_re] at e
  exact abs_lt_of_sq_lt_sq (by nlinarith) hk.2.le

/-- The reflected wave of an interface is weaker than the transmitted one, for every roughness. -/
theorem interface_less {k k' : ℂ} (h : |k.im| < k.re) (h' : |k'.im| < k'.re) (σ : ℝ) :
    ‖(k - k') / (2 * k) * cexp (-(k + k') ^ 2 * σ ^ 2 / 2)‖ < ‖(k + k') / (2 * k) * cexp (-(k - k') ^ 2 * σ ^ 2 / 2)‖ := by
  have p0 : 0 < k.re := (abs_nonneg _).trans_lt h
  have p0' : 0 < k'.re := (abs_nonneg _).trans_lt h'
  have k0 : k ≠ 0 := fun e => by rw [e] at p0; simp at p0
  have cross : |k.im * k'.im| < k.re * k'.re := by
    rw [abs_mul]
    exact mul_lt_mul'' h h' (abs_nonneg _) (abs_nonneg _)
  obtain ⟨c1, c2⟩ := abs_lt.1 cross
  have n1 : ‖k - k'‖ < ‖k + k'‖ := by
    refine lt_of_pow_lt_pow_left₀ 2 (norm_nonneg _) ?_
    rw [← Complex.normSq_eq_norm_sq, ← Complex.normSq_eq_norm_sq, Complex.normSq_apply, Complex.normSq_apply]
    simp only [Complex.sub_re, Complex.sub_im, Complex.add_re, Complex.add_im]
    nlinarith
  have re : ∀ z : ℂ, (-z ^ 2 * (σ : ℂ) ^ 2 / 2).re = -(z.re ^ 2 - z.im ^ 2) * (σ ^ 2 / 2) := by
    intro z
    rw [show -z ^ 2 * (σ : ℂ) ^ 2 / 2 = ((σ ^ 2 / 2 : ℝ) : ℂ) * (-(z * z)) by push_cast; ring, Complex.re_ofReal_mul, Complex.neg_re, Complex.mul_re]
    ring
  have n2 : ‖cexp (-(k + k') ^ 2 * σ ^ 2 / 2)‖ ≤ ‖cexp (-(k - k') ^ 2 * σ ^ 2 / 2)‖ := by
    rw [Complex.norm_exp, Complex.norm_exp, Real.exp_le_exp, re, re]
    refine mul_le_mul_of_nonneg_right ?_ (by positivity)
    simp only [Complex.sub_re, Complex.sub_im, Complex.add_re, Complex.add_im]
    nlinarith
  rw [norm_mul, norm_mul, norm_div, norm_div]
  have d0 : 0 < ‖2 * k‖ := norm_pos_iff.2 (mul_ne_zero two_ne_zero k0)
  refine mul_lt_mul (div_lt_div_of_pos_right n1 d0) n2 (by rw [Complex.norm_exp]; exact Real.exp_pos _) (by positivity)

/-- The point of the curve of a film above the critical edges. -/
theorem film_number (q d σ τ : ℝ) (ρ s : ℂ) (hρ : 0 ≤ ρ.im) (hs : 0 ≤ s.im) (hd : 0 ≤ d) (hq : q ≠ 0) (h1 : 16 * Real.pi * ρ.re < q ^ 2)
    (h2 : 16 * Real.pi * s.re < q ^ 2) : ∃ v, codePoint [d] [σ, τ] [s, ρ] q = some v ∧ 0 ≤ v ∧ v ≤ 1 := by
  have hp : ∀ r ∈ [s, ρ], 0 ≤ r.im := by simp [hρ, hs]
  have w0 := (codeWave_isWave q (ρ := 0) (by simp)).1
  obtain ⟨w1, i1⟩ := codeWave_isWave q hρ
  have w2 := (codeWave_isWave q hs).1
  have s0 := wave_edge w0 (by rw [Complex.zero_re, mul_zero]; positivity)
  have s1 := wave_edge w1 h1
  have s2 := wave_edge w2 h2
  rw [codePoint_eq [d] [σ, τ] [s, ρ] hp q (codeWave q) (fun ρ h => (codeWave_isWave q h).1)]
  unfold intensity
  rw [if_neg]
  · exact ⟨_, rfl, le_min (sq_nonneg _) zero_le_one, min_le_right _ _⟩
  · intro h0
    have e : slabs [d] [σ, τ] [s, ρ] = [⟨τ, ρ, d⟩, ⟨σ, s, 0⟩] := by simp [slabs]
    rw [e] at h0
    simp only [stackMatrix, interfaceMatrix, layerMatrix, Matrix.mul_apply, Fin.sum_univ_two, Matrix.of_apply, Matrix.cons_val', Matrix.cons_val_zero, Matrix.cons_val_one,
      Matrix.cons_val_fin_one, mul_zero, add_zero, zero_add, Complex.ofReal_zero, neg_zero, Complex.exp_zero, mul_one] at h0
    have l1 := interface_less s0 s1 τ
    have l2 := interface_less s1 s2 σ
    have n1 : ‖cexp (-(I * codeWave q ρ * d))‖ ≤ 1 := by
      rw [Complex.norm_exp, Real.exp_le_one_iff]
      have : (-(I * codeWave q ρ * d)).re = (codeWave q ρ).im * d := by simp
      rw [this]
      exact mul_nonpos_of_nonpos_of_nonneg i1.le hd
    have n2 : 1 ≤ ‖cexp (I * codeWave q ρ * d)‖ := by
      rw [Complex.norm_exp]
      refine Real.one_le_exp ?_
      have : (I * codeWave q ρ * d).re = -((codeWave q ρ).im * d) := by simp
      rw [this]
      have := mul_nonpos_of_nonpos_of_nonneg i1.le hd
      linarith
    have e := congrArg norm (eq_neg_of_add_eq_zero_left h0)
    rw [norm_neg, norm_mul, norm_mul, norm_mul, norm_mul] at e
    have a1 := (norm_nonneg _).trans_lt l1
    have a2 := (norm_nonneg _).trans_lt l2
    have up := mul_le_mul (mul_le_mul_of_nonneg_left n1 (norm_nonneg ((codeWave q 0 - codeWave q ρ) / (2 * codeWave q 0) *
      cexp (-(codeWave q 0 + codeWave q ρ) ^ 2 * τ ^ 2 / 2)))) le_rfl
      (norm_nonneg ((codeWave q ρ - codeWave q s) / (2 * codeWave q ρ) * cexp (-(codeWave q ρ + codeWave q s) ^ 2 * σ ^ 2 / 2))) (by positivity)
    have mid := mul_lt_mul'' l1 l2 (norm_nonneg _) (norm_nonneg _)
    have low := mul_le_mul (mul_le_mul_of_nonneg_left n2 a1.le) le_rfl a2.le (by positivity)
    rw [mul_one] at up low
    simp only [norm_mul] at e up mid low
    linarith

/-- **C158**: films without gain of any roughnesses; at momentum transfers above the critical edges of film and substrate every entry of the curve is a number from zero to
one. (Below the critical edge it can be NaN, see C34.) -/
theorem C158_number (qs : List ℝ) (d σ τ : ℝ) (ρ s : ℂ) (hρ : 0 ≤ ρ.im) (hs : 0 ≤ s.im) (hd : 0 ≤ d)
    (hq : ∀ q ∈ qs, q ≠ 0 ∧ 16 * Real.pi * ρ.re < q ^ 2 ∧ 16 * Real.pi * s.re < q ^ 2) :
    ∃ c : List ℝ, multilayerReflectivity qs [d] [σ, τ] [s, ρ] 0 = .ok (c.map some) ∧ c.length = qs.length ∧ ∀ v ∈ c, 0 ≤ v ∧ v ≤ 1 := by
  have key : ∀ q : ℝ, ∃ v, q ∈ qs → codePoint [d] [σ, τ] [s, ρ] q = some v ∧ 0 ≤ v ∧ v ≤ 1 := by
    intro q
    by_cases h : q ∈ qs
    · obtain ⟨a, b, c⟩ := hq q h
      obtain ⟨v, hv⟩ := film_number q d σ τ ρ s hρ hs hd a b c
      exact ⟨v, fun _ => hv⟩
    · exact ⟨0, fun h' => absurd h' h⟩
  choose f hf using key
  refine ⟨qs.map f, ?_, by simp, ?_⟩
  · rw [multilayer_eq qs _ _ _ rfl rfl, List.map_map]
    congr 1
    exact List.map_congr_left fun q h => (hf q h).1
  · intro v hv
    obtain ⟨q, h, rfl⟩ := List.mem_map.1 hv
    exact (hf q h).2

/-! ### Learning -/

/-- A film of unknown thickness and density on a known substrate, both interfaces with the known roughness `σ`, the film less dense than the substrate. -/
structure EvenlyRough (s : SampleV ℝ) (l : LayerV ℝ) (d₁ d₂ lo hi z σ : ℝ) : Prop where
  layers : s.layers = [l]
  thickness : ∃ nm, l.thickness = some (.range (.real d₁) (.real d₂) nm)
  film : ∃ nm, l.sld = some (.range (.real lo) (.real hi) nm)
  upper : ∃ nm, l.roughness = some (.const (.real σ) nm)
  substrate : ∃ nm, s.substrate.sld = some (.const (.real z) nm)
  lower : ∃ nm, s.substrate.roughness = some (.const (.real σ) nm)
  ambient : ∃ nm, s.ambient.sld = some (.const (.real 0) nm)
  thick : 0 < d₁
  light : 0 < lo ∧ hi < z
  rough : σ ≠ 0

theorem EvenlyRough.vacuum {s : SampleV ℝ} {l : LayerV ℝ} {d₁ d₂ lo hi z σ : ℝ} (h : EvenlyRough s l d₁ d₂ lo hi z σ) : BelowVacuum s := by
  refine ⟨h.ambient, ?_⟩
  obtain ⟨n1, f1⟩ := h.film
  obtain ⟨n2, f2⟩ := h.substrate
  intro x hx p hp
  rw [h.layers] at hx
  simp only [List.mem_cons, List.not_mem_nil, or_false] at hx
  rcases hx with rfl | rfl
  · rw [f2] at hp
    cases hp
    exact ⟨le_refl (0 : ℝ), le_refl (0 : ℝ)⟩
  · rw [f1] at hp
    cases hp
    exact ⟨le_refl (0 : ℝ), le_refl (0 : ℝ)⟩

/-- The labels of such a sample. -/
theorem EvenlyRough.labels {s : SampleV ℝ} {l : LayerV ℝ} {d₁ d₂ lo hi z σ : ℝ} (h : EvenlyRough s l d₁ d₂ lo hi z σ) {y : Str → Num ℝ} (hy : RowWithin s y) :
    (∃ x, y (l.name ++ "_sld".toList) = .real x ∧ 0 < x ∧ x < z) ∧ 0 < (y (l.name ++ "_thickness".toList)).re ∧ y (l.name ++ "_roughness".toList) = .real σ ∧
    y (s.substrate.name ++ "_sld".toList) = .real z ∧ y (s.substrate.name ++ "_roughness".toList) = .real σ := by
  have ml : l ∈ s.layers := by rw [h.layers]; exact List.mem_singleton_self l
  obtain ⟨n0, f0⟩ := h.thickness
  obtain ⟨n1, f1⟩ := h.film
  obtain ⟨n2, f2⟩ := h.upper
  obtain ⟨n3, f3⟩ := h.substrate
  obtain ⟨n4, f4⟩ := h.lower
  obtain ⟨x, hx, x1, x2⟩ := hy.sld l (List.mem_append_left _ (List.mem_cons_of_mem _ ml)) _ f1
  obtain ⟨d, hd, e1, -⟩ := hy.thickness l ml _ f0
  have t0 := h.thick
  have l0 := h.light
  refine ⟨⟨x, hx, by linarith [l0.1], by linarith [l0.2]⟩, ?_, hy.roughness l (List.mem_cons_of_mem _ ml) _ f2, hy.sld s.substrate (by simp) _ f3,
    hy.roughness s.substrate (by simp) _ f4⟩
  rw [hd]
  exact t0.trans_le e1

/-- **C158** (determined): the points above any momentum transfer determine thickness and density. -/
theorem C158_determined {s : SampleV ℝ} {l : LayerV ℝ} {d₁ d₂ lo hi z σ : ℝ} (h : EvenlyRough s l d₁ d₂ lo hi z σ) (U : ℝ) {y y' : Str → Num ℝ} (hy : RowWithin s y)
    (hy' : RowWithin s y') (e : ∀ u ≥ U, curveFor s [u] (pairs y) = curveFor s [u] (pairs y')) :
    (y (l.name ++ "_thickness".toList)).re = (y' (l.name ++ "_thickness".toList)).re ∧ (y (l.name ++ "_sld".toList)).re = (y' (l.name ++ "_sld".toList)).re := by
  obtain ⟨⟨x, ex, x0, x1⟩, t0, r1, ez, r2⟩ := h.labels hy
  obtain ⟨⟨x', ex', x0', x1'⟩, t0', r1', ez', r2'⟩ := h.labels hy'
  obtain ⟨-, a, b⟩ := C155_sample h.vacuum h.vacuum h.layers h.layers hy hy' x x' z σ σ ex ex' ez ez' x0 x1 x0' x1' t0 t0' (by rw [r1]; rfl) (by rw [r2]; rfl)
    (by rw [r1']; rfl) (by rw [r2']; rfl) h.rough U e
  exact ⟨a, by rw [ex, ex', b]⟩

/-- **C158** (learning): for every tolerance and every momentum transfer above the critical edge there are finitely many larger momentum transfers, a continuous function of the
curve at these points and a size of measurement errors such that the function gives thickness (or density) of every admissible sample up to the tolerance. -/
theorem C158_learnable (s : SampleV ℝ) (l : LayerV ℝ) (d₁ d₂ lo hi z σ : ℝ) (hs : SampleRegular s) (hn : (partNames s).Nodup)
    (hl : ∀ l ∈ s.structure_, LayerDrawable l) (h : EvenlyRough s l d₁ d₂ lo hi z σ) (U : ℝ) (hU : 0 < U) (hc : 16 * Real.pi * (z * 1e-6) < U ^ 2) (key : Str)
    (hkey : key = l.name ++ "_thickness".toList ∨ key = l.name ++ "_sld".toList) (ε : ℝ) (hε : 0 < ε) :
    ∃ q : List ℝ, (∀ u ∈ q, U ≤ u) ∧ ∃ N : (Fin q.length → ℝ) → ℝ, Continuous N ∧ ∃ δ > 0, ∀ y, RowWithin s y →
      (∃ v : Fin q.length → ℝ, curveFor s q (pairs y) = .ok (List.ofFn fun j => some (v j))) ∧
      ∀ v w : Fin q.length → ℝ, curveFor s q (pairs y) = .ok (List.ofFn fun j => some (v j)) → (∀ j, |w j - v j| < δ) → |N w - (y key).re| < ε := by
  obtain ⟨nm, hamb⟩ := h.ambient
  have ml : l ∈ s.layers := by rw [h.layers]; exact List.mem_singleton_self l
  have := finite_points_on s hs hn hl nm hamb h.vacuum.absorption (Set.Ici U) (fun u hu y hy => ?_) [key] ?_ ?_ ε hε
  · simpa using this
  · obtain ⟨⟨x, ex, x0, x1⟩, t0, -, ez, -⟩ := h.labels hy
    have hu : U ≤ u := hu
    have u0 : 0 < u := hU.trans_le hu
    have uu : U ^ 2 ≤ u ^ 2 := pow_le_pow_left₀ hU.le hu 2
    have pi := Real.pi_pos
    have edge : ∀ {a : ℝ}, a ≤ z → 16 * Real.pi * (siDensity (.real a)).re < (u * 1e10) ^ 2 := by
      intro a ha
      rw [siDensity_real, Complex.ofReal_re]
      have : 16 * Real.pi * (a * 1e-6) ≤ 16 * Real.pi * (z * 1e-6) := by
        refine mul_le_mul_of_nonneg_left ?_ (by positivity)
        linarith
      nlinarith
    have im : ∀ a : ℝ, 0 ≤ (siDensity (.real a)).im := fun a => by rw [siDensity_real, Complex.ofReal_im]
    have num := film_number (u * 1e10) ((y (l.name ++ "_thickness".toList)).re * 1e-10) ((y (s.substrate.name ++ "_roughness".toList)).re * 1e-10)
      ((y (l.name ++ "_roughness".toList)).re * 1e-10) (siDensity (.real x)) (siDensity (.real z)) (im x) (im z) (by positivity) (by positivity) (edge x1.le) (edge le_rfl)
    rw [← ex, ← ez] at num
    obtain ⟨v, hv, -⟩ := num
    refine ⟨v, ?_⟩
    rw [curveFor_points hamb [u] hy, h.layers]
    simp only [List.map_cons, List.map_nil]
    exact congrArg (fun o => Except.ok [o]) hv
  · simp only [List.mem_singleton, forall_eq]
    rcases hkey with rfl | rfl
    · exact mem_labels.1 l ml
    · exact mem_labels.2.2 l (List.mem_append_left _ (List.mem_cons_of_mem _ ml))
  · intro y y' hy hy' e
    obtain ⟨a, b⟩ := C158_determined h U hy hy' e
    simp only [List.map_cons, List.map_nil, List.sum_cons, List.sum_nil, add_zero]
    rcases hkey with rfl | rfl
    · exact a
    · exact b

/-- Not vacuous: a film of roughness 2 Å; its density can be learned up to 0.1 from finitely many points above 0.1/Å, on both sides of half the density of the substrate. -/
example : ∃ q : List ℝ, (∀ u ∈ q, 0.1 ≤ u) ∧ ∃ N : (Fin q.length → ℝ) → ℝ, Continuous N ∧ ∃ δ > 0, ∀ y, RowWithin exampleRoughFilm y →
      (∃ v : Fin q.length → ℝ, curveFor exampleRoughFilm q (pairs y) = .ok (List.ofFn fun j => some (v j))) ∧
      ∀ v w : Fin q.length → ℝ, curveFor exampleRoughFilm q (pairs y) = .ok (List.ofFn fun j => some (v j)) → (∀ j, |w j - v j| < δ) →
        |N w - (y ("film".toList ++ "_sld".toList)).re| < 0.1 := by
  refine C158_learnable exampleRoughFilm (exampleRoughFilm.layers.head (by simp [exampleRoughFilm])) 20 1000 5 15 20 2 ?_ ?_ ?_
    ⟨rfl, ⟨_, rfl⟩, ⟨_, rfl⟩, ⟨_, rfl⟩, ⟨_, rfl⟩, ⟨_, rfl⟩, ⟨_, rfl⟩, by norm_num, by norm_num, by norm_num⟩ 0.1 (by norm_num) (by nlinarith [Real.pi_le_four]) _ (.inr rfl) 0.1
    (by norm_num)
  · refine ⟨⟨rfl, rfl, ⟨_, rfl, ⟨rfl, trivial⟩, ?_⟩, ⟨_, rfl, rfl, trivial⟩⟩, ⟨rfl, rfl, rfl, ⟨_, rfl, rfl, trivial⟩⟩, ?_⟩
    · simp only [Param.min, Num.ltZero]; norm_num
    · intro l hl
      rw [show exampleRoughFilm.layers = [_] from rfl, List.mem_singleton] at hl
      subst hl
      refine ⟨Or.inl rfl, ⟨_, rfl, ⟨rfl, ?_⟩, ?_⟩, ⟨_, rfl, ⟨rfl, trivial⟩, ?_⟩, ⟨_, rfl, rfl, ?_⟩⟩
      · simp only [ParamValid, Num.ge]; norm_num
      · simp only [Param.min, Num.ltZero]; norm_num
      · simp only [Param.min, Num.ltZero]; norm_num
      · simp only [ParamValid, Num.ge]; norm_num
  · simp only [partNames, exampleRoughFilm]; decide
  · intro l hl
    simp only [SampleV.structure_, exampleRoughFilm, List.cons_append, List.nil_append, List.mem_cons, List.not_mem_nil, or_false] at hl
    rcases hl with rfl | rfl | rfl
    · refine ⟨?_, by simp, ?_⟩ <;> rintro p ⟨⟩
      · trivial
      · exact ⟨2, 2, rfl, rfl, le_rfl⟩
    · refine ⟨?_, ?_, ?_⟩ <;> rintro p ⟨⟩
      · exact ⟨show (5 : ℝ) ≤ 15 by norm_num, le_refl (0 : ℝ), Or.inl ⟨_, _, rfl, rfl⟩⟩
      · exact ⟨20, 1000, rfl, rfl, by norm_num⟩
      · exact ⟨2, 2, rfl, rfl, le_rfl⟩
    · refine ⟨?_, by simp, by simp⟩
      rintro p ⟨⟩
      trivial

end Verif.Props
