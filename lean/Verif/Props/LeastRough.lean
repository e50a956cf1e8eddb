import Verif.Props.RoughTail

/-!
# Property C153: the tail of the curve determines the smallest roughness also if several interfaces have it
-/

namespace Verif.Props
open Verif.Py Verif.Model Verif.Spec Complex Filter Topology
variable {wave : ℝ → ℂ → ℂ}

/-- The density with the small absorption that the code adds. -/
noncomputable def absorbing (ρ : ℂ) : ℂ := ρ + ((10 ^ (-30 : ℤ) : ℝ) : ℂ) * I

open Classical in
/-- The weight of an interface in the tail that belongs to the roughness `σ`. -/
noncomputable def roughWeight (σ : ℝ) (ρ : ℂ) (s : Slab) : ℂ :=
  if |s.roughness| = |σ| then 4 * (Real.pi : ℂ) * (s.sld - ρ) * cexp (4 * (Real.pi : ℂ) * (σ : ℂ) ^ 2 * (absorbing ρ + absorbing s.sld)) else 0

/-- The sum over the interfaces, every one with the phase of its depth. -/
noncomputable def roughSum (σ : ℝ) : ℂ → List Slab → ℝ → ℂ
  | _, [], _ => 0
  | ρ, s :: rest, q => roughWeight σ ρ s + cexp (-(I * (q * s.thickness : ℝ))) * roughSum σ s.sld rest q

theorem roughSum_bounded (σ : ℝ) (l : List Slab) (ρ : ℂ) : ∃ c, ∀ q, ‖roughSum σ ρ l q‖ ≤ c := by
  induction l generalizing ρ with
  | nil => exact ⟨0, fun q => by simp [roughSum]⟩
  | cons s rest ih =>
    obtain ⟨c, hc⟩ := ih s.sld
    refine ⟨‖roughWeight σ ρ s‖ + c, fun q => ?_⟩
    simp only [roughSum]
    refine (norm_add_le _ _).trans (add_le_add le_rfl ?_)
    rw [norm_mul, norm_phase, one_mul]
    exact hc q

theorem wave_over (hw : ∀ q ρ, 0 ≤ ρ.im → IsWave q ρ (wave q ρ)) {ρ : ℂ} (h : 0 ≤ ρ.im) : Tendsto (fun q : ℝ => wave q ρ / q) atTop (𝓝 (1 / 2)) := by
  have inv : Tendsto (fun q : ℝ => ((q : ℂ))⁻¹) atTop (𝓝 0) := by
    have := (Complex.continuous_ofReal.tendsto 0).comp (tendsto_inv_atTop_zero (𝕜 := ℝ))
    simpa [Function.comp_def] using this
  have := ((wave_tendsto hw h).mul inv).add (tendsto_const_nhds (x := (1 / 2 : ℂ)))
  rw [mul_zero, zero_add] at this
  refine this.congr' ?_
  filter_upwards [eventually_gt_atTop 0] with q hq
  have : (q : ℂ) ≠ 0 := by exact_mod_cast hq.ne'
  field_simp
  ring

/-- The reflected amplitude of an interface over the Gaussian. -/
theorem off_limit (hw : ∀ q ρ, 0 ≤ ρ.im → IsWave q ρ (wave q ρ)) {ρ : ℂ} (s : Slab) (h : 0 ≤ ρ.im) (h' : 0 ≤ s.sld.im) (σ : ℝ)
    (hs : s.sld - ρ = 0 ∨ |σ| ≤ |s.roughness|) :
    Tendsto (fun q : ℝ => interfaceMatrix (wave q ρ) (wave q s.sld) s.roughness 0 1 / (gaussAmp σ q : ℂ)) atTop (𝓝 (roughWeight σ ρ s)) := by
  have small : (s.sld - ρ = 0 ∨ |σ| < |s.roughness|) →
      Tendsto (fun q : ℝ => interfaceMatrix (wave q ρ) (wave q s.sld) s.roughness 0 1 / (gaussAmp σ q : ℂ)) atTop (𝓝 0) := by
    intro hh
    rw [tendsto_zero_iff_norm_tendsto_zero]
    refine (off_small hw h h' σ s.roughness hh).congr' ?_
    filter_upwards [eventually_gt_atTop 0] with q hq
    rw [norm_div, Complex.norm_real, Real.norm_eq_abs, abs_of_pos (gaussAmp_pos σ hq)]
  by_cases hd : s.sld - ρ = 0
  · have : roughWeight σ ρ s = 0 := by unfold roughWeight; rw [hd]; simp
    rw [this]
    exact small (.inl hd)
  have hs := hs.resolve_left hd
  rcases eq_or_lt_of_le hs with he | hlt
  · have w0 : roughWeight σ ρ s = 4 * (Real.pi : ℂ) * (s.sld - ρ) * cexp (4 * (Real.pi : ℂ) * (σ : ℂ) ^ 2 * (absorbing ρ + absorbing s.sld)) := by
      unfold roughWeight
      rw [if_pos he.symm]
    have sq : s.roughness ^ 2 = σ ^ 2 := (sq_eq_sq_iff_abs_eq_abs _ _).2 he.symm
    have a1 := wave_over hw h
    have a2 := a1.add (wave_over hw h')
    have b1 : Tendsto (fun q : ℝ => cexp (-((σ : ℂ) ^ 2 / 2) * (-(8 * (Real.pi : ℂ) * (absorbing ρ + absorbing s.sld)) - (wave q ρ - wave q s.sld) ^ 2))) atTop
        (𝓝 (cexp (4 * (Real.pi : ℂ) * (σ : ℂ) ^ 2 * (absorbing ρ + absorbing s.sld)))) := by
      have d := (((diff_tendsto hw h h').pow 2).const_sub (-(8 * (Real.pi : ℂ) * (absorbing ρ + absorbing s.sld)))).const_mul (-((σ : ℂ) ^ 2 / 2))
      have := (Complex.continuous_exp.tendsto _).comp d
      convert this using 2
      congr 1
      ring_nf
    have b2 : Tendsto (fun q : ℝ => 4 * (Real.pi : ℂ) * (s.sld - ρ) / ((wave q ρ / q + wave q s.sld / q) * (2 * (wave q ρ / q)))) atTop
        (𝓝 (4 * (Real.pi : ℂ) * (s.sld - ρ))) := by
      have := (tendsto_const_nhds (x := 4 * (Real.pi : ℂ) * (s.sld - ρ)) (f := atTop (α := ℝ))).div (a2.mul (a1.const_mul 2)) (by norm_num)
      rw [show ((1 / 2 : ℂ) + 1 / 2) * (2 * (1 / 2)) = 1 by norm_num, div_one] at this
      exact this
    rw [w0]
    refine (b2.mul b1).congr' ?_
    filter_upwards [eventually_gt_atTop 0] with q hq
    have q0 : (q : ℂ) ≠ 0 := by exact_mod_cast hq.ne'
    have e1 := (hw q ρ h).1
    have e2 := (hw q s.sld h').1
    have k0 := isWave_ne_zero (hw q ρ h)
    have s0 : wave q ρ + wave q s.sld ≠ 0 := by
      intro e
      have := congrArg Complex.re e
      rw [Complex.add_re, Complex.zero_re] at this
      linarith [(hw q ρ h).2, (hw q s.sld h').2]
    have hm : interfaceMatrix (wave q ρ) (wave q s.sld) s.roughness 0 1 =
        (wave q ρ - wave q s.sld) / (2 * wave q ρ) * cexp (-(wave q ρ + wave q s.sld) ^ 2 * (s.roughness : ℂ) ^ 2 / 2) := by simp [interfaceMatrix]
    have sqc : (s.roughness : ℂ) ^ 2 = (σ : ℂ) ^ 2 := by exact_mod_cast sq
    have prod : (wave q ρ - wave q s.sld) * (wave q ρ + wave q s.sld) = 4 * (Real.pi : ℂ) * (s.sld - ρ) := by linear_combination e1 - e2
    have ex : -(wave q ρ + wave q s.sld) ^ 2 * (s.roughness : ℂ) ^ 2 / 2 =
        -((σ : ℂ) ^ 2 / 2) * (-(8 * (Real.pi : ℂ) * (absorbing ρ + absorbing s.sld)) - (wave q ρ - wave q s.sld) ^ 2) + ((-((σ * q) ^ 2 / 2) : ℝ) : ℂ) := by
      rw [sqc]
      unfold absorbing
      generalize ((10 ^ (-30 : ℤ) : ℝ) : ℂ) = ε at e1 e2 ⊢
      push_cast
      linear_combination (-(σ : ℂ) ^ 2) * e1 + (-(σ : ℂ) ^ 2) * e2
    have g0 : ((Real.exp (-((σ * q) ^ 2 / 2)) : ℝ) : ℂ) ≠ 0 := by exact_mod_cast (Real.exp_pos _).ne'
    rw [hm, ex, Complex.exp_add, ← Complex.ofReal_exp, ← prod]
    unfold gaussAmp
    push_cast
    push_cast at g0
    field_simp
  · have : roughWeight σ ρ s = 0 := by unfold roughWeight; rw [if_neg hlt.ne']
    rw [this]
    exact small (.inr hlt)

/-- The way through a layer differs by nothing in the limit from the one with half the momentum transfer. -/
theorem phase_limit (hw : ∀ q ρ, 0 ≤ ρ.im → IsWave q ρ (wave q ρ)) {ρ : ℂ} (h : 0 ≤ ρ.im) (d : ℝ) :
    Tendsto (fun q : ℝ => cexp (-(I * wave q ρ * d)) * cexp (I * ((q / 2 * d : ℝ) : ℂ))) atTop (𝓝 1) ∧
    Tendsto (fun q : ℝ => cexp (I * wave q ρ * d) * cexp (-(I * ((q / 2 * d : ℝ) : ℂ)))) atTop (𝓝 1) := by
  have w := wave_tendsto hw h
  constructor
  · have := (Complex.continuous_exp.tendsto _).comp (w.const_mul (-(I * d)))
    rw [mul_zero, Complex.exp_zero] at this
    refine this.congr fun q => ?_
    rw [Function.comp_apply, ← Complex.exp_add]
    congr 1
    push_cast
    ring
  · have := (Complex.continuous_exp.tendsto _).comp (w.const_mul (I * d))
    rw [mul_zero, Complex.exp_zero] at this
    refine this.congr fun q => ?_
    rw [Function.comp_apply, ← Complex.exp_add]
    congr 1
    push_cast
    ring

theorem stack_entry_one (w : ℂ → ℂ) (k : ℂ) (a : Slab) (l : List Slab) :
    stackMatrix w k (a :: l) 1 1 =
        interfaceMatrix k (w a.sld) a.roughness 1 0 * cexp (-(I * w a.sld * a.thickness)) * stackMatrix w (w a.sld) l 0 1 +
        interfaceMatrix k (w a.sld) a.roughness 1 1 * cexp (I * w a.sld * a.thickness) * stackMatrix w (w a.sld) l 1 1 := by
  show (interfaceMatrix k (w a.sld) a.roughness * layerMatrix (w a.sld) a.thickness * stackMatrix w (w a.sld) l) 1 1 = _
  rw [Matrix.mul_apply, Fin.sum_univ_two, Matrix.mul_apply, Fin.sum_univ_two, Matrix.mul_apply, Fin.sum_univ_two]
  simp [layerMatrix]

/-- The phase of a way of length `z`, there only. -/
noncomputable def way (z q : ℝ) : ℂ := cexp (-(I * ((q / 2 * z : ℝ) : ℂ)))

theorem norm_way (z q : ℝ) : ‖way z q‖ = 1 := norm_phase _

theorem way_add (z z' q : ℝ) : way (z + z') q = way z q * way z' q := by
  unfold way
  rw [← Complex.exp_add]
  congr 1
  push_cast
  ring

theorem way_split (z q : ℝ) : way z q = cexp (I * ((q / 2 * z : ℝ) : ℂ)) * cexp (-(I * (q * z : ℝ))) := by
  unfold way
  rw [← Complex.exp_add]
  congr 1
  push_cast
  ring

/-- The two entries of the matrix of a stack that make up the reflectivity, at large momentum transfers. -/
theorem stack_sum (hw : ∀ q ρ, 0 ≤ ρ.im → IsWave q ρ (wave q ρ)) (σ : ℝ) (l : List Slab) (hl : Physical l) {ρ : ℂ} (h : 0 ≤ ρ.im)
    (hs : ∀ p ∈ roughSteps ρ l, p.1 = 0 ∨ |σ| ≤ |p.2|) :
    ∃ z : ℝ, Tendsto (fun q : ℝ => stackMatrix (wave q) (wave q ρ) l 0 1 * way z q / (gaussAmp σ q : ℂ) - roughSum σ ρ l q) atTop (𝓝 0) ∧
      Tendsto (fun q : ℝ => stackMatrix (wave q) (wave q ρ) l 1 1 * way z q) atTop (𝓝 1) := by
  induction l generalizing ρ with
  | nil =>
    refine ⟨0, ?_, ?_⟩
    · simp [stackMatrix, roughSum]
    · simp [stackMatrix, way]
  | cons a l ih =>
    have ha : 0 ≤ a.sld.im := hl a (by simp)
    have hl' : Physical l := fun b hb => hl b (by simp [hb])
    obtain ⟨z, i1, i2⟩ := ih hl' ha fun p hp => hs p (by simp [roughSteps, hp])
    obtain ⟨c, hc⟩ := roughSum_bounded σ l a.sld
    obtain ⟨p1, p2⟩ := phase_limit hw ha a.thickness
    have o := off_limit hw a h ha σ (hs (a.sld - ρ, a.roughness) (by simp [roughSteps]))
    have d : Tendsto (fun q : ℝ => interfaceMatrix (wave q ρ) (wave q a.sld) a.roughness 0 0) atTop (𝓝 1) := by
      simpa [interfaceMatrix] using diag_tendsto hw h ha a.roughness
    have d' : Tendsto (fun q : ℝ => interfaceMatrix (wave q ρ) (wave q a.sld) a.roughness 1 1) atTop (𝓝 1) := by
      simpa [interfaceMatrix] using diag_tendsto hw h ha a.roughness
    have f : Tendsto (fun q : ℝ => interfaceMatrix (wave q ρ) (wave q a.sld) a.roughness 1 0) atTop (𝓝 0) := by
      simpa [interfaceMatrix] using off_tendsto hw h ha a.roughness
    have m0 := (stack_tendsto hw l hl' ha).1
    refine ⟨a.thickness + z, ?_, ?_⟩
    · have dp := d.mul p1
      rw [one_mul] at dp
      have dp0 := dp.sub_const 1
      rw [sub_self] at dp0
      have bd : ∀ q, ‖cexp (-(I * (q * a.thickness : ℝ))) * roughSum σ a.sld l q‖ ≤ c := fun q => by
        rw [norm_mul, norm_phase, one_mul]; exact hc q
      have t1 := tendsto_bdd_mul dp0 bd
      have t2 := (by simpa using tendsto_bdd_mul (by simpa using dp.mul i1) (g := fun q => cexp (-(I * (q * a.thickness : ℝ)))) (c := 1) fun q => (norm_phase _).le :
        Tendsto (fun q : ℝ => interfaceMatrix (wave q ρ) (wave q a.sld) a.roughness 0 0 * (cexp (-(I * wave q a.sld * a.thickness)) *
          cexp (I * ((q / 2 * a.thickness : ℝ) : ℂ))) * (stackMatrix (wave q) (wave q a.sld) l 0 1 * way z q / (gaussAmp σ q : ℂ) - roughSum σ a.sld l q) *
          cexp (-(I * (q * a.thickness : ℝ)))) atTop (𝓝 0))
      have t3 := ((o.mul p2).mul i2).sub_const (roughWeight σ ρ a)
      rw [mul_one, mul_one, sub_self] at t3
      have t := (t1.add t2).add t3
      rw [add_zero, add_zero] at t
      refine t.congr fun q => ?_
      rw [stack_entry, way_add]
      have e1 : way a.thickness q = cexp (-(I * ((q / 2 * a.thickness : ℝ) : ℂ))) := rfl
      simp only [roughSum]
      rw [add_mul, add_div]
      conv_rhs => rw [show interfaceMatrix (wave q ρ) (wave q a.sld) a.roughness 0 0 * cexp (-(I * wave q a.sld * a.thickness)) *
        stackMatrix (wave q) (wave q a.sld) l 0 1 * (way a.thickness q * way z q) = interfaceMatrix (wave q ρ) (wave q a.sld) a.roughness 0 0 *
        cexp (-(I * wave q a.sld * a.thickness)) * stackMatrix (wave q) (wave q a.sld) l 0 1 *
        (cexp (I * ((q / 2 * a.thickness : ℝ) : ℂ)) * cexp (-(I * (q * a.thickness : ℝ))) * way z q) from by rw [way_split a.thickness], e1]
      ring
    · have s1 : Tendsto (fun q : ℝ => interfaceMatrix (wave q ρ) (wave q a.sld) a.roughness 1 0 * (cexp (-(I * wave q a.sld * a.thickness)) *
          cexp (I * ((q / 2 * a.thickness : ℝ) : ℂ))) * stackMatrix (wave q) (wave q a.sld) l 0 1 * (cexp (-(I * (q * a.thickness : ℝ))) * way z q)) atTop (𝓝 0) := by
        have := (f.mul p1).mul m0
        rw [zero_mul, zero_mul] at this
        exact tendsto_bdd_mul (c := 1) this fun q => by rw [norm_mul, norm_phase, norm_way, one_mul]
      have s2 := (d'.mul p2).mul i2
      have s := s1.add s2
      rw [mul_one, mul_one, zero_add] at s
      refine s.congr fun q => ?_
      rw [stack_entry_one, way_add, add_mul]
      have e1 : way a.thickness q = cexp (-(I * ((q / 2 * a.thickness : ℝ) : ℂ))) := rfl
      conv_rhs => rw [show interfaceMatrix (wave q ρ) (wave q a.sld) a.roughness 1 0 * cexp (-(I * wave q a.sld * a.thickness)) *
        stackMatrix (wave q) (wave q a.sld) l 0 1 * (way a.thickness q * way z q) = interfaceMatrix (wave q ρ) (wave q a.sld) a.roughness 1 0 *
        cexp (-(I * wave q a.sld * a.thickness)) * stackMatrix (wave q) (wave q a.sld) l 0 1 *
        (cexp (I * ((q / 2 * a.thickness : ℝ) : ℂ)) * cexp (-(I * (q * a.thickness : ℝ))) * way z q) from by rw [way_split a.thickness], e1]
      ring

/-! ### The sum does not die out -/

/-- The weights of the interfaces with their depths. -/
noncomputable def roughTerms (σ : ℝ) : ℂ → ℝ → List Slab → List (ℂ × ℝ)
  | _, _, [] => []
  | ρ, z, s :: rest => (roughWeight σ ρ s, z) :: roughTerms σ s.sld (z + s.thickness) rest

theorem roughTerms_sum (σ : ℝ) (l : List Slab) (ρ : ℂ) (z q : ℝ) :
    ((roughTerms σ ρ z l).map fun (p : ℂ × ℝ) => p.1 * cexp (I * (-p.2 * q : ℝ))).sum = cexp (-(I * (q * z : ℝ))) * roughSum σ ρ l q := by
  induction l generalizing ρ z with
  | nil => simp [roughTerms, roughSum]
  | cons s rest ih =>
    simp only [roughTerms, roughSum, List.map_cons, List.sum_cons]
    have e1 : cexp (I * (-z * q : ℝ)) = cexp (-(I * (q * z : ℝ))) := by congr 1; push_cast; ring
    have e2 : cexp (-(I * (q * (z + s.thickness) : ℝ))) = cexp (-(I * (q * z : ℝ))) * cexp (-(I * (q * s.thickness : ℝ))) := by
      rw [← Complex.exp_add]; congr 1; push_cast; ring
    rw [ih, e1, e2]
    ring

theorem roughTerms_depth (σ : ℝ) (l : List Slab) (hd : ∀ x ∈ l.dropLast, 0 < x.thickness) (ρ : ℂ) (z : ℝ) :
    ((roughTerms σ ρ z l).map Prod.snd).Pairwise (· < ·) ∧ ∀ p ∈ roughTerms σ ρ z l, z ≤ p.2 := by
  induction l generalizing ρ z with
  | nil => simp [roughTerms]
  | cons a l ih =>
    cases l with
    | nil => simp [roughTerms]
    | cons b l =>
      have ha : 0 < a.thickness := hd a (by simp)
      obtain ⟨i1, i2⟩ := ih (fun x hx => hd x (by rw [List.dropLast_cons_cons]; exact List.mem_cons_of_mem _ hx)) a.sld (z + a.thickness)
      rw [roughTerms]
      refine ⟨?_, ?_⟩
      · rw [List.map_cons, List.pairwise_cons]
        refine ⟨fun x hx => ?_, i1⟩
        obtain ⟨p, hp, rfl⟩ := List.mem_map.1 hx
        have := i2 p hp
        show z < p.2
        linarith
      · intro p hp
        rcases List.mem_cons.1 hp with rfl | hp
        · exact le_rfl
        · linarith [i2 p hp]

theorem roughTerms_weight (σ : ℝ) (l : List Slab) (ρ : ℂ) (z : ℝ) (h : ∃ p ∈ roughSteps ρ l, p.1 ≠ 0 ∧ |p.2| = |σ|) : ∃ p ∈ roughTerms σ ρ z l, p.1 ≠ 0 := by
  induction l generalizing ρ z with
  | nil =>
    obtain ⟨p, hp, -⟩ := h
    simp [roughSteps] at hp
  | cons a l ih =>
    obtain ⟨p, hp, h1, h2⟩ := h
    rcases List.mem_cons.1 hp with rfl | hp
    · refine ⟨(roughWeight σ ρ a, z), by simp [roughTerms], ?_⟩
      show roughWeight σ ρ a ≠ 0
      unfold roughWeight
      rw [if_pos h2]
      exact mul_ne_zero (mul_ne_zero (mul_ne_zero (by norm_num) (by exact_mod_cast Real.pi_ne_zero)) h1) (Complex.exp_ne_zero _)
    · obtain ⟨t, ht, h⟩ := ih a.sld (z + a.thickness) ⟨p, hp, h1, h2⟩
      exact ⟨t, by simp [roughTerms, ht], h⟩

theorem roughSum_stays (σ : ℝ) (l : List Slab) (hd : ∀ x ∈ l.dropLast, 0 < x.thickness) (ρ : ℂ) (h : ∃ p ∈ roughSteps ρ l, p.1 ≠ 0 ∧ |p.2| = |σ|) :
    ¬ Tendsto (fun q : ℝ => roughSum σ ρ l q) atTop (𝓝 0) := by
  intro ht
  obtain ⟨p, hp, hne⟩ := roughTerms_weight σ l ρ 0 h
  obtain ⟨i, rfl⟩ := List.mem_iff_get.1 hp
  refine hne (exp_family_zero (fun i => ((roughTerms σ ρ 0 l).get i).1) (fun i => -((roughTerms σ ρ 0 l).get i).2) ?_ i ?_)
  · refine ht.congr fun q => ?_
    have := roughTerms_sum σ l ρ 0 q
    rw [← Fin.sum_univ_fun_getElem] at this
    simp only [mul_zero, Complex.ofReal_zero, neg_zero, Complex.exp_zero, one_mul] at this
    rw [← this]
    rfl
  · intro j hj
    have pw := List.pairwise_iff_getElem.1 (roughTerms_depth σ l hd ρ 0).1
    have hj : ((roughTerms σ ρ 0 l).get j).2 = ((roughTerms σ ρ 0 l).get i).2 := neg_injective hj
    by_contra hne
    rcases lt_or_gt_of_ne (fun e => hne (Fin.ext e) : (j : ℕ) ≠ i) with hlt | hlt
    · have := pw j i (by simp) (by simp) hlt
      simp only [List.getElem_map] at this
      exact absurd hj this.ne
    · have := pw i j (by simp) (by simp) hlt
      simp only [List.getElem_map] at this
      exact absurd hj this.ne'

theorem slabs_positive {t r : List ℝ} {s : List ℂ} (h1 : t.length + 1 = r.length) (h2 : r.length = s.length) (ht : ∀ d ∈ t, 0 < d) :
    ∀ x ∈ (slabs t r s).dropLast, 0 < x.thickness := by
  cases r with
  | nil => simp at h1
  | cons r0 r =>
    cases s with
    | nil => simp at h2
    | cons s0 s =>
      intro x hx
      unfold slabs at hx
      rw [List.zip_cons_cons, List.zipWith_cons_cons, List.reverse_cons, List.dropLast_concat, List.mem_reverse] at hx
      obtain ⟨p, hp, d, hd, rfl⟩ := mem_zipWith hx
      exact ht d hd

/-- **C153**: for any number of interfaces with the smallest roughness the curve stays below a multiple of the tail that belongs to it, and comes back again
and again to another multiple of it. -/
theorem C153_tail (t r : List ℝ) (s : List ℂ) (h1 : t.length + 1 = r.length) (h2 : r.length = s.length) (hp : ∀ ρ ∈ s, 0 ≤ ρ.im) (ht : ∀ d ∈ t, 0 < d)
    (σ : ℝ) (hs : LeastRough σ (roughSteps 0 (slabs t r s))) :
    ∃ (R : ℝ → ℝ) (c C U : ℝ), 0 < c ∧ (∀ q ≥ U, multilayerReflectivity [q] t r s 0 = .ok [some (R q)] ∧ R q ≤ C * gaussTail σ q) ∧
      ∀ V, ∃ q ≥ V, c * gaussTail σ q ≤ R q := by
  obtain ⟨wave, hw⟩ := wave_exists
  obtain ⟨h0, hn⟩ := stack_tendsto hw (slabs t r s) (slabs_physical hp) (ρ := 0) (by simp)
  obtain ⟨z, s1, s2⟩ := stack_sum hw σ (slabs t r s) (slabs_physical hp) (ρ := 0) (by simp) hs.2
  obtain ⟨B, hB⟩ := roughSum_bounded σ (slabs t r s) 0
  have stays := roughSum_stays σ (slabs t r s) (slabs_positive h1 h2 ht) 0 hs.1
  have h0' := tendsto_zero_iff_norm_tendsto_zero.1 h0
  obtain ⟨b, hb, often⟩ : ∃ b > 0, ∃ᶠ q : ℝ in atTop, b ≤ ‖roughSum σ 0 (slabs t r s) q‖ := by
    by_contra hno
    push Not at hno
    refine stays (tendsto_zero_iff_norm_tendsto_zero.2 ?_)
    rw [Metric.tendsto_nhds]
    intro b hb
    filter_upwards [hno b hb] with q hq
    simpa using hq
  have ev : ∀ᶠ q : ℝ in atTop, 0 < q ∧ ‖stackMatrix (wave q) (wave q 0) (slabs t r s) 0 1 * way z q / (gaussAmp σ q : ℂ) - roughSum σ 0 (slabs t r s) q‖ ≤ b / 2 ∧
      1 / 2 ≤ ‖stackMatrix (wave q) (wave q 0) (slabs t r s) 1 1‖ ∧ ‖stackMatrix (wave q) (wave q 0) (slabs t r s) 1 1‖ ≤ 2 ∧
      ‖stackMatrix (wave q) (wave q 0) (slabs t r s) 0 1‖ ≤ 1 / 2 :=
    (eventually_gt_atTop (0 : ℝ)).and (((tendsto_zero_iff_norm_tendsto_zero.1 s1).eventually_le_const (half_pos hb)).and
      ((hn.eventually_const_le (show (1 / 2 : ℝ) < 1 by norm_num)).and ((hn.eventually_le_const (show (1 : ℝ) < 2 by norm_num)).and
        (h0'.eventually_le_const (show (0 : ℝ) < 1 / 2 by norm_num)))))
  have amp : ∀ q : ℝ, 0 < q → ‖stackMatrix (wave q) (wave q 0) (slabs t r s) 0 1 * way z q / (gaussAmp σ q : ℂ)‖ =
      ‖stackMatrix (wave q) (wave q 0) (slabs t r s) 0 1‖ / gaussAmp σ q := by
    intro q hq
    rw [norm_div, norm_mul, norm_way, mul_one, Complex.norm_real, Real.norm_eq_abs, abs_of_pos (gaussAmp_pos σ hq)]
  obtain ⟨U, hU⟩ := eventually_atTop.1 ev
  refine ⟨fun q => ‖stackMatrix (wave q) (wave q 0) (slabs t r s) 0 1 / stackMatrix (wave q) (wave q 0) (slabs t r s) 1 1‖ ^ 2, (b / 4) ^ 2,
    ((B + b) * 2) ^ 2, U, by positivity, fun q hq => ?_, fun V => ?_⟩
  · obtain ⟨q0, d, n1, n2, m1⟩ := hU q hq
    have g := gaussAmp_pos σ q0
    have npos : 0 < ‖stackMatrix (wave q) (wave q 0) (slabs t r s) 1 1‖ := by linarith
    refine ⟨?_, ?_⟩
    · rw [C35_transfer [q] t r s h1 h2 hp wave hw]
      show Except.ok [intensity _] = _
      unfold intensity
      rw [if_neg (norm_pos_iff.1 npos), min_eq_left (pow_le_one₀ (norm_nonneg _) (by rw [norm_div, div_le_one npos]; linarith))]
    · rw [← gaussAmp_sq, ← mul_pow]
      refine pow_le_pow_left₀ (norm_nonneg _) ?_ 2
      have up := norm_le_norm_add_norm_sub' (stackMatrix (wave q) (wave q 0) (slabs t r s) 0 1 * way z q / (gaussAmp σ q : ℂ)) (roughSum σ 0 (slabs t r s) q)
      rw [amp q q0] at up
      have up : ‖stackMatrix (wave q) (wave q 0) (slabs t r s) 0 1‖ / gaussAmp σ q ≤ B + b := by linarith [hB q]
      rw [div_le_iff₀ g] at up
      have Bb : 0 ≤ B + b := by linarith [(norm_nonneg _).trans (hB q)]
      rw [norm_div, div_le_iff₀ npos]
      nlinarith [mul_le_mul_of_nonneg_left n1 (show 0 ≤ (B + b) * 2 * gaussAmp σ q by positivity)]
  · obtain ⟨q, ⟨⟨hq, q0, d, n1, n2, m1⟩, qV⟩⟩ := ((often.and_eventually ev).and_eventually (eventually_ge_atTop V)).exists
    have g := gaussAmp_pos σ q0
    have npos : 0 < ‖stackMatrix (wave q) (wave q 0) (slabs t r s) 1 1‖ := by linarith
    refine ⟨q, qV, ?_⟩
    rw [← gaussAmp_sq, ← mul_pow]
    refine pow_le_pow_left₀ (by positivity) ?_ 2
    have lo := norm_le_norm_add_norm_sub (stackMatrix (wave q) (wave q 0) (slabs t r s) 0 1 * way z q / (gaussAmp σ q : ℂ)) (roughSum σ 0 (slabs t r s) q)
    rw [amp q q0] at lo
    have lo : b / 2 ≤ ‖stackMatrix (wave q) (wave q 0) (slabs t r s) 0 1‖ / gaussAmp σ q := by linarith
    rw [le_div_iff₀ g] at lo
    rw [norm_div, le_div_iff₀ npos]
    nlinarith [mul_le_mul_of_nonneg_left n2 (show 0 ≤ b / 4 * gaussAmp σ q by positivity)]

theorem gaussTail_eventually {σ τ : ℝ} (h : |σ| < |τ|) (c C : ℝ) (hc : 0 < c) : ∀ᶠ q in atTop, C * gaussTail τ q < c * gaussTail σ q := by
  have hd : 0 < τ ^ 2 - σ ^ 2 := by have := sq_lt_sq.2 h; linarith
  have h1 : Tendsto (fun q : ℝ => (τ ^ 2 - σ ^ 2) * q ^ 2) atTop atTop := (tendsto_pow_atTop two_ne_zero).const_mul_atTop hd
  have h2 := (Real.tendsto_exp_neg_atTop_nhds_zero.comp h1).const_mul C
  rw [mul_zero] at h2
  filter_upwards [h2.eventually_lt_const hc, eventually_gt_atTop 0] with q hq q0
  have e : gaussTail τ q = Real.exp (-((τ ^ 2 - σ ^ 2) * q ^ 2)) * gaussTail σ q := by
    unfold gaussTail
    rw [mul_div_assoc', ← Real.exp_add]
    congr 2
    ring
  have g : 0 < gaussTail σ q := by unfold gaussTail; positivity
  rw [e, ← mul_assoc]
  exact mul_lt_mul_of_pos_right hq g

/-- Two curves that agree at large momentum transfers and come back to the tails of two roughnesses. -/
theorem tails_agree {R R' : ℝ → ℝ} {σ σ' c c' C C' U : ℝ} (hc : 0 < c) (hc' : 0 < c') (e : ∀ q ≥ U, R q = R' q) (u : ∀ q ≥ U, R q ≤ C * gaussTail σ q)
    (u' : ∀ q ≥ U, R' q ≤ C' * gaussTail σ' q) (l : ∀ V, ∃ q ≥ V, c * gaussTail σ q ≤ R q) (l' : ∀ V, ∃ q ≥ V, c' * gaussTail σ' q ≤ R' q) : |σ| = |σ'| := by
  by_contra hne
  rcases lt_or_gt_of_ne hne with hlt | hlt
  · obtain ⟨V, hV⟩ := eventually_atTop.1 (gaussTail_eventually hlt c C' hc)
    obtain ⟨q, hq, low⟩ := l (max U V)
    have := hV q (le_trans (le_max_right _ _) hq)
    have hU := le_trans (le_max_left _ _) hq
    have := u' q hU
    rw [← e q hU] at this
    linarith
  · obtain ⟨V, hV⟩ := eventually_atTop.1 (gaussTail_eventually hlt c' C hc')
    obtain ⟨q, hq, low⟩ := l' (max U V)
    have := hV q (le_trans (le_max_right _ _) hq)
    have hU := le_trans (le_max_left _ _) hq
    have := u q hU
    rw [e q hU] at this
    linarith

/-- **C153**: stacks of layers of positive thickness with the same curve beyond some momentum transfer have the same smallest roughness. -/
theorem C153_determined (t r t' r' : List ℝ) (s s' : List ℂ) (h1 : t.length + 1 = r.length) (h2 : r.length = s.length) (hp : ∀ ρ ∈ s, 0 ≤ ρ.im)
    (ht : ∀ d ∈ t, 0 < d) (h1' : t'.length + 1 = r'.length) (h2' : r'.length = s'.length) (hp' : ∀ ρ ∈ s', 0 ≤ ρ.im) (ht' : ∀ d ∈ t', 0 < d) (σ σ' : ℝ)
    (hs : LeastRough σ (roughSteps 0 (slabs t r s))) (hs' : LeastRough σ' (roughSteps 0 (slabs t' r' s'))) (U : ℝ)
    (h : ∀ q ≥ U, multilayerReflectivity [q] t r s 0 = multilayerReflectivity [q] t' r' s' 0) : |σ| = |σ'| := by
  obtain ⟨R, c, C, V, hc, hu, hl⟩ := C153_tail t r s h1 h2 hp ht σ hs
  obtain ⟨R', c', C', V', hc', hu', hl'⟩ := C153_tail t' r' s' h1' h2' hp' ht' σ' hs'
  refine tails_agree (C := C) (C' := C') (U := max U (max V V')) hc hc' (fun q hq => ?_) (fun q hq => ?_) (fun q hq => ?_) hl hl' <;>
    simp only [ge_iff_le, max_le_iff] at hq
  · have := h q hq.1
    rw [(hu q hq.2.1).1, (hu' q hq.2.2).1] at this
    simpa using this
  · exact (hu q hq.2.1).2
  · exact (hu' q hq.2.2).2

/-- **C153**: every stack with a step of the density has a smallest roughness. -/
theorem C153_exists (steps : List (ℂ × ℝ)) (h : ∃ p ∈ steps, p.1 ≠ 0) : ∃ σ, 0 ≤ σ ∧ LeastRough σ steps := by
  induction steps with
  | nil => simp at h
  | cons a l ih =>
    by_cases hl : ∃ p ∈ l, p.1 ≠ 0
    · obtain ⟨σ, h0, ⟨p, hp, h1, h2⟩, hall⟩ := ih hl
      rw [abs_of_nonneg h0] at h2 hall
      by_cases ha : a.1 = 0
      · refine ⟨σ, h0, ⟨p, by simp [hp], h1, by rw [abs_of_nonneg h0]; exact h2⟩, fun x hx => ?_⟩
        rw [abs_of_nonneg h0]
        rcases List.mem_cons.1 hx with rfl | hx
        · exact .inl ha
        · exact hall x hx
      · rcases le_total σ |a.2| with hle | hle
        · refine ⟨σ, h0, ⟨p, by simp [hp], h1, by rw [abs_of_nonneg h0]; exact h2⟩, fun x hx => ?_⟩
          rw [abs_of_nonneg h0]
          rcases List.mem_cons.1 hx with rfl | hx
          · exact .inr hle
          · exact hall x hx
        · refine ⟨|a.2|, abs_nonneg _, ⟨a, by simp, ha, (abs_abs _).symm⟩, fun x hx => ?_⟩
          rw [abs_abs]
          rcases List.mem_cons.1 hx with rfl | hx
          · exact .inr le_rfl
          · exact (hall x hx).imp_right hle.trans
    · push Not at hl
      have ha : a.1 ≠ 0 := by
        obtain ⟨p, hp, hne⟩ := h
        rcases List.mem_cons.1 hp with rfl | hp
        · exact hne
        · exact absurd (hl p hp) hne
      refine ⟨|a.2|, abs_nonneg _, ⟨a, by simp, ha, (abs_abs _).symm⟩, fun x hx => ?_⟩
      rcases List.mem_cons.1 hx with rfl | hx
      · exact .inr (abs_abs _).le
      · exact .inl (hl x hx)

/-! ### Samples -/

/-- **C153** (samples): the simulated curve of layers of positive thickness and the tail of the smallest roughness. -/
theorem C153_sample {s : SampleV ℝ} (hs : SampleRegular s) (hv : BelowVacuum s) {y : Str → Num ℝ} (hy : RowWithin s y)
    (ht : ∀ l ∈ s.layers, 0 < (y (l.name ++ "_thickness".toList)).re) (σ : ℝ) (h : LeastRough (σ * 1e-10) (roughSteps 0 (labelStack s y))) :
    ∃ (R : ℝ → ℝ) (c C U : ℝ), 0 < c ∧ (∀ u ≥ U, curveFor s [u] (pairs y) = .ok [some (R u)] ∧ R u ≤ C * gaussTail σ u) ∧
      ∀ V, ∃ u ≥ V, c * gaussTail σ u ≤ R u := by
  obtain ⟨nm, hamb⟩ := hv.ambient
  obtain ⟨-, im⟩ := within_physical hs hamb hv.absorption hy
  obtain ⟨R, c, C, U, hc, hU, hl⟩ := C153_tail (s.layers.map fun (l : LayerV ℝ) => (y (l.name ++ "_thickness".toList)).re * 1e-10)
    ((s.substrate :: s.layers).map fun (l : LayerV ℝ) => (y (l.name ++ "_roughness".toList)).re * (1e-10 : ℝ))
    ((s.substrate :: s.layers).map fun (l : LayerV ℝ) => siDensity (y (l.name ++ "_sld".toList))) (by simp) (by simp) (by
      intro ρ hρ
      obtain ⟨l, hm, rfl⟩ := List.mem_map.1 hρ
      exact siDensity_im (im l hm)) (by
      intro d hd
      obtain ⟨l, hm, rfl⟩ := List.mem_map.1 hd
      exact mul_pos (ht l hm) (by norm_num)) (σ * 1e-10) (by rw [slabs_map]; exact h)
  have e : ∀ u, gaussTail (σ * 1e-10) (u * 1e10) = 1e-40 * gaussTail σ u := by
    intro u
    unfold gaussTail
    rw [show σ * 1e-10 * (u * 1e10) = σ * u by ring, show (u * 1e10) ^ 4 = 1e40 * u ^ 4 by ring]
    rw [div_mul_eq_div_div_swap]
    ring
  refine ⟨fun u => R (u * 1e10), c * 1e-40, C * 1e-40, U * 1e-10, by positivity, fun u hu => ?_, fun V => ?_⟩
  · obtain ⟨ev, m⟩ := hU (u * 1e10) (by
      have := mul_le_mul_of_nonneg_right hu (show (0 : ℝ) ≤ 1e10 by norm_num)
      linarith)
    refine ⟨?_, ?_⟩
    · rw [multilayer_eq _ _ _ _ (by simp) (by simp)] at ev
      rw [curveFor_points hamb [u] hy]
      exact ev
    · rw [mul_assoc, ← e]; exact m
  · obtain ⟨q, hq, low⟩ := hl (V * 1e10)
    refine ⟨q * 1e-10, by linarith, ?_⟩
    show _ ≤ R (q * 1e-10 * 1e10)
    rw [mul_assoc, ← e, show q * 1e-10 * 1e10 = q by ring]
    exact low

/-- **C153** (samples): labels of layers of positive thickness with the same simulated curve beyond some momentum transfer have the same smallest roughness. -/
theorem C153_roughness {s s' : SampleV ℝ} (hs : SampleRegular s) (hv : BelowVacuum s) (hs' : SampleRegular s') (hv' : BelowVacuum s') {y y' : Str → Num ℝ}
    (hy : RowWithin s y) (hy' : RowWithin s' y') (ht : ∀ l ∈ s.layers, 0 < (y (l.name ++ "_thickness".toList)).re)
    (ht' : ∀ l ∈ s'.layers, 0 < (y' (l.name ++ "_thickness".toList)).re) (σ σ' : ℝ) (h : LeastRough (σ * 1e-10) (roughSteps 0 (labelStack s y)))
    (h' : LeastRough (σ' * 1e-10) (roughSteps 0 (labelStack s' y'))) (U : ℝ) (e : ∀ u ≥ U, curveFor s [u] (pairs y) = curveFor s' [u] (pairs y')) :
    |σ| = |σ'| := by
  obtain ⟨R, c, C, V, hc, hu, hl⟩ := C153_sample hs hv hy ht σ h
  obtain ⟨R', c', C', V', hc', hu', hl'⟩ := C153_sample hs' hv' hy' ht' σ' h'
  refine tails_agree (C := C) (C' := C') (U := max U (max V V')) hc hc' (fun q hq => ?_) (fun q hq => ?_) (fun q hq => ?_) hl hl' <;>
    simp only [ge_iff_le, max_le_iff] at hq
  · have := e q hq.1
    rw [(hu q hq.2.1).1, (hu' q hq.2.2).1] at this
    simpa using this
  · exact (hu q hq.2.1).2
  · exact (hu' q hq.2.2).2

/-- Not vacuous: a film with the roughness 2 at both interfaces. -/
example : ∃ (R : ℝ → ℝ) (c C U : ℝ), 0 < c ∧ (∀ q ≥ U, multilayerReflectivity [q] [50] [2, 2] [2, 1] 0 = .ok [some (R q)] ∧
    R q ≤ C * (Real.exp (-(2 * q) ^ 2) / q ^ 4)) ∧ ∀ V, ∃ q ≥ V, c * (Real.exp (-(2 * q) ^ 2) / q ^ 4) ≤ R q :=
  C153_tail [50] [2, 2] [2, 1] rfl rfl (by simp) (by simp) 2 ⟨⟨(1 - 0, 2), by simp [slabs, roughSteps], by norm_num, rfl⟩, by
    intro p hp
    simp only [slabs, List.zip_cons_cons, List.zip_nil_right, List.zipWith_cons_cons, List.zipWith_nil_right, List.reverse_cons, List.reverse_nil,
      List.nil_append, List.cons_append, roughSteps, List.mem_cons, List.not_mem_nil, or_false] at hp
    rcases hp with rfl | rfl <;> right <;> norm_num⟩

/-- Not vacuous: labels of two films on a substrate. -/
example : ∃ (R : ℝ → ℝ) (c C U : ℝ), 0 < c ∧ (∀ u ≥ U, curveFor exampleFilms [u] (pairs roughLabels) = .ok [some (R u)] ∧ R u ≤ C * gaussTail 0 u) ∧
    ∀ V, ∃ u ≥ V, c * gaussTail 0 u ≤ R u := by
  obtain ⟨above, below, δ, e, hδ, ho⟩ := roughLabels_smoothest
  obtain ⟨-, -, -, e1, e2, -⟩ := roughLabels_values
  refine C153_sample exampleFilms_regular ⟨⟨_, rfl⟩, films_absorption⟩ roughLabels_within ?_ 0 ⟨⟨(δ, 0 * 1e-10), by rw [e]; simp, hδ, rfl⟩, fun p hp => ?_⟩
  · intro l hl
    simp only [exampleFilms, List.mem_cons, List.not_mem_nil, or_false] at hl
    rcases hl with rfl | rfl
    · show 0 < (roughLabels ("a".toList ++ "_thickness".toList)).re
      rw [e1]; norm_num [Num.re]
    · show 0 < (roughLabels ("b".toList ++ "_thickness".toList)).re
      rw [e2]; norm_num [Num.re]
  · rw [e] at hp
    rcases List.mem_append.1 hp with hp | hp
    · exact (ho p (by simp [hp])).imp_right le_of_lt
    · rcases List.mem_cons.1 hp with rfl | hp
      · exact .inr le_rfl
      · exact (ho p (by simp [hp])).imp_right le_of_lt

end Verif.Props
