import Verif.Props.Kinematic
import Verif.Props.Limits
import Verif.Spec.Rough

/-!
# Property C152: the tail of the curve belongs to the smoothest interface
-/

namespace Verif.Props
open Verif.Py Verif.Model Verif.Spec Complex Filter Topology
variable {wave : ℝ → ℂ → ℂ}

/-- The amplitude belonging to `gaussTail`. -/
noncomputable def gaussAmp (σ q : ℝ) : ℝ := Real.exp (-((σ * q) ^ 2 / 2)) / q ^ 2

theorem gaussAmp_pos (σ : ℝ) {q : ℝ} (hq : 0 < q) : 0 < gaussAmp σ q := by unfold gaussAmp; positivity

theorem gaussAmp_sq (σ q : ℝ) : gaussAmp σ q ^ 2 = gaussTail σ q := by
  unfold gaussAmp gaussTail
  rw [div_pow, ← Real.exp_nat_mul, ← pow_mul]
  congr 2
  push_cast
  ring

/-- The sum of two wave numbers differs from the momentum transfer by at most a constant over it. -/
theorem waves_close (hw : ∀ q ρ, 0 ≤ ρ.im → IsWave q ρ (wave q ρ)) {ρ ρ' : ℂ} (h : 0 ≤ ρ.im) (h' : 0 ≤ ρ'.im) :
    ∃ A : ℝ, 0 ≤ A ∧ ∀ q : ℝ, 0 < q → ‖wave q ρ + wave q ρ' - q‖ ≤ A / q := by
  refine ⟨‖4 * (Real.pi : ℂ) * (ρ + ((10 ^ (-30 : ℤ) : ℝ) : ℂ) * I)‖ * 2 + ‖4 * (Real.pi : ℂ) * (ρ' + ((10 ^ (-30 : ℤ) : ℝ) : ℂ) * I)‖ * 2, by positivity,
    fun q hq => ?_⟩
  have h1 := wave_close hq (hw q ρ h)
  have h2 := wave_close hq (hw q ρ' h')
  have e : wave q ρ + wave q ρ' - q = (wave q ρ - q / 2) + (wave q ρ' - q / 2) := by ring
  rw [e, add_div]
  exact (norm_add_le _ _).trans (add_le_add h1 h2)

theorem sum_norm {A q : ℝ} {z : ℂ} (hq : 0 < q) (h : ‖z - q‖ ≤ A / q) (hA : 2 * A ≤ q ^ 2) : q / 2 ≤ ‖z‖ ∧ ‖z‖ ≤ 2 * q := by
  have hA' : A / q ≤ q / 2 := by
    rw [div_le_iff₀ hq]
    nlinarith
  have hn : ‖(q : ℂ)‖ = q := by rw [Complex.norm_real, Real.norm_eq_abs, abs_of_pos hq]
  have h1 := norm_sub_norm_le (q : ℂ) (q - z)
  have h2 := norm_add_le (z - q) (q : ℂ)
  rw [sub_sub_cancel, hn, norm_sub_rev] at h1
  rw [sub_add_cancel, hn] at h2
  constructor <;> linarith

/-- The reflected amplitude of an interface lies between two multiples of the step times the Gaussian of its roughness. -/
theorem off_bounds (hw : ∀ q ρ, 0 ≤ ρ.im → IsWave q ρ (wave q ρ)) {ρ ρ' : ℂ} (h : 0 ≤ ρ.im) (h' : 0 ≤ ρ'.im) (σ : ℝ) :
    ∃ c C : ℝ, 0 < c ∧ 0 < C ∧ ∀ᶠ q : ℝ in atTop,
      c * ‖ρ' - ρ‖ * gaussAmp σ q ≤ ‖interfaceMatrix (wave q ρ) (wave q ρ') σ 0 1‖ ∧
      ‖interfaceMatrix (wave q ρ) (wave q ρ') σ 0 1‖ ≤ C * ‖ρ' - ρ‖ * gaussAmp σ q := by
  obtain ⟨A, hA, a⟩ := waves_close hw h h'
  obtain ⟨A', hA', a'⟩ := waves_close hw h h
  have pi0 := Real.pi_pos
  refine ⟨Real.pi * Real.exp (-(σ ^ 2 * (2 * A + A ^ 2) / 2)), 16 * Real.pi * Real.exp (σ ^ 2 * (2 * A + A ^ 2) / 2), by positivity, by positivity, ?_⟩
  filter_upwards [eventually_ge_atTop 1, eventually_ge_atTop (2 * A), eventually_ge_atTop (2 * A')] with q h1 h2 h3
  have q0 : 0 < q := by linarith
  obtain ⟨s1, s2⟩ := sum_norm q0 (a q q0) (by nlinarith)
  obtain ⟨t1, t2⟩ := sum_norm q0 (a' q q0) (by nlinarith)
  rw [← two_mul] at t1 t2
  set k := wave q ρ with hk
  set k' := wave q ρ' with hk'
  have prod : (k - k') * (k + k') = 4 * (Real.pi : ℂ) * (ρ' - ρ) := by
    have e1 := (hw q ρ h).1
    have e2 := (hw q ρ' h').1
    rw [← hk] at e1
    rw [← hk'] at e2
    linear_combination e1 - e2
  have prodn := congrArg norm prod
  have n4 : ‖(4 * (Real.pi : ℂ))‖ = 4 * Real.pi := by
    rw [norm_mul, Complex.norm_real, Real.norm_eq_abs, abs_of_pos pi0]; norm_num
  rw [norm_mul, norm_mul (4 * (Real.pi : ℂ)), n4] at prodn
  have sq : |((k + k') ^ 2).re - q ^ 2| ≤ 2 * A + A ^ 2 := by
    have e : ((k + k') ^ 2).re - q ^ 2 = ((k + k' - q) * (2 * q + (k + k' - q))).re := by
      have : (k + k') ^ 2 = (k + k' - q) * (2 * q + (k + k' - q)) + ((q ^ 2 : ℝ) : ℂ) := by push_cast; ring
      rw [this, Complex.add_re, Complex.ofReal_re]
      ring
    rw [e]
    refine (Complex.abs_re_le_norm _).trans ?_
    rw [norm_mul]
    have b1 := a q q0
    have b2 : ‖2 * (q : ℂ) + (k + k' - q)‖ ≤ 2 * q + A / q := by
      refine (norm_add_le _ _).trans (add_le_add ?_ b1)
      rw [norm_mul, Complex.norm_real, Real.norm_eq_abs, abs_of_pos q0]; norm_num
    refine (mul_le_mul b1 b2 (norm_nonneg _) (by positivity)).trans ?_
    have e2 : A / q * (2 * q + A / q) = 2 * A + (A / q) ^ 2 := by field_simp
    have e3 : A / q ≤ A := div_le_self hA h1
    have e4 : 0 ≤ A / q := by positivity
    rw [e2]
    nlinarith
  have expn : ‖cexp (-(k + k') ^ 2 * σ ^ 2 / 2)‖ = Real.exp (-((σ * q) ^ 2 / 2)) * Real.exp (-(σ ^ 2 * (((k + k') ^ 2).re - q ^ 2) / 2)) := by
    rw [Complex.norm_exp, ← Real.exp_add]
    congr 1
    have : -(k + k') ^ 2 * (σ : ℂ) ^ 2 / 2 = ((-(σ ^ 2 / 2) : ℝ) : ℂ) * (k + k') ^ 2 := by push_cast; ring
    rw [this, Complex.re_ofReal_mul]
    ring
  obtain ⟨l1, l2⟩ := abs_le.1 sq
  have g0 := Real.exp_pos (-((σ * q) ^ 2 / 2))
  have hs2 := sq_nonneg σ
  have b1 : Real.exp (-(σ ^ 2 * (2 * A + A ^ 2) / 2)) ≤ Real.exp (-(σ ^ 2 * (((k + k') ^ 2).re - q ^ 2) / 2)) := Real.exp_le_exp.2 (by nlinarith)
  have b2 : Real.exp (-(σ ^ 2 * (((k + k') ^ 2).re - q ^ 2) / 2)) ≤ Real.exp (σ ^ 2 * (2 * A + A ^ 2) / 2) := Real.exp_le_exp.2 (by nlinarith)
  have hm : ‖interfaceMatrix k k' σ 0 1‖ = 4 * Real.pi * ‖ρ' - ρ‖ / (‖k + k'‖ * ‖2 * k‖) *
      (Real.exp (-((σ * q) ^ 2 / 2)) * Real.exp (-(σ ^ 2 * (((k + k') ^ 2).re - q ^ 2) / 2))) := by
    have : interfaceMatrix k k' σ 0 1 = (k - k') / (2 * k) * cexp (-(k + k') ^ 2 * σ ^ 2 / 2) := by simp [interfaceMatrix]
    have p1 : ‖k + k'‖ ≠ 0 := by linarith
    rw [this, norm_mul, norm_div, expn, ← prodn, mul_comm ‖k + k'‖ ‖2 * k‖, mul_div_mul_right _ _ p1]
  have lowD : ‖k + k'‖ * ‖2 * k‖ ≤ 4 * q ^ 2 := by
    have := mul_le_mul s2 t2 (norm_nonneg _) (by linarith)
    nlinarith
  have uppD : q ^ 2 / 4 ≤ ‖k + k'‖ * ‖2 * k‖ := by
    have := mul_le_mul s1 t1 (by linarith) (norm_nonneg _)
    nlinarith
  have d0 : 0 < ‖k + k'‖ * ‖2 * k‖ := lt_of_lt_of_le (by positivity) uppD
  rw [hm]
  unfold gaussAmp
  constructor
  · calc Real.pi * Real.exp (-(σ ^ 2 * (2 * A + A ^ 2) / 2)) * ‖ρ' - ρ‖ * (Real.exp (-((σ * q) ^ 2 / 2)) / q ^ 2)
        = 4 * Real.pi * ‖ρ' - ρ‖ / (4 * q ^ 2) * (Real.exp (-((σ * q) ^ 2 / 2)) * Real.exp (-(σ ^ 2 * (2 * A + A ^ 2) / 2))) := by field_simp
      _ ≤ _ := by gcongr
  · calc 4 * Real.pi * ‖ρ' - ρ‖ / (‖k + k'‖ * ‖2 * k‖) *
      (Real.exp (-((σ * q) ^ 2 / 2)) * Real.exp (-(σ ^ 2 * (((k + k') ^ 2).re - q ^ 2) / 2)))
        ≤ 4 * Real.pi * ‖ρ' - ρ‖ / (q ^ 2 / 4) * (Real.exp (-((σ * q) ^ 2 / 2)) * Real.exp (σ ^ 2 * (2 * A + A ^ 2) / 2)) := by gcongr
      _ = _ := by field_simp; ring

/-- A rougher interface, or one without a step, is negligible. -/
theorem off_small (hw : ∀ q ρ, 0 ≤ ρ.im → IsWave q ρ (wave q ρ)) {ρ ρ' : ℂ} (h : 0 ≤ ρ.im) (h' : 0 ≤ ρ'.im) (σ τ : ℝ) (hs : ρ' - ρ = 0 ∨ |σ| < |τ|) :
    Tendsto (fun q : ℝ => ‖interfaceMatrix (wave q ρ) (wave q ρ') τ 0 1‖ / gaussAmp σ q) atTop (𝓝 0) := by
  obtain ⟨c, C, -, hC, hb⟩ := off_bounds hw h h' τ
  rcases hs with hs | hs
  · refine tendsto_const_nhds.congr' ?_
    filter_upwards [hb] with q hq
    have hz := hq.2
    rw [hs, norm_zero, mul_zero, zero_mul] at hz
    rw [le_antisymm hz (norm_nonneg _), zero_div]
  · have hd : 0 < (τ ^ 2 - σ ^ 2) / 2 := by have := sq_lt_sq.2 hs; linarith
    have hexp : Tendsto (fun q : ℝ => C * ‖ρ' - ρ‖ * Real.exp (-((τ ^ 2 - σ ^ 2) / 2 * q ^ 2))) atTop (𝓝 0) := by
      have h1 : Tendsto (fun q : ℝ => (τ ^ 2 - σ ^ 2) / 2 * q ^ 2) atTop atTop := (tendsto_pow_atTop two_ne_zero).const_mul_atTop hd
      have := (Real.tendsto_exp_neg_atTop_nhds_zero.comp h1).const_mul (C * ‖ρ' - ρ‖)
      rw [mul_zero] at this
      exact this
    refine squeeze_zero' ?_ ?_ hexp
    · filter_upwards [eventually_gt_atTop 0] with q hq
      have := gaussAmp_pos σ hq
      positivity
    · filter_upwards [hb, eventually_gt_atTop 0] with q hq h0
      rw [div_le_iff₀ (gaussAmp_pos σ h0)]
      refine hq.2.trans (le_of_eq ?_)
      have e : Real.exp (-((τ * q) ^ 2 / 2)) = Real.exp (-((τ ^ 2 - σ ^ 2) / 2 * q ^ 2)) * Real.exp (-((σ * q) ^ 2 / 2)) := by
        rw [← Real.exp_add]
        congr 1
        ring
      unfold gaussAmp
      rw [e]
      ring

theorem stack_entry (w : ℂ → ℂ) (k : ℂ) (a : Slab) (l : List Slab) :
    stackMatrix w k (a :: l) 0 1 =
        interfaceMatrix k (w a.sld) a.roughness 0 0 * cexp (-(I * w a.sld * a.thickness)) * stackMatrix w (w a.sld) l 0 1 +
        interfaceMatrix k (w a.sld) a.roughness 0 1 * cexp (I * w a.sld * a.thickness) * stackMatrix w (w a.sld) l 1 1 := by
  show (interfaceMatrix k (w a.sld) a.roughness * layerMatrix (w a.sld) a.thickness * stackMatrix w (w a.sld) l) 0 1 = _
  rw [Matrix.mul_apply, Fin.sum_univ_two, Matrix.mul_apply, Fin.sum_univ_two, Matrix.mul_apply, Fin.sum_univ_two]
  simp [layerMatrix]

theorem diag_norm (hw : ∀ q ρ, 0 ≤ ρ.im → IsWave q ρ (wave q ρ)) {ρ ρ' : ℂ} (h : 0 ≤ ρ.im) (h' : 0 ≤ ρ'.im) (σ : ℝ) :
    Tendsto (fun q : ℝ => ‖interfaceMatrix (wave q ρ) (wave q ρ') σ 0 0‖) atTop (𝓝 1) := by
  have := (diag_tendsto hw h h' σ).norm
  simpa [interfaceMatrix] using this

/-- A stack of interfaces that are rougher, or without a step, is negligible. -/
theorem stack_small (hw : ∀ q ρ, 0 ≤ ρ.im → IsWave q ρ (wave q ρ)) (σ : ℝ) (l : List Slab) (hl : Physical l) {ρ : ℂ} (h : 0 ≤ ρ.im)
    (hs : ∀ p ∈ roughSteps ρ l, p.1 = 0 ∨ |σ| < |p.2|) :
    Tendsto (fun q : ℝ => ‖stackMatrix (wave q) (wave q ρ) l 0 1‖ / gaussAmp σ q) atTop (𝓝 0) := by
  induction l generalizing ρ with
  | nil => simp [stackMatrix]
  | cons a l ih =>
    have ha : 0 ≤ a.sld.im := hl a (by simp)
    have hl' : Physical l := fun b hb => hl b (by simp [hb])
    obtain ⟨t1, t2⟩ := layer_tendsto hw ha a.thickness
    have i1 := ih hl' ha fun p hp => hs p (by simp [roughSteps, hp])
    have i2 := (stack_tendsto hw l hl' ha).2
    have o := off_small hw h ha σ a.roughness (hs (a.sld - ρ, a.roughness) (by simp [roughSteps]))
    have d := diag_norm hw h ha a.roughness
    have s := ((d.mul t2).mul i1).add ((o.mul t1).mul i2)
    rw [mul_zero, zero_mul, zero_mul, add_zero] at s
    refine squeeze_zero' ?_ ?_ s
    · filter_upwards [eventually_gt_atTop 0] with q hq
      have := gaussAmp_pos σ hq
      positivity
    · filter_upwards [eventually_gt_atTop 0] with q hq
      have g := gaussAmp_pos σ hq
      rw [stack_entry, div_le_iff₀ g]
      refine (norm_add_le _ _).trans (le_of_eq ?_)
      simp only [norm_mul]
      field_simp

/-- The amplitude of a stack lies between two multiples of the Gaussian of its smoothest interface. -/
theorem stack_smoothest (hw : ∀ q ρ, 0 ≤ ρ.im → IsWave q ρ (wave q ρ)) (σ : ℝ) (l : List Slab) (hl : Physical l) {ρ : ℂ} (h : 0 ≤ ρ.im)
    (hs : Smoothest σ (roughSteps ρ l)) :
    ∃ c C : ℝ, 0 < c ∧ ∀ᶠ q : ℝ in atTop, c ≤ ‖stackMatrix (wave q) (wave q ρ) l 0 1‖ / gaussAmp σ q ∧
      ‖stackMatrix (wave q) (wave q ρ) l 0 1‖ / gaussAmp σ q ≤ C := by
  induction l generalizing ρ with
  | nil =>
    obtain ⟨above, below, δ, e, -⟩ := hs
    simp [roughSteps] at e
  | cons a l ih =>
    have ha : 0 ≤ a.sld.im := hl a (by simp)
    have hl' : Physical l := fun b hb => hl b (by simp [hb])
    obtain ⟨t1, t2⟩ := layer_tendsto hw ha a.thickness
    have i2 := (stack_tendsto hw l hl' ha).2
    have d := diag_norm hw h ha a.roughness
    obtain ⟨above, below, δ, e, hδ, ho⟩ := hs
    cases above with
    | nil =>
      simp only [roughSteps, List.nil_append, List.cons.injEq, Prod.mk.injEq] at e
      obtain ⟨⟨e1, e2⟩, e3⟩ := e
      subst e1 e2
      have small := (d.mul t2).mul (stack_small hw a.roughness l hl' ha (by rw [e3]; simpa using ho))
      rw [mul_zero] at small
      have one := t1.mul i2
      rw [one_mul] at one
      obtain ⟨c, C, hc, hC, hb⟩ := off_bounds hw h ha a.roughness
      have hδ' : 0 < ‖a.sld - ρ‖ := norm_pos_iff.2 hδ
      refine ⟨c * ‖a.sld - ρ‖ / 4, C * ‖a.sld - ρ‖ * 2 + 1, by positivity, ?_⟩
      filter_upwards [hb, eventually_gt_atTop 0, small.eventually_le_const (show 0 < min (c * ‖a.sld - ρ‖ / 4) 1 by positivity),
        one.eventually_const_le (show (1 / 2 : ℝ) < 1 by norm_num), one.eventually_le_const (show (1 : ℝ) < 2 by norm_num)] with q b q0 s o1 o2
      have g := gaussAmp_pos a.roughness q0
      rw [stack_entry]
      set X := interfaceMatrix (wave q ρ) (wave q a.sld) a.roughness 0 0 * cexp (-(I * wave q a.sld * a.thickness)) * stackMatrix (wave q) (wave q a.sld) l 0 1
        with hX
      set m := ‖interfaceMatrix (wave q ρ) (wave q a.sld) a.roughness 0 1‖ with hm
      set w := ‖cexp (I * wave q a.sld * a.thickness)‖ * ‖stackMatrix (wave q) (wave q a.sld) l 1 1‖ with hwd
      have nX : ‖X‖ ≤ min (c * ‖a.sld - ρ‖ / 4) 1 * gaussAmp a.roughness q := by
        rw [← div_le_iff₀ g, hX, norm_mul, norm_mul, mul_div_assoc]
        exact s
      have nY : ‖interfaceMatrix (wave q ρ) (wave q a.sld) a.roughness 0 1 * cexp (I * wave q a.sld * a.thickness) *
          stackMatrix (wave q) (wave q a.sld) l 1 1‖ = m * w := by rw [norm_mul, norm_mul, hm, hwd, mul_assoc]
      have lo := norm_sub_le_norm_add (interfaceMatrix (wave q ρ) (wave q a.sld) a.roughness 0 1 * cexp (I * wave q a.sld * a.thickness) *
          stackMatrix (wave q) (wave q a.sld) l 1 1) X
      have hi := norm_add_le X (interfaceMatrix (wave q ρ) (wave q a.sld) a.roughness 0 1 * cexp (I * wave q a.sld * a.thickness) *
          stackMatrix (wave q) (wave q a.sld) l 1 1)
      rw [nY] at lo hi
      rw [add_comm _ X] at lo
      have m0 : 0 ≤ m := norm_nonneg _
      have z1 := mul_le_mul_of_nonneg_right (min_le_left (c * ‖a.sld - ρ‖ / 4) 1) g.le
      have z2 := mul_le_mul_of_nonneg_right (min_le_right (c * ‖a.sld - ρ‖ / 4) 1) g.le
      rw [le_div_iff₀ g, div_le_iff₀ g]
      constructor
      · nlinarith [mul_le_mul b.1 o1 (by norm_num) m0]
      · nlinarith [mul_le_mul b.2 o2 (by linarith) (by positivity)]
    | cons p above =>
      simp only [roughSteps, List.cons_append, List.cons.injEq] at e
      obtain ⟨rfl, e3⟩ := e
      have small := ((off_small hw h ha σ a.roughness (ho (a.sld - ρ, a.roughness) (by simp))).mul t1).mul i2
      rw [zero_mul, zero_mul] at small
      have one := d.mul t2
      rw [one_mul] at one
      obtain ⟨c, C, hc, hb⟩ := ih hl' ha ⟨above, below, δ, e3, hδ, fun p hp => ho p (by simp at hp ⊢; tauto)⟩
      refine ⟨c / 4, C * 2 + 1, by positivity, ?_⟩
      filter_upwards [hb, eventually_gt_atTop 0, small.eventually_le_const (show 0 < min (c / 4) 1 by positivity),
        one.eventually_const_le (show (1 / 2 : ℝ) < 1 by norm_num), one.eventually_le_const (show (1 : ℝ) < 2 by norm_num)] with q b q0 s o1 o2
      have g := gaussAmp_pos σ q0
      rw [stack_entry]
      set X := interfaceMatrix (wave q ρ) (wave q a.sld) a.roughness 0 1 * cexp (I * wave q a.sld * a.thickness) * stackMatrix (wave q) (wave q a.sld) l 1 1
        with hX
      set m := ‖stackMatrix (wave q) (wave q a.sld) l 0 1‖ with hm
      set w := ‖interfaceMatrix (wave q ρ) (wave q a.sld) a.roughness 0 0‖ * ‖cexp (-(I * wave q a.sld * a.thickness))‖ with hwd
      have nX : ‖X‖ ≤ min (c / 4) 1 * gaussAmp σ q := by
        rw [← div_le_iff₀ g, hX, norm_mul, norm_mul]
        refine le_trans (le_of_eq ?_) s
        field_simp
      have nY : ‖interfaceMatrix (wave q ρ) (wave q a.sld) a.roughness 0 0 * cexp (-(I * wave q a.sld * a.thickness)) *
          stackMatrix (wave q) (wave q a.sld) l 0 1‖ = w * m := by rw [norm_mul, norm_mul, hm, hwd]
      have lo := norm_sub_le_norm_add (interfaceMatrix (wave q ρ) (wave q a.sld) a.roughness 0 0 * cexp (-(I * wave q a.sld * a.thickness)) *
          stackMatrix (wave q) (wave q a.sld) l 0 1) X
      have hi := norm_add_le (interfaceMatrix (wave q ρ) (wave q a.sld) a.roughness 0 0 * cexp (-(I * wave q a.sld * a.thickness)) *
          stackMatrix (wave q) (wave q a.sld) l 0 1) X
      rw [nY] at lo hi
      have m0 : 0 ≤ m := norm_nonneg _
      have z1 := mul_le_mul_of_nonneg_right (min_le_left (c / 4) 1) g.le
      have z2 := mul_le_mul_of_nonneg_right (min_le_right (c / 4) 1) g.le
      rw [le_div_iff₀ g, div_le_iff₀ g] at b ⊢
      constructor
      · nlinarith [mul_le_mul b.1 o1 (by norm_num) m0]
      · nlinarith [mul_le_mul b.2 o2 (by linarith) (by linarith [b.2])]

/-- **C152**: beyond some momentum transfer the curve of a stack lies between two multiples of the tail that belongs to the roughness of its smoothest interface. -/
theorem C152_tail (t r : List ℝ) (s : List ℂ) (h1 : t.length + 1 = r.length) (h2 : r.length = s.length) (hp : ∀ ρ ∈ s, 0 ≤ ρ.im) (σ : ℝ)
    (hs : Smoothest σ (roughSteps 0 (slabs t r s))) :
    ∃ c C U : ℝ, 0 < c ∧ ∀ q ≥ U, ∃ v, multilayerReflectivity [q] t r s 0 = .ok [some v] ∧ c * gaussTail σ q ≤ v ∧ v ≤ C * gaussTail σ q := by
  obtain ⟨wave, hw⟩ := wave_exists
  obtain ⟨h0, hn⟩ := stack_tendsto hw (slabs t r s) (slabs_physical hp) (ρ := 0) (by simp)
  obtain ⟨c, C, hc, hb⟩ := stack_smoothest hw σ (slabs t r s) (slabs_physical hp) (ρ := 0) (by simp) hs
  have h0' := tendsto_zero_iff_norm_tendsto_zero.1 h0
  obtain ⟨U, hU⟩ := eventually_atTop.1 (hb.and ((eventually_gt_atTop (0 : ℝ)).and ((hn.eventually_const_le (show (1 / 2 : ℝ) < 1 by norm_num)).and
    ((hn.eventually_le_const (show (1 : ℝ) < 2 by norm_num)).and (h0'.eventually_le_const (show (0 : ℝ) < 1 / 2 by norm_num))))))
  refine ⟨(c / 2) ^ 2, (C * 2) ^ 2, U, by positivity, fun q hq => ?_⟩
  obtain ⟨b, q0, n1, n2, z⟩ := hU q hq
  set m := stackMatrix (wave q) (wave q 0) (slabs t r s) 0 1
  set n := stackMatrix (wave q) (wave q 0) (slabs t r s) 1 1
  have g := gaussAmp_pos σ q0
  rw [le_div_iff₀ g, div_le_iff₀ g] at b
  have npos : 0 < ‖n‖ := by linarith
  have small : ‖m / n‖ ≤ 1 := by rw [norm_div, div_le_one npos]; linarith
  refine ⟨‖m / n‖ ^ 2, ?_, ?_, ?_⟩
  · rw [C35_transfer [q] t r s h1 h2 hp wave hw]
    show Except.ok [intensity _] = _
    unfold intensity
    rw [if_neg (norm_pos_iff.1 npos), min_eq_left (pow_le_one₀ (norm_nonneg _) small)]
  · rw [← gaussAmp_sq, ← mul_pow]
    refine pow_le_pow_left₀ (by positivity) ?_ 2
    rw [norm_div, le_div_iff₀ npos]
    nlinarith [mul_le_mul_of_nonneg_left n2 (show 0 ≤ c / 2 * gaussAmp σ q by positivity)]
  · rw [← gaussAmp_sq, ← mul_pow]
    refine pow_le_pow_left₀ (norm_nonneg _) ?_ 2
    rw [norm_div, div_le_iff₀ npos]
    nlinarith [mul_le_mul_of_nonneg_left n1 (show 0 ≤ C * 2 * gaussAmp σ q by nlinarith [norm_nonneg m])]

/-- Tails of different roughnesses do not stay within a constant factor. -/
theorem gaussTail_separate {σ τ : ℝ} (h : |σ| < |τ|) (c C U : ℝ) (hc : 0 < c) : ∃ q ≥ U, 0 < q ∧ C * gaussTail τ q < c * gaussTail σ q := by
  have hd : 0 < τ ^ 2 - σ ^ 2 := by have := sq_lt_sq.2 h; linarith
  have h1 : Tendsto (fun q : ℝ => (τ ^ 2 - σ ^ 2) * q ^ 2) atTop atTop := (tendsto_pow_atTop two_ne_zero).const_mul_atTop hd
  have h2 := (Real.tendsto_exp_neg_atTop_nhds_zero.comp h1).const_mul C
  rw [mul_zero] at h2
  obtain ⟨q, ⟨hq, q0⟩, qU⟩ := ((h2.eventually_lt_const hc).and (eventually_gt_atTop 0)).and (eventually_ge_atTop U) |>.exists
  refine ⟨q, qU, q0, ?_⟩
  have e : gaussTail τ q = Real.exp (-((τ ^ 2 - σ ^ 2) * q ^ 2)) * gaussTail σ q := by
    unfold gaussTail
    rw [mul_div_assoc', ← Real.exp_add]
    congr 2
    ring
  have g : 0 < gaussTail σ q := by unfold gaussTail; positivity
  rw [e, ← mul_assoc]
  exact mul_lt_mul_of_pos_right hq g

/-- **C152**: stacks with the same curve beyond some momentum transfer have the same smallest roughness. -/
theorem C152_determined (t r t' r' : List ℝ) (s s' : List ℂ) (h1 : t.length + 1 = r.length) (h2 : r.length = s.length) (hp : ∀ ρ ∈ s, 0 ≤ ρ.im)
    (h1' : t'.length + 1 = r'.length) (h2' : r'.length = s'.length) (hp' : ∀ ρ ∈ s', 0 ≤ ρ.im) (σ σ' : ℝ)
    (hs : Smoothest σ (roughSteps 0 (slabs t r s))) (hs' : Smoothest σ' (roughSteps 0 (slabs t' r' s'))) (U : ℝ)
    (h : ∀ q ≥ U, multilayerReflectivity [q] t r s 0 = multilayerReflectivity [q] t' r' s' 0) : |σ| = |σ'| := by
  obtain ⟨c, C, V, hc, hv⟩ := C152_tail t r s h1 h2 hp σ hs
  obtain ⟨c', C', V', hc', hv'⟩ := C152_tail t' r' s' h1' h2' hp' σ' hs'
  have both : ∀ q ≥ max U (max V V'), c * gaussTail σ q ≤ C' * gaussTail σ' q ∧ c' * gaussTail σ' q ≤ C * gaussTail σ q := by
    intro q hq
    simp only [ge_iff_le, max_le_iff] at hq
    obtain ⟨v, e, l, u⟩ := hv q hq.2.1
    obtain ⟨v', e', l', u'⟩ := hv' q hq.2.2
    have := h q hq.1
    rw [e, e'] at this
    have : v = v' := by simpa using this
    subst this
    exact ⟨l.trans u', l'.trans u⟩
  by_contra hne
  rcases lt_or_gt_of_ne hne with hlt | hlt
  · obtain ⟨q, hq, -, hlt⟩ := gaussTail_separate hlt c C' (max U (max V V')) hc
    exact absurd (both q hq).1 (not_le.2 hlt)
  · obtain ⟨q, hq, -, hlt⟩ := gaussTail_separate hlt c' C (max U (max V V')) hc'
    exact absurd (both q hq).2 (not_le.2 hlt)

/-! ### Samples -/

/-- The stack of a sample with the labels `y`, listed from the top, in SI units. -/
noncomputable def labelStack (s : SampleV ℝ) (y : Str → Num ℝ) : List Slab :=
  (s.layers.map fun l => (⟨(y (l.name ++ "_roughness".toList)).re * 1e-10, siDensity (y (l.name ++ "_sld".toList)),
    (y (l.name ++ "_thickness".toList)).re * 1e-10⟩ : Slab)).reverse ++
    [⟨(y (s.substrate.name ++ "_roughness".toList)).re * 1e-10, siDensity (y (s.substrate.name ++ "_sld".toList)), 0⟩]

/-- A sample below vacuum, without gain. -/
structure BelowVacuum (s : SampleV ℝ) : Prop where
  ambient : ∃ nm, s.ambient.sld = some (.const (.real 0) nm)
  absorption : ∀ l ∈ s.substrate :: s.layers, ∀ p, l.sld = some p → 0 ≤ p.min.im ∧ 0 ≤ p.max.im

/-- **C152** (samples): beyond some momentum transfer the simulated curve lies between two multiples of the tail of the smallest roughness. -/
theorem C152_sample {s : SampleV ℝ} (hs : SampleRegular s) (hv : BelowVacuum s) {y : Str → Num ℝ} (hy : RowWithin s y) (σ : ℝ)
    (h : Smoothest (σ * 1e-10) (roughSteps 0 (labelStack s y))) :
    ∃ c C U : ℝ, 0 < c ∧ ∀ u ≥ U, ∃ v, curveFor s [u] (pairs y) = .ok [some v] ∧ c * gaussTail σ u ≤ v ∧ v ≤ C * gaussTail σ u := by
  obtain ⟨nm, hamb⟩ := hv.ambient
  obtain ⟨-, im⟩ := within_physical hs hamb hv.absorption hy
  obtain ⟨c, C, U, hc, hU⟩ := C152_tail (s.layers.map fun (l : LayerV ℝ) => (y (l.name ++ "_thickness".toList)).re * 1e-10)
    ((s.substrate :: s.layers).map fun (l : LayerV ℝ) => (y (l.name ++ "_roughness".toList)).re * (1e-10 : ℝ))
    ((s.substrate :: s.layers).map fun (l : LayerV ℝ) => siDensity (y (l.name ++ "_sld".toList))) (by simp) (by simp) (by
      intro ρ hρ
      obtain ⟨l, hm, rfl⟩ := List.mem_map.1 hρ
      exact siDensity_im (im l hm)) (σ * 1e-10) (by rw [slabs_map]; exact h)
  have e : ∀ u, gaussTail (σ * 1e-10) (u * 1e10) = 1e-40 * gaussTail σ u := by
    intro u
    unfold gaussTail
    rw [show σ * 1e-10 * (u * 1e10) = σ * u by ring, show (u * 1e10) ^ 4 = 1e40 * u ^ 4 by ring]
    rw [div_mul_eq_div_div_swap]
    ring
  refine ⟨c * 1e-40, C * 1e-40, U * 1e-10, by positivity, fun u hu => ?_⟩
  obtain ⟨v, ev, l, m⟩ := hU (u * 1e10) (by
    have := mul_le_mul_of_nonneg_right hu (show (0 : ℝ) ≤ 1e10 by norm_num)
    linarith)
  refine ⟨v, ?_, ?_, ?_⟩
  · rw [multilayer_eq _ _ _ _ (by simp) (by simp)] at ev
    rw [curveFor_points hamb [u] hy]
    exact ev
  · rw [mul_assoc, ← e]; exact l
  · rw [mul_assoc, ← e]; exact m

/-- **C152** (samples): labels with the same simulated curve beyond some momentum transfer have the same smallest roughness. -/
theorem C152_roughness {s s' : SampleV ℝ} (hs : SampleRegular s) (hv : BelowVacuum s) (hs' : SampleRegular s') (hv' : BelowVacuum s') {y y' : Str → Num ℝ}
    (hy : RowWithin s y) (hy' : RowWithin s' y') (σ σ' : ℝ) (h : Smoothest (σ * 1e-10) (roughSteps 0 (labelStack s y)))
    (h' : Smoothest (σ' * 1e-10) (roughSteps 0 (labelStack s' y'))) (U : ℝ) (e : ∀ u ≥ U, curveFor s [u] (pairs y) = curveFor s' [u] (pairs y')) :
    |σ| = |σ'| := by
  obtain ⟨c, C, V, hc, hv⟩ := C152_sample hs hv hy σ h
  obtain ⟨c', C', V', hc', hv'⟩ := C152_sample hs' hv' hy' σ' h'
  have both : ∀ q ≥ max U (max V V'), c * gaussTail σ q ≤ C' * gaussTail σ' q ∧ c' * gaussTail σ' q ≤ C * gaussTail σ q := by
    intro q hq
    simp only [ge_iff_le, max_le_iff] at hq
    obtain ⟨v, ev, l, u⟩ := hv q hq.2.1
    obtain ⟨v', ev', l', u'⟩ := hv' q hq.2.2
    have := e q hq.1
    rw [ev, ev'] at this
    have : v = v' := by simpa using this
    subst this
    exact ⟨l.trans u', l'.trans u⟩
  by_contra hne
  rcases lt_or_gt_of_ne hne with hlt | hlt
  · obtain ⟨q, hq, -, hlt⟩ := gaussTail_separate hlt c C' (max U (max V V')) hc
    exact absurd (both q hq).1 (not_le.2 hlt)
  · obtain ⟨q, hq, -, hlt⟩ := gaussTail_separate hlt c' C (max U (max V V')) hc'
    exact absurd (both q hq).2 (not_le.2 hlt)

/-- Not vacuous: a film with an upper roughness of 3 on a substrate with a roughness of 2. -/
example : ∃ c C U : ℝ, 0 < c ∧ ∀ q ≥ U, ∃ v, multilayerReflectivity [q] [50] [2, 3] [2, 1] 0 = .ok [some v] ∧
    c * (Real.exp (-(2 * q) ^ 2) / q ^ 4) ≤ v ∧ v ≤ C * (Real.exp (-(2 * q) ^ 2) / q ^ 4) :=
  C152_tail [50] [2, 3] [2, 1] rfl rfl (by simp) 2 ⟨[(1 - 0, 3)], [], 2 - 1, rfl, by norm_num, by
    intro p hp
    simp only [List.append_nil, List.mem_singleton] at hp
    subst hp
    right
    norm_num⟩

/-- Labels of the two films of `exampleFilms`: roughnesses 1 and 2, on a sharp substrate. -/
noncomputable def roughLabels (k : Str) : Num ℝ :=
  if k = "a_roughness".toList then .real 1 else if k = "b_roughness".toList then .real 2 else filmLabels 15 k

theorem roughLabels_values :
    roughLabels ("a".toList ++ "_roughness".toList) = .real 1 ∧ roughLabels ("b".toList ++ "_roughness".toList) = .real 2 ∧
    roughLabels ("Si".toList ++ "_roughness".toList) = .real 0 ∧
    roughLabels ("a".toList ++ "_thickness".toList) = .real 15 ∧ roughLabels ("b".toList ++ "_thickness".toList) = .real (30 - 15) ∧
    roughLabels ("a".toList ++ "_sld".toList) = .real (3 / 2) ∧ roughLabels ("b".toList ++ "_sld".toList) = .real (3 / 2) ∧
    roughLabels ("Si".toList ++ "_sld".toList) = .real 20 ∧ roughLabels ("air".toList ++ "_sld".toList) = .real 0 := by
  obtain ⟨e1, e2, e3, e4, e5, e6, e7, -, -⟩ := filmLabels_values 15
  unfold roughLabels
  refine ⟨?_, ?_, ?_, ?_, ?_, ?_, ?_, ?_, ?_⟩
  · rw [if_pos (by decide)]
  · rw [if_neg (by decide), if_pos (by decide)]
  · rw [if_neg (by decide), if_neg (by decide)]; exact e7
  · rw [if_neg (by decide), if_neg (by decide)]; exact e1
  · rw [if_neg (by decide), if_neg (by decide)]; exact e2
  · rw [if_neg (by decide), if_neg (by decide)]; exact e3
  · rw [if_neg (by decide), if_neg (by decide)]; exact e4
  · rw [if_neg (by decide), if_neg (by decide)]; exact e5
  · rw [if_neg (by decide), if_neg (by decide)]; exact e6

theorem roughLabels_within : RowWithin exampleFilms roughLabels := by
  obtain ⟨e8, e9, e7, e1, e2, e3, e4, e5, e6⟩ := roughLabels_values
  refine ⟨?_, ?_, ?_, ?_⟩ <;> intro l hl p hp <;>
    simp only [exampleFilms, List.cons_append, List.nil_append, List.mem_cons, List.not_mem_nil, or_false] at hl
  · rcases hl with rfl | rfl | rfl | rfl <;> cases hp
    · exact e5
    · exact ⟨_, e3, by norm_num, by norm_num⟩
    · exact ⟨_, e4, by norm_num, by norm_num⟩
    · exact e6
  · rcases hl with rfl | rfl | rfl <;> cases hp
    · exact e7
    · exact ⟨_, e8, by norm_num, by norm_num⟩
    · exact ⟨_, e9, by norm_num, by norm_num⟩
  · rcases hl with rfl | rfl <;> cases hp
    · exact ⟨_, e1, by norm_num, by norm_num⟩
    · exact ⟨_, e2, by norm_num, by norm_num⟩
  · rcases hl with rfl | rfl <;> cases hp
    · exact ⟨0, _, _, rfl, e1, e8, le_max_of_le_right (by norm_num)⟩
    · exact ⟨0, _, _, rfl, e2, e9, le_max_of_le_right (by norm_num)⟩

/-- Not vacuous: two films with roughnesses below a sharp buried interface with the substrate. The films have the same density, so that the interface between
them does not matter. -/
theorem roughLabels_smoothest : Smoothest (0 * 1e-10) (roughSteps 0 (labelStack exampleFilms roughLabels)) := by
  obtain ⟨e8, e9, e7, e1, e2, e3, e4, e5, e6⟩ := roughLabels_values
  have e : labelStack exampleFilms roughLabels = [⟨2 * 1e-10, siDensity (.real (3 / 2)), 15 * 1e-10⟩, ⟨1 * 1e-10, siDensity (.real (3 / 2)), 15 * 1e-10⟩,
      ⟨0 * 1e-10, siDensity (.real 20), 0⟩] := by
    unfold labelStack
    simp only [exampleFilms, exampleFilm, List.map_cons, List.map_nil, List.reverse_cons, List.reverse_nil, List.nil_append, List.cons_append, e1, e2, e3, e4,
      e5, e7, e8, e9, Num.re]
    norm_num
  rw [e]
  refine ⟨[_, _], [], _, rfl, ?_, ?_⟩
  · unfold siDensity
    intro h
    have := congrArg Complex.re h
    norm_num [Num.re, Num.im, Complex.mul_re] at this
  · intro p hp
    simp only [List.cons_append, List.nil_append, List.mem_cons, List.not_mem_nil, or_false] at hp
    rcases hp with rfl | rfl
    · right; norm_num
    · left; exact sub_self _

example : ∃ c C U : ℝ, 0 < c ∧ ∀ u ≥ U, ∃ v, curveFor exampleFilms [u] (pairs roughLabels) = .ok [some v] ∧ c * gaussTail 0 u ≤ v ∧ v ≤ C * gaussTail 0 u :=
  C152_sample exampleFilms_regular ⟨⟨_, rfl⟩, films_absorption⟩ roughLabels_within 0 roughLabels_smoothest

end Verif.Props
