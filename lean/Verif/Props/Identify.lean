import Verif.Props.Lookup
import Mathlib.Analysis.SpecialFunctions.Pow.Deriv
import Mathlib.Analysis.SpecialFunctions.Complex.LogDeriv
import Mathlib.Analysis.Calculus.Deriv.MeanValue

/-!
# C135: density and roughness of a substrate
-/

namespace Verif.Props
open Verif.Py Verif.Model Verif.Spec Verif.Lemmas Complex Filter Topology MeasureTheory ProbabilityTheory

/-- Four pi times the small absorption that the code adds. -/
noncomputable def tinyAbs : ℝ := 4 * Real.pi * 10 ^ (-30 : ℤ)

theorem tinyAbs_pos : 0 < tinyAbs := by unfold tinyAbs; positivity

/-- The wave number with the square `t - i tinyAbs`. -/
noncomputable def waveAt (t : ℝ) : ℂ := ((t : ℂ) - tinyAbs * I) ^ (1 / 2 : ℂ)

theorem waveAt_slit (t : ℝ) : (t : ℂ) - tinyAbs * I ∈ slitPlane := by
  rw [Complex.mem_slitPlane_iff]
  right
  simp [tinyAbs_pos.ne']

theorem waveAt_sq (t : ℝ) : waveAt t ^ 2 = (t : ℂ) - tinyAbs * I := by
  unfold waveAt
  rw [← Complex.cpow_nat_mul]
  norm_num

theorem waveAt_ne (t : ℝ) : waveAt t ≠ 0 := by
  intro h
  have := waveAt_sq t
  rw [h] at this
  exact Complex.slitPlane_ne_zero (waveAt_slit t) (by rw [← this]; ring)

theorem waveAt_re (t : ℝ) : 0 < (waveAt t).re := by
  have h := Complex.abs_arg_lt_pi_div_two_iff (z := waveAt t)
  unfold waveAt
  have h0 := Complex.slitPlane_ne_zero (waveAt_slit t)
  rw [Complex.cpow_def_of_ne_zero h0, Complex.exp_re]
  refine mul_pos (Real.exp_pos _) (Real.cos_pos_of_mem_Ioo ?_)
  have e : (Complex.log ((t : ℂ) - tinyAbs * I) * (1 / 2)).im = ((t : ℂ) - tinyAbs * I).arg / 2 := by
    rw [show (1 / 2 : ℂ) = ((1 / 2 : ℝ) : ℂ) by norm_num, Complex.im_mul_ofReal, Complex.log_im]
    ring
  rw [e]
  have h1 := Complex.neg_pi_lt_arg ((t : ℂ) - tinyAbs * I)
  have h2 : ((t : ℂ) - tinyAbs * I).arg < Real.pi := lt_of_le_of_ne (Complex.arg_le_pi _) (Complex.slitPlane_arg_ne_pi (waveAt_slit t))
  constructor <;> linarith

theorem waveAt_parts (t : ℝ) : (waveAt t).re ^ 2 - (waveAt t).im ^ 2 = t ∧ 2 * (waveAt t).re * (waveAt t).im = -tinyAbs := by
  have h := waveAt_sq t
  have h1 := congrArg Complex.re h
  have h2 := congrArg Complex.im h
  rw [sq, Complex.mul_re] at h1
  rw [sq, Complex.mul_im] at h2
  simp at h1 h2
  constructor <;> nlinarith

theorem waveAt_im (t : ℝ) : (waveAt t).im < 0 := by
  have h := (waveAt_parts t).2
  have := waveAt_re t
  have := tinyAbs_pos
  by_contra hc
  nlinarith [not_lt.1 hc, mul_nonneg (waveAt_re t).le (not_lt.1 hc)]

theorem waveAt_deriv (t : ℝ) : HasDerivAt waveAt (1 / (2 * waveAt t)) t := by
  have h1 : HasDerivAt (fun z : ℂ => (z - tinyAbs * I) ^ (1 / 2 : ℂ)) ((1 / 2 : ℂ) * ((t : ℂ) - tinyAbs * I) ^ ((1 / 2 : ℂ) - 1) * 1) (t : ℂ) :=
    ((hasDerivAt_id (t : ℂ)).sub_const _).cpow_const (waveAt_slit t)
  have h2 := h1.comp_ofReal
  refine h2.congr_deriv ?_
  rw [Complex.cpow_sub _ _ (Complex.slitPlane_ne_zero (waveAt_slit t)), Complex.cpow_one,
    show ((t : ℂ) - tinyAbs * I) ^ (1 / 2 : ℂ) = waveAt t from rfl, ← waveAt_sq]
  have := waveAt_ne t
  field_simp

theorem codeWave_waveAt (q ρ : ℝ) : codeWave q (ρ : ℂ) = waveAt (q ^ 2 / 4 - 4 * Real.pi * ρ) := by
  refine isWave_unique (codeWave_isWave q (ρ := (ρ : ℂ)) (by simp)).1 ⟨?_, waveAt_re _⟩
  rw [waveAt_sq]
  unfold tinyAbs
  push_cast
  ring

/-! ### Signs -/

theorem re_inv_pos {z : ℂ} (h : 0 < z.re) : 0 < (1 / z).re := by
  rw [one_div, Complex.inv_re]
  exact div_pos h (Complex.normSq_pos.2 fun e => by rw [e] at h; simp at h)

/-- The product of two wave numbers above the critical edge. -/
theorem wave_mul_sector {t₀ t : ℝ} (h : tinyAbs < t) (h0 : t ≤ t₀) : |(waveAt t₀ * waveAt t).im| < (waveAt t₀ * waveAt t).re := by
  have e := tinyAbs_pos
  have k0 := waveAt_re t₀
  have k1 := waveAt_re t
  obtain ⟨a1, -⟩ := waveAt_parts t₀
  obtain ⟨b1, -⟩ := waveAt_parts t
  have i0 := waveAt_im t₀
  have i1 := waveAt_im t
  have pos : 0 < (waveAt t₀ * waveAt t).re := by
    rw [Complex.mul_re]
    have l0 : -(waveAt t₀).im < (waveAt t₀).re := by nlinarith
    have l1 : -(waveAt t).im < (waveAt t).re := by nlinarith
    nlinarith
  have hsq : ((waveAt t₀ * waveAt t) ^ 2).re = t₀ * t - tinyAbs * tinyAbs := by
    rw [mul_pow, waveAt_sq, waveAt_sq, Complex.mul_re]
    simp
  rw [sq, Complex.mul_re] at hsq
  refine abs_lt_of_sq_lt_sq ?_ pos.le
  nlinarith

theorem wave_cube_pos {t₀ t : ℝ} (h : tinyAbs < t) (h0 : t ≤ t₀) : 0 < (waveAt t₀ * waveAt t ^ 3).re := by
  have hs := wave_mul_sector h h0
  rw [show waveAt t₀ * waveAt t ^ 3 = waveAt t₀ * waveAt t * waveAt t ^ 2 by ring, waveAt_sq, Complex.mul_re]
  simp only [Complex.sub_re, Complex.ofReal_re, Complex.mul_re, Complex.I_re, mul_zero, Complex.ofReal_im, Complex.I_im, mul_one, sub_self, sub_zero,
    Complex.sub_im, Complex.mul_im, add_zero, zero_sub]
  have := tinyAbs_pos
  have h1 := neg_abs_le (waveAt t₀ * waveAt t).im
  simp only [Complex.mul_re, Complex.mul_im] at *
  nlinarith [abs_nonneg ((waveAt t₀).re * (waveAt t).im + (waveAt t₀).im * (waveAt t).re)]

theorem wave_quot_pos (t t' : ℝ) : 0 < (waveAt t / waveAt t').re := by
  rw [Complex.div_re]
  have := waveAt_re t
  have := waveAt_re t'
  have := waveAt_im t
  have := waveAt_im t'
  have hn : 0 < normSq (waveAt t') := Complex.normSq_pos.2 (waveAt_ne t')
  have : 0 < (waveAt t).im * (waveAt t').im := mul_pos_of_neg_of_neg ‹_› ‹_›
  positivity

theorem HasDerivAt.re' {f : ℝ → ℂ} {f' : ℂ} {t : ℝ} (h : HasDerivAt f f' t) : HasDerivAt (fun t => (f t).re) f'.re t := by
  exact Complex.reCLM.hasFDerivAt.comp_hasDerivAt t h

theorem waveAt_deriv_sub (c a : ℝ) : HasDerivAt (fun a : ℝ => waveAt (c - a)) (-(1 / (2 * waveAt (c - a)))) a := by
  have h := (waveAt_deriv (c - a)).scomp a ((hasDerivAt_id a).const_sub c)
  simpa [Function.comp_def] using h

theorem waveAt_deriv_shift (a c : ℝ) : HasDerivAt (fun c : ℝ => waveAt (c - a)) (1 / (2 * waveAt (c - a))) c := by
  have h := (waveAt_deriv (c - a)).scomp c ((hasDerivAt_id c).sub_const a)
  simpa [Function.comp_def] using h

/-! ### Half the logarithm of the reflectivity -/

/-- Half the logarithm of the reflectivity of a substrate; `a` is `4π` times its density, `s` the square of its roughness, `c` the square of `q / 2`. -/
noncomputable def halfLog (a s c : ℝ) : ℝ :=
  Real.log a - 2 * (Complex.log (waveAt c + waveAt (c - a))).re - 2 * s * (waveAt c * waveAt (c - a)).re

theorem wave_sum_slit (c a : ℝ) : waveAt c + waveAt (c - a) ∈ slitPlane := by
  rw [Complex.mem_slitPlane_iff]
  left
  rw [Complex.add_re]
  linarith [waveAt_re c, waveAt_re (c - a)]

theorem halfLog_deriv_c (a s c : ℝ) : HasDerivAt (halfLog a s)
    (-(1 / (waveAt c * waveAt (c - a))).re - s * (waveAt c / waveAt (c - a) + waveAt (c - a) / waveAt c).re) c := by
  have n0 := waveAt_ne c
  have n1 := waveAt_ne (c - a)
  have n2 := Complex.slitPlane_ne_zero (wave_sum_slit c a)
  have d1 := ((waveAt_deriv c).add (waveAt_deriv_shift a c)).clog_real (wave_sum_slit c a)
  have d2 := (waveAt_deriv c).mul (waveAt_deriv_shift a c)
  have d := ((hasDerivAt_const c (Real.log a)).sub ((HasDerivAt.re' d1).const_mul 2)).sub ((HasDerivAt.re' d2).const_mul (2 * s))
  refine d.congr_deriv ?_
  have e1 : (1 / (2 * waveAt c) + 1 / (2 * waveAt (c - a))) / (waveAt c + waveAt (c - a)) = ((1 / 2 : ℝ) : ℂ) * (1 / (waveAt c * waveAt (c - a))) := by
    push_cast
    field_simp
    ring
  have e2 : 1 / (2 * waveAt c) * waveAt (c - a) + waveAt c * (1 / (2 * waveAt (c - a))) =
      ((1 / 2 : ℝ) : ℂ) * (waveAt c / waveAt (c - a) + waveAt (c - a) / waveAt c) := by
    push_cast
    field_simp
    ring
  simp only [Pi.add_apply]
  rw [e1, e2, Complex.re_ofReal_mul, Complex.re_ofReal_mul]
  ring

theorem halfLog_deriv_a {a : ℝ} (ha : 0 < a) (s c : ℝ) : HasDerivAt (fun a => halfLog a s c)
    (a⁻¹ + (1 / (waveAt (c - a) * (waveAt c + waveAt (c - a)))).re + s * (waveAt c / waveAt (c - a)).re) a := by
  have n1 := waveAt_ne (c - a)
  have n2 := Complex.slitPlane_ne_zero (wave_sum_slit c a)
  have d1 := ((waveAt_deriv_sub c a).const_add (waveAt c)).clog_real (wave_sum_slit c a)
  have d2 := (waveAt_deriv_sub c a).const_mul (waveAt c)
  have d := ((Real.hasDerivAt_log ha.ne').sub ((HasDerivAt.re' d1).const_mul 2)).sub ((HasDerivAt.re' d2).const_mul (2 * s))
  refine d.congr_deriv ?_
  have e1 : -(1 / (2 * waveAt (c - a))) / (waveAt c + waveAt (c - a)) = ((-(1 / 2) : ℝ) : ℂ) * (1 / (waveAt (c - a) * (waveAt c + waveAt (c - a)))) := by
    push_cast
    field_simp
  have e2 : waveAt c * -(1 / (2 * waveAt (c - a))) = ((-(1 / 2) : ℝ) : ℂ) * (waveAt c / waveAt (c - a)) := by
    push_cast
    field_simp
  rw [e1, e2, Complex.re_ofReal_mul, Complex.re_ofReal_mul]
  ring

/-- The reflectivity above the critical edge grows with the density. -/
theorem halfLog_strict {a a' s c : ℝ} (ha : 0 < a) (h : a < a') (hc : tinyAbs < c - a') (hs : 0 ≤ s) : halfLog a s c < halfLog a' s c := by
  have mono : StrictMonoOn (fun a => halfLog a s c) (Set.Icc a a') := by
    refine strictMonoOn_of_deriv_pos (convex_Icc a a') (fun x hx => (halfLog_deriv_a (ha.trans_le hx.1) s c).continuousAt.continuousWithinAt) ?_
    intro x hx
    rw [interior_Icc] at hx
    rw [(halfLog_deriv_a (ha.trans hx.1) s c).deriv]
    have hx' : tinyAbs < c - x := by linarith [hx.2]
    have h1 := wave_mul_sector hx' (show c - x ≤ c by linarith [hx.1])
    have h2 : 0 < (waveAt (c - x) * (waveAt c + waveAt (c - x))).re := by
      rw [mul_add, ← sq, waveAt_sq, mul_comm]
      simp only [Complex.add_re, Complex.sub_re, Complex.ofReal_re, Complex.mul_re (tinyAbs : ℂ), Complex.I_re, mul_zero, Complex.ofReal_im, Complex.I_im]
      have := tinyAbs_pos
      linarith [abs_nonneg (waveAt c * waveAt (c - x)).im]
    have h3 := re_inv_pos h2
    have h4 := wave_quot_pos c (c - x)
    have h5 : 0 < x⁻¹ := inv_pos.2 (ha.trans hx.1)
    have := mul_nonneg hs h4.le
    linarith
  exact mono (Set.left_mem_Icc.2 h.le) (Set.right_mem_Icc.2 h.le) h

theorem slope_strict {a a' c : ℝ} (ha : 0 < a) (h : a < a') (hc : tinyAbs < c - a') :
    (1 / (waveAt c * waveAt (c - a))).re < (1 / (waveAt c * waveAt (c - a'))).re ∧
    (waveAt c / waveAt (c - a) + waveAt (c - a) / waveAt c).re < (waveAt c / waveAt (c - a') + waveAt (c - a') / waveAt c).re := by
  have n0 := waveAt_ne c
  have d1 : ∀ x : ℝ, HasDerivAt (fun a => (1 / (waveAt c * waveAt (c - a))).re) (1 / 2 * (1 / (waveAt c * waveAt (c - x) ^ 3)).re) x := by
    intro x
    have n1 := waveAt_ne (c - x)
    have d := HasDerivAt.re' (((waveAt_deriv_sub c x).const_mul (waveAt c)).inv (mul_ne_zero n0 n1))
    simp only [one_div] at d ⊢
    refine d.congr_deriv ?_
    rw [← Complex.re_ofReal_mul]
    congr 1
    push_cast
    field_simp
  have d2 : ∀ x : ℝ, HasDerivAt (fun a => (waveAt c / waveAt (c - a) + waveAt (c - a) / waveAt c).re)
      (x / 2 * (1 / (waveAt c * waveAt (c - x) ^ 3)).re) x := by
    intro x
    have n1 := waveAt_ne (c - x)
    have d := HasDerivAt.re' ((((waveAt_deriv_sub c x).inv n1).const_mul (waveAt c)).add ((waveAt_deriv_sub c x).div_const (waveAt c)))
    rw [show (fun a => (waveAt c / waveAt (c - a) + waveAt (c - a) / waveAt c).re) =
      fun a => (waveAt c * (waveAt (c - a))⁻¹ + waveAt (c - a) / waveAt c).re from funext fun a => by rw [div_eq_mul_inv (waveAt c)]]
    refine HasDerivAt.congr_deriv d ?_
    rw [← Complex.re_ofReal_mul]
    congr 1
    have e : (x : ℂ) = waveAt c ^ 2 - waveAt (c - x) ^ 2 := by rw [waveAt_sq, waveAt_sq]; push_cast; ring
    push_cast
    rw [e]
    field_simp
    ring
  have pos : ∀ x ∈ Set.Ioo a a', 0 < (1 / (waveAt c * waveAt (c - x) ^ 3)).re := fun x hx =>
    re_inv_pos (wave_cube_pos (by linarith [hx.2]) (by linarith [hx.1]))
  constructor
  · refine (strictMonoOn_of_deriv_pos (convex_Icc a a') (fun x _ => (d1 x).continuousAt.continuousWithinAt) ?_)
      (Set.left_mem_Icc.2 h.le) (Set.right_mem_Icc.2 h.le) h
    intro x hx
    rw [interior_Icc] at hx
    rw [(d1 x).deriv]
    linarith [pos x hx]
  · refine (strictMonoOn_of_deriv_pos (convex_Icc a a') (fun x _ => (d2 x).continuousAt.continuousWithinAt) ?_)
      (Set.left_mem_Icc.2 h.le) (Set.right_mem_Icc.2 h.le) h
    intro x hx
    rw [interior_Icc] at hx
    rw [(d2 x).deriv]
    exact mul_pos (by linarith [hx.1]) (pos x hx)

/-- Two values above the critical edge determine density and roughness. -/
theorem halfLog_two {a a' s s' c₁ c₂ : ℝ} (ha : 0 < a) (ha' : 0 < a') (hs : 0 ≤ s) (hs' : 0 ≤ s') (hc : c₁ < c₂) (h : tinyAbs < c₁ - a) (h' : tinyAbs < c₁ - a')
    (e₁ : halfLog a s c₁ = halfLog a' s' c₁) (e₂ : halfLog a s c₂ = halfLog a' s' c₂) : a = a' ∧ s = s' := by
  wlog hle : a ≤ a' generalizing a a' s s'
  · obtain ⟨h1, h2⟩ := this ha' ha hs' hs h' h e₁.symm e₂.symm (not_le.1 hle).le
    exact ⟨h1.symm, h2.symm⟩
  have hg : 0 < (waveAt c₁ * waveAt (c₁ - a')).re := (abs_nonneg _).trans_lt (wave_mul_sector h' (by linarith))
  rcases hle.eq_or_lt with rfl | hlt
  · refine ⟨rfl, ?_⟩
    unfold halfLog at e₁
    have : (s - s') * (waveAt c₁ * waveAt (c₁ - a)).re = 0 := by linarith
    rcases mul_eq_zero.1 this with h | h
    · linarith
    · exact absurd h hg.ne'
  · exfalso
    have hss : s < s' := by
      have h1 := halfLog_strict ha hlt h' hs
      rw [e₁] at h1
      unfold halfLog at h1
      by_contra hc
      nlinarith [not_lt.1 hc, mul_nonneg (sub_nonneg.2 (not_lt.1 hc)) hg.le]
    have anti : StrictAntiOn (fun c => halfLog a' s' c - halfLog a s c) (Set.Icc c₁ c₂) := by
      refine strictAntiOn_of_deriv_neg (convex_Icc c₁ c₂)
        (fun x _ => ((halfLog_deriv_c a' s' x).sub (halfLog_deriv_c a s x)).continuousAt.continuousWithinAt) ?_
      intro x hx
      rw [interior_Icc] at hx
      have hd := (halfLog_deriv_c a' s' x).sub (halfLog_deriv_c a s x)
      rw [show (fun c => halfLog a' s' c - halfLog a s c) = halfLog a' s' - halfLog a s from rfl, hd.deriv]
      obtain ⟨l1, l2⟩ := slope_strict ha hlt (c := x) (by linarith [hx.1])
      have p : 0 < (waveAt x / waveAt (x - a) + waveAt (x - a) / waveAt x).re := by
        rw [Complex.add_re]
        linarith [wave_quot_pos x (x - a), wave_quot_pos (x - a) x]
      nlinarith [mul_le_mul hss.le l2.le p.le hs']
    have := anti (Set.left_mem_Icc.2 hc.le) (Set.right_mem_Icc.2 hc.le) hc
    simp only at this
    linarith

/-! ### Samples without layers -/

theorem codePoint_halfLog {q ρ : ℝ} (σ : ℝ) (hρ : 0 < ρ) (h : tinyAbs < q ^ 2 / 4 - 4 * Real.pi * ρ) :
    codePoint [] [σ] [(ρ : ℂ)] q = some (Real.exp (2 * halfLog (4 * Real.pi * ρ) (σ ^ 2) (q ^ 2 / 4))) := by
  have w0 : IsWave q ((0 : ℝ) : ℂ) (codeWave q 0) := by rw [Complex.ofReal_zero]; exact (codeWave_isWave q (by simp)).1
  have hlt := (C39_below_one q ρ _ _ (by simp) (codeWave_isWave q (ρ := 0) (by simp)).1 (codeWave_isWave q (ρ := (ρ : ℂ)) (by simp)).1).1
  rw [codePoint_substrate]
  have e0 : codeWave q 0 = waveAt (q ^ 2 / 4) := by
    have := codeWave_waveAt q 0
    rw [Complex.ofReal_zero, mul_zero, sub_zero] at this
    exact this
  rw [e0, codeWave_waveAt] at hlt
  rw [e0, codeWave_waveAt]
  have ha : 0 < 4 * Real.pi * ρ := by positivity
  set a := 4 * Real.pi * ρ with hadef
  set c := q ^ 2 / 4 with hcdef
  have hg : 0 < (waveAt c * waveAt (c - a)).re := (abs_nonneg _).trans_lt (wave_mul_sector h (by linarith))
  have n2 := Complex.slitPlane_ne_zero (wave_sum_slit c a)
  have e1 : (waveAt c - waveAt (c - a)) / (waveAt c + waveAt (c - a)) = (a : ℂ) / (waveAt c + waveAt (c - a)) ^ 2 := by
    have e : (a : ℂ) = (waveAt c - waveAt (c - a)) * (waveAt c + waveAt (c - a)) := by
      rw [show (waveAt c - waveAt (c - a)) * (waveAt c + waveAt (c - a)) = waveAt c ^ 2 - waveAt (c - a) ^ 2 by ring, waveAt_sq, waveAt_sq]
      push_cast
      ring
    rw [e]
    field_simp
  have e2 : ‖cexp (-2 * waveAt c * waveAt (c - a) * (σ : ℂ) ^ 2)‖ = Real.exp (-2 * σ ^ 2 * (waveAt c * waveAt (c - a)).re) := by
    rw [Complex.norm_exp]
    congr 1
    rw [show -2 * waveAt c * waveAt (c - a) * (σ : ℂ) ^ 2 = ((-2 * σ ^ 2 : ℝ) : ℂ) * (waveAt c * waveAt (c - a)) by push_cast; ring, Complex.re_ofReal_mul]
  have hle : ‖(waveAt c - waveAt (c - a)) / (waveAt c + waveAt (c - a)) * cexp (-2 * waveAt c * waveAt (c - a) * (σ : ℂ) ^ 2)‖ ^ 2 ≤ 1 := by
    rw [norm_mul, e2]
    have : Real.exp (-2 * σ ^ 2 * (waveAt c * waveAt (c - a)).re) ≤ 1 := Real.exp_le_one_iff.2 (by nlinarith [mul_nonneg (sq_nonneg σ) hg.le])
    exact pow_le_one₀ (by positivity) (mul_le_one₀ hlt.le (Real.exp_pos _).le this)
  rw [min_eq_left hle, norm_mul, e2, e1, norm_div, norm_pow, Complex.norm_real, Real.norm_eq_abs, abs_of_pos ha]
  congr 1
  unfold halfLog
  rw [Complex.log_re]
  have hn : 0 < ‖waveAt c + waveAt (c - a)‖ := norm_pos_iff.2 n2
  have e3 : a / ‖waveAt c + waveAt (c - a)‖ ^ 2 = Real.exp (Real.log a - 2 * Real.log ‖waveAt c + waveAt (c - a)‖) := by
    rw [Real.exp_sub, Real.exp_log ha, two_mul, Real.exp_add, Real.exp_log hn, sq]
  rw [e3, ← Real.exp_add, ← Real.exp_nat_mul]
  congr 1
  push_cast
  ring

/-- The curve of a sample without layers and with a real density. -/
theorem substrate_curve {s : SampleV ℝ} {nm : Option Str} (hamb : s.ambient.sld = some (.const (.real 0) nm)) (hlay : s.layers = []) (q : List ℝ)
    {y : Str → Num ℝ} (hy : RowWithin s y) {ρ : ℝ} (hρ : y (s.substrate.name ++ "_sld".toList) = .real ρ) :
    curveFor s q (pairs y) = .ok (q.map fun (u : ℝ) =>
      codePoint [] [(y (s.substrate.name ++ "_roughness".toList)).re * 1e-10] [((ρ * 1e14 : ℝ) : ℂ)] (u * 1e10)) := by
  have ea : y (s.ambient.name ++ "_sld".toList) = .real 0 := hy.sld s.ambient (by simp) _ hamb
  unfold curveFor pairs
  rw [hlay, ea]
  have z0 : (⟨(Num.real (0 : ℝ)).re, (Num.real (0 : ℝ)).im⟩ : ℂ) * 1e14 = 0 := by
    rw [show (⟨(Num.real (0 : ℝ)).re, (Num.real (0 : ℝ)).im⟩ : ℂ) = 0 from rfl, zero_mul]
  have z1 : (⟨(Num.real ρ).re, (Num.real ρ).im⟩ : ℂ) * 1e14 = ((ρ * 1e14 : ℝ) : ℂ) := by
    rw [show (⟨(Num.real ρ).re, (Num.real ρ).im⟩ : ℂ) = (ρ : ℂ) from rfl]
    push_cast
    rfl
  simp only [List.map_cons, List.map_nil]
  rw [hρ, z0, z1, multilayer_eq _ _ _ _ rfl rfl, List.map_map]
  rfl

/-- Every admissible set of labels of a sample without layers and with real densities has a curve. -/
theorem substrate_num {s : SampleV ℝ} {nm : Option Str} (hamb : s.ambient.sld = some (.const (.real 0) nm)) (hlay : s.layers = [])
    (hreal : ∀ y, RowWithin s y → ∃ ρ, y (s.substrate.name ++ "_sld".toList) = .real ρ) (q : List ℝ) (y : Str → Num ℝ) (hy : RowWithin s y) :
    ∃ v : Fin q.length → ℝ, curveFor s q (pairs y) = .ok (List.ofFn fun j => some (v j)) := by
  obtain ⟨ρ, hρ⟩ := hreal y hy
  refine ⟨fun j => (codePoint [] [(y (s.substrate.name ++ "_roughness".toList)).re * 1e-10] [((ρ * 1e14 : ℝ) : ℂ)] (q.get j * 1e10)).getD 0, ?_⟩
  rw [substrate_curve hamb hlay q hy hρ]
  congr 1
  apply List.ext_getElem (by simp)
  intro j h1 h2
  simp only [List.getElem_map, List.getElem_ofFn]
  rw [codePoint_substrate, codePoint_substrate]
  rfl

theorem roughness_nonneg {s : SampleV ℝ} (hs : SampleRegular s) (hl : ∀ l ∈ s.structure_, LayerDrawable l) {z : Str → Num ℝ} (hz : RowWithin s z) :
    0 ≤ (z (s.substrate.name ++ "_roughness".toList)).re := by
  obtain ⟨p, hp, -, hp0⟩ := hs.substrate.roughness
  obtain ⟨a, b, h1, h2, h3⟩ := (hl s.substrate (by simp [SampleV.structure_])).roughness p hp
  have ha : 0 ≤ a := by
    rw [h1] at hp0
    simpa [Num.ltZero] using hp0
  have hr := (inRange_box (hz.roughness s.substrate (by simp) p hp)).1
  rw [h1, h2] at hr
  exact ha.trans ((le_min le_rfl h3).trans hr.1)

/-- A momentum transfer (in 1/Å) is above the critical edge of a density (in 10⁻⁶/Å²), including the small absorption that the code adds. -/
def AboveEdge (ρ u : ℝ) : Prop := 16 * Real.pi * (ρ * 1e-6 + 1e-50) < u ^ 2

theorem AboveEdge.si {ρ u : ℝ} (h : AboveEdge ρ u) : tinyAbs < (u * 1e10) ^ 2 / 4 - 4 * Real.pi * (ρ * 1e14) := by
  unfold AboveEdge at h
  unfold tinyAbs
  have : (10 : ℝ) ^ (-30 : ℤ) = 1e-30 := by norm_num
  rw [this]
  nlinarith

theorem AboveEdge.mono {ρ ρ' u : ℝ} (h : AboveEdge ρ u) (hle : ρ' ≤ ρ) : AboveEdge ρ' u := by
  unfold AboveEdge at *
  nlinarith [Real.pi_pos]

/-- What two admissible sets of labels with the same curve have in common at one momentum transfer above the critical edge. -/
theorem same_point {s : SampleV ℝ} {nm : Option Str} (hamb : s.ambient.sld = some (.const (.real 0) nm)) (hlay : s.layers = []) {q : List ℝ}
    {y y' : Str → Num ℝ} (hy : RowWithin s y) (hy' : RowWithin s y') {ρ ρ' : ℝ} (hρ : y (s.substrate.name ++ "_sld".toList) = .real ρ)
    (hρ' : y' (s.substrate.name ++ "_sld".toList) = .real ρ') (h0 : 0 < ρ) (h0' : 0 < ρ') (e : curveFor s q (pairs y) = curveFor s q (pairs y'))
    {u : ℝ} (hu : u ∈ q) (hc : AboveEdge ρ u) (hc' : AboveEdge ρ' u) :
    halfLog (4 * Real.pi * (ρ * 1e14)) (((y (s.substrate.name ++ "_roughness".toList)).re * 1e-10) ^ 2) ((u * 1e10) ^ 2 / 4) =
      halfLog (4 * Real.pi * (ρ' * 1e14)) (((y' (s.substrate.name ++ "_roughness".toList)).re * 1e-10) ^ 2) ((u * 1e10) ^ 2 / 4) := by
  rw [substrate_curve hamb hlay q hy hρ, substrate_curve hamb hlay q hy' hρ'] at e
  have e := List.map_inj_left.1 (Except.ok.inj e) u hu
  rw [codePoint_halfLog _ (by positivity) hc.si, codePoint_halfLog _ (by positivity) hc'.si] at e
  have := Real.exp_injective (Option.some.inj e)
  linarith

/-- **C135** (two values determine both): for a sample without layers whose density and roughness are unknown, two different momentum transfers above the
critical edge of the largest density determine both. -/
theorem C135_both (s : SampleV ℝ) (hs : SampleRegular s) (hl : ∀ l ∈ s.structure_, LayerDrawable l) (nm nm' : Option Str)
    (hamb : s.ambient.sld = some (.const (.real 0) nm)) (hlay : s.layers = []) (ρ₁ ρ₂ : ℝ)
    (hsub : s.substrate.sld = some (.range (.real ρ₁) (.real ρ₂) nm')) (hρ : 0 < ρ₁) (q : List ℝ) (u u' : ℝ) (hu : u ∈ q) (hu' : u' ∈ q)
    (hne : u ^ 2 ≠ u' ^ 2) (hc : AboveEdge ρ₂ u) (hc' : AboveEdge ρ₂ u') :
    (∀ y, RowWithin s y → ∃ v : Fin q.length → ℝ, curveFor s q (pairs y) = .ok (List.ofFn fun j => some (v j))) ∧
    Determined s q (s.substrate.name ++ "_sld".toList) ∧ Determined s q (s.substrate.name ++ "_roughness".toList) := by
  have dens : ∀ y, RowWithin s y → ∃ ρ, y (s.substrate.name ++ "_sld".toList) = .real ρ ∧ ρ₁ ≤ ρ ∧ ρ ≤ ρ₂ := fun y hy => hy.sld s.substrate (by simp) _ hsub
  have key : ∀ y y', RowWithin s y → RowWithin s y' → curveFor s q (pairs y) = curveFor s q (pairs y') →
      (y (s.substrate.name ++ "_sld".toList)).re = (y' (s.substrate.name ++ "_sld".toList)).re ∧
      (y (s.substrate.name ++ "_roughness".toList)).re = (y' (s.substrate.name ++ "_roughness".toList)).re := by
    intro y y' hy hy' e
    obtain ⟨ρ, e1, h1, h2⟩ := dens y hy
    obtain ⟨ρ', e1', h1', h2'⟩ := dens y' hy'
    have main : ∀ u u', u ∈ q → u' ∈ q → u ^ 2 < u' ^ 2 → AboveEdge ρ₂ u → AboveEdge ρ₂ u' →
        ρ = ρ' ∧ (y (s.substrate.name ++ "_roughness".toList)).re = (y' (s.substrate.name ++ "_roughness".toList)).re := by
      intro u u' hu hu' hlt hc hc'
      have p1 := same_point hamb hlay hy hy' e1 e1' (hρ.trans_le h1) (hρ.trans_le h1') e hu (hc.mono h2) (hc.mono h2')
      have p2 := same_point hamb hlay hy hy' e1 e1' (hρ.trans_le h1) (hρ.trans_le h1') e hu' (hc'.mono h2) (hc'.mono h2')
      have r0 := roughness_nonneg hs hl hy
      have r0' := roughness_nonneg hs hl hy'
      have hp : 0 < ρ := hρ.trans_le h1
      have hp' : 0 < ρ' := hρ.trans_le h1'
      obtain ⟨g1, g2⟩ := halfLog_two (by positivity) (by positivity) (by positivity) (by positivity) (by nlinarith) (hc.mono h2).si (hc.mono h2').si p1 p2
      constructor
      · have := mul_left_cancel₀ (by positivity) g1
        linarith
      · have := (pow_left_inj₀ (by positivity) (by positivity) two_ne_zero).1 g2
        linarith
    have : ρ = ρ' ∧ (y (s.substrate.name ++ "_roughness".toList)).re = (y' (s.substrate.name ++ "_roughness".toList)).re := by
      rcases lt_or_gt_of_ne hne with h | h
      · exact main u u' hu hu' h hc hc'
      · exact main u' u hu' hu h hc' hc
    rw [e1, e1', this.1]
    exact ⟨rfl, this.2⟩
  exact ⟨substrate_num hamb hlay (fun y hy => (dens y hy).imp fun _ h => h.1) q, fun y y' hy hy' e => (key y y' hy hy' e).1,
    fun y y' hy hy' e => (key y y' hy hy' e).2⟩

/-- **C135** (known roughness): if the roughness is known, one momentum transfer above the critical edge of the largest density determines the density. -/
theorem C135_density (s : SampleV ℝ) (nm nm' nm'' : Option Str)
    (hamb : s.ambient.sld = some (.const (.real 0) nm)) (hlay : s.layers = []) (ρ₁ ρ₂ σ : ℝ)
    (hsub : s.substrate.sld = some (.range (.real ρ₁) (.real ρ₂) nm')) (hrough : s.substrate.roughness = some (.const (.real σ) nm'')) (hρ : 0 < ρ₁)
    (q : List ℝ) (u : ℝ) (hu : u ∈ q) (hc : AboveEdge ρ₂ u) : Determined s q (s.substrate.name ++ "_sld".toList) := by
  intro y y' hy hy' e
  obtain ⟨ρ, e1, h1, h2⟩ := hy.sld s.substrate (by simp) _ hsub
  obtain ⟨ρ', e1', h1', h2'⟩ := hy'.sld s.substrate (by simp) _ hsub
  have r : y (s.substrate.name ++ "_roughness".toList) = .real σ := hy.roughness s.substrate (by simp) _ hrough
  have r' : y' (s.substrate.name ++ "_roughness".toList) = .real σ := hy'.roughness s.substrate (by simp) _ hrough
  have p := same_point hamb hlay hy hy' e1 e1' (hρ.trans_le h1) (hρ.trans_le h1') e hu (hc.mono h2) (hc.mono h2')
  rw [r, r'] at p
  rw [e1, e1']
  have hp : 0 < ρ := hρ.trans_le h1
  have hp' : 0 < ρ' := hρ.trans_le h1'
  rcases lt_trichotomy ρ ρ' with h | h | h
  · exact absurd p (halfLog_strict (by positivity) (by nlinarith [Real.pi_pos]) (hc.mono h2').si (sq_nonneg _)).ne
  · rw [h]
  · exact absurd p.symm (halfLog_strict (by positivity) (by nlinarith [Real.pi_pos]) (hc.mono h2).si (sq_nonneg _)).ne

/-- **C135** (one value does not determine both): if density and roughness are unknown, one momentum transfer above the critical edge determines neither. -/
theorem C135_one (s : SampleV ℝ) (hn : (partNames s).Nodup) (nm nm' nm'' : Option Str)
    (hamb : s.ambient.sld = some (.const (.real 0) nm)) (hlay : s.layers = []) (ρ₁ ρ₂ σ₁ σ₂ : ℝ)
    (hsub : s.substrate.sld = some (.range (.real ρ₁) (.real ρ₂) nm')) (hrough : s.substrate.roughness = some (.range (.real σ₁) (.real σ₂) nm''))
    (hρ : 0 < ρ₁) (hρ' : ρ₁ < ρ₂) (hσ : 0 ≤ σ₁) (hσ' : σ₁ < σ₂) (q : List ℝ) (u : ℝ) (hq : ∀ x ∈ q, x ^ 2 = u ^ 2) (hc : AboveEdge ρ₂ u) :
    ¬ Determined s q (s.substrate.name ++ "_sld".toList) ∧ ¬ Determined s q (s.substrate.name ++ "_roughness".toList) := by
  have n1 : s.ambient.name ++ "_sld".toList ≠ s.substrate.name ++ "_sld".toList := by
    intro e
    unfold partNames at hn
    rw [hlay, List.append_cancel_right e] at hn
    simp at hn
  have n2 : s.ambient.name ++ "_sld".toList ≠ s.substrate.name ++ "_roughness".toList := (roughness_ne_sld _ _).symm
  have n3 : s.substrate.name ++ "_roughness".toList ≠ s.substrate.name ++ "_sld".toList := roughness_ne_sld _ _
  set ks := s.substrate.name ++ "_sld".toList with hks
  set kr := s.substrate.name ++ "_roughness".toList with hkr
  set ka := s.ambient.name ++ "_sld".toList with hka
  classical
  let row : ℝ → ℝ → Str → Num ℝ := fun ρ σ k => if k = ks then .real ρ else if k = kr then .real σ else .real 0
  have r1 : ∀ ρ σ, row ρ σ ks = .real ρ := fun ρ σ => if_pos rfl
  have r2 : ∀ ρ σ, row ρ σ kr = .real σ := fun ρ σ => (if_neg n3).trans (if_pos rfl)
  have r3 : ∀ ρ σ, row ρ σ ka = .real 0 := fun ρ σ => by simp only [row]; rw [if_neg n1, if_neg n2]
  have within : ∀ ρ σ, ρ₁ ≤ ρ → ρ ≤ ρ₂ → σ₁ ≤ σ → σ ≤ σ₂ → RowWithin s (row ρ σ) := by
    intro ρ σ h1 h2 h3 h4
    refine ⟨?_, ?_, ?_, ?_⟩
    · intro l hm p hp
      rw [hlay] at hm
      simp only [List.cons_append, List.nil_append, List.mem_cons, List.not_mem_nil, or_false] at hm
      rcases hm with rfl | rfl
      · rw [hsub] at hp
        cases hp
        exact ⟨ρ, r1 ρ σ, h1, h2⟩
      · rw [hamb] at hp
        cases hp
        exact r3 ρ σ
    · intro l hm p hp
      rw [hlay, List.mem_singleton] at hm
      subst hm
      rw [hrough] at hp
      cases hp
      exact ⟨σ, r2 ρ σ, h3, h4⟩
    · intro l hm
      rw [hlay] at hm
      exact absurd hm List.not_mem_nil
    · intro l hm
      rw [hlay] at hm
      exact absurd hm List.not_mem_nil
  set c := (u * 1e10) ^ 2 / 4 with hcdef
  -- the square of the roughness that makes up for a larger density
  let S : ℝ → ℝ := fun ρ => (σ₁ * 1e-10) ^ 2 +
    (halfLog (4 * Real.pi * (ρ * 1e14)) ((σ₁ * 1e-10) ^ 2) c - halfLog (4 * Real.pi * (ρ₁ * 1e14)) ((σ₁ * 1e-10) ^ 2) c) /
      (2 * (waveAt c * waveAt (c - 4 * Real.pi * (ρ * 1e14))).re)
  have pos : ∀ ρ, ρ₁ ≤ ρ → ρ ≤ ρ₂ → 0 < (waveAt c * waveAt (c - 4 * Real.pi * (ρ * 1e14))).re := fun ρ h1 h2 =>
    (abs_nonneg _).trans_lt (wave_mul_sector (hc.mono h2).si (by have : 0 < ρ := hρ.trans_le h1; have := Real.pi_pos; nlinarith [mul_pos this ‹0 < ρ›]))
  have S0 : S ρ₁ = (σ₁ * 1e-10) ^ 2 := by simp [S]
  have cS : ContinuousAt S ρ₁ := by
    have c1 : ContinuousAt (fun ρ : ℝ => 4 * Real.pi * (ρ * 1e14)) ρ₁ := by fun_prop
    have c2 : ContinuousAt (fun ρ : ℝ => halfLog (4 * Real.pi * (ρ * 1e14)) ((σ₁ * 1e-10) ^ 2) c) ρ₁ :=
      ContinuousAt.comp (f := fun ρ : ℝ => 4 * Real.pi * (ρ * 1e14)) (g := fun a => halfLog a ((σ₁ * 1e-10) ^ 2) c)
        (halfLog_deriv_a (a := 4 * Real.pi * (ρ₁ * 1e14)) (by positivity) _ c).continuousAt c1
    have c3 : ContinuousAt (fun ρ : ℝ => waveAt (c - 4 * Real.pi * (ρ * 1e14))) ρ₁ :=
      ContinuousAt.comp (f := fun ρ : ℝ => 4 * Real.pi * (ρ * 1e14)) (g := fun a => waveAt (c - a)) (waveAt_deriv_sub c _).continuousAt c1
    have c4 : ContinuousAt (fun ρ : ℝ => (waveAt c * waveAt (c - 4 * Real.pi * (ρ * 1e14))).re) ρ₁ :=
      Complex.continuous_re.continuousAt.comp (continuousAt_const.mul c3)
    exact continuousAt_const.add ((c2.sub continuousAt_const).div (continuousAt_const.mul c4) (by have := pos ρ₁ le_rfl hρ'.le; positivity))
  have lim : ∀ᶠ ρ in 𝓝 ρ₁, S ρ < (σ₂ * 1e-10) ^ 2 ∧ ρ < ρ₂ := by
    refine (cS.eventually_lt continuousAt_const ?_).and (gt_mem_nhds hρ')
    rw [S0]
    have : σ₁ * 1e-10 < σ₂ * 1e-10 := by linarith
    exact pow_lt_pow_left₀ this (by positivity) two_ne_zero
  obtain ⟨δ, hδ, hball⟩ := Metric.eventually_nhds_iff.1 lim
  obtain ⟨hS, hlt⟩ := hball (y := ρ₁ + δ / 2) (by rw [Real.dist_eq, add_sub_cancel_left, abs_of_pos (half_pos hδ)]; linarith)
  set ρ := ρ₁ + δ / 2 with hρdef
  have hgt : ρ₁ < ρ := by linarith
  have up : (σ₁ * 1e-10) ^ 2 < S ρ := by
    have h1 := halfLog_strict (s := (σ₁ * 1e-10) ^ 2) (c := c) (a := 4 * Real.pi * (ρ₁ * 1e14)) (a' := 4 * Real.pi * (ρ * 1e14)) (by positivity)
      (by nlinarith [Real.pi_pos]) (hc.mono hlt.le).si (sq_nonneg _)
    have h2 := pos ρ hgt.le hlt.le
    simp only [S]
    linarith [div_pos (sub_pos.2 h1) (mul_pos two_pos h2)]
  set τ := Real.sqrt (S ρ) with hτ
  have hSn : 0 ≤ S ρ := (sq_nonneg _).trans up.le
  have t1 : σ₁ * 1e-10 < τ := (Real.lt_sqrt (by positivity)).2 up
  have hσ2 : 0 ≤ σ₂ := hσ.trans hσ'.le
  have t2 : τ < σ₂ * 1e-10 := (Real.sqrt_lt' (by have : 0 < σ₂ := hσ.trans_lt hσ'; positivity)).2 hS
  have back : τ * 1e10 * 1e-10 = τ := by ring
  have w1 := within ρ₁ σ₁ le_rfl hρ'.le le_rfl hσ'.le
  have w2 := within ρ (τ * 1e10) hgt.le hlt.le (by linarith) (by linarith)
  have same : curveFor s q (pairs (row ρ₁ σ₁)) = curveFor s q (pairs (row ρ (τ * 1e10))) := by
    rw [substrate_curve hamb hlay q w1 (r1 _ _), substrate_curve hamb hlay q w2 (r1 _ _)]
    congr 1
    refine List.map_congr_left fun x hx => ?_
    have hx2 : (x * 1e10) ^ 2 = (u * 1e10) ^ 2 := by rw [mul_pow, mul_pow, hq x hx]
    have hp : 0 < ρ := hρ.trans hgt
    have hcx : ∀ ρ', AboveEdge ρ' u → AboveEdge ρ' x := fun ρ' h => by unfold AboveEdge at *; rw [hq x hx]; exact h
    rw [← hkr, r2, r2, codePoint_halfLog _ (by positivity) (hcx _ (hc.mono hρ'.le)).si, codePoint_halfLog _ (by positivity) (hcx _ (hc.mono hlt.le)).si, hx2, ← hcdef]
    congr 3
    show halfLog _ ((σ₁ * 1e-10) ^ 2) c = halfLog _ ((τ * 1e10 * 1e-10) ^ 2) c
    rw [back, hτ, Real.sq_sqrt hSn]
    have h2 := (pos ρ hgt.le hlt.le).ne'
    have split : ∀ a t, halfLog a t c = halfLog a ((σ₁ * 1e-10) ^ 2) c - 2 * (t - (σ₁ * 1e-10) ^ 2) * (waveAt c * waveAt (c - a)).re := by
      intro a t
      unfold halfLog
      ring
    have e : 2 * (S ρ - (σ₁ * 1e-10) ^ 2) * (waveAt c * waveAt (c - 4 * Real.pi * (ρ * 1e14))).re =
        halfLog (4 * Real.pi * (ρ * 1e14)) ((σ₁ * 1e-10) ^ 2) c - halfLog (4 * Real.pi * (ρ₁ * 1e14)) ((σ₁ * 1e-10) ^ 2) c := by
      simp only [S]
      generalize (waveAt c * waveAt (c - 4 * Real.pi * (ρ * 1e14))).re = g at h2 ⊢
      generalize halfLog (4 * Real.pi * (ρ * 1e14)) ((σ₁ * 1e-10) ^ 2) c - halfLog (4 * Real.pi * (ρ₁ * 1e14)) ((σ₁ * 1e-10) ^ 2) c = D
      rw [add_sub_cancel_left]
      field_simp
    rw [split _ (S ρ), e]
    ring
  constructor
  · intro hd
    have := hd _ _ w1 w2 same
    rw [r1, r1] at this
    exact absurd this hgt.ne
  · intro hd
    have := hd _ _ w1 w2 same
    rw [r2, r2] at this
    have : σ₁ = τ * 1e10 := this
    linarith

/-- **C135** (learning): for momentum transfers above the critical edge, there is a continuous function of the curve that gives the density, or the
roughness, of random samples without error if and only if two of the momentum transfers are different. -/
theorem C135_learnable {Ω : Type} [MeasurableSpace Ω] {P : Measure Ω} (C : Chance Ω P) (s : SampleV ℝ) (hs : SampleRegular s) (hn : (partNames s).Nodup)
    (d : DistArgs) (hl : ∀ l ∈ s.structure_, LayerDrawable l ∧ LayerKindOk d.kind l) (nm nm' nm'' : Option Str)
    (hamb : s.ambient.sld = some (.const (.real 0) nm)) (hlay : s.layers = []) (ρ₁ ρ₂ σ₁ σ₂ : ℝ)
    (hsub : s.substrate.sld = some (.range (.real ρ₁) (.real ρ₂) nm')) (hrough : s.substrate.roughness = some (.range (.real σ₁) (.real σ₂) nm''))
    (hρ : 0 < ρ₁) (hρ' : ρ₁ < ρ₂) (hσ : 0 ≤ σ₁) (hσ' : σ₁ < σ₂) (q : List ℝ) (u : ℝ) (hu : u ∈ q) (hc : ∀ x ∈ q, AboveEdge ρ₂ x)
    (n k : ℕ) (T : Ω → Frame (Num ℝ)) (hT : ∀ ω, ∃ g', generateRandomLabels C.rng.toRng s n d (ω, k) = .ok (T ω, g')) (i : Fin n) (key : Str)
    (hkey : key = s.substrate.name ++ "_sld".toList ∨ key = s.substrate.name ++ "_roughness".toList) :
    (∃ N : (Fin q.length → ℝ) → ℝ, Continuous N ∧ ∀ᵐ ω ∂P, ¬ Misses s q key 0 N (rowOf (T ω) i)) ↔ ∃ x ∈ q, ∃ x' ∈ q, x ^ 2 ≠ x' ^ 2 := by
  have habs : ∀ l ∈ s.substrate :: s.layers, ∀ p, l.sld = some p → 0 ≤ p.min.im ∧ 0 ≤ p.max.im := by
    intro l hm p hp
    rw [hlay, List.mem_singleton] at hm
    subst hm
    rw [hsub] at hp
    cases hp
    exact ⟨le_refl _, le_refl _⟩
  have hnum := substrate_num hamb hlay (fun y hy => (show ∃ ρ, y (s.substrate.name ++ "_sld".toList) = .real ρ ∧ ρ₁ ≤ ρ ∧ ρ ≤ ρ₂ from
    hy.sld s.substrate (by simp) _ hsub).imp fun _ h => h.1) q
  have hmem : key ∈ expectedLabels s.substrate.name (s.layers.map (·.name)) s.ambient.name := by
    rcases hkey with rfl | rfl
    · exact mem_labels.2.2 s.substrate (by simp)
    · exact mem_labels.2.1 s.substrate (by simp)
  rw [C132_iff C s hs hn d hl nm hamb habs n k T hT i q hnum key hmem]
  constructor
  · intro hd
    by_contra hne
    push Not at hne
    have := C135_one s hn nm nm' nm'' hamb hlay ρ₁ ρ₂ σ₁ σ₂ hsub hrough hρ hρ' hσ hσ' q u (fun x hx => hne x hx u hu) (hc u hu)
    rcases hkey with rfl | rfl
    · exact this.1 hd
    · exact this.2 hd
  · rintro ⟨x, hx, x', hx', hne⟩
    have := (C135_both s hs (fun l hm => (hl l hm).1) nm nm' hamb hlay ρ₁ ρ₂ hsub hρ q x x' hx hx' hne (hc x hx) (hc x' hx')).2
    rcases hkey with rfl | rfl
    · exact this.1
    · exact this.2

/-- A substrate with unknown density and roughness. -/
noncomputable def exampleUnknown : SampleV ℝ where
  substrate := ⟨.substrate, "Si".toList, none, some (.range (.real 0) (.real 10) (some "roughness".toList)), some (.range (.real 10) (.real 30) (some "sld".toList))⟩
  ambient := ⟨.ambient, "air".toList, none, none, some (.const (.real 0) (some "sld".toList))⟩
  layers := []

/-- The hypotheses of C135 hold for it: its roughness can be learned from two values of the curve, and not from one. -/
example (n : ℕ) (hpos : 0 < n) (i : Fin n) : ∃ T : (ChanceIdx → ℝ) → Frame (Num ℝ),
    (∀ ω, ∃ g', generateRandomLabels Chance.product.rng.toRng exampleUnknown n ⟨.uniform, none, none⟩ (ω, 0) = .ok (T ω, g')) ∧
    (∃ N : (Fin 2 → ℝ) → ℝ, Continuous N ∧
      ∀ᵐ ω ∂Measure.infinitePi ChanceIdx.law, ¬ Misses exampleUnknown [0.1, 0.2] ("Si".toList ++ "_roughness".toList) 0 N (rowOf (T ω) i)) ∧
    ¬ ∃ N : (Fin 1 → ℝ) → ℝ, Continuous N ∧
      ∀ᵐ ω ∂Measure.infinitePi ChanceIdx.law, ¬ Misses exampleUnknown [0.2] ("Si".toList ++ "_roughness".toList) 0 N (rowOf (T ω) i) := by
  have reg : SampleRegular exampleUnknown := by
    refine ⟨⟨rfl, rfl, ⟨_, rfl, ⟨rfl, ?_⟩, ?_⟩, ⟨_, rfl, rfl, ?_⟩⟩, ⟨rfl, rfl, rfl, ⟨_, rfl, rfl, trivial⟩⟩, ?_⟩
    · simp only [ParamValid, Num.ge]; norm_num
    · simp only [Param.min, Num.ltZero]; norm_num
    · simp only [ParamValid, Num.ge]; norm_num
    · intro l hl
      exact absurd hl (List.not_mem_nil)
  have H : ∀ l ∈ exampleUnknown.structure_, LayerDrawable l ∧ LayerKindOk .uniform l := by
    intro l hl
    refine ⟨?_, fun _ _ => Or.inl rfl, fun _ _ => Or.inl rfl, fun _ _ => Or.inl rfl⟩
    simp only [SampleV.structure_, exampleUnknown, List.cons_append, List.nil_append, List.mem_cons, List.not_mem_nil, or_false] at hl
    rcases hl with rfl | rfl
    · refine ⟨?_, by simp, ?_⟩ <;> rintro p ⟨⟩
      · exact ⟨show (10 : ℝ) ≤ 30 by norm_num, le_refl (0 : ℝ), Or.inl ⟨_, _, rfl, rfl⟩⟩
      · exact ⟨0, 10, rfl, rfl, by norm_num⟩
    · refine ⟨?_, by simp, by simp⟩
      rintro p ⟨⟩
      trivial
  have hnd : (partNames exampleUnknown).Nodup := by simp only [partNames, exampleUnknown]; decide
  obtain ⟨T, hT, -⟩ := C124_rows Chance.product exampleUnknown reg hnd ⟨.uniform, none, none⟩ H n hpos 0
  have edge : ∀ x : ℝ, x = 0.1 ∨ x = 0.2 → AboveEdge 30 x := by
    rintro x (rfl | rfl) <;> unfold AboveEdge <;> nlinarith [Real.pi_le_four]
  have main := fun (q : List ℝ) (u : ℝ) (hu : u ∈ q) (hq : ∀ x ∈ q, AboveEdge 30 x) => C135_learnable Chance.product exampleUnknown reg hnd
    ⟨.uniform, none, none⟩ H (some "sld".toList) (some "sld".toList) (some "roughness".toList) rfl rfl 10 30 0 10 rfl rfl (by norm_num) (by norm_num) le_rfl
    (by norm_num) q u hu hq n 0 T hT i _ (Or.inr rfl)
  refine ⟨T, hT, (main [0.1, 0.2] 0.1 (by simp) (fun x hx => edge x (by simpa using hx))).2 ⟨0.1, by simp, 0.2, by simp, by norm_num⟩, fun h => ?_⟩
  obtain ⟨x, hx, x', hx', hne⟩ := (main [0.2] 0.2 (by simp) (fun x hx => edge x (Or.inr (by simpa using hx)))).1 h
  rw [List.mem_singleton.1 hx, List.mem_singleton.1 hx'] at hne
  exact hne rfl

end Verif.Props
