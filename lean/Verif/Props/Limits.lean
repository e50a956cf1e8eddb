import Verif.Props.Passive
import Mathlib.Analysis.SpecialFunctions.Exp

/-!
# C108: total reflection at small q, decay at large q
-/

namespace Verif.Props
open Verif.Py Verif.Model Verif.Spec Complex Filter Topology

/-! ### Total reflection -/

/-- Real and imaginary part of the wave number in a medium without absorption. -/
theorem isWave_real_parts {q ρ : ℝ} {k : ℂ} (h : IsWave q ρ k) :
    k.re * k.re - k.im * k.im = q ^ 2 / 4 - 4 * Real.pi * ρ ∧ k.re * k.im = -(2 * Real.pi * 10 ^ (-30 : ℤ)) := by
  have h1 := congrArg Complex.re h.1
  have h2 := congrArg Complex.im h.1
  generalize (10 ^ (-30 : ℤ) : ℝ) = e at h1 h2 ⊢
  have e1 : ((q : ℂ) ^ 2 / 4).re = q ^ 2 / 4 := by
    have : ((q : ℂ) ^ 2 / 4) = ((q ^ 2 / 4 : ℝ) : ℂ) := by push_cast; ring
    rw [this, Complex.ofReal_re]
  have e2 : ((q : ℂ) ^ 2 / 4).im = 0 := by
    have : ((q : ℂ) ^ 2 / 4) = ((q ^ 2 / 4 : ℝ) : ℂ) := by push_cast; ring
    rw [this, Complex.ofReal_im]
  rw [Complex.sub_re, e1] at h1
  rw [Complex.sub_im, e2] at h2
  simp [sq] at h1 h2
  constructor
  · rw [h1, sq]
  · linarith

/-- C108: a smooth substrate without absorption reflects everything below its critical angle, `q² < 16 π ρ`, up to the effect of the
constant `10⁻³⁰` that the code adds to the densities. -/
theorem C108_total_reflection (q ρ : ℝ) (hq : q ≠ 0) (hc : q ^ 2 < 16 * Real.pi * ρ) :
    ∃ v, multilayerReflectivity [q] [] [0] [(ρ : ℂ)] 0 = .ok [some v] ∧ v ≤ 1 ∧
      1 - 4 * Real.pi * 10 ^ (-30 : ℤ) * (4 / (16 * Real.pi * ρ - q ^ 2) + 4 / q ^ 2) ≤ v := by
  obtain ⟨wave, hw⟩ := wave_exists
  have w0 := hw q 0 (by simp)
  have w1 := hw q (ρ : ℂ) (by simp)
  obtain ⟨hlt, hval⟩ := C39_below_one q ρ _ _ (by simp) w0 w1
  refine ⟨_, hval, by nlinarith [norm_nonneg ((wave q 0 - wave q ρ) / (wave q 0 + wave q ρ))], ?_⟩
  have i0 : (wave q 0).im < 0 := by
    rw [isWave_unique w0 (codeWave_isWave q (ρ := 0) (by simp)).1]; exact (codeWave_isWave q (by simp)).2
  have i1 : (wave q ρ).im < 0 := by
    rw [isWave_unique w1 (codeWave_isWave q (ρ := (ρ : ℂ)) (by simp)).1]; exact (codeWave_isWave q (by simp)).2
  obtain ⟨p0, m0⟩ := isWave_zero_parts w0
  obtain ⟨p1, m1⟩ := isWave_real_parts w1
  have r0 := w0.2
  have r1 := w1.2
  have hδ : (0 : ℝ) < 10 ^ (-30 : ℤ) := by positivity
  rw [norm_div, div_pow, ← Complex.normSq_eq_norm_sq, ← Complex.normSq_eq_norm_sq, Complex.normSq_apply, Complex.normSq_apply]
  simp only [Complex.sub_re, Complex.sub_im, Complex.add_re, Complex.add_im]
  have hpi := Real.pi_pos
  clear hval hlt hw w0 w1
  generalize (wave q 0).re = a at *
  generalize (wave q 0).im = b at *
  generalize (wave q (ρ : ℂ)).re = c at *
  generalize (wave q (ρ : ℂ)).im = d at *
  generalize (10 : ℝ) ^ (-30 : ℤ) = δ at *
  have hq2 : 0 < q ^ 2 := by positivity
  have hk : 0 < 16 * Real.pi * ρ - q ^ 2 := by linarith
  have hac : 0 < a * c := mul_pos r0 r1
  have hbd : 0 < b * d := mul_pos_of_neg_of_neg i0 i1
  have had : 0 < a * -d := mul_pos r0 (by linarith)
  generalize hD : (a + c) * (a + c) + (b + d) * (b + d) = D
  have hD2 : 2 * (a * -d) ≤ D := by nlinarith [sq_nonneg (a + d), sq_nonneg c, sq_nonneg b]
  have hD0 : 0 < D := by linarith
  have k1 : a * c * (16 * Real.pi * ρ - q ^ 2) ≤ 4 * Real.pi * δ * D := by
    have : 16 * Real.pi * ρ - q ^ 2 ≤ 4 * (d * d) := by nlinarith [sq_nonneg c]
    calc a * c * (16 * Real.pi * ρ - q ^ 2) ≤ a * c * (4 * (d * d)) := mul_le_mul_of_nonneg_left this hac.le
      _ = 4 * (a * -d) * -(c * d) := by ring
      _ = 4 * Real.pi * δ * (2 * (a * -d)) := by rw [m1]; ring
      _ ≤ _ := mul_le_mul_of_nonneg_left hD2 (by positivity)
  have k2 : b * d * q ^ 2 ≤ 4 * Real.pi * δ * D := by
    have : q ^ 2 ≤ 4 * (a * a) := by nlinarith [sq_nonneg b]
    calc b * d * q ^ 2 ≤ b * d * (4 * (a * a)) := mul_le_mul_of_nonneg_left this hbd.le
      _ = 4 * (a * -d) * -(a * b) := by ring
      _ = 4 * Real.pi * δ * (2 * (a * -d)) := by rw [m0]; ring
      _ ≤ _ := mul_le_mul_of_nonneg_left hD2 (by positivity)
  rw [le_div_iff₀ hD0]
  have j1 : a * c ≤ 4 * Real.pi * δ * D / (16 * Real.pi * ρ - q ^ 2) := by rwa [le_div_iff₀ hk]
  have j2 : b * d ≤ 4 * Real.pi * δ * D / q ^ 2 := by rwa [le_div_iff₀ hq2]
  have e : (1 - 4 * Real.pi * δ * (4 / (16 * Real.pi * ρ - q ^ 2) + 4 / q ^ 2)) * D =
      D - 4 * (4 * Real.pi * δ * D / (16 * Real.pi * ρ - q ^ 2)) - 4 * (4 * Real.pi * δ * D / q ^ 2) := by
    simp only [div_eq_mul_inv]; ring
  rw [e]
  nlinarith

/-! ### Decay -/

theorem wave_close {q : ℝ} {ρ k : ℂ} (hq : 0 < q) (h : IsWave q ρ k) :
    ‖k - q / 2‖ ≤ ‖4 * (Real.pi : ℂ) * (ρ + ((10 ^ (-30 : ℤ) : ℝ) : ℂ) * I)‖ * 2 / q := by
  have e : (k - q / 2) * (k + q / 2) = -(4 * (Real.pi : ℂ) * (ρ + ((10 ^ (-30 : ℤ) : ℝ) : ℂ) * I)) := by
    have := h.1
    linear_combination this
  have hre : q / 2 ≤ ‖k + q / 2‖ := by
    have h1 := Complex.re_le_norm (k + q / 2)
    have h2 : ((q : ℂ) / 2).re = q / 2 := by
      have : (q : ℂ) / 2 = ((q / 2 : ℝ) : ℂ) := by push_cast; ring
      rw [this, Complex.ofReal_re]
    rw [Complex.add_re, h2] at h1
    linarith [h.2]
  have e2 := congrArg norm e
  rw [norm_mul, norm_neg] at e2
  rw [le_div_iff₀ hq, ← e2]
  nlinarith [norm_nonneg (k - q / 2)]

/-- The wave numbers of all media approach the one of the vacuum. -/
theorem wave_tendsto {wave : ℝ → ℂ → ℂ} (hw : ∀ q ρ, 0 ≤ ρ.im → IsWave q ρ (wave q ρ)) {ρ : ℂ} (h : 0 ≤ ρ.im) :
    Tendsto (fun q : ℝ => wave q ρ - q / 2) atTop (𝓝 0) := by
  rw [tendsto_zero_iff_norm_tendsto_zero]
  refine tendsto_of_tendsto_of_tendsto_of_le_of_le' tendsto_const_nhds
    (tendsto_const_nhds.div_atTop tendsto_id (a := ‖4 * (Real.pi : ℂ) * (ρ + ((10 ^ (-30 : ℤ) : ℝ) : ℂ) * I)‖ * 2)) ?_ ?_
  · exact Eventually.of_forall fun q => norm_nonneg _
  · filter_upwards [eventually_gt_atTop 0] with q hq
    exact wave_close hq (hw q ρ h)

theorem diff_tendsto {wave : ℝ → ℂ → ℂ} (hw : ∀ q ρ, 0 ≤ ρ.im → IsWave q ρ (wave q ρ)) {ρ ρ' : ℂ} (h : 0 ≤ ρ.im) (h' : 0 ≤ ρ'.im) :
    Tendsto (fun q : ℝ => wave q ρ - wave q ρ') atTop (𝓝 0) := by
  have := (wave_tendsto hw h).sub (wave_tendsto hw h')
  simpa using this

theorem ratio_tendsto {wave : ℝ → ℂ → ℂ} (hw : ∀ q ρ, 0 ≤ ρ.im → IsWave q ρ (wave q ρ)) {ρ ρ' : ℂ} (h : 0 ≤ ρ.im) (h' : 0 ≤ ρ'.im) :
    Tendsto (fun q : ℝ => (wave q ρ - wave q ρ') / (2 * wave q ρ)) atTop (𝓝 0) := by
  have hbig : Tendsto (fun q : ℝ => ‖2 * wave q ρ‖) atTop atTop := by
    have h1 : ∀ᶠ q : ℝ in atTop, q - 2 ≤ ‖2 * wave q ρ‖ := by
      have := (tendsto_zero_iff_norm_tendsto_zero.1 (wave_tendsto hw h)).eventually_le_const (show (0 : ℝ) < 1 by norm_num)
      filter_upwards [this, eventually_gt_atTop 0] with q hq h0
      have h2 : ‖(q : ℂ)‖ ≤ ‖2 * wave q ρ‖ + ‖2 * (wave q ρ - q / 2)‖ := by
        have : (q : ℂ) = 2 * wave q ρ - 2 * (wave q ρ - q / 2) := by ring
        calc ‖(q : ℂ)‖ = ‖2 * wave q ρ - 2 * (wave q ρ - q / 2)‖ := by rw [← this]
          _ ≤ _ := norm_sub_le _ _
      rw [norm_mul 2 (wave q ρ - q / 2), Complex.norm_real, Real.norm_eq_abs, abs_of_pos h0] at h2
      have : ‖(2 : ℂ)‖ = 2 := by simp
      rw [this] at h2
      linarith
    exact tendsto_atTop_mono' _ h1 (tendsto_atTop_add_const_right _ _ tendsto_id)
  rw [tendsto_zero_iff_norm_tendsto_zero]
  simp only [norm_div]
  exact (tendsto_zero_iff_norm_tendsto_zero.1 (diff_tendsto hw h h')).div_atTop hbig

theorem off_tendsto {wave : ℝ → ℂ → ℂ} (hw : ∀ q ρ, 0 ≤ ρ.im → IsWave q ρ (wave q ρ)) {ρ ρ' : ℂ} (h : 0 ≤ ρ.im) (h' : 0 ≤ ρ'.im) (σ : ℝ) :
    Tendsto (fun q : ℝ => (wave q ρ - wave q ρ') / (2 * wave q ρ) * cexp (-(wave q ρ + wave q ρ') ^ 2 * σ ^ 2 / 2)) atTop (𝓝 0) := by
  have him : Tendsto (fun q : ℝ => (wave q ρ + wave q ρ').im) atTop (𝓝 0) := by
    have h1 := ((wave_tendsto hw h).add (wave_tendsto hw h'))
    rw [add_zero] at h1
    have h2 := (Complex.continuous_im.tendsto 0).comp h1
    refine (h2.congr fun q => ?_).trans (by simp)
    have : (wave q ρ - (q : ℂ) / 2 + (wave q ρ' - (q : ℂ) / 2)) = (wave q ρ + wave q ρ') - (q : ℂ) := by ring
    simp only [Function.comp_apply, this, Complex.sub_im, Complex.ofReal_im, sub_zero]
  refine (ratio_tendsto hw h h').zero_mul_isBoundedUnder_le ?_
  refine ⟨Real.exp (σ ^ 2 / 2), ?_⟩
  rw [eventually_map]
  have hone : ∀ᶠ q : ℝ in atTop, |(wave q ρ + wave q ρ').im| ≤ 1 := by
    have := him.abs
    rw [abs_zero] at this
    exact this.eventually_le_const (by norm_num)
  filter_upwards [hone] with q hq
  simp only [Function.comp_apply]
  rw [Complex.norm_exp]
  refine Real.exp_le_exp.2 ?_
  have e : -(wave q ρ + wave q ρ') ^ 2 * (σ : ℂ) ^ 2 / 2 = ((-(σ ^ 2 / 2) : ℝ) : ℂ) * (wave q ρ + wave q ρ') ^ 2 := by
    push_cast; ring
  rw [e, Complex.re_ofReal_mul]
  generalize wave q ρ + wave q ρ' = z at hq
  have : (z ^ 2).re = z.re ^ 2 - z.im ^ 2 := by rw [sq, Complex.mul_re]; ring
  rw [this]
  have h3 : z.im ^ 2 ≤ 1 := by
    rw [← sq_abs]; nlinarith [abs_nonneg z.im]
  nlinarith [sq_nonneg z.re, sq_nonneg σ, mul_nonneg (sq_nonneg σ) (sq_nonneg z.re)]

theorem diag_tendsto {wave : ℝ → ℂ → ℂ} (hw : ∀ q ρ, 0 ≤ ρ.im → IsWave q ρ (wave q ρ)) {ρ ρ' : ℂ} (h : 0 ≤ ρ.im) (h' : 0 ≤ ρ'.im) (σ : ℝ) :
    Tendsto (fun q : ℝ => (wave q ρ + wave q ρ') / (2 * wave q ρ) * cexp (-(wave q ρ - wave q ρ') ^ 2 * σ ^ 2 / 2)) atTop (𝓝 1) := by
  have h1 : Tendsto (fun q : ℝ => (wave q ρ + wave q ρ') / (2 * wave q ρ)) atTop (𝓝 1) := by
    have := tendsto_const_nhds (x := (1 : ℂ)) (f := atTop (α := ℝ)) |>.sub (ratio_tendsto hw h h')
    rw [sub_zero] at this
    refine this.congr fun q => ?_
    have hk := isWave_ne_zero (hw q ρ h)
    field_simp
    ring
  have h2 : Tendsto (fun q : ℝ => cexp (-(wave q ρ - wave q ρ') ^ 2 * σ ^ 2 / 2)) atTop (𝓝 1) := by
    have hc : Continuous fun z : ℂ => cexp (-z ^ 2 * σ ^ 2 / 2) := by fun_prop
    have := (hc.tendsto 0).comp (diff_tendsto hw h h')
    simpa [Function.comp_def] using this
  simpa using h1.mul h2

/-- The waves keep their amplitude on their way through a medium. -/
theorem layer_tendsto {wave : ℝ → ℂ → ℂ} (hw : ∀ q ρ, 0 ≤ ρ.im → IsWave q ρ (wave q ρ)) {ρ : ℂ} (h : 0 ≤ ρ.im) (d : ℝ) :
    Tendsto (fun q : ℝ => ‖cexp (I * wave q ρ * d)‖) atTop (𝓝 1) ∧ Tendsto (fun q : ℝ => ‖cexp (-(I * wave q ρ * d))‖) atTop (𝓝 1) := by
  have him : Tendsto (fun q : ℝ => (wave q ρ).im) atTop (𝓝 0) := by
    have h2 := (Complex.continuous_im.tendsto 0).comp (wave_tendsto hw h)
    refine (h2.congr fun q => ?_).trans (by simp)
    have : ((q : ℂ) / 2).im = 0 := by
      have : (q : ℂ) / 2 = ((q / 2 : ℝ) : ℂ) := by push_cast; ring
      rw [this, Complex.ofReal_im]
    simp only [Function.comp_apply, Complex.sub_im, this, sub_zero]
  have e1 : ∀ q : ℝ, (I * wave q ρ * d).re = -(wave q ρ).im * d := fun q => by simp
  have e2 : ∀ q : ℝ, (-(I * wave q ρ * d)).re = (wave q ρ).im * d := fun q => by simp
  simp only [Complex.norm_exp, e1, e2]
  constructor
  · have hc : Continuous fun y : ℝ => Real.exp (-y * d) := by fun_prop
    have := (hc.tendsto 0).comp him
    simpa [Function.comp_def] using this
  · have hc : Continuous fun y : ℝ => Real.exp (y * d) := by fun_prop
    have := (hc.tendsto 0).comp him
    simpa [Function.comp_def] using this

theorem stack_tendsto {wave : ℝ → ℂ → ℂ} (hw : ∀ q ρ, 0 ≤ ρ.im → IsWave q ρ (wave q ρ)) (l : List Slab) (hl : Physical l) {ρ : ℂ}
    (h : 0 ≤ ρ.im) :
    Tendsto (fun q : ℝ => stackMatrix (wave q) (wave q ρ) l 0 1) atTop (𝓝 0) ∧
    Tendsto (fun q : ℝ => ‖stackMatrix (wave q) (wave q ρ) l 1 1‖) atTop (𝓝 1) := by
  induction l generalizing ρ with
  | nil => simp [stackMatrix]
  | cons a l ih =>
    have ha : 0 ≤ a.sld.im := hl a (by simp)
    obtain ⟨i1, i2⟩ := ih (fun b hb => hl b (by simp [hb])) ha
    obtain ⟨t1, t2⟩ := layer_tendsto hw ha a.thickness
    have o := off_tendsto hw h ha a.roughness
    have d := diag_tendsto hw h ha a.roughness
    have e : ∀ (q : ℝ) (i : Fin 2), stackMatrix (wave q) (wave q ρ) (a :: l) i 1 =
        interfaceMatrix (wave q ρ) (wave q a.sld) a.roughness i 0 * cexp (-(I * wave q a.sld * a.thickness)) *
          stackMatrix (wave q) (wave q a.sld) l 0 1 +
        interfaceMatrix (wave q ρ) (wave q a.sld) a.roughness i 1 * cexp (I * wave q a.sld * a.thickness) *
          stackMatrix (wave q) (wave q a.sld) l 1 1 := by
      intro q i
      show (interfaceMatrix (wave q ρ) (wave q a.sld) a.roughness * layerMatrix (wave q a.sld) a.thickness *
        stackMatrix (wave q) (wave q a.sld) l) i 1 = _
      rw [Matrix.mul_apply, Fin.sum_univ_two, Matrix.mul_apply, Fin.sum_univ_two, Matrix.mul_apply, Fin.sum_univ_two]
      simp [layerMatrix]
    have small0 : Tendsto (fun q : ℝ => interfaceMatrix (wave q ρ) (wave q a.sld) a.roughness 0 0 *
        cexp (-(I * wave q a.sld * a.thickness)) * stackMatrix (wave q) (wave q a.sld) l 0 1) atTop (𝓝 0) := by
      rw [tendsto_zero_iff_norm_tendsto_zero] at i1 ⊢
      simp only [norm_mul]
      have := (d.norm.mul t2).mul i1
      simpa [interfaceMatrix] using this
    have small1 : Tendsto (fun q : ℝ => interfaceMatrix (wave q ρ) (wave q a.sld) a.roughness 0 1 *
        cexp (I * wave q a.sld * a.thickness) * stackMatrix (wave q) (wave q a.sld) l 1 1) atTop (𝓝 0) := by
      rw [tendsto_zero_iff_norm_tendsto_zero] at o ⊢
      simp only [norm_mul] at o ⊢
      have := (o.mul t1).mul i2
      simpa [interfaceMatrix] using this
    have small2 : Tendsto (fun q : ℝ => interfaceMatrix (wave q ρ) (wave q a.sld) a.roughness 1 0 *
        cexp (-(I * wave q a.sld * a.thickness)) * stackMatrix (wave q) (wave q a.sld) l 0 1) atTop (𝓝 0) := by
      rw [tendsto_zero_iff_norm_tendsto_zero] at i1 o ⊢
      simp only [norm_mul] at o ⊢
      have := (o.mul t2).mul i1
      simpa [interfaceMatrix] using this
    have big : Tendsto (fun q : ℝ => ‖interfaceMatrix (wave q ρ) (wave q a.sld) a.roughness 1 1 *
        cexp (I * wave q a.sld * a.thickness) * stackMatrix (wave q) (wave q a.sld) l 1 1‖) atTop (𝓝 1) := by
      simp only [norm_mul]
      have := (d.norm.mul t1).mul i2
      simpa [interfaceMatrix] using this
    simp only [e]
    refine ⟨by simpa using small0.add small1, ?_⟩
    rw [tendsto_zero_iff_norm_tendsto_zero] at small2
    have lower := big.sub small2
    have upper := big.add small2
    rw [sub_zero] at lower
    rw [add_zero] at upper
    refine tendsto_of_tendsto_of_tendsto_of_le_of_le lower upper ?_ ?_
    · intro q
      have := norm_sub_norm_le (interfaceMatrix (wave q ρ) (wave q a.sld) a.roughness 1 1 *
        cexp (I * wave q a.sld * a.thickness) * stackMatrix (wave q) (wave q a.sld) l 1 1) (-(interfaceMatrix (wave q ρ) (wave q a.sld) a.roughness 1 0 *
        cexp (-(I * wave q a.sld * a.thickness)) * stackMatrix (wave q) (wave q a.sld) l 0 1))
      rw [norm_neg, sub_neg_eq_add, add_comm (_ * _) (_ * _)] at this
      exact this
    · intro q
      have := norm_add_le (interfaceMatrix (wave q ρ) (wave q a.sld) a.roughness 1 0 *
        cexp (-(I * wave q a.sld * a.thickness)) * stackMatrix (wave q) (wave q a.sld) l 0 1) (interfaceMatrix (wave q ρ) (wave q a.sld) a.roughness 1 1 *
        cexp (I * wave q a.sld * a.thickness) * stackMatrix (wave q) (wave q a.sld) l 1 1)
      rw [add_comm ‖_‖ ‖_‖] at this
      exact this

/-- C108: the curve of every stack of physical media, with any roughnesses and thicknesses, decays: for large q all values are numbers
and below every bound. -/
theorem C108_decay (t r : List ℝ) (s : List ℂ) (h1 : t.length + 1 = r.length) (h2 : r.length = s.length) (hp : ∀ ρ ∈ s, 0 ≤ ρ.im)
    (ε : ℝ) (hε : 0 < ε) :
    ∃ q₀ : ℝ, ∀ qs : List ℝ, (∀ q ∈ qs, q₀ ≤ q) → ∃ c : List ℝ, multilayerReflectivity qs t r s 0 = .ok (c.map some) ∧
      c.length = qs.length ∧ ∀ v ∈ c, 0 ≤ v ∧ v < ε := by
  obtain ⟨wave, hw⟩ := wave_exists
  obtain ⟨h0, hn⟩ := stack_tendsto hw (slabs t r s) (slabs_physical hp) (ρ := 0) (by simp)
  have hv : Tendsto (fun q : ℝ => ‖stackMatrix (wave q) (wave q 0) (slabs t r s) 0 1 / stackMatrix (wave q) (wave q 0) (slabs t r s) 1 1‖ ^ 2)
      atTop (𝓝 0) := by
    simp only [norm_div]
    rw [tendsto_zero_iff_norm_tendsto_zero] at h0
    simpa using (h0.div hn one_ne_zero).pow 2
  have hne : ∀ᶠ q : ℝ in atTop, 0 < ‖stackMatrix (wave q) (wave q 0) (slabs t r s) 1 1‖ := hn.eventually_const_lt one_pos
  obtain ⟨q₀, hq₀⟩ := eventually_atTop.1 (hne.and (hv.eventually_lt_const hε))
  refine ⟨q₀, fun qs hqs => ⟨qs.map fun (q : ℝ) => min (‖stackMatrix (wave q) (wave q 0) (slabs t r s) 0 1 /
    stackMatrix (wave q) (wave q 0) (slabs t r s) 1 1‖ ^ 2) 1, ?_, by simp, ?_⟩⟩
  · rw [C35_transfer qs t r s h1 h2 hp wave hw, List.map_map]
    congr 1
    refine List.map_congr_left fun q hq => ?_
    unfold intensity
    rw [if_neg (norm_pos_iff.1 (hq₀ q (hqs q hq)).1)]
    rfl
  · intro v hv
    obtain ⟨q, hq, rfl⟩ := List.mem_map.1 hv
    exact ⟨le_min (by positivity) zero_le_one, lt_of_le_of_lt (min_le_left _ _) (hq₀ q (hqs q hq)).2⟩

/-- The hypotheses hold: a q value below the critical angle of a substrate with density one. -/
example : ∃ v, multilayerReflectivity [1] [] [0] [((1 : ℝ) : ℂ)] 0 = .ok [some v] ∧ v ≤ 1 :=
  let ⟨v, h1, h2, _⟩ := C108_total_reflection 1 1 one_ne_zero (by nlinarith [Real.two_le_pi])
  ⟨v, h1, h2⟩

example : ∃ q₀ : ℝ, ∀ qs : List ℝ, (∀ q ∈ qs, q₀ ≤ q) → ∃ c : List ℝ, multilayerReflectivity qs [3] [1, 2] [2, 1] 0 = .ok (c.map some) ∧
    c.length = qs.length ∧ ∀ v ∈ c, 0 ≤ v ∧ v < 1 / 10 :=
  C108_decay [3] [1, 2] [2, 1] rfl rfl (by simp) _ (by norm_num)

end Verif.Props
