import Verif.Props.Flux

/-!
# C103: the cut at one hides nothing, and where rough interfaces are harmless
-/

namespace Verif.Props
open Verif.Py Verif.Model Verif.Spec Complex

/-- Real and imaginary part of the wave number above the sample. -/
theorem isWave_zero_parts {q : ℝ} {k : ℂ} (h : IsWave q 0 k) :
    k.re * k.re - k.im * k.im = q ^ 2 / 4 ∧ k.re * k.im = -(2 * Real.pi * 10 ^ (-30 : ℤ)) := by
  have h1 := congrArg Complex.re h.1
  have h2 := congrArg Complex.im h.1
  generalize (10 ^ (-30 : ℤ) : ℝ) = e at h1 h2 ⊢
  have e1 : ((q : ℂ) ^ 2 / 4).re = q ^ 2 / 4 := by
    have : ((q : ℂ) ^ 2 / 4) = ((q ^ 2 / 4 : ℝ) : ℂ) := by push_cast; ring
    rw [this, Complex.ofReal_re]
  have e2 : ((q : ℂ) ^ 2 / 4).im = 0 := by
    have : ((q : ℂ) ^ 2 / 4) = ((q ^ 2 / 4 : ℝ) : ℂ) := by push_cast; ring
    rw [this, Complex.ofReal_im]
  rw [Complex.sub_re, e1] at h1
  rw [Complex.sub_im, e2] at h2
  simp [sq] at h1 h2
  constructor
  · rw [h1, sq]
  · linarith

/-- C103: for physical media, sharp interfaces, non-negative thicknesses and `q ≠ 0`, the amplitude of the reflected
wave of every stack exceeds the one of the incoming wave by at most the part `16 π 10⁻³⁰ / q²`, which is the effect of
the constant that the code adds to the densities. The value of the code is the square of the amplitude ratio whenever
this is at most one. -/
theorem C103_passive (q : ℝ) (hq : q ≠ 0) (t r : List ℝ) (s : List ℂ) (h1 : t.length + 1 = r.length)
    (h2 : r.length = s.length) (hp : ∀ ρ ∈ s, 0 ≤ ρ.im) (hr : ∀ x ∈ r, x = 0) (ht : ∀ d ∈ t, 0 ≤ d)
    (wave : ℂ → ℂ) (hw : ∀ ρ, 0 ≤ ρ.im → IsWave q ρ (wave ρ)) :
    stackMatrix wave (wave 0) (slabs t r s) 1 1 ≠ 0 ∧
    ‖stackMatrix wave (wave 0) (slabs t r s) 0 1 / stackMatrix wave (wave 0) (slabs t r s) 1 1‖ <
      1 + 16 * Real.pi * 10 ^ (-30 : ℤ) / q ^ 2 ∧
    multilayerReflectivity [q] t r s 0 = .ok [some (min (‖stackMatrix wave (wave 0) (slabs t r s) 0 1 /
      stackMatrix wave (wave 0) (slabs t r s) 1 1‖ ^ 2) 1)] := by
  have him : ∀ ρ : ℂ, 0 ≤ ρ.im → (wave ρ).im < 0 := fun ρ h => by
    rw [isWave_unique (hw ρ h) (codeWave_isWave q h).1]; exact (codeWave_isWave q h).2
  have hw0 := hw 0 (by simp)
  have hf := flux_stack (fun ρ h => ⟨hw ρ h, him ρ h⟩) (slabs t r s) (slabs_physical hp)
    (fun x hx => hr _ (slabs_mem hx).2.1)
    (fun x hx => by
      rcases (slabs_mem hx).2.2 with h | h
      · exact h.ge
      · exact ht _ h) (wave 0) hw0.2 (isWave_ne_zero hw0)
  have hpt := codePoint_eq t r s hp q wave hw
  have hm := multilayer_eq [q] t r s h1 h2
  unfold intensity at hpt
  generalize stackMatrix wave (wave 0) (slabs t r s) 0 1 = a at hf hpt ⊢
  have hne : stackMatrix wave (wave 0) (slabs t r s) 1 1 ≠ 0 := by
    intro h0
    rw [h0, flux_eq] at hf
    simp only [map_zero, zero_mul, zero_sub, Complex.zero_im, mul_zero, sub_zero] at hf
    have := Complex.normSq_nonneg a
    nlinarith [hw0.2]
  refine ⟨hne, ?_, ?_⟩
  · generalize stackMatrix wave (wave 0) (slabs t r s) 1 1 = b at hf hne
    obtain ⟨p1, p2⟩ := isWave_zero_parts hw0
    set k := wave 0
    have hk := hw0.2
    have hki := him 0 (by simp)
    have hδ0 : 0 < (10 ^ (-30 : ℤ) : ℝ) := by positivity
    generalize (10 ^ (-30 : ℤ) : ℝ) = δ at hδ0 p2 ⊢
    have hq2 : 0 < q ^ 2 := by positivity
    -- the ratio of imaginary and real part
    set ε : ℝ := 8 * Real.pi * δ / q ^ 2 with hε
    have hε0 : 0 < ε := by rw [hε]; positivity
    have hratio : -k.im ≤ ε * k.re := by
      have h3 : q ^ 2 / 4 ≤ k.re * k.re := by nlinarith [mul_self_nonneg k.im]
      have h4 : ε * (k.re * k.re) ≥ 2 * Real.pi * δ := by
        have : ε * (q ^ 2 / 4) = 2 * Real.pi * δ := by
          rw [hε]; field_simp; ring
        have := mul_le_mul_of_nonneg_left h3 hε0.le
        linarith
      by_contra hc
      push Not at hc
      nlinarith
    rw [flux_eq] at hf
    have hc : -(‖a‖ * ‖b‖) ≤ (b * (starRingEnd ℂ) a).im := by
      have := Complex.abs_im_le_norm (b * (starRingEnd ℂ) a)
      rw [norm_mul, RCLike.norm_conj] at this
      have := (abs_le.1 this).1
      linarith [mul_comm ‖a‖ ‖b‖]
    rw [Complex.normSq_eq_norm_sq, Complex.normSq_eq_norm_sq] at hf
    have hA := norm_nonneg a
    have hB : 0 < ‖b‖ := norm_pos_iff.2 hne
    have hAB : 0 ≤ ‖a‖ * ‖b‖ := mul_nonneg hA hB.le
    have hlt : ‖a‖ ^ 2 < ‖b‖ ^ 2 + 2 * ε * (‖a‖ * ‖b‖) := by
      by_contra hcon
      push Not at hcon
      have m1 : k.re * (‖b‖ ^ 2 - ‖a‖ ^ 2) ≤ k.re * (-(2 * ε * (‖a‖ * ‖b‖))) :=
        mul_le_mul_of_nonneg_left (by linarith) hk.le
      have m2 : -(k.im) * (‖a‖ * ‖b‖) ≤ ε * k.re * (‖a‖ * ‖b‖) := mul_le_mul_of_nonneg_right hratio hAB
      have m3 : 2 * -k.im * (b * (starRingEnd ℂ) a).im ≤ 2 * -k.im * (‖a‖ * ‖b‖) := by
        have h5 : (b * (starRingEnd ℂ) a).im ≤ ‖a‖ * ‖b‖ := by
          have := Complex.abs_im_le_norm (b * (starRingEnd ℂ) a)
          rw [norm_mul, RCLike.norm_conj] at this
          have := (abs_le.1 this).2
          linarith [mul_comm ‖a‖ ‖b‖]
        exact mul_le_mul_of_nonneg_left h5 (by linarith)
      nlinarith
    rw [norm_div, div_lt_iff₀ hB]
    have e2 : 16 * Real.pi * δ / q ^ 2 = 2 * ε := by rw [hε]; ring
    rw [e2]
    by_contra hcon
    push Not at hcon
    nlinarith [mul_le_mul_of_nonneg_left hcon hA, mul_le_mul_of_nonneg_left hcon hB.le]
  · rw [hm, List.map_cons, List.map_nil, hpt, if_neg hne]

/-- Both wave numbers of media above their critical angle lie below the diagonal. -/
theorem isWave_above {q : ℝ} {ρ k : ℂ} (h : IsWave q ρ k) (hq : 16 * Real.pi * ρ.re ≤ q ^ 2) : k.im ^ 2 ≤ k.re ^ 2 := by
  have h1 := congrArg Complex.re h.1
  generalize (10 ^ (-30 : ℤ) : ℝ) = e at h1
  have e1 : ((q : ℂ) ^ 2 / 4).re = q ^ 2 / 4 := by
    have : ((q : ℂ) ^ 2 / 4) = ((q ^ 2 / 4 : ℝ) : ℂ) := by push_cast; ring
    rw [this, Complex.ofReal_re]
  rw [Complex.sub_re, e1] at h1
  simp [sq] at h1
  nlinarith

/-- The amplitude of the Fresnel coefficient with the roughness factor is below one. -/
theorem fresnel_rough {k k' : ℂ} (hk : 0 < k.re) (hk' : 0 < k'.re) (hi : k.im < 0) (hi' : k'.im < 0)
    (ha : k.im ^ 2 ≤ k.re ^ 2) (ha' : k'.im ^ 2 ≤ k'.re ^ 2) (σ : ℝ) :
    ‖k - k'‖ * ‖cexp (-(k + k') ^ 2 * σ ^ 2 / 2)‖ < ‖k + k'‖ * ‖cexp (-(k - k') ^ 2 * σ ^ 2 / 2)‖ := by
  have hlt : ‖k - k'‖ < ‖k + k'‖ := by
    rw [← sq_lt_sq₀ (norm_nonneg _) (norm_nonneg _), ← Complex.normSq_eq_norm_sq, ← Complex.normSq_eq_norm_sq,
      Complex.normSq_apply, Complex.normSq_apply]
    simp only [Complex.sub_re, Complex.sub_im, Complex.add_re, Complex.add_im]
    nlinarith [mul_pos hk hk', mul_pos_of_neg_of_neg hi hi']
  have hle : ‖cexp (-(k + k') ^ 2 * σ ^ 2 / 2)‖ ≤ ‖cexp (-(k - k') ^ 2 * σ ^ 2 / 2)‖ := by
    rw [Complex.norm_exp, Complex.norm_exp, Real.exp_le_exp]
    have e : ∀ z : ℂ, (-z ^ 2 * (σ : ℂ) ^ 2 / 2).re = -(z.re * z.re - z.im * z.im) * σ ^ 2 / 2 := by
      intro z
      have : -z ^ 2 * (σ : ℂ) ^ 2 / 2 = ((-(z.re * z.re - z.im * z.im) * σ ^ 2 / 2 : ℝ) : ℂ) +
          ((-(2 * z.re * z.im) * σ ^ 2 / 2 : ℝ) : ℂ) * I := by
        conv_lhs => rw [← Complex.re_add_im z]
        push_cast
        ring_nf
        rw [Complex.I_sq]
        ring
      rw [this, Complex.add_re, Complex.ofReal_re, Complex.re_ofReal_mul, Complex.I_re, mul_zero, add_zero]
    rw [e, e]
    simp only [Complex.sub_re, Complex.sub_im, Complex.add_re, Complex.add_im]
    have h1 : -k.im ≤ k.re := by nlinarith
    have h2 : -k'.im ≤ k'.re := by nlinarith
    have h3 : 0 ≤ k.re * k'.re - k.im * k'.im := by
      have := mul_le_mul h1 h2 (by linarith) hk.le
      nlinarith
    nlinarith [mul_nonneg h3 (sq_nonneg σ)]
  calc ‖k - k'‖ * ‖cexp (-(k + k') ^ 2 * σ ^ 2 / 2)‖ ≤ ‖k - k'‖ * ‖cexp (-(k - k') ^ 2 * σ ^ 2 / 2)‖ :=
        mul_le_mul_of_nonneg_left hle (norm_nonneg _)
    _ < _ := mul_lt_mul_of_pos_right hlt (norm_pos_iff.2 (Complex.exp_ne_zero _))

/-- C103: for a layer on a substrate, every value above the critical angles of both media is a number, for all
roughnesses and thicknesses; `C34_nan` shows that this fails below. -/
theorem C103_one_layer (q d σ₁ σ₂ : ℝ) (ρ₁ ρ₂ : ℂ) (hd : 0 ≤ d) (hρ₁ : 0 ≤ ρ₁.im) (hρ₂ : 0 ≤ ρ₂.im)
    (hc₁ : 16 * Real.pi * ρ₁.re ≤ q ^ 2) (hc₂ : 16 * Real.pi * ρ₂.re ≤ q ^ 2) :
    ∃ v, multilayerReflectivity [q] [d] [σ₂, σ₁] [ρ₂, ρ₁] 0 = .ok [some v] ∧ 0 ≤ v ∧ v ≤ 1 := by
  obtain ⟨wave, hw⟩ := wave_exists
  have him : ∀ ρ : ℂ, 0 ≤ ρ.im → (wave q ρ).im < 0 := fun ρ h => by
    rw [isWave_unique (hw q ρ h) (codeWave_isWave q h).1]; exact (codeWave_isWave q h).2
  have w0 := hw q 0 (by simp)
  have w1 := hw q ρ₁ hρ₁
  have w2 := hw q ρ₂ hρ₂
  have a0 := isWave_above w0 (by simpa using sq_nonneg q)
  have a1 := isWave_above w1 hc₁
  have a2 := isWave_above w2 hc₂
  have i0 := him 0 (by simp)
  have i1 := him ρ₁ hρ₁
  have i2 := him ρ₂ hρ₂
  rw [C35_transfer [q] [d] [σ₂, σ₁] [ρ₂, ρ₁] rfl rfl (by simp [hρ₁, hρ₂]) wave hw]
  have hm : stackMatrix (wave q) (wave q 0) (slabs [d] [σ₂, σ₁] [ρ₂, ρ₁]) =
      interfaceMatrix (wave q 0) (wave q ρ₁) σ₁ * layerMatrix (wave q ρ₁) d *
        interfaceMatrix (wave q ρ₁) (wave q ρ₂) σ₂ := by
    simp [slabs, stackMatrix, layerMatrix_zero]
  simp only [List.map_cons, List.map_nil, hm]
  have k0 := isWave_ne_zero w0
  have k1 := isWave_ne_zero w1
  have f1 := fresnel_rough w0.2 w1.2 i0 i1 a0 a1 σ₁
  have f2 := fresnel_rough w1.2 w2.2 i1 i2 a1 a2 σ₂
  have hT : ‖cexp (-(I * wave q ρ₁ * d))‖ ≤ ‖cexp (I * wave q ρ₁ * d)‖ := by
    rw [Complex.norm_exp, Complex.norm_exp, Real.exp_le_exp]
    simp
    nlinarith
  generalize wave q 0 = p0 at *
  generalize wave q ρ₁ = p1 at *
  generalize wave q ρ₂ = p2 at *
  have h11 : (interfaceMatrix p0 p1 σ₁ * layerMatrix p1 d * interfaceMatrix p1 p2 σ₂) 1 1 ≠ 0 := by
    rw [Matrix.mul_apply]
    simp only [Fin.sum_univ_two, Matrix.mul_apply, interfaceMatrix, layerMatrix, Matrix.of_apply, Matrix.cons_val',
      Matrix.cons_val_one, Matrix.cons_val_zero, Matrix.cons_val_fin_one, mul_zero, add_zero, zero_add]
    intro h
    have hn := congrArg norm (eq_neg_of_add_eq_zero_left h)
    rw [norm_neg] at hn
    simp only [norm_mul, norm_div] at hn
    have c0 : 0 < ‖(2 : ℂ)‖ * ‖p0‖ := mul_pos (by simp) (norm_pos_iff.2 k0)
    have c1 : 0 < ‖(2 : ℂ)‖ * ‖p1‖ := mul_pos (by simp) (norm_pos_iff.2 k1)
    have hE : 0 < ‖cexp (I * p1 * d)‖ := norm_pos_iff.2 (Complex.exp_ne_zero _)
    have hx : ‖p0 - p1‖ * ‖cexp (-(p0 + p1) ^ 2 * σ₁ ^ 2 / 2)‖ * ‖cexp (-(I * p1 * d))‖ *
        (‖p1 - p2‖ * ‖cexp (-(p1 + p2) ^ 2 * σ₂ ^ 2 / 2)‖) <
        ‖p0 + p1‖ * ‖cexp (-(p0 - p1) ^ 2 * σ₁ ^ 2 / 2)‖ * ‖cexp (I * p1 * d)‖ *
        (‖p1 + p2‖ * ‖cexp (-(p1 - p2) ^ 2 * σ₂ ^ 2 / 2)‖) := by
      refine mul_lt_mul'' ?_ f2 (by positivity) (by positivity)
      calc _ ≤ ‖p0 - p1‖ * ‖cexp (-(p0 + p1) ^ 2 * σ₁ ^ 2 / 2)‖ * ‖cexp (I * p1 * d)‖ :=
            mul_le_mul_of_nonneg_left hT (by positivity)
        _ < _ := mul_lt_mul_of_pos_right f1 hE
    refine hx.ne ?_
    have e : ∀ A c E T B c' F : ℝ, A / c * E * T * (B / c' * F) = A * E * T * (B * F) / (c * c') := by
      intro A c E T B c' F
      simp only [div_eq_mul_inv, mul_inv]
      ring
    rw [e, e, div_left_inj' (mul_pos c0 c1).ne'] at hn
    exact hn
  unfold intensity
  rw [if_neg h11]
  exact ⟨_, rfl, le_min (sq_nonneg _) zero_le_one, min_le_right _ _⟩

/-- The hypotheses of `C103_passive` hold for a layer on a substrate. -/
example : (1 : ℝ) ≠ 0 ∧ ([200] : List ℝ).length + 1 = ([0, 0] : List ℝ).length ∧
    (∀ ρ ∈ ([20 + I, 10] : List ℂ), 0 ≤ ρ.im) ∧ (∃ wave : ℂ → ℂ, ∀ ρ, 0 ≤ ρ.im → IsWave 1 ρ (wave ρ)) :=
  ⟨one_ne_zero, rfl, by simp, codeWave 1, fun _ h => (codeWave_isWave 1 h).1⟩

/-- The hypotheses of `C103_one_layer` hold for large `q`. -/
example : 16 * Real.pi * (2 : ℂ).re ≤ (100 : ℝ) ^ 2 ∧ 0 ≤ (2 + I : ℂ).im := by
  constructor
  · simp; nlinarith [Real.pi_le_four]
  · simp

end Verif.Props
