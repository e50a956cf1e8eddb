import Verif.Props.Reflectivity
import Mathlib.Analysis.SpecialFunctions.Trigonometric.DerivHyp

/-!
# C34: range of the simulated curve, and where it is defined
-/

namespace Verif.Props
open Verif.Py Verif.Model Verif.Spec Complex

/-- C34: errors and range. The ambient density is checked first; then the lengths; otherwise there is one entry
per `q`, and every entry that is a number lies in `[0, 1]`. -/
theorem C34_range_partial (q t r : List ℝ) (s : List ℂ) (amb : ℂ) :
    (amb ≠ 0 → multilayerReflectivity q t r s amb = .error .notImplementedError) ∧
    (amb = 0 → ¬(t.length + 1 = r.length ∧ r.length = s.length) →
      multilayerReflectivity q t r s amb = .error .valueError) ∧
    (amb = 0 → t.length + 1 = r.length → r.length = s.length →
      ∃ c, multilayerReflectivity q t r s amb = .ok c ∧ c.length = q.length ∧
        ∀ v, some v ∈ c → 0 ≤ v ∧ v ≤ 1) := by
  refine ⟨fun h => if_pos h, fun h hc => ?_, fun h h1 h2 => ?_⟩
  · unfold multilayerReflectivity
    rw [if_neg (not_not.2 h)]
    simp only [List.length_reverse, List.length_map]
    rw [if_neg hc]
  · subst h
    refine ⟨_, multilayer_eq q t r s h1 h2, by simp, fun v hv => ?_⟩
    obtain ⟨x, -, hx⟩ := List.mem_map.1 hv
    unfold codePoint reflectivityOf at hx
    split_ifs at hx
    cases hx
    exact ⟨le_min (sq_nonneg _) zero_le_one, min_le_right _ _⟩

/-! ### Energy flux in sharp stacks -/

/-- The downward energy flux of the waves `a` (up) and `b` (down). -/
noncomputable def flux (k a b : ℂ) : ℝ := (k * (b - a) * (starRingEnd ℂ) (a + b)).re

theorem flux_eq (k a b : ℂ) :
    flux k a b = k.re * (normSq b - normSq a) - 2 * k.im * (b * (starRingEnd ℂ) a).im := by
  unfold flux
  simp only [Complex.mul_re, Complex.mul_im, Complex.sub_re, Complex.sub_im, Complex.add_re, Complex.add_im,
    Complex.conj_re, Complex.conj_im, Complex.normSq_apply]
  ring

theorem flux_interface {k k' a b : ℂ} (h : k ≠ 0) :
    flux k ((k + k') / (2 * k) * a + (k - k') / (2 * k) * b) ((k - k') / (2 * k) * a + (k + k') / (2 * k) * b) =
      flux k' a b := by
  unfold flux
  have e1 : (k + k') / (2 * k) * a + (k - k') / (2 * k) * b + ((k - k') / (2 * k) * a + (k + k') / (2 * k) * b)
      = a + b := by field_simp; ring
  have e2 : k * ((k - k') / (2 * k) * a + (k + k') / (2 * k) * b -
      ((k + k') / (2 * k) * a + (k - k') / (2 * k) * b)) = k' * (b - a) := by field_simp; ring
  rw [e1, e2]

theorem hyperbolic_bound {A B x : ℝ} (hA : 0 ≤ A) (hB : 0 ≤ B) (hx : 0 ≤ x) :
    4 * x * (A * B) ≤ B ^ 2 * (Real.exp (2 * x) - 1) + A ^ 2 * (1 - Real.exp (-(2 * x))) := by
  have hs : x ≤ Real.sinh x := Real.self_le_sinh_iff.2 hx
  rw [Real.sinh_eq] at hs
  have e1 : Real.exp (2 * x) = Real.exp x * Real.exp x := by rw [← Real.exp_add]; ring_nf
  have e2 : Real.exp (-(2 * x)) = Real.exp (-x) * Real.exp (-x) := by rw [← Real.exp_add]; ring_nf
  have e3 : Real.exp x * Real.exp (-x) = 1 := by rw [← Real.exp_add]; simp
  set u := Real.exp x
  set w := Real.exp (-x)
  rw [e1, e2]
  have hu : 0 < u := Real.exp_pos _
  have hw : 0 < w := Real.exp_pos _
  have hs' : 2 * x ≤ u - w := by linarith
  have key : B ^ 2 * (u * u - 1) + A ^ 2 * (1 - w * w) = (u - w) * (B ^ 2 * u + A ^ 2 * w) := by
    linear_combination (B ^ 2 - A ^ 2) * e3
  rw [key]
  have h2 : 2 * (A * B) ≤ B ^ 2 * u + A ^ 2 * w := by
    have : 0 ≤ u * (B - A * w) ^ 2 := mul_nonneg hu.le (sq_nonneg _)
    have e : u * (B - A * w) ^ 2 = B ^ 2 * u - 2 * (A * B) + A ^ 2 * w := by
      linear_combination (-2 * A * B + A ^ 2 * w) * e3
    linarith
  have h3 : 0 ≤ A * B := mul_nonneg hA hB
  nlinarith [mul_le_mul hs' h2 (by linarith) (by linarith : 0 ≤ u - w)]

theorem flux_layer {k a b : ℂ} (hre : 0 < k.re) (him : k.im ≤ 0) {d : ℝ} (hd : 0 ≤ d) :
    flux k a b ≤ flux k (cexp (-(I * k * d)) * a) (cexp (I * k * d) * b) := by
  rw [flux_eq, flux_eq]
  have hz : I * k * d = ((-k.im * d : ℝ) : ℂ) + I * ((k.re * d : ℝ) : ℂ) := by
    apply Complex.ext <;> simp
  have n1 : normSq (cexp (I * k * d)) = Real.exp (2 * (-k.im * d)) := by
    rw [Complex.normSq_eq_norm_sq, Complex.norm_exp, hz, sq, ← Real.exp_add]
    congr 1
    simp
    ring
  have n2 : normSq (cexp (-(I * k * d))) = Real.exp (-(2 * (-k.im * d))) := by
    rw [Complex.normSq_eq_norm_sq, Complex.norm_exp, hz, sq, ← Real.exp_add]
    congr 1
    simp
    ring
  have n3 : cexp (I * k * d) * b * (starRingEnd ℂ) (cexp (-(I * k * d)) * a) =
      b * (starRingEnd ℂ) a * cexp (I * ((2 * (k.re * d) : ℝ) : ℂ)) := by
    rw [map_mul, ← Complex.exp_conj]
    have : cexp (I * k * d) * cexp ((starRingEnd ℂ) (-(I * k * d))) = cexp (I * ((2 * (k.re * d) : ℝ) : ℂ)) := by
      rw [← Complex.exp_add]
      congr 1
      apply Complex.ext <;> simp <;> ring
    rw [← this]
    ring
  rw [Complex.normSq_mul, Complex.normSq_mul, n1, n2, n3]
  have hx : 0 ≤ -k.im * d := mul_nonneg (by linarith) hd
  have hb := hyperbolic_bound (norm_nonneg a) (norm_nonneg b) hx
  have hw : ‖cexp (I * ((2 * (k.re * d) : ℝ) : ℂ)) - 1‖ ≤ 2 * (k.re * d) := by
    refine (Real.norm_exp_I_mul_ofReal_sub_one_le).trans ?_
    rw [Real.norm_eq_abs, abs_of_nonneg]
    have := mul_nonneg hre.le hd
    linarith
  set w := cexp (I * ((2 * (k.re * d) : ℝ) : ℂ))
  set c := b * (starRingEnd ℂ) a
  have hc : ‖c‖ = ‖a‖ * ‖b‖ := by simp [c, mul_comm]
  have him' : c.im - ‖a‖ * ‖b‖ * (2 * (k.re * d)) ≤ (c * w).im := by
    have h1 : |(c * (w - 1)).im| ≤ ‖c‖ * ‖w - 1‖ := by
      rw [← norm_mul]; exact Complex.abs_im_le_norm _
    have h2 : ‖c‖ * ‖w - 1‖ ≤ ‖c‖ * (2 * (k.re * d)) := mul_le_mul_of_nonneg_left hw (norm_nonneg _)
    have h3 : (c * w).im = c.im + (c * (w - 1)).im := by
      rw [← Complex.add_im]; congr 1; ring
    rw [h3]
    have := (abs_le.1 (h1.trans h2)).1
    rw [hc] at this
    linarith
  have na : normSq a = ‖a‖ ^ 2 := Complex.normSq_eq_norm_sq a
  have nb : normSq b = ‖b‖ ^ 2 := Complex.normSq_eq_norm_sq b
  rw [na, nb]
  have hk : 0 ≤ -k.im := by linarith
  have m1 := mul_le_mul_of_nonneg_left hb hre.le
  have m2 := mul_le_mul_of_nonneg_left him' (by linarith : 0 ≤ 2 * -k.im)
  nlinarith [m1, m2]

theorem flux_stack {q : ℝ} {wave : ℂ → ℂ} (hw : ∀ ρ, 0 ≤ ρ.im → IsWave q ρ (wave ρ) ∧ (wave ρ).im < 0)
    (l : List Slab) (hp : Physical l) (hsharp : ∀ x ∈ l, x.roughness = 0) (hthick : ∀ x ∈ l, 0 ≤ x.thickness)
    (k : ℂ) (hk : 0 < k.re) (hk0 : k ≠ 0) :
    0 < flux k (stackMatrix wave k l 0 1) (stackMatrix wave k l 1 1) := by
  induction l generalizing k with
  | nil =>
    simp [stackMatrix, flux, hk]
  | cons a l ih =>
    obtain ⟨⟨h1, h2⟩, h3⟩ := hw a.sld (hp a (by simp))
    have hne : wave a.sld ≠ 0 := isWave_ne_zero ⟨h1, h2⟩
    have i := ih (fun x hx => hp x (by simp [hx])) (fun x hx => hsharp x (by simp [hx]))
      (fun x hx => hthick x (by simp [hx])) (wave a.sld) h2 hne
    have i2 := i.trans_le (flux_layer (a := stackMatrix wave (wave a.sld) l 0 1)
      (b := stackMatrix wave (wave a.sld) l 1 1) h2 h3.le (hthick a (by simp)))
    rw [← flux_interface (k := k) hk0] at i2
    simp only [stackMatrix, hsharp a (by simp)]
    rw [Matrix.mul_apply, Matrix.mul_apply]
    simp only [Fin.sum_univ_two, Matrix.mul_apply, interfaceMatrix, layerMatrix, Matrix.of_apply, Matrix.cons_val',
      Matrix.cons_val_one, Matrix.cons_val_zero, Matrix.cons_val_fin_one]
    simp only [Complex.ofReal_zero, ne_eq, OfNat.ofNat_ne_zero, not_false_eq_true, zero_pow, mul_zero, zero_div,
      Complex.exp_zero, mul_one, add_zero, zero_add]
    simp only [← mul_assoc] at i2
    exact i2

/-- C34 for sharp interfaces: for physical media, zero roughnesses and non-negative thicknesses, every entry of
the curve is a number in `[0, 1]`; the incoming wave never vanishes. -/
theorem C34_sharp (q t r : List ℝ) (s : List ℂ) (h1 : t.length + 1 = r.length) (h2 : r.length = s.length)
    (hp : ∀ ρ ∈ s, 0 ≤ ρ.im) (hr : ∀ x ∈ r, x = 0) (ht : ∀ d ∈ t, 0 ≤ d) :
    ∃ c : List ℝ, multilayerReflectivity q t r s 0 = .ok (c.map some) ∧ c.length = q.length ∧
      ∀ v ∈ c, 0 ≤ v ∧ v ≤ 1 := by
  have key : ∀ q : ℝ, ∃ v, codePoint t r s q = some v ∧ 0 ≤ v ∧ v ≤ 1 := by
    intro q
    have hwave : ∀ ρ : ℂ, 0 ≤ ρ.im → IsWave q ρ (codeWave q ρ) ∧ (codeWave q ρ).im < 0 := fun ρ h =>
      codeWave_isWave q h
    have hf := flux_stack hwave (slabs t r s) (slabs_physical hp) (fun x hx => hr _ (slabs_mem hx).2.1)
      (fun x hx => by
        rcases (slabs_mem hx).2.2 with h | h
        · exact h.ge
        · exact ht _ h) (codeWave q 0) (hwave 0 (by simp)).1.2 (codeWave_ne_zero q (by simp))
    rw [codePoint_eq t r s hp q (codeWave q) (fun ρ h => (hwave ρ h).1)]
    unfold intensity
    rw [if_neg]
    · exact ⟨_, rfl, le_min (sq_nonneg _) zero_le_one, min_le_right _ _⟩
    · intro h0
      rw [h0, flux_eq] at hf
      simp only [map_zero, zero_mul, zero_sub, Complex.zero_im, mul_zero, sub_zero] at hf
      have := Complex.normSq_nonneg (stackMatrix (codeWave q) (codeWave q 0) (slabs t r s) 0 1)
      have h2 := (hwave 0 (by simp)).1.2
      nlinarith
  choose f hf using key
  refine ⟨q.map f, ?_, by simp, ?_⟩
  · rw [multilayer_eq q t r s h1 h2, List.map_map]
    congr 1
    exact List.map_congr_left fun x _ => (hf x).1
  · intro v hv
    obtain ⟨x, -, rfl⟩ := List.mem_map.1 hv
    exact (hf x).2

/-- The hypotheses of `C34_sharp` hold for a layer on a substrate. -/
example : ([200] : List ℝ).length + 1 = ([0, 0] : List ℝ).length ∧ ([0, 0] : List ℝ).length =
    ([20, 10] : List ℂ).length ∧ ∀ ρ ∈ ([20, 10] : List ℂ), 0 ≤ ρ.im := by simp

/-- Whenever the wave numbers `k₁` and `k₂` of the layer and the substrate satisfy `Re (k₁ k₂) < 0` (both media
are totally reflecting), there are a thickness and a roughness of the buried interface for which the incoming
wave vanishes, so that the code divides by zero. -/
theorem nan_of_evanescent (q : ℝ) (ρ₁ ρ₂ k₀ k₁ k₂ : ℂ) (hρ₁ : 0 ≤ ρ₁.im) (hρ₂ : 0 ≤ ρ₂.im) (h0 : IsWave q 0 k₀)
    (h1 : IsWave q ρ₁ k₁) (h2 : IsWave q ρ₂ k₂) (hne1 : k₀ ≠ k₁) (hne2 : k₁ ≠ k₂) (hneg : (k₁ * k₂).re < 0) :
    ∃ d σ : ℝ, 0 < d ∧ 0 < σ ∧ multilayerReflectivity [q] [d] [σ, 0] [ρ₂, ρ₁] 0 = .ok [none] := by
  have i1 : k₁.im < 0 := by
    rw [isWave_unique h1 (codeWave_isWave q hρ₁).1]; exact (codeWave_isWave q hρ₁).2
  have i2 : k₂.im < 0 := by
    rw [isWave_unique h2 (codeWave_isWave q hρ₂).1]; exact (codeWave_isWave q hρ₂).2
  have hk0 := isWave_ne_zero h0
  have hk1 := isWave_ne_zero h1
  have hs1 : k₀ + k₁ ≠ 0 := by
    intro h
    have := congrArg Complex.re h
    simp at this
    linarith [h0.2, h1.2]
  have hs2 : k₁ + k₂ ≠ 0 := by
    intro h
    have := congrArg Complex.re h
    simp at this
    linarith [h1.2, h2.2]
  -- the quotient that the phase factor has to compensate
  set Z : ℂ := -((k₀ + k₁) * (k₁ + k₂)) / ((k₀ - k₁) * (k₁ - k₂)) with hZ
  have hZ0 : Z ≠ 0 :=
    div_ne_zero (neg_ne_zero.2 (mul_ne_zero hs1 hs2)) (mul_ne_zero (sub_ne_zero.2 hne1) (sub_ne_zero.2 hne2))
  set w₀ : ℂ := -(Complex.log Z) / (2 * k₁) with hw0
  set z : ℂ := -((Real.pi : ℂ) * I) / k₁ with hz
  have hn1 : 0 < normSq k₁ := Complex.normSq_pos.2 hk1
  have zre : z.re = -Real.pi * k₁.im / normSq k₁ := by
    rw [hz, Complex.div_re]
    simp
  have zim : z.im = -Real.pi * k₁.re / normSq k₁ := by
    rw [hz, Complex.div_im]
    simp
  have hu : 0 < z.re := by
    rw [zre]
    exact div_pos (by nlinarith [Real.pi_pos]) hn1
  have hv : 0 < z.im - k₂.im * (z.re / k₂.re) := by
    rw [zre, zim]
    have : -Real.pi * k₁.re / normSq k₁ - k₂.im * (-Real.pi * k₁.im / normSq k₁ / k₂.re) =
        Real.pi * -(k₁ * k₂).re / (normSq k₁ * k₂.re) := by
      rw [Complex.mul_re]
      have := h2.2.ne'
      field_simp
      ring
    rw [this]
    exact div_pos (mul_pos Real.pi_pos (by linarith)) (mul_pos hn1 h2.2)
  obtain ⟨n, hn⟩ := exists_nat_gt (max (-w₀.re / z.re)
    (-(w₀.im - k₂.im * (w₀.re / k₂.re)) / (z.im - k₂.im * (z.re / k₂.re))))
  have hn1' : 0 < w₀.re + n * z.re := by
    have := (le_max_left _ _).trans_lt hn
    rw [div_lt_iff₀ hu] at this
    linarith
  have hn2' : 0 < (w₀.im - k₂.im * (w₀.re / k₂.re)) + n * (z.im - k₂.im * (z.re / k₂.re)) := by
    have := (le_max_right _ _).trans_lt hn
    rw [div_lt_iff₀ hv] at this
    linarith
  set s : ℝ := (w₀.re + n * z.re) / k₂.re with hs
  have hspos : 0 < s := div_pos hn1' h2.2
  set d : ℝ := w₀.im + n * z.im - k₂.im * s with hd
  have hdpos : 0 < d := by
    have : d = (w₀.im - k₂.im * (w₀.re / k₂.re)) + n * (z.im - k₂.im * (z.re / k₂.re)) := by
      rw [hd, hs]; ring
    rw [this]; exact hn2'
  refine ⟨d, Real.sqrt s, hdpos, Real.sqrt_pos.2 hspos, ?_⟩
  -- the phase equation
  have hphase : I * (d : ℂ) + k₂ * (s : ℂ) = w₀ + n * z := by
    apply Complex.ext
    · simp
      rw [hs]
      field_simp [h2.2.ne']
    · simp
      rw [hd]
      ring
  have hexp : cexp (-2 * k₁ * (I * (d : ℂ) + k₂ * (s : ℂ))) = Z := by
    rw [hphase, hw0, hz]
    have : -2 * k₁ * (-Complex.log Z / (2 * k₁) + n * (-((Real.pi : ℂ) * I) / k₁)) =
        Complex.log Z + n * (2 * (Real.pi : ℂ) * I) := by
      field_simp
      ring
    rw [this, Complex.exp_add, Complex.exp_log hZ0, Complex.exp_nat_mul_two_pi_mul_I, mul_one]
  obtain ⟨wave, hw⟩ := wave_exists
  have e0 : wave q 0 = k₀ := isWave_unique (hw q 0 (by simp)) h0
  have e1 : wave q ρ₁ = k₁ := isWave_unique (hw q ρ₁ hρ₁) h1
  have e2 : wave q ρ₂ = k₂ := isWave_unique (hw q ρ₂ hρ₂) h2
  rw [C35_transfer [q] [d] [Real.sqrt s, 0] [ρ₂, ρ₁] rfl rfl (by simp [hρ₁, hρ₂]) wave hw]
  have hm : stackMatrix (wave q) (wave q 0) (slabs [d] [Real.sqrt s, 0] [ρ₂, ρ₁]) =
      interfaceMatrix k₀ k₁ 0 * layerMatrix k₁ d * interfaceMatrix k₁ k₂ (Real.sqrt s) := by
    simp [slabs, stackMatrix, layerMatrix_zero, e0, e1, e2]
  simp only [List.map_cons, List.map_nil, hm]
  have hsq : ((Real.sqrt s : ℝ) : ℂ) ^ 2 = (s : ℂ) := by
    rw [← Complex.ofReal_pow, Real.sq_sqrt hspos.le]
  have h11 : (interfaceMatrix k₀ k₁ 0 * layerMatrix k₁ d * interfaceMatrix k₁ k₂ (Real.sqrt s)) 1 1 = 0 := by
    rw [Matrix.mul_apply]
    simp only [Fin.sum_univ_two, Matrix.mul_apply, interfaceMatrix, layerMatrix, Matrix.of_apply, Matrix.cons_val',
      Matrix.cons_val_one, Matrix.cons_val_zero, Matrix.cons_val_fin_one, hsq]
    have ea : cexp (-(I * k₁ * d)) * cexp (-(k₁ + k₂) ^ 2 * s / 2) =
        Z * (cexp (I * k₁ * d) * cexp (-(k₁ - k₂) ^ 2 * s / 2)) := by
      rw [← hexp, ← Complex.exp_add, ← Complex.exp_add, ← Complex.exp_add]
      congr 1
      ring
    have hZ' : (k₀ - k₁) * (k₁ - k₂) * Z = -((k₀ + k₁) * (k₁ + k₂)) := by
      rw [hZ]
      field_simp [sub_ne_zero.2 hne1, sub_ne_zero.2 hne2]
    simp only [Complex.ofReal_zero, ne_eq, OfNat.ofNat_ne_zero, not_false_eq_true, zero_pow, mul_zero, zero_div,
      Complex.exp_zero, mul_one, zero_add, add_zero]
    have : (k₀ - k₁) / (2 * k₀) * cexp (-(I * k₁ * ↑d)) * ((k₁ - k₂) / (2 * k₁) * cexp (-(k₁ + k₂) ^ 2 * ↑s / 2)) +
        (k₀ + k₁) / (2 * k₀) * cexp (I * k₁ * ↑d) * ((k₁ + k₂) / (2 * k₁) * cexp (-(k₁ - k₂) ^ 2 * ↑s / 2)) =
        ((k₀ - k₁) * (k₁ - k₂) * (cexp (-(I * k₁ * d)) * cexp (-(k₁ + k₂) ^ 2 * s / 2)) +
          (k₀ + k₁) * (k₁ + k₂) * (cexp (I * k₁ * d) * cexp (-(k₁ - k₂) ^ 2 * s / 2))) / (4 * k₀ * k₁) := by
      field_simp
      ring
    rw [this, ea, ← mul_assoc, hZ']
    ring
  unfold intensity
  rw [if_pos h11]

theorem isWave_re {ρ : ℝ} {k : ℂ} (h : IsWave 0 (ρ : ℂ) k) : k.re * k.re - k.im * k.im = -(4 * Real.pi * ρ) := by
  have := congrArg Complex.re h.1
  generalize (10 ^ (-30 : ℤ) : ℝ) = e at this
  simpa [sq] using this

theorem wave_evanescent {ρ : ℝ} (hρ : 0 < ρ) {k : ℂ} (h : IsWave 0 (ρ : ℂ) k) : k.re ^ 2 < k.im ^ 2 := by
  have := isWave_re h
  nlinarith [Real.pi_pos, mul_pos Real.pi_pos hρ]

/-- C34 (and the last part of C33) fail for rough interfaces: there is a physical stack, a layer on a substrate
with positive densities, for which the code divides by zero and returns NaN. -/
theorem C34_nan : ∃ d σ : ℝ, 0 < d ∧ 0 < σ ∧ multilayerReflectivity [0] [d] [σ, 0] [2, 1] 0 = .ok [none] := by
  obtain ⟨wave, hw⟩ := wave_exists
  have w0 := hw 0 0 (by simp)
  have w1 := hw 0 ((1 : ℝ) : ℂ) (by simp)
  have w2 := hw 0 ((2 : ℝ) : ℂ) (by simp)
  have c1 : (wave 0 ((1 : ℝ) : ℂ)).im < 0 := by
    rw [isWave_unique w1 (codeWave_isWave 0 (ρ := ((1 : ℝ) : ℂ)) (by simp)).1]; exact (codeWave_isWave 0 (by simp)).2
  have c2 : (wave 0 ((2 : ℝ) : ℂ)).im < 0 := by
    rw [isWave_unique w2 (codeWave_isWave 0 (ρ := ((2 : ℝ) : ℂ)) (by simp)).1]; exact (codeWave_isWave 0 (by simp)).2
  have l1 := wave_evanescent one_pos w1
  have l2 := wave_evanescent two_pos w2
  have hne1 : wave 0 0 ≠ wave 0 ((1 : ℝ) : ℂ) := by
    intro h
    have a := isWave_re (ρ := 0) (by simpa using w0)
    have b := isWave_re w1
    rw [← h, a] at b
    linarith [Real.pi_pos]
  have hne2 : wave 0 ((1 : ℝ) : ℂ) ≠ wave 0 ((2 : ℝ) : ℂ) := by
    intro h
    have a := isWave_re w1
    have b := isWave_re w2
    rw [← h, a] at b
    linarith [Real.pi_pos]
  have hneg : (wave 0 ((1 : ℝ) : ℂ) * wave 0 ((2 : ℝ) : ℂ)).re < 0 := by
    rw [Complex.mul_re]
    have a1 : (wave 0 ((1 : ℝ) : ℂ)).re < -(wave 0 ((1 : ℝ) : ℂ)).im := by
      have := w1.2; nlinarith
    have a2 : (wave 0 ((2 : ℝ) : ℂ)).re < -(wave 0 ((2 : ℝ) : ℂ)).im := by
      have := w2.2; nlinarith
    have := w1.2
    have := w2.2
    nlinarith
  obtain ⟨d, σ, hd, hσ, h⟩ := nan_of_evanescent 0 ((1 : ℝ) : ℂ) ((2 : ℝ) : ℂ) _ _ _ (by simp) (by simp) w0 w1 w2
    hne1 hne2 hneg
  exact ⟨d, σ, hd, hσ, by simpa using h⟩

end Verif.Props
