import Mathlib.Analysis.Calculus.LocalExtr.Rolle
import Verif.Props.RoughSpan

/-!
# Property C155: the tail of the curve of a film with rough interfaces determines roughness, thickness and density
-/

namespace Verif.Props
open Verif.Py Verif.Model Verif.Spec Complex Filter Topology

/-! ### The two amplitudes of a film -/

theorem swap_derivative (A κ t : ℝ) (hA : 0 < A) (ht : 0 < t) :
    HasDerivAt (fun t => Real.log (A + t) - Real.log (1 + t) - κ * (1 + A / (A + t) - t / (1 + t)))
      (1 / (A + t) - 1 / (1 + t) + κ * (A / (A + t) ^ 2 + 1 / (1 + t) ^ 2)) t := by
  have a0 : A + t ≠ 0 := by positivity
  have b0 : 1 + t ≠ 0 := by positivity
  have i1 : HasDerivAt (fun t : ℝ => A + t) 1 t := (hasDerivAt_id t).const_add A
  have i2 : HasDerivAt (fun t : ℝ => 1 + t) 1 t := (hasDerivAt_id t).const_add 1
  have h := ((i1.log a0).sub (i2.log b0)).sub ((((hasDerivAt_const t A).div i1 a0).const_add 1 |>.sub ((hasDerivAt_id t).div i2 b0)).const_mul κ)
  refine h.congr_deriv ?_
  simp only [id, zero_mul, mul_one, one_mul, zero_sub]
  field_simp
  ring

/-- Two amplitudes cannot be exchanged: the only exchange is the trivial one. -/
theorem swap_lt {κ x x' : ℝ} (hκ : 0 < κ) (h0 : 0 < x) (h1' : x' < 1) (hlt : x < x')
    (e1 : x * Real.exp (κ * x) = (1 - x') * Real.exp (κ * (x' + 1))) (e2 : x' * Real.exp (κ * x') = (1 - x) * Real.exp (κ * (x + 1))) : False := by
  have h0' : 0 < x' := h0.trans hlt
  have h1 : x < 1 := hlt.trans h1'
  have y0 : 0 < 1 - x := by linarith
  have y0' : 0 < 1 - x' := by linarith
  set w := Real.exp κ with hw
  have w1 : 1 < w := by rw [hw, ← Real.exp_zero]; exact Real.exp_lt_exp.2 hκ
  have w0 : 0 < w := by linarith
  set t := x / (1 - x) with htd
  have t0 : 0 < t := by positivity
  have prod : x * x' = (1 - x) * (1 - x') * w ^ 2 := by
    have h : x * Real.exp (κ * x) * (x' * Real.exp (κ * x')) = (1 - x') * Real.exp (κ * (x' + 1)) * ((1 - x) * Real.exp (κ * (x + 1))) := by rw [e1, e2]
    have ex : Real.exp (κ * (x' + 1)) * Real.exp (κ * (x + 1)) = Real.exp (κ * x) * Real.exp (κ * x') * w ^ 2 := by
      rw [hw, ← Real.exp_nat_mul, ← Real.exp_add, ← Real.exp_add, ← Real.exp_add]
      congr 1
      push_cast
      ring
    have pos : Real.exp (κ * x) * Real.exp (κ * x') ≠ 0 := by positivity
    apply mul_right_cancel₀ pos
    linear_combination h + (1 - x') * (1 - x) * ex
  have tx : t / (1 + t) = x := by rw [htd]; field_simp; ring
  have ux : 1 + t = 1 / (1 - x) := by rw [htd]; field_simp; ring
  have tx' : w ^ 2 / (w ^ 2 + t) = x' := by
    rw [htd]
    rw [div_eq_iff (by positivity)]
    field_simp
    linear_combination (-1 : ℝ) * prod
  have uy : w ^ 2 + t = x / ((1 - x) * (1 - x')) := by
    rw [htd]
    field_simp
    linear_combination (-1 : ℝ) * prod
  have tw : t < w := by
    have : t ^ 2 < w ^ 2 := by
      have ew : w ^ 2 = t * (x' / (1 - x')) := by
        rw [htd]
        field_simp
        linear_combination (-1 : ℝ) * prod
      have : t < x' / (1 - x') := by
        rw [htd, div_lt_div_iff₀ y0 y0']
        nlinarith
      rw [ew, sq]
      exact mul_lt_mul_of_pos_left this t0
    exact lt_of_pow_lt_pow_left₀ 2 w0.le this
  set φ := fun t => Real.log (w ^ 2 + t) - Real.log (1 + t) - κ * (1 + w ^ 2 / (w ^ 2 + t) - t / (1 + t)) with hφ
  have z0 : φ 0 = 0 := by
    simp only [hφ, add_zero, zero_div, sub_zero, Real.log_one]
    rw [div_self (by positivity), Real.log_pow, hw, Real.log_exp]
    push_cast
    ring
  have z1 : φ w = 0 := by
    simp only [hφ]
    have e : w ^ 2 + w = w * (1 + w) := by ring
    rw [e, Real.log_mul w0.ne' (by positivity), show Real.log w = κ by rw [hw, Real.log_exp]]
    field_simp
    ring
  have z : φ t = 0 := by
    simp only [hφ]
    rw [tx, tx', ux, uy, Real.log_div h0.ne' (by positivity), Real.log_mul y0.ne' y0'.ne', Real.log_div one_ne_zero y0.ne', Real.log_one]
    have l := congrArg Real.log e1
    rw [Real.log_mul h0.ne' (Real.exp_pos _).ne', Real.log_mul y0'.ne' (Real.exp_pos _).ne', Real.log_exp, Real.log_exp] at l
    linear_combination l
  have w2 : 0 < w ^ 2 := by positivity
  have cont : ContinuousOn φ (Set.Ici 0) := by
    intro u hu
    have hu : 0 ≤ u := hu
    have a0 : w ^ 2 + u ≠ 0 := by positivity
    have b0 : 1 + u ≠ 0 := by positivity
    have ca : ContinuousAt (fun t : ℝ => w ^ 2 + t) u := by fun_prop
    have cb : ContinuousAt (fun t : ℝ => 1 + t) u := by fun_prop
    exact (((ca.log a0).sub (cb.log b0)).sub (((continuousAt_const.add (continuousAt_const.div ca a0)).sub (continuousAt_id.div cb b0)).const_mul κ)).continuousWithinAt
  obtain ⟨r, hr, d1⟩ := exists_hasDerivAt_eq_zero t0 (cont.mono fun u hu => hu.1) (z0.trans z.symm)
    (fun u hu => swap_derivative (w ^ 2) κ u w2 hu.1)
  obtain ⟨r', hr', d2⟩ := exists_hasDerivAt_eq_zero tw (cont.mono fun u hu => t0.le.trans hu.1) (z.trans z1.symm)
    (fun u hu => swap_derivative (w ^ 2) κ u w2 (t0.trans hu.1))
  have quad : ∀ u, 0 < u → 1 / (w ^ 2 + u) - 1 / (1 + u) + κ * (w ^ 2 / (w ^ 2 + u) ^ 2 + 1 / (1 + u) ^ 2) = 0 →
      ((1 - w ^ 2) + κ * (1 + w ^ 2)) * u ^ 2 + ((1 - w ^ 2) * (1 + w ^ 2) + 4 * κ * w ^ 2) * u + ((1 - w ^ 2) + κ * (1 + w ^ 2)) * w ^ 2 = 0 := by
    intro u hu hd
    have a0 : w ^ 2 + u ≠ 0 := by positivity
    have b0 : 1 + u ≠ 0 := by positivity
    field_simp at hd
    linear_combination hd
  have q1 := quad r hr.1 d1
  have q2 := quad r' (t0.trans hr'.1) d2
  set α := (1 - w ^ 2) + κ * (1 + w ^ 2) with hα
  set β := (1 - w ^ 2) * (1 + w ^ 2) + 4 * κ * w ^ 2 with hβ
  have rr : r < r' := hr.2.trans hr'.1
  have b : β = -α * (r + r') := by
    have : (r - r') * (α * (r + r') + β) = 0 := by linear_combination q1 - q2
    rcases mul_eq_zero.1 this with h | h
    · linarith
    · linarith
  have a : α * (w ^ 2 - r * r') = 0 := by
    rw [b] at q1
    linear_combination q1
  have small : r * r' < w ^ 2 := by
    have hr0 := hr.1
    have hrw : r < w := rr.trans hr'.2
    rw [sq]
    exact mul_lt_mul'' hrw hr'.2 hr0.le (t0.trans hr'.1).le
  rcases mul_eq_zero.1 a with h | h
  · have hβ0 : β = 0 := by rw [b, h]; ring
    have : (w ^ 2 - 1) ^ 3 = 0 := by
      rw [hα] at h
      rw [hβ] at hβ0
      linear_combination (-(1 + w ^ 2)) * hβ0 + 4 * w ^ 2 * h
    have h1 : w ^ 2 - 1 = 0 := by simpa using this
    have : 1 < w ^ 2 := one_lt_pow₀ w1 two_ne_zero
    linarith
  · linarith

/-- The amplitudes of the two interfaces of a rough film determine its density, even up to order. -/
theorem film_amplitudes {c s x x' : ℝ} (hc : 0 < c) (h0 : 0 < x) (h1 : x < s) (h0' : 0 < x') (h1' : x' < s)
    (e1 : (x * Real.exp (c * x)) ^ 2 + ((s - x) * Real.exp (c * (x + s))) ^ 2 = (x' * Real.exp (c * x')) ^ 2 + ((s - x') * Real.exp (c * (x' + s))) ^ 2)
    (e2 : x * Real.exp (c * x) * ((s - x) * Real.exp (c * (x + s))) = x' * Real.exp (c * x') * ((s - x') * Real.exp (c * (x' + s)))) : x = x' := by
  have s0 : 0 < s := h0.trans h1
  have y0 : 0 < s - x := by linarith
  have y0' : 0 < s - x' := by linarith
  set P := x * Real.exp (c * x) with hP
  set Q := (s - x) * Real.exp (c * (x + s)) with hQ
  set P' := x' * Real.exp (c * x') with hP'
  set Q' := (s - x') * Real.exp (c * (x' + s)) with hQ'
  have p0 : 0 < P := by positivity
  have q0 : 0 < Q := by positivity
  have p0' : 0 < P' := by positivity
  have q0' : 0 < Q' := by positivity
  have sum : P + Q = P' + Q' := by
    have : (P + Q) ^ 2 = (P' + Q') ^ 2 := by linear_combination e1 + 2 * e2
    exact (pow_left_inj₀ (by positivity) (by positivity) two_ne_zero).1 this
  have alt : (P - P') * (P - Q') = 0 := by linear_combination P * sum - e2
  rcases mul_eq_zero.1 alt with h | h
  · have h : P = P' := by linarith
    rcases lt_trichotomy x x' with hlt | he | hlt
    · have : P < P' := mul_lt_mul hlt (Real.exp_le_exp.2 (by nlinarith)) (Real.exp_pos _) h0'.le
      linarith
    · exact he
    · have : P' < P := mul_lt_mul hlt (Real.exp_le_exp.2 (by nlinarith)) (Real.exp_pos _) h0.le
      linarith
  · have hPQ : P = Q' := by linarith
    have hQP : P' = Q := by linarith
    have scale : ∀ {x x' : ℝ}, x * Real.exp (c * x) = (s - x') * Real.exp (c * (x' + s)) →
        x / s * Real.exp (c * s * (x / s)) = (1 - x' / s) * Real.exp (c * s * (x' / s + 1)) := by
      intro x x' h
      rw [show c * s * (x / s) = c * x by field_simp, show c * s * (x' / s + 1) = c * (x' + s) by field_simp]
      generalize Real.exp (c * x) = E at h ⊢
      generalize Real.exp (c * (x' + s)) = E' at h ⊢
      field_simp
      exact h
    have k1 := scale hPQ
    have k2 := scale hQP
    rcases lt_trichotomy x x' with hlt | he | hlt
    · exact (swap_lt (by positivity) (by positivity) ((div_lt_one s0).2 h1') (div_lt_div_of_pos_right hlt s0) k1 k2).elim
    · exact he
    · exact (swap_lt (by positivity) (by positivity) ((div_lt_one s0).2 h1) (div_lt_div_of_pos_right hlt s0) k2 k1).elim

/-- A wave with an offset that dies out vanishes. -/
theorem wave_zero {a p r d : ℝ} (hd : 0 < d) (h : Tendsto (fun q : ℝ => a + (p * Real.cos (q * d) + r * Real.sin (q * d))) atTop (𝓝 0)) : a = 0 ∧ p = 0 := by
  have per : ∀ u : ℝ, a + (p * Real.cos u + r * Real.sin u) = 0 := by
    intro u
    have seq : Tendsto (fun n : ℕ => (u + n * (2 * Real.pi)) / d) atTop atTop :=
      (tendsto_atTop_add_const_left _ u (tendsto_natCast_atTop_atTop.atTop_mul_const (by positivity))).atTop_div_const hd
    have := h.comp seq
    refine tendsto_nhds_unique (tendsto_const_nhds.congr fun n => ?_) this
    simp only [Function.comp_apply, div_mul_cancel₀ _ hd.ne', Real.cos_add_nat_mul_two_pi, Real.sin_add_nat_mul_two_pi]
  have h1 := per 0
  have h2 := per Real.pi
  simp at h1 h2
  constructor <;> linarith

/-- The weights of the two interfaces of a film. -/
theorem film_weight (σ : ℝ) : ∃ u : ℂ, ‖u‖ = 1 ∧ ∀ (a b d : ℝ), roughWeight σ (a : ℂ) ⟨σ, (b : ℂ), d⟩ =
    ((4 * Real.pi * ((b - a) * Real.exp (4 * Real.pi * σ ^ 2 * (a + b))) : ℝ) : ℂ) * u := by
  refine ⟨cexp (((4 * Real.pi * σ ^ 2 * (2 * (10 ^ (-30 : ℤ) : ℝ)) : ℝ) : ℂ) * I), Complex.norm_exp_ofReal_mul_I _, fun a b d => ?_⟩
  unfold roughWeight absorbing
  rw [if_pos rfl]
  have e : 4 * (Real.pi : ℂ) * (σ : ℂ) ^ 2 * ((a : ℂ) + ((10 ^ (-30 : ℤ) : ℝ) : ℂ) * I + ((b : ℂ) + ((10 ^ (-30 : ℤ) : ℝ) : ℂ) * I)) =
      ((4 * Real.pi * σ ^ 2 * (a + b) : ℝ) : ℂ) + ((4 * Real.pi * σ ^ 2 * (2 * (10 ^ (-30 : ℤ) : ℝ)) : ℝ) : ℂ) * I := by
    generalize (10 ^ (-30 : ℤ) : ℝ) = ε
    push_cast
    ring
  show 4 * (Real.pi : ℂ) * ((b : ℂ) - a) * cexp (4 * (Real.pi : ℂ) * (σ : ℂ) ^ 2 * ((a : ℂ) + ((10 ^ (-30 : ℤ) : ℝ) : ℂ) * I +
    ((b : ℂ) + ((10 ^ (-30 : ℤ) : ℝ) : ℂ) * I))) = _
  rw [e, Complex.exp_add, ← Complex.ofReal_exp]
  generalize cexp (((4 * Real.pi * σ ^ 2 * (2 * (10 ^ (-30 : ℤ) : ℝ)) : ℝ) : ℂ) * I) = u
  push_cast
  ring

/-- The sum over the two interfaces of a film. -/
theorem film_sum (σ ρ s d : ℝ) (q : ℝ) : ‖roughSum σ 0 [⟨σ, (ρ : ℂ), d⟩, ⟨σ, (s : ℂ), 0⟩] q‖ ^ 2 = 16 * Real.pi ^ 2 *
    ((ρ * Real.exp (4 * Real.pi * σ ^ 2 * ρ)) ^ 2 + ((s - ρ) * Real.exp (4 * Real.pi * σ ^ 2 * (ρ + s))) ^ 2 +
      2 * (ρ * Real.exp (4 * Real.pi * σ ^ 2 * ρ) * ((s - ρ) * Real.exp (4 * Real.pi * σ ^ 2 * (ρ + s)))) * Real.cos (q * d)) := by
  obtain ⟨u, hu, hw⟩ := film_weight σ
  have w1 := hw 0 ρ d
  have w2 := hw ρ s 0
  rw [Complex.ofReal_zero, sub_zero, zero_add] at w1
  have e : roughSum σ 0 [⟨σ, (ρ : ℂ), d⟩, ⟨σ, (s : ℂ), 0⟩] q = (((4 * Real.pi * (ρ * Real.exp (4 * Real.pi * σ ^ 2 * ρ)) : ℝ) : ℂ) +
      ((4 * Real.pi * ((s - ρ) * Real.exp (4 * Real.pi * σ ^ 2 * (ρ + s))) : ℝ) : ℂ) * cexp (-(I * (q * d : ℝ)))) * u := by
    simp only [roughSum, w1, w2, mul_zero, add_zero]
    ring
  rw [e, norm_mul, hu, mul_one, norm_wave_sum, Complex.norm_real, Complex.norm_real, Real.norm_eq_abs, Real.norm_eq_abs, sq_abs, sq_abs, Complex.conj_ofReal,
    ← Complex.ofReal_mul, Complex.ofReal_re, Complex.ofReal_im]
  ring

/-- **C155**: films on the same substrate, each with the same non-zero roughness at both interfaces and a density between the one of vacuum and the one of the
substrate; if their curves agree beyond some momentum transfer, they have the same roughness, thickness and density. -/
theorem C155_film (ρ ρ' s d d' σ σ' : ℝ) (h0 : 0 < ρ) (h1 : ρ < s) (h0' : 0 < ρ') (h1' : ρ' < s) (hd : 0 < d) (hd' : 0 < d') (hσ : σ ≠ 0) (U : ℝ)
    (h : ∀ q ≥ U, multilayerReflectivity [q] [d] [σ, σ] [(s : ℂ), (ρ : ℂ)] 0 = multilayerReflectivity [q] [d'] [σ', σ'] [(s : ℂ), (ρ' : ℂ)] 0) :
    |σ| = |σ'| ∧ d = d' ∧ ρ = ρ' := by
  have e : ∀ d σ ρ : ℝ, slabs [d] [σ, σ] [(s : ℂ), (ρ : ℂ)] = [⟨σ, (ρ : ℂ), d⟩, ⟨σ, (s : ℂ), 0⟩] := fun d σ ρ => by simp [slabs]
  have c0 : ∀ {x : ℝ}, 0 < x → (x : ℂ) ≠ 0 := fun hx => by exact_mod_cast hx.ne'
  have c1 : ∀ {x : ℝ}, x < s → (s : ℂ) ≠ (x : ℂ) := fun hx => by exact_mod_cast hx.ne'
  have im : ∀ (x : ℝ), ∀ r ∈ [(s : ℂ), (x : ℂ)], 0 ≤ r.im := by
    intro x r hr
    simp only [List.mem_cons, List.not_mem_nil, or_false] at hr
    rcases hr with rfl | rfl <;> simp
  obtain ⟨l, a, b⟩ := film_depths σ σ d (ρ : ℂ) (s : ℂ) 0 rfl hd (c0 h0) (c1 h1)
  obtain ⟨l', a', b'⟩ := film_depths σ' σ' d' (ρ' : ℂ) (s : ℂ) 0 rfl hd' (c0 h0') (c1 h1')
  rw [← e] at l a b l' a' b'
  obtain ⟨eσ, lim⟩ := rough_agree [d] [σ, σ] [d'] [σ', σ'] [(s : ℂ), (ρ : ℂ)] [(s : ℂ), (ρ' : ℂ)] rfl rfl (im ρ) (by simpa using hd) rfl rfl (im ρ')
    (by simpa using hd') σ σ' l l' U h
  have ed := C154_span [d] [σ, σ] [d'] [σ', σ'] [(s : ℂ), (ρ : ℂ)] [(s : ℂ), (ρ' : ℂ)] rfl rfl (im ρ) (by simpa using hd) rfl rfl (im ρ')
    (by simpa using hd') σ σ' l l' 0 d 0 d' a b a' b' U h
  rw [sub_zero, sub_zero] at ed
  refine ⟨eσ, ed, ?_⟩
  subst ed
  have sq : σ' ^ 2 = σ ^ 2 := ((sq_eq_sq_iff_abs_eq_abs _ _).2 eσ).symm
  simp only [e, film_sum, sq] at lim
  have pi0 : (0 : ℝ) < 16 * Real.pi ^ 2 := by positivity
  have cc : 0 < 4 * Real.pi * σ ^ 2 := by positivity
  obtain ⟨z1, z2⟩ := wave_zero (r := 0) (d := d) hd (lim.congr fun q => show _ = 16 * Real.pi ^ 2 * ((ρ * Real.exp (4 * Real.pi * σ ^ 2 * ρ)) ^ 2 +
    ((s - ρ) * Real.exp (4 * Real.pi * σ ^ 2 * (ρ + s))) ^ 2 - ((ρ' * Real.exp (4 * Real.pi * σ ^ 2 * ρ')) ^ 2 +
    ((s - ρ') * Real.exp (4 * Real.pi * σ ^ 2 * (ρ' + s))) ^ 2)) + (16 * Real.pi ^ 2 * (2 * (ρ * Real.exp (4 * Real.pi * σ ^ 2 * ρ) *
    ((s - ρ) * Real.exp (4 * Real.pi * σ ^ 2 * (ρ + s)))) - 2 * (ρ' * Real.exp (4 * Real.pi * σ ^ 2 * ρ') *
    ((s - ρ') * Real.exp (4 * Real.pi * σ ^ 2 * (ρ' + s))))) * Real.cos (q * d) + 0 * Real.sin (q * d)) by ring)
  have z1 := (mul_eq_zero.1 z1).resolve_left pi0.ne'
  have z2 := (mul_eq_zero.1 z2).resolve_left pi0.ne'
  exact film_amplitudes cc h0 h1 h0' h1' (by linarith) (by linarith)

/-! ### Samples -/

/-- **C155** (samples): films of real density between the ones of vacuum and substrate, each with the same non-zero roughness at both interfaces, on substrates of
the same density; if the simulated curves agree beyond some momentum transfer, the labels of the films agree. -/
theorem C155_sample {s s' : SampleV ℝ} (hv : BelowVacuum s) (hv' : BelowVacuum s') {f f' : LayerV ℝ} (hf : s.layers = [f]) (hf' : s'.layers = [f'])
    {y y' : Str → Num ℝ} (hy : RowWithin s y) (hy' : RowWithin s' y') (x x' z σ σ' : ℝ) (ex : y (f.name ++ "_sld".toList) = .real x)
    (ex' : y' (f'.name ++ "_sld".toList) = .real x') (ez : y (s.substrate.name ++ "_sld".toList) = .real z)
    (ez' : y' (s'.substrate.name ++ "_sld".toList) = .real z) (h0 : 0 < x) (h1 : x < z) (h0' : 0 < x') (h1' : x' < z)
    (ht : 0 < (y (f.name ++ "_thickness".toList)).re) (ht' : 0 < (y' (f'.name ++ "_thickness".toList)).re)
    (hr : (y (f.name ++ "_roughness".toList)).re = σ) (hrs : (y (s.substrate.name ++ "_roughness".toList)).re = σ)
    (hr' : (y' (f'.name ++ "_roughness".toList)).re = σ') (hrs' : (y' (s'.substrate.name ++ "_roughness".toList)).re = σ') (hσ : σ ≠ 0)
    (U : ℝ) (e : ∀ u ≥ U, curveFor s [u] (pairs y) = curveFor s' [u] (pairs y')) :
    |σ| = |σ'| ∧ (y (f.name ++ "_thickness".toList)).re = (y' (f'.name ++ "_thickness".toList)).re ∧ x = x' := by
  obtain ⟨nm, hamb⟩ := hv.ambient
  obtain ⟨nm', hamb'⟩ := hv'.ambient
  have dx := siDensity_real x
  have dx' := siDensity_real x'
  have dz := siDensity_real z
  rw [← ex] at dx
  rw [← ex'] at dx'
  have dz' := dz
  rw [← ez] at dz
  rw [← ez'] at dz'
  obtain ⟨a, b, c⟩ := C155_film (x * 1e14) (x' * 1e14) (z * 1e14) ((y (f.name ++ "_thickness".toList)).re * 1e-10) ((y' (f'.name ++ "_thickness".toList)).re * 1e-10)
    (σ * 1e-10) (σ' * 1e-10) (by positivity) (by linarith) (by positivity) (by linarith) (by positivity) (by positivity)
    (mul_ne_zero hσ (by norm_num)) (U * 1e10) (by
      intro q hq
      have := e (q * 1e-10) (by linarith)
      rw [curveFor_points hamb [q * 1e-10] hy, curveFor_points hamb' [q * 1e-10] hy', hf, hf'] at this
      rw [multilayer_eq _ _ _ _ (by simp) (by simp), multilayer_eq _ _ _ _ (by simp) (by simp), ← dx, ← dx', ← dz]
      have same : siDensity (y (s.substrate.name ++ "_sld".toList)) = siDensity (y' (s'.substrate.name ++ "_sld".toList)) := dz.trans dz'.symm
      simp only [List.map_cons, List.map_nil, show q * 1e-10 * 1e10 = q by ring, hr, hrs, hr', hrs'] at this ⊢
      refine this.trans ?_
      rw [same]
      rfl)
  rw [abs_mul, abs_mul] at a
  exact ⟨mul_right_cancel₀ (by norm_num) a, by linarith, by linarith⟩

/-- A film of unknown thickness and density with rough interfaces on a substrate. -/
noncomputable def exampleRoughFilm : SampleV ℝ where
  substrate := ⟨.substrate, "Si".toList, none, some (.const (.real 2) (some "roughness".toList)), some (.const (.real 20) (some "sld".toList))⟩
  ambient := ⟨.ambient, "air".toList, none, none, some (.const (.real 0) (some "sld".toList))⟩
  layers := [⟨.layer, "film".toList, some (.range (.real 20) (.real 1000) (some "thickness".toList)), some (.const (.real 2) (some "roughness".toList)),
    some (.range (.real 5) (.real 15) (some "sld".toList))⟩]

/-- Labels of `exampleRoughFilm`: density `x`, thickness 100 Å. -/
noncomputable def roughFilmLabels (x : ℝ) (k : Str) : Num ℝ :=
  if k = "film_roughness".toList then .real 2 else if k = "Si_roughness".toList then .real 2 else thinLabels x k

theorem roughFilmLabels_values (x : ℝ) :
    roughFilmLabels x ("film".toList ++ "_thickness".toList) = .real 100 ∧ roughFilmLabels x ("film".toList ++ "_sld".toList) = .real x ∧
    roughFilmLabels x ("Si".toList ++ "_sld".toList) = .real 20 ∧ roughFilmLabels x ("air".toList ++ "_sld".toList) = .real 0 ∧
    roughFilmLabels x ("Si".toList ++ "_roughness".toList) = .real 2 ∧ roughFilmLabels x ("film".toList ++ "_roughness".toList) = .real 2 := by
  obtain ⟨e1, e2, e3, e4, -, -⟩ := thinLabels_values x
  unfold roughFilmLabels
  refine ⟨?_, ?_, ?_, ?_, ?_, ?_⟩
  · rw [if_neg (by decide), if_neg (by decide)]; exact e1
  · rw [if_neg (by decide), if_neg (by decide)]; exact e2
  · rw [if_neg (by decide), if_neg (by decide)]; exact e3
  · rw [if_neg (by decide), if_neg (by decide)]; exact e4
  · rw [if_neg (by decide), if_pos (by decide)]
  · rw [if_pos (by decide)]

theorem roughFilmLabels_within {x : ℝ} (h1 : 5 ≤ x) (h2 : x ≤ 15) : RowWithin exampleRoughFilm (roughFilmLabels x) := by
  obtain ⟨e1, e2, e3, e4, e5, e6⟩ := roughFilmLabels_values x
  refine ⟨?_, ?_, ?_, ?_⟩ <;> intro l hl p hp <;>
    simp only [exampleRoughFilm, List.cons_append, List.nil_append, List.mem_cons, List.not_mem_nil, or_false] at hl
  · rcases hl with rfl | rfl | rfl <;> cases hp
    · exact e3
    · exact ⟨_, e2, h1, h2⟩
    · exact e4
  · rcases hl with rfl | rfl <;> cases hp
    · exact e5
    · exact e6
  · subst hl; cases hp
    exact ⟨_, e1, by norm_num, by norm_num⟩
  · subst hl; cases hp
    exact ⟨2, _, _, rfl, e1, e6, le_max_left _ _⟩

theorem exampleRoughFilm_vacuum : BelowVacuum exampleRoughFilm := by
  refine ⟨⟨_, rfl⟩, ?_⟩
  intro l hl
  simp only [exampleRoughFilm, List.mem_cons, List.not_mem_nil, or_false] at hl
  rcases hl with rfl | rfl <;> rintro p ⟨⟩ <;> exact ⟨le_refl (0 : ℝ), le_refl (0 : ℝ)⟩

/-- Not vacuous: of all labels of this sample only the ones with thickness 100 and density 8 have the tail of the curve of the labels with these values; without
roughness the density 12 would have nearly the same tail (C150). -/
example (y : Str → Num ℝ) (hy : RowWithin exampleRoughFilm y) (U : ℝ)
    (e : ∀ u ≥ U, curveFor exampleRoughFilm [u] (pairs y) = curveFor exampleRoughFilm [u] (pairs (roughFilmLabels 8))) :
    (y ("film".toList ++ "_thickness".toList)).re = 100 ∧ y ("film".toList ++ "_sld".toList) = .real 8 := by
  obtain ⟨e1, e2, e3, -, e5, e6⟩ := roughFilmLabels_values 8
  have film : exampleRoughFilm.layers = [exampleRoughFilm.layers.head (by simp [exampleRoughFilm])] := rfl
  obtain ⟨x, hx, x1, x2⟩ : ∃ x : ℝ, y ("film".toList ++ "_sld".toList) = .real x ∧ 5 ≤ x ∧ x ≤ 15 :=
    hy.sld (exampleRoughFilm.layers.head (by simp [exampleRoughFilm])) (by simp [exampleRoughFilm]) _ rfl
  obtain ⟨d, hd, d1, -⟩ : ∃ d : ℝ, y ("film".toList ++ "_thickness".toList) = .real d ∧ 20 ≤ d ∧ d ≤ 1000 :=
    hy.thickness (exampleRoughFilm.layers.head (by simp [exampleRoughFilm])) (by simp [exampleRoughFilm]) _ rfl
  have s1 : y ("Si".toList ++ "_sld".toList) = .real 20 := hy.sld exampleRoughFilm.substrate (by simp) _ rfl
  have r1 : y ("Si".toList ++ "_roughness".toList) = .real 2 := hy.roughness exampleRoughFilm.substrate (by simp) _ rfl
  have r2 : y ("film".toList ++ "_roughness".toList) = .real 2 :=
    hy.roughness (exampleRoughFilm.layers.head (by simp [exampleRoughFilm])) (by simp [exampleRoughFilm]) _ rfl
  obtain ⟨-, a, b⟩ := C155_sample exampleRoughFilm_vacuum exampleRoughFilm_vacuum film film hy (roughFilmLabels_within (x := 8) (by norm_num) (by norm_num))
    x 8 20 2 2 hx e2 s1 e3 (by linarith) (by linarith) (by norm_num) (by norm_num)
    (by show 0 < (y ("film".toList ++ "_thickness".toList)).re; rw [hd]; exact lt_of_lt_of_le (by norm_num) d1)
    (by show 0 < (roughFilmLabels 8 ("film".toList ++ "_thickness".toList)).re; rw [e1]; norm_num [Num.re])
    (by show (y ("film".toList ++ "_roughness".toList)).re = 2; rw [r2]; rfl)
    (by show (y ("Si".toList ++ "_roughness".toList)).re = 2; rw [r1]; rfl)
    (by show (roughFilmLabels 8 ("film".toList ++ "_roughness".toList)).re = 2; rw [e6]; rfl)
    (by show (roughFilmLabels 8 ("Si".toList ++ "_roughness".toList)).re = 2; rw [e5]; rfl) two_ne_zero U e
  have h : (y ("film".toList ++ "_thickness".toList)).re = (roughFilmLabels 8 ("film".toList ++ "_thickness".toList)).re := a
  refine ⟨?_, by rw [hx, b]⟩
  rw [h, e1]
  rfl

end Verif.Props
