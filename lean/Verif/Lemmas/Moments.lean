import Mathlib.Probability.Distributions.Gaussian.Real
import Mathlib.Probability.Distributions.Poisson.Basic
import Mathlib.MeasureTheory.Integral.Gamma

/-!
# Moments of normal and Poisson numbers
-/

namespace Verif.Lemmas
open MeasureTheory ProbabilityTheory
open scoped Nat

theorem gaussian_posPart : ∫ x, max x 0 ∂(gaussianReal 0 1) = (Real.sqrt (2 * Real.pi))⁻¹ := by
  rw [integral_gaussianReal_eq_integral_smul one_ne_zero]
  have e : (fun x => gaussianPDFReal 0 1 x • max x 0) =
      Set.indicator (Set.Ioi 0) (fun x : ℝ => (Real.sqrt (2 * Real.pi))⁻¹ * (x ^ (1 : ℝ) * Real.exp (-(1 / 2) * x ^ (2 : ℝ)))) := by
    funext x
    unfold Set.indicator
    split_ifs with h
    · have hx : (0 : ℝ) < x := h
      rw [max_eq_left hx.le, gaussianPDFReal_def, smul_eq_mul]
      simp only [NNReal.coe_one, mul_one, sub_zero, Real.rpow_one]
      rw [show -x ^ 2 / 2 = -(1 / 2) * x ^ (2 : ℝ) by rw [Real.rpow_two]; ring]
      ring
    · have hx : x ≤ 0 := not_lt.1 h
      rw [max_eq_right hx, smul_zero]
  rw [e, integral_indicator measurableSet_Ioi, integral_const_mul,
    integral_rpow_mul_exp_neg_mul_rpow (by norm_num) (by norm_num) (by norm_num)]
  norm_num

theorem poisson_zero_moment (r : NNReal) : HasSum (fun n : ℕ => Real.exp (-r) * r ^ n / (n)!) 1 := hasSum_one_poissonMeasure r

theorem poisson_first_moment (r : NNReal) : HasSum (fun n : ℕ => Real.exp (-r) * r ^ n / (n)! * n) r := by
  rw [← hasSum_nat_add_iff' 1]
  simp only [Finset.range_one, Finset.sum_singleton, Nat.cast_zero, mul_zero, sub_zero]
  have h := (poisson_zero_moment r).mul_left (r : ℝ)
  rw [mul_one] at h
  refine h.congr_fun ?_
  intro n
  rw [Nat.factorial_succ, pow_succ]
  push_cast
  have : ((n)! : ℝ) ≠ 0 := by positivity
  field_simp

theorem poisson_second_moment (r : NNReal) : HasSum (fun n : ℕ => Real.exp (-r) * r ^ n / (n)! * (n : ℝ) ^ 2) ((r : ℝ) ^ 2 + r) := by
  rw [← hasSum_nat_add_iff' 1]
  simp only [Finset.range_one, Finset.sum_singleton, Nat.cast_zero, ne_eq, OfNat.ofNat_ne_zero, not_false_eq_true, zero_pow, mul_zero, sub_zero]
  have h := ((poisson_first_moment r).add (poisson_zero_moment r)).mul_left (r : ℝ)
  rw [show (r : ℝ) * (r + 1) = (r : ℝ) ^ 2 + r by ring] at h
  refine h.congr_fun ?_
  intro n
  rw [Nat.factorial_succ, pow_succ]
  push_cast
  have : ((n)! : ℝ) ≠ 0 := by positivity
  field_simp

end Verif.Lemmas
