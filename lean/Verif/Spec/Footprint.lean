import Mathlib.Probability.Distributions.Gaussian.Real
import Mathlib.MeasureTheory.Measure.Lebesgue.Basic

/-!
# Specification: the part of a beam that hits the sample

The beam has its centre at zero; the sample, seen along the beam, covers `[-p/2, p/2]`.
-/

namespace Verif.Spec
open MeasureTheory ProbabilityTheory

/-- A beam of constant intensity on `[-w/2, w/2]`. -/
noncomputable def boxFraction (w p : ℝ) : ℝ :=
  (volume.real (Set.Icc (-(w / 2)) (w / 2) ∩ Set.Icc (-(p / 2)) (p / 2))) / w

/-- A beam with the profile of a normal distribution with variance `v`. -/
noncomputable def gaussFraction (v : NNReal) (p : ℝ) : ℝ := (gaussianReal 0 v).real (Set.Icc (-(p / 2)) (p / 2))

/-- `w` is the full width at half maximum of the normal distribution with variance `v`. -/
def IsFWHM (v : NNReal) (w : ℝ) : Prop := 0 < w ∧ gaussianPDFReal 0 v (w / 2) = gaussianPDFReal 0 v 0 / 2

/-- The height of the sample seen along the beam, for the full scattering angle in degrees. -/
noncomputable def projected (L angle : ℝ) : ℝ := L * Real.sin (angle / 2 * Real.pi / 180)

end Verif.Spec
