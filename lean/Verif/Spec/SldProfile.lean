import Mathlib.Probability.Distributions.Gaussian.Real

/-!
# Specification: the density profile of a stack with rough interfaces
-/

namespace Verif.Spec
open MeasureTheory ProbabilityTheory

/-- The cumulative distribution function of the standard normal distribution. -/
noncomputable def Phi (x : ℝ) : ℝ := (gaussianReal 0 1).real (Set.Iic x)

/-- The profile at height `z` of a stack with the interfaces (position, roughness, density below, density above),
from the bottom to the top, on a substrate of density `sub`. -/
noncomputable def profileAt (sub : ℝ) (ifs : List (ℝ × ℝ × ℝ × ℝ)) (z : ℝ) : ℝ :=
  sub + (ifs.map fun i => (i.2.2.2 - i.2.2.1) * Phi ((z - i.1) / i.2.1)).sum

/-- The interfaces of a stack: layers `(thickness, density, roughness of the upper interface)` above a medium of
density `below` whose upper interface has roughness `σ` and lies at height `z`, under an ambient medium of density
`amb`. -/
def interfacesOf (z σ below : ℝ) (amb : ℝ) : List (ℝ × ℝ × ℝ) → List (ℝ × ℝ × ℝ × ℝ)
  | [] => [(z, σ, below, amb)]
  | (d, ρ, σ') :: ls => (z, σ, below, ρ) :: interfacesOf (z + d) σ' ρ amb ls

end Verif.Spec
