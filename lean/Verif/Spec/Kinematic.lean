import Verif.Spec.Reflectivity

/-!
# Specification: the density steps of a stack
-/

namespace Verif.Spec
open Complex

/-- The interfaces of a stack, listed from the top, below a medium of density `ρ` that ends at depth `z`: step of the density and depth. -/
def interfaceSteps : ℂ → ℝ → List Slab → List (ℂ × ℝ)
  | _, _, [] => []
  | ρ, z, s :: rest => (s.sld - ρ, z) :: interfaceSteps s.sld (z + s.thickness) rest

/-- The Fourier transform of the derivative of the density below vacuum, times `4π`: every interface contributes its step with the phase of its depth. -/
noncomputable def stepTransform (l : List Slab) (q : ℝ) : ℂ :=
  ((interfaceSteps 0 0 l).map fun (p : ℂ × ℝ) => 4 * (Real.pi : ℂ) * p.1 * cexp (-(I * (q * p.2 : ℝ)))).sum

/-- The sum of the squared density steps of a stack, densities listed from the top, below a medium of density `ρ`. -/
noncomputable def stepPower : ℂ → List ℂ → ℝ
  | _, [] => 0
  | ρ, a :: rest => ‖a - ρ‖ ^ 2 + stepPower a rest

end Verif.Spec
