import Verif.Spec.Reflectivity

/-!
# Interfaces of a stack with their roughnesses (specification of C152, C153 and C154)
-/

namespace Verif.Spec

/-- The interfaces of a stack, listed from the top, below a medium of density `ρ`: step of the density and roughness. -/
def roughSteps : ℂ → List Slab → List (ℂ × ℝ)
  | _, [] => []
  | ρ, s :: rest => (s.sld - ρ, s.roughness) :: roughSteps s.sld rest

/-- Among the interfaces with a step of the density, one has the roughness `σ` and all others are rougher. -/
def Smoothest (σ : ℝ) (steps : List (ℂ × ℝ)) : Prop :=
  ∃ above below δ, steps = above ++ (δ, σ) :: below ∧ δ ≠ 0 ∧ ∀ p ∈ above ++ below, p.1 = 0 ∨ |σ| < |p.2|

/-- The smallest roughness among the interfaces with a step of the density is `σ`; any number of interfaces may have it. -/
def LeastRough (σ : ℝ) (steps : List (ℂ × ℝ)) : Prop :=
  (∃ p ∈ steps, p.1 ≠ 0 ∧ |p.2| = |σ|) ∧ ∀ p ∈ steps, p.1 = 0 ∨ |σ| ≤ |p.2|

/-- The interfaces of a stack below a medium of density `ρ` that ends at the depth `z`: step of the density, roughness and depth. -/
def roughDepths : ℂ → ℝ → List Slab → List (ℂ × ℝ × ℝ)
  | _, _, [] => []
  | ρ, z, s :: rest => (s.sld - ρ, s.roughness, z) :: roughDepths s.sld (z + s.thickness) rest

/-- The depths of the interfaces with a step of the density and the roughness `σ`. -/
def smoothDepths (σ : ℝ) (steps : List (ℂ × ℝ × ℝ)) : Set ℝ := {z | ∃ p ∈ steps, p.1 ≠ 0 ∧ |p.2.1| = |σ| ∧ p.2.2 = z}

/-- The tail of the curve of an interface with the roughness `σ`. -/
noncomputable def gaussTail (σ q : ℝ) : ℝ := Real.exp (-(σ * q) ^ 2) / q ^ 4

end Verif.Spec
