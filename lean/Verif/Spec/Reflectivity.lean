import Mathlib.Analysis.SpecialFunctions.Pow.Complex
import Mathlib.LinearAlgebra.Matrix.Notation

/-!
# Specification: the transfer-matrix method

Textbook formulas for a stack of slabs, written down without reference to the model of the code.
-/

namespace Verif.Spec
open Complex

/-- `k` is the wave number at momentum transfer `q` in a medium with scattering length density `ρ`: its
square is `q²/4 - 4π(ρ + 10⁻³⁰ i)` and its real part is positive. -/
def IsWave (q : ℝ) (ρ k : ℂ) : Prop :=
  k ^ 2 = (q : ℂ) ^ 2 / 4 - 4 * (Real.pi : ℂ) * (ρ + ((10 ^ (-30 : ℤ) : ℝ) : ℂ) * I) ∧ 0 < k.re

/-- The interface between media with wave numbers `k` (above) and `k'` (below) and the roughness `σ`. -/
noncomputable def interfaceMatrix (k k' : ℂ) (σ : ℝ) : Matrix (Fin 2) (Fin 2) ℂ :=
  !![(k + k') / (2 * k) * cexp (-(k - k') ^ 2 * σ ^ 2 / 2), (k - k') / (2 * k) * cexp (-(k + k') ^ 2 * σ ^ 2 / 2);
     (k - k') / (2 * k) * cexp (-(k + k') ^ 2 * σ ^ 2 / 2), (k + k') / (2 * k) * cexp (-(k - k') ^ 2 * σ ^ 2 / 2)]

/-- The way through a medium of thickness `d`. -/
noncomputable def layerMatrix (k : ℂ) (d : ℝ) : Matrix (Fin 2) (Fin 2) ℂ :=
  !![cexp (-(I * k * d)), 0; 0, cexp (I * k * d)]

/-- A medium: roughness of its upper interface, scattering length density, thickness (zero for the
substrate). -/
structure Slab where
  roughness : ℝ
  sld : ℂ
  thickness : ℝ

/-- The total matrix of a stack, listed from the top, below a medium with wave number `k`; `wave` gives the
wave number for each scattering length density. -/
noncomputable def stackMatrix (wave : ℂ → ℂ) : ℂ → List Slab → Matrix (Fin 2) (Fin 2) ℂ
  | _, [] => 1
  | k, s :: rest =>
    interfaceMatrix k (wave s.sld) s.roughness * layerMatrix (wave s.sld) s.thickness *
      stackMatrix wave (wave s.sld) rest

/-- The stack, listed from the top, of a sample given from bottom to top: thicknesses of the layers,
roughnesses of the interfaces, scattering length densities with the substrate first. -/
def slabs (thickness roughness : List ℝ) (sld : List ℂ) : List Slab :=
  (List.zipWith (fun (p : ℝ × ℂ) d => ⟨p.1, p.2, d⟩) (roughness.zip sld) (0 :: thickness)).reverse

open Classical in
/-- The reflected intensity of a stack with the total matrix `m`, cut off at one; undefined if the incoming
wave vanishes. -/
noncomputable def intensity (m : Matrix (Fin 2) (Fin 2) ℂ) : Option ℝ :=
  if m 1 1 = 0 then none else some (min (‖m 0 1 / m 1 1‖ ^ 2) 1)

end Verif.Spec
