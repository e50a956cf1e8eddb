import Verif.Spec.Reflectivity
import Mathlib.Analysis.Complex.Basic

/-!
# Specification: the physical stack that a set of engine arguments describes

Lengths in metres, scattering length densities in 1/m², media from the top (ambient) to the bottom.
-/

namespace Verif.Spec

/-- A semi-infinite ambient medium above a stack of slabs; the last slab is the semi-infinite substrate (its
thickness is written as zero). -/
structure PhysStack where
  ambient : ℂ
  slabs : List Slab

/-- Real and imaginary parts put together. -/
noncomputable def fullRho (rho : List ℂ) : Option (List ℝ) → List ℂ
  | none => rho
  | some im => List.zipWith (fun (a : ℂ) (b : ℝ) => a + (b : ℂ) * Complex.I) rho im

/-- refl1d: media from the top (first the ambient, last the substrate, whose depths mean nothing), depths and
roughnesses in Å, `rho + i irho` in 10⁻⁶ Å⁻²; roughness `k` belongs to the interface between the media `k` and
`k + 1`. -/
noncomputable def refl1dStack (depth sigma : List ℝ) (rho : List ℂ) (irho : Option (List ℝ)) : PhysStack :=
  { ambient := (fullRho rho irho).headD 0 * 1e14
    slabs := List.zipWith (fun (p : ℝ × ℂ) (d : ℝ) => ⟨p.1 * 1e-10, p.2 * 1e14, d * 1e-10⟩)
      (sigma.zip (fullRho rho irho).tail) (depth.tail.dropLast ++ [0]) }

/-- builtin engine: SI units, layers from the bottom to the top, substrate first, the ambient density given
separately. -/
def builtinStack (thickness roughness : List ℝ) (sld : List ℂ) (amb : ℂ) : PhysStack :=
  { ambient := amb, slabs := slabs thickness roughness sld }

end Verif.Spec
