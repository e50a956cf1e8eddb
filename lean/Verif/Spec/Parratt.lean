import Verif.Spec.Reflectivity

/-!
# Specification: Parratt's recursion

The recursion for the ratio of the reflected to the incoming wave at the top of each medium (Parratt 1954) with the
roughness factor of Névot and Croce, written down without matrices.
-/

namespace Verif.Spec
open Complex

/-- The reflection coefficient of a rough interface between media with wave numbers `k` (above) and `k'` (below). -/
noncomputable def fresnel (k k' : ℂ) (σ : ℝ) : ℂ := (k - k') / (k + k') * cexp (-(2 * k * k' * σ ^ 2))

open Classical in
/-- The ratio of the reflected to the incoming wave above a stack, listed from the top, below a medium with wave number
`k`; undefined if a denominator vanishes. Below the last medium nothing comes back. -/
noncomputable def parratt (wave : ℂ → ℂ) : ℂ → List Slab → Option ℂ
  | _, [] => some 0
  | k, s :: rest =>
    (parratt wave (wave s.sld) rest).bind fun x =>
      let r := fresnel k (wave s.sld) s.roughness
      let y := x * cexp (-(2 * I * wave s.sld * s.thickness))
      if 1 + r * y = 0 then none else some ((r + y) / (1 + r * y))

end Verif.Spec
