import Verif.Py.Random
import Verif.Model.Sampling

/-!
# What sampling should return
-/

namespace Verif.Spec
open Verif.Py Verif.Model

/-- A value is in the range of a parameter: equal to the constant, a real number between the limits,
or a complex number in the rectangle spanned by complex limits. -/
def InRange : Param ℝ → Num ℝ → Prop
  | .const c _, v => v = c
  | .range (.real a) (.real b) _, v => ∃ x, v = .real x ∧ a ≤ x ∧ x ≤ b
  | .range a b _, v => ∃ x y, v = .cplx true x y ∧ x ∈ Set.uIcc a.re b.re ∧ y ∈ Set.uIcc a.im b.im

/-- Reflection of a value that left `[mn, mx]` at the limit it crossed. -/
noncomputable def reflect (mn mx x : ℝ) : ℝ :=
  if x < mn then 2 * mn - x else if mx < x then 2 * mx - x else x

/-- The distribution cannot leave the range: it is not the bolstered one, or the normal draws are
bounded by `k` standard deviations with `k * width ≤ 1`. -/
def Tame {G : Type} (rng : Rng G) (d : DistArgs) : Prop :=
  d.kind = .bolstered → ∃ k, rng.NormalBounded k ∧ 0 ≤ k ∧ ∀ w, d.width = some w → k * w ≤ 1

/-- The limits are in order, for complex limits in both parts. -/
def Ordered : Param ℝ → Prop
  | .const _ _ => True
  | .range a b _ => a.re ≤ b.re ∧ a.im ≤ b.im

/-- `rough` respects the bound `max(roughness.min, thick / 2)`. -/
def RoughBound (p : Param ℝ) (thick rough : Num ℝ) : Prop :=
  ∃ m t r, p.min = .real m ∧ thick = .real t ∧ rough = .real r ∧ r ≤ max m (t / 2)

end Verif.Spec
