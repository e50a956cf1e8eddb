import Verif.Py.Basic
import Verif.Model.Simulate
import Mathlib.MeasureTheory.Integral.IntervalIntegral.Basic
import Mathlib.MeasureTheory.Measure.Lebesgue.Basic
import Mathlib.Analysis.SpecialFunctions.Exp

/-!
# Model of the scattering length density profiles (data_generator.py l.230-330)

Real numbers instead of floats; `none` is NaN, which only arises from `0 / 0` at an interface without
roughness.
-/

namespace Verif.Model
open Verif.Py

/-- `scipy.special.erf`. -/
noncomputable def erf (x : ℝ) : ℝ := 2 / Real.sqrt Real.pi * ∫ t in (0 : ℝ)..x, Real.exp (-t ^ 2)

open Classical in
/-- `erf(a / b)` with the quotient of numpy: `a / 0` is plus or minus infinity or NaN. -/
noncomputable def erfQuot (a b : ℝ) : Option ℝ :=
  if b ≠ 0 then some (erf (a / b))
  else if a = 0 then none
  else some (if 0 < a then 1 else -1)

open Classical in
/-- data_generator.py l.317-330 `_smooth_step`, for one height. -/
noncomputable def smoothStep (z center stdev left right : ℝ) : Option ℝ :=
  (erfQuot (z - center) (stdev * Real.sqrt 2)).map fun p =>
    let p := p + 1
    let p := if left > right then p * -1 else p
    p * (|left - right| / 2)

/-- `np.arange(a, b, 0.1)`. -/
noncomputable def arange (a b : ℝ) : List ℝ :=
  (List.range ⌈(b - a) / 0.1⌉.toNat).map fun (i : Nat) => a + i * 0.1

/-- Sum of two floats. -/
def addNan (a b : Option ℝ) : Option ℝ := do return (← a) + (← b)

/-- `np.append(0, np.cumsum(thickness))`. -/
def cumulative : ℝ → List ℝ → List ℝ
  | a, [] => [a]
  | a, d :: ds => a :: cumulative (a + d) ds

/-- data_generator.py l.269-315 `make_sld_profile`: heights and profile. -/
noncomputable def makeSldProfile (thickness : List ℝ) (sld : List ℂ) (roughness : List ℝ) (sub amb : ℂ) :
    Res (List ℝ × List (Option ℝ)) :=
  if ¬((thickness.length : Int) = sld.length ∧ (sld.length : Int) = roughness.length - 1) then .error .valueError
  else do
    let thickness := thickness.map fun (x : ℝ) => |x|
    let roughness := roughness.map fun (x : ℝ) => |x|
    let total := thickness.sum
    let cumul := cumulative 0 thickness
    let sld := (sub :: sld ++ [amb]).map fun (z : ℂ) => z.re
    let r0 ← getItem roughness 0
    let rl ← getItem roughness (-1)
    let height := arange (-(10 + 3 * r0)) (total + (10 + 3 * rl))
    let s0 ← getItem sld 0
    let profile ← (List.range roughness.length).foldlM (fun (profile : List (Option ℝ)) (i : Nat) => do
      let center ← getItem cumul (i : Int)
      let width ← getItem roughness (i : Int)
      let l ← getItem sld (i : Int)
      let r ← getItem sld ((i : Int) + 1)
      let segment := height.map fun (z : ℝ) => smoothStep z center width l r
      return List.zipWith addNan profile segment) (height.map fun _ => some s0)
    return (height, profile)

/-- data_generator.py l.230-267 `simulate_sld_profiles` for a two-dimensional table. -/
noncomputable def simulateSldProfiles (tab : SimTable) : Res (List (List ℝ × List (Option ℝ))) := do
  let (tc, rc, sc) := separateLabels tab.frame
  let thicknesses := (LabelArr.ofCols tab.nrows tc).map Complex.re
  let roughnesses := (LabelArr.ofCols tab.nrows rc).map Complex.re
  let slds := LabelArr.ofCols tab.nrows sc
  match slds, roughnesses with
  | .flat, _ => .error .indexError
  | .rows _, .flat => .error .indexError
  | .rows sl, .rows _ => do
    -- l.248-250: `slds[:, 0]`, `slds[:, 1:-1]`, `slds[:, -1]`
    (List.range tab.nrows).mapM fun (i : Nat) => do
      let t ← thicknesses.row i
      let s ← getItem sl (i : Int)
      let r ← roughnesses.row i
      let sub ← getItem s 0
      let amb ← getItem s (-1)
      makeSldProfile t (slice s (some 1) (some (-1))) r sub amb

end Verif.Model
