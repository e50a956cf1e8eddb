import Verif.Py.Random
import Verif.Py.Frame
import Verif.Model.Multilayer
import Mathlib.Analysis.SpecialFunctions.Log.Base
import Mathlib.Algebra.Order.Floor.Ring

/-!
# Model of `distributions.py`, `Parameter.sample` and `generate_random_labels`

Numbers are real numbers.
-/

namespace Verif.Model
open Verif.Py

/-- The argument `distribution_type`. -/
inductive DistKind where
  | uniform | logarithmic | bolstered | other
  deriving DecidableEq

/-- The keyword arguments `distribution_type`, `bolster_fraction`, `bolster_width`; the last two may be
absent. -/
structure DistArgs where
  kind : DistKind
  fraction : Option ℝ
  width : Option ℝ

/-- distributions.py l.64-72: the loop body of `_fold_distribution`. -/
noncomputable def foldValue (mn mx v : ℝ) : ℝ :=
  if v < mn then v + 2 * (mn - v)
  else if v > mx then v + 2 * (mx - v)
  else v

variable {G : Type}

/-- distributions.py l.48: `int(np.floor(n_samples * bolster_fraction / 2))`. -/
noncomputable def nBolster (n : Int) (fraction : ℝ) : Int := ⌊(n : ℝ) * fraction / 2⌋

/-- distributions.py l.32-61 `bolstered_uniform_distribution`. -/
noncomputable def bolstered (rng : Rng G) (mn mx : ℝ) (n : Int) (fraction width : ℝ) :
    Rand G (List ℝ) := do
  let span := mx - mn
  let nb := nBolster n fraction
  let nu := n - 2 * nb
  let uniform ← drawUniform rng mn mx nu
  let lower ← drawNormal rng mn (span * width) nb
  let upper ← drawNormal rng mx (span * width) nb
  drawShuffle rng (lower.map (foldValue mn mx) ++ uniform ++ upper.map (foldValue mn mx))

/-- distributions.py l.75-78 `random_logarithmic_distribution`. For a non-positive limit the logarithm
is infinite or NaN, and `np.random.uniform` raises `OverflowError`. -/
noncomputable def logDistribution (rng : Rng G) (mn mx : ℝ) (n : Int) : Rand G (List ℝ) :=
  if mn ≤ 0 ∨ mx ≤ 0 then Rand.fail .overflowError
  else do
    let u ← drawUniform rng (Real.logb 10 mn) (Real.logb 10 mx) n
    return u.map fun y => (10 : ℝ) ^ y

/-- distributions.py l.7-29 `sample_distribution`. -/
noncomputable def sampleDistribution (rng : Rng G) (n : Int) (mn mx : ℝ) (d : DistArgs) :
    Rand G (List ℝ) :=
  match d.kind with
  | .bolstered =>
    match d.fraction, d.width with
    | some f, some w => bolstered rng mn mx n f w
    | _, _ => Rand.fail .keyError
  | .uniform => drawUniform rng mn mx n
  | .logarithmic => logDistribution rng mn mx n
  | .other => Rand.fail .valueError

/-- parameters.py l.28-57 `Parameter.sample` and l.104-106 `ConstantParameter.sample`. Limits that are
complex objects without imaginary part make numpy raise `TypeError`. -/
noncomputable def Param.sample (rng : Rng G) (n : Int) (d : DistArgs) : Param ℝ → Rand G (List (Num ℝ))
  | .const v _ => if n < 0 then Rand.fail .valueError else pure (List.replicate n.toNat v)
  | .range a b _ =>
    if a.im = 0 ∧ b.im = 0 then
      match a, b with
      | .real x, .real y => do
        let v ← sampleDistribution rng n x y d
        return v.map Num.real
      | _, _ => Rand.fail .typeError
    else do
      let re ← sampleDistribution rng n a.re b.re d
      let im ← sampleDistribution rng n a.im b.im d
      return List.zipWith (Num.cplx true) re im

/-- The values of an array of real numbers. Arrays of complex thicknesses or roughnesses are not
modelled (they are an error here). -/
def asReals (l : List (Num ℝ)) : Res (List ℝ) :=
  l.mapM fun v => match v with
    | .real x => .ok x
    | .cplx _ _ _ => .error .typeError

/-- data_generator.py l.102-105 `_get_max_roughness`. -/
noncomputable def maxRoughness (t : ℝ) : ℝ := t / 2

/-- data_generator.py l.90-99, the body of the loop, for one thickness `t` and roughness `r`. -/
noncomputable def adjustRoughness (rng : Rng G) (d : DistArgs) (mn mx t r : ℝ) : Rand G ℝ :=
  if maxRoughness t < mn then pure mn
  else if maxRoughness t > mx then pure r
  else do
    let x ← sampleDistribution rng 1 mn (maxRoughness t) d
    match x with
    | [x] => return x
    | _ => Rand.fail .valueError

/-- data_generator.py l.89-100: the loop over all samples. -/
noncomputable def adjustRoughnesses (rng : Rng G) (d : DistArgs) (mn mx : ℝ) :
    List ℝ → List ℝ → Rand G (List ℝ)
  | [], rs => pure rs
  | _ :: _, [] => Rand.fail .indexError
  | t :: ts, r :: rs => do
    let r ← adjustRoughness rng d mn mx t r
    let rs ← adjustRoughnesses rng d mn mx ts rs
    return r :: rs

/-- data_generator.py l.84-100 `_generate_roughness_from_thickness`. -/
noncomputable def generateRoughness (rng : Rng G) (d : DistArgs) (p : Param ℝ) (thickness : List (Num ℝ)) :
    Rand G (List (Num ℝ)) := do
  let r ← p.sample rng thickness.length d
  let t ← Rand.ofRes (asReals thickness)
  let r ← Rand.ofRes (asReals r)
  match p.min, p.max with
  | .real mn, .real mx => do
    let r ← adjustRoughnesses rng d mn mx t r
    return r.map Num.real
  | _, _ => Rand.fail .typeError

/-- data_generator.py l.72-80: the loop body of `generate_random_labels`. -/
noncomputable def labelStep (rng : Rng G) (n : Int) (d : DistArgs) (labels : Frame (Num ℝ)) (l : LayerV ℝ) :
    Rand G (Frame (Num ℝ)) :=
  match l.sld with
  | none => Rand.fail .attributeError
  | some sld => do
    let v ← sld.sample rng n d
    let labels := labels.set (l.name ++ "_sld".toList) v
    match l.thickness, l.roughness with
    | some t, some r => do
      let tv ← t.sample rng n d
      let labels := labels.set (l.name ++ "_thickness".toList) tv
      let rv ← generateRoughness rng d r tv
      return labels.set (l.name ++ "_roughness".toList) rv
    | some _, none => Rand.fail .attributeError
    | none, some r => do
      let rv ← r.sample rng n d
      return labels.set (l.name ++ "_roughness".toList) rv
    | none, none => return labels

/-- data_generator.py l.71-80: the loop over the layers. -/
noncomputable def labelLoop (rng : Rng G) (n : Int) (d : DistArgs) :
    Frame (Num ℝ) → List (LayerV ℝ) → Rand G (Frame (Num ℝ))
  | f, [] => pure f
  | f, l :: ls => do
    let f ← labelStep rng n d f l
    labelLoop rng n d f ls

/-- data_generator.py l.44-82 `generate_random_labels`. -/
noncomputable def generateRandomLabels (rng : Rng G) (s : SampleV ℝ) (n : Int) (d : DistArgs) :
    Rand G (Frame (Num ℝ)) :=
  if ¬ n > 0 then Rand.fail .valueError
  else do
    let names ← Rand.ofRes s.labelNames
    let f ← labelLoop rng n d [] s.structure_
    Rand.ofRes (f.select names)

end Verif.Model
