import Verif.Spec.Sampling
import Mathlib.MeasureTheory.Measure.MeasureSpace
import Mathlib.Analysis.SpecialFunctions.Log.Basic

/-!
# What the documentation says about distributions
-/

namespace Verif.Spec
open MeasureTheory Verif.Model

variable {Ω : Type} [MeasurableSpace Ω]

/-- `X` is uniformly distributed between `a` and `b`: its distribution function is linear. -/
def UniformBetween (P : Measure Ω) (X : Ω → ℝ) (a b : ℝ) : Prop :=
  ∀ t ∈ Set.Icc a b, P {ω | X ω ≤ t} = ENNReal.ofReal ((t - a) / (b - a))

/-- `X` is uniformly distributed between `a` and `b` on a logarithmic scale. -/
def LogUniformBetween (P : Measure Ω) (X : Ω → ℝ) (a b : ℝ) : Prop :=
  ∀ t ∈ Set.Icc a b, P {ω | X ω ≤ t} = ENNReal.ofReal (Real.log (t / a) / Real.log (b / a))

/-- The value between `a` and `b` that belongs to the number `y` of `[0, 1)` for a distribution type. -/
noncomputable def drawFrom (d : DistKind) (a b y : ℝ) : ℝ :=
  match d with
  | .logarithmic => (10 : ℝ) ^ (Real.logb 10 a + (Real.logb 10 b - Real.logb 10 a) * y)
  | _ => a + (b - a) * y

/-- The probability of values up to `x` between `a` and `b`. -/
noncomputable def cdfBetween (d : DistKind) (a b x : ℝ) : ℝ :=
  if b ≤ x then 1 else
    match d with
    | .logarithmic => Real.log (x / a) / Real.log (b / a)
    | _ => (x - a) / (b - a)

/-- A value beyond a limit is reflected there. -/
noncomputable def reflected (a b v : ℝ) : ℝ := if v < a then 2 * a - v else if b < v then 2 * b - v else v

/-! ### A table of random labels -/

/-- The random numbers of one layer in one row. -/
inductive Part where
  | sldRe | sldIm | thickness | roughness
  deriving DecidableEq

/-- A random number: layer (from the substrate), row, part. -/
abbrev Cell := ℕ × ℕ × Part

instance : Countable Part := ⟨⟨fun p => match p with | .sldRe => 0 | .sldIm => 1 | .thickness => 2 | .roughness => 3, by
  intro a b h
  cases a <;> cases b <;> simp at h ⊢⟩⟩

/-- The value of a parameter: a constant, or the value for its number, for complex limits one number for each part. -/
noncomputable def paramValue (d : DistKind) (p : Param ℝ) (v w : ℝ) : Num ℝ :=
  match p with
  | .const c _ => c
  | .range (.real a) (.real b) _ => .real (drawFrom d a b v)
  | .range a b _ => .cplx true (drawFrom d a.re b.re v) (drawFrom d a.im b.im w)

/-- The roughness of a layer of thickness `t`: drawn between the lower limit and the upper limit, or half the thickness if this is less;
the lower limit if half the thickness is below it. -/
noncomputable def roughnessValue (d : DistKind) (q : Param ℝ) (t v : ℝ) : ℝ :=
  if t / 2 < q.min.re then q.min.re else drawFrom d q.min.re (min q.max.re (t / 2)) v

/-- The columns of one layer (the `j`-th from the substrate) of a table with `n` rows, for the numbers `v`. -/
structure LayerColumns (d : DistKind) (n : ℕ) (v : Cell → ℝ) (j : ℕ) (f : Verif.Py.Frame (Num ℝ)) (l : LayerV ℝ) : Prop where
  sld : ∀ p, l.sld = some p → f.get (l.name ++ "_sld".toList) =
    .ok (List.ofFn fun (i : Fin n) => paramValue d p (v (j, i, .sldRe)) (v (j, i, .sldIm)))
  thickness : ∀ p, l.thickness = some p → f.get (l.name ++ "_thickness".toList) = .ok (List.ofFn fun (i : Fin n) => paramValue d p (v (j, i, .thickness)) 0)
  roughness : ∀ q, l.roughness = some q → l.thickness = none → f.get (l.name ++ "_roughness".toList) =
    .ok (List.ofFn fun (i : Fin n) => paramValue d q (v (j, i, .roughness)) 0)
  film : ∀ p q, l.thickness = some p → l.roughness = some q → f.get (l.name ++ "_roughness".toList) =
    .ok (List.ofFn fun (i : Fin n) => Num.real (roughnessValue d q (paramValue d p (v (j, i, .thickness)) 0).re (v (j, i, .roughness))))

/-- A row of a table: real and imaginary part for every label. -/
def rowOf (f : Verif.Py.Frame (Num ℝ)) (i : ℕ) (label : Verif.Py.Str) : ℝ × ℝ :=
  match f.get label with
  | .ok col => ((col.getD i (.real 0)).re, (col.getD i (.real 0)).im)
  | .error _ => (0, 0)

/-! ### A table within its ranges -/

/-- The column `label` of the table has `n` values, all in the range of the parameter. -/
def ColumnWithin (f : Verif.Py.Frame (Num ℝ)) (n : ℕ) (label : Verif.Py.Str) (p : Param ℝ) : Prop :=
  ∃ col, f.get label = .ok col ∧ col.length = n ∧ ∀ v ∈ col, InRange p v

/-- The table has `n` rows, every value is in the range of its parameter, and no roughness is larger than half the thickness of its layer in
the same row, unless the range of the roughness leaves no other choice. -/
structure TableWithin (s : SampleV ℝ) (n : ℕ) (f : Verif.Py.Frame (Num ℝ)) : Prop where
  sld : ∀ l ∈ s.substrate :: s.layers ++ [s.ambient], ∀ p, l.sld = some p → ColumnWithin f n (l.name ++ "_sld".toList) p
  roughness : ∀ l ∈ s.substrate :: s.layers, ∀ p, l.roughness = some p → ColumnWithin f n (l.name ++ "_roughness".toList) p
  thickness : ∀ l ∈ s.layers, ∀ p, l.thickness = some p → ColumnWithin f n (l.name ++ "_thickness".toList) p
  limit : ∀ l ∈ s.layers, ∀ p, l.roughness = some p → ∃ ts rs, f.get (l.name ++ "_thickness".toList) = .ok ts ∧
    f.get (l.name ++ "_roughness".toList) = .ok rs ∧
    ∀ (i : ℕ) (t r : Num ℝ), ts[i]? = some t → rs[i]? = some r → RoughBound p t r

/-- A set of labels that the ranges of the sample allow: every value is in the range of its parameter, and no roughness is larger than half the
thickness of its layer, unless the range of the roughness leaves no other choice. -/
structure RowWithin (s : SampleV ℝ) (y : Verif.Py.Str → Num ℝ) : Prop where
  sld : ∀ l ∈ s.substrate :: s.layers ++ [s.ambient], ∀ p, l.sld = some p → InRange p (y (l.name ++ "_sld".toList))
  roughness : ∀ l ∈ s.substrate :: s.layers, ∀ p, l.roughness = some p → InRange p (y (l.name ++ "_roughness".toList))
  thickness : ∀ l ∈ s.layers, ∀ p, l.thickness = some p → InRange p (y (l.name ++ "_thickness".toList))
  limit : ∀ l ∈ s.layers, ∀ p, l.roughness = some p → RoughBound p (y (l.name ++ "_thickness".toList)) (y (l.name ++ "_roughness".toList))

/-- Row `i` of a table differs from the labels `y` by less than `ε`. -/
def RowNear (f : Verif.Py.Frame (Num ℝ)) (i : ℕ) (labels : List Verif.Py.Str) (y : Verif.Py.Str → Num ℝ) (ε : ℝ) : Prop :=
  ∀ k ∈ labels, |(rowOf f i k).1 - (y k).re| < ε ∧ |(rowOf f i k).2 - (y k).im| < ε

end Verif.Spec
