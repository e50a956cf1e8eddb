import Verif.Model.CurveFitter
import Verif.Spec.Preprocessing
import Mathlib.Analysis.SpecialFunctions.Log.Base
import Mathlib.Algebra.BigOperators.Group.Finset.Basic

/-!
# Specification of curve errors and of the shape of network output, simulated curves and label tables
-/

namespace Verif.Spec
open Verif.Py Verif.Model

/-- The mean of the squared differences of the decadic logarithms of two curves with `a.length` points. -/
noncomputable def logMse (a b : List ℝ) : ℝ :=
  (∑ i ∈ Finset.range a.length, (Real.logb 10 (a.getD i 0) - Real.logb 10 (b.getD i 0)) ^ 2) / a.length

/-- All values are numbers greater than zero. -/
def PositiveCurve (c : List ℝ) : Prop := ∀ v ∈ c, 0 < v

/-- All values are numbers and not negative. -/
def NonnegCurve (c : List ℝ) : Prop := ∀ v ∈ c, 0 ≤ v

/-- The network returns an array with one row per curve. -/
def NetShape (env : FitEnv) : Prop :=
  ∀ x y, env.net x = .ok y → ∃ cols, y = .array x.length cols ∧ ∀ c ∈ cols, c.length = x.length

/-- The simulation returns one curve per row of the table and one value per q value. -/
def SimShape (env : FitEnv) : Prop :=
  ∀ q t r, env.simulate q t = .ok r → r.length = t.rows ∧ ∀ c ∈ r, c.length = q.length

/-- The values of the columns for thickness and roughness are real and not negative (NaN is allowed). -/
def NonnegLengths (t : Table) : Prop :=
  ∀ c ∈ t.cols, "thickness".toList <:+: c.1 ∨ "roughness".toList <:+: c.1 → ∀ z : ℂ, some z ∈ c.2 → z.im = 0 ∧ 0 ≤ z.re

/-- `s` is the drawn shift of a variant `k` with the smallest log MSE and `t` the prediction for it: the network sees the curve
interpolated with each drawn shift; the simulated curves on the trained q values are compared with the interpolated data. The
minimum is claimed for simulated curves without NaN; the log MSE of a curve with a zero counts as infinite. -/
def BestShift (env : FitEnv) (q curve shifts : List ℝ) (s : ℝ) (t : Table) : Prop :=
  ∃ variants params data refl k,
    List.Forall₂ (fun (d : ℝ) (v : List ℝ) => interpReflectivity env.trainedQ (q.map fun (x : ℝ) => x + d) curve = .ok v)
      shifts variants ∧
    env.predict variants = .ok params ∧ params.rows = shifts.length ∧
    env.simulate env.trainedQ params = .ok refl ∧ refl.length = shifts.length ∧
    interpReflectivity env.trainedQ q curve = .ok data ∧
    shifts[k]? = some s ∧ t = params.row k ∧
    ∀ sims : List (List ℝ), refl = sims.map (fun (c : List ℝ) => c.map some) → (∀ c ∈ sims, NonnegCurve c) →
      ∃ best, sims[k]? = some best ∧ ∀ c ∈ sims, PositiveCurve c → PositiveCurve best ∧ logMse data best ≤ logMse data c

/-- `s` is the drawn factor of a variant `k` with the smallest log MSE and `t` the prediction for it: the network sees the
rescaled curves, shifted by `dq`; the simulated curves on the measured q values are compared with the data between the
positions `lo` and `hi`. The minimum is claimed for positive data, simulated curves without NaN and at least one compared point;
the log MSE of a curve with a zero counts as infinite. -/
def BestScaling (env : FitEnv) (q : List ℝ) (lo hi : Nat) (curve scalings : List ℝ) (dq s : ℝ) (t : Table) : Prop :=
  ∃ rows params refl k,
    List.Forall₂ (fun (f : ℝ) (v : List ℝ) =>
      interpReflectivity env.trainedQ (q.map fun (x : ℝ) => x + dq) (curve.map fun (x : ℝ) => x * f) = .ok v) scalings rows ∧
    env.predict rows = .ok params ∧ params.rows = scalings.length ∧
    env.simulate q params = .ok refl ∧ refl.length = scalings.length ∧
    scalings[k]? = some s ∧ t = params.row k ∧
    ∀ sims : List (List ℝ), refl = sims.map (fun (c : List ℝ) => c.map some) → (∀ c ∈ sims, NonnegCurve c) →
      PositiveCurve curve → lo < hi → lo < q.length →
      ∃ best, sims[k]? = some best ∧ ∀ c ∈ sims, PositiveCurve ((c.take hi).drop lo) → PositiveCurve ((best.take hi).drop lo) ∧
        logMse ((curve.take hi).drop lo) ((best.take hi).drop lo) ≤ logMse ((curve.take hi).drop lo) ((c.take hi).drop lo)

/-- The free parameters of a sample under their label names, in the order of the label names. -/
def freeParams (s : SampleV ℝ) : List (Str × Param ℝ) := (labelParams s).filter fun (q : Str × Param ℝ) => !q.2.isConst

/-- All ranges are ranges of real numbers. -/
def RealRanges (s : SampleV ℝ) : Prop :=
  ∀ n lo hi nm, (n, Param.range lo hi nm) ∈ labelParams s → ∃ a b, lo = .real a ∧ hi = .real b

/-- A table with one row that has the label `v n` in the column `n`. -/
def PredictionRow (s : SampleV ℝ) (t : Table) (v : Str → ℝ) : Prop :=
  t.rows = 1 ∧ t.cols.columns = (labelParams s).map Prod.fst ∧
    ∀ n ∈ t.cols.columns, t.cols.get n = .ok [some ((v n : ℝ) : ℂ)]

/-- Given one lower bound below one upper bound per start value, the search of `curve_fit` stays within the bounds. -/
def WithinBounds (env : FitEnv) : Prop :=
  ∀ f data (start lb ub p : List ℝ), lb.length = start.length → ub.length = start.length → (∀ b ∈ lb.zip ub, b.1 < b.2) →
    env.optimizer f data start lb ub = .ok p →
    p.length = start.length ∧
      ∀ (i : Nat) (x l u : ℝ), p[i]? = some x → lb[i]? = some l → ub[i]? = some u → l ≤ x ∧ x ≤ u

/-- The search of `curve_fit` starts with finite values of the model function, one per data point, and ends with such values and a
sum of squared differences from the data that is not larger than for the start values. -/
def Descends (env : FitEnv) : Prop :=
  ∀ f (data start lb ub p : List ℝ), env.optimizer f data start lb ub = .ok p →
    ∃ a b : List ℝ, f start = .ok (a.map some) ∧ f p = .ok (b.map some) ∧ a.length = data.length ∧ b.length = data.length ∧
      ∑ i ∈ Finset.range data.length, (b.getD i 0 - data.getD i 0) ^ 2 ≤ ∑ i ∈ Finset.range data.length, (a.getD i 0 - data.getD i 0) ^ 2

end Verif.Spec
