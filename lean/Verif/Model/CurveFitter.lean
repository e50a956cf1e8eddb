import Verif.Model.Preprocessing
import Verif.Model.Standardize
import Verif.Model.Scans
import Verif.Model.Prediction

/-!
# Model of `CurveFitter` (curve_fitter/curve_fitter.py) and of curve_fitter/minimizer.py

The Keras network, the reflectivity simulation and the optimizer of `scipy.optimize.curve_fit` are arbitrary functions
(`FitEnv`). Random numbers are arguments: the drawn q shifts and scaling factors of every curve. Measured curves are real
numbers; interpolating a curve with a value that is not positive stops with `nanResult`. Simulated values may be NaN
(`none`). The arrays `predicted_refl` (l.85, l.91) and `scaled_predicted_refl` (l.99, l.109) are never read and left out.
-/

namespace Verif.Model
open Verif.Py

/-! ### minimizer.py -/

/-- `np.min`: `ValueError` for an empty array. -/
noncomputable def npMin : List ℝ → Res ℝ
  | [] => .error .valueError
  | a :: l => .ok (l.foldl min a)

/-- `(np.log10(a) - np.log10(b)) ** 2`: the logarithm of zero is minus infinity, of a negative number NaN. -/
noncomputable def logSqErr : Option ℝ → Option ℝ → FVal
  | some a, some b =>
    if a < 0 ∨ b < 0 then .nan
    else if a = 0 ∧ b = 0 then .nan
    else if a = 0 ∨ b = 0 then .inf
    else .num ((Real.logb 10 a - Real.logb 10 b) ^ 2)
  | _, _ => .nan

/-- `np.mean` of floats: NaN for an empty array and if there is a NaN. -/
noncomputable def fMean (l : List FVal) : FVal :=
  if l.isEmpty then .nan
  else if l.any (fun (v : FVal) => !v.notNan) then .nan
  else if l.any FVal.isInf then .inf
  else .num ((l.map FVal.toReal).sum / l.length)

/-- The comparison of `np.argmin`: does `a` replace the best value so far? A NaN replaces every number and is never
replaced. -/
noncomputable def FVal.better (a best : FVal) : Bool :=
  match best, a with
  | .nan, _ => false
  | _, .nan => true
  | .inf, .inf => false
  | .inf, .num _ => true
  | .num _, .inf => false
  | .num b, .num x => decide (x < b)

/-- `np.argmin` of floats: `ValueError` for an empty array. -/
noncomputable def fArgmin (l : List FVal) : Res Nat :=
  match l with
  | [] => .error .valueError
  | a :: l =>
    .ok (l.zipIdx 1 |>.foldl (fun (best : FVal × Nat) (p : FVal × Nat) => if p.1.better best.1 then p else best) (a, 0)).2

/-- minimizer.py l.27-30 `curve_variant_log_mse`. -/
noncomputable def curveVariantLogMse (curve : List (Option ℝ)) (variants : List (List (Option ℝ))) : Res (List FVal) :=
  variants.mapM fun (v : List (Option ℝ)) => do
    let e ← ew logSqErr curve v
    return fMean e

/-- minimizer.py l.7-15 `q_shift_variants` for the drawn shifts. -/
noncomputable def qShiftVariants (qPrediction qInput curve shifts : List ℝ) : Res (List (List ℝ)) :=
  shifts.mapM fun (d : ℝ) => interpReflectivity qPrediction (qInput.map fun (x : ℝ) => x + d) curve

/-- minimizer.py l.18-24 `curve_scaling_variants` for the drawn factors. -/
def curveScalingVariants (curve scalings : List ℝ) : List (List ℝ) :=
  scalings.map fun (s : ℝ) => curve.map fun (x : ℝ) => x * s

/-- minimizer.py l.64-70 `mean_squared_error` of one-dimensional arrays (the mean of empty arrays is NaN). -/
noncomputable def meanSquaredError (a b : List ℝ) : Res FVal :=
  if a.length ≠ b.length then .error .valueError
  else .ok (fMean ((List.zipWith (fun (x y : ℝ) => (x - y) ^ 2) a b).map FVal.num))

/-! ### Tables -/

/-- `'thickness'` and `'roughness'`. -/
def thicknessS : Str := "thickness".toList
def roughnessS : Str := "roughness".toList

/-- `'thickness' in name or 'roughness' in name`. -/
def isLengthName (name : Str) : Bool := contains name thicknessS || contains name roughnessS

/-- `abs` of a float or complex float. -/
noncomputable def Fl.abs (x : Fl) : Fl := x.map fun (z : ℂ) => ((‖z‖ : ℝ) : ℂ)

/-- curve_fitter.py l.189-192 `_ensure_positive_parameters`. -/
noncomputable def ensurePositive (t : Table) : Table :=
  ⟨t.rows, t.cols.map fun (c : Str × List Fl) => if isLengthName c.1 then (c.1, c.2.map Fl.abs) else c⟩

/-- `t[i:i + 1]` of a table. -/
def Table.row (t : Table) (i : Nat) : Table :=
  ⟨if i < t.rows then 1 else 0, t.cols.map fun (c : Str × List Fl) => (c.1, (c.2.drop i).take 1)⟩

/-- Two tables with the same columns below each other. -/
def Table.append (a b : Table) : Table :=
  ⟨a.rows + b.rows, List.zipWith (fun (c d : Str × List Fl) => (c.1, c.2 ++ d.2)) a.cols b.cols⟩

/-- `pd.concat(tables).reset_index(drop=True)`: `ValueError` for no tables. If the columns differ pandas fills in NaN, which
is not followed. -/
def Table.concat (ts : List Table) : Res Table :=
  match ts with
  | [] => .error .valueError
  | t :: ts => if ts.all (fun (u : Table) => u.cols.columns = t.cols.columns) then .ok (ts.foldl Table.append t)
    else .error .nanResult

/-! ### curve_fitter.py -/

/-- The trained model and the opaque parts. -/
structure FitEnv where
  /-- `trained_model.q_values` -/
  trainedQ : List ℝ
  /-- `trained_model.ip_mean` and `trained_model.ip_std`, which a trained model has (no zero in the latter) -/
  mean : List ℝ
  std : List ℝ
  /-- `keras_model.predict` -/
  net : List (List ℝ) → Res LabelArg
  /-- `trained_model.sample` -/
  sample : SampleV ℝ
  /-- `ReflectivityGenerator(q, sample).simulate_reflectivity(labels)` -/
  simulate : List ℝ → Table → Res (List (List (Option ℝ)))
  /-- the search of `curve_fit`: model function, `log10` of the data, start values, lower and upper bounds -/
  optimizer : (List ℝ → Res (List (Option ℝ))) → List ℝ → List ℝ → List ℝ → List ℝ → Res (List ℝ)

/-- The literal `'min_to_zero'` given to `OutputPreprocessor` (curve_fitter.py l.30). -/
def fitNorm : PyStr := ⟨minToZeroS, true⟩

namespace FitEnv

/-- curve_fitter.py l.180-186 `_interpolate_intensity`. -/
noncomputable def interpolate (env : FitEnv) (curves : List (List ℝ)) (q : List ℝ) : Res (List (List ℝ)) :=
  curves.mapM fun (c : List ℝ) => interpReflectivity env.trainedQ q c

/-- `self.ip.standardize` with the mean and deviation of the trained model. -/
noncomputable def standardize (env : FitEnv) (rows : List (List ℝ)) : Res (List (List ℝ)) := do
  let c ← bcastRows (· - ·) rows env.mean
  bcastRows (· / ·) c env.std

/-- curve_fitter.py l.116-120: the prediction for the curves on the trained q values. -/
noncomputable def predict (env : FitEnv) (rows : List (List ℝ)) : Res Table := do
  let x ← env.standardize rows
  let y ← env.net x
  let t ← restoreLabels fitNorm env.sample y
  return ensurePositive t

/-- curve_fitter.py l.78-79: the curves for the network. -/
noncomputable def networkInput (env : FitEnv) (curves : List (List ℝ)) (q : List ℝ) (dq factor : ℝ) :
    Res (List (List ℝ)) :=
  env.interpolate (curves.map fun (c : List ℝ) => c.map fun (x : ℝ) => x * factor) (q.map fun (x : ℝ) => x + dq)

/-- curve_fitter.py l.75-76: `min_q_idx` and `max_q_idx`. -/
noncomputable def qIndices (env : FitEnv) (q : List ℝ) : Res (Nat × Nat) := do
  let hi ← npMax env.trainedQ
  let j ← npArgmin (q.map fun (x : ℝ) => |x - hi|)
  let lo ← npMin env.trainedQ
  let i ← npArgmin (q.map fun (x : ℝ) => |x - lo|)
  return (i, j + 1)

/-- The call `self.fit_curve(curves, q, polish=False, optimize_q=False, optimize_scaling=False, dq=dq, factor=factor)`:
predicted parameters and simulated curves. -/
noncomputable def fitPlain (env : FitEnv) (curves : List (List ℝ)) (q : List ℝ) (dq factor : ℝ) :
    Res (Table × List (List (Option ℝ))) := do
  let _ ← env.qIndices q
  let rows ← env.networkInput curves q dq factor
  let params ← env.predict rows
  let refl ← env.simulate q params
  return (params, refl)

/-- curve_fitter.py l.146-166 `_optimize_q` for the drawn shifts: best shift and prediction. -/
noncomputable def optimizeQ (env : FitEnv) (q curve shifts : List ℝ) : Res (ℝ × Table) := do
  let variants ← qShiftVariants env.trainedQ q curve shifts
  let (params, refl) ← env.fitPlain variants env.trainedQ 0 1
  let data ← interpReflectivity env.trainedQ q curve
  let mse ← curveVariantLogMse (data.map some) refl
  let k ← fArgmin mse
  let best := params.row k
  let sim ← env.simulate q best
  let _ ← getItem sim 0
  let shift ← getItem shifts (k : Int)
  return (shift, best)

/-- curve_fitter.py l.168-178 `_optimize_scaling` for the drawn factors: best factor and prediction. -/
noncomputable def optimizeScaling (env : FitEnv) (q : List ℝ) (lo hi : Nat) (curve scalings : List ℝ) (dq : ℝ) :
    Res (ℝ × Table) := do
  let (params, refl) ← env.fitPlain (curveScalingVariants curve scalings) q dq 1
  let mse ← curveVariantLogMse ((slice curve (some lo) (some hi)).map some)
    (refl.map fun (c : List (Option ℝ)) => slice c (some lo) (some hi))
  let k ← fArgmin mse
  let s ← getItem scalings (k : Int)
  let _ ← getItem refl (k : Int)
  return (s, params.row k)

/-- The real numbers of a row of labels; a complex label cannot be a bound of `curve_fit` (`TypeError`), a label that is not
finite is rejected with `ValueError`. -/
noncomputable def realLabels (row : List Fl) : Res (List ℝ) :=
  row.mapM fun (x : Fl) => match x with
    | some z => if z.im = 0 then .ok z.re else .error .typeError
    | none => .error .valueError

/-- `np.log10` of a float, `none` if the result is not finite. -/
noncomputable def log10 (x : Option ℝ) : Option ℝ := x.bind fun (x : ℝ) => if 0 < x then some (Real.logb 10 x) else none

/-- `curve_fit` checks that the data are finite (`check_finite`), otherwise `ValueError`. -/
noncomputable def checkFinite (data : List (Option ℝ)) : Res (List ℝ) :=
  data.mapM fun (x : Option ℝ) => match x with
    | some x => .ok x
    | none => .error .valueError

/-- minimizer.py l.45-52 `fitting_model`: the logarithm of the curve simulated for normalized labels, as a function of them. The
argument `q` of the inner function is not used by it. -/
noncomputable def fittingModel (env : FitEnv) (q p : List ℝ) : Res (List (Option ℝ)) := do
  let t ← restoreLabels fitNorm env.sample (.array 1 (p.map fun (x : ℝ) => [some (x : ℂ)]))
  let r ← env.simulate q t
  let c ← getItem r 0
  return c.map log10

open Classical in
/-- `scipy.optimize.curve_fit` with `p0` and `bounds`: data that are not finite, different numbers of start values and bounds, bounds
that are not increasing and start values outside of the bounds are rejected with `ValueError`. -/
noncomputable def curveFit (env : FitEnv) (f : List ℝ → Res (List (Option ℝ))) (data : List (Option ℝ)) (start lb ub : List ℝ) :
    Res (List ℝ) :=
  if lb.length ≠ start.length ∨ ub.length ≠ start.length then .error .valueError
  else if ∃ p ∈ lb.zip ub, p.2 ≤ p.1 then .error .valueError
  else do
    let d ← checkFinite data
    env.optimizer f d start lb ub

/-- minimizer.py l.33-42 `least_log_mean_squares_fit`; `zip` stops with the shorter argument. -/
noncomputable def leastLogFit (env : FitEnv) (q data : List ℝ) (labels : Table) (fractions : List ℝ) : Res Table := do
  let (prep, _) ← applyPreprocessing fitNorm env.sample (.frame labels)
  let row ← prep.cols.mapM fun (c : Str × List Fl) => getItem c.2 0
  let start ← realLabels row
  let lb := List.zipWith (fun (v f : ℝ) => v - f * |v|) start fractions
  let ub := List.zipWith (fun (v f : ℝ) => v + f * |v|) start fractions
  let p ← env.curveFit (env.fittingModel q) (data.map fun (x : ℝ) => log10 (some x)) start lb ub
  restoreLabels fitNorm env.sample (.array 1 (p.map fun (x : ℝ) => [some (x : ℂ)]))

/-- The keyword arguments of `fit_curve`. -/
structure Options where
  dq : ℝ
  factor : ℝ
  polish : Bool
  fractions : List ℝ
  optimizeQ : Bool
  optimizeScaling : Bool
  simulate : Bool

/-- The dictionary returned by `fit_curve`. -/
structure Output where
  params : Table
  refl : Option (List (List (Option ℝ)))
  bestShift : Option (List ℝ)
  bestScaling : Option (List ℝ)

/-- curve_fitter.py l.83-95: the q optimization of every curve; its predictions are always replaced later (l.98, l.119). -/
noncomputable def qStep (env : FitEnv) (on : Bool) (curves : List (List ℝ)) (q : List ℝ) (shifts : Nat → List ℝ) :
    Res (Option (List ℝ)) :=
  if on then do
    let out ← curves.zipIdx.mapM fun (c : List ℝ × Nat) => env.optimizeQ q c.1 (shifts c.2)
    let _ ← Table.concat (out.map Prod.snd)
    return some (out.map Prod.fst)
  else .ok none

/-- curve_fitter.py l.97-113: the scaling optimization of every curve. -/
noncomputable def scalingStep (env : FitEnv) (on : Bool) (curves : List (List ℝ)) (q : List ℝ) (lo hi : Nat)
    (best : Option (List ℝ)) (scalings : Nat → List ℝ) : Res (Option (List ℝ × Table)) :=
  if on then do
    let out ← curves.zipIdx.mapM fun (c : List ℝ × Nat) =>
      env.optimizeScaling q lo hi c.1 (scalings c.2) (match best with | none => 0 | some l => l.getD c.2 0)
    let t ← Table.concat (out.map Prod.snd)
    return some (out.map Prod.fst, t)
  else .ok none

/-- curve_fitter.py l.115-120: the plain prediction replaces the optimized one unless both optimizations are on. -/
noncomputable def chooseParams (env : FitEnv) (o : Options) (rows : List (List ℝ)) (scaled : Option (List ℝ × Table)) : Res Table :=
  match o.optimizeScaling && o.optimizeQ, scaled with
  | true, some s => .ok s.2
  | _, _ => env.predict rows

/-- curve_fitter.py l.122-131: refinement. -/
noncomputable def polishStep (env : FitEnv) (o : Options) (curves : List (List ℝ)) (q : List ℝ) (lo hi n : Nat) (params : Table) :
    Res Table :=
  if o.polish then do
    let ts ← (List.range n).mapM fun (i : Nat) => do
      let c ← getItem curves (i : Int)
      env.leastLogFit (slice q (some lo) (some hi)) (slice c (some lo) (some hi)) (params.row i) o.fractions
    let t ← Table.concat ts
    return ensurePositive t
  else .ok params

/-- curve_fitter.py l.132-135, l.139-142: the simulated curves. -/
noncomputable def simulateStep (env : FitEnv) (o : Options) (q : List ℝ) (params : Table) : Res (Option (List (List (Option ℝ)))) :=
  if o.simulate then do
    let r ← env.simulate q params
    return some r
  else .ok none

/-- curve_fitter.py l.32-144 `fit_curve` for a two-dimensional array of curves (a single curve is a list with one curve).
`shifts i` and `scalings i` are the random numbers drawn for curve `i`. -/
noncomputable def fitCurve (env : FitEnv) (curves : List (List ℝ)) (q : List ℝ) (o : Options) (shifts scalings : Nat → List ℝ) :
    Res Output := do
  let (lo, hi) ← env.qIndices q
  let rows ← env.networkInput curves q o.dq o.factor
  let best ← env.qStep o.optimizeQ curves q shifts
  let scaled ← env.scalingStep o.optimizeScaling curves q lo hi best scalings
  let params ← env.chooseParams o rows scaled
  let params ← env.polishStep o curves q lo hi rows.length params
  let refl ← env.simulateStep o q params
  return ⟨params, refl, best, scaled.map Prod.fst⟩

end FitEnv
end Verif.Model
