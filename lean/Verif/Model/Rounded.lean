import Verif.Model.Results
import Verif.Model.Sampling
import Verif.Model.Standardize
import Mathlib.Data.Int.Log

/-!
# Floating point versions of functions of the model

The other files compute with real numbers. Here the functions whose results users compare with limits or convert back are repeated
with a rounding after every operation. Overflow, underflow and subnormal numbers are not modelled. `Rounding.exact` gives the functions
of the other files (proved in Props/Rounded).
-/

namespace Verif.Model
open Verif.Py

/-- The rounding of a floating point arithmetic: monotone, symmetric, and exact for its own numbers, among them one. Every result is
off by at most the fraction `u` of its size. -/
structure Rounding where
  fl : ℝ → ℝ
  u : ℝ
  mono : Monotone fl
  odd : ∀ x, fl (-x) = -fl x
  idem : ∀ x, fl (fl x) = fl x
  one : fl 1 = 1
  err : ∀ x, |fl x - x| ≤ u * |x|
  small : u ≤ 1 / 4

/-- No rounding. -/
def Rounding.exact : Rounding where
  fl := id
  u := 0
  mono := monotone_id
  odd _ := rfl
  idem _ := rfl
  one := rfl
  err x := by simp
  small := by norm_num

/-- The distance of neighbouring binary numbers with `p` digits at the size of `x`. -/
noncomputable def ulp (p : Nat) (x : ℝ) : ℝ := (2 : ℝ) ^ (Int.log 2 |x| - p + 1)

/-- IEEE 754 rounding to binary numbers with `p` digits (53 for `float64`): to the nearest one, to the even one of two. -/
noncomputable def roundBin (p : Nat) (x : ℝ) : ℝ := FitResult.rint (x / ulp p x) * ulp p x

/-- Logarithm and power of the C library, which are not rounded correctly but accurate up to the fraction `v`. -/
structure Libm where
  lg : ℝ → ℝ
  pw : ℝ → ℝ
  v : ℝ
  lg_err : ∀ x, |lg x - Real.logb 10 x| ≤ v * |Real.logb 10 x|
  pw_err : ∀ y, |pw y - 10 ^ y| ≤ v * 10 ^ y

/-- Division of floats; not finite if the divisor is zero. -/
noncomputable def Rounding.div (R : Rounding) (a b : ℝ) : Option ℝ := (fdiv a b).map R.fl

/-- preprocessing.py l.153-157: one label in `normalize_labels`. -/
noncomputable def normalizeValue (R : Rounding) (norm : PyStr) (lo hi x : ℝ) : Option ℝ :=
  if norm.isLit minToZeroS then R.div (R.fl (x - lo)) (R.fl (hi - lo))
  else if norm.isLit absoluteMaxS then R.div x |hi|
  else some x

/-- preprocessing.py l.186-189: one label in `renormalize_labels`. -/
noncomputable def renormalizeValue (R : Rounding) (norm : PyStr) (lo hi y : ℝ) : ℝ :=
  if norm.isLit minToZeroS then R.fl (R.fl (y * R.fl (hi - lo)) + lo)
  else if norm.isLit absoluteMaxS then R.fl (y * |hi|)
  else y

/-- preprocessing.py l.42-45 and l.56: `standardize` with stored statistics. -/
noncomputable def standardizeRows (R : Rounding) (m sd : List ℝ) (rows : List (List ℝ)) : Res (List (List ℝ)) := do
  bcastRows (fun (a b : ℝ) => R.fl (a / b)) (← bcastRows (fun (a b : ℝ) => R.fl (a - b)) rows m) sd

/-- preprocessing.py l.63-64: `revert_standardization`. -/
noncomputable def revertRows (R : Rounding) (m sd : List ℝ) (rows : List (List ℝ)) : Res (List (List ℝ)) := do
  bcastRows (fun (a b : ℝ) => R.fl (a + b)) (← bcastRows (fun (a b : ℝ) => R.fl (a * b)) rows sd) m

/-- normalization.py l.5-6 `normalize_to_max`. -/
noncomputable def normalizeToMaxR (R : Rounding) (intensity : List ℝ) : Res (List ℝ) := do
  let m ← npMax intensity
  finite (intensity.map fun (i : ℝ) => R.div i m)

/-- normalization.py l.9-10 `normalize_to_first`. -/
noncomputable def normalizeToFirstR (R : Rounding) (intensity : List ℝ) : Res (List ℝ) := do
  let m ← getItem intensity 0
  finite (intensity.map fun (i : ℝ) => R.div i m)

/-- distributions.py l.64-72: one value in `_fold_distribution`. -/
noncomputable def foldValueR (R : Rounding) (mn mx v : ℝ) : ℝ :=
  if v < mn then R.fl (v + R.fl (2 * R.fl (mn - v)))
  else if v > mx then R.fl (v + R.fl (2 * R.fl (mx - v)))
  else v

/-- distributions.py l.77-78: the limits of the uniform draws of `random_logarithmic_distribution`. -/
noncomputable def logLimits (L : Libm) (mn mx : ℝ) : ℝ × ℝ := (L.lg mn, L.lg mx)

/-- `np.interp` for one value, see `npInterp1`. -/
noncomputable def npInterp1R (R : Rounding) (xp fp : List ℝ) (x : ℝ) : ℝ :=
  let j := (xp.takeWhile (fun (p : ℝ) => decide (p ≤ x))).length
  if j = 0 then fp.getD 0 0
  else if j = xp.length then fp.getD (j - 1) 0
  else if xp.getD (j - 1) 0 = x then fp.getD (j - 1) 0
  else R.fl (R.fl (R.fl (R.fl (fp.getD j 0 - fp.getD (j - 1) 0) / R.fl (xp.getD j 0 - xp.getD (j - 1) 0)) *
    R.fl (x - xp.getD (j - 1) 0)) + fp.getD (j - 1) 0)

/-- interpolation.py l.4-6 `interp_reflectivity`. -/
noncomputable def interpReflectivityR (R : Rounding) (L : Libm) (qInterp q reflectivity : List ℝ) : Res (List ℝ) := do
  let l ← finite (reflectivity.map fun (r : ℝ) => if 0 < r then some (L.lg r) else none)
  if l.length ≠ q.length ∨ q = [] then .error .valueError
  else return qInterp.map fun (x : ℝ) => L.pw (npInterp1R R q l x)

/-- `s` is a floating point sum of the numbers, added in any order and with any brackets (numpy adds in blocks, interleaved and in
pairs). -/
inductive SumsTo (R : Rounding) : List ℝ → ℝ → Prop
  | one (x : ℝ) : SumsTo R [x] x
  | add {l l' : List ℝ} {a b : ℝ} : SumsTo R l a → SumsTo R l' b → SumsTo R (l ++ l') (R.fl (a + b))
  | perm {l l' : List ℝ} {a : ℝ} : l.Perm l' → SumsTo R l a → SumsTo R l' a

/-- minimizer.py l.70: `m` is a floating point value of `mean_squared_error` of two arrays of the same length; also the values of
`curve_variant_log_mse` (l.27-30) for arrays of logarithms. -/
def MeanSquaredR (R : Rounding) (a b : List ℝ) (m : ℝ) : Prop :=
  ∃ s, SumsTo R (List.zipWith (fun (x y : ℝ) => R.fl (R.fl (x - y) ^ 2)) a b) s ∧ m = R.fl (s / a.length)

/-- training.py l.68: `int((1 - val_split) * len(prep_labels))`, see `nTrain`. -/
noncomputable def nTrainR (R : Rounding) (valSplit : ℝ) (n : Nat) : Int :=
  let x := R.fl (R.fl (1 - valSplit) * n)
  if 0 ≤ x then ⌊x⌋ else ⌈x⌉

/-- noise_generator.py l.26: `int(np.floor(self.n_samples / self.batch_size))`, see `Gen.len`. -/
noncomputable def epochLenR (R : Rounding) (n batch : Nat) : Int := ⌊R.fl ((n : ℝ) / batch)⌋

/-- distributions.py l.48: `int(np.floor(n_samples * bolster_fraction / 2))`, see `nBolster`. -/
noncomputable def nBolsterR (R : Rounding) (n : Nat) (fraction : ℝ) : Int := ⌊R.fl (R.fl ((n : ℝ) * fraction) / 2)⌋

end Verif.Model
