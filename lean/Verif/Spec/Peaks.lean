import Mathlib.Probability.Distributions.Gaussian.Real

/-!
# Peaks as functions of real numbers

Written without the model: a Gauss peak is an intensity times the density of a normal distribution, the
Lorentz peak is the resonance curve documented in `_lorentzian`.
-/

namespace Verif.Spec

/-- The Gauss peak with width `s`, position `m` and area `i`. -/
noncomputable def gaussPeak (s m i x : ℝ) : ℝ := i * ProbabilityTheory.gaussianPDFReal m (Real.toNNReal (s ^ 2)) x

/-- The resonance curve with position `w`, width `g` and intensity `i`. -/
noncomputable def lorentzPeak (w g i x : ℝ) : ℝ := i / ((x ^ 2 - w ^ 2) ^ 2 + (g * w) ^ 2)

/-- A parameter list with three numbers for every Gauss peak (width, position, area) and the background at the end. -/
def gaussParams (ps : List (ℝ × ℝ × ℝ)) (b : ℝ) : List ℝ := (ps.map fun (p : ℝ × ℝ × ℝ) => [p.1, p.2.1, p.2.2]).flatten ++ [b]

/-- A peak with a Gauss and a resonance part at the same position. -/
structure Voigt where
  pos : ℝ
  gaussInt : ℝ
  gaussWidth : ℝ
  lorentzInt : ℝ
  lorentzWidth : ℝ

/-- The value of such a peak. -/
noncomputable def Voigt.at (v : Voigt) (x : ℝ) : ℝ :=
  gaussPeak v.gaussWidth v.pos v.gaussInt x + lorentzPeak v.pos v.lorentzWidth v.lorentzInt x

/-- The parameter list of several such peaks with the background at the end. -/
def voigtParams (ps : List Voigt) (b : ℝ) : List ℝ :=
  (ps.map fun (v : Voigt) => [v.pos, v.gaussInt, v.gaussWidth, v.lorentzInt, v.lorentzWidth]).flatten ++ [b]

end Verif.Spec
