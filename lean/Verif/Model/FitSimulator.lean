import Verif.Model.CurveFitter
import Verif.Model.Simulate

/-!
# The simulation that `CurveFitter` uses

curve_fitter.py l.80, l.132-142, l.162 and minimizer.py l.46-49: `ReflectivityGenerator(q, sample).simulate_reflectivity(labels,
progress_bar=False)`, that is no q noise and the engine `'refl1d'`, or the builtin engine if `refl1d` cannot be imported
(data_generator.py l.30-35). Only tables with the labels of the sample as columns are followed (no others occur in a fit), and
only labels that are finite numbers.
-/

namespace Verif.Model
open Verif.Py

/-- The number in a cell. -/
def finiteCell : Fl → Res ℂ
  | some z => .ok z
  | none => .error .nanResult

/-- The table of labels as argument of the generator. -/
def Table.cells (t : Table) : Res SimTable := do
  let f ← t.cols.mapM fun (c : Str × List Fl) => do
    let l ← c.2.mapM finiteCell
    return (c.1, l)
  return ⟨f, t.rows⟩

open Classical in
/-- data_generator.py l.107-148 with the default arguments: normal numbers of width zero leave the q values as they are. -/
noncomputable def generatorSimulate (engine : Option Engine) (names : List Str) (q : List ℝ) (t : Table) : Res (List (List (Option ℝ))) :=
  if t.cols.columns = names ∧ ∀ c ∈ t.cols, c.2.length = t.rows then do
    let tab ← t.cells
    let (tc, rc, sc) := separateLabels tab.frame
    let thicknesses := (LabelArr.ofCols tab.nrows tc).map Complex.re
    let roughnesses := (LabelArr.ofCols tab.nrows rc).map Complex.re
    let slds := LabelArr.ofCols tab.nrows sc
    let noisy := (List.range thicknesses.len).map fun (_ : Nat) => q
    match engine with
    | some eng => runRefl1d eng thicknesses roughnesses slds q.length noisy
    | none => runBuiltin thicknesses roughnesses slds q.length noisy
  else .error .nanResult

/-- A trained model with the simulation of the generator and a network that computes its outputs row by row. -/
noncomputable def codeEnv (engine : Option Engine) (names : List Str) (trainedQ mean std : List ℝ) (outputs : Nat) (net : List ℝ → Nat → Fl)
    (s : SampleV ℝ) (optimizer : (List ℝ → Res (List (Option ℝ))) → List ℝ → List ℝ → List ℝ → List ℝ → Res (List ℝ)) : FitEnv where
  trainedQ := trainedQ
  mean := mean
  std := std
  net := fun x => .ok (.array x.length ((List.range outputs).map fun (k : Nat) => x.map fun (r : List ℝ) => net r k))
  sample := s
  simulate := generatorSimulate engine names
  optimizer := optimizer

end Verif.Model
