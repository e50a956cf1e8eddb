import Verif.Model.Results
import Verif.Model.SldProfile

/-!
# The density profiles of fit results (results.py l.32-35, l.130-133)

The generator that is created needs no check of its q values, and `simulate_sld_profiles` uses neither these nor the sample.
-/

namespace Verif.Model
open Verif.Py

/-- The table for the simulation. A table with NaN is not followed. -/
def Table.toSim (t : Table) : Res SimTable :=
  if t.cols.all (fun (c : Str × List Fl) => c.2.all Option.isSome) then
    .ok ⟨t.cols.map fun (c : Str × List Fl) => (c.1, c.2.map fun (x : Fl) => x.getD 0), t.rows⟩
  else .error .nanResult

/-- results.py l.32-35 `FitResult.sld_profile`. -/
noncomputable def FitResult.sldProfile (r : FitResult) : Res (List ℝ × List (Option ℝ)) := do
  let tab ← r.params.toSim
  let ps ← simulateSldProfiles tab
  getItem ps 0

/-- results.py l.130-133 `FitResultSeries.sld_profiles`. -/
noncomputable def Series.sldProfiles (s : Series) : Res (List (List ℝ × List (Option ℝ))) := do
  let tab ← s.params.toSim
  simulateSldProfiles tab

end Verif.Model
