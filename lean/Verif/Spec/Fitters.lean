import Verif.Model.Fitters

/-!
# Specification of the file fitters

What has been set by the calls so far, independent of the attributes of the fitter.
-/

namespace Verif.Spec
open Verif.Py Verif.Model

/-- The present files and settings, and the circumstances of the last successful `set_file`. -/
structure Setup (I P : Type) where
  world : World
  imp : Option I
  fp : Option P
  loaded : Option (World × Option I × Option P × Str)

/-- The file that was set last. -/
def Setup.file {I P : Type} (u : Setup I P) : Option Str := u.loaded.map fun (x : World × Option I × Option P × Str) => x.2.2.2

open Classical in
/-- The effect of an event; `good` tells whether `set_file` succeeds. -/
noncomputable def Setup.after {I P : Type} (good : World → Option I → Option P → Str → Prop) (u : Setup I P) :
    FitterEvent I P → Setup I P
  | .world w => { u with world := w }
  | .setImport i => { u with imp := some i }
  | .setFootprint p => { u with fp := some p }
  | .setFile name => if good u.world u.imp u.fp name then { u with loaded := some (u.world, u.imp, u.fp, name) } else u
  | .setModel _ _ => u
  | .fit _ _ _ _ => u
  | .fitRange _ _ _ _ => u

/-- The setup after a sequence of events. -/
noncomputable def Setup.run {I P : Type} (good : World → Option I → Option P → Str → Prop) (w : World) (trace : List (FitterEvent I P)) :
    Setup I P := trace.foldl (Setup.after good) ⟨w, none, none, none⟩

/-- `set_file` of a `SpecFitter` succeeds: the parameters are set and the file can be parsed. -/
def SpecGood (limit : Nat) (w : World) (imp : Option SpecImport) (fp : Option SpecFootprint) (name : Str) : Prop :=
  imp ≠ none ∧ fp ≠ none ∧ ∃ lines p, w.read name = some lines ∧ SpecParser.init limit lines = .ok p

/-- `set_file` of a `FioFitter` succeeds: the footprint parameters are set and the headers of all scans can be read. -/
def FioGood (pf : Str → Option (Option ℝ)) (w : World) (_ : Option FioImport) (fp : Option FioFootprint) (name : Str) : Prop :=
  fp ≠ none ∧ ∃ info, w.scanInfo pf name = .ok info

/-- No event gives an object as trained model that is none. -/
def NoForeign {I P : Type} (trace : List (FitterEvent I P)) : Prop :=
  ∀ p, FitterEvent.setModel (some .foreign) p ∉ trace

/-- The model that a call of `set_trained_model` accepts. -/
def AcceptedModel (load : Str → Res FitEnv) (m : Option ModelArg) (p : Option Str) (env : FitEnv) : Prop :=
  (m = some (.trained env) ∧ p = none) ∨ (m = none ∧ ∃ path, p = some path ∧ load path = .ok env)

end Verif.Spec
