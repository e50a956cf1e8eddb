import Verif.Model.FitSimulator
import Verif.Model.TrainedModel

/-!
# `CurveFitter` for a `TrainedModel`

curve_fitter.py l.21-30: the constructor takes the attributes of the model. The network is opaque: `run` is `keras_model.predict`.
-/

namespace Verif.Model
open Verif.Py
variable {Net : Type}

/-- curve_fitter.py l.21-30 `CurveFitter.__init__` for a complete model (the other models fail here or in the fit with
`AttributeError` or `TypeError`, simplified to the former). The generators are made for the sample of the model (l.80,
minimizer.py l.47). -/
noncomputable def TModel.curveFitter (engine : Option Engine) (run : Net → List (List ℝ) → Res LabelArg)
    (optimizer : (List ℝ → Res (List (Option ℝ))) → List ℝ → List ℝ → List ℝ → List ℝ → Res (List ℝ)) (m : TModel ℝ Net (List ℝ)) :
    Res FitEnv :=
  match m.net, m.sample, m.q, m.mean, m.std with
  | some net, some s, some q, some mean, some std => do
    let names ← s.labelNames
    return ⟨q, mean, std, run net, s, generatorSimulate engine names, optimizer⟩
  | _, _, _, _, _ => .error .attributeError

end Verif.Model
