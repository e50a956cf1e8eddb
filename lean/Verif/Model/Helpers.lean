import Verif.Model.CurveFitter
import Verif.Model.Fio

/-!
# Model of helpers: loss function, printed samples, subscription, Gaussian weights

minimizer.py `log_mse_loss`, data_generator.py `_make_gaussian`, the special methods `__str__`, `__getitem__` and `__len__`
of parameters, layers and samples.
-/

namespace Verif.Model
open Verif.Py

/-! ### minimizer.py -/

/-- minimizer.py l.55-61 `log_mse_loss` for a generator with the q values `q` and a preprocessor, both for the sample of the
environment. The lengths are compared by `mean_squared_error` (l.66); an infinite logarithm gives an infinite or undefined
error (`logSqErr`). The result is the only entry of the array that the code returns. -/
noncomputable def FitEnv.logMseLoss (env : FitEnv) (q data p : List ℝ) : Res FVal := do
  let t ← restoreLabels fitNorm env.sample (.array 1 (p.map fun (x : ℝ) => [some (x : ℂ)]))
  let r ← env.simulate q t
  let c ← getItem r 0
  if data.length ≠ c.length then .error .valueError
  else .ok (fMean (List.zipWith logSqErr (data.map some) c))

/-! ### data_generator.py -/

/-- data_generator.py l.199-206 `_make_gaussian`: weights and positions. The weight is NaN (`none`) for a zero `std`;
otherwise the sum of the weights is not zero in exact arithmetic. -/
noncomputable def makeGaussian (x : List ℝ) (std n : ℝ) : Res (List (Option ℝ) × List ℝ) :=
  match x with
  | [] => .error .valueError
  | a :: l =>
    let lo := l.foldl min a
    let hi := l.foldl max a
    let center := lo + (hi - lo) / 2
    let g := fun (v : ℝ) => Real.exp (-((v - center) / std) ^ 2 / 2) / (std * Real.sqrt (2 * Real.pi))
    let total := ((a :: l).map g).sum
    let kept := (a :: l).filter fun (v : ℝ) => decide (-n * std ≤ v - center ∧ v - center ≤ n * std)
    .ok (kept.map fun (v : ℝ) => if std = 0 then none else some (g v / total), kept)

/-! ### Printing and subscription -/

section
variable {K : Type}

/-- parameters.py l.65-66, l.132-133 `__str__`; `num` is the text of a number. -/
def Param.show (num : Num K → Str) : Param K → Str
  | .range a b _ => '(' :: num a ++ [',', ' '] ++ num b ++ [')']
  | .const v _ => num v

/-- The text of an attribute; `None` if the constructor left it undefined. -/
def showAttr (num : Num K → Str) : Option (Param K) → Str
  | some p => p.show num
  | none => ['N', 'o', 'n', 'e']

def thicknessLine : Str := "\tthickness: ".toList
def roughnessLine : Str := "\troughness: ".toList
def sldLine : Str := "\tsld: ".toList
def lengthUnitText : Str := " [Å]".toList
def sldUnitText : Str := " [1e-6 1/Å^2]".toList
def substrateText : Str := " (substrate):".toList
def ambientText : Str := " (ambient):".toList

/-- layers.py l.92-96, l.179-182, l.204-206 `__str__` of the classes (`ConstantLayer` inherits the one of `Layer`). -/
def LayerV.show (num : Num K → Str) (l : LayerV K) : Str :=
  match l.kind with
  | .substrate => l.name ++ substrateText ++ ['\n'] ++ (roughnessLine ++ showAttr num l.roughness ++ lengthUnitText) ++ ['\n'] ++
      (sldLine ++ showAttr num l.sld ++ sldUnitText)
  | .ambient => l.name ++ ambientText ++ ['\n'] ++ (sldLine ++ showAttr num l.sld ++ sldUnitText)
  | _ => l.name ++ [':'] ++ ['\n'] ++ (thicknessLine ++ showAttr num l.thickness ++ lengthUnitText) ++ ['\n'] ++
      (roughnessLine ++ showAttr num l.roughness ++ lengthUnitText) ++ ['\n'] ++
      (sldLine ++ showAttr num l.sld ++ sldUnitText)

/-- multilayer.py l.152-157 `__str__`. -/
def SampleV.show (num : Num K → Str) (s : SampleV K) : Str :=
  (s.layers.zipIdx.reverse.foldl (fun (out : Str) (p : LayerV K × Nat) =>
    out ++ ('[' :: natStr p.2 ++ [']', ' '] ++ p.1.show num ++ ['\n'])) (s.ambient.show num ++ ['\n'])) ++ s.substrate.show num

variable [LinearOrder K] [Zero K]

/-- multilayer.py l.170-171 `__getitem__` with an integer. -/
def SampleV.item (s : SampleV K) (i : Int) : Res (LayerV K) := getItem s.structure_ i

/-- multilayer.py l.173-174 `__len__`. -/
def SampleV.len (s : SampleV K) : Nat := s.structure_.length

end

end Verif.Model
