import Verif.Model.Multilayer

/-!
# What a well-formed sample is

A sample is regular when its parts were built by the documented constructors: the parameters carry
the default names, ranges are ordered, substrate and ambient are a `Substrate` and an
`AmbientLayer` with the attributes of these classes. `Props/Layers.lean` proves that the
constructors return regular layers.
-/

namespace Verif.Spec
open Verif.Py Verif.Model
variable {K : Type} [LinearOrder K] [Zero K]

/-- The limits are ordered (for constants there is nothing to ask). -/
def ParamValid : Param K → Prop
  | .range a b _ => a.ge b = .ok false
  | .const _ _ => True

/-- A valid parameter with the default name. -/
def ParamRegular (nm : Str) (p : Param K) : Prop := p.name = some nm ∧ ParamValid p

/-- A layer of the film (class `Layer` or `ConstantLayer`). -/
structure FilmRegular (l : LayerV K) : Prop where
  kind : l.kind = .layer ∨ l.kind = .constantLayer
  thickness : ∃ p, l.thickness = some p ∧ ParamRegular "thickness".toList p ∧ p.min.ltZero = .ok false
  roughness : ∃ p, l.roughness = some p ∧ ParamRegular "roughness".toList p ∧ p.min.ltZero = .ok false
  sld : ∃ p, l.sld = some p ∧ ParamRegular "sld".toList p

/-- A substrate (class `Substrate`). -/
structure SubstrateRegular (l : LayerV K) : Prop where
  kind : l.kind = .substrate
  thickness : l.thickness = none
  roughness : ∃ p, l.roughness = some p ∧ ParamRegular "roughness".toList p ∧ p.min.ltZero = .ok false
  sld : ∃ p, l.sld = some p ∧ ParamRegular "sld".toList p

/-- An ambient layer (class `AmbientLayer`). -/
structure AmbientRegular (l : LayerV K) : Prop where
  kind : l.kind = .ambient
  thickness : l.thickness = none
  roughness : l.roughness = none
  sld : ∃ p, l.sld = some p ∧ ParamRegular "sld".toList p

/-- A regular sample. -/
structure SampleRegular (s : SampleV K) : Prop where
  substrate : SubstrateRegular s.substrate
  ambient : AmbientRegular s.ambient
  layers : ∀ l ∈ s.layers, FilmRegular l

/-- The names of the parts of a sample from bottom to top. -/
def partNames (s : SampleV K) : List Str :=
  s.substrate.name :: (s.layers.map (·.name) ++ [s.ambient.name])

/-- Expected label names: thicknesses, roughnesses, SLDs, each from bottom to top. -/
def expectedLabels (substrate : Str) (layers : List Str) (ambient : Str) : List Str :=
  layers.map (· ++ "_thickness".toList) ++
  (substrate :: layers).map (· ++ "_roughness".toList) ++
  (substrate :: layers ++ [ambient]).map (· ++ "_sld".toList)

end Verif.Spec
