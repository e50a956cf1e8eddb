import Verif.Model.Multilayer

/-!
# Model of `LayerOnSubstrate` objects (multilayer.py l.183-223)

`LayerOnSubstrate` overrides `add_layer` only, so that the inherited `from_dict` adds layers with the method of the subclass, and the inherited
`__copy__` makes a `MultilayerStructure`.
-/

namespace Verif.Model
open Verif.Py
variable {K : Type} [LinearOrder K] [Zero K]

/-- The class of a sample object. -/
inductive SampleClass where
  | multilayer | onSubstrate
  deriving DecidableEq

/-- `add_layer` of both classes for a layer object (multilayer.py l.39-48, l.194-210; `hasVariableLayer` is l.212-218). The state after the call, and
the result. -/
def SampleClass.addLayer (c : SampleClass) (s : SampleV K) (l : LayerV K) (i : AddIndex) : SampleV K × Res Unit :=
  let append := match Verif.Model.addLayer s.layers l i with
    | .ok ls => ({ s with layers := ls }, .ok ())
    | .error e => (s, .error e)
  match c with
  | .multilayer => append
  | .onSubstrate =>
    if l.kind.isConstantLayer then append
    else if hasVariableLayer (s.layers.map LayerV.kind) then (s, .error .valueError)
    else append

/-- The loop of `from_dict` (multilayer.py l.91-92), for the dictionaries in the order of the loop. -/
def SampleClass.addDicts (c : SampleClass) (s : SampleV K) : List (LayerDict K) → SampleV K × Res Unit
  | [] => (s, .ok ())
  | d :: ds =>
    match layerOfDict d with
    | .error e => (s, .error e)
    | .ok l =>
      match c.addLayer s l .next with
      | (s', .error e) => (s', .error e)
      | (s', .ok _) => c.addDicts s' ds

/-- multilayer.py l.87-92 `from_dict`, with the state of the object after the call. -/
def SampleClass.fromDict (c : SampleClass) (s : SampleV K) (d : SampleDict K) : SampleV K × Res Unit :=
  match ambientOfDict d.ambient with
  | .error e => (s, .error e)
  | .ok a =>
    match substrateOfDict d.substrate with
    | .error e => ({ s with ambient := a }, .error e)
    | .ok b => c.addDicts { s with ambient := a, substrate := b } d.layers.reverse

/-- multilayer.py l.94-95, l.162-168 `copy`: the class of the copy is always `MultilayerStructure`. -/
def SampleClass.copy (_ : SampleClass) (s : SampleV K) : Res (SampleClass × SampleV K) := do
  return (.multilayer, ← s.copy)

end Verif.Model
