import Verif.Model.Parameters

/-!
# Model of `mlreflect/data_generation/multilayer.py`

The list operations are generic in the type of list entries: in Python the entries are references
to layer objects, and `list.remove` compares them by identity because `Layer` defines no `__eq__`.
-/

namespace Verif.Model
open Verif.Py

section ListOps
variable {α : Type}

/-- The `index` argument of `add_layer`. -/
inductive AddIndex where
  | next
  | int (i : Int)
  | other
  deriving DecidableEq

/-- multilayer.py l.39-48 `add_layer` on the list `layers`, after the type check of l.41 passed. -/
def addLayer (layers : List α) (a : α) (index : AddIndex) : Res (List α) :=
  match index with
  | .next => .ok (layers ++ [a])
  | .int i => .ok (insertAt layers i a)
  | .other => .error .valueError

/-- multilayer.py l.39-48 `add_layer` with any argument: `none` is an object that is not a `Layer`,
rejected by `_check_layer_type` (l.41, l.143-146). The second component is the list after the call. -/
def addLayerChecked (layers : List α) (a : Option α) (index : AddIndex) : Res Unit × List α :=
  match a with
  | none => (.error .valueError, layers)
  | some a =>
    match addLayer layers a index with
    | .ok l => (.ok (), l)
    | .error e => (.error e, layers)

/-- multilayer.py l.54-61 `swap_layers` (integer arguments). The second component is the list after
the call, also when the call raises. -/
def swapLayers (layers : List α) (i j : Int) : Res Unit × List α :=
  match getItem layers j with
  | .error e => (.error e, layers)
  | .ok swapped =>
    match getItem layers i with
    | .error e => (.error e, layers)
    | .ok x =>
      match setItem layers j x with
      | .error e => (.error e, layers)
      | .ok l1 =>
        match setItem l1 i swapped with
        | .error e => (.error e, l1)
        | .ok l2 => (.ok (), l2)

/-- multilayer.py l.63-74 `move_layer` (integer arguments). In the branch `from < to` the argument
`self.layers[from_index]` of `remove` is evaluated on the list after the insertion (l.70). -/
def moveLayer [DecidableEq α] (layers : List α) (i j : Int) : Res Unit × List α :=
  if i < j then
    match getItem layers i with
    | .error e => (.error e, layers)
    | .ok x =>
      let l1 := insertAt layers (j + 1) x
      match getItem l1 i with
      | .error e => (.error e, l1)
      | .ok y =>
        match remove l1 y with
        | .error e => (.error e, l1)
        | .ok l2 => (.ok (), l2)
  else if j < i then
    match getItem layers i with
    | .error e => (.error e, layers)
    | .ok x =>
      match remove layers x with
      | .error e => (.error e, layers)
      | .ok l1 => (.ok (), insertAt l1 j x)
  else (.ok (), layers)

/-- A re-ordering call. -/
inductive Reorder where
  | swap (i j : Int)
  | move (i j : Int)

/-- The list after a re-ordering call, whether or not it raised. -/
def Reorder.run [DecidableEq α] (layers : List α) : Reorder → List α
  | .swap i j => (swapLayers layers i j).2
  | .move i j => (moveLayer layers i j).2

end ListOps

/-- A sample as a value: what can be read from a `MultilayerStructure` (multilayer.py l.16-19). -/
structure SampleV (K : Type) where
  ambient : LayerV K
  substrate : LayerV K
  layers : List (LayerV K)
  deriving DecidableEq

section
variable {K : Type} [LinearOrder K] [Zero K]

/-- multilayer.py l.148-150, l.179-180: iteration order. -/
def SampleV.structure_ (s : SampleV K) : List (LayerV K) :=
  [s.substrate] ++ s.layers ++ [s.ambient]

/-- `f'{layer.name}_{param.name}'`; a parameter named `None` renders as `None`. -/
def prefixedName (layer : Str) (param : Option Str) : Str :=
  layer ++ "_".toList ++ (match param with | some n => n | none => "None".toList)

/-- multilayer.py l.97-105 `thicknesses`. -/
def SampleV.thicknesses (s : SampleV K) : Res (List (Param K)) :=
  (s.structure_.filter (fun l => l.thickness.isSome)).mapM fun l =>
    match l.thickness with
    | none => .error .attributeError
    | some p => do
      let c ← p.copy
      return c.setName (some (prefixedName l.name c.name))

/-- multilayer.py l.107-115 `roughnesses`. -/
def SampleV.roughnesses (s : SampleV K) : Res (List (Param K)) :=
  (s.structure_.filter (fun l => l.roughness.isSome)).mapM fun l =>
    match l.roughness with
    | none => .error .attributeError
    | some p => do
      let c ← p.copy
      return c.setName (some (prefixedName l.name c.name))

/-- multilayer.py l.117-124 `slds`. -/
def SampleV.slds (s : SampleV K) : Res (List (Param K)) :=
  s.structure_.mapM fun l =>
    match l.sld with
    | none => .error .attributeError
    | some p => do
      let c ← p.copy
      return c.setName (some (prefixedName l.name c.name))

/-- The `name` attribute of a list of parameters, as collected by `label_names`. All of them are
strings, because they were set by an f-string. -/
def paramNames (l : List (Param K)) : List Str := l.map fun p => p.name.getD []

/-- multilayer.py l.126-141 `label_names`. -/
def SampleV.labelNames (s : SampleV K) : Res (List Str) := do
  let t ← s.thicknesses
  let r ← s.roughnesses
  let d ← s.slds
  return paramNames t ++ paramNames r ++ paramNames d

/-- The dictionary of multilayer.py l.78-82. -/
structure SampleDict (K : Type) where
  ambient : LayerDict K
  layers : List (LayerDict K)
  substrate : LayerDict K

/-- multilayer.py l.76-85 `to_dict`: the layers are listed from top to bottom. -/
def SampleV.toDict (s : SampleV K) : Res (SampleDict K) := do
  let a ← s.ambient.toDict
  let b ← s.substrate.toDict
  let ls ← s.layers.reverse.mapM LayerV.toDict
  return ⟨a, ls, b⟩

/-- multilayer.py l.87-92 `from_dict` called on the structure `s`. -/
def SampleV.fromDict (s : SampleV K) (d : SampleDict K) : Res (SampleV K) := do
  let a ← ambientOfDict d.ambient
  let b ← substrateOfDict d.substrate
  let ls ← d.layers.reverse.mapM layerOfDict
  return ⟨a, b, s.layers ++ ls⟩

/-- multilayer.py l.16-19 `MultilayerStructure()`. -/
def SampleV.fresh : SampleV K :=
  { ambient := ⟨.ambient, "undefined".toList, none, none, some (.const (.real 0) (some "sld".toList))⟩
    substrate := ⟨.substrate, "undefined".toList, none,
      some (.const (.real 0) (some "roughness".toList)), some (.const (.real 0) (some "sld".toList))⟩
    layers := [] }

/-- multilayer.py l.162-168 `__copy__`, at value level. -/
def SampleV.copy (s : SampleV K) : Res (SampleV K) := do
  let a ← s.ambient.copy
  let b ← s.substrate.copy
  let ls ← s.layers.mapM LayerV.copy
  return ⟨a, b, ls⟩

end

/-! ### `LayerOnSubstrate` -/

/-- `isinstance(layer, ConstantLayer)`: `Substrate` and `AmbientLayer` are subclasses. -/
def LayerKind.isConstantLayer : LayerKind → Bool
  | .layer => false
  | _ => true

/-- multilayer.py l.212-218 `has_variable_layer`: both branches of the loop body return, so only the
first layer is inspected; `None` (falsy) for an empty sample. -/
def hasVariableLayer : List LayerKind → Bool
  | [] => false
  | k :: _ => !k.isConstantLayer

/-- multilayer.py l.194-210 `LayerOnSubstrate.add_layer` on the classes of the layers, for layer
objects. (Non-layers are silently ignored by the code: `none`.) -/
def losAddLayer (layers : List LayerKind) (k : Option LayerKind) (index : AddIndex) :
    Res (List LayerKind) :=
  match k with
  | none => .ok layers
  | some k =>
    if k.isConstantLayer then addLayer layers k index
    else if hasVariableLayer layers then .error .valueError
    else addLayer layers k index

/-- A history of `add_layer` calls on a `LayerOnSubstrate`; a call that raises leaves the layers
unchanged. -/
def losRun (layers : List LayerKind) : List (Option LayerKind × AddIndex) → List LayerKind
  | [] => layers
  | (k, i) :: rest =>
    match losAddLayer layers k i with
    | .ok l => losRun l rest
    | .error _ => losRun layers rest

end Verif.Model
