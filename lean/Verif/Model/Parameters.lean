import Verif.Py.Basic
import Mathlib.Order.Defs.LinearOrder
import Mathlib.Algebra.Group.Basic

/-!
# Model of `mlreflect/data_generation/parameters.py` and `layers.py`
-/

namespace Verif.Model
open Verif.Py

/-- A Python number: `int`/`float`/`np.float64` (not distinguished, simplified) or a complex number,
which is a Python `complex` (`np = false`) or a `np.complex128` (`np = true`). -/
inductive Num (K : Type) where
  | real (x : K)
  | cplx (np : Bool) (re im : K)
  deriving DecidableEq

namespace Num
variable {K : Type}

/-- `np.real`. -/
def re : Num K → K
  | real x => x
  | cplx _ a _ => a

/-- `np.imag`. -/
def im [Zero K] : Num K → K
  | real _ => 0
  | cplx _ _ b => b

/-- `np.iscomplex(v)`: has a non-zero imaginary part. -/
def isComplex [Zero K] [DecidableEq K] (v : Num K) : Bool := decide (v.im ≠ 0)

/-- Is the object a `np.complex128`? -/
def isNp : Num K → Bool
  | real _ => false
  | cplx np _ _ => np

/-- `a >= b` as used in parameters.py l.18: real numbers are compared, complex numbers are
compared lexicographically if a `np.complex128` takes part, otherwise `TypeError`. -/
def ge [LinearOrder K] [Zero K] (a b : Num K) : Res Bool :=
  match a, b with
  | real x, real y => .ok (decide (y ≤ x))
  | a, b =>
    if a.isNp || b.isNp then
      .ok (decide (b.re < a.re ∨ (b.re = a.re ∧ b.im ≤ a.im)))
    else .error .typeError

/-- `a < 0` as used in layers.py l.34, l.126, l.164. -/
def ltZero [LinearOrder K] [Zero K] (a : Num K) : Res Bool :=
  match a with
  | real x => .ok (decide (x < 0))
  | cplx np a b => if np then .ok (decide (a < 0 ∨ (a = 0 ∧ b < 0))) else .error .typeError

end Num

/-- parameters.py: a `Parameter` (l.8-69) or a `ConstantParameter` (l.72-142). -/
inductive Param (K : Type) where
  | range (min max : Num K) (name : Option Str)
  | const (value : Num K) (name : Option Str)
  deriving DecidableEq

namespace Param
variable {K : Type}

/-- parameters.py l.17-22: `Parameter.__init__`. -/
def mk [LinearOrder K] [Zero K] (min max : Num K) (name : Option Str) : Res (Param K) := do
  if ← min.ge max then .error .valueError else .ok (range min max name)

/-- `.min` (parameters.py l.20; l.89-90 for constants). -/
def min : Param K → Num K
  | range a _ _ => a
  | const v _ => v

/-- `.max` (parameters.py l.21; l.97-98 for constants). -/
def max : Param K → Num K
  | range _ b _ => b
  | const v _ => v

/-- `.name`. -/
def name : Param K → Option Str
  | range _ _ n => n
  | const _ n => n

/-- Assignment of `.name`. -/
def setName (n : Option Str) : Param K → Param K
  | range a b _ => range a b n
  | const v _ => const v n

/-- Is the parameter a `ConstantParameter`? -/
def isConst : Param K → Bool
  | range .. => false
  | const .. => true

/-- `Parameter.__copy__` l.62-63 and `ConstantParameter.__copy__` l.111-112: go through the
constructor again, so copying a range whose limits were made inconsistent raises. -/
def copy [LinearOrder K] [Zero K] : Param K → Res (Param K)
  | range a b n => Param.mk a b n
  | const v n => .ok (const v n)

end Param

/-- A value in a layer dictionary: a plain number, or the `{'re': …, 'im': …}` dictionary made by
`_if_complex_to_dict` (layers.py l.67-72). `np` records whether the entries are numpy floats
(they are, if the number was a `np.complex128`; `np.real(x)` of a Python `complex` is a `float`). -/
inductive DVal (K : Type) where
  | num (v : Num K)
  | dict (np : Bool) (re im : K)
  deriving DecidableEq

/-- layers.py l.67-72 `_if_complex_to_dict`. -/
def ifComplexToDict {K : Type} [Zero K] [DecidableEq K] (v : Num K) : DVal K :=
  if v.isComplex then .dict v.isNp v.re v.im else .num v

/-- layers.py l.82-87 `_if_dict_to_complex`: `value['re'] + value['im'] * 1j` is a numpy complex iff
the entries are numpy floats. -/
def ifDictToComplex {K : Type} : DVal K → Num K
  | .num v => v
  | .dict np a b => .cplx np a b

/-- What may be passed for a layer parameter: a `Parameter` object, an iterable, or a single value. -/
inductive Arg (K : Type) where
  | param (p : Param K)
  | iter (l : List (DVal K))
  | scalar (v : DVal K)

/-- The layer classes. -/
inductive LayerKind where
  | layer | constantLayer | substrate | ambient
  deriving DecidableEq, Repr

/-- A layer object. `thickness`/`roughness` are `none` when the class does not define the attribute
(`hasattr` is false); `sld = none` is the Python value `None` that `ConstantLayer._set_parameter`
returns for an iterable. The kind is the class of the object. -/
structure LayerV (K : Type) where
  kind : LayerKind
  name : Str
  thickness : Option (Param K)
  roughness : Option (Param K)
  sld : Option (Param K)
  deriving DecidableEq

section
variable {K : Type} [LinearOrder K] [Zero K]

/-- layers.py l.74-80 `Layer._set_parameter`. -/
def setParameter (a : Arg K) (name : Str) : Res (Option (Param K)) :=
  match a with
  | .param p => do return some (← p.copy)
  | .iter l => do
    let x ← getItem l 0
    let y ← getItem l 1
    return some (← Param.mk (ifDictToComplex x) (ifDictToComplex y) (some name))
  | .scalar v => .ok (some (.const (ifDictToComplex v) (some name)))

/-- layers.py l.140-146 `ConstantLayer._set_parameter`: the `ValueError` of l.144 is built but never
raised, the method falls through and returns `None`. -/
def setParameterConstant (a : Arg K) (name : Str) : Res (Option (Param K)) :=
  match a with
  | .param p => do return some (← p.copy)
  | .iter _ => .ok none
  | .scalar v => .ok (some (.const (ifDictToComplex v) (some name)))

/-- `param.min < 0 → ValueError` (layers.py l.33-35, l.125-127, l.164-165); `None.min` raises
`AttributeError`. Returns the parameter. -/
def checkNonneg (p : Option (Param K)) : Res (Param K) :=
  match p with
  | none => .error .attributeError
  | some p => do if ← p.min.ltZero then .error .valueError else .ok p

/-- layers.py l.23-35 `Layer.__init__`. -/
def mkLayer (name : Str) (t r s : Arg K) : Res (LayerV K) := do
  let t ← setParameter t "thickness".toList
  let r ← setParameter r "roughness".toList
  let s ← setParameter s "sld".toList
  let t ← checkNonneg t
  let r ← checkNonneg r
  return ⟨.layer, name, some t, some r, s⟩

/-- layers.py l.115-127 `ConstantLayer.__init__`. -/
def mkConstantLayer (name : Str) (t r s : Arg K) : Res (LayerV K) := do
  let t ← setParameterConstant t "thickness".toList
  let r ← setParameterConstant r "roughness".toList
  let s ← setParameterConstant s "sld".toList
  let t ← checkNonneg t
  let r ← checkNonneg r
  return ⟨.constantLayer, name, some t, some r, s⟩

/-- layers.py l.156-165 `Substrate.__init__`. -/
def mkSubstrate (name : Str) (r s : Arg K) : Res (LayerV K) := do
  let r ← setParameterConstant r "roughness".toList
  let s ← setParameterConstant s "sld".toList
  let r ← checkNonneg r
  return ⟨.substrate, name, none, some r, s⟩

/-- layers.py l.189-192 `AmbientLayer.__init__`. -/
def mkAmbient (name : Str) (s : Arg K) : Res (LayerV K) := do
  let s ← setParameterConstant s "sld".toList
  return ⟨.ambient, name, none, none, s⟩

/-- `param.copy()` on an attribute that may be `None`. -/
def copyAttr (p : Option (Param K)) : Res (Arg K) :=
  match p with
  | none => .error .attributeError
  | some p => do return .param (← p.copy)

/-- `__copy__` of the layer classes (layers.py l.89-90, l.148-149, l.176-177, l.201-202): the copied
parameters are passed to the constructor of the same class. -/
def LayerV.copy (l : LayerV K) : Res (LayerV K) := do
  match l.kind with
  | .layer => mkLayer l.name (← copyAttr l.thickness) (← copyAttr l.roughness) (← copyAttr l.sld)
  | .constantLayer =>
    mkConstantLayer l.name (← copyAttr l.thickness) (← copyAttr l.roughness) (← copyAttr l.sld)
  | .substrate => mkSubstrate l.name (← copyAttr l.roughness) (← copyAttr l.sld)
  | .ambient => mkAmbient l.name (← copyAttr l.sld)

/-- The dictionary made by `Layer.to_dict`. A missing key is `none`. -/
structure LayerDict (K : Type) where
  name : Str
  thickness : Option (Arg K)
  roughness : Option (Arg K)
  sld : Option (Arg K)

/-- layers.py l.61-65 `_parse_parameter`. -/
def parseParameter (p : Param K) : Arg K :=
  match p with
  | .range a b _ => .iter [ifComplexToDict a, ifComplexToDict b]
  | .const v _ => .scalar (ifComplexToDict v)

/-- layers.py l.48-56 `Layer.to_dict`; `_parse_parameter(None)` raises `AttributeError`. -/
def LayerV.toDict (l : LayerV K) : Res (LayerDict K) := do
  match l.sld with
  | none => .error .attributeError
  | some s => return ⟨l.name, l.thickness.map parseParameter, l.roughness.map parseParameter,
      some (parseParameter s)⟩

/-- `Layer(**d)`: `TypeError` for a missing argument. -/
def layerOfDict (d : LayerDict K) : Res (LayerV K) :=
  match d.thickness, d.roughness, d.sld with
  | some t, some r, some s => mkLayer d.name t r s
  | _, _, _ => .error .typeError

/-- `Substrate(**d)`: `TypeError` for a missing or an unexpected argument. -/
def substrateOfDict (d : LayerDict K) : Res (LayerV K) :=
  match d.thickness, d.roughness, d.sld with
  | none, some r, some s => mkSubstrate d.name r s
  | _, _, _ => .error .typeError

/-- `AmbientLayer(**d)`. -/
def ambientOfDict (d : LayerDict K) : Res (LayerV K) :=
  match d.thickness, d.roughness, d.sld with
  | none, none, some s => mkAmbient d.name s
  | _, _, _ => .error .typeError

/-- The dictionary `Layer.ranges` (layers.py l.37-46, l.129-138, l.167-174, l.194-199): only the
attributes of the class; `None.min` raises. -/
def LayerV.ranges (l : LayerV K) : Res (List (Str × Num K)) := do
  match l.sld with
  | none => .error .attributeError
  | some s =>
    return (match l.thickness with
        | some t => [("min_thickness".toList, t.min), ("max_thickness".toList, t.max)]
        | none => []) ++
      (match l.roughness with
        | some r => [("min_roughness".toList, r.min), ("max_roughness".toList, r.max)]
        | none => []) ++
      [("min_sld".toList, s.min), ("max_sld".toList, s.max)]

end

end Verif.Model
