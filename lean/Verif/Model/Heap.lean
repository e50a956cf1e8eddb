import Verif.Model.Multilayer

/-!
# Samples as objects on a heap

Model of object identity, aliasing and mutation for `MultilayerStructure`, `Layer` and `Parameter`
objects (multilayer.py, layers.py, parameters.py). A `MultilayerStructure` owns its list `layers`;
the list object itself is not shared in the code and is stored inside the sample object.
-/

namespace Verif.Model
open Verif.Py

/-- An object reference is a number. -/
notation "Addr" => Nat

/-- A heap object. In a layer object a missing attribute (or the value `None`) is `none`. -/
inductive Obj (K : Type) where
  | param (p : Param K)
  | layer (kind : LayerKind) (name : Str) (thickness roughness sld : Option Addr)
  | sample (ambient substrate : Addr) (layers : List Addr)

/-- The references stored in an object. -/
def Obj.ptrs {K : Type} : Obj K → List Addr
  | .param _ => []
  | .layer _ _ t r s => t.toList ++ r.toList ++ s.toList
  | .sample a b ls => a :: b :: ls

/-- Objects are allocated at increasing addresses. -/
structure Heap (K : Type) where
  next : Nat
  obj : Addr → Option (Obj K)

section
variable {K : Type} [LinearOrder K] [Zero K]

/-- Create an object. -/
def Heap.alloc (h : Heap K) (o : Obj K) : Addr × Heap K :=
  (h.next, ⟨h.next + 1, fun x => if x = h.next then some o else h.obj x⟩)

/-- Overwrite an object. -/
def Heap.write (h : Heap K) (a : Addr) (o : Obj K) : Heap K :=
  ⟨h.next, fun x => if x = a then some o else h.obj x⟩

/-! ### What can be read -/

/-- Read a parameter object. -/
def Heap.readParam (h : Heap K) (a : Addr) : Option (Param K) :=
  match h.obj a with
  | some (.param p) => some p
  | _ => none

/-- Read an attribute that may be missing. -/
def Heap.readAttr (h : Heap K) : Option Addr → Option (Option (Param K))
  | none => some none
  | some a => (h.readParam a).map some

/-- Read a layer object with its parameters. -/
def Heap.readLayer (h : Heap K) (a : Addr) : Option (LayerV K) :=
  match h.obj a with
  | some (.layer k n t r s) => do
    let t ← h.readAttr t
    let r ← h.readAttr r
    let s ← h.readAttr s
    return ⟨k, n, t, r, s⟩
  | _ => none

/-- Read a sample with everything it refers to. -/
def Heap.readSample (h : Heap K) (a : Addr) : Option (SampleV K) :=
  match h.obj a with
  | some (.sample amb sub ls) => do
    let am ← h.readLayer amb
    let su ← h.readLayer sub
    let l ← ls.mapM h.readLayer
    return ⟨am, su, l⟩
  | _ => none

/-! ### Copies -/

/-- `param.copy()` (parameters.py l.59-63, l.108-112): a new object. -/
def Heap.copyParam (h : Heap K) (a : Addr) : Res (Addr × Heap K) :=
  match h.readParam a with
  | none => .error .attributeError
  | some p => do
    let q ← p.copy
    return h.alloc (.param q)

/-- A parameter on its way through `Layer.__copy__`: copied by `.copy()` (layers.py l.90) and again by
`_set_parameter` of the constructor (l.75-76). -/
def Heap.copyParam2 (h : Heap K) (a : Option Addr) : Res (Addr × Heap K) :=
  match a with
  | none => .error .attributeError
  | some a => do
    let (b, h) ← h.copyParam a
    h.copyParam b

/-- The check `param.min < 0` of the constructors. -/
def Heap.checkNonneg (h : Heap K) (a : Addr) : Res Unit := do
  let _ ← Model.checkNonneg (h.readParam a)
  return ()

/-- `layer.copy()` (layers.py l.89-90, l.148-149, l.176-177, l.201-202). The order of the allocations
is simplified (parameter by parameter). -/
def Heap.copyLayer (h : Heap K) (a : Addr) : Res (Addr × Heap K) :=
  match h.obj a with
  | some (.layer .layer n t r s) => do
    let (t, h) ← h.copyParam2 t
    let (r, h) ← h.copyParam2 r
    let (s, h) ← h.copyParam2 s
    h.checkNonneg t
    h.checkNonneg r
    return h.alloc (.layer .layer n (some t) (some r) (some s))
  | some (.layer .constantLayer n t r s) => do
    let (t, h) ← h.copyParam2 t
    let (r, h) ← h.copyParam2 r
    let (s, h) ← h.copyParam2 s
    h.checkNonneg t
    h.checkNonneg r
    return h.alloc (.layer .constantLayer n (some t) (some r) (some s))
  | some (.layer .substrate n _ r s) => do
    let (r, h) ← h.copyParam2 r
    let (s, h) ← h.copyParam2 s
    h.checkNonneg r
    return h.alloc (.layer .substrate n none (some r) (some s))
  | some (.layer .ambient n _ _ s) => do
    let (s, h) ← h.copyParam2 s
    return h.alloc (.layer .ambient n none none (some s))
  | _ => .error .attributeError

/-- The loop of multilayer.py l.166-167. -/
def Heap.copyLayers (h : Heap K) : List Addr → Res (List Addr × Heap K)
  | [] => .ok ([], h)
  | a :: as => do
    let (b, h) ← h.copyLayer a
    let (bs, h) ← Heap.copyLayers h as
    return (b :: bs, h)

/-- `sample.copy()` (multilayer.py l.94-95, l.162-168). The default ambient and substrate made by
`MultilayerStructure()` in l.163 and replaced in l.164-165 are not allocated in the model. -/
def Heap.copySample (h : Heap K) (a : Addr) : Res (Addr × Heap K) :=
  match h.obj a with
  | some (.sample amb sub ls) => do
    let (amb, h) ← h.copyLayer amb
    let (sub, h) ← h.copyLayer sub
    let (ls, h) ← h.copyLayers ls
    return h.alloc (.sample amb sub ls)
  | _ => .error .attributeError

/-! ### Mutations -/

/-- The attributes of a layer that hold parameters. -/
inductive Field where
  | thickness | roughness | sld

/-- A mutation or creation performed through references a client holds. -/
inductive Mut (K : Type) where
  | renameLayer (s : Addr) (i : Int) (name : Str)
  | setLayerName (l : Addr) (name : Str)
  | setMin (p : Addr) (v : Num K)
  | setMax (p : Addr) (v : Num K)
  | setParamName (p : Addr) (name : Option Str)
  | setAttr (l : Addr) (f : Field) (p : Addr)
  | swap (s : Addr) (i j : Int)
  | move (s : Addr) (i j : Int)
  | addLayer (s l : Addr) (i : AddIndex)
  | setSubstrate (s l : Addr)
  | setAmbient (s l : Addr)
  | assignLayers (s : Addr) (ls : List Addr)
  | newParam (p : Param K)
  | newLayer (kind : LayerKind) (name : Str) (t r s : Option Addr)
  | newSample (ambient substrate : Addr)
  | copySample (s : Addr)

/-- The references a client must hold to perform the operation. -/
def Mut.args : Mut K → List Addr
  | .renameLayer s _ _ => [s]
  | .setLayerName l _ => [l]
  | .setMin p _ => [p]
  | .setMax p _ => [p]
  | .setParamName p _ => [p]
  | .setAttr l _ p => [l, p]
  | .swap s _ _ => [s]
  | .move s _ _ => [s]
  | .addLayer s l _ => [s, l]
  | .setSubstrate s l => [s, l]
  | .setAmbient s l => [s, l]
  | .assignLayers s ls => s :: ls
  | .newParam _ => []
  | .newLayer _ _ t r s => t.toList ++ r.toList ++ s.toList
  | .newSample a b => [a, b]
  | .copySample s => [s]

/-- Assignment of the name of a layer object. -/
def Heap.setLayerName (h : Heap K) (l : Addr) (name : Str) : Heap K :=
  match h.obj l with
  | some (.layer k _ t r s) => h.write l (.layer k name t r s)
  | _ => h

/-- multilayer.py l.50-52 `rename_layer`. The second component is the heap after the call, also when
the call raises. -/
def Heap.renameLayer (h : Heap K) (s : Addr) (i : Int) (name : Str) : Res Unit × Heap K :=
  match h.obj s with
  | some (.sample _ _ ls) =>
    match getItem ls i with
    | .ok l => (.ok (), h.setLayerName l name)
    | .error e => (.error e, h)
  | _ => (.error .attributeError, h)

/-- The heap after an operation. An operation that raises leaves the heap as it is. -/
def Heap.step (h : Heap K) : Mut K → Heap K
  -- multilayer.py l.50-52
  | .renameLayer s i name => (h.renameLayer s i name).2
  -- plain attribute assignment (layers.py l.27)
  | .setLayerName l name => h.setLayerName l name
  -- parameters.py l.20; constants reject the assignment (l.92-94)
  | .setMin p v =>
    match h.obj p with
    | some (.param (.range _ b n)) => h.write p (.param (.range v b n))
    | _ => h
  -- parameters.py l.21; constants reject the assignment (l.100-102)
  | .setMax p v =>
    match h.obj p with
    | some (.param (.range a _ n)) => h.write p (.param (.range a v n))
    | _ => h
  -- parameters.py l.22, l.82
  | .setParamName p name =>
    match h.obj p with
    | some (.param q) => h.write p (.param (q.setName name))
    | _ => h
  -- plain attribute assignment (layers.py l.29-31)
  | .setAttr l f p =>
    match h.obj l, f with
    | some (.layer k n _ r s), .thickness => h.write l (.layer k n (some p) r s)
    | some (.layer k n t _ s), .roughness => h.write l (.layer k n t (some p) s)
    | some (.layer k n t r _), .sld => h.write l (.layer k n t r (some p))
    | _, _ => h
  -- multilayer.py l.54-61
  | .swap s i j =>
    match h.obj s with
    | some (.sample a b ls) => h.write s (.sample a b (swapLayers ls i j).2)
    | _ => h
  -- multilayer.py l.63-74
  | .move s i j =>
    match h.obj s with
    | some (.sample a b ls) => h.write s (.sample a b (moveLayer ls i j).2)
    | _ => h
  -- multilayer.py l.39-48
  | .addLayer s l i =>
    match h.obj s with
    | some (.sample a b ls) =>
      match Model.addLayer ls l i with
      | .ok ls => h.write s (.sample a b ls)
      | .error _ => h
    | _ => h
  -- multilayer.py l.34-37
  | .setSubstrate s l =>
    match h.obj s with
    | some (.sample a _ ls) => h.write s (.sample a l ls)
    | _ => h
  -- multilayer.py l.29-32
  | .setAmbient s l =>
    match h.obj s with
    | some (.sample _ b ls) => h.write s (.sample l b ls)
    | _ => h
  -- plain attribute assignment or list surgery on `sample.layers`
  | .assignLayers s ls =>
    match h.obj s with
    | some (.sample a b _) => h.write s (.sample a b ls)
    | _ => h
  | .newParam p => (h.alloc (.param p)).2
  | .newLayer k n t r s => (h.alloc (.layer k n t r s)).2
  | .newSample a b => (h.alloc (.sample a b [])).2
  | .copySample s =>
    match h.copySample s with
    | .ok (_, h) => h
    | .error _ => h

end

end Verif.Model
