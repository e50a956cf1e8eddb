import Verif.Model.OnSubstrate

/-!
# Model of calls that change a sample (multilayer.py l.31-74, l.87-92, l.194-210)

The state after a call is kept also if the call raises. Layers are values here: `list.remove` removes the first layer with the same value, while the
code compares objects, and `rename_layer` changes one position. The two agree for samples without two equal layers.
-/

namespace Verif.Model
open Verif.Py
variable {K : Type} [LinearOrder K] [Zero K]

/-- The argument of `from_dict`: a key that is missing is `none`. -/
structure RawSampleDict (K : Type) where
  ambient : Option (LayerDict K)
  substrate : Option (LayerDict K)
  layers : Option (List (LayerDict K))

/-- multilayer.py l.87-92 `from_dict` for a dictionary in which keys may be missing. -/
def SampleClass.fromRawDict (c : SampleClass) (s : SampleV K) (d : RawSampleDict K) : SampleV K × Res Unit :=
  match d.ambient with
  | none => (s, .error .keyError)
  | some da =>
    match ambientOfDict da with
    | .error e => (s, .error e)
    | .ok a =>
      let s1 := { s with ambient := a }
      match d.substrate with
      | none => (s1, .error .keyError)
      | some db =>
        match substrateOfDict db with
        | .error e => (s1, .error e)
        | .ok b =>
          let s2 := { s1 with substrate := b }
          match d.layers with
          | none => (s2, .error .keyError)
          | some ds => c.addDicts s2 ds.reverse

/-- A call of a method that changes a sample. An argument that is no layer, or no integer, is `none`. -/
inductive SampleCall (K : Type) where
  | setAmbient (l : Option (LayerV K))
  | setSubstrate (l : Option (LayerV K))
  | addLayer (l : Option (LayerV K)) (i : AddIndex)
  | rename (i : Option Int) (name : Str)
  | swap (i j : Option Int)
  | move (i j : Option Int)
  | fromDict (d : RawSampleDict K)

/-- The state of a sample after a call, and its outcome: multilayer.py l.29-32 `set_ambient_layer`, l.34-37 `set_substrate`, l.39-48 and l.194-210
`add_layer` (`LayerOnSubstrate` ignores what is no layer), l.50-52 `rename_layer`, l.54-61 `swap_layers`, l.63-74 `move_layer`, l.87-92 `from_dict`. -/
def SampleClass.call (c : SampleClass) (s : SampleV K) : SampleCall K → SampleV K × Res Unit
  | .setAmbient none => (s, .error .valueError)
  | .setAmbient (some l) => ({ s with ambient := l }, .ok ())
  | .setSubstrate none => (s, .error .valueError)
  | .setSubstrate (some l) => ({ s with substrate := l }, .ok ())
  | .addLayer none _ => (s, match c with | .multilayer => .error .valueError | .onSubstrate => .ok ())
  | .addLayer (some l) i => c.addLayer s l i
  | .rename none _ => (s, .error .typeError)
  | .rename (some i) name =>
    match getItem s.layers i with
    | .error e => (s, .error e)
    | .ok l =>
      match setItem s.layers i { l with name := name } with
      | .error e => (s, .error e)
      | .ok ls => ({ s with layers := ls }, .ok ())
  | .swap (some i) (some j) =>
    let r := swapLayers s.layers i j
    ({ s with layers := r.2 }, r.1)
  | .swap _ _ => (s, .error .valueError)
  | .move (some i) (some j) =>
    let r := moveLayer s.layers i j
    ({ s with layers := r.2 }, r.1)
  | .move _ _ => (s, .error .valueError)
  | .fromDict d => c.fromRawDict s d

/-- A session: a client that catches every exception and carries on. The final state and all outcomes. -/
def SampleClass.session (c : SampleClass) (s : SampleV K) : List (SampleCall K) → SampleV K × List (Res Unit)
  | [] => (s, [])
  | x :: xs =>
    let r := c.call s x
    let t := c.session r.1 xs
    (t.1, r.2 :: t.2)

end Verif.Model
