import Verif.Model.Simulate

/-!
# Random seeds

data_generation/data_generator.py l.29-41: a seed is given to the global generator of numpy, which all objects share. A program
makes generators, which it keeps under names (here numbers), and calls their methods; it ends with the first error. Other uses of
`np.random` are arbitrary functions of its state.
-/

namespace Verif.Model
open Verif.Py
variable {G : Type}

/-- The attributes of a `ReflectivityGenerator`. -/
structure GenObj where
  q : List ℝ
  sample : SampleV ℝ

/-- A statement of the program. -/
inductive GenOp (G : Type) where
  | make (k : Nat) (q : List ℝ) (s : SampleV ℝ) (seed : Option Int)
  | labels (k : Nat) (n : Int) (d : DistArgs)
  | simulate (k : Nat) (labels : Option SimTable) (spread : SpreadVal) (engine : Str)
  | other (f : G → G)

/-- What a statement returns. -/
inductive GenOut where
  | nothing
  | labels (f : Frame (Num ℝ))
  | curves (c : List (List (Option ℝ)))

/-- What does not change: the random numbers, `np.random.seed`, which raises `ValueError` for numbers that are no seeds, and the
engine. -/
structure GenWorld (G : Type) where
  rng : Rng G
  seed : Int → Res G
  refl1d : Option Engine
  pf : Str → Option ℝ

/-- The named generators. -/
abbrev GenStore := Nat → Option GenObj

/-- The generator with this name: `NameError` if there is none, which is not distinguished from `KeyError`. -/
def GenStore.get (st : GenStore) (k : Nat) : Res GenObj :=
  match st k with
  | none => .error .keyError
  | some o => .ok o

/-- data_generator.py l.38-39. -/
def applySeed (w : GenWorld G) (seed : Option Int) (g : G) : Res G :=
  match seed with
  | some n => w.seed n
  | none => .ok g

/-- One statement: data_generator.py l.29-41 `__init__`, l.43-82 `generate_random_labels`, l.107-148 `simulate_reflectivity`. -/
noncomputable def GenOp.run (w : GenWorld G) (st : GenStore) (g : G) : GenOp G → Res (GenStore × G × GenOut)
  | .make k q s seed => do
    let g ← applySeed w seed g
    return (Function.update st k (some ⟨q, s⟩), g, .nothing)
  | .labels k n d => do
    let o ← st.get k
    let (f, g) ← generateRandomLabels w.rng o.sample n d g
    return (st, g, .labels f)
  | .simulate k t spread engine => do
    let o ← st.get k
    let (c, g) ← simulateReflectivity w.rng w.refl1d w.pf o.q t spread engine g
    return (st, g, .curves c)
  | .other f => .ok (st, f g, .nothing)

/-- A program: the generators and the state of the random numbers at its end, or the error, and the values returned so far. -/
noncomputable def runGen (w : GenWorld G) : List (GenOp G) → GenStore → G → Res (GenStore × G) × List GenOut
  | [], st, g => (.ok (st, g), [])
  | op :: ops, st, g =>
    match op.run w st g with
    | .error e => (.error e, [])
    | .ok (st, g, o) =>
      let r := runGen w ops st g
      (r.1, o :: r.2)

end Verif.Model
