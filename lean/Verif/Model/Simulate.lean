import Verif.Model.Labels
import Verif.Model.Sampling
import Verif.Model.Preprocessing
import Verif.Model.Reflectivity

/-!
# Model of `ReflectivityGenerator.simulate_reflectivity` and `ModelMixer`

data_generator.py l.107-196 and model_mixer.py. Thickness and roughness labels are taken as real numbers
(the model keeps the real part of such a cell). The external engine `refl1d` is a function of the arguments
that the code passes to it.
-/

namespace Verif.Model
open Verif.Py
variable {G : Type}

/-- A label table: columns and number of rows. -/
structure SimTable where
  frame : Frame ℂ
  nrows : Nat

/-- An array made by `np.array(list_of_columns).T` (data_generator.py l.224-226): without columns it is the
one-dimensional array of shape `(0,)`. -/
inductive LabelArr (α : Type) where
  | flat
  | rows (l : List (List α))

namespace LabelArr
variable {α β : Type}

/-- `np.array(cols).T`; `m` is the number of rows of the table. -/
def ofCols (m : Nat) (cols : List (List α)) : LabelArr α :=
  match cols with
  | [] => flat
  | _ => rows ((List.range m).map fun i => cols.filterMap fun c => c[i]?)

/-- `len(arr)`, `arr.shape[0]`. -/
def len : LabelArr α → Nat
  | flat => 0
  | rows l => l.length

/-- `arr[i, :]`. -/
def row : LabelArr α → Nat → Res (List α)
  | flat, _ => .error .indexError
  | rows l, i => getItem l i

/-- Element-wise function. -/
def map (f : α → β) : LabelArr α → LabelArr β
  | flat => flat
  | rows l => rows (l.map (List.map f))

/-- `np.fliplr`; it raises for one-dimensional arrays. -/
def fliplr : LabelArr α → Res (LabelArr α)
  | flat => .error .valueError
  | rows l => .ok (rows (l.map List.reverse))

end LabelArr

/-- The keyword arguments passed to the engine `refl1d` (l.160-169). -/
structure Refl1dArgs where
  kz : List ℝ
  depth : List ℝ
  sigma : List ℝ
  rho : List ℂ
  irho : Option (List ℝ)

/-- The external engine; `none` entries are NaN. -/
abbrev Engine := Refl1dArgs → Res (List (Option ℝ))

/-- `reflectivity_curves[curve, :] = reflectivity` for rows of `nq` values (l.172, l.189). -/
def assignRow (nq : Nat) (r : List (Option ℝ)) : Res (List (Option ℝ)) :=
  if r.length = nq then .ok r
  else match r with
    | [x] => .ok (List.replicate nq x)
    | _ => .error .valueError

open Classical in
/-- data_generator.py l.150-173 `_refl1d`. -/
noncomputable def runRefl1d (engine : Engine) (thicknesses roughnesses : LabelArr ℝ) (slds : LabelArr ℂ)
    (nq : Nat) (q : List (List ℝ)) : Res (List (List (Option ℝ))) := do
  let depth ← thicknesses.fliplr
  let rho ← slds.fliplr
  (List.range thicknesses.len).mapM fun (i : Nat) => do
    let qi ← getItem q (i : Int)
    let d ← depth.row i
    let s ← roughnesses.row i
    let thisRho ← rho.row i
    let r ← if ∃ z ∈ thisRho, z.im ≠ 0 then
        engine ⟨qi.map fun (x : ℝ) => x / 2, 1 :: d ++ [1], s.reverse,
          thisRho.map fun (z : ℂ) => (z.re : ℂ), some (thisRho.map fun (z : ℂ) => z.im)⟩
      else engine ⟨qi.map fun (x : ℝ) => x / 2, 1 :: d ++ [1], s.reverse, thisRho, none⟩
    assignRow nq r

/-- data_generator.py l.175-191 `_builtin`. -/
noncomputable def runBuiltin (thicknesses roughnesses : LabelArr ℝ) (slds : LabelArr ℂ)
    (nq : Nat) (q : List (List ℝ)) : Res (List (List (Option ℝ))) :=
  let t := thicknesses.map fun (x : ℝ) => x * 1e-10
  let r := roughnesses.map fun (x : ℝ) => x * 1e-10
  let s := slds.map fun (z : ℂ) => z * 1e14
  (List.range thicknesses.len).mapM fun (i : Nat) => do
    let qi ← getItem q (i : Int)
    let ti ← t.row i
    let ri ← r.row i
    let si ← s.row i
    let amb ← getItem si (-1)
    let res ← multilayerReflectivity (qi.map fun (x : ℝ) => x * 1e10) ti ri si.dropLast amb
    assignRow nq res

/-- The argument `q_noise_spread`: a number, or a string (the model mixer passes the engine name). -/
inductive SpreadVal where
  | num (x : ℝ)
  | str (s : Str)

/-- The conversion of the argument to a floating point number inside `np.random.normal`; `pf` is Python's
conversion of strings to numbers. -/
def SpreadVal.toFloat (pf : Str → Option ℝ) : SpreadVal → Res ℝ
  | num x => .ok x
  | str s => match pf s with
    | some x => .ok x
    | none => .error .valueError

/-- data_generator.py l.193-196 `_make_noisy_q_values`. -/
noncomputable def makeNoisyQ (rng : Rng G) (pf : Str → Option ℝ) (q : List ℝ) (spread : SpreadVal) (n : Nat) :
    Rand G (List (List ℝ)) := do
  let sp ← Rand.ofRes (spread.toFloat pf)
  let d ← drawNormal rng 1 sp (n * q.length : Nat)
  return (List.range n).map fun (i : Nat) => List.zipWith (· * ·) q ((d.drop (i * q.length)).take q.length)

def refl1dS : Str := "refl1d".toList
def builtinS : Str := "builtin".toList

/-- data_generator.py l.107-148 `simulate_reflectivity`. `labels = none` is an argument that is no
`DataFrame`; `refl1d = none` means that the package could not be imported (l.30-35). The rows of the returned
array. -/
noncomputable def simulateReflectivity (rng : Rng G) (refl1d : Option Engine) (pf : Str → Option ℝ) (q : List ℝ)
    (labels : Option SimTable) (spread : SpreadVal) (engine : Str) : Rand G (List (List (Option ℝ))) :=
  match labels with
  | none => Rand.fail .typeError
  | some tab =>
    if engine ≠ refl1dS ∧ engine ≠ builtinS then Rand.fail .valueError
    else
      let (tc, rc, sc) := separateLabels tab.frame
      let thicknesses := (LabelArr.ofCols tab.nrows tc).map Complex.re
      let roughnesses := (LabelArr.ofCols tab.nrows rc).map Complex.re
      let slds := LabelArr.ofCols tab.nrows sc
      do
        let noisy ← makeNoisyQ rng pf q spread thicknesses.len
        match refl1d with
        | some eng =>
          if engine = refl1dS then Rand.ofRes (runRefl1d eng thicknesses roughnesses slds q.length noisy)
          else Rand.ofRes (runBuiltin thicknesses roughnesses slds q.length noisy)
        | none => Rand.ofRes (runBuiltin thicknesses roughnesses slds q.length noisy)

/-- The defaults of `generate_random_labels` (l.45-46). -/
noncomputable def defaultDist : DistArgs := ⟨.bolstered, some 0.15, some 0.1⟩

/-- model_mixer.py l.41-50 `simulate_reflectivity`. `choice` is `np.random.choice(self._generators, p=...)`
(it may raise); `overwrite` is l.48, which puts the given labels of row `i` into the random labels (it may
raise). The engine is passed as second positional argument (l.49), which is `q_noise_spread`. -/
noncomputable def mixerSimulate (rng : Rng G) (refl1d : Option Engine) (pf : Str → Option ℝ) (q : List ℝ)
    (models : List (SampleV ℝ)) (choice : List (SampleV ℝ) → Rand G (SampleV ℝ))
    (overwrite : Nat → Frame (Num ℝ) → Res SimTable) (numLabels : Nat) (engine : Str) :
    Rand G (List (List (Option ℝ))) :=
  (List.range numLabels).mapM fun (i : Nat) => do
    let s ← choice models
    let new ← generateRandomLabels rng s 1 defaultDist
    let tab ← Rand.ofRes (overwrite i new)
    let curves ← simulateReflectivity rng refl1d pf q (some tab) (.str engine) refl1dS
    match curves with
    | [c] => return c
    | _ => Rand.fail .valueError

end Verif.Model
