import Verif.Py.Basic
import Mathlib.Analysis.SpecialFunctions.Pow.Complex
import Mathlib.LinearAlgebra.Matrix.Notation

/-!
# Model of `data_generation/reflectivity.py`

Complex numbers instead of `complex128`. An array over the q values is a list; the element-wise operations
of numpy are maps over these lists. `none` in the returned curve is NaN (the quotient of l.94 with a zero
denominator).
-/

namespace Verif.Model
open Verif.Py Complex

/-- A 2x2 matrix. -/
abbrev Mat := Matrix (Fin 2) (Fin 2) ℂ

/-- l.5 `DELTA = 1e-30j`. -/
noncomputable def delta : ℂ := ((1e-30 : ℝ) : ℂ) * I

/-- `np.sqrt` for complex numbers: the principal square root. -/
noncomputable def npSqrt (z : ℂ) : ℂ := z ^ (1 / 2 : ℂ)

/-- l.103-106 `_get_relative_k_z`. -/
noncomputable def getRelativeKz (kz0 : List ℂ) (sld : ℂ) : List ℂ :=
  kz0.map fun k => npSqrt (k ^ 2 - 4 * (Real.pi : ℂ) * sld)

open Classical in
/-- l.133-139: the body of the loop of `_safe_div`. -/
noncomputable def safeDiv1 (a b : ℂ) : ℂ :=
  if a = b then 1 else if b = 0 then a / 1e-20 else a / b

/-- l.129-141 `_safe_div` (both arrays have the length of the q values). -/
noncomputable def safeDiv (num den : List ℂ) : List ℂ := List.zipWith safeDiv1 num den

/-- Element-wise operation of two arrays of the same length. -/
def map2 {α β γ : Type} (f : α → β → γ) (a : List α) (b : List β) : List γ := List.zipWith f a b

/-- l.109-119 `_make_reflection_matrix`. -/
noncomputable def makeReflectionMatrix (kp kn : List ℂ) (rough : List ℝ) : List Mat :=
  let p := map2 (· * ·) (safeDiv (map2 (· + ·) kp kn) (kp.map (2 * ·)))
    (map2 (fun d (s : ℝ) => cexp (-d ^ 2 * 0.5 * (s : ℂ) ^ 2)) (map2 (· - ·) kp kn) rough)
  let m := map2 (· * ·) (safeDiv (map2 (· - ·) kp kn) (kp.map (2 * ·)))
    (map2 (fun d (s : ℝ) => cexp (-d ^ 2 * 0.5 * (s : ℂ) ^ 2)) (map2 (· + ·) kp kn) rough)
  map2 (fun p m => !![p, m; m, p]) p m

/-- l.122-126 `_make_translation_matrix`. -/
noncomputable def makeTranslationMatrix (kz : List ℂ) (thickness : List ℝ) : List Mat :=
  map2 (fun k (d : ℝ) => !![cexp (-I * k * d), 0; 0, cexp (I * k * d)]) kz thickness

/-- l.65-88: the loop over the interfaces, from the top; `interfaces n` is the total matrix after `n`
interfaces. `thickness`, `roughness` and `sld` are the flipped arrays; `sld` and `amb` include `DELTA`. -/
noncomputable def interfaces (kz0 : List ℂ) (thickness roughness : List ℝ) (sld : List ℂ) (amb : ℂ) :
    Nat → Res (List Mat)
  | 0 => .error .unboundLocalError
  | 1 => do
    let kp := getRelativeKz kz0 amb
    let kn := getRelativeKz kz0 (← getItem sld 0)
    let r ← getItem roughness 0
    return makeReflectionMatrix kp kn (kz0.map fun _ => r)
  | n + 2 => do
    let total ← interfaces kz0 thickness roughness sld amb (n + 1)
    let d ← getItem thickness ((n : Nat) : Int)
    let kp := getRelativeKz kz0 (← getItem sld ((n : Nat) : Int))
    let kn := getRelativeKz kz0 (← getItem sld ((n + 1 : Nat) : Int))
    let r ← getItem roughness ((n + 1 : Nat) : Int)
    let refl := makeReflectionMatrix kp kn (kz0.map fun _ => r)
    let trans := makeTranslationMatrix kp (kz0.map fun _ => d)
    return map2 (· * ·) (map2 (· * ·) total trans) refl

open Classical in
/-- l.93-96: `r = M[0, 1] / M[1, 1]` and `np.clip(abs(r) ** 2, None, 1)`; NaN for a zero denominator. -/
noncomputable def reflectivityOf (m : Mat) : Option ℝ :=
  if m 1 1 = 0 then none else some (min (‖m 0 1 / m 1 1‖ ^ 2) 1)

open Classical in
/-- l.8-100 `multilayer_reflectivity`. -/
noncomputable def multilayerReflectivity (q thickness roughness : List ℝ) (sld : List ℂ) (amb : ℂ) :
    Res (List (Option ℝ)) :=
  if amb ≠ 0 then .error .notImplementedError
  else
    let thickness := thickness.reverse
    let roughness := roughness.reverse
    let sld := sld.reverse.map (· + delta)
    let amb := amb + delta
    if thickness.length + 1 = roughness.length ∧ roughness.length = sld.length then do
      let kz0 := q.map fun (q : ℝ) => (q : ℂ) / 2
      let total ← interfaces kz0 thickness roughness sld amb roughness.length
      return total.map reflectivityOf
    else .error .valueError

end Verif.Model
