import Verif.Model.Parameters
import Mathlib.Data.Real.Basic
import Mathlib.Algebra.Order.Archimedean.Real.Basic

/-!
# Comparison and conversion of parameters

Models `ConstantParameter.__eq__` to `__int__` (parameters.py l.114-139) and the assignment of limits. A
comparison that starts with the other object ends in the reflected method of the constant parameter
(numbers, strings and objects without own comparison return `NotImplemented`); `np.float64` on the left
side is not modelled.
-/

namespace Verif.Model
open Verif.Py

/-- What a constant parameter is compared with. -/
inductive CmpArg where
  | num (v : Num ℝ)
  | param (p : Param ℝ)
  | str (s : Str)
  | foreign

/-- `float(v)`: a Python `complex` is a `TypeError`, a `np.complex128` loses its imaginary part with a warning. -/
def Num.toFloat : Num ℝ → Res ℝ
  | .real x => .ok x
  | .cplx true a _ => .ok a
  | .cplx false _ _ => .error .typeError

/-- `float(p)` (parameters.py l.135-136); a range has no `__float__`. -/
def Param.toFloat : Param ℝ → Res ℝ
  | .const v _ => v.toFloat
  | .range .. => .error .typeError

/-- `float(other)`; `pf` reads strings. -/
def CmpArg.toFloat (pf : Str → Option ℝ) : CmpArg → Res ℝ
  | .num v => v.toFloat
  | .param p => p.toFloat
  | .str s => match pf s with
    | some x => .ok x
    | none => .error .valueError
  | .foreign => .error .typeError

/-- The six comparisons. -/
inductive CmpOp where
  | eq | ne | lt | le | gt | ge
  deriving DecidableEq

/-- The comparison of two floats. -/
noncomputable def CmpOp.eval (op : CmpOp) (a b : ℝ) : Bool :=
  match op with
  | .eq => decide (a = b)
  | .ne => decide (a ≠ b)
  | .lt => decide (a < b)
  | .le => decide (a ≤ b)
  | .gt => decide (b < a)
  | .ge => decide (b ≤ a)

/-- `p op other` for a constant parameter (parameters.py l.114-130). -/
noncomputable def constCompare (pf : Str → Option ℝ) (op : CmpOp) (v : Num ℝ) (other : CmpArg) : Res Bool := do
  let a ← v.toFloat
  let b ← other.toFloat pf
  return op.eval a b

/-- The reflected comparison. -/
def CmpOp.swap : CmpOp → CmpOp
  | .eq => .eq
  | .ne => .ne
  | .lt => .gt
  | .le => .ge
  | .gt => .lt
  | .ge => .le

/-- `other op p`. -/
noncomputable def reflectedCompare (pf : Str → Option ℝ) (op : CmpOp) (other : CmpArg) (v : Num ℝ) : Res Bool :=
  constCompare pf op.swap v other

/-- `p in [x, …]` for a list of objects other than `p`: the first comparison that raises ends the search. -/
noncomputable def constIn (pf : Str → Option ℝ) (v : Num ℝ) : List CmpArg → Res Bool
  | [] => .ok false
  | x :: xs => do
    let b ← constCompare pf .eq v x
    if b then .ok true else constIn pf v xs

/-- `int(p)` (parameters.py l.138-139): towards zero. -/
noncomputable def constInt (v : Num ℝ) : Res Int := do
  let x ← v.toFloat
  return if 0 ≤ x then ⌊x⌋ else ⌈x⌉

/-- `p.min = v` (parameters.py l.20; l.92-94 for constants): not checked for ranges. -/
def Param.setMin (v : Num ℝ) : Param ℝ → Res (Param ℝ)
  | .range _ b n => .ok (.range v b n)
  | .const .. => .error .attributeError

/-- `p.max = v` (parameters.py l.21; l.100-102 for constants): not checked for ranges. -/
def Param.setMax (v : Num ℝ) : Param ℝ → Res (Param ℝ)
  | .range a _ n => .ok (.range a v n)
  | .const .. => .error .attributeError

end Verif.Model
