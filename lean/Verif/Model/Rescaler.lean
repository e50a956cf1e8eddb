import Verif.Model.Scans

/-!
# FootprintRescaler

Models `mlreflect/training/footprint.py`. Arrays are lists of reals, a scattering angle may be NaN
(`none`). The rows of `reflectivity` have equal length (numpy array). Results that are not finite stop
with `nanResult`. Every random choice is a parameter (`draws`).
-/

namespace Verif.Model
open Verif.Py

/-- The attributes of a `FootprintRescaler`. -/
structure Rescaler where
  reflectivity : List (List ℝ)
  trueRatio : ℝ
  errors : List ℝ
  theta : List (Option ℝ)

/-- `FootprintRescaler.__init__` (training/footprint.py l.21-35). -/
noncomputable def Rescaler.init (reflectivity : List (List ℝ)) (trueRatio : ℝ) (errors : List ℝ) (q : Option (List ℝ))
    (wavelength : Option ℝ) (theta : Option (List ℝ)) : Res Rescaler :=
  match q, theta with
  | none, none => .error .valueError
  | some _, some _ => .error .valueError
  | some q, none =>
    match wavelength with
    | none => .error .valueError
    | some w => .ok ⟨reflectivity, trueRatio, errors, qToAngle q w⟩
  | none, some t => .ok ⟨reflectivity, trueRatio, errors, t.map fun (a : ℝ) => some a⟩

/-- `scattering_angle < max_angle` (training/footprint.py l.57-59, l.67-69); a comparison with NaN is
false. -/
noncomputable def belowMax (ratio : ℝ) (angle : Option ℝ) : Bool :=
  open Classical in
  match angle, npArcsin ratio with
  | some t, some a => decide (t < 2 * a / Real.pi * 180)
  | _, _ => false

/-- `apply_footprint` at one point (training/footprint.py l.60-61). -/
noncomputable def applyPoint (ratio : ℝ) (i : ℝ) (angle : Option ℝ) : Option ℝ :=
  if belowMax ratio angle then fdiv (i * Real.sin (angle.getD 0 / 2 * Real.pi / 180)) ratio else some i

/-- `correct_footprint` at one point (training/footprint.py l.70-71). -/
noncomputable def correctPoint (ratio : ℝ) (i : ℝ) (angle : Option ℝ) : Option ℝ :=
  if belowMax ratio angle then (fdiv i (Real.sin (angle.getD 0 / 2 * Real.pi / 180))).map fun (x : ℝ) => x * ratio else some i

/-- An operation with the mask of the angles: `IndexError` if the lengths differ. -/
def masked {α β γ : Type} (f : α → β → γ) (i : List α) (angle : List β) : Res (List γ) :=
  if i.length = angle.length then .ok (List.zipWith f i angle) else .error .indexError

/-- `apply_footprint` (training/footprint.py l.55-63). -/
noncomputable def rescalerApply (i : List ℝ) (angle : List (Option ℝ)) (ratio : ℝ) : Res (List ℝ) := do
  let r ← masked (applyPoint ratio) i angle
  finite r

/-- `correct_footprint` (training/footprint.py l.65-73). -/
noncomputable def rescalerCorrect (i : List ℝ) (angle : List (Option ℝ)) (ratio : ℝ) : Res (List ℝ) := do
  let r ← masked (correctPoint ratio) i angle
  finite r

/-- `normalize_to_max` (training/footprint.py l.75-77). -/
noncomputable def rescalerNormalize (rescaled original : List ℝ) : Res (List ℝ) := do
  let m ← npMax rescaled
  let o ← npMax original
  let r ← finite (rescaled.map fun (x : ℝ) => fdiv x m)
  return r.map fun (x : ℝ) => x * o

/-- `normalize_to_first` (training/footprint.py l.79-81). -/
noncomputable def rescalerNormalizeFirst (rescaled original : List ℝ) : Res (List ℝ) := do
  let m ← getItem rescaled 0
  let r ← finite (rescaled.map fun (x : ℝ) => fdiv x m)
  let o ← getItem original 0
  return r.map fun (x : ℝ) => x * o

/-- `_swap_footprints` (training/footprint.py l.51-53). -/
noncomputable def swapFootprints (i : List ℝ) (angle : List (Option ℝ)) (trueRatio newRatio : ℝ) : Res (List ℝ) := do
  let f ← rescalerApply i angle trueRatio
  let c ← rescalerCorrect f angle newRatio
  rescalerNormalize c i

/-- One round of the loop (training/footprint.py l.43-47); `k` is the position chosen by
`np.random.choice`, a `ValueError` without errors. -/
noncomputable def Rescaler.round (s : Rescaler) (i : List ℝ) (k : Nat) : Res (List ℝ × ℝ) :=
  match s.errors[k]? with
  | none => .error .valueError
  | some e => do return (← swapFootprints i s.theta s.trueRatio (s.trueRatio * e), s.trueRatio * e)

/-- `rescaled_reflectivity` (training/footprint.py l.37-49): the curves and the ratios. `draw c` is the
position chosen for curve `c`. -/
noncomputable def Rescaler.rescaled (draw : Nat → Nat) (s : Rescaler) : Res (List (List ℝ) × List ℝ) := do
  let r ← s.reflectivity.zipIdx.mapM fun (p : List ℝ × Nat) => s.round p.1 (draw p.2)
  return (r.map Prod.fst, r.map Prod.snd)

end Verif.Model
