import Verif.Model.Preprocessing
import Verif.Spec.Sample

/-!
# Specification of label tables
-/

namespace Verif.Spec
open Verif.Py Verif.Model

/-- The parameters of a sample under their label names, in the order of the label names. -/
def labelParams (s : SampleV ℝ) : List (Str × Param ℝ) :=
  (s.layers.filterMap fun l => l.thickness.map fun p => (l.name ++ "_thickness".toList, p)) ++
  ((s.substrate :: s.layers).filterMap fun l => l.roughness.map fun p => (l.name ++ "_roughness".toList, p)) ++
  ((s.substrate :: s.layers ++ [s.ambient]).filterMap fun l => l.sld.map fun p => (l.name ++ "_sld".toList, p))

/-- A table that has every label of the sample as a column (in any order), with finite values; the
columns of constants hold the constant. -/
structure IsLabelTable (s : SampleV ℝ) (t : Table) : Prop where
  columns : t.cols.columns.Perm ((labelParams s).map (·.1))
  length : ∀ c ∈ t.cols, c.2.length = t.rows
  finite : ∀ c ∈ t.cols, ∀ x ∈ c.2, x ≠ none
  constants : ∀ n v nm, (n, Param.const v nm) ∈ labelParams s → ∀ c ∈ t.cols, c.1 = n →
    ∀ x ∈ c.2, x = some v.toC

/-- The two interned literals. -/
def minToZero : PyStr := ⟨"min_to_zero".toList, true⟩
def absoluteMax : PyStr := ⟨"absolute_max".toList, true⟩

/-- The normalized value of a label, as documented (preprocessing.py l.79-81). -/
noncomputable def normalized (norm : PyStr) (lo hi x : ℂ) : ℂ :=
  if norm = minToZero then (x - lo) / (hi - lo) else x / (‖hi‖ : ℝ)

end Verif.Spec
