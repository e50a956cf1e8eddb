import Verif.Py.Basic
import Mathlib.Data.List.Infix

/-! # String lemmas -/

namespace Verif.Py
variable {α : Type}

/-- A word without the separator is a substring of `a ++ sep :: b` iff it is one of `a` or of `b`. -/
theorem infix_sep_iff {w a b : List α} {c : α} (hc : c ∉ w) :
    w <:+: a ++ c :: b ↔ w <:+: a ∨ w <:+: b := by
  constructor
  · intro h
    rw [List.infix_append_iff] at h
    rcases h with h | h | ⟨l₁, l₂, hw, h1, h2⟩
    · exact Or.inl h
    · rw [List.infix_cons_iff] at h
      rcases h with h | h
      · cases w with
        | nil => exact Or.inr (List.nil_infix)
        | cons x w =>
          rw [List.cons_prefix_cons] at h
          exact absurd (by simp [h.1]) hc
      · exact Or.inr h
    · cases l₂ with
      | nil =>
        simp only [List.append_nil] at hw
        subst hw
        exact Or.inl h1.isInfix
      | cons x l₂ =>
        rw [List.cons_prefix_cons] at h2
        exact absurd (by simp [hw, h2.1]) hc
  · rintro (h | h)
    · exact h.trans (List.prefix_append _ _).isInfix
    · exact h.trans ((List.suffix_cons _ _).trans (List.suffix_append _ _)).isInfix

end Verif.Py
