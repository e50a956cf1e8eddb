import Verif.Py.Basic

/-! # `mapM` in `Except` -/

namespace Verif.Py
variable {α β γ : Type}

@[simp] theorem mapM_ok_nil (f : α → Res β) : ([] : List α).mapM f = .ok [] := rfl

theorem mapM_cons (f : α → Res β) (a : α) (l : List α) :
    (a :: l).mapM f = (do let b ← f a; let bs ← l.mapM f; return b :: bs) := by
  simp [List.mapM_cons]

/-- If `f` succeeds on every element, `mapM` is `map`. -/
theorem mapM_eq_ok_map {f : α → Res β} {g : α → β} {l : List α} (h : ∀ a ∈ l, f a = .ok (g a)) :
    l.mapM f = .ok (l.map g) := by
  induction l with
  | nil => rfl
  | cons a l ih =>
    rw [mapM_cons, h a (by simp), ih (fun b hb => h b (by simp [hb]))]
    rfl

theorem mapM_ok_iff {f : α → Res β} {l : List α} {r : List β} :
    l.mapM f = .ok r ↔ List.Forall₂ (fun a b => f a = .ok b) l r := by
  induction l generalizing r with
  | nil =>
    constructor
    · intro h; cases h; exact .nil
    · intro h; cases h; rfl
  | cons a l ih =>
    rw [mapM_cons]
    constructor
    · intro h
      cases hf : f a with
      | error e => rw [hf] at h; simp [bind, Except.bind] at h
      | ok b =>
        rw [hf] at h
        cases hl : l.mapM f with
        | error e => rw [hl] at h; simp [bind, Except.bind] at h
        | ok bs =>
          rw [hl] at h
          simp only [bind, Except.bind, pure, Except.pure, Except.ok.injEq] at h
          subst h
          exact .cons hf (ih.1 hl)
    · intro h
      cases h with
      | cons hf hl => rw [hf, ih.2 hl]; rfl

@[simp] theorem bind_ok {a : α} {f : α → Res β} : (Except.ok a >>= f) = f a := rfl
@[simp] theorem bind_error {e : PyErr} {f : α → Res β} : ((Except.error e : Res α) >>= f) = .error e := rfl

theorem bind_eq_ok {x : Res α} {f : α → Res β} {b : β} :
    (x >>= f) = .ok b ↔ ∃ a, x = .ok a ∧ f a = .ok b := by
  cases x <;> simp

end Verif.Py
