import Verif.Py.Random

/-! # `mapM` in `Rand` -/

namespace Verif.Py.Rand
variable {G α β : Type}

theorem mapM_ok {f : α → Rand G β} {l : List α} {g g' : G} {r : List β}
    (h : l.mapM f g = .ok (r, g')) :
    List.Forall₂ (fun a b => ∃ g1 g2, f a g1 = .ok (b, g2)) l r := by
  induction l generalizing g r with
  | nil =>
    have h : (pure [] : Rand G (List β)) g = .ok (r, g') := h
    cases pure_ok.1 h
    exact List.Forall₂.nil
  | cons a l ih =>
    rw [List.mapM_cons] at h
    obtain ⟨b, g1, h1, h2⟩ := bind_ok.1 h
    obtain ⟨bs, g2, h3, h4⟩ := bind_ok.1 h2
    cases pure_ok.1 h4
    exact List.Forall₂.cons ⟨g, g1, h1⟩ (ih h3)

theorem mapM_total {f : α → Rand G β} {l : List α} (h : ∀ a ∈ l, ∀ g, ∃ b g', f a g = .ok (b, g')) (g : G) :
    ∃ r g', l.mapM f g = .ok (r, g') := by
  induction l generalizing g with
  | nil => exact ⟨[], g, rfl⟩
  | cons a l ih =>
    rw [List.mapM_cons]
    refine bind_total (h a (by simp) g) fun b g1 _ => ?_
    refine bind_total (ih (fun a ha => h a (by simp [ha])) g1) fun bs g2 _ => ?_
    exact ⟨_, _, rfl⟩

end Verif.Py.Rand
