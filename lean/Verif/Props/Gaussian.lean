import Verif.Model.Helpers
import Mathlib.Order.Bounds.Basic
import Mathlib.Algebra.Order.BigOperators.Group.List

/-!
# C106: Gaussian weights
-/

namespace Verif.Props
open Verif.Py Verif.Model

theorem foldl_min_least (l : List ℝ) (a : ℝ) : IsLeast {v | v ∈ a :: l} (l.foldl min a) := by
  induction l generalizing a with
  | nil => exact ⟨by simp, fun v hv => by simp at hv; simp [hv]⟩
  | cons b l ih =>
    obtain ⟨h1, h2⟩ := ih (min a b)
    rw [List.foldl_cons]
    have h1' : l.foldl min (min a b) ∈ min a b :: l := h1
    refine ⟨?_, fun v hv => ?_⟩
    · show _ ∈ a :: b :: l
      rcases List.mem_cons.1 h1' with h | h
      · rcases min_choice a b with hm | hm <;> rw [h, hm] <;> simp
      · simp [h]
    · have hv' : v ∈ a :: b :: l := hv
      have hm : l.foldl min (min a b) ≤ min a b := h2 (show _ ∈ min a b :: l by simp)
      rcases List.mem_cons.1 hv' with rfl | hv'
      · exact hm.trans (min_le_left _ _)
      · rcases List.mem_cons.1 hv' with rfl | hv'
        · exact hm.trans (min_le_right _ _)
        · exact h2 (show _ ∈ min a b :: l by simp [hv'])

theorem foldl_max_greatest (l : List ℝ) (a : ℝ) : IsGreatest {v | v ∈ a :: l} (l.foldl max a) := by
  induction l generalizing a with
  | nil => exact ⟨by simp, fun v hv => by simp at hv; simp [hv]⟩
  | cons b l ih =>
    obtain ⟨h1, h2⟩ := ih (max a b)
    rw [List.foldl_cons]
    have h1' : l.foldl max (max a b) ∈ max a b :: l := h1
    refine ⟨?_, fun v hv => ?_⟩
    · show _ ∈ a :: b :: l
      rcases List.mem_cons.1 h1' with h | h
      · rcases max_choice a b with hm | hm <;> rw [h, hm] <;> simp
      · simp [h]
    · have hv' : v ∈ a :: b :: l := hv
      have hm : max a b ≤ l.foldl max (max a b) := h2 (show _ ∈ max a b :: l by simp)
      rcases List.mem_cons.1 hv' with rfl | hv'
      · exact (le_max_left _ _).trans hm
      · rcases List.mem_cons.1 hv' with rfl | hv'
        · exact (le_max_right _ _).trans hm
        · exact h2 (show _ ∈ max a b :: l by simp [hv'])

theorem sum_filter_le {α : Type} (f : α → ℝ) (hf : ∀ a, 0 < f a) (p : α → Bool) (l : List α) :
    ((l.filter p).map f).sum ≤ (l.map f).sum ∧ (((l.filter p).map f).sum = (l.map f).sum ↔ l.filter p = l) := by
  induction l with
  | nil => simp
  | cons a l ih =>
    obtain ⟨i1, i2⟩ := ih
    cases hp : p a with
    | true =>
      rw [List.filter_cons_of_pos hp]
      simp only [List.map_cons, List.sum_cons, List.cons.injEq, true_and]
      exact ⟨by linarith, by rw [← i2]; constructor <;> intro h <;> linarith⟩
    | false =>
      rw [List.filter_cons_of_neg (by simp [hp])]
      simp only [List.map_cons, List.sum_cons]
      have := hf a
      refine ⟨by linarith, fun h => by linarith, fun h => ?_⟩
      have := congrArg List.length h
      have h3 := List.length_filter_le p l
      simp at this
      omega

/-- C106: for a positive width the kept positions are those within `n` widths of the middle between the smallest and the largest
position, in their order. Their weights are those of a Gaussian around the middle, divided by the sum over all positions: they are
positive, they fall with the distance from the middle, and they add up to one exactly if no position is dropped, otherwise to
less. -/
theorem C106_weights (x : List ℝ) (hx : x ≠ []) (std n : ℝ) (hs : 0 < std) :
    ∃ (lo hi c : ℝ) (w y : List ℝ) (f : ℝ → ℝ), IsLeast {v | v ∈ x} lo ∧ IsGreatest {v | v ∈ x} hi ∧ c = (lo + hi) / 2 ∧
      makeGaussian x std n = .ok (w.map some, y) ∧
      y = x.filter (fun (v : ℝ) => decide (|v - c| ≤ n * std)) ∧ w = y.map f ∧
      (∀ v, f v = Real.exp (-(v - c) ^ 2 / (2 * std ^ 2)) / (x.map fun (u : ℝ) => Real.exp (-(u - c) ^ 2 / (2 * std ^ 2))).sum) ∧
      (∀ v, 0 < f v) ∧ (∀ u v, |u - c| ≤ |v - c| → f v ≤ f u) ∧ w.sum ≤ 1 ∧ (w.sum = 1 ↔ y = x) := by
  cases x with
  | nil => exact absurd rfl hx
  | cons a l =>
    set e : ℝ → ℝ → ℝ := fun c v => Real.exp (-(v - c) ^ 2 / (2 * std ^ 2)) with he
    set c := (l.foldl min a + l.foldl max a) / 2 with hc
    have hpos : ∀ v, 0 < e c v := fun v => Real.exp_pos _
    have hsum : 0 < ((a :: l).map (e c)).sum := by
      rw [List.map_cons, List.sum_cons]
      have : 0 ≤ (l.map (e c)).sum := List.sum_nonneg fun v hv => by
        obtain ⟨u, -, rfl⟩ := List.mem_map.1 hv
        exact (hpos u).le
      have := hpos a
      linarith
    set y := (a :: l).filter (fun (v : ℝ) => decide (|v - c| ≤ n * std)) with hy
    have hk : 0 < std * Real.sqrt (2 * Real.pi) := mul_pos hs (Real.sqrt_pos.2 (by positivity))
    refine ⟨_, _, c, y.map fun (v : ℝ) => e c v / ((a :: l).map (e c)).sum, y, fun (v : ℝ) => e c v / ((a :: l).map (e c)).sum,
      foldl_min_least l a, foldl_max_greatest l a, hc, ?_, rfl, rfl, fun v => rfl, fun v => div_pos (hpos v) hsum, ?_, ?_, ?_⟩
    · unfold makeGaussian
      have hcen : l.foldl min a + (l.foldl max a - l.foldl min a) / 2 = c := by rw [hc]; ring
      simp only [hcen]
      have hfil : (a :: l).filter (fun (v : ℝ) => decide (-n * std ≤ v - c ∧ v - c ≤ n * std)) = y := by
        rw [hy]
        refine List.filter_congr fun v _ => ?_
        rw [decide_eq_decide, abs_le, neg_mul]
      rw [hfil, List.map_map]
      congr 2
      refine List.map_congr_left fun v _ => ?_
      rw [if_neg hs.ne']
      have hg : ∀ v : ℝ, Real.exp (-((v - c) / std) ^ 2 / 2) / (std * Real.sqrt (2 * Real.pi)) =
          e c v / (std * Real.sqrt (2 * Real.pi)) := by
        intro v
        rw [he]
        congr 2
        rw [div_pow]
        field_simp
      have hs2 : ((a :: l).map fun (v : ℝ) => Real.exp (-((v - c) / std) ^ 2 / 2) / (std * Real.sqrt (2 * Real.pi))).sum =
          ((a :: l).map (e c)).sum / (std * Real.sqrt (2 * Real.pi)) := by
        rw [List.map_congr_left fun v _ => hg v]
        generalize a :: l = L
        induction L with
        | nil => simp
        | cons b L ih => rw [List.map_cons, List.sum_cons, ih, List.map_cons, List.sum_cons, add_div]
      show some _ = some _
      rw [hs2, hg, div_div_div_cancel_right₀ hk.ne']
    · intro u v huv
      refine div_le_div_of_nonneg_right ?_ hsum.le
      rw [he]
      simp only [Real.exp_le_exp]
      refine div_le_div_of_nonneg_right ?_ (by positivity)
      exact neg_le_neg (sq_le_sq.2 huv)
    · have h1 := (sum_filter_le (e c) hpos (fun (v : ℝ) => decide (|v - c| ≤ n * std)) (a :: l)).1
      rw [← hy] at h1
      have : (y.map fun (v : ℝ) => e c v / ((a :: l).map (e c)).sum).sum = (y.map (e c)).sum / ((a :: l).map (e c)).sum := by
        generalize ((a :: l).map (e c)).sum = t
        clear h1 hy
        induction y with
        | nil => simp
        | cons b y ih => rw [List.map_cons, List.sum_cons, ih, List.map_cons, List.sum_cons, add_div]
      rw [this]
      exact (div_le_one hsum).2 h1
    · have h1 := (sum_filter_le (e c) hpos (fun (v : ℝ) => decide (|v - c| ≤ n * std)) (a :: l)).2
      rw [← hy] at h1
      have : (y.map fun (v : ℝ) => e c v / ((a :: l).map (e c)).sum).sum = (y.map (e c)).sum / ((a :: l).map (e c)).sum := by
        generalize ((a :: l).map (e c)).sum = t
        clear h1 hy
        induction y with
        | nil => simp
        | cons b y ih => rw [List.map_cons, List.sum_cons, ih, List.map_cons, List.sum_cons, add_div]
      rw [this, div_eq_one_iff_eq hsum.ne']
      exact h1

/-- C106: no positions raise `ValueError`; with zero width every weight is NaN; with a negative width and a positive `n` nothing
is kept. -/
theorem C106_degenerate (x : List ℝ) (std n : ℝ) :
    makeGaussian [] std n = .error .valueError ∧
    (x ≠ [] → std = 0 → ∃ y, makeGaussian x std n = .ok (y.map fun _ => none, y)) ∧
    (x ≠ [] → std < 0 → 0 < n → makeGaussian x std n = .ok ([], [])) := by
  refine ⟨rfl, fun hx hs => ?_, fun hx hs hn => ?_⟩
  · cases x with
    | nil => exact absurd rfl hx
    | cons a l =>
      subst hs
      refine ⟨(a :: l).filter fun (v : ℝ) =>
          decide (-n * 0 ≤ v - (l.foldl min a + (l.foldl max a - l.foldl min a) / 2) ∧
            v - (l.foldl min a + (l.foldl max a - l.foldl min a) / 2) ≤ n * 0), ?_⟩
      unfold makeGaussian
      simp only [if_true]
  · cases x with
    | nil => exact absurd rfl hx
    | cons a l =>
      unfold makeGaussian
      have : (a :: l).filter (fun (v : ℝ) =>
          decide (-n * std ≤ v - (l.foldl min a + (l.foldl max a - l.foldl min a) / 2) ∧
            v - (l.foldl min a + (l.foldl max a - l.foldl min a) / 2) ≤ n * std)) = [] := by
        rw [List.filter_eq_nil_iff]
        intro v _
        rw [decide_eq_true_eq]
        rintro ⟨h1, h2⟩
        nlinarith
      simp only [this, List.map_nil]

/-- Positions that lose weight: of three equidistant positions, the outer ones are dropped if they are more than `n` widths away. -/
example : ([0, 1, 2] : List ℝ) ≠ [] ∧ (0 : ℝ) < 1 / 10 ∧ ¬|(0 : ℝ) - 1| ≤ 5 * (1 / 10) := by
  refine ⟨by simp, by norm_num, ?_⟩
  rw [show (0 : ℝ) - 1 = -1 by norm_num, abs_neg, abs_one]
  norm_num

end Verif.Props
