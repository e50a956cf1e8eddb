import Verif.Model.CurveFitter
import Verif.Spec.CurveFitter
import Verif.Lemmas.Except
import Mathlib.Analysis.SpecialFunctions.Log.Base
import Mathlib.Algebra.Order.BigOperators.Group.Finset
import Mathlib.Algebra.BigOperators.Ring.Finset

/-!
# The log MSE of two curves: C65, and the choice of the smallest error
-/

namespace Verif.Props
open Verif.Py Verif.Model Verif.Spec

/-! ### The log MSE -/

theorem zipWith_sum_eq (f : ℝ → ℝ → ℝ) (a b : List ℝ) (h : a.length = b.length) :
    (List.zipWith f a b).sum = ∑ i ∈ Finset.range a.length, f (a.getD i 0) (b.getD i 0) := by
  induction a generalizing b with
  | nil => simp
  | cons x a ih =>
    cases b with
    | nil => simp at h
    | cons y b =>
      rw [List.zipWith_cons_cons, List.sum_cons, ih b (by simpa using h), List.length_cons, Finset.sum_range_succ']
      simp [add_comm]

theorem fMean_num (l : List ℝ) (h : l ≠ []) : fMean (l.map FVal.num) = .num (l.sum / l.length) := by
  have h1 : (l.map FVal.num).any (fun (v : FVal) => !v.notNan) = false := by simp [List.any_map, FVal.notNan]
  have h2 : (l.map FVal.num).any FVal.isInf = false := by simp [List.any_map, FVal.isInf]
  unfold fMean
  rw [h1, h2]
  simp [h, Function.comp_def, FVal.toReal]

theorem logSqErr_pos {a b : ℝ} (ha : 0 < a) (hb : 0 < b) :
    logSqErr (some a) (some b) = .num ((Real.logb 10 a - Real.logb 10 b) ^ 2) := by
  simp only [logSqErr]
  rw [if_neg (by push Not; exact ⟨ha.le, hb.le⟩), if_neg (by rintro ⟨h, -⟩; exact ha.ne' h), if_neg]
  rintro (h | h)
  · exact ha.ne' h
  · exact hb.ne' h

theorem zipWith_logSqErr {a b : List ℝ} (ha : PositiveCurve a) (hb : PositiveCurve b) :
    List.zipWith logSqErr (a.map some) (b.map some) =
      (List.zipWith (fun (x y : ℝ) => (Real.logb 10 x - Real.logb 10 y) ^ 2) a b).map FVal.num := by
  induction a generalizing b with
  | nil => rfl
  | cons x a ih =>
    cases b with
    | nil => rfl
    | cons y b =>
      simp only [List.map_cons, List.zipWith_cons_cons]
      rw [logSqErr_pos (ha x (by simp)) (hb y (by simp)), ih (fun v hv => ha v (by simp [hv])) fun v hv => hb v (by simp [hv])]

/-- The log MSE of a curve and a variant is the specified one. -/
theorem logMse_variant {a b : List ℝ} (ha : PositiveCurve a) (hb : PositiveCurve b) (hl : a.length = b.length) (hne : a ≠ []) :
    (do let e ← ew logSqErr (a.map some) (b.map some); return fMean e : Res FVal) = .ok (.num (logMse a b)) := by
  unfold ew
  rw [if_pos (by simpa using hl)]
  simp only [bind_ok, pure, Except.pure]
  rw [zipWith_logSqErr ha hb, fMean_num, zipWith_sum_eq _ _ _ hl]
  · congr 2
    simp [hl, logMse]
  · intro h
    have := congrArg List.length h
    simp only [List.length_zipWith, List.length_nil] at this
    have := List.length_pos_iff.2 hne
    omega

/-- C65: for positive curves of the same length (at least one point) the computed error of the log curves is the mean
squared difference, which is not negative, symmetric, unchanged if both curves are scaled by the same factor, and zero
exactly for equal curves. -/
theorem C65_metric (a b : List ℝ) (ha : PositiveCurve a) (hb : PositiveCurve b) (hl : a.length = b.length) (hne : a ≠ []) :
    ∃ e : ℝ, meanSquaredError (a.map (Real.logb 10)) (b.map (Real.logb 10)) = .ok (.num e) ∧
      curveVariantLogMse (a.map some) [b.map some] = .ok [.num e] ∧
      e = (∑ i ∈ Finset.range a.length, (Real.logb 10 (a.getD i 0) - Real.logb 10 (b.getD i 0)) ^ 2) / a.length ∧
      0 ≤ e ∧
      meanSquaredError (b.map (Real.logb 10)) (a.map (Real.logb 10)) = .ok (.num e) ∧
      (∀ c > 0, meanSquaredError ((a.map fun (x : ℝ) => c * x).map (Real.logb 10)) ((b.map fun (x : ℝ) => c * x).map (Real.logb 10)) =
        .ok (.num e)) ∧
      (e = 0 ↔ a = b) := by
  have hlen : 0 < a.length := List.length_pos_iff.2 hne
  have key : ∀ (a b : List ℝ), a.length = b.length → a ≠ [] →
      meanSquaredError (a.map (Real.logb 10)) (b.map (Real.logb 10)) = .ok (.num (logMse a b)) := by
    intro a b hl hne
    unfold meanSquaredError
    rw [if_neg (by simpa using hl), fMean_num, List.zipWith_map, zipWith_sum_eq _ _ _ hl]
    · congr 2
      simp [hl, logMse]
    · intro h
      have := congrArg List.length h
      simp only [List.length_zipWith, List.length_nil, List.length_map] at this
      have := List.length_pos_iff.2 hne
      omega
  refine ⟨logMse a b, key a b hl hne, ?_, rfl, ?_, ?_, ?_, ?_⟩
  · unfold curveVariantLogMse
    rw [mapM_cons, logMse_variant ha hb hl hne]
    rfl
  · exact div_nonneg (Finset.sum_nonneg fun i _ => sq_nonneg _) (by positivity)
  · rw [key b a hl.symm (by rintro rfl; simp at hl; exact hne (by simpa using hl))]
    congr 2
    unfold logMse
    rw [hl]
    congr 1
    exact Finset.sum_congr rfl fun i _ => by ring
  · intro c hc
    rw [key _ _ (by simpa using hl) (by simpa using hne)]
    congr 2
    unfold logMse
    rw [List.length_map]
    congr 1
    refine Finset.sum_congr rfl fun i hi => ?_
    have hi := Finset.mem_range.1 hi
    have e1 : ∀ (l : List ℝ), i < l.length → (l.map fun (x : ℝ) => c * x).getD i 0 = c * l.getD i 0 := by
      intro l h
      simp [List.getD, h]
    have p1 : ∀ (l : List ℝ), PositiveCurve l → i < l.length → l.getD i 0 ≠ 0 := by
      intro l hp h
      have : l.getD i 0 = l[i] := by simp [List.getD, h]
      rw [this]
      exact (hp _ (List.getElem_mem h)).ne'
    rw [e1 a hi, e1 b (hl ▸ hi), Real.logb_mul hc.ne' (p1 a ha hi), Real.logb_mul hc.ne' (p1 b hb (hl ▸ hi))]
    ring
  · unfold logMse
    rw [div_eq_zero_iff, or_iff_left (by positivity), Finset.sum_eq_zero_iff_of_nonneg fun i _ => sq_nonneg _]
    constructor
    · intro h
      refine List.ext_getElem hl fun i h1 h2 => ?_
      have := h i (Finset.mem_range.2 h1)
      have g1 : a.getD i 0 = a[i] := by simp [List.getD, h1]
      have g2 : b.getD i 0 = b[i] := by simp [List.getD, h2]
      rw [g1, g2, sq_eq_zero_iff, sub_eq_zero] at this
      exact Real.logb_injOn_pos (by norm_num) (ha _ (List.getElem_mem h1)) (hb _ (List.getElem_mem h2)) this
    · rintro rfl i _
      simp

/-- C65: different numbers of points are rejected; the error of empty curves is NaN. -/
theorem C65_lengths (a b : List ℝ) :
    (a.length ≠ b.length → meanSquaredError a b = .error .valueError) ∧ meanSquaredError [] [] = .ok .nan := by
  refine ⟨fun h => ?_, ?_⟩
  · unfold meanSquaredError
    rw [if_pos h]
  · unfold meanSquaredError
    rw [if_neg (by simp)]
    rfl

/-- The hypotheses of `C65_metric` hold for two different curves. -/
example : PositiveCurve [1, 0.5, 1e-6] ∧ PositiveCurve [1, 0.4, 1e-5] ∧ ([1, 0.5, 1e-6] : List ℝ) ≠ [] := by
  refine ⟨?_, ?_, by simp⟩ <;> intro v hv <;> simp only [List.mem_cons, List.not_mem_nil, or_false] at hv <;>
    rcases hv with rfl | rfl | rfl <;> norm_num

/-! ### The position of the smallest error -/

theorem better_irrefl (a : FVal) : a.better a = false := by cases a <;> simp [FVal.better]

theorem better_trans {v p b : FVal} (h1 : p.better b = true) (h2 : v.better b = false) : v.better p = false := by
  cases b <;> cases p <;> cases v <;> simp_all [FVal.better]
  linarith

theorem argmin_fold (l pre : List FVal) (best : FVal × Nat) (h1 : pre[best.2]? = some best.1)
    (h2 : ∀ v ∈ pre, v.better best.1 = false) :
    ∃ r : FVal × Nat, (l.zipIdx pre.length).foldl (fun (best p : FVal × Nat) => if p.1.better best.1 then p else best) best = r ∧
      (pre ++ l)[r.2]? = some r.1 ∧ ∀ v ∈ pre ++ l, v.better r.1 = false := by
  induction l generalizing pre best with
  | nil => exact ⟨best, rfl, by simpa using h1, by simpa using h2⟩
  | cons a l ih =>
    rw [List.zipIdx_cons, List.foldl_cons]
    have hlt : best.2 < pre.length := by
      by_contra h
      rw [List.getElem?_eq_none (by omega)] at h1
      simp at h1
    have e : pre ++ a :: l = (pre ++ [a]) ++ l := by simp
    rw [e]
    have el : pre.length + 1 = (pre ++ [a]).length := by simp
    by_cases hb : a.better best.1 = true
    · rw [if_pos hb, el]
      refine ih (pre ++ [a]) (a, pre.length) (by simp) fun v hv => ?_
      rcases List.mem_append.1 hv with hv | hv
      · exact better_trans hb (h2 v hv)
      · rw [List.mem_singleton.1 hv]; exact better_irrefl a
    · rw [if_neg hb, el]
      refine ih (pre ++ [a]) best (by rw [List.getElem?_append_left hlt, h1]) fun v hv => ?_
      rcases List.mem_append.1 hv with hv | hv
      · exact h2 v hv
      · rw [List.mem_singleton.1 hv]; simpa using hb

/-- The position found by `np.argmin`: nothing is better than the value there. -/
theorem fArgmin_spec {l : List FVal} {k : Nat} (h : fArgmin l = .ok k) :
    ∃ v, l[k]? = some v ∧ ∀ w ∈ l, w.better v = false := by
  cases l with
  | nil => simp [fArgmin] at h
  | cons a l =>
    obtain ⟨r, hr, h1, h2⟩ := argmin_fold l [a] (a, 0) rfl (by simp [better_irrefl])
    simp only [fArgmin, Except.ok.injEq] at h
    have : r.2 = k := by rw [← h, ← hr]; rfl
    exact ⟨r.1, by rw [← this]; exact h1, h2⟩

theorem fArgmin_ok {l : List FVal} (h : l ≠ []) : ∃ k, fArgmin l = .ok k := by
  cases l with
  | nil => exact absurd rfl h
  | cons a l => exact ⟨_, rfl⟩

/-- A NaN is always selected. -/
theorem fArgmin_nan {l : List FVal} {k : Nat} (h : fArgmin l = .ok k) (hn : FVal.nan ∈ l) : l[k]? = some .nan := by
  obtain ⟨v, h1, h2⟩ := fArgmin_spec h
  have := h2 _ hn
  cases v <;> simp_all [FVal.better]

/-- For numbers the smallest one is selected. -/
theorem fArgmin_num {l : List ℝ} {k : Nat} (h : fArgmin (l.map FVal.num) = .ok k) :
    ∃ v, l[k]? = some v ∧ ∀ w ∈ l, v ≤ w := by
  obtain ⟨v, h1, h2⟩ := fArgmin_spec h
  rw [List.getElem?_map, Option.map_eq_some_iff] at h1
  obtain ⟨x, hx, rfl⟩ := h1
  refine ⟨x, hx, fun w hw => ?_⟩
  have := h2 (.num w) (List.mem_map.2 ⟨w, hw, rfl⟩)
  simpa [FVal.better] using this

end Verif.Props
