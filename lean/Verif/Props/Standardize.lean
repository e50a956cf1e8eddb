import Verif.Spec.Standardize
import Verif.Lemmas.Except
import Mathlib.Tactic.FieldSimp
import Mathlib.Algebra.BigOperators.Field
import Mathlib.Algebra.Order.BigOperators.Group.Finset

/-!
# C19, C20, C21: input standardization
-/

namespace Verif.Props
open Verif.Py Verif.Model Verif.Spec

theorem sum_map_range {α : Type} (f : α → ℝ) (a0 : α) (l : List α) :
    (l.map f).sum = ∑ i ∈ Finset.range l.length, f (l.getD i a0) := by
  induction l with
  | nil => simp
  | cons a l ih => rw [List.length_cons, Finset.sum_range_succ']; simp [ih, add_comm]

theorem npMean_col (rows : List (List ℝ)) (j : Nat) :
    npMean (rows.map fun r => r.getD j 0) = colMean rows j := by
  unfold npMean colMean entry
  rw [sum_map_range _ ([] : List ℝ), List.length_map]

theorem npStd_col (rows : List (List ℝ)) (j : Nat) :
    npStd (rows.map fun r => r.getD j 0) = Real.sqrt (colVar rows j) := by
  unfold npStd
  rw [npMean_col]
  unfold npMean colVar entry
  rw [List.map_map, sum_map_range _ ([] : List ℝ), List.length_map]
  rfl

theorem bcastRows_eq {op : ℝ → ℝ → ℝ} {rows : List (List ℝ)} {v : List ℝ}
    (h : ∀ r ∈ rows, r.length = v.length) :
    bcastRows op rows v = .ok (rows.map fun r => List.zipWith op r v) := by
  unfold bcastRows
  refine mapM_eq_ok_map fun r hr => ?_
  unfold bcast
  rw [if_pos (h r hr)]

theorem getD_range_map {w j : Nat} (f : Nat → ℝ) (h : j < w) : ((List.range w).map f).getD j 0 = f j := by
  simp [List.getD, List.getElem?_map, List.getElem?_range h]

theorem getD_zipWith {op : ℝ → ℝ → ℝ} {r v : List ℝ} {j : Nat} (h1 : j < r.length) (h2 : j < v.length) :
    (List.zipWith op r v).getD j 0 = op (r.getD j 0) (v.getD j 0) := by
  simp [List.getD, h1, h2]

theorem entry_zipWith {op : ℝ → ℝ → ℝ} {rows : List (List ℝ)} {v : List ℝ} {i j : Nat}
    (h : ∀ r ∈ rows, r.length = v.length) (hi : i < rows.length) (hj : j < v.length) :
    entry (rows.map fun r => List.zipWith op r v) i j = op (entry rows i j) (v.getD j 0) := by
  unfold entry
  have hr : (rows.map fun r => List.zipWith op r v).getD i [] = List.zipWith op (rows.getD i []) v := by
    simp [List.getD, hi]
  rw [hr, getD_zipWith _ hj]
  have : rows.getD i [] ∈ rows := by simp [List.getD, hi]
  rw [h _ this]; exact hj

/-- The variance does not change when the columns are shifted. -/
theorem colVar_centered {rows rows' : List (List ℝ)} {j : Nat} {c : ℝ} (hl : rows'.length = rows.length)
    (hne : rows ≠ []) (he : ∀ i < rows.length, entry rows' i j = entry rows i j - c) :
    colMean rows' j = colMean rows j - c ∧ colVar rows' j = colVar rows j := by
  have hn : (rows.length : ℝ) ≠ 0 := by
    simpa using hne
  have hm : colMean rows' j = colMean rows j - c := by
    unfold colMean
    rw [hl, Finset.sum_congr rfl (fun i hi => he i (Finset.mem_range.1 hi)), Finset.sum_sub_distrib]
    simp only [Finset.sum_const, Finset.card_range, nsmul_eq_mul]
    field_simp
  refine ⟨hm, ?_⟩
  unfold colVar
  rw [hm, hl]
  congr 1
  refine Finset.sum_congr rfl fun i hi => ?_
  rw [he i (Finset.mem_range.1 hi)]
  ring

theorem colVar_nonneg (rows : List (List ℝ)) (j : Nat) : 0 ≤ colVar rows j :=
  div_nonneg (Finset.sum_nonneg fun _ _ => sq_nonneg _) (Nat.cast_nonneg _)

theorem colVar_eq_zero_iff {rows : List (List ℝ)} {j : Nat} (hne : rows ≠ []) :
    colVar rows j = 0 ↔
      ∀ i k, i < rows.length → k < rows.length → entry rows i j = entry rows k j := by
  have hpos : 0 < rows.length := List.length_pos_iff.2 hne
  have hn : (rows.length : ℝ) ≠ 0 := by positivity
  constructor
  · intro h i k hi hk
    unfold colVar at h
    rw [div_eq_zero_iff, or_iff_left hn, Finset.sum_eq_zero_iff_of_nonneg fun _ _ => sq_nonneg _] at h
    have h1 := h i (Finset.mem_range.2 hi)
    have h2 := h k (Finset.mem_range.2 hk)
    have h1 := pow_eq_zero_iff (two_ne_zero) |>.1 h1
    have h2 := pow_eq_zero_iff (two_ne_zero) |>.1 h2
    linarith
  · intro h
    have hm : colMean rows j = entry rows 0 j := by
      unfold colMean
      rw [Finset.sum_congr rfl fun i hi => h i 0 (Finset.mem_range.1 hi) hpos]
      simp only [Finset.sum_const, Finset.card_range, nsmul_eq_mul]
      field_simp
    unfold colVar
    rw [Finset.sum_eq_zero, zero_div]
    intro i hi
    rw [hm, h i 0 (Finset.mem_range.1 hi) hpos, sub_self]
    ring

/-- The stored values after fitting `d`. -/
noncomputable def fitted (d : Arr) : IPState :=
  ⟨some ((List.range d.width).map (colMean d.rows)),
   some ((List.range d.width).map fun j => Real.sqrt (colVar d.rows j))⟩

theorem standardize_fresh (d : Arr) :
    (¬ NonConstant d → IPState.init.standardize d = (.error .valueError, .init)) ∧
    (NonConstant d → IPState.init.standardize d =
      (.ok (d.rows.map fun r => List.zipWith (· / ·)
        (List.zipWith (· - ·) r ((List.range d.width).map (colMean d.rows)))
        ((List.range d.width).map fun j => Real.sqrt (colVar d.rows j))), fitted d)) := by
  have hw : ∀ r ∈ d.rows, r.length = ((List.range d.width).map (colMean d.rows)).length := by
    intro r hr; simp [d.wf r hr]
  have hcent : bcastRows (· - ·) d.rows ((List.range d.width).map (colMean d.rows)) = .ok _ :=
    bcastRows_eq hw
  have hsd : (List.range d.width).map (fun j => npStd ((d.rows.map fun r => List.zipWith (· - ·) r
      ((List.range d.width).map (colMean d.rows))).map fun r => r.getD j 0)) =
      (List.range d.width).map fun j => Real.sqrt (colVar d.rows j) := by
    refine List.map_congr_left fun j hj => ?_
    rw [npStd_col, (colVar_centered (by simp) d.ne (c := colMean d.rows j) ?_).2]
    intro i hi
    rw [entry_zipWith hw hi (by simpa using hj), getD_range_map _ (List.mem_range.1 hj)]
  have hm : (List.range d.width).map (fun j => npMean (d.col j)) = (List.range d.width).map (colMean d.rows) :=
    List.map_congr_left fun j _ => npMean_col _ _
  have hz : (0 : ℝ) ∈ (List.range d.width).map (fun j => Real.sqrt (colVar d.rows j)) ↔ ¬ NonConstant d := by
    unfold NonConstant
    simp only [List.mem_map, List.mem_range, not_forall, not_exists, not_and, not_not]
    constructor
    · rintro ⟨j, hj, h⟩
      rw [Real.sqrt_eq_zero (colVar_nonneg _ _), colVar_eq_zero_iff d.ne] at h
      exact ⟨j, hj, fun i k hi hk => by simpa using h i k hi hk⟩
    · rintro ⟨j, hj, h⟩
      refine ⟨j, hj, ?_⟩
      rw [Real.sqrt_eq_zero (colVar_nonneg _ _), colVar_eq_zero_iff d.ne]
      exact fun i k hi hk => by simpa using h i k hi hk
  have hstep : IPState.init.standardize d =
      if (0 : ℝ) ∈ (List.range d.width).map (fun j => Real.sqrt (colVar d.rows j)) then
        (.error .valueError, .init)
      else (bcastRows (· / ·) (d.rows.map fun r => List.zipWith (· - ·) r
        ((List.range d.width).map (colMean d.rows)))
        ((List.range d.width).map fun j => Real.sqrt (colVar d.rows j)), fitted d) := by
    unfold IPState.standardize
    simp only [IPState.hasSaved, IPState.init, and_self, if_true]
    rw [hm, hcent]
    simp only
    rw [hsd]
    rfl
  rw [hstep]
  constructor
  · intro h; rw [if_pos (hz.2 h)]
  · intro h
    rw [if_neg (fun h' => hz.1 h' h), bcastRows_eq]
    · rw [List.map_map]; rfl
    · intro r hr
      obtain ⟨r', hr', rfl⟩ := List.mem_map.1 hr
      simp [d.wf r' hr']

theorem standardize_fitted (d e : Arr) : ((fitted d).standardize e).2 = fitted d := by
  simp [IPState.standardize, IPState.hasSaved, fitted]

open Classical in
theorem sinceReset_snoc (h : List IPOp) (o : IPOp) :
    sinceReset (h ++ [o]) = if o = .reset then [] else sinceReset h ++ [o] := by
  classical
  unfold sinceReset
  rw [List.reverse_append]
  by_cases ho : o = .reset <;> simp [ho]

/-- The state after any history of calls is the one of the first fit since the last reset. -/
theorem run_eq (h : List IPOp) : IPState.run h =
    match firstFit (sinceReset h) with
    | none => .init
    | some d => fitted d := by
  classical
  induction h using List.reverseRecOn with
  | nil => rfl
  | append_singleton h o ih =>
    have hr : IPState.run (h ++ [o]) = (IPState.run h).step o := by
      unfold IPState.run; rw [List.foldl_append]; rfl
    rw [hr, ih, sinceReset_snoc]
    cases o with
    | reset => rw [if_pos rfl]; rfl
    | revert d =>
      rw [if_neg (by simp)]
      have : firstFit (sinceReset h ++ [.revert d]) = firstFit (sinceReset h) := by
        unfold firstFit; rw [List.findSome?_append]; simp
      rw [this]
      cases firstFit (sinceReset h) <;> rfl
    | standardize d =>
      rw [if_neg (by simp)]
      have : firstFit (sinceReset h ++ [.standardize d]) =
          (firstFit (sinceReset h)).or (if NonConstant d then some d else none) := by
        unfold firstFit; rw [List.findSome?_append]
        by_cases hd : NonConstant d <;> simp [hd]
      rw [this]
      cases firstFit (sinceReset h) with
      | some e => simp only [Option.or, IPState.step, standardize_fitted]
      | none =>
        simp only [Option.or, IPState.step]
        by_cases hd : NonConstant d
        · rw [(standardize_fresh d).2 hd]; simp [hd]
        · rw [(standardize_fresh d).1 hd]; simp [hd]

/-- C19: after any history of calls on a new preprocessor the stored mean and standard deviation are
the column means and column standard deviations of the first data since the last reset that could be
fitted; if there were none, nothing is stored. -/
theorem C19_first_fit_wins (h : List IPOp) :
    (IPState.run h).mean = (firstFit (sinceReset h)).map
      (fun d => (List.range d.width).map fun j => colMean d.rows j) ∧
    (IPState.run h).std = (firstFit (sinceReset h)).map
      (fun d => (List.range d.width).map fun j => Real.sqrt (colVar d.rows j)) := by
  rw [run_eq]
  cases firstFit (sinceReset h) <;> exact ⟨rfl, rfl⟩

/-- C19: mean and standard deviation are both present or both absent, so
`has_saved_standardization` never raises, and the stored deviations are positive. -/
theorem C19_consistent (h : List IPOp) :
    ((IPState.run h).mean = none ↔ (IPState.run h).std = none) ∧
    (∃ b, (IPState.run h).hasSaved = .ok b) ∧
    ∀ sd, (IPState.run h).std = some sd → ∀ x ∈ sd, 0 < x := by
  rw [run_eq]
  have key : ∀ l d, firstFit l = some d → NonConstant d := by
    classical
    intro l d hd
    unfold firstFit at hd
    obtain ⟨o, _, ho⟩ := List.exists_of_findSome?_eq_some hd
    cases o with
    | standardize e =>
      by_cases he : NonConstant e
      · simp only [he, if_true, Option.some.injEq] at ho; exact ho ▸ he
      · simp [he] at ho
    | revert e => simp at ho
    | reset => simp at ho
  cases hf : firstFit (sinceReset h) with
  | none =>
    exact ⟨Iff.rfl.trans (by simp [IPState.init]), ⟨false, by simp [IPState.init, IPState.hasSaved]⟩,
      by simp [IPState.init]⟩
  | some d =>
    refine ⟨by simp [fitted], ⟨true, by simp [fitted, IPState.hasSaved]⟩, ?_⟩
    intro sd hsd x hx
    simp only [fitted, Option.some.injEq] at hsd
    subst hsd
    obtain ⟨j, hj, rfl⟩ := List.mem_map.1 hx
    refine Real.sqrt_pos.2 (lt_of_le_of_ne (colVar_nonneg _ _) fun h0 => ?_)
    obtain ⟨i, k, hi, hk, hne⟩ := key _ _ hf j (List.mem_range.1 hj)
    exact hne ((colVar_eq_zero_iff d.ne).1 h0.symm i k hi hk)

/-- C19: a fit with a constant column raises `ValueError` and stores nothing. -/
theorem C19_rejected_fit (h : List IPOp) (d : Arr) (hf : firstFit (sinceReset h) = none)
    (hd : ¬ NonConstant d) :
    (IPState.run h).standardize d = (.error .valueError, IPState.run h) := by
  rw [run_eq, hf]
  exact (standardize_fresh d).1 hd

/-- C20: for every fitted preprocessor that a history of calls can produce and every data of
matching width, reverting undoes standardizing and vice versa; neither call changes the state. -/
theorem C20_invertible (h : List IPOp) (m sd : List ℝ) (hm : (IPState.run h).mean = some m)
    (hsd : (IPState.run h).std = some sd) (x : Arr) (hx : x.width = m.length) :
    (∃ y : Arr, (IPState.run h).standardize x = (.ok y.rows, IPState.run h) ∧ y.width = x.width ∧
      (IPState.run h).revert y = .ok x.rows) ∧
    (∃ y : Arr, (IPState.run h).revert x = .ok y.rows ∧ y.width = x.width ∧
      (IPState.run h).standardize y = (.ok x.rows, IPState.run h)) := by
  have hpos := (C19_consistent h).2.2 sd hsd
  have hlen : sd.length = m.length := by
    obtain ⟨h1, h2⟩ := C19_first_fit_wins h
    rw [hm] at h1; rw [hsd] at h2
    cases hf : firstFit (sinceReset h) with
    | none => rw [hf] at h1; cases h1
    | some d =>
      rw [hf] at h1 h2
      simp only [Option.map_some, Option.some.injEq] at h1 h2
      rw [h1, h2]; simp
  generalize IPState.run h = s at hm hsd
  have hs : s.hasSaved = .ok true := by simp [IPState.hasSaved, hm, hsd]
  have cancel : ∀ r : List ℝ, r.length = m.length →
      List.zipWith (· + ·) (List.zipWith (· * ·) (List.zipWith (· / ·) (List.zipWith (· - ·) r m) sd) sd) m = r ∧
      List.zipWith (· / ·) (List.zipWith (· - ·) (List.zipWith (· + ·) (List.zipWith (· * ·) r sd) m) m) sd = r := by
    intro r hr
    constructor <;>
    · refine List.ext_getElem (by simp [hr, hlen]) fun i h1 h2 => ?_
      have hi : i < sd.length := by omega
      have := (hpos _ (List.getElem_mem hi)).ne'
      simp only [List.getElem_zipWith]
      field_simp
      ring
  have hxm : ∀ r ∈ x.rows, r.length = m.length := fun r hr => by rw [x.wf r hr, hx]
  have std_eq : ∀ y : Arr, y.width = m.length → s.standardize y =
      (.ok (y.rows.map fun r => List.zipWith (· / ·) (List.zipWith (· - ·) r m) sd), s) := by
    intro y hy
    unfold IPState.standardize
    rw [hs]
    simp only [hm, hsd, Option.getD_some]
    rw [bcastRows_eq (fun r hr => by rw [y.wf r hr, hy])]
    simp only [Except.bind, bind]
    rw [bcastRows_eq, List.map_map]
    · rfl
    · intro r hr
      obtain ⟨r', hr', rfl⟩ := List.mem_map.1 hr
      simp [y.wf r' hr', hy, hlen]
  have rev_eq : ∀ y : Arr, y.width = m.length → s.revert y =
      .ok (y.rows.map fun r => List.zipWith (· + ·) (List.zipWith (· * ·) r sd) m) := by
    intro y hy
    unfold IPState.revert
    rw [hs]
    simp only [hm, hsd, Option.getD_some]
    rw [bcastRows_eq (fun r hr => by rw [y.wf r hr, hy, hlen])]
    simp only [Except.bind, bind]
    rw [bcastRows_eq, List.map_map]
    · rfl
    · intro r hr
      obtain ⟨r', hr', rfl⟩ := List.mem_map.1 hr
      simp [y.wf r' hr', hy, hlen]
  have back : ∀ f : List ℝ → List ℝ, (∀ r, r.length = m.length → f r = r) → x.rows.map f = x.rows := by
    intro f hf
    conv_rhs => rw [← List.map_id x.rows]
    exact List.map_congr_left fun r hr => hf r (hxm r hr)
  constructor
  · let y : Arr := ⟨x.width, x.rows.map fun r => List.zipWith (· / ·) (List.zipWith (· - ·) r m) sd, by
      intro r hr
      obtain ⟨r', hr', rfl⟩ := List.mem_map.1 hr
      simp [x.wf r' hr', hx, hlen], by simpa using x.ne⟩
    refine ⟨y, std_eq x hx, rfl, ?_⟩
    rw [rev_eq y hx]
    show Except.ok (List.map _ (List.map _ x.rows)) = _
    rw [List.map_map]; exact congrArg _ (back _ fun r hr => (cancel r hr).1)
  · let y : Arr := ⟨x.width, x.rows.map fun r => List.zipWith (· + ·) (List.zipWith (· * ·) r sd) m, by
      intro r hr
      obtain ⟨r', hr', rfl⟩ := List.mem_map.1 hr
      simp [x.wf r' hr', hx, hlen], by simpa using x.ne⟩
    refine ⟨y, rev_eq x hx, rfl, ?_⟩
    rw [std_eq y hx]
    show (Except.ok (List.map _ (List.map _ x.rows)), s) = _
    rw [List.map_map]; exact congrArg (fun a => (Except.ok a, s)) (back _ fun r hr => (cancel r hr).2)

/-- C21: the data returned by the fitting call have mean 0 and population variance 1 in every
column. -/
theorem C21_zero_mean_unit_variance (h : List IPOp) (hf : firstFit (sinceReset h) = none) (d : Arr)
    (out : List (List ℝ)) (ho : ((IPState.run h).standardize d).1 = .ok out) :
    out.length = d.rows.length ∧ (∀ r ∈ out, r.length = d.width) ∧
    ∀ j < d.width, colMean out j = 0 ∧ colVar out j = 1 := by
  rw [run_eq, hf] at ho
  simp only at ho
  by_cases hd : NonConstant d
  swap
  · rw [(standardize_fresh d).1 hd] at ho; cases ho
  rw [(standardize_fresh d).2 hd] at ho
  simp only [Except.ok.injEq] at ho
  subst ho
  refine ⟨by simp, ?_, ?_⟩
  · intro r hr
    obtain ⟨r', hr', rfl⟩ := List.mem_map.1 hr
    simp [d.wf r' hr']
  intro j hj
  have hw : ∀ r ∈ d.rows, r.length = ((List.range d.width).map (colMean d.rows)).length := by
    intro r hr; simp [d.wf r hr]
  have hv : colVar d.rows j ≠ 0 := by
    intro h0
    obtain ⟨i, k, hi, hk, hne⟩ := hd j hj
    exact hne ((colVar_eq_zero_iff d.ne).1 h0 i k hi hk)
  have hvp : 0 < colVar d.rows j := lt_of_le_of_ne (colVar_nonneg _ _) hv.symm
  set c := d.rows.map fun r => List.zipWith (· - ·) r ((List.range d.width).map (colMean d.rows)) with hc
  have hcl : c.length = d.rows.length := by simp [hc]
  have hce : ∀ i < d.rows.length, entry c i j = entry d.rows i j - colMean d.rows j := by
    intro i hi
    rw [hc, entry_zipWith hw hi (by simpa using hj), getD_range_map _ hj]
  obtain ⟨hm0, hv0⟩ := colVar_centered hcl d.ne hce
  rw [sub_self] at hm0
  have hout : (d.rows.map fun r => List.zipWith (· / ·)
        (List.zipWith (· - ·) r ((List.range d.width).map (colMean d.rows)))
        ((List.range d.width).map fun j => Real.sqrt (colVar d.rows j))) =
      c.map fun r => List.zipWith (· / ·) r ((List.range d.width).map fun j => Real.sqrt (colVar d.rows j)) := by
    rw [hc, List.map_map]; rfl
  rw [hout]
  set out := c.map fun r => List.zipWith (· / ·) r
    ((List.range d.width).map fun j => Real.sqrt (colVar d.rows j)) with hout'
  have hol : out.length = c.length := by simp [hout']
  have hoe : ∀ i < c.length, entry out i j = entry c i j / Real.sqrt (colVar d.rows j) := by
    intro i hi
    rw [hout', entry_zipWith _ hi (by simpa using hj), getD_range_map _ hj]
    intro r hr
    rw [hc] at hr
    obtain ⟨r', hr', rfl⟩ := List.mem_map.1 hr
    simp [d.wf r' hr']
  have hmo : colMean out j = 0 := by
    unfold colMean
    rw [hol, Finset.sum_congr rfl fun i hi => hoe i (Finset.mem_range.1 hi), ← Finset.sum_div,
      div_right_comm]
    unfold colMean at hm0
    rw [hm0, zero_div]
  refine ⟨hmo, ?_⟩
  have : colVar out j = colVar c j / colVar d.rows j := by
    unfold colVar
    rw [hol, hmo, hm0, Finset.sum_congr rfl fun i hi => by rw [hoe i (Finset.mem_range.1 hi)]]
    simp only [sub_zero, div_pow]
    rw [← Finset.sum_div, Real.sq_sqrt (colVar_nonneg _ _)]
    unfold colVar
    rw [div_right_comm]
  rw [this, hv0, div_self hv]

/-! ### A concrete history -/

/-- Two rows, the columns `(1, 3)` and `(0, 5)`. -/
def exData : Arr := ⟨2, [[1, 0], [3, 5]], by simp, by simp⟩

/-- Two rows, the second column is constant. -/
def exConst : Arr := ⟨2, [[1, 7], [3, 7]], by simp, by simp⟩

theorem exData_nonConstant : NonConstant exData := by
  intro j hj
  refine ⟨0, 1, by simp [exData], by simp [exData], ?_⟩
  have : j = 0 ∨ j = 1 := by simp [exData] at hj; omega
  rcases this with rfl | rfl <;> norm_num [entry, exData]

theorem exConst_constant : ¬ NonConstant exConst := by
  intro h
  obtain ⟨i, k, hi, hk, hne⟩ := h 1 (by simp [exConst])
  have hi' : i = 0 ∨ i = 1 := by simp [exConst] at hi; omega
  have hk' : k = 0 ∨ k = 1 := by simp [exConst] at hk; omega
  rcases hi' with rfl | rfl <;> rcases hk' with rfl | rfl <;> simp [entry, exConst] at hne

example : firstFit (sinceReset [.standardize exData, .reset, .standardize exConst, .standardize exData,
    .standardize exConst]) = some exData := by
  classical
  simp [sinceReset, firstFit, exConst_constant, exData_nonConstant]

example : (IPState.run [.standardize exConst, .standardize exData]).mean = some [2, 5 / 2] := by
  rw [(C19_first_fit_wins _).1]
  have : firstFit (sinceReset [.standardize exConst, .standardize exData]) = some exData := by
    classical
    simp [sinceReset, firstFit, exConst_constant, exData_nonConstant]
  rw [this]
  norm_num [exData, colMean, entry, List.range_succ, Finset.sum_range_succ]

example : firstFit (sinceReset [.standardize exConst]) = none := by
  classical
  simp [sinceReset, firstFit, exConst_constant]

end Verif.Props
