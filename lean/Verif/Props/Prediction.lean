import Verif.Model.Prediction
import Verif.Lemmas.Except
import Mathlib.Tactic.Linarith
import Mathlib.Tactic.FieldSimp
import Mathlib.Tactic.Ring
import Mathlib.Algebra.BigOperators.Group.List.Basic
import Mathlib.Algebra.Order.BigOperators.Group.List
import Mathlib.Algebra.Order.BigOperators.Group.Finset

/-!
# C77
-/

namespace Verif.Props
open Verif.Py Verif.Model

/-- A table with the given columns and `n` rows. -/
def Shaped (names : List Str) (n : Nat) (f : Frame ℝ) : Prop :=
  f.map Prod.fst = names ∧ ∀ c ∈ f, c.2.length = n

/-- The value in row `k` of column `c`. -/
def tableValue (f : Frame ℝ) (c : Str) (k : Nat) : ℝ := (Frame.entry? f c k).getD 0

theorem entry_of_table {names : List Str} {n : Nat} {f : Frame ℝ} (h : Shaped names n f) {c : Str} (hc : c ∈ names)
    {k : Nat} (hk : k < n) : Frame.entry? f c k = some (tableValue f c k) := by
  unfold tableValue
  have : ∃ x, Frame.entry? f c k = some x := by
    unfold Frame.entry?
    rw [← h.1] at hc
    obtain ⟨p, hp, rfl⟩ := List.mem_map.1 hc
    cases hf : f.find? (fun (q : Str × List ℝ) => q.1 = p.1) with
    | none =>
      rw [List.find?_eq_none] at hf
      exact absurd (hf p hp) (by simp)
    | some q =>
      simp only
      have hq := h.2 q (List.mem_of_find?_eq_some hf)
      exact ⟨q.2[k], List.getElem?_eq_getElem (by omega)⟩
  obtain ⟨x, hx⟩ := this
  rw [hx, Option.getD_some]

theorem rows_of_table {names : List Str} {n : Nat} {f : Frame ℝ} (h : Shaped names n f) (hne : names ≠ []) : Frame.rows f = n := by
  cases f with
  | nil => exact absurd h.1.symm hne
  | cons p f => exact h.2 p (List.mem_cons_self ..)

theorem mean_num {n : Nat} (hn : 0 < n) (g : Nat → ℝ) :
    seriesMean ((List.range n).map fun k => FVal.num (g k)) = .num (((List.range n).map g).sum / n) := by
  unfold seriesMean
  have h1 : ((List.range n).map fun k => FVal.num (g k)).filter FVal.notNan = (List.range n).map fun k => FVal.num (g k) := by
    rw [List.filter_eq_self]
    intro v hv
    obtain ⟨k, -, rfl⟩ := List.mem_map.1 hv
    rfl
  simp only [h1]
  rw [if_neg (by
    rw [List.isEmpty_iff]
    intro h
    have := congrArg List.length h
    rw [List.length_map, List.length_range] at this
    exact absurd this (by simpa using hn.ne')), if_neg (by
    rw [List.any_eq_true]
    rintro ⟨v, hv, h⟩
    obtain ⟨k, -, rfl⟩ := List.mem_map.1 hv
    cases h), List.map_map, List.length_map, List.length_range]
  rfl

/-- The mean of `g` over the rows. -/
noncomputable def rowMean (n : Nat) (g : Nat → ℝ) : ℝ := ((List.range n).map g).sum / n

theorem rowMean_nonneg {n : Nat} {g : Nat → ℝ} (h : ∀ k < n, 0 ≤ g k) : 0 ≤ rowMean n g := by
  unfold rowMean
  refine div_nonneg (List.sum_nonneg ?_) (Nat.cast_nonneg _)
  intro x hx
  obtain ⟨k, hk, rfl⟩ := List.mem_map.1 hx
  exact h k (List.mem_range.1 hk)

theorem rowMean_eq_zero {n : Nat} (hn : 0 < n) {g : Nat → ℝ} (h : ∀ k < n, 0 ≤ g k) :
    rowMean n g = 0 ↔ ∀ k < n, g k = 0 := by
  have hn' : (n : ℝ) ≠ 0 := Nat.cast_ne_zero.2 (by omega)
  unfold rowMean
  rw [div_eq_zero_iff, or_iff_left hn']
  constructor
  · intro hs k hk
    rw [← List.sum_toFinset _ List.nodup_range, List.toFinset_range] at hs
    exact (Finset.sum_eq_zero_iff_of_nonneg fun j hj => h j (Finset.mem_range.1 hj)).1 hs k (Finset.mem_range.2 hk)
  · intro hz
    refine List.sum_eq_zero ?_
    intro x hx
    obtain ⟨j, hj, rfl⟩ := List.mem_map.1 hx
    exact hz j (List.mem_range.1 hj)

theorem rowMean_congr {n : Nat} {g h : Nat → ℝ} (he : ∀ k < n, g k = h k) : rowMean n g = rowMean n h := by
  unfold rowMean
  rw [List.map_congr_left fun k hk => he k (List.mem_range.1 hk)]

theorem mae_eq {names cols : List Str} {n : Nat} {pred test : ErrorArg} {P T : Frame ℝ} (hne : cols ≠ []) (hn : 0 < n)
    (hp : pred.toFrame names = .ok P) (ht : test.toFrame names = .ok T) (hP : Shaped cols n P) (hT : Shaped cols n T) :
    meanAbsoluteError names pred test = .ok (cols.map fun c =>
      (c, FVal.num (rowMean n fun k => |tableValue T c k - tableValue P c k|))) := by
  unfold meanAbsoluteError
  rw [ht, bind_ok, hp, bind_ok]
  show Except.ok _ = _
  congr 1
  unfold meanOver unionColumns Frame.columns
  rw [hT.1, hP.1, if_pos rfl, rows_of_table hT hne, rows_of_table hP hne, max_self]
  refine List.map_congr_left fun c hc => ?_
  congr 1
  unfold rowMean
  rw [← mean_num hn]
  congr 1
  refine List.map_congr_left fun k hk => ?_
  unfold absErrorAt
  rw [entry_of_table hT hc (List.mem_range.1 hk), entry_of_table hP hc (List.mem_range.1 hk)]

theorem mape_eq {names cols : List Str} {n : Nat} {pred test : ErrorArg} {P T : Frame ℝ} (hne : cols ≠ []) (hn : 0 < n)
    (hp : pred.toFrame names = .ok P) (ht : test.toFrame names = .ok T) (hP : Shaped cols n P) (hT : Shaped cols n T)
    (hz : ∀ c ∈ cols, ∀ k < n, tableValue T c k ≠ 0) :
    meanAbsolutePercentageError names pred test = .ok (cols.map fun c =>
      (c, FVal.num (rowMean n fun k => |tableValue T c k - tableValue P c k| / |tableValue T c k|))) := by
  unfold meanAbsolutePercentageError
  rw [ht, bind_ok, hp, bind_ok]
  show Except.ok _ = _
  congr 1
  unfold meanOver unionColumns Frame.columns
  rw [hT.1, hP.1, if_pos rfl, rows_of_table hT hne, rows_of_table hP hne, max_self]
  refine List.map_congr_left fun c hc => ?_
  congr 1
  unfold rowMean
  rw [← mean_num hn]
  congr 1
  refine List.map_congr_left fun k hk => ?_
  unfold absPercentageErrorAt
  rw [entry_of_table hT hc (List.mem_range.1 hk), entry_of_table hP hc (List.mem_range.1 hk)]
  simp only
  rw [if_neg (hz c hc k (List.mem_range.1 hk))]

/-- Two tables with the same distinct columns and the same number of rows are equal when all values are. -/
theorem table_ext {cols : List Str} {n : Nat} {P T : Frame ℝ} (hP : Shaped cols n P) (hT : Shaped cols n T)
    (hnd : cols.Nodup) (h : ∀ c ∈ cols, ∀ k < n, tableValue T c k = tableValue P c k) : T = P := by
  have hcol : ∀ {F : Frame ℝ} (_ : Shaped cols n F) (i : Nat) (hi : i < F.length) (k : Nat) (hk : k < n),
      tableValue F F[i].1 k = F[i].2.getD k 0 := by
    intro F hF i hi k hk
    have hnd' : (F.map Prod.fst).Nodup := hF.1 ▸ hnd
    have hfind : F.find? (fun (q : Str × List ℝ) => q.1 = F[i].1) = some F[i] := by
      clear hF
      induction F generalizing i with
      | nil => exact absurd hi (Nat.not_lt_zero _)
      | cons q F ih =>
        rw [List.map_cons, List.nodup_cons] at hnd'
        cases i with
        | zero => simp
        | succ i =>
          simp only [List.getElem_cons_succ]
          rw [List.find?_cons_of_neg]
          · exact ih i (by simpa using hi) hnd'.2
          · simp only [decide_eq_true_eq]
            intro he
            exact hnd'.1 (he ▸ List.mem_map_of_mem (List.getElem_mem _))
    unfold tableValue Frame.entry?
    rw [hfind]
    simp only
    rw [List.getD_eq_getElem?_getD]
  have hlen : T.length = P.length := by
    have h1 := congrArg List.length hT.1
    have h2 := congrArg List.length hP.1
    rw [List.length_map] at h1 h2
    omega
  refine List.ext_getElem hlen fun i h1 h2 => ?_
  have hname : T[i].1 = P[i].1 := by
    have := hT.1.trans hP.1.symm
    have h3 : (T.map Prod.fst)[i]'(by simpa using h1) = (P.map Prod.fst)[i]'(by simpa using h2) := by simp only [this]
    simpa using h3
  refine Prod.ext hname ?_
  have l1 := hT.2 _ (List.getElem_mem h1)
  have l2 := hP.2 _ (List.getElem_mem h2)
  refine List.ext_getElem (by omega) fun k k1 k2 => ?_
  have hk : k < n := by omega
  have hmem : T[i].1 ∈ cols := hT.1 ▸ List.mem_map_of_mem (List.getElem_mem h1)
  have e := h T[i].1 hmem k hk
  rw [hcol hT i h1 k hk, hname, hcol hP i h2 k hk] at e
  simpa [List.getD_eq_getElem?_getD, List.getElem?_eq_getElem k1, List.getElem?_eq_getElem k2] using e

/-- C77 for the mean absolute error, for two tables of the same shape with at least one row: one error
per column, not negative, the same when the tables are exchanged, and all zero exactly for equal
tables. -/
theorem C77_mae_partial (names cols : List Str) (n : Nat) (pred test : ErrorArg) (P T : Frame ℝ) (hne : cols ≠ [])
    (hnd : cols.Nodup) (hn : 0 < n) (hp : pred.toFrame names = .ok P) (ht : test.toFrame names = .ok T)
    (hP : Shaped cols n P) (hT : Shaped cols n T) :
    ∃ err : Str → ℝ, meanAbsoluteError names pred test = .ok (cols.map fun c => (c, FVal.num (err c))) ∧
      meanAbsoluteError names test pred = .ok (cols.map fun c => (c, FVal.num (err c))) ∧
      (∀ c, 0 ≤ err c) ∧ ((∀ c ∈ cols, err c = 0) ↔ P = T) ∧
      ∀ c, err c = (∑ k ∈ Finset.range n, |tableValue T c k - tableValue P c k|) / n := by
  refine ⟨fun c => rowMean n fun k => |tableValue T c k - tableValue P c k|, mae_eq hne hn hp ht hP hT, ?_, ?_, ?_, ?_⟩
  · rw [mae_eq hne hn ht hp hT hP]
    simp only [abs_sub_comm]
  · intro c
    exact rowMean_nonneg fun k _ => abs_nonneg _
  · constructor
    · intro h
      refine (table_ext hP hT hnd fun c hc k hk => ?_).symm
      have := (rowMean_eq_zero hn fun k _ => abs_nonneg _).1 (h c hc) k hk
      exact sub_eq_zero.1 (abs_eq_zero.1 this)
    · rintro rfl c _
      refine (rowMean_eq_zero hn fun k _ => abs_nonneg _).2 fun k _ => ?_
      rw [sub_self, abs_zero]
  · intro c
    unfold rowMean
    simp only
    rw [← List.sum_toFinset _ List.nodup_range, List.toFinset_range]

/-- The table with all values multiplied by `s`. -/
def scaleTable (s : ℝ) (f : Frame ℝ) : Frame ℝ := f.map fun p => (p.1, p.2.map fun x => s * x)

theorem scale_shaped {cols : List Str} {n : Nat} {f : Frame ℝ} (s : ℝ) (h : Shaped cols n f) : Shaped cols n (scaleTable s f) := by
  refine ⟨by unfold scaleTable; rw [List.map_map]; exact h.1, ?_⟩
  intro c hc
  obtain ⟨p, hp, rfl⟩ := List.mem_map.1 hc
  simpa using h.2 p hp

theorem scale_value (s : ℝ) (f : Frame ℝ) (c : Str) (k : Nat) : tableValue (scaleTable s f) c k = s * tableValue f c k := by
  unfold tableValue Frame.entry? scaleTable
  rw [List.find?_map]
  have : ((fun (p : Str × List ℝ) => decide (p.1 = c)) ∘ fun (p : Str × List ℝ) => (p.1, p.2.map fun x => s * x)) =
      fun (p : Str × List ℝ) => decide (p.1 = c) := rfl
  rw [this]
  cases hf : f.find? (fun (p : Str × List ℝ) => decide (p.1 = c)) with
  | none => simp
  | some p =>
    simp only [Option.map_some, List.getElem?_map]
    cases p.2[k]? <;> simp

/-- C77 for the mean absolute percentage error with non-zero reference labels: not negative, invariant
under a common scaling of both tables, and all zero exactly for equal tables. -/
theorem C77_mape_partial (names cols : List Str) (n : Nat) (pred test : ErrorArg) (P T : Frame ℝ) (hne : cols ≠ [])
    (hnd : cols.Nodup) (hn : 0 < n) (hp : pred.toFrame names = .ok P) (ht : test.toFrame names = .ok T)
    (hP : Shaped cols n P) (hT : Shaped cols n T) (hz : ∀ c ∈ cols, ∀ k < n, tableValue T c k ≠ 0) :
    ∃ err : Str → ℝ, meanAbsolutePercentageError names pred test = .ok (cols.map fun c => (c, FVal.num (err c))) ∧
      (∀ s : ℝ, s ≠ 0 → meanAbsolutePercentageError names (.frame (scaleTable s P)) (.frame (scaleTable s T)) =
        .ok (cols.map fun c => (c, FVal.num (err c)))) ∧
      (∀ c, 0 ≤ err c) ∧ ((∀ c ∈ cols, err c = 0) ↔ P = T) ∧
      ∀ c, err c = (∑ k ∈ Finset.range n, |tableValue T c k - tableValue P c k| / |tableValue T c k|) / n := by
  refine ⟨fun c => rowMean n fun k => |tableValue T c k - tableValue P c k| / |tableValue T c k|,
    mape_eq hne hn hp ht hP hT hz, ?_, ?_, ?_, ?_⟩
  · intro s hs
    rw [mape_eq (names := names) hne hn rfl rfl (scale_shaped s hP) (scale_shaped s hT) fun c hc k hk => by
      rw [scale_value]; exact mul_ne_zero hs (hz c hc k hk)]
    congr 1
    refine List.map_congr_left fun c hc => ?_
    congr 2
    refine rowMean_congr fun k hk => ?_
    rw [scale_value, scale_value, ← mul_sub, abs_mul, abs_mul, mul_div_mul_left _ _ (abs_ne_zero.2 hs)]
  · intro c
    exact rowMean_nonneg fun k _ => div_nonneg (abs_nonneg _) (abs_nonneg _)
  · constructor
    · intro h
      refine (table_ext hP hT hnd fun c hc k hk => ?_).symm
      have := (rowMean_eq_zero hn fun k _ => div_nonneg (abs_nonneg _) (abs_nonneg _)).1 (h c hc) k hk
      rcases div_eq_zero_iff.1 this with h | h
      · exact sub_eq_zero.1 (abs_eq_zero.1 h)
      · exact absurd (abs_eq_zero.1 h) (hz c hc k hk)
    · rintro rfl c _
      refine (rowMean_eq_zero hn fun k _ => div_nonneg (abs_nonneg _) (abs_nonneg _)).2 fun k _ => ?_
      rw [sub_self, abs_zero, zero_div]
  · intro c
    unfold rowMean
    simp only
    rw [← List.sum_toFinset _ List.nodup_range, List.toFinset_range]

/-- The claim fails for tables with different numbers of rows: rows without a partner are skipped, so
the error of two different tables is zero. -/
theorem C77_rows_skipped : ∃ P T : Frame ℝ, P ≠ T ∧ meanAbsoluteError [['a']] (.frame P) (.frame T) = .ok [(['a'], .num 0)] ∧
    meanAbsolutePercentageError [['a']] (.frame P) (.frame T) = .ok [(['a'], .num 0)] := by
  refine ⟨[(['a'], [1, 2])], [(['a'], [1])], ?_, ?_, ?_⟩
  · intro h
    simp at h
  · show Except.ok _ = _
    simp [meanOver, unionColumns, Frame.columns, Frame.rows, List.range_succ, absErrorAt, Frame.entry?, seriesMean, List.filter, FVal.notNan, FVal.isInf, FVal.toReal]
  · show Except.ok _ = _
    simp [meanOver, unionColumns, Frame.columns, Frame.rows, List.range_succ, absPercentageErrorAt, Frame.entry?, seriesMean, List.filter, FVal.notNan, FVal.isInf, FVal.toReal]

/-- The claim fails for zero reference labels: a wrong prediction in such a row makes the error
infinite, a right one is left out of the mean. -/
theorem C77_zero_reference : meanAbsolutePercentageError [['a']] (.array 1 [[1], [2]]) (.array 1 [[0], [2]]) = .ok [(['a'], .inf)] ∧
    meanAbsolutePercentageError [['a']] (.array 1 [[0], [1]]) (.array 1 [[0], [2]]) = .ok [(['a'], .num (1 / 2))] := by
  constructor
  · show Except.ok _ = _
    simp [meanOver, unionColumns, Frame.columns, Frame.rows, List.range_succ, absPercentageErrorAt, Frame.entry?, seriesMean, List.filter, FVal.notNan, FVal.isInf, FVal.toReal]
  · show Except.ok _ = _
    simp [meanOver, unionColumns, Frame.columns, Frame.rows, List.range_succ, absPercentageErrorAt, Frame.entry?, seriesMean, List.filter, FVal.notNan, FVal.isInf, FVal.toReal]
    norm_num

/-- The hypotheses of the two theorems are met by two arrays of labels. -/
example : ∃ P T : Frame ℝ, (ErrorArg.array 2 [[1, 2], [3, 4]]).toFrame [['a'], ['b']] = .ok P ∧
    (ErrorArg.array 2 [[1, 2], [3, 5]]).toFrame [['a'], ['b']] = .ok T ∧ Shaped [['a'], ['b']] 2 P ∧
    Shaped [['a'], ['b']] 2 T ∧ ∀ c ∈ [['a'], ['b']], ∀ k < 2, tableValue T c k ≠ 0 := by
  refine ⟨[(['a'], [1, 3]), (['b'], [2, 4])], [(['a'], [1, 3]), (['b'], [2, 5])], by simp [ErrorArg.toFrame],
    by simp [ErrorArg.toFrame], by simp [Shaped], by simp [Shaped], ?_⟩
  intro c hc k hk
  simp only [List.mem_cons, List.not_mem_nil, or_false] at hc
  rcases hc with rfl | rfl <;> rcases k with _ | _ | k <;> first | omega | simp [tableValue, Frame.entry?]

end Verif.Props
