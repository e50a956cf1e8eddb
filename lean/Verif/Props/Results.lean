import Verif.Spec.Results
import Verif.Props.CurveError
import Verif.Props.Fio
import Verif.Props.Preprocessing
import Mathlib.Analysis.Complex.ExponentialBounds

/-!
# C65 (rounding), C66 and C67: fit results
-/

namespace Verif.Props
open Verif.Py Verif.Model Verif.Spec

/-! ### Rounding -/

theorem rint_dist (x : ℝ) : |(FitResult.rint x : ℝ) - x| ≤ 1 / 2 := by
  have h1 := Int.floor_le x
  have h2 := Int.lt_floor_add_one x
  unfold FitResult.rint
  split_ifs <;> push_cast <;> rw [abs_le] <;> constructor <;> linarith

theorem rint_eq_zero (x : ℝ) (hx : 0 ≤ x) : FitResult.rint x = 0 ↔ x ≤ 1 / 2 := by
  constructor
  · intro h
    have := rint_dist x
    rw [h] at this
    simp only [Int.cast_zero, zero_sub, abs_neg] at this
    exact (le_abs_self x).trans this
  · intro h
    have h0 : ⌊x⌋ = 0 := by rw [Int.floor_eq_zero_iff]; exact ⟨hx, by linarith⟩
    unfold FitResult.rint
    rw [h0]
    simp only [Int.cast_zero, sub_zero, zero_add]
    split_ifs with a b c
    · rfl
    · linarith
    · rfl
    · exact absurd (by decide) c

theorem rint_nonneg (x : ℝ) (hx : 0 ≤ x) : 0 ≤ FitResult.rint x := by
  have h0 : 0 ≤ ⌊x⌋ := Int.floor_nonneg.2 hx
  unfold FitResult.rint
  split_ifs <;> omega

/-- C65, the rounded error of a fit: `curve_mse` is the log MSE of prediction and data rounded to six decimals. It is not
negative, within `5e-7` of the log MSE, the same if the two curves are exchanged or scaled by the same factor, zero for equal
curves, and zero exactly if the log MSE is at most `5e-7`. Missing: zero only for equal curves (`C65_rounded_zero`). -/
theorem C65_rounded_partial (r r' : FitResult) (a b : List ℝ) (ha : PositiveCurve a) (hb : PositiveCurve b) (hl : a.length = b.length)
    (hne : a ≠ []) (h1 : r.predicted = a.map some) (h2 : r.corrected = b) :
    ∃ e : ℝ, r.curveMse = .ok (.num e) ∧ 0 ≤ e ∧ |e - logMse a b| ≤ 5e-7 ∧ (e = 0 ↔ logMse a b ≤ 5e-7) ∧ (a = b → e = 0) ∧
      (r'.predicted = b.map some → r'.corrected = a → r'.curveMse = .ok (.num e)) ∧
      (∀ c > 0, r'.predicted = a.map (fun (x : ℝ) => some (c * x)) → r'.corrected = b.map (fun (x : ℝ) => c * x) →
        r'.curveMse = .ok (.num e)) := by
  have key : ∀ (r : FitResult) (a b : List ℝ), PositiveCurve a → PositiveCurve b → a.length = b.length → a ≠ [] →
      r.predicted = a.map some → r.corrected = b → r.curveMse = .ok (.num (FitResult.round6 (logMse a b))) := by
    intro r a b ha hb hl hne h1 h2
    unfold FitResult.curveMse
    rw [h1, h2, if_neg (by simpa using hl)]
    have := logMse_variant ha hb hl hne
    unfold ew at this
    rw [if_pos (by simpa using hl)] at this
    simp only [bind_ok, pure, Except.pure, Except.ok.injEq] at this
    rw [this]
    rfl
  obtain ⟨e, m1, -, m3, m4, m5, m6, m7⟩ := C65_metric a b ha hb hl hne
  have hm : ∀ (a b : List ℝ), PositiveCurve a → PositiveCurve b → a.length = b.length → a ≠ [] →
      meanSquaredError (a.map (Real.logb 10)) (b.map (Real.logb 10)) = .ok (.num (logMse a b)) := by
    intro a b ha hb hl hne
    obtain ⟨e, m1, -, m3, -⟩ := C65_metric a b ha hb hl hne
    rw [m1, m3]; rfl
  have he : logMse a b = e := m3.symm
  have hbne : b ≠ [] := by rintro rfl; exact hne (List.length_eq_zero_iff.1 (by simpa using hl))
  have hsym : logMse b a = e := by
    have := hm b a hb ha hl.symm hbne
    rw [m5] at this
    simpa using this.symm
  have h6 : (0 : ℝ) < 10 ^ 6 := by norm_num
  have hx : 0 ≤ logMse a b * 10 ^ 6 := mul_nonneg (he ▸ m4) h6.le
  have hz : FitResult.round6 (logMse a b) = 0 ↔ logMse a b ≤ 5e-7 := by
    unfold FitResult.round6
    rw [div_eq_zero_iff, or_iff_left h6.ne', Int.cast_eq_zero, rint_eq_zero _ hx]
    constructor
    · intro h; nlinarith
    · intro h; nlinarith
  refine ⟨FitResult.round6 (logMse a b), key r a b ha hb hl hne h1 h2, ?_, ?_, hz, ?_, ?_, ?_⟩
  · exact div_nonneg (by exact_mod_cast rint_nonneg _ hx) h6.le
  · have := rint_dist (logMse a b * 10 ^ 6)
    unfold FitResult.round6
    rw [abs_le] at this ⊢
    have hd : (FitResult.rint (logMse a b * 10 ^ 6) : ℝ) / 10 ^ 6 - logMse a b =
        ((FitResult.rint (logMse a b * 10 ^ 6) : ℝ) - logMse a b * 10 ^ 6) / 10 ^ 6 := by field_simp
    rw [hd, le_div_iff₀ h6, div_le_iff₀ h6]
    constructor <;> nlinarith
  · intro hab
    rw [hz, he, m7.2 hab]
    norm_num
  · intro e1 e2
    rw [key r' b a hb ha hl.symm hbne e1 e2, hsym, he]
  · intro c hc e1 e2
    have hpc : ∀ l : List ℝ, PositiveCurve l → PositiveCurve (l.map fun (x : ℝ) => c * x) := by
      intro l hl v hv
      obtain ⟨x, hx, rfl⟩ := List.mem_map.1 hv
      exact mul_pos hc (hl x hx)
    rw [key r' (a.map fun (x : ℝ) => c * x) (b.map fun (x : ℝ) => c * x) (hpc a ha) (hpc b hb) (by simpa using hl) (by simpa using hne)
      (by rw [e1, List.map_map]; rfl) e2]
    have := hm (a.map fun (x : ℝ) => c * x) (b.map fun (x : ℝ) => c * x) (hpc a ha) (hpc b hb) (by simpa using hl) (by simpa using hne)
    rw [m6 c hc] at this
    simp only [Except.ok.injEq, FVal.num.injEq] at this
    rw [← this, he]

/-- C65: a fit whose curve has another length than the data has no error. -/
theorem C65_mismatch (r : FitResult) (h : r.predicted.length ≠ r.corrected.length) : r.curveMse = .error .valueError := by
  unfold FitResult.curveMse
  rw [if_pos h]

/-- C65 is false for the rounded error: it is zero for two different curves. -/
theorem C65_rounded_zero (r : FitResult) (h1 : r.predicted = [some 1]) (h2 : r.corrected = [1 + 1e-4]) :
    r.curveMse = .ok (.num 0) ∧ r.predicted ≠ r.corrected.map some := by
  have ha : PositiveCurve [1] := by intro v hv; simp only [List.mem_singleton] at hv; rw [hv]; norm_num
  have hb : PositiveCurve [1 + 1e-4] := by intro v hv; simp only [List.mem_singleton] at hv; rw [hv]; norm_num
  obtain ⟨e, k1, -, -, k4, -⟩ := C65_rounded_partial r r [1] [1 + 1e-4] ha hb rfl (by simp) h1 h2
  constructor
  · rw [k1, k4.2]
    have hlog : Real.logb 10 (1 + 1e-4) ≤ 1e-4 := by
      unfold Real.logb
      have h10 : 1 ≤ Real.log 10 := by
        rw [Real.le_log_iff_exp_le (by norm_num)]
        have := Real.exp_one_lt_three
        linarith
      have hl : Real.log (1 + 1e-4) ≤ 1e-4 := by
        have := Real.log_le_sub_one_of_pos (show (0 : ℝ) < 1 + 1e-4 by norm_num)
        linarith
      rw [div_le_iff₀ (by linarith)]
      nlinarith
    have h0 : 0 ≤ Real.logb 10 (1 + 1e-4) := Real.logb_nonneg (by norm_num) (by norm_num)
    have : logMse [1] [1 + 1e-4] = (Real.logb 10 (1 + 1e-4)) ^ 2 := by
      simp [logMse]
    rw [this]
    nlinarith
  · rw [h1, h2]
    simp only [List.map_cons, List.map_nil, ne_eq, List.cons.injEq, Option.some.injEq, and_true]
    norm_num

/-! ### Paths -/

theorem pyStrInt_spec (n : Int) : (∀ c ∈ pyStrInt n, c ≠ '/') ∧ parseInt (pyStrInt n) = some n := by
  obtain ⟨h1, h2, h3⟩ := natStr_spec n.toNat
  obtain ⟨g1, g2, g3⟩ := natStr_spec (-n).toNat
  have hm : isSpace '-' = false ∧ '-' ≠ '/' := by decide
  unfold pyStrInt
  split
  · refine ⟨fun c hc => (digit_facts (h2 c hc)).2.2.2.2.2, ?_⟩
    unfold parseInt
    rw [stripBy_id fun c hc => (digit_facts (h2 c hc)).2.1]
    generalize natStr n.toNat = s at *
    cases s with
    | nil => exact absurd rfl h1
    | cons c s =>
      have hf := digit_facts (h2 c (List.mem_cons_self ..))
      split
      · rename_i heq; cases heq; exact absurd rfl hf.2.2.2.1
      · rename_i heq; cases heq; exact absurd rfl hf.2.2.2.2.1
      · unfold parseNat
        rw [h3 false, Option.map_some]
        congr 1
        omega
  · have hall : ∀ c ∈ '-' :: natStr (-n).toNat, isSpace c = false ∧ c ≠ '/' := by
      intro c hc
      rcases List.mem_cons.1 hc with rfl | hc
      · exact hm
      · exact ⟨(digit_facts (g2 c hc)).2.1, (digit_facts (g2 c hc)).2.2.2.2.2⟩
    refine ⟨fun c hc => (hall c hc).2, ?_⟩
    unfold parseInt
    rw [stripBy_id fun c hc => (hall c hc).1]
    simp only [parseNat, g3 false, Option.map_some]
    congr 1
    omega

theorem pyStrInt_injective {n m : Int} (h : pyStrInt n = pyStrInt m) : n = m := by
  have := (pyStrInt_spec n).2
  rw [h, (pyStrInt_spec m).2] at this
  simpa using this.symm

theorem basename_noslash (p : Str) : '/' ∉ basename p := by
  unfold basename
  rw [List.mem_reverse]
  intro h
  have := List.mem_takeWhile_imp h
  simp at this

theorem all_slash {d : Str} : (d.all fun (c : Char) => c == '/') = true ↔ ∀ c ∈ d, c = '/' := by
  simp [List.all_eq_true]

theorem rstrip_last {d : Str} (h : ¬ ∀ c ∈ d, c = '/') :
    ∃ e c, rstripBy (fun (c : Char) => c == '/') d = e ++ [c] ∧ c ≠ '/' := by
  unfold rstripBy
  have hne : d.reverse.dropWhile (fun (c : Char) => c == '/') ≠ [] := by
    intro h0
    rw [List.dropWhile_eq_nil_iff] at h0
    exact h fun c hc => by simpa using h0 c (List.mem_reverse.2 hc)
  obtain ⟨c, l, hl⟩ := List.exists_cons_of_ne_nil hne
  refine ⟨l.reverse, c, by rw [hl]; simp, ?_⟩
  have := List.head_dropWhile_not (fun (c : Char) => c == '/') hne
  simp only [hl, List.head_cons] at this
  simpa using this

theorem dirname_isDir (p : Str) : IsDir (dirname p) := by
  unfold dirname
  simp only
  split
  · rename_i h
    exact Or.inl (all_slash.1 h)
  · rename_i h
    exact Or.inr (rstrip_last fun h' => h (all_slash.2 h'))

theorem pathJoin_inDir {d name : Str} (hd : IsDir d) (hn : '/' ∉ name) : InDir d name (pathJoin d name) := by
  have hj : pathJoin d name = if d.isEmpty || d.getLast? == some '/' then d ++ name else d ++ '/' :: name := by
    unfold pathJoin
    split
    · exact absurd (List.mem_cons_self ..) hn
    · rfl
  rw [hj]
  refine ⟨hn, ?_⟩
  rcases hd with hd | ⟨e, c, rfl, hc⟩
  · by_cases hde : d = []
    · subst hde
      exact Or.inl ⟨rfl, rfl⟩
    · refine Or.inr (Or.inl ⟨hde, hd, ?_⟩)
      have hl : d.getLast? = some '/' := by
        rw [List.getLast?_eq_some_getLast hde]
        congr 1
        exact hd _ (List.getLast_mem _)
      rw [hl, if_pos (by simp)]
  · refine Or.inr (Or.inr ⟨⟨e, c, rfl, hc⟩, ?_⟩)
    rw [if_neg]
    simp [hc]

/-- Files in a directory have that directory name. -/
theorem dirname_of_inDir {d name p : Str} (h : InDir d name p) : dirname p = d := by
  obtain ⟨hn, h⟩ := h
  have key : ∀ l : Str, (∀ c, l.getLast? = some c → c = '/') →
      ((l ++ name).reverse.dropWhile fun (c : Char) => c != '/').reverse = l := by
    intro l hl
    rw [List.reverse_append, List.dropWhile_append_of_pos]
    · cases hr : l.reverse with
      | nil => simpa using hr.symm
      | cons c r =>
        have hlr : l = r.reverse ++ [c] := by
          have := congrArg List.reverse hr
          simpa using this
        have : c = '/' := hl c (by rw [hlr]; simp)
        rw [List.dropWhile_cons, if_neg (by simp [this]), hlr]
        simp
    · intro c hc
      have : c ≠ '/' := by rintro rfl; exact hn (List.mem_reverse.1 hc)
      simpa using this
  unfold dirname
  simp only
  rcases h with ⟨rfl, rfl⟩ | ⟨h1, h2, rfl⟩ | ⟨⟨e, c, rfl, hc⟩, rfl⟩
  · have := key [] (by simp)
    rw [List.nil_append] at this
    rw [this]
    rfl
  · rw [key d (fun c hc => h2 c (List.mem_of_getLast? hc))]
    rw [if_pos (all_slash.2 h2)]
  · have := key (e ++ [c] ++ ['/']) (by simp)
    simp only [List.append_assoc, List.cons_append, List.nil_append] at this ⊢
    rw [this, if_neg]
    · unfold rstripBy
      simp [hc]
    · rw [all_slash]
      intro hh
      exact hc (hh c (by simp))

/-- C66, file names: the file of a scan is in the directory of the chosen path and is named `scan<number>_<name>`; files of
different scans have different names. -/
theorem C66_paths (path : Str) (n m : Int) :
    InDir (dirname path) ("scan".toList ++ pyStrInt n ++ '_' :: basename path) (Series.savePath path n) ∧
    dirname (Series.savePath path n) = dirname path ∧
    (Series.savePath path n = Series.savePath path m → n = m) := by
  have hin : ∀ n, InDir (dirname path) ("scan".toList ++ pyStrInt n ++ '_' :: basename path) (Series.savePath path n) := by
    intro n
    refine pathJoin_inDir (dirname_isDir path) ?_
    intro h
    rcases List.mem_append.1 h with h | h
    · rcases List.mem_append.1 h with h | h
      · exact absurd h (by decide)
      · exact (pyStrInt_spec n).1 _ h rfl
    · rcases List.mem_cons.1 h with h | h
      · exact absurd h (by decide)
      · exact basename_noslash path h
  refine ⟨hin n, dirname_of_inDir (hin n), fun h => ?_⟩
  obtain ⟨-, h1⟩ := hin n
  obtain ⟨-, h2⟩ := hin m
  rw [h] at h1
  have cancel : ("scan".toList ++ pyStrInt n ++ '_' :: basename path) = ("scan".toList ++ pyStrInt m ++ '_' :: basename path) → n = m := by
    intro h
    have := List.append_cancel_right h
    exact pyStrInt_injective (List.append_cancel_left this)
  rcases h1 with ⟨a1, a2⟩ | ⟨a1, a2, a3⟩ | ⟨⟨e, c, a1, a2⟩, a3⟩
  · rcases h2 with ⟨b1, b2⟩ | ⟨b1, b2, b3⟩ | ⟨⟨e', c', b1, b2⟩, b3⟩
    · exact cancel (a2.symm.trans b2)
    · exact absurd a1 b1
    · rw [a1] at b1; simp at b1
  · rcases h2 with ⟨b1, b2⟩ | ⟨b1, b2, b3⟩ | ⟨⟨e', c', b1, b2⟩, b3⟩
    · exact absurd b1 a1
    · exact cancel (List.append_cancel_left (a3.symm.trans b3))
    · exact absurd (a2 c' (by rw [b1]; simp)) b2
  · rcases h2 with ⟨b1, b2⟩ | ⟨b1, b2, b3⟩ | ⟨⟨e', c', b1, b2⟩, b3⟩
    · rw [b1] at a1; simp at a1
    · exact absurd (b2 c (by rw [a1]; simp)) a2
    · have := List.append_cancel_left (a3.symm.trans b3)
      exact cancel (List.cons.inj this).2

/-! ### The series -/

/-- C66, collection: a series of at least one result with matching parameter columns exists and lists every attribute in the
order of the results. -/
theorem C66_ordered (l : List FitResult) (s : Series) (h : Series.init l = .ok s) :
    l ≠ [] ∧ s.results = l ∧ s.numbers.length = l.length ∧
    ∀ (i : Nat) (r : FitResult), l[i]? = some r → s.numbers[i]? = some r.number ∧ s.timestamps[i]? = some r.timestamp ∧
      s.corrected[i]? = some r.corrected ∧ s.qInput[i]? = some r.qInput ∧ s.predicted[i]? = some r.predicted ∧
      s.qPrediction[i]? = some r.qPrediction ∧ s.bestShift[i]? = some r.bestShift := by
  unfold Series.init at h
  obtain ⟨t, h1, h⟩ := bind_eq_ok.1 h
  obtain ⟨f, h2, h⟩ := bind_eq_ok.1 h
  simp only [pure, Except.pure, Except.ok.injEq] at h
  subst h
  refine ⟨?_, rfl, by simp, fun i r hr => by simp [hr]⟩
  rintro rfl
  cases h1

theorem append_spec (a b : Table) (h : b.cols.columns = a.cols.columns) :
    (a.append b).cols.columns = a.cols.columns ∧
    ∀ (j : Nat), ((a.append b).cols[j]?.map Prod.snd).getD [] = (a.cols[j]?.map Prod.snd).getD [] ++ (b.cols[j]?.map Prod.snd).getD [] := by
  obtain ⟨n, a⟩ := a
  obtain ⟨m, b⟩ := b
  simp only [Table.append, Frame.columns] at h ⊢
  induction a generalizing b with
  | nil => cases b with
    | nil => simp
    | cons x b => simp at h
  | cons y a ih => cases b with
    | nil => simp at h
    | cons x b =>
      simp only [List.map_cons, List.cons.injEq] at h
      obtain ⟨i1, i2⟩ := ih b h.2
      refine ⟨by simp [i1], fun j => ?_⟩
      cases j with
      | zero => simp
      | succ j => simpa using i2 j

theorem foldl_append_spec (ts : List Table) (t : Table) (h : ∀ u ∈ ts, u.cols.columns = t.cols.columns) :
    (ts.foldl Table.append t).rows = ((t :: ts).map Table.rows).sum ∧
    (ts.foldl Table.append t).cols.columns = t.cols.columns ∧
    ∀ (j : Nat), ((ts.foldl Table.append t).cols[j]?.map Prod.snd).getD [] =
      (t :: ts).flatMap fun (u : Table) => (u.cols[j]?.map Prod.snd).getD [] := by
  induction ts generalizing t with
  | nil => simp
  | cons u ts ih =>
    obtain ⟨a1, a2⟩ := append_spec t u (h u (List.mem_cons_self ..))
    obtain ⟨i1, i2, i3⟩ := ih (t.append u) fun v hv => (h v (List.mem_cons_of_mem _ hv)).trans a1.symm
    rw [List.foldl_cons]
    refine ⟨?_, i2.trans a1, fun j => ?_⟩
    · rw [i1]
      simp [Table.append, add_assoc]
    · rw [i3, List.flatMap_cons, a2]
      simp

/-- C66, the parameters: a series of at least one result with the same parameter columns in every result exists, and its table
has these columns, one row per row of the results, and in each column the values of the results in their order. -/
theorem C66_params (r : FitResult) (l : List FitResult) (h : ∀ u ∈ l, u.params.cols.columns = r.params.cols.columns) :
    ∃ s, Series.init (r :: l) = .ok s ∧ s.params.rows = ((r :: l).map fun (u : FitResult) => u.params.rows).sum ∧
      s.params.cols.columns = r.params.cols.columns ∧ s.sample = r.sample ∧
      ∀ (j : Nat), (s.params.cols[j]?.map Prod.snd).getD [] =
        (r :: l).flatMap fun (u : FitResult) => (u.params.cols[j]?.map Prod.snd).getD [] := by
  obtain ⟨k1, k2, k3⟩ := foldl_append_spec (l.map FitResult.params) r.params (by simpa using h)
  have hc : Table.concat ((r :: l).map FitResult.params) = .ok ((l.map FitResult.params).foldl Table.append r.params) := by
    unfold Table.concat
    rw [List.map_cons]
    simp only
    rw [if_pos (by simpa using h)]
  have h0 : getItem (r :: l) 0 = .ok r := rfl
  unfold Series.init
  rw [hc, bind_ok, h0, bind_ok]
  refine ⟨_, rfl, ?_, k2, rfl, fun j => ?_⟩
  · simp only
    rw [k1]
    simp [Function.comp_def]
  · simp only
    rw [k3 j]
    simp [List.flatMap_map]

/-- C66: a series without results cannot be made. -/
theorem C66_empty : Series.init [] = .error .valueError := rfl

/-- C66 is false for `curve_mse`: it is not available for any series. -/
theorem C66_no_curve_mse (l : List FitResult) (s : Series) (h : Series.init l = .ok s) : s.curveMse = .error .attributeError := by
  obtain ⟨h1, h2, -⟩ := C66_ordered l s h
  unfold Series.curveMse
  rw [h2]
  obtain ⟨r, l, rfl⟩ := List.exists_cons_of_ne_nil h1
  rw [mapM_cons, if_neg (by decide)]
  rfl

theorem save_fold {α : Type} (path : Str) (vals : FitResult → List α) (l : List FitResult) (hn : (l.map FitResult.number).Nodup)
    (files fs : Str → Option (List (ℝ × α)))
    (h : l.foldlM (fun fs (r : FitResult) => do
      let rows ← FitResult.rows r.qInput (vals r)
      return Function.update fs (Series.savePath path r.number) (some rows)) files = (.ok fs : Res _)) :
    (∀ r ∈ l, ∃ rows, FitResult.rows r.qInput (vals r) = .ok rows ∧ fs (Series.savePath path r.number) = some rows) ∧
    ∀ p, (∀ r ∈ l, p ≠ Series.savePath path r.number) → fs p = files p := by
  induction l generalizing files with
  | nil =>
    simp only [List.foldlM_nil, pure, Except.pure, Except.ok.injEq] at h
    subst h
    exact ⟨by simp, fun _ _ => rfl⟩
  | cons r l ih =>
    rw [List.foldlM_cons] at h
    obtain ⟨fs1, h1, h2⟩ := bind_eq_ok.1 h
    obtain ⟨rows, h3, h4⟩ := bind_eq_ok.1 h1
    simp only [pure, Except.pure, Except.ok.injEq] at h4
    obtain ⟨i1, i2⟩ := ih (List.nodup_cons.1 (by simpa using hn)).2 fs1 h2
    have hr : ∀ r' ∈ l, Series.savePath path r.number ≠ Series.savePath path r'.number := by
      intro r' hr' he
      have := (C66_paths path r.number r'.number).2.2 he
      rw [List.map_cons, List.nodup_cons] at hn
      exact hn.1 (this ▸ List.mem_map.2 ⟨r', hr', rfl⟩)
    refine ⟨fun r' hr' => ?_, fun p hp => ?_⟩
    · rcases List.mem_cons.1 hr' with rfl | hr'
      · refine ⟨rows, h3, ?_⟩
        rw [i2 _ hr, ← h4, Function.update_self]
      · exact i1 r' hr'
    · rw [i2 p fun r' hr' => hp r' (List.mem_cons_of_mem _ hr'), ← h4, Function.update_of_ne]
      exact hp r (List.mem_cons_self ..)

/-- C66, saving: for distinct scan numbers, afterwards every scan has its own file with its q values and intensities, and no
other file is changed. -/
theorem C66_saved (path : Str) (s : Series) (hn : (s.results.map FitResult.number).Nodup) :
    (∀ files fs, s.savePredicted path files = .ok fs →
      (∀ r ∈ s.results, ∃ rows, FitResult.rows r.qInput r.predicted = .ok rows ∧ fs (Series.savePath path r.number) = some rows) ∧
      ∀ p, (∀ r ∈ s.results, p ≠ Series.savePath path r.number) → fs p = files p) ∧
    (∀ files fs, s.saveCorrected path files = .ok fs →
      (∀ r ∈ s.results, ∃ rows, FitResult.rows r.qInput r.corrected = .ok rows ∧ fs (Series.savePath path r.number) = some rows) ∧
      ∀ p, (∀ r ∈ s.results, p ≠ Series.savePath path r.number) → fs p = files p) :=
  ⟨fun files fs h => save_fold path FitResult.predicted s.results hn files fs h,
   fun files fs h => save_fold path FitResult.corrected s.results hn files fs h⟩

/-- C66, saving succeeds if every result has as many intensities as q values, and the rows are the pairs. -/
theorem C66_rows {α : Type} (q : List ℝ) (v : List α) (h : v.length = q.length) : FitResult.rows q v = .ok (q.zip v) := by
  unfold FitResult.rows
  split
  · match q, h with
    | [x], _ => rfl
  · rw [if_pos h]

/-- C66, the saved files of a series whose results have as many intensities as q values: every scan has its own file with the
pairs of q value and intensity. -/
theorem C66_files (path : Str) (s : Series) (files : Str → Option (List (ℝ × ℝ))) (hn : (s.results.map FitResult.number).Nodup)
    (hl : ∀ r ∈ s.results, r.corrected.length = r.qInput.length) :
    ∃ fs, s.saveCorrected path files = .ok fs ∧
      ∀ r ∈ s.results, fs (Series.savePath path r.number) = some (r.qInput.zip r.corrected) := by
  have ex : ∀ (l : List FitResult) (files : Str → Option (List (ℝ × ℝ))), (∀ r ∈ l, r.corrected.length = r.qInput.length) →
      ∃ fs, l.foldlM (fun fs (r : FitResult) => do
        let rows ← FitResult.rows r.qInput r.corrected
        return Function.update fs (Series.savePath path r.number) (some rows)) files = (.ok fs : Res _) := by
    intro l
    induction l with
    | nil => exact fun files _ => ⟨files, rfl⟩
    | cons r l ih =>
      intro files h
      rw [List.foldlM_cons, C66_rows _ _ (h r (List.mem_cons_self ..))]
      exact ih _ fun u hu => h u (List.mem_cons_of_mem _ hu)
  obtain ⟨fs, hfs⟩ := ex s.results files hl
  refine ⟨fs, hfs, fun r hr => ?_⟩
  obtain ⟨rows, h1, h2⟩ := ((C66_saved path s hn).2 files fs hfs).1 r hr
  rw [C66_rows _ _ (hl r hr)] at h1
  cases h1
  exact h2

/-! ### Times -/

/-- C67, a missing timestamp: the time axis is `None` exactly if a timestamp is missing. -/
theorem C67_none_iff (parse : Str → Res ℝ) (s : Series) : s.deltaT parse = .ok none ↔ none ∈ s.timestamps := by
  have hm : ∀ l : List (Option Str), l.mapM (fun (t : Option Str) => t) = none ↔ none ∈ l := by
    intro l
    induction l with
    | nil => simp
    | cons t l ih =>
      cases t with
      | none => simp
      | some t =>
        rw [List.mapM_cons]
        cases hl : l.mapM (fun (t : Option Str) => t) with
        | none => simp [ih.1 hl]
        | some ts =>
          have : none ∉ l := fun h => by rw [ih.2 h] at hl; cases hl
          simp [this]
  unfold Series.deltaT
  cases ht : s.timestamps.mapM (fun (t : Option Str) => t) with
  | none => simp [(hm _).1 ht]
  | some ts =>
    have h1 : none ∉ s.timestamps := fun h => by rw [(hm _).2 h] at ht; cases ht
    simp only [h1, iff_false]
    intro h
    obtain ⟨x, -, h⟩ := bind_eq_ok.1 h
    simp [pure, Except.pure] at h

/-- C67, values: if all timestamps are present and can be read, entry `k` is the difference to the first time in minutes, the first
entry is zero, and the entries are non-decreasing exactly for non-decreasing times. -/
theorem C67_values (parse : Str → Res ℝ) (s : Series) (ts : List Str) (times : List ℝ) (h1 : s.timestamps = ts.map some)
    (h2 : List.Forall₂ (fun t x => parse t = .ok x) ts times) :
    ∃ d, s.deltaT parse = .ok (some d) ∧ d.length = s.timestamps.length ∧
      (∀ (k : Nat) (x x0 : ℝ), times[k]? = some x → times[0]? = some x0 → d[k]? = some ((x - x0) / 60)) ∧
      (∀ y, d[0]? = some y → y = 0) ∧ (d.Pairwise (· ≤ ·) ↔ times.Pairwise (· ≤ ·)) := by
  have hm : ∀ l : List Str, (l.map some).mapM (fun (t : Option Str) => t) = some l := by
    intro l
    induction l with
    | nil => rfl
    | cons t l ih => rw [List.map_cons, List.mapM_cons, ih]; rfl
  refine ⟨times.map fun (t : ℝ) => (t - times.headD 0) / 60, ?_, ?_, ?_, ?_, ?_⟩
  · unfold Series.deltaT
    rw [h1, hm]
    simp only
    rw [mapM_ok_iff.2 h2]
    rfl
  · rw [h1]; simp [h2.length_eq]
  · intro k x x0 hx h0
    cases times with
    | nil => simp at hx
    | cons a l =>
      simp only [List.getElem?_cons_zero, Option.some.injEq] at h0
      subst h0
      rw [List.getElem?_map, hx]
      rfl
  · intro y hy
    cases times with
    | nil => simp at hy
    | cons a l => simpa using hy.symm
  · rw [List.pairwise_map]
    have : ∀ a b : ℝ, (a - times.headD 0) / 60 ≤ (b - times.headD 0) / 60 ↔ a ≤ b := by
      intro a b
      rw [div_le_div_iff_of_pos_right (by norm_num), sub_le_sub_iff_right]
    simp only [this]

/-- C67: a timestamp that cannot be read raises. -/
theorem C67_unreadable (parse : Str → Res ℝ) (s : Series) (ts : List Str) (e : PyErr) (t : Str) (pre post : List Str)
    (h1 : s.timestamps = ts.map some) (h2 : ts = pre ++ t :: post) (h3 : ∀ u ∈ pre, ∃ x, parse u = .ok x) (h4 : parse t = .error e) :
    s.deltaT parse = .error e := by
  have hm : ∀ l : List Str, (l.map some).mapM (fun (t : Option Str) => t) = some l := by
    intro l
    induction l with
    | nil => rfl
    | cons t l ih => rw [List.map_cons, List.mapM_cons, ih]; rfl
  have hp : ∀ pre : List Str, (∀ u ∈ pre, ∃ x, parse u = .ok x) → (pre ++ t :: post).mapM parse = .error e := by
    intro pre hpre
    induction pre with
    | nil => rw [List.nil_append, mapM_cons, h4]; rfl
    | cons u pre ih =>
      obtain ⟨x, hx⟩ := hpre u (List.mem_cons_self ..)
      rw [List.cons_append, mapM_cons, hx, bind_ok, ih fun v hv => hpre v (List.mem_cons_of_mem _ hv)]
      rfl
  unfold Series.deltaT
  rw [h1, hm]
  simp only
  rw [h2, hp pre h3]
  rfl

/-! ### Examples -/

/-- A result of one scan. -/
noncomputable def exampleResult (n : Int) (t : Option Str) (x : ℝ) : FitResult :=
  ⟨n, t, [1, x], [0.01, 0.02], [some 1, some x], [0.01, 0.02], ⟨1, [("Film_thickness".toList, [some x])]⟩, some 0, prepSample 1 2⟩

/-- Two scans are collected in their order with their parameters, and their files have different names. -/
example : ∃ s, Series.init [exampleResult 7 none 0.5, exampleResult (-3) none 0.25] = .ok s ∧ s.numbers = [7, -3] ∧
    s.params.cols = [("Film_thickness".toList, [some 0.5, some 0.25])] := by
  refine ⟨_, rfl, rfl, rfl⟩

example (n : Int) : Series.savePath "out/fit.dat".toList n = "out/scan".toList ++ pyStrInt n ++ "_fit.dat".toList ∧
    Series.savePath "fit.dat".toList n = "scan".toList ++ pyStrInt n ++ "_fit.dat".toList ∧
    Series.savePath "/fit.dat".toList n = "/scan".toList ++ pyStrInt n ++ "_fit.dat".toList := ⟨rfl, rfl, rfl⟩

/-- The hypotheses of `C65_rounded_partial` hold for the prediction of this scan, and the error is zero. -/
example : (exampleResult 7 none 0.5).curveMse = .ok (.num 0) := by
  have ha : PositiveCurve [1, 0.5] := by
    intro v hv
    simp only [List.mem_cons, List.not_mem_nil, or_false] at hv
    rcases hv with rfl | rfl <;> norm_num
  obtain ⟨e, k1, -, -, -, k5, -⟩ := C65_rounded_partial (exampleResult 7 none 0.5) (exampleResult 7 none 0.5) [1, 0.5] [1, 0.5] ha ha rfl
    (by simp) rfl rfl
  rw [k1, k5 rfl]

/-- Three scans, one minute and three minutes after the first. -/
example (s : Series) (h : s.timestamps = [some ['a'], some ['b'], some ['c']]) :
    ∃ d, s.deltaT (fun (t : Str) => if t = ['a'] then .ok 30 else if t = ['b'] then .ok 90 else .ok 210) = .ok (some d) ∧
      d[0]? = some 0 ∧ d[1]? = some 1 ∧ d[2]? = some 3 ∧ d.Pairwise (· ≤ ·) := by
  obtain ⟨d, h1, -, h3, -, h5⟩ := C67_values (fun (t : Str) => if t = ['a'] then .ok 30 else if t = ['b'] then .ok 90 else .ok 210) s
    [['a'], ['b'], ['c']] [30, 90, 210] h (by
      refine .cons rfl (.cons ?_ (.cons ?_ .nil))
      · rw [if_neg (by decide), if_pos rfl]
      · rw [if_neg (by decide), if_neg (by decide)])
  refine ⟨d, h1, ?_, ?_, ?_, h5.2 ?_⟩
  · rw [h3 0 30 30 rfl rfl]; norm_num
  · rw [h3 1 90 30 rfl rfl]; norm_num
  · rw [h3 2 210 30 rfl rfl]; norm_num
  · norm_num [List.pairwise_cons]

end Verif.Props
