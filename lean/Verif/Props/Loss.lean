import Verif.Model.Helpers
import Verif.Props.Refine

/-!
# C104: the loss function
-/

namespace Verif.Props
open Verif.Py Verif.Model Verif.Spec

theorem loss_eq (env : FitEnv) {q data p : List ℝ} {t : Table} {c : List (Option ℝ)} {rest : List (List (Option ℝ))}
    (hr : restoreLabels fitNorm env.sample (.array 1 (p.map fun (x : ℝ) => [some (x : ℂ)])) = .ok t)
    (hs : env.simulate q t = .ok (c :: rest)) :
    env.logMseLoss q data p = if data.length ≠ c.length then .error .valueError
      else .ok (fMean (List.zipWith logSqErr (data.map some) c)) := by
  unfold FitEnv.logMseLoss
  rw [hr, bind_ok, hs, bind_ok]
  rfl

/-- C104: for positive curves of the same length, with at least one point, the loss is the mean squared difference of the
decadic logarithms of the data and of the curve simulated for the restored labels; it is not negative, and zero exactly if the
simulated curve is the measured one. -/
theorem C104_value (env : FitEnv) (q data p : List ℝ) (t : Table) (c : List ℝ) (rest : List (List (Option ℝ)))
    (hr : restoreLabels fitNorm env.sample (.array 1 (p.map fun (x : ℝ) => [some (x : ℂ)])) = .ok t)
    (hs : env.simulate q t = .ok (c.map some :: rest)) (hd : PositiveCurve data) (hc : PositiveCurve c)
    (hl : data.length = c.length) (hne : data ≠ []) :
    env.logMseLoss q data p = .ok (.num (logMse data c)) ∧ 0 ≤ logMse data c ∧ (logMse data c = 0 ↔ c = data) := by
  obtain ⟨e, -, h2, h3, h4, -, -, h5⟩ := C65_metric data c hd hc hl hne
  have he : e = logMse data c := h3
  subst he
  refine ⟨?_, h4, h5.trans eq_comm⟩
  rw [loss_eq env hr hs, if_neg (by simpa using hl)]
  have := logMse_variant hd hc hl hne
  unfold ew at this
  rw [if_pos (by simpa using hl), bind_ok] at this
  exact this

/-- C104: different numbers of points are rejected. -/
theorem C104_lengths (env : FitEnv) (q data p : List ℝ) (t : Table) (c : List (Option ℝ)) (rest : List (List (Option ℝ)))
    (hr : restoreLabels fitNorm env.sample (.array 1 (p.map fun (x : ℝ) => [some (x : ℂ)])) = .ok t)
    (hs : env.simulate q t = .ok (c :: rest)) :
    env.logMseLoss q data p = .error .valueError ↔ data.length ≠ c.length := by
  rw [loss_eq env hr hs]
  split_ifs with h
  · exact ⟨fun _ => h, fun _ => rfl⟩
  · exact ⟨fun h' => (by cases h'), fun h' => absurd h' h⟩

theorem fMean_isNum {l : List FVal} {x : ℝ} (h : fMean l = .num x) : l ≠ [] ∧ ∀ v ∈ l, ∃ y, v = .num y := by
  unfold fMean at h
  split_ifs at h with h1 h2 h3
  refine ⟨fun hn => h1 (by rw [hn]; rfl), fun v hv => ?_⟩
  cases v with
  | num y => exact ⟨y, rfl⟩
  | inf => exact absurd (List.any_eq_true.2 ⟨_, hv, rfl⟩) h3
  | nan => exact absurd (List.any_eq_true.2 ⟨_, hv, rfl⟩) h2

theorem logSqErr_isNum {a : ℝ} {b : Option ℝ} {y : ℝ} (h : logSqErr (some a) b = .num y) : 0 < a ∧ ∃ z, b = some z ∧ 0 < z := by
  cases b with
  | none => cases h
  | some b =>
    simp only [logSqErr] at h
    split_ifs at h with h1 h2 h3
    push Not at h1 h3
    exact ⟨lt_of_le_of_ne h1.1 (Ne.symm h3.1), b, rfl, lt_of_le_of_ne h1.2 (Ne.symm h3.2)⟩

theorem zipWith_isNum {a : List ℝ} {b : List (Option ℝ)} (hl : a.length = b.length)
    (h : ∀ v ∈ List.zipWith logSqErr (a.map some) b, ∃ y, v = .num y) :
    PositiveCurve a ∧ ∃ c : List ℝ, b = c.map some ∧ PositiveCurve c := by
  induction a generalizing b with
  | nil =>
    cases b with
    | nil => exact ⟨fun _ h => (by cases h), [], rfl, fun _ h => (by cases h)⟩
    | cons _ _ => cases hl
  | cons x a ih =>
    cases b with
    | nil => cases hl
    | cons y b =>
      simp only [List.map_cons, List.zipWith_cons_cons] at h
      obtain ⟨z, hz⟩ := h _ (List.mem_cons_self)
      obtain ⟨hx, w, rfl, hw⟩ := logSqErr_isNum hz
      obtain ⟨i1, c, rfl, i2⟩ := ih (by simpa using hl) fun v hv => h v (List.mem_cons_of_mem _ hv)
      refine ⟨?_, w :: c, rfl, ?_⟩
      · intro v hv
        rcases List.mem_cons.1 hv with rfl | hv
        exacts [hx, i1 v hv]
      · intro v hv
        rcases List.mem_cons.1 hv with rfl | hv
        exacts [hw, i2 v hv]

/-- C104: the loss is a number exactly if there are as many simulated as measured points, at least one, and all values of both
curves are positive numbers. -/
theorem C104_number_iff (env : FitEnv) (q data p : List ℝ) (t : Table) (c : List (Option ℝ)) (rest : List (List (Option ℝ)))
    (hr : restoreLabels fitNorm env.sample (.array 1 (p.map fun (x : ℝ) => [some (x : ℂ)])) = .ok t)
    (hs : env.simulate q t = .ok (c :: rest)) :
    (∃ x, env.logMseLoss q data p = .ok (.num x)) ↔
      data ≠ [] ∧ PositiveCurve data ∧ ∃ s : List ℝ, c = s.map some ∧ PositiveCurve s ∧ s.length = data.length := by
  constructor
  · rintro ⟨x, hx⟩
    rw [loss_eq env hr hs] at hx
    split_ifs at hx with hl
    push Not at hl
    obtain ⟨h1, h2⟩ := fMean_isNum (Except.ok.inj hx)
    obtain ⟨h3, s, rfl, h4⟩ := zipWith_isNum hl h2
    refine ⟨?_, h3, s, rfl, h4, by simpa using hl.symm⟩
    rintro rfl
    exact h1 rfl
  · rintro ⟨h1, h2, s, rfl, h3, h4⟩
    exact ⟨_, (C104_value env q data p t s rest hr hs h2 h3 h4.symm h1).1⟩

theorem fittingModel_parts {env : FitEnv} {q p m : List ℝ} (h : env.fittingModel q p = .ok (m.map some)) :
    ∃ t s rest, restoreLabels fitNorm env.sample (.array 1 (p.map fun (x : ℝ) => [some (x : ℂ)])) = .ok t ∧
      env.simulate q t = .ok (s.map some :: rest) ∧ PositiveCurve s ∧ m = s.map fun (x : ℝ) => Real.logb 10 x := by
  unfold FitEnv.fittingModel at h
  obtain ⟨t, h1, ha⟩ := bind_eq_ok.1 h
  obtain ⟨r, h2, hb⟩ := bind_eq_ok.1 ha
  obtain ⟨c, h3, hc⟩ := bind_eq_ok.1 hb
  obtain ⟨s, rfl, h4, h5⟩ := log10_curve (Except.ok.inj hc)
  cases r with
  | nil => cases h3
  | cons c0 rest =>
    cases h3
    exact ⟨t, s, rest, h1, h2, h4, h5⟩

/-- C104: the loss is the objective of the refinement divided by the number of points: with the values of the function that
`least_log_mean_squares_fit` passes to `curve_fit` (l.45-52) the loss is the mean of their squared differences from the
logarithm of the data. Hence the loss orders parameter sets as the search does. -/
theorem C104_objective (env : FitEnv) (q data p m : List ℝ) (h : env.fittingModel q p = .ok (m.map some))
    (hd : PositiveCurve data) (hl : m.length = data.length) (hne : data ≠ []) :
    env.logMseLoss q data p =
      .ok (.num ((∑ i ∈ Finset.range data.length, (m.getD i 0 - Real.logb 10 (data.getD i 0)) ^ 2) / data.length)) := by
  obtain ⟨t, s, rest, h1, h2, h3, rfl⟩ := fittingModel_parts h
  rw [List.length_map] at hl
  rw [(C104_value env q data p t s rest h1 h2 hd h3 hl.symm hne).1]
  congr 2
  unfold logMse
  congr 1
  refine Finset.sum_congr rfl fun i hi => ?_
  have hi' : i < s.length := by rw [hl]; exact Finset.mem_range.1 hi
  have : (s.map fun (x : ℝ) => Real.logb 10 x).getD i 0 = Real.logb 10 (s.getD i 0) := by
    simp [List.getD, hi']
  rw [this]
  ring

/-- C104: the refinement of a label row does not increase the loss. Its start values and its result are normalized labels of the
given row and of the returned row, and the loss of the latter is a number that is not larger. -/
theorem C104_refine (env : FitEnv) (hs : SampleRegular env.sample) (hn : (partNames env.sample).Nodup) (hd : Descends env)
    (t u : Table) (ht : IsLabelTable env.sample t) (hc : t.cols.columns = (labelParams env.sample).map Prod.fst)
    (h1 : t.rows = 1) (q data fr : List ℝ) (hne : data ≠ []) (h : env.leastLogFit q data t fr = .ok u) :
    ∃ p p' : List ℝ, ∃ x y : ℝ,
      restoreLabels fitNorm env.sample (.array 1 (p.map fun (x : ℝ) => [some (x : ℂ)])) = .ok t ∧
      restoreLabels fitNorm env.sample (.array 1 (p'.map fun (x : ℝ) => [some (x : ℂ)])) = .ok u ∧
      env.logMseLoss q data p = .ok (.num x) ∧ env.logMseLoss q data p' = .ok (.num y) ∧ 0 ≤ y ∧ y ≤ x := by
  unfold FitEnv.leastLogFit at h
  obtain ⟨⟨prep, b⟩, e1, ha⟩ := bind_eq_ok.1 h
  obtain ⟨row, e2, hb⟩ := bind_eq_ok.1 ha
  obtain ⟨start, e3, hcc⟩ := bind_eq_ok.1 hb
  obtain ⟨p, e4, he⟩ := bind_eq_ok.1 hcc
  unfold FitEnv.curveFit at e4
  split_ifs at e4 with c1 c2
  obtain ⟨d, e5, e6⟩ := bind_eq_ok.1 e4
  obtain ⟨hp, rfl⟩ := checkFinite_ok e5
  obtain ⟨a, b, f1, f2, f3, f4, f5⟩ := hd _ _ _ _ _ _ e6
  rw [List.length_map] at f3 f4 f5
  refine ⟨start, p, _, _, start_restores hs hn ht hc h1 e1 e2 e3, he,
    C104_objective env q data start a f1 hp f3 hne, C104_objective env q data p b f2 hp f4 hne, ?_, ?_⟩
  · exact div_nonneg (Finset.sum_nonneg fun i _ => sq_nonneg _) (by positivity)
  · refine div_le_div_of_nonneg_right ?_ (by positivity)
    have e : ∀ l : List ℝ, ∑ i ∈ Finset.range data.length, (l.getD i 0 - (data.map fun (x : ℝ) => Real.logb 10 x).getD i 0) ^ 2 =
        ∑ i ∈ Finset.range data.length, (l.getD i 0 - Real.logb 10 (data.getD i 0)) ^ 2 := by
      intro l
      refine Finset.sum_congr rfl fun i hi => ?_
      have hi' := Finset.mem_range.1 hi
      congr 2
      simp [List.getD, hi']
    rw [e, e] at f5
    exact f5

/-- The hypotheses of `C104_value` and `C104_objective` hold for the model that simulates the thickness. -/
example : ∃ t c rest, restoreLabels fitNorm (thickEnv (prepSample 0 1)).sample
      (.array 1 (([1/2, 1/2] : List ℝ).map fun (x : ℝ) => [some (x : ℂ)])) = .ok t ∧
    (thickEnv (prepSample 0 1)).simulate [1, 2] t = .ok (c.map some :: rest) ∧ PositiveCurve c ∧ c.length = 2 ∧
    PositiveCurve [1, 1/2] := by
  refine ⟨_, [15, 15], [], restore_pair _ _, ?_, ?_, rfl, ?_⟩
  · have : ((1/2 : ℝ) * 10 + 10) = 15 := by norm_num
    rw [this]
    rfl
  · intro v hv
    simp only [List.mem_cons, List.not_mem_nil, or_false, or_self] at hv
    rw [hv]; norm_num
  · intro v hv
    simp only [List.mem_cons, List.not_mem_nil, or_false] at hv
    rcases hv with rfl | rfl <;> norm_num

/-- The hypotheses of `C104_refine` hold for a refinement that succeeds. -/
example : ∃ u, SampleRegular (thickEnv (prepSample 0 1)).sample ∧ Descends (thickEnv (prepSample 0 1)) ∧
    (pairTable 15 (1/2)).rows = 1 ∧
    (thickEnv (prepSample 0 1)).leastLogFit [1, 2] [1, 1/2] (pairTable 15 (1/2)) [0.5, 0.5, 0.1] = .ok u := by
  obtain ⟨u, hu⟩ := thick_refine (a := 1) (b := 1/2) (by norm_num) (by norm_num)
  exact ⟨u, prepSample_regular (by norm_num), thickEnv_descends _, rfl, hu⟩

end Verif.Props
