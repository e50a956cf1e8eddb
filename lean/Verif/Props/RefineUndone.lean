import Verif.Props.Refine

/-!
# C98: the change of sign after the refinement can undo it
-/

namespace Verif.Props
open Verif.Py Verif.Model Verif.Spec Verif.Model.FitEnv

open Classical in
/-- A model whose simulated curves are ten to the power of the thickness, whose network predicts the thickness 1 for the range from 10 to
20, and whose search tries the lower bounds. -/
noncomputable def undoEnv : FitEnv :=
  { toyEnv (prepSample 0 1) with
    net := fun x => .ok (.array x.length [x.map fun (_ : List ℝ) => some ((-9/10 : ℝ) : ℂ), x.map fun (_ : List ℝ) => some ((1/2 : ℝ) : ℂ)])
    simulate := fun q t => .ok ((List.range t.rows).map fun (i : Nat) =>
      List.replicate q.length (((t.cols.headD ([], [])).2.getD i none).map fun (z : ℂ) => (10 : ℝ) ^ z.re))
    optimizer := fun f data start lb ub => if Feasible start lb ub then tryUpper f data start lb else .error .valueError }

theorem undo_sim : SimShape undoEnv := by
  intro q t r h
  simp only [undoEnv, Except.ok.injEq] at h
  subst h
  refine ⟨by simp, fun c hc => ?_⟩
  obtain ⟨i, -, rfl⟩ := List.mem_map.1 hc
  simp

theorem undo_descends : Descends undoEnv := by
  intro f data start lb ub p h
  simp only [undoEnv] at h
  split_ifs at h
  exact (tryUpper_ok h).2

theorem undo_within : WithinBounds undoEnv := by
  intro f data start lb ub p hl hu hb h
  simp only [undoEnv] at h
  split_ifs at h with hf
  rcases (tryUpper_ok h).1 with rfl | rfl
  · exact ⟨rfl, hf⟩
  · refine ⟨hl, fun i x l u h1 h2 h3 => ?_⟩
    rw [h1] at h2
    cases h2
    have := hb (x, u) (List.mem_of_getElem? (i := i) (by rw [List.getElem?_zip_eq_some]; exact ⟨h1, h3⟩))
    exact ⟨le_refl _, this.le⟩

theorem undo_simulate (q : List ℝ) (a b : ℝ) : undoEnv.simulate q (pairTable a b) = .ok [(List.replicate q.length ((10 : ℝ) ^ a)).map some] := by
  rw [List.map_replicate]
  rfl

theorem undo_fittingModel (x y : ℝ) : undoEnv.fittingModel [1, 2] [x, y] = .ok (([x * 10 + 10, x * 10 + 10]).map some) := by
  have h1 : undoEnv.sample = prepSample 0 1 := rfl
  unfold FitEnv.fittingModel
  rw [h1]
  simp only [List.map_cons, List.map_nil]
  rw [restore_pair, bind_ok, undo_simulate, bind_ok]
  have h3 : FitEnv.log10 (some ((10 : ℝ) ^ (x * 10 + 10))) = some (x * 10 + 10) := by
    unfold FitEnv.log10
    rw [Option.bind_some, if_pos (Real.rpow_pos_of_pos (by norm_num) _), Real.logb_rpow (by norm_num) (by norm_num)]
  show Except.ok ([some ((10 : ℝ) ^ (x * 10 + 10)), some ((10 : ℝ) ^ (x * 10 + 10))].map FitEnv.log10) = _
  simp only [List.map_cons, List.map_nil, h3]

/-- The measured value. -/
noncomputable def undoValue : ℝ := (10 : ℝ) ^ (-7/2 : ℝ)

theorem undoValue_pos : 0 < undoValue := Real.rpow_pos_of_pos (by norm_num) _

theorem undo_refine : undoEnv.leastLogFit [1, 2] [undoValue, undoValue] (pairTable 1 (1/2)) [0.5, 0.5, 0.1] = .ok (pairTable (-7/2) (1/4)) := by
  have hreg := prepSample_regular (lo := 0) (hi := 1) (by norm_num)
  have h1 : undoEnv.sample = prepSample 0 1 := rfl
  obtain ⟨e1, e2, e3, e4, e5, e6⟩ := pairLabels_values 1 (1/2)
  rw [leastLog_eq undoEnv hreg (prepSample_names _ _) (prepSample_realRanges _ _) (v := pairLabels 1 (1/2)) (pairTable_row _ _), h1]
  have hst : (freeParams (prepSample 0 1)).map (startOf (pairLabels 1 (1/2))) = [-9/10, 1/2] := by
    rw [prepSample_free]
    simp only [List.map_cons, List.map_nil, startOf]
    rw [e1, e5]
    simp only [Param.min, Param.max, Num.toC]
    norm_num
  have habs : |(-9/10 : ℝ)| = 9/10 := by rw [abs_of_neg (by norm_num)]; norm_num
  have hlb : lowerBounds (pairLabels 1 (1/2)) (prepSample 0 1) [0.5, 0.5, 0.1] = [-27/20, 1/4] := by
    unfold lowerBounds
    rw [hst]
    simp only [List.zipWith_cons_cons, List.zipWith_nil_left, habs]
    norm_num
  have hub : upperBounds (pairLabels 1 (1/2)) (prepSample 0 1) [0.5, 0.5, 0.1] = [-9/20, 3/4] := by
    unfold upperBounds
    rw [hst]
    simp only [List.zipWith_cons_cons, List.zipWith_nil_left, habs]
    norm_num
  rw [hst, hlb, hub]
  have hdata : ([undoValue, undoValue] : List ℝ).map (fun (x : ℝ) => FitEnv.log10 (some x)) = [-7/2, -7/2].map some := by
    have : FitEnv.log10 (some undoValue) = some (-7/2) := by
      unfold FitEnv.log10
      rw [Option.bind_some, if_pos undoValue_pos, undoValue, Real.logb_rpow (by norm_num) (by norm_num)]
    simp only [List.map_cons, List.map_nil, this]
  have hopt : undoEnv.curveFit (undoEnv.fittingModel [1, 2]) (([undoValue, undoValue] : List ℝ).map (fun (x : ℝ) => FitEnv.log10 (some x)))
      [-9/10, 1/2] [-27/20, 1/4] [-9/20, 3/4] = .ok [-27/20, 1/4] := by
    unfold FitEnv.curveFit
    rw [if_neg (by simp), if_neg (by simp; norm_num), hdata, checkFinite_map, bind_ok]
    have ho : ∀ f d st lb ub, Feasible st lb ub → undoEnv.optimizer f d st lb ub = tryUpper f d st lb := by
      intro f d st lb ub hf
      exact if_pos hf
    rw [ho _ _ _ _ _ (by
      intro i x l u hx hl hu
      match i with
      | 0 => cases hx; cases hl; cases hu; norm_num
      | 1 => cases hx; cases hl; cases hu; norm_num
      | i + 2 => cases hx)]
    unfold tryUpper
    rw [undo_fittingModel, bind_ok, checkFinite_map, bind_ok, undo_fittingModel, bind_ok, checkFinite_map, bind_ok]
    unfold pickBetter
    rw [if_pos (by simp), if_pos (by
      refine ⟨by simp, ?_⟩
      simp only [List.length_cons, List.length_nil, Finset.sum_range_succ, Finset.sum_range_zero, List.getD_cons_zero, List.getD_cons_succ]
      norm_num)]
  rw [hopt, bind_ok]
  have := restore_pair (-27/20) (1/4)
  rw [show (-27/20 : ℝ) * 10 + 10 = -7/2 by norm_num] at this
  exact this

theorem pair_abs (a b : ℝ) : ensurePositive (pairTable a b) = pairTable |a| b := by
  have h : ensurePositive (pairTable a b) = ⟨1, [("film_thickness".toList, [Fl.abs (some (a : ℂ))]), ("Si_roughness".toList, [Fl.abs (some ((1 : ℝ) : ℂ))]),
    ("film_roughness".toList, [Fl.abs (some ((3 : ℝ) : ℂ))]), ("Si_sld".toList, [some ((20 : ℝ) : ℂ)]),
    ("film_sld".toList, [some (b : ℂ)]), ("air_sld".toList, [some ((0 : ℝ) : ℂ)])]⟩ := rfl
  have hf : ∀ x : ℝ, Fl.abs (some (x : ℂ)) = some ((|x| : ℝ) : ℂ) := by
    intro x
    simp only [Fl.abs, Option.map_some, Complex.norm_real, Real.norm_eq_abs]
  rw [h, hf, hf, hf, abs_of_pos (show (0 : ℝ) < 1 by norm_num), abs_of_pos (show (0 : ℝ) < 3 by norm_num)]
  rfl

theorem undo_fit : ∃ r r', undoEnv.fitCurve [[undoValue, undoValue]] [1, 2] (plainOpts false) (fun _ => []) (fun _ => []) =
      .ok ⟨pairTable 1 (1/2), r, none, none⟩ ∧
    undoEnv.fitCurve [[undoValue, undoValue]] [1, 2] (plainOpts true) (fun _ => []) (fun _ => []) = .ok ⟨pairTable (7/2) (1/4), r', none, none⟩ := by
  have hu := undo_refine
  have hq : undoEnv.qIndices [1, 2] = .ok (0, 2) := toy_qIndices (prepSample 0 1)
  have hnet : undoEnv.networkInput [[undoValue, undoValue]] [1, 2] 0 1 = .ok [[undoValue, undoValue]] := by
    have htq : undoEnv.trainedQ = [1, 2] := rfl
    have := networkInput_self (env := undoEnv) (by rw [htq]; norm_num) (by simp [htq]) (v := [[undoValue, undoValue]]) (by
      intro c hc
      rw [List.mem_singleton] at hc
      subst hc
      refine ⟨rfl, fun x hx => ?_⟩
      simp only [List.mem_cons, List.not_mem_nil, or_false, or_self] at hx
      rw [hx]
      exact undoValue_pos)
    rwa [htq] at this
  have hpred : undoEnv.predict [[undoValue, undoValue]] = .ok (pairTable 1 (1/2)) := by
    have h1 : undoEnv.standardize [[undoValue, undoValue]] = .ok [[undoValue, undoValue]] := toyEnv_standardize (prepSample 0 1) _ (by simp)
    have h2 : undoEnv.net [[undoValue, undoValue]] = .ok (.array 1 [[some ((-9/10 : ℝ) : ℂ)], [some ((1/2 : ℝ) : ℂ)]]) := rfl
    have h3 : undoEnv.sample = prepSample 0 1 := rfl
    unfold FitEnv.predict
    rw [h1, bind_ok, h2, bind_ok, h3, restore_pair, bind_ok, show (-9/10 : ℝ) * 10 + 10 = 1 by norm_num, pair_positive (by norm_num)]
    rfl
  have hpos : ensurePositive (pairTable (-7/2) (1/4)) = pairTable (7/2) (1/4) := by
    rw [pair_abs, abs_of_neg (by norm_num)]
    norm_num
  have hr1 := undo_simulate [1, 2] 1 (1/2)
  have hr2 := undo_simulate [1, 2] (7/2) (1/4)
  refine ⟨some [(List.replicate ([1, 2] : List ℝ).length ((10 : ℝ) ^ (1 : ℝ))).map some],
    some [(List.replicate ([1, 2] : List ℝ).length ((10 : ℝ) ^ (7/2 : ℝ))).map some], ?_, ?_⟩
  · unfold FitEnv.fitCurve
    rw [hq, bind_ok]
    have e1 : (plainOpts false).dq = 0 := rfl
    have e2 : (plainOpts false).factor = 1 := rfl
    simp only [e1, e2, hnet, bind_ok]
    unfold FitEnv.qStep FitEnv.scalingStep FitEnv.chooseParams FitEnv.polishStep FitEnv.simulateStep
    simp only [plainOpts, Bool.false_eq_true, if_false, bind_ok, Bool.false_and, hpred, if_true, hr1]
    rfl
  · unfold FitEnv.fitCurve
    rw [hq, bind_ok]
    have e1 : (plainOpts true).dq = 0 := rfl
    have e2 : (plainOpts true).factor = 1 := rfl
    simp only [e1, e2, hnet, bind_ok]
    unfold FitEnv.qStep FitEnv.scalingStep FitEnv.chooseParams FitEnv.polishStep FitEnv.simulateStep
    simp only [plainOpts, Bool.false_eq_true, if_false, bind_ok, Bool.false_and, hpred, if_true]
    have : List.range ([[undoValue, undoValue]] : List (List ℝ)).length = [0] := rfl
    rw [this, mapM_cons]
    have h4 : getItem ([[undoValue, undoValue]] : List (List ℝ)) ((0 : Nat) : Int) = .ok [undoValue, undoValue] := rfl
    rw [h4]
    simp only [bind_ok]
    have h5 : slice ([1, 2] : List ℝ) (some ((0 : Nat) : Int)) (some ((2 : Nat) : Int)) = [1, 2] := rfl
    have h6 : slice ([undoValue, undoValue] : List ℝ) (some ((0 : Nat) : Int)) (some ((2 : Nat) : Int)) = [undoValue, undoValue] := rfl
    have h7 : (pairTable 1 (1/2)).row 0 = pairTable 1 (1/2) := rfl
    rw [h5, h6, h7, hu]
    simp only [bind_ok, mapM_ok_nil, pure, Except.pure]
    have h8 : Table.concat [pairTable (-7/2) (1/4)] = .ok (pairTable (-7/2) (1/4)) := rfl
    rw [h8]
    simp only [bind_ok]
    rw [hpos, hr2]
    rfl

theorem logMse_pair (a b : ℝ) : logMse [(10 : ℝ) ^ a, (10 : ℝ) ^ a] [(10 : ℝ) ^ b, (10 : ℝ) ^ b] = (a - b) ^ 2 := by
  unfold logMse
  simp only [List.length_cons, List.length_nil, Finset.sum_range_succ, Finset.sum_range_zero, List.getD_cons_zero, List.getD_cons_succ]
  rw [Real.logb_rpow (by norm_num) (by norm_num), Real.logb_rpow (by norm_num) (by norm_num)]
  push_cast
  ring

/-- C98, improvement is false in general: a sample, a network, a simulation and a search that stays within its bounds and never ends above
its start, with fractions of at most one, for which the labels returned with refinement describe the curve worse than those returned without it. The
predicted thickness 1 is below its range from 10 to 20, so the bounds reach below zero; the search finds the exact thickness -3.5; returned is 3.5. -/
theorem C98_undone : ∃ (env : FitEnv) (curve q : List ℝ) (fractions : List ℝ) (out out' : Output) (s0 s1 : List ℝ),
    SampleRegular env.sample ∧ (partNames env.sample).Nodup ∧ SimShape env ∧ RealRanges env.sample ∧ WithinBounds env ∧ Descends env ∧
    (∀ f ∈ fractions, f ≤ 1) ∧
    env.fitCurve [curve] q ⟨0, 1, false, fractions, false, false, true⟩ (fun _ => []) (fun _ => []) = .ok out ∧
    env.fitCurve [curve] q ⟨0, 1, true, fractions, false, false, true⟩ (fun _ => []) (fun _ => []) = .ok out' ∧
    env.qIndices q = .ok (0, q.length) ∧
    env.simulate q out.params = .ok [s0.map some] ∧ env.simulate q out'.params = .ok [s1.map some] ∧
    logMse curve s0 < logMse curve s1 := by
  obtain ⟨r, r', h, h'⟩ := undo_fit
  refine ⟨undoEnv, [undoValue, undoValue], [1, 2], [0.5, 0.5, 0.1], _, _, _, _, prepSample_regular (by norm_num), prepSample_names _ _, undo_sim,
    prepSample_realRanges _ _, undo_within, undo_descends, ?_, h, h', toy_qIndices (prepSample 0 1), undo_simulate _ _ _, undo_simulate _ _ _, ?_⟩
  · intro f hf
    simp only [List.mem_cons, List.not_mem_nil, or_false] at hf
    rcases hf with rfl | rfl | rfl <;> norm_num
  · show logMse [undoValue, undoValue] [(10 : ℝ) ^ (1 : ℝ), (10 : ℝ) ^ (1 : ℝ)] < logMse [undoValue, undoValue] [(10 : ℝ) ^ (7/2 : ℝ), (10 : ℝ) ^ (7/2 : ℝ)]
    rw [undoValue, logMse_pair, logMse_pair]
    norm_num

end Verif.Props
