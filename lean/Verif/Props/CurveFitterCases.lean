import Verif.Props.CurveFitter

/-!
# Concrete trained models: C60 and C62 fail for some of them
-/

namespace Verif.Props
open Verif.Py Verif.Model Verif.Spec Verif.Model.FitEnv

theorem restore_array {norm : PyStr} {s : SampleV ℝ} (hs : SampleRegular s) {n : Nat} {cols : List (List Fl)}
    (h : cols.length = ((labelParams s).filter fun q => !q.2.isConst).length) :
    restoreLabels norm s (.array n cols) =
      restoreLabels norm s (.frame ⟨n, (((labelParams s).filter fun q => !q.2.isConst).map (·.1)).zip cols⟩) := by
  unfold restoreLabels
  rw [allLabelParameters_eq hs]
  simp only [bind_ok, used_names, convertToDataframe]
  rw [if_pos (by simpa using h)]
  rfl

/-- A network that reports the second value of every curve as normalized thickness and SLD, and a simulation that returns ones. -/
noncomputable def toyEnv (s : SampleV ℝ) : FitEnv where
  trainedQ := [1, 2]
  mean := [0, 0]
  std := [1, 1]
  net := fun x => .ok (.array x.length [x.map fun (r : List ℝ) => some ((r.getD 1 0 : ℝ) : ℂ), x.map fun (r : List ℝ) => some ((r.getD 1 0 : ℝ) : ℂ)])
  sample := s
  simulate := fun q t => .ok (List.replicate t.rows (List.replicate q.length (some 1)))
  optimizer := fun _ _ start _ _ => .ok start

theorem toyEnv_net (s : SampleV ℝ) : NetShape (toyEnv s) := by
  intro x y h
  simp only [toyEnv, Except.ok.injEq] at h
  refine ⟨_, h.symm, fun c hc => ?_⟩
  simp only [List.mem_cons, List.not_mem_nil, or_false] at hc
  rcases hc with rfl | rfl <;> simp

theorem toyEnv_sim (s : SampleV ℝ) : SimShape (toyEnv s) := by
  intro q t r h
  simp only [toyEnv, Except.ok.injEq] at h
  subst h
  refine ⟨by simp, fun c hc => ?_⟩
  rw [(List.mem_replicate.1 hc).2]; simp

theorem toyEnv_standardize (s : SampleV ℝ) (rows : List (List ℝ)) (h : ∀ r ∈ rows, r.length = 2) :
    (toyEnv s).standardize rows = .ok rows := by
  have aux : ∀ (op : ℝ → ℝ → ℝ) (v : List ℝ), v.length = 2 → (∀ r : List ℝ, r.length = 2 → List.zipWith op r v = r) →
      bcastRows op rows v = .ok rows := by
    intro op v hv hop
    unfold bcastRows
    rw [mapM_eq_ok_map (g := fun r => r)]
    · simp
    · intro r hr
      unfold bcast
      rw [if_pos (by rw [h r hr, hv]), hop r (h r hr)]
  unfold FitEnv.standardize
  simp only [toyEnv]
  rw [aux (· - ·) [0, 0] rfl, bind_ok, aux (· / ·) [1, 1] rfl]
  · intro r hr
    match r, hr with
    | [a, b], _ => simp
  · intro r hr
    match r, hr with
    | [a, b], _ => simp

/-- The prediction of the toy network: the SLD column holds the second values (restored). -/
theorem toyEnv_predict (s : SampleV ℝ) (hs : SampleRegular s) (hn : (partNames s).Nodup)
    (a b : Str) (lo hi lo' hi' : Num ℝ) (nm nm' : Option Str)
    (hu : ((labelParams s).filter fun q => !q.2.isConst) = [(a, .range lo' hi' nm'), (b, .range lo hi nm)])
    (rows : List (List ℝ)) (h : ∀ r ∈ rows, r.length = 2) :
    ∃ t u, (toyEnv s).predict rows = .ok t ∧ t = ensurePositive u ∧ t.rows = rows.length ∧
      (∃ x y, (toyEnv s).standardize rows = .ok x ∧ (toyEnv s).net x = .ok y ∧ restoreLabels fitNorm s y = .ok u) ∧
      u.cols.get b = .ok (rows.map fun (r : List ℝ) => some (((r.getD 1 0 : ℝ) : ℂ) * (hi.toC - lo.toC) + lo.toC)) := by
  have hmem : ∀ q ∈ labelParams s, q.2.isConst = false → q = (a, .range lo' hi' nm') ∨ q = (b, .range lo hi nm) := by
    intro q hq hc
    have : q ∈ ((labelParams s).filter fun q => !q.2.isConst) := List.mem_filter.2 ⟨hq, by simp [hc]⟩
    rw [hu] at this
    simpa using this
  have hb : (b, Param.range lo hi nm) ∈ labelParams s := by
    have : (b, Param.range lo hi nm) ∈ ((labelParams s).filter fun q => !q.2.isConst) := by rw [hu]; simp
    exact (List.mem_filter.1 this).1
  have hab : a ≠ b := by
    have h1 := (labelParams_nodup hs hn).sublist (List.filter_sublist (p := fun q : Str × Param ℝ => !q.2.isConst).map (·.1))
    rw [hu] at h1
    simpa using h1
  obtain ⟨u, h1, h2, h3, h4, -⟩ := restore_spec (norm := fitNorm) (Or.inl rfl) hs hn
    (t := ⟨rows.length, [(a, rows.map fun (r : List ℝ) => some ((r.getD 1 0 : ℝ) : ℂ)), (b, rows.map fun (r : List ℝ) => some ((r.getD 1 0 : ℝ) : ℂ))]⟩) (by
      intro q hq hc
      rcases hmem q hq hc with rfl | rfl <;> simp [Frame.columns])
  have hnet : (toyEnv s).net rows = .ok (.array rows.length [rows.map fun (r : List ℝ) => some ((r.getD 1 0 : ℝ) : ℂ),
      rows.map fun (r : List ℝ) => some ((r.getD 1 0 : ℝ) : ℂ)]) := rfl
  have hres : restoreLabels fitNorm s (.array rows.length [rows.map fun (r : List ℝ) => some ((r.getD 1 0 : ℝ) : ℂ),
      rows.map fun (r : List ℝ) => some ((r.getD 1 0 : ℝ) : ℂ)]) = .ok u := by
    rw [restore_array hs (by rw [hu]; rfl), hu]
    simp only [List.map_cons, List.map_nil, List.zip_cons_cons, List.zip_nil_right]
    exact h1
  refine ⟨ensurePositive u, u, ?_, rfl, by simpa [ensurePositive] using h2, ⟨_, _, toyEnv_standardize s rows h, hnet, hres⟩, ?_⟩
  · unfold FitEnv.predict
    rw [toyEnv_standardize s rows h]
    simp only [bind_ok]
    rw [hnet]
    simp only [bind_ok]
    have : (toyEnv s).sample = s := rfl
    rw [this, hres]
    rfl
  · have := h4 _ hb rfl (rows.map fun (r : List ℝ) => some ((r.getD 1 0 : ℝ) : ℂ)) (by
      simp [Frame.get, hab])
    rw [this]
    unfold renormUpd
    rw [if_pos (by decide)]
    simp [Param.min, Param.max]

theorem prepSample_used (lo hi : ℝ) : ((labelParams (prepSample lo hi)).filter fun q => !q.2.isConst) =
    [("film_thickness".toList, .range (.real 10) (.real 20) (some "thickness".toList)),
     ("film_sld".toList, .range (.real lo) (.real hi) (some "sld".toList))] := rfl

theorem interp_shifted : interpReflectivity [1, 2] ([1, 2].map fun (x : ℝ) => x + 1) [1, 10] = .ok [1, 1] := by
  have hq : (([1, 2] : List ℝ).map fun (x : ℝ) => x + 1).Pairwise (· < ·) := by norm_num
  obtain ⟨f, h1, -, -, h4, -⟩ := C42_interpolation (([1, 2] : List ℝ).map fun (x : ℝ) => x + 1) [1, 10] hq rfl (by simp) (by
    intro v hv
    simp only [List.mem_cons, List.not_mem_nil, or_false] at hv
    rcases hv with rfl | rfl <;> norm_num)
  rw [h1]
  have e1 := h4 1 (by simp) (by
    intro p hp
    simp only [List.map_cons, List.map_nil, List.mem_cons, List.not_mem_nil, or_false] at hp
    rcases hp with rfl | rfl <;> norm_num)
  have e2 := h4 2 (by simp) (by
    intro p hp
    simp only [List.map_cons, List.map_nil, List.mem_cons, List.not_mem_nil, or_false] at hp
    rcases hp with rfl | rfl <;> norm_num)
  simp only [List.map_cons, List.map_nil, e1, e2]
  rfl

theorem interp_plain : interpReflectivity [1, 2] [1, 2] [1, 10] = .ok [1, 10] :=
  interp_self (by norm_num) (by simp) rfl (by
    intro v hv
    simp only [List.mem_cons, List.not_mem_nil, or_false] at hv
    rcases hv with rfl | rfl <;> norm_num)

theorem qIndices_ok {env : FitEnv} {q : List ℝ} (h1 : env.trainedQ ≠ []) (h2 : q ≠ []) : ∃ p, env.qIndices q = .ok p := by
  unfold FitEnv.qIndices
  match env.trainedQ, q, h1, h2 with
  | a :: l, b :: m, _, _ => exact ⟨_, rfl⟩

theorem toy_optimizeQ {t1 : Table} (p1 : (toyEnv (prepSample 0 1)).predict [[1, 1]] = .ok t1) (r1 : t1.rows = ([[1, 1]] : List (List ℝ)).length) :
    (toyEnv (prepSample 0 1)).optimizeQ [1, 2] [1, 10] [1] = .ok (1, t1.row 0) := by
  have htq : (toyEnv (prepSample 0 1)).trainedQ = [1, 2] := rfl
  have hs : ∀ q t, (toyEnv (prepSample 0 1)).simulate q t = .ok (List.replicate t.rows (List.replicate q.length (some 1))) := fun _ _ => rfl
  obtain ⟨i1, hi1⟩ := qIndices_ok (env := toyEnv (prepSample 0 1)) (q := [1, 2]) (by simp [htq]) (by simp)
  have hfit : (toyEnv (prepSample 0 1)).fitPlain [[1, 1]] [1, 2] 0 1 = .ok (t1, [[some 1, some 1]]) := by
    unfold FitEnv.fitPlain
    rw [hi1, bind_ok]
    have := networkInput_self (env := toyEnv (prepSample 0 1)) (by rw [htq]; norm_num) (by simp [htq]) (v := [[1, 1]]) (by
      intro c hc
      rw [List.mem_singleton.1 hc]
      refine ⟨rfl, ?_⟩
      intro v hv
      simp only [List.mem_cons, List.not_mem_nil, or_false] at hv
      rcases hv with rfl | rfl <;> norm_num)
    rw [htq] at this
    rw [this, bind_ok, p1, bind_ok, hs, r1]
    rfl
  unfold FitEnv.optimizeQ qShiftVariants
  rw [htq, mapM_cons, interp_shifted]
  simp only [bind_ok, mapM_ok_nil, pure, Except.pure]
  rw [hfit, bind_ok, interp_plain]
  simp only [bind_ok]
  have : curveVariantLogMse (([1, 10] : List ℝ).map some) [[some 1, some 1]] =
      .ok [fMean (List.zipWith logSqErr (([1, 10] : List ℝ).map some) [some 1, some 1])] := rfl
  rw [this, bind_ok]
  have : fArgmin [fMean (List.zipWith logSqErr (([1, 10] : List ℝ).map some) [some 1, some 1])] = .ok 0 := rfl
  rw [this, bind_ok, hs, bind_ok]
  have : (t1.row 0).rows = 1 := by simp [Table.row, r1]
  rw [this]
  rfl

theorem toy_networkInput : (toyEnv (prepSample 0 1)).networkInput [[1, 10]] [1, 2] 0 1 = .ok [[1, 10]] := by
  have htq : (toyEnv (prepSample 0 1)).trainedQ = [1, 2] := rfl
  unfold FitEnv.networkInput FitEnv.interpolate
  simp only [mul_one, add_zero, List.map_id']
  rw [mapM_cons, htq, interp_plain]
  rfl

/-- Options with the q optimization only. -/
noncomputable def onlyQ : Options := ⟨0, 1, false, [0.5, 0.5, 0.1], true, false, true⟩

/-- C60 is false if only the q optimization is on: here a single shift is drawn, it is reported as the best one, but the returned
parameters are not the prediction for it. -/
theorem C60_false : ∃ (env : FitEnv) (q curve shifts : List ℝ) (b : ℝ) (u : Table) (out : Output),
    env.trainedQ.Pairwise (· < ·) ∧ NetShape env ∧ SimShape env ∧
    env.fitCurve [curve] q onlyQ (fun _ => shifts) (fun _ => []) = .ok out ∧
    env.optimizeQ q curve shifts = .ok (b, u) ∧ shifts = [b] ∧ out.bestShift = some [b] ∧ out.params.cols ≠ u.cols := by
  obtain ⟨t1, u1, p1, e1, r1, ⟨x1, y1, w1, w2, w3⟩, g1⟩ := toyEnv_predict (prepSample 0 1) (prepSample_regular (by norm_num)) (prepSample_names _ _)
    _ _ _ _ _ _ _ _ (prepSample_used 0 1) [[1, 1]] (by simp)
  obtain ⟨t2, u2, p2, e2, r2, -, g2⟩ := toyEnv_predict (prepSample 0 1) (prepSample_regular (by norm_num)) (prepSample_names _ _)
    _ _ _ _ _ _ _ _ (prepSample_used 0 1) [[1, 10]] (by simp)
  have htq : (toyEnv (prepSample 0 1)).trainedQ = [1, 2] := rfl
  have hs : ∀ q t, (toyEnv (prepSample 0 1)).simulate q t = .ok (List.replicate t.rows (List.replicate q.length (some 1))) := fun _ _ => rfl
  obtain ⟨i1, hi1⟩ := qIndices_ok (env := toyEnv (prepSample 0 1)) (q := [1, 2]) (by simp [htq]) (by simp)
  have hopt := toy_optimizeQ p1 r1
  have hnet := toy_networkInput
  refine ⟨toyEnv (prepSample 0 1), [1, 2], [1, 10], [1], 1, t1.row 0,
    ⟨t2, some [[some 1, some 1]], some [1], none⟩, by rw [htq]; norm_num, toyEnv_net _, toyEnv_sim _, ?_, hopt, rfl, rfl, ?_⟩
  · unfold FitEnv.fitCurve
    rw [hi1, bind_ok]
    have e1 : onlyQ.dq = 0 := rfl
    have e2 : onlyQ.factor = 1 := rfl
    have e3 : onlyQ.optimizeQ = true := rfl
    have e4 : onlyQ.optimizeScaling = false := rfl
    simp only [e1, e2, hnet, bind_ok]
    unfold FitEnv.qStep FitEnv.scalingStep FitEnv.chooseParams FitEnv.polishStep FitEnv.simulateStep
    rw [e3, e4]
    simp only [if_true, Bool.false_eq_true, if_false, List.zipIdx_cons, List.zipIdx_nil, bind_ok, Bool.false_and]
    rw [mapM_cons, hopt]
    simp only [bind_ok, mapM_ok_nil, pure, Except.pure, List.map_cons, List.map_nil]
    have : Table.concat [t1.row 0] = .ok (t1.row 0) := rfl
    rw [this]
    simp only [bind_ok]
    rw [p2]
    simp only [bind_ok, onlyQ, Bool.false_eq_true, if_false, if_true]
    rw [hs, r2]
    rfl
  · intro h
    simp only at h
    have h1 : t2.cols.get "film_sld".toList = .ok [some (((10 : ℝ) : ℂ) * ((1 : ℝ) - (0 : ℝ)) + (0 : ℝ))] := by
      rw [e2, ensurePositive_get, g2]; rfl
    have h2 : t1.cols.get "film_sld".toList = .ok [some (((1 : ℝ) : ℂ) * ((1 : ℝ) - (0 : ℝ)) + (0 : ℝ))] := by
      rw [e1, ensurePositive_get, g1]; rfl
    have hrow : (t1.row 0).cols.get "film_sld".toList = .ok [some (((1 : ℝ) : ℂ) * ((1 : ℝ) - (0 : ℝ)) + (0 : ℝ))] := by
      have : ∀ (f : Frame Fl) n, Frame.get (f.map fun (c : Str × List Fl) => (c.1, (c.2.drop 0).take 1)) n =
          (f.get n).map fun (l : List Fl) => (l.drop 0).take 1 := by
        intro f n
        unfold Frame.get
        rw [List.find?_map]
        simp only [Function.comp_def]
        cases f.find? fun c => c.1 = n <;> rfl
      simp only [Table.row]
      rw [this, h2]
      rfl
    rw [h, hrow] at h1
    simp only [Except.ok.injEq, List.cons.injEq, Option.some.injEq, and_true] at h1
    norm_num at h1

/-- The hypotheses of `C61_q_partial` hold for this case, and the selected shift is the best one. -/
example : ∃ t, BestShift (toyEnv (prepSample 0 1)) [1, 2] [1, 10] [1] 1 t := by
  obtain ⟨t1, u1, p1, e1, r1, ⟨x1, y1, w1, w2, w3⟩, g1⟩ := toyEnv_predict (prepSample 0 1) (prepSample_regular (by norm_num)) (prepSample_names _ _)
    _ _ _ _ _ _ _ _ (prepSample_used 0 1) [[1, 1]] (by simp)
  exact ⟨_, C61_q_partial (toyEnv (prepSample 0 1)) (by show ([1, 2] : List ℝ).Pairwise (· < ·); norm_num)
    (by show ([1, 2] : List ℝ) ≠ []; simp) (toyEnv_net _) (toyEnv_sim _) [1, 2] [1, 10] [1] 1 _ (toy_optimizeQ p1 r1)⟩

/-! ### Both optimizations -/

/-- Options with both optimizations. -/
noncomputable def bothOn : Options := ⟨0, 1, false, [0.5, 0.5, 0.1], true, true, true⟩

theorem toy_qIndices (s : SampleV ℝ) : (toyEnv s).qIndices [1, 2] = .ok (0, 2) := by
  have h1 : npMax ([1, 2] : List ℝ) = .ok 2 := by
    simp only [npMax, List.foldl_cons, List.foldl_nil]
    norm_num
  have h2 : npMin ([1, 2] : List ℝ) = .ok 1 := by
    simp only [npMin, List.foldl_cons, List.foldl_nil]
    norm_num
  have h3 : npArgmin (([1, 2] : List ℝ).map fun (x : ℝ) => |x - 2|) = .ok 1 := by
    simp [npArgmin]
    norm_num
  have h4 : npArgmin (([1, 2] : List ℝ).map fun (x : ℝ) => |x - 1|) = .ok 0 := by
    simp [npArgmin]
    norm_num
  unfold FitEnv.qIndices
  have : (toyEnv s).trainedQ = [1, 2] := rfl
  rw [this, h1, bind_ok, h3, bind_ok, h2, bind_ok, h4]
  rfl

/-- The hypotheses of `C60_both_partial` and `C62_nonneg` hold for this case. -/
theorem toy_both : ∃ out, (toyEnv (prepSample 0 1)).fitCurve [[1, 10]] [1, 2] bothOn (fun _ => [1]) (fun _ => [1]) = .ok out := by
  obtain ⟨t1, u1, p1, e1, r1, ⟨x1, y1, w1, w2, w3⟩, g1⟩ := toyEnv_predict (prepSample 0 1) (prepSample_regular (by norm_num)) (prepSample_names _ _)
    _ _ _ _ _ _ _ _ (prepSample_used 0 1) [[1, 1]] (by simp)
  have htq : (toyEnv (prepSample 0 1)).trainedQ = [1, 2] := rfl
  have hs : ∀ q t, (toyEnv (prepSample 0 1)).simulate q t = .ok (List.replicate t.rows (List.replicate q.length (some 1))) := fun _ _ => rfl
  have hopt := toy_optimizeQ p1 r1
  have hnet : (toyEnv (prepSample 0 1)).networkInput [[1, 10]] [1, 2] 0 1 = .ok [[1, 10]] := toy_networkInput
  have hscale : (toyEnv (prepSample 0 1)).optimizeScaling [1, 2] 0 2 [1, 10] [1] 1 = .ok (1, t1.row 0) := by
    unfold FitEnv.optimizeScaling FitEnv.fitPlain
    rw [toy_qIndices, bind_ok]
    have : (toyEnv (prepSample 0 1)).networkInput (curveScalingVariants [1, 10] [1]) [1, 2] 1 1 = .ok [[1, 1]] := by
      unfold FitEnv.networkInput FitEnv.interpolate curveScalingVariants
      simp only [mul_one, List.map_id', List.map_cons, List.map_nil]
      have hi := interp_shifted
      simp only [List.map_cons, List.map_nil] at hi
      rw [mapM_cons, htq, hi]
      rfl
    rw [this, bind_ok, p1, bind_ok, hs, r1]
    rfl
  have hrow : (t1.row 0).rows = 1 := by simp [Table.row, r1]
  refine ⟨⟨t1.row 0, some [[some 1, some 1]], some [1], some [1]⟩, ?_⟩
  unfold FitEnv.fitCurve
  rw [toy_qIndices, bind_ok]
  have e1 : bothOn.dq = 0 := rfl
  have e2 : bothOn.factor = 1 := rfl
  have e3 : bothOn.optimizeQ = true := rfl
  have e4 : bothOn.optimizeScaling = true := rfl
  have e5 : bothOn.polish = false := rfl
  have e6 : bothOn.simulate = true := rfl
  simp only [e1, e2, hnet, bind_ok]
  unfold FitEnv.qStep FitEnv.scalingStep FitEnv.chooseParams FitEnv.polishStep FitEnv.simulateStep
  rw [e3, e4, e5, e6]
  simp only [if_true, Bool.false_eq_true, if_false, List.zipIdx_cons, List.zipIdx_nil, bind_ok, Bool.true_and]
  rw [mapM_cons, hopt]
  simp only [bind_ok, mapM_ok_nil, pure, Except.pure, List.map_cons, List.map_nil]
  have : Table.concat [t1.row 0] = .ok (t1.row 0) := rfl
  rw [this]
  simp only [bind_ok]
  rw [mapM_cons]
  simp only [List.getD_cons_zero, hscale, bind_ok, mapM_ok_nil, pure, Except.pure, List.map_cons, List.map_nil, this]
  rw [hs, hrow]
  rfl

example : ∃ out, (toyEnv (prepSample 0 1)).fitCurve [[1, 10]] [1, 2] bothOn (fun _ => [1]) (fun _ => [1]) = .ok out ∧
    NonnegLengths out.params ∧ ∃ b, BestScaling (toyEnv (prepSample 0 1)) [1, 2] 0 2 [1, 10] [1] b 1 (out.params.row 0) := by
  obtain ⟨out, h⟩ := toy_both
  obtain ⟨lo, hi, bs, ss, k1, k2, k3, k4, k5, k6, k7⟩ := C60_both_partial (toyEnv (prepSample 0 1))
    (by show ([1, 2] : List ℝ).Pairwise (· < ·); norm_num)
    (by show ([1, 2] : List ℝ) ≠ []; simp) (toyEnv_net _) (toyEnv_sim _) _ _ bothOn _ _ out rfl rfl rfl h
  rw [toy_qIndices] at k1
  cases k1
  obtain ⟨b, s, -, -, -, k8⟩ := k7 0 [1, 10] rfl
  refine ⟨out, h, C62_nonneg _ _ _ _ _ _ _ h, b, ?_⟩
  have : s = 1 := by
    obtain ⟨_, _, _, k, -, -, -, -, -, hk, -⟩ := k8
    match k, hk with
    | 0, hk => simpa using hk.symm
  subst this
  exact k8

/-! ### Layer names -/

/-- C62 for the labels of a part named `name`: thickness and roughness become their absolute values, the SLD is unaltered if
neither word occurs in `name`. Missing: the SLD of parts with such names (`C62_sld_altered`). -/
theorem C62_labels_partial (env : FitEnv) (rows : List (List ℝ)) (t : Table) (h : env.predict rows = .ok t) :
    ∃ x y u, env.standardize rows = .ok x ∧ env.net x = .ok y ∧ restoreLabels fitNorm env.sample y = .ok u ∧
      ∀ name, (¬ "thickness".toList <:+: name → ¬ "roughness".toList <:+: name →
          t.cols.get (name ++ "_sld".toList) = u.cols.get (name ++ "_sld".toList)) ∧
        ∀ w, w = "_thickness".toList ∨ w = "_roughness".toList → ∀ col, u.cols.get (name ++ w) = .ok col →
          t.cols.get (name ++ w) = .ok (col.map fun (v : Fl) => v.map fun (z : ℂ) => ((‖z‖ : ℝ) : ℂ)) := by
  obtain ⟨x, y, u, h1, h2, h3, -, h5, h6⟩ := C62_values env rows t h
  refine ⟨x, y, u, h1, h2, h3, fun name => ⟨fun ht hr => h5 _ ?_ ?_, ?_⟩⟩
  · rw [show "_sld".toList = '_' :: "sld".toList from by decide, infix_sep_iff (by decide)]
    rintro (hh | hh)
    · exact ht hh
    · exact absurd hh.length_le (by decide)
  · rw [show "_sld".toList = '_' :: "sld".toList from by decide, infix_sep_iff (by decide)]
    rintro (hh | hh)
    · exact hr hh
    · exact absurd hh.length_le (by decide)
  · rintro w (rfl | rfl) col hc
    · refine h6 _ _ (Or.inl ⟨name ++ "_".toList, [], ?_⟩) hc
      rw [List.append_nil, List.append_assoc, show "_".toList ++ "thickness".toList = "_thickness".toList from by decide]
    · refine h6 _ _ (Or.inr ⟨name ++ "_".toList, [], ?_⟩) hc
      rw [List.append_nil, List.append_assoc, show "_".toList ++ "roughness".toList = "_roughness".toList from by decide]


/-- A sample whose layer has the word roughness in its name. -/
noncomputable def wordSample : SampleV ℝ where
  substrate := ⟨.substrate, "Si".toList, none, some (.const (.real 1) (some "roughness".toList)),
    some (.const (.real 20) (some "sld".toList))⟩
  ambient := ⟨.ambient, "air".toList, none, none, some (.const (.real 0) (some "sld".toList))⟩
  layers := [⟨.layer, "roughness_layer".toList, some (.range (.real 10) (.real 20) (some "thickness".toList)),
    some (.const (.real 3) (some "roughness".toList)),
    some (.range (.real (-2)) (.real (-1)) (some "sld".toList))⟩]

theorem wordSample_regular : SampleRegular wordSample := by
  refine ⟨⟨rfl, rfl, ⟨_, rfl, ⟨rfl, trivial⟩, ?_⟩, ⟨_, rfl, rfl, trivial⟩⟩,
    ⟨rfl, rfl, rfl, ⟨_, rfl, rfl, trivial⟩⟩, ?_⟩
  · simp only [Param.min, Num.ltZero]; norm_num
  · intro l hl
    simp only [wordSample, List.mem_singleton] at hl
    subst hl
    refine ⟨Or.inl rfl, ⟨_, rfl, ⟨rfl, ?_⟩, ?_⟩, ⟨_, rfl, ⟨rfl, trivial⟩, ?_⟩, ⟨_, rfl, rfl, ?_⟩⟩
    · simp only [ParamValid, Num.ge]; norm_num
    · simp only [Param.min, Num.ltZero]; norm_num
    · simp only [Param.min, Num.ltZero]; norm_num
    · simp only [ParamValid, Num.ge]; norm_num

theorem wordSample_names : (partNames wordSample).Nodup := by
  show (["Si".toList, "roughness_layer".toList, "air".toList]).Nodup
  decide

theorem wordSample_used : ((labelParams wordSample).filter fun q => !q.2.isConst) =
    [("roughness_layer_thickness".toList, .range (.real 10) (.real 20) (some "thickness".toList)),
     ("roughness_layer_sld".toList, .range (.real (-2)) (.real (-1)) (some "sld".toList))] := rfl

/-- C62 is false for the SLD of a layer with one of the two words in its name: the restored prediction -2, which is inside of the
range from -2 to -1, is returned as 2. -/
theorem C62_sld_altered : ∃ (env : FitEnv) (rows x : List (List ℝ)) (y : LabelArg) (t u : Table),
    SampleRegular env.sample ∧ (partNames env.sample).Nodup ∧ NetShape env ∧
    ("roughness_layer_sld".toList, Param.range (.real (-2)) (.real (-1)) (some "sld".toList)) ∈ labelParams env.sample ∧
    env.standardize rows = .ok x ∧ env.net x = .ok y ∧ restoreLabels fitNorm env.sample y = .ok u ∧ env.predict rows = .ok t ∧
    u.cols.get "roughness_layer_sld".toList = .ok [some (-2)] ∧ t.cols.get "roughness_layer_sld".toList = .ok [some 2] := by
  obtain ⟨t, u, p1, e1, r1, ⟨x, y, h1, h2, h3⟩, g1⟩ := toyEnv_predict wordSample wordSample_regular wordSample_names
    _ _ _ _ _ _ _ _ wordSample_used [[1, 0]] (by simp)
  have g2 : u.cols.get "roughness_layer_sld".toList = .ok [some (-2)] := by
    rw [g1]
    simp only [List.map_cons, List.map_nil, List.getD_cons_succ, List.getD_cons_zero, Num.toC]
    congr 3
    apply Complex.ext <;> simp
  obtain ⟨x', y', u', k1, k2, k3, -, -, k6⟩ := C62_values _ _ _ p1
  rw [h1] at k1; cases k1
  rw [h2] at k2; cases k2
  have k3' : restoreLabels fitNorm wordSample y = .ok u' := k3
  rw [h3] at k3'; cases k3'
  have k7 := k6 "roughness_layer_sld".toList _ (Or.inr ⟨[], "_layer_sld".toList, by decide⟩) g2
  refine ⟨toyEnv wordSample, [[1, 0]], x, y, t, u, wordSample_regular, wordSample_names, toyEnv_net _, ?_, h1, h2, h3, p1, g2, ?_⟩
  · have : ("roughness_layer_sld".toList, Param.range (.real (-2)) (.real (-1)) (some "sld".toList)) ∈
        ((labelParams wordSample).filter fun q => !q.2.isConst) := by rw [wordSample_used]; simp
    exact (List.mem_filter.1 this).1
  · rw [k7]
    simp

end Verif.Props
