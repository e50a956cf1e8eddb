import Verif.Props.Polish
import Verif.Props.Noise

/-!
# C98: the refinement improves the fit of every curve
-/

namespace Verif.Props
open Verif.Py Verif.Model Verif.Spec Verif.Model.FitEnv

theorem log10_some {x : Option ℝ} {y : ℝ} (h : log10 x = some y) : ∃ z, x = some z ∧ 0 < z ∧ y = Real.logb 10 z := by
  cases x with
  | none => cases h
  | some z =>
    simp only [log10, Option.bind_some] at h
    split_ifs at h with hz
    cases h
    exact ⟨z, rfl, hz, rfl⟩

theorem log10_curve {c : List (Option ℝ)} {a : List ℝ} (h : c.map log10 = a.map some) :
    ∃ s : List ℝ, c = s.map some ∧ PositiveCurve s ∧ a = s.map fun (x : ℝ) => Real.logb 10 x := by
  induction c generalizing a with
  | nil =>
    cases a with
    | nil => exact ⟨[], rfl, by simp [PositiveCurve], rfl⟩
    | cons x a => cases h
  | cons x c ih =>
    cases a with
    | nil => cases h
    | cons y a =>
      simp only [List.map_cons, List.cons.injEq] at h
      obtain ⟨z, rfl, hz, rfl⟩ := log10_some h.1
      obtain ⟨s, rfl, hs, rfl⟩ := ih h.2
      exact ⟨z :: s, rfl, by intro v hv; rcases List.mem_cons.1 hv with rfl | hv; exacts [hz, hs v hv], rfl⟩

/-- What the model function computes for given normalized labels. -/
theorem fittingModel_ok {env : FitEnv} (hsim : SimShape env) {q p a : List ℝ} (h : env.fittingModel q p = .ok (a.map some)) :
    ∃ t s, restoreLabels fitNorm env.sample (.array 1 (p.map fun (x : ℝ) => [some (x : ℂ)])) = .ok t ∧
      (t.rows = 1 → env.simulate q t = .ok [s.map some]) ∧ PositiveCurve s ∧ a = s.map fun (x : ℝ) => Real.logb 10 x := by
  unfold FitEnv.fittingModel at h
  obtain ⟨t, h1, h⟩ := bind_eq_ok.1 h
  obtain ⟨r, h2, h⟩ := bind_eq_ok.1 h
  obtain ⟨c, h3, h⟩ := bind_eq_ok.1 h
  simp only [pure, Except.pure, Except.ok.injEq] at h
  obtain ⟨s, rfl, hs, ha⟩ := log10_curve h
  refine ⟨t, s, h1, fun ht => ?_, hs, ha⟩
  have hl := (hsim _ _ _ h2).1
  rw [ht] at hl
  match r, hl with
  | [x], _ =>
    have : x = s.map some := by
      have := getItem_nat_some (k := 0) h3
      simpa using this
    rw [← this]
    exact h2

theorem sum_logb {data s : List ℝ} (h : s.length = data.length) :
    ∑ i ∈ Finset.range (data.map fun (x : ℝ) => Real.logb 10 x).length,
        ((s.map fun (x : ℝ) => Real.logb 10 x).getD i 0 - (data.map fun (x : ℝ) => Real.logb 10 x).getD i 0) ^ 2 =
      ∑ i ∈ Finset.range data.length, (Real.logb 10 (data.getD i 0) - Real.logb 10 (s.getD i 0)) ^ 2 := by
  rw [List.length_map]
  refine Finset.sum_congr rfl fun i hi => ?_
  have hi := Finset.mem_range.1 hi
  have h1 : i < s.length := by omega
  simp only [List.getD_eq_getElem?_getD, List.getElem?_map, List.getElem?_eq_getElem hi, List.getElem?_eq_getElem h1, Option.map_some,
    Option.getD_some]
  ring

/-- The normalized labels of a row are the start values, and restoring them gives the row. -/
theorem start_restores {s : SampleV ℝ} (hs : SampleRegular s) (hn : (partNames s).Nodup) {t : Table} (ht : IsLabelTable s t)
    (hc : t.cols.columns = (labelParams s).map Prod.fst) (h1 : t.rows = 1) {prep b : Table} {row : List Fl} {start : List ℝ}
    (ha : applyPreprocessing fitNorm s (.frame t) = .ok (prep, b))
    (hr : prep.cols.mapM (fun (c : Str × List Fl) => getItem c.2 0) = .ok row) (hl : realLabels row = .ok start) :
    restoreLabels fitNorm s (.array 1 (start.map fun (x : ℝ) => [some (x : ℂ)])) = .ok t := by
  have hz : Normalizable fitNorm s := fun he => absurd he (by decide)
  obtain ⟨a, b', r, e1, e2, e3, e4, e5, e6⟩ := C22_round_trip_partial fitNorm (Or.inl rfl) s hs hn hz t ht
  rw [ha] at e1
  cases e1
  obtain ⟨e7, e8⟩ := e6 hc
  have hrt : r = t := by
    cases r
    cases t
    simp only at e3 e7
    rw [e3, e7]
  have hnd := labelParams_nodup hs hn
  obtain ⟨a', b'', k1, k2, k3, k4, k5, k6, k7, k8, k9⟩ := C24_partition fitNorm (Or.inl rfl) s hs hn hz t ht.columns
  rw [ha] at k1
  cases k1
  have hlen : ∀ c ∈ prep.cols, c.2.length = 1 := by
    intro c hcm
    have hk : c.1 ∈ prep.cols.columns := List.mem_map.2 ⟨c, hcm, rfl⟩
    rw [k7 hc] at hk
    obtain ⟨⟨n, p⟩, hq, hqn⟩ := List.mem_map.1 hk
    obtain ⟨hq1, hq2⟩ := List.mem_filter.1 hq
    simp only at hqn
    subst hqn
    cases p with
    | const v nm => simp [Param.isConst] at hq2
    | range lo hi nm =>
      obtain ⟨col, g1, g2⟩ := k8 _ lo hi nm hq1
      have hnp : prep.cols.columns.Nodup := by
        rw [k7 hc]
        exact hnd.sublist (List.filter_sublist.map _)
      rw [get_of_mem hnp hcm] at g2
      simp only [Except.ok.injEq] at g2
      rw [g2, List.length_map, ← h1]
      exact ht.length _ (mem_of_get g1)
  have hcols : prep.cols.map (fun (c : Str × List Fl) => c.2) = start.map fun (x : ℝ) => [some (x : ℂ)] := by
    have f1 := mapM_ok_iff.1 hr
    have f2 := mapM_ok_iff.1 (show row.mapM _ = _ from hl)
    clear hr hl ha e2 e8 k2 k4 k5 k7 k8
    generalize prep.cols = cs at f1 hlen
    induction f1 generalizing start with
    | nil => cases f2; rfl
    | @cons c z cs row' hx _ ih =>
      cases f2 with
      | cons hy f2 =>
        rename_i y start'
        rw [List.map_cons, List.map_cons, ih f2 (fun c hc => hlen c (List.mem_cons_of_mem _ hc))]
        congr 1
        have hl1 := hlen c (List.mem_cons_self ..)
        match hcc : c.2, hl1 with
        | [w], _ =>
          rw [hcc] at hx
          have : w = z := by simpa using getItem_nat_some (k := 0) hx
          subst this
          cases w with
          | none => cases hy
          | some z =>
            simp only at hy
            split_ifs at hy with him
            cases hy
            congr 2
            exact Complex.ext rfl (by simpa using him)
  rw [← hcols, ← hrt, ← e8, k2, h1]

/-- The refinement of one curve starts with the simulated curve of the given labels and ends with one that does not have a larger
log MSE. -/
theorem leastLog_descends (env : FitEnv) (hs : SampleRegular env.sample) (hn : (partNames env.sample).Nodup) (hsim : SimShape env)
    (hd : Descends env) {t : Table} (ht : IsLabelTable env.sample t) (hc : t.cols.columns = (labelParams env.sample).map Prod.fst)
    (h1 : t.rows = 1) {q data fr : List ℝ} {u : Table} (h : env.leastLogFit q data t fr = .ok u) :
    u.rows = 1 ∧ PositiveCurve data ∧ ∃ s0 s1 : List ℝ, PositiveCurve s0 ∧ PositiveCurve s1 ∧ s0.length = data.length ∧
      s1.length = data.length ∧ env.simulate q t = .ok [s0.map some] ∧ env.simulate q u = .ok [s1.map some] ∧
      logMse data s1 ≤ logMse data s0 := by
  unfold FitEnv.leastLogFit at h
  obtain ⟨⟨prep, b⟩, e1, h⟩ := bind_eq_ok.1 h
  obtain ⟨row, e2, h⟩ := bind_eq_ok.1 h
  obtain ⟨start, e3, h⟩ := bind_eq_ok.1 h
  obtain ⟨p, e4, h⟩ := bind_eq_ok.1 h
  unfold FitEnv.curveFit at e4
  split_ifs at e4 with c1 c2
  obtain ⟨d, e5, e4⟩ := bind_eq_ok.1 e4
  obtain ⟨hp, rfl⟩ := checkFinite_ok e5
  obtain ⟨a, b, f1, f2, f3, f4, f5⟩ := hd _ _ _ _ _ _ e4
  obtain ⟨t0, s0, g1, g2, g3, rfl⟩ := fittingModel_ok hsim f1
  obtain ⟨t1, s1, g4, g5, g6, rfl⟩ := fittingModel_ok hsim f2
  rw [start_restores hs hn ht hc h1 e1 e2 e3] at g1
  cases g1
  have hu : t1 = u := by
    rw [g4] at h
    cases h
    rfl
  subst hu
  have hrow : t1.rows = 1 := restore_rows g4
  rw [List.length_map, List.length_map] at f3 f4
  refine ⟨hrow, hp, s0, s1, g3, g6, f3, f4, g2 h1, g5 hrow, ?_⟩
  rw [sum_logb f3, sum_logb f4] at f5
  unfold logMse
  exact div_le_div_of_nonneg_right f5 (by positivity)

/-! ### `fit_curve` -/

theorem ensurePositive_row (t : Table) (i : Nat) : (ensurePositive t).row i = ensurePositive (t.row i) := by
  unfold ensurePositive Table.row
  simp only [Table.mk.injEq, true_and, List.map_map]
  refine List.map_congr_left fun c _ => ?_
  simp only [Function.comp]
  split_ifs
  · simp [List.map_drop, List.map_take]
  · rfl

theorem ensurePositive_id {t : Table} (h : NonnegLengths t) : ensurePositive t = t := by
  unfold ensurePositive
  cases t with
  | mk rows cols =>
    simp only [Table.mk.injEq, true_and]
    conv_rhs => rw [← List.map_id cols]
    refine List.map_congr_left fun c hc => ?_
    split_ifs with hl
    · have h1 := h c hc (isLengthName_iff.1 hl)
      refine Prod.ext rfl ?_
      show c.2.map Fl.abs = c.2
      conv_rhs => rw [← List.map_id c.2]
      refine List.map_congr_left fun x hx => ?_
      cases x with
      | none => rfl
      | some z =>
        obtain ⟨h2, h3⟩ := h1 z hx
        have hz : z = ((z.re : ℝ) : ℂ) := Complex.ext rfl (by simpa using h2)
        show some ((‖z‖ : ℝ) : ℂ) = some z
        congr 1
        rw [hz, Complex.norm_real, Real.norm_eq_abs, abs_of_nonneg h3]
    · rfl

/-- C98, simulated curves: with `simulate_reflectivity` the returned curves are the ones simulated with the returned parameters at the
given q values, without it there are none. -/
theorem C98_simulated (env : FitEnv) (curves : List (List ℝ)) (q : List ℝ) (o : Options) (shifts scalings : Nat → List ℝ) (out : Output)
    (h : env.fitCurve curves q o shifts scalings = .ok out) :
    (o.simulate = true → ∃ r, out.refl = some r ∧ env.simulate q out.params = .ok r) ∧ (o.simulate = false → out.refl = none) := by
  obtain ⟨lo, hi, rows, scaled, params, -, -, -, -, -, -, h7, -⟩ := fitCurve_ok h
  unfold FitEnv.simulateStep at h7
  constructor
  · intro hs
    rw [if_pos hs] at h7
    obtain ⟨r, h8, h7⟩ := bind_eq_ok.1 h7
    simp only [pure, Except.pure, Except.ok.injEq] at h7
    exact ⟨r, h7.symm, h8⟩
  · intro hs
    rw [if_neg (by simp [hs])] at h7
    simpa using h7.symm

/-- C98, each curve by itself: the refined labels of a curve are the result of the least squares fit of this curve, between the
positions that belong to the limits of the trained q values, which starts with the labels of this curve without refinement. -/
theorem C98_each (env : FitEnv) (curves : List (List ℝ)) (q : List ℝ) (o : Options) (shifts scalings : Nat → List ℝ) (out out' : Output)
    (h : env.fitCurve curves q { o with polish := false } shifts scalings = .ok out)
    (h' : env.fitCurve curves q { o with polish := true } shifts scalings = .ok out') (i : Nat) (c : List ℝ) (hc : curves[i]? = some c) :
    ∃ lo hi u, env.qIndices q = .ok (lo, hi) ∧
      env.leastLogFit ((q.take hi).drop lo) ((c.take hi).drop lo) (out.params.row i) o.fractions = .ok u ∧
      out'.params.row i = ensurePositive u := by
  obtain ⟨lo, hi, rows, scaled, params, h1, h2, h3, h4, h5, h6, h7, h8⟩ := fitCurve_ok h
  obtain ⟨lo', hi', rows', scaled', params', g1, g2, g3, g4, g5, g6, g7, g8⟩ := fitCurve_ok h'
  rw [h1] at g1
  rw [h2] at g2
  rw [h3] at g3
  simp only [Except.ok.injEq, Prod.mk.injEq] at g1 g2 g3
  obtain ⟨rfl, rfl⟩ := g1
  subst g2
  rw [← g3, h4] at g4
  simp only [Except.ok.injEq] at g4
  subst g4
  have hch : env.chooseParams { o with polish := false } rows scaled = env.chooseParams { o with polish := true } rows scaled := rfl
  rw [hch, g5] at h5
  simp only [Except.ok.injEq] at h5
  subst h5
  unfold FitEnv.polishStep at h6 g6
  rw [if_neg (by simp)] at h6
  rw [if_pos rfl] at g6
  simp only [Except.ok.injEq] at h6
  subst h6
  obtain ⟨ts, k1, g6⟩ := bind_eq_ok.1 g6
  obtain ⟨t, k2, g6⟩ := bind_eq_ok.1 g6
  simp only [pure, Except.pure, Except.ok.injEq] at g6
  have hrl : rows.length = curves.length := by
    unfold FitEnv.networkInput FitEnv.interpolate at h2
    simpa using mapM_length h2
  have hil : i < curves.length := (List.getElem?_eq_some_iff.1 hc).1
  have hts : ∀ u ∈ ts, TableWf u ∧ u.rows = 1 := by
    intro u hu
    obtain ⟨j, -, hj⟩ := forall₂_mem_right (mapM_ok_iff.1 k1) hu
    obtain ⟨cj, -, hj⟩ := bind_eq_ok.1 hj
    unfold FitEnv.leastLogFit at hj
    obtain ⟨_, -, hj⟩ := bind_eq_ok.1 hj
    obtain ⟨_, -, hj⟩ := bind_eq_ok.1 hj
    obtain ⟨_, -, hj⟩ := bind_eq_ok.1 hj
    obtain ⟨p, -, hj⟩ := bind_eq_ok.1 hj
    exact ⟨restore_wf (by simp) hj, restore_rows hj⟩
  obtain ⟨n1, n2⟩ := concat_rows k2 hts
  have htl : ts.length = rows.length := by simpa using mapM_length k1
  obtain ⟨u, hu⟩ : ∃ u, ts[i]? = some u := ⟨_, List.getElem?_eq_getElem (by omega)⟩
  have hfit : env.leastLogFit (slice q (some lo) (some hi)) (slice c (some lo) (some hi)) (out.params.row i) o.fractions = .ok u := by
    have hf := (List.forall₂_iff_get.1 (mapM_ok_iff.1 k1)).2 i (by simp; omega) (by omega)
    simp only [List.get_eq_getElem, List.getElem_range] at hf
    obtain ⟨c', hc', hf⟩ := bind_eq_ok.1 hf
    have e1 := getItem_nat_some hc'
    rw [hc] at e1
    cases e1
    rw [hf]
    congr 1
    exact (List.getElem?_eq_some_iff.1 hu).2
  rw [slice_nat', slice_nat'] at hfit
  refine ⟨lo, hi, u, h1, hfit, ?_⟩
  rw [← g6, ensurePositive_row, n2 i u hu]

/-- C98, improvement: if the unrefined labels of a curve are labels of the sample (finite, constants at their value), the curve simulated with
the refined labels has no larger log MSE to the measured curve than the one simulated with the unrefined labels. Missing: the labels
returned are the refined ones made positive; they are the refined ones if no refined length is negative. -/
theorem C98_improves_partial (env : FitEnv) (hs : SampleRegular env.sample) (hn : (partNames env.sample).Nodup) (hsim : SimShape env)
    (hd : Descends env) (curves : List (List ℝ)) (q : List ℝ) (o : Options) (shifts scalings : Nat → List ℝ) (out out' : Output)
    (h : env.fitCurve curves q { o with polish := false } shifts scalings = .ok out)
    (h' : env.fitCurve curves q { o with polish := true } shifts scalings = .ok out') (i : Nat) (c : List ℝ) (hc : curves[i]? = some c)
    (ht : IsLabelTable env.sample (out.params.row i)) (h1 : (out.params.row i).rows = 1)
    (hcol : out.params.cols.columns = (labelParams env.sample).map Prod.fst) :
    ∃ lo hi u, ∃ s0 s1 : List ℝ, env.qIndices q = .ok (lo, hi) ∧
      env.simulate ((q.take hi).drop lo) (out.params.row i) = .ok [s0.map some] ∧
      env.simulate ((q.take hi).drop lo) u = .ok [s1.map some] ∧
      logMse ((c.take hi).drop lo) s1 ≤ logMse ((c.take hi).drop lo) s0 ∧
      out'.params.row i = ensurePositive u ∧ (NonnegLengths u → out'.params.row i = u) := by
  obtain ⟨lo, hi, u, e1, e2, e3⟩ := C98_each env curves q o shifts scalings out out' h h' i c hc
  have hcol' : (out.params.row i).cols.columns = (labelParams env.sample).map Prod.fst := by
    rw [← hcol]
    simp [Table.row, Frame.columns, List.map_map, Function.comp_def]
  obtain ⟨-, -, s0, s1, -, -, -, -, k1, k2, k3⟩ := leastLog_descends env hs hn hsim hd ht hcol' h1 e2
  exact ⟨lo, hi, u, s0, s1, e1, k1, k2, k3, e3, fun hu => by rw [e3, ensurePositive_id hu]⟩

/-- A prediction within its ranges: the label `v n` of every free length is not below its lower limit, which is not negative, and constant
lengths are not negative. -/
def PredictionInside (s : SampleV ℝ) (v : Str → ℝ) : Prop :=
  (∀ n lo hi nm, (n, Param.range (.real lo) (.real hi) nm) ∈ labelParams s → "thickness".toList <:+: n ∨ "roughness".toList <:+: n →
    0 ≤ lo ∧ lo ≤ v n) ∧
  ∀ n x nm, (n, Param.const x nm) ∈ labelParams s → "thickness".toList <:+: n ∨ "roughness".toList <:+: n → x.toC.im = 0 ∧ 0 ≤ x.toC.re

theorem refined_nonneg (env : FitEnv) (hs : SampleRegular env.sample) (hn : (partNames env.sample).Nodup)
    (hr : RealRanges env.sample) (hb : WithinBounds env) {t : Table} {v : Str → ℝ} (ht : PredictionRow env.sample t v)
    (hv : PredictionInside env.sample v) {q data fr : List ℝ} (hf : ∀ f ∈ fr, f ≤ 1) {u : Table}
    (h : env.leastLogFit q data t fr = .ok u) : NonnegLengths u := by
  obtain ⟨k1, k2, k3, k4⟩ := C63_bounds_partial env hs hn hr hb t v ht q data fr u h
  have hnd := labelParams_nodup hs hn
  intro c hc hl z hz
  have hcn : c.1 ∈ u.cols.columns := List.mem_map.2 ⟨c, hc, rfl⟩
  have hget : u.cols.get c.1 = .ok c.2 := get_of_mem (by rw [k2]; exact hnd) hc
  rw [k2] at hcn
  obtain ⟨⟨n, p⟩, hp, hpn⟩ := List.mem_map.1 hcn
  simp only at hpn
  subst hpn
  cases p with
  | const x nm =>
    rw [k4 _ x nm hp] at hget
    simp only [Except.ok.injEq] at hget
    rw [← hget, List.mem_singleton, Option.some.injEq] at hz
    rw [hz]
    exact hv.2 _ x nm hp hl
  | range lo hi nm =>
    obtain ⟨a, b, rfl, rfl⟩ := hr _ _ _ _ hp
    have hm : (c.1, Param.range (.real a) (.real b) nm) ∈ freeParams env.sample := List.mem_filter.2 ⟨hp, rfl⟩
    obtain ⟨j, hj⟩ := List.mem_iff_getElem?.1 hm
    obtain ⟨f, w, f1, f2, f3, f4⟩ := k3 j _ _ _ _ hj
    rw [f3] at hget
    simp only [Except.ok.injEq] at hget
    rw [← hget, List.mem_singleton, Option.some.injEq] at hz
    rw [hz]
    refine ⟨by simp, ?_⟩
    obtain ⟨g1, g2⟩ := hv.1 _ a b nm hp hl
    have hf1 : f ≤ 1 := hf f (List.mem_of_getElem? f1)
    rw [abs_of_nonneg (show 0 ≤ v c.1 - a by linarith)] at f4
    have : w ≥ v c.1 - f * (v c.1 - a) := by linarith [(abs_le.1 f4).1]
    simp only [Complex.ofReal_re]
    nlinarith

/-- C98, improvement of what is returned: for a prediction within its ranges and fractions of at most one, the curve simulated with the
returned labels has no larger log MSE to the measured curve than the one simulated with the unrefined labels. -/
theorem C98_improves_inside (env : FitEnv) (hs : SampleRegular env.sample) (hn : (partNames env.sample).Nodup) (hsim : SimShape env)
    (hr : RealRanges env.sample) (hb : WithinBounds env) (hd : Descends env) (curves : List (List ℝ)) (q : List ℝ) (o : Options)
    (shifts scalings : Nat → List ℝ) (out out' : Output)
    (h : env.fitCurve curves q { o with polish := false } shifts scalings = .ok out)
    (h' : env.fitCurve curves q { o with polish := true } shifts scalings = .ok out') (i : Nat) (c : List ℝ) (hc : curves[i]? = some c)
    (v : Str → ℝ) (hp : PredictionRow env.sample (out.params.row i) v)
    (hconst : ∀ n x nm, (n, Param.const x nm) ∈ labelParams env.sample → x.toC = (v n : ℝ))
    (hv : PredictionInside env.sample v) (hf : ∀ f ∈ o.fractions, f ≤ 1) :
    ∃ lo hi, ∃ s0 s1 : List ℝ, env.qIndices q = .ok (lo, hi) ∧
      env.simulate ((q.take hi).drop lo) (out.params.row i) = .ok [s0.map some] ∧
      env.simulate ((q.take hi).drop lo) (out'.params.row i) = .ok [s1.map some] ∧
      logMse ((c.take hi).drop lo) s1 ≤ logMse ((c.take hi).drop lo) s0 := by
  obtain ⟨lo, hi, u, e1, e2, e3⟩ := C98_each env curves q o shifts scalings out out' h h' i c hc
  obtain ⟨p1, p2, p3⟩ := hp
  have hnd := labelParams_nodup hs hn
  have hcol : ∀ d ∈ (out.params.row i).cols, d.2 = [some ((v d.1 : ℝ) : ℂ)] := by
    intro d hd
    have h1 := p3 d.1 (List.mem_map.2 ⟨d, hd, rfl⟩)
    rw [get_of_mem (by rw [p2]; exact hnd) hd] at h1
    simpa using h1
  have ht : IsLabelTable env.sample (out.params.row i) := by
    refine ⟨by rw [p2], ?_, ?_, ?_⟩
    · intro d hd
      rw [hcol d hd, p1]
      rfl
    · intro d hd x hx
      rw [hcol d hd, List.mem_singleton] at hx
      rw [hx]
      simp
    · intro n x nm hx d hd hdn y hy
      rw [hcol d hd, List.mem_singleton] at hy
      rw [hy, hconst n x nm hx, hdn]
  obtain ⟨-, -, s0, s1, -, -, -, -, k1, k2, k3⟩ := leastLog_descends env hs hn hsim hd ht p2 p1 e2
  refine ⟨lo, hi, s0, s1, e1, k1, ?_, k3⟩
  rw [e3, ensurePositive_id (refined_nonneg env hs hn hr hb ⟨p1, p2, p3⟩ hv hf e2)]
  exact k2

/-! ### A concrete refinement -/

open Classical in
/-- The better of two lists of parameters with given values of the model function. -/
noncomputable def pickBetter (data start ub a b : List ℝ) : Res (List ℝ) :=
  if a.length = data.length then
    if b.length = data.length ∧ ∑ i ∈ Finset.range data.length, (b.getD i 0 - data.getD i 0) ^ 2 ≤
        ∑ i ∈ Finset.range data.length, (a.getD i 0 - data.getD i 0) ^ 2 then .ok ub else .ok start
  else .error .valueError

/-- A search that tries the upper bounds and returns the better of them and the start values. -/
noncomputable def tryUpper (f : List ℝ → Res (List (Option ℝ))) (data start ub : List ℝ) : Res (List ℝ) := do
  let x ← f start
  let a ← checkFinite x
  let y ← f ub
  let b ← checkFinite y
  pickBetter data start ub a b

theorem checkFinite_some {l : List (Option ℝ)} {d : List ℝ} (h : checkFinite l = .ok d) : l = d.map some := by
  have h1 := mapM_ok_iff.1 (show l.mapM _ = _ from h)
  clear h
  induction h1 with
  | nil => rfl
  | @cons x y l d hx _ ih =>
    rw [List.map_cons, ← ih]
    cases x with
    | none => cases hx
    | some z => cases hx; rfl

/-- The start values are within the bounds. -/
def Feasible (start lb ub : List ℝ) : Prop :=
  ∀ (i : Nat) (x l u : ℝ), start[i]? = some x → lb[i]? = some l → ub[i]? = some u → l ≤ x ∧ x ≤ u

open Classical in
/-- A model whose simulated curves are the predicted thickness. -/
noncomputable def thickEnv (s : SampleV ℝ) : FitEnv :=
  { toyEnv s with
    simulate := fun q t => .ok ((List.range t.rows).map fun (i : Nat) =>
      List.replicate q.length (((t.cols.headD ([], [])).2.getD i none).map Complex.re))
    optimizer := fun f data start lb ub => if Feasible start lb ub then tryUpper f data start ub else .error .valueError }

theorem thickEnv_sim (s : SampleV ℝ) : SimShape (thickEnv s) := by
  intro q t r h
  simp only [thickEnv, Except.ok.injEq] at h
  subst h
  refine ⟨by simp, fun c hc => ?_⟩
  obtain ⟨i, -, rfl⟩ := List.mem_map.1 hc
  simp

theorem tryUpper_ok {f : List ℝ → Res (List (Option ℝ))} {data start ub p : List ℝ} (h : tryUpper f data start ub = .ok p) :
    (p = start ∨ p = ub) ∧ ∃ a b : List ℝ, f start = .ok (a.map some) ∧ f p = .ok (b.map some) ∧ a.length = data.length ∧
      b.length = data.length ∧
      ∑ i ∈ Finset.range data.length, (b.getD i 0 - data.getD i 0) ^ 2 ≤ ∑ i ∈ Finset.range data.length, (a.getD i 0 - data.getD i 0) ^ 2 := by
  unfold tryUpper at h
  obtain ⟨x, h1, hb⟩ := bind_eq_ok.1 h
  obtain ⟨a, h2, hc⟩ := bind_eq_ok.1 hb
  obtain ⟨y, h3, hd⟩ := bind_eq_ok.1 hc
  obtain ⟨b, h4, he⟩ := bind_eq_ok.1 hd
  rw [checkFinite_some h2] at h1
  rw [checkFinite_some h4] at h3
  clear h hb hc hd
  unfold pickBetter at he
  split_ifs at he with c1 c2
  · cases he
    exact ⟨.inr rfl, a, b, h1, h3, c1, c2.1, c2.2⟩
  · cases he
    exact ⟨.inl rfl, a, a, h1, h1, c1, c1, le_refl _⟩

theorem thickEnv_descends (s : SampleV ℝ) : Descends (thickEnv s) := by
  intro f data start lb ub p h
  simp only [thickEnv] at h
  split_ifs at h
  exact (tryUpper_ok h).2

theorem thickEnv_within (s : SampleV ℝ) : WithinBounds (thickEnv s) := by
  intro f data start lb ub p hl hu hb h
  simp only [thickEnv] at h
  split_ifs at h with hf
  rcases (tryUpper_ok h).1 with rfl | rfl
  · exact ⟨rfl, hf⟩
  · refine ⟨hu, fun i x l u h1 h2 h3 => ?_⟩
    rw [h1] at h3
    cases h3
    have := hb (l, x) (List.mem_of_getElem? (i := i) (by rw [List.getElem?_zip_eq_some]; exact ⟨h2, h1⟩))
    exact ⟨this.le, le_refl _⟩

/-- The labels of `prepSample 0 1` with a thickness and an SLD. -/
noncomputable def pairTable (a b : ℝ) : Table :=
  ⟨1, [("film_thickness".toList, [some (a : ℂ)]), ("Si_roughness".toList, [some ((1 : ℝ) : ℂ)]),
    ("film_roughness".toList, [some ((3 : ℝ) : ℂ)]), ("Si_sld".toList, [some ((20 : ℝ) : ℂ)]),
    ("film_sld".toList, [some (b : ℂ)]), ("air_sld".toList, [some ((0 : ℝ) : ℂ)])]⟩

theorem restore_pair (x y : ℝ) : restoreLabels fitNorm (prepSample 0 1) (.array 1 [[some (x : ℂ)], [some (y : ℂ)]]) =
    .ok (pairTable (x * 10 + 10) y) := by
  have hs := prepSample_regular (lo := 0) (hi := 1) (by norm_num)
  have hn := prepSample_names 0 1
  have hnd := labelParams_nodup hs hn
  rw [restore_array hs rfl]
  obtain ⟨r, h1, h2, h3, h4, h5⟩ := restore_spec (norm := fitNorm) (Or.inl rfl) hs hn
    (t := ⟨1, (((labelParams (prepSample 0 1)).filter fun q => !q.2.isConst).map (·.1)).zip [[some (x : ℂ)], [some (y : ℂ)]]⟩) (by
      intro q hq hc
      simp only [Frame.columns]
      rw [List.map_fst_zip (by rw [List.length_map]; exact le_refl 2)]
      exact List.mem_map.2 ⟨q, List.mem_filter.2 ⟨hq, by simp [hc]⟩, rfl⟩)
  rw [h1]
  have hren : ∀ (z a b : ℝ) (nm : Option Str), renormUpd fitNorm (.range (.real a) (.real b) nm) [some (z : ℂ)] =
      [some ((z * (b - a) + a : ℝ) : ℂ)] := by
    intro z a b nm
    unfold renormUpd
    rw [if_pos (by decide)]
    simp only [List.map_cons, List.map_nil, Option.map_some, Param.min, Param.max, Num.toC]
    rw [show (⟨a, 0⟩ : ℂ) = (a : ℂ) from rfl, show (⟨b, 0⟩ : ℂ) = (b : ℂ) from rfl]
    push_cast
    rfl
  have hcols : r.cols = (pairTable (x * 10 + 10) y).cols := by
    refine frame_ext ?_ (by rw [h3]; exact hnd) ?_
    · rw [h3]; rfl
    · intro k hk
      rw [h3, prepSample_params] at hk
      simp only [List.map_cons, List.map_nil, List.mem_cons, List.not_mem_nil, or_false] at hk
      rcases hk with rfl | rfl | rfl | rfl | rfl | rfl
      · rw [h4 ("film_thickness".toList, .range (.real 10) (.real 20) (some "thickness".toList)) (by rw [prepSample_params]; simp) rfl [some (x : ℂ)] rfl, hren]
        show _ = Except.ok [some ((x * 10 + 10 : ℝ) : ℂ)]
        norm_num
      · rw [h5 _ (.real 1) (some "roughness".toList) (by rw [prepSample_params]; simp)]; rfl
      · rw [h5 _ (.real 3) (some "roughness".toList) (by rw [prepSample_params]; simp)]; rfl
      · rw [h5 _ (.real 20) (some "sld".toList) (by rw [prepSample_params]; simp)]; rfl
      · rw [h4 ("film_sld".toList, .range (.real 0) (.real 1) (some "sld".toList)) (by rw [prepSample_params]; simp) rfl [some (y : ℂ)] rfl, hren]
        show _ = Except.ok [some ((y : ℝ) : ℂ)]
        norm_num
      · rw [h5 _ (.real 0) (some "sld".toList) (by rw [prepSample_params]; simp)]; rfl
  cases r
  simp only at h2 hcols
  rw [h2, hcols]
  rfl

/-- The labels of `pairTable`. -/
noncomputable def pairLabels (a b : ℝ) (n : Str) : ℝ :=
  if n = "film_thickness".toList then a else if n = "Si_roughness".toList then 1 else if n = "film_roughness".toList then 3
  else if n = "Si_sld".toList then 20 else if n = "film_sld".toList then b else 0

theorem pairLabels_values (a b : ℝ) : pairLabels a b "film_thickness".toList = a ∧ pairLabels a b "Si_roughness".toList = 1 ∧
    pairLabels a b "film_roughness".toList = 3 ∧ pairLabels a b "Si_sld".toList = 20 ∧ pairLabels a b "film_sld".toList = b ∧
    pairLabels a b "air_sld".toList = 0 := by
  unfold pairLabels
  refine ⟨by rw [if_pos rfl], by rw [if_neg (by decide), if_pos rfl], by rw [if_neg (by decide), if_neg (by decide), if_pos rfl],
    by rw [if_neg (by decide), if_neg (by decide), if_neg (by decide), if_pos rfl],
    by rw [if_neg (by decide), if_neg (by decide), if_neg (by decide), if_neg (by decide), if_pos rfl],
    by rw [if_neg (by decide), if_neg (by decide), if_neg (by decide), if_neg (by decide), if_neg (by decide)]⟩

theorem pairTable_row (a b : ℝ) : PredictionRow (prepSample 0 1) (pairTable a b) (pairLabels a b) := by
  refine ⟨rfl, rfl, fun n hn => ?_⟩
  obtain ⟨e1, e2, e3, e4, e5, e6⟩ := pairLabels_values a b
  simp only [pairTable, Frame.columns, List.map_cons, List.map_nil, List.mem_cons, List.not_mem_nil, or_false] at hn
  rcases hn with rfl | rfl | rfl | rfl | rfl | rfl
  · rw [e1]; rfl
  · rw [e2]; rfl
  · rw [e3]; rfl
  · rw [e4]; rfl
  · rw [e5]; rfl
  · rw [e6]; rfl

theorem pair_inside {a b : ℝ} (h : 10 ≤ a) : PredictionInside (prepSample 0 1) (pairLabels a b) := by
  obtain ⟨e1, e2, e3, e4, e5, e6⟩ := pairLabels_values a b
  constructor
  · intro n lo hi nm hm hl
    rw [prepSample_params] at hm
    simp only [List.mem_cons, Prod.mk.injEq, Param.range.injEq, Num.real.injEq, List.not_mem_nil, or_false, reduceCtorEq, and_false, false_or] at hm
    rcases hm with ⟨rfl, rfl, rfl, -⟩ | ⟨rfl, rfl, rfl, -⟩
    · rw [e1]; exact ⟨by norm_num, h⟩
    · rcases hl with hl | hl <;> exact absurd hl (by decide)
  · intro n x nm hm hl
    rw [prepSample_params] at hm
    simp only [List.mem_cons, Prod.mk.injEq, Param.const.injEq, List.not_mem_nil, or_false, reduceCtorEq, and_false, false_or] at hm
    rcases hm with ⟨-, rfl, -⟩ | ⟨-, rfl, -⟩ | ⟨rfl, rfl, -⟩ | ⟨rfl, rfl, -⟩
    · simp [Num.toC]
    · simp [Num.toC]
    · rcases hl with hl | hl <;> exact absurd hl (by decide)
    · rcases hl with hl | hl <;> exact absurd hl (by decide)

theorem pair_const {a b : ℝ} (n : Str) (x : Num ℝ) (nm : Option Str) (hm : (n, Param.const x nm) ∈ labelParams (prepSample 0 1)) :
    x.toC = (pairLabels a b n : ℝ) := by
  obtain ⟨e1, e2, e3, e4, e5, e6⟩ := pairLabels_values a b
  rw [prepSample_params] at hm
  simp only [List.mem_cons, Prod.mk.injEq, Param.const.injEq, List.not_mem_nil, or_false, reduceCtorEq, and_false, false_or] at hm
  rcases hm with ⟨rfl, rfl, -⟩ | ⟨rfl, rfl, -⟩ | ⟨rfl, rfl, -⟩ | ⟨rfl, rfl, -⟩
  · rw [e2]; rfl
  · rw [e3]; rfl
  · rw [e4]; rfl
  · rw [e6]; rfl

theorem pair_fittingModel {x y : ℝ} (hx : 0 ≤ x) :
    (thickEnv (prepSample 0 1)).fittingModel [1, 2] [x, y] = .ok (([Real.logb 10 (x * 10 + 10), Real.logb 10 (x * 10 + 10)]).map some) := by
  have h1 : (thickEnv (prepSample 0 1)).sample = prepSample 0 1 := rfl
  unfold FitEnv.fittingModel
  rw [h1]
  simp only [List.map_cons, List.map_nil]
  rw [restore_pair, bind_ok]
  have h2 : (thickEnv (prepSample 0 1)).simulate [1, 2] (pairTable (x * 10 + 10) y) = .ok [[some (x * 10 + 10), some (x * 10 + 10)]] := rfl
  rw [h2, bind_ok]
  have h3 : FitEnv.log10 (some (x * 10 + 10)) = some (Real.logb 10 (x * 10 + 10)) := by
    unfold FitEnv.log10
    rw [Option.bind_some, if_pos (by linarith)]
  show Except.ok ([some (x * 10 + 10), some (x * 10 + 10)].map FitEnv.log10) = _
  simp only [List.map_cons, List.map_nil, h3]

theorem checkFinite_map (d : List ℝ) : checkFinite (d.map some) = .ok d := by
  unfold checkFinite
  rw [List.mapM_map]
  rw [mapM_eq_ok_map (g := fun (x : ℝ) => x) (by intro x _; rfl)]
  simp

/-- The refinement of the prediction 15, 1/2 succeeds. -/
theorem thick_refine {a b : ℝ} (ha : 0 < a) (hb : 0 < b) : ∃ u, (thickEnv (prepSample 0 1)).leastLogFit [1, 2] [a, b] (pairTable 15 (1/2)) [0.5, 0.5, 0.1] = .ok u := by
  have hreg := prepSample_regular (lo := 0) (hi := 1) (by norm_num)
  have h1 : (thickEnv (prepSample 0 1)).sample = prepSample 0 1 := rfl
  obtain ⟨e1, e2, e3, e4, e5, e6⟩ := pairLabels_values 15 (1/2)
  rw [leastLog_eq (thickEnv (prepSample 0 1)) hreg (prepSample_names _ _) (prepSample_realRanges _ _) (v := pairLabels 15 (1/2)) (pairTable_row _ _), h1]
  have hst : (freeParams (prepSample 0 1)).map (startOf (pairLabels 15 (1/2))) = [1/2, 1/2] := by
    rw [prepSample_free]
    simp only [List.map_cons, List.map_nil, startOf]
    rw [e1, e5]
    simp only [Param.min, Param.max, Num.toC]
    norm_num
  have hlb : lowerBounds (pairLabels 15 (1/2)) (prepSample 0 1) [0.5, 0.5, 0.1] = [1/4, 1/4] := by
    unfold lowerBounds
    rw [hst]
    simp only [List.zipWith_cons_cons, List.zipWith_nil_left]
    norm_num
  have hub : upperBounds (pairLabels 15 (1/2)) (prepSample 0 1) [0.5, 0.5, 0.1] = [3/4, 3/4] := by
    unfold upperBounds
    rw [hst]
    simp only [List.zipWith_cons_cons, List.zipWith_nil_left]
    norm_num
  rw [hst, hlb, hub]
  have hdata : ([a, b] : List ℝ).map (fun (x : ℝ) => FitEnv.log10 (some x)) = [Real.logb 10 a, Real.logb 10 b].map some := by
    simp only [List.map_cons, List.map_nil, FitEnv.log10, Option.bind_some, if_pos ha, if_pos hb]
  have hopt : ∃ p, (p = [1/2, 1/2] ∨ p = [3/4, 3/4]) ∧ (thickEnv (prepSample 0 1)).curveFit ((thickEnv (prepSample 0 1)).fittingModel [1, 2])
      (([a, b] : List ℝ).map (fun (x : ℝ) => FitEnv.log10 (some x))) [1/2, 1/2] [1/4, 1/4] [3/4, 3/4] = .ok p := by
    unfold FitEnv.curveFit
    rw [if_neg (by simp), if_neg (by simp; norm_num), hdata, checkFinite_map, bind_ok]
    have ho : ∀ f d st lb ub, Feasible st lb ub → (thickEnv (prepSample 0 1)).optimizer f d st lb ub = tryUpper f d st ub := by
      intro f d st lb ub hf
      exact if_pos hf
    rw [ho _ _ _ _ _ (by
      intro i x l u hx hl hu
      match i with
      | 0 => cases hx; cases hl; cases hu; norm_num
      | 1 => cases hx; cases hl; cases hu; norm_num
      | i + 2 => cases hx)]
    unfold tryUpper
    rw [pair_fittingModel (by norm_num), bind_ok, checkFinite_map, bind_ok, pair_fittingModel (by norm_num), bind_ok, checkFinite_map, bind_ok]
    unfold pickBetter
    rw [if_pos (by simp)]
    split_ifs
    · exact ⟨_, .inr rfl, rfl⟩
    · exact ⟨_, .inl rfl, rfl⟩
  obtain ⟨p, hp, hc⟩ := hopt
  rw [hc, bind_ok]
  rcases hp with rfl | rfl
  · exact ⟨_, restore_pair _ _⟩
  · exact ⟨_, restore_pair _ _⟩

/-- Default options, with and without refinement. -/
noncomputable def plainOpts (b : Bool) : Options := ⟨0, 1, b, [0.5, 0.5, 0.1], false, false, true⟩

theorem pair_positive {a b : ℝ} (ha : 0 ≤ a) : ensurePositive (pairTable a b) = pairTable a b := by
  refine ensurePositive_id ?_
  intro c hc hl z hz
  simp only [pairTable, List.mem_cons, List.not_mem_nil, or_false] at hc
  rcases hc with rfl | rfl | rfl | rfl | rfl | rfl
  case inr.inr.inr.inr.inl => exact absurd (show "thickness".toList <:+: "film_sld".toList ∨ "roughness".toList <:+: "film_sld".toList from hl) (by decide)
  all_goals first
    | (exact absurd hl (by decide))
    | (rw [List.mem_singleton, Option.some.injEq] at hz; subst hz; simp [ha])

/-- The fit of the curve 1, 1/2 succeeds with and without refinement. -/
theorem thick_fit : ∃ out out', (thickEnv (prepSample 0 1)).fitCurve [[1, 1/2]] [1, 2] (plainOpts false) (fun _ => []) (fun _ => []) = .ok out ∧
    (thickEnv (prepSample 0 1)).fitCurve [[1, 1/2]] [1, 2] (plainOpts true) (fun _ => []) (fun _ => []) = .ok out' ∧
    out.params = pairTable 15 (1/2) := by
  obtain ⟨u, hu⟩ := thick_refine (a := 1) (b := 1/2) (by norm_num) (by norm_num)
  have hq : (thickEnv (prepSample 0 1)).qIndices [1, 2] = .ok (0, 2) := toy_qIndices (prepSample 0 1)
  have hnet : (thickEnv (prepSample 0 1)).networkInput [[1, 1/2]] [1, 2] 0 1 = .ok [[1, 1/2]] := by
    have htq : (thickEnv (prepSample 0 1)).trainedQ = [1, 2] := rfl
    have := networkInput_self (env := thickEnv (prepSample 0 1)) (by rw [htq]; norm_num) (by simp [htq]) (v := [[1, 1/2]]) (by
      intro c hc
      rw [List.mem_singleton] at hc
      subst hc
      refine ⟨rfl, fun x hx => ?_⟩
      simp only [List.mem_cons, List.not_mem_nil, or_false] at hx
      rcases hx with rfl | rfl <;> norm_num)
    rwa [htq] at this
  have hpred : (thickEnv (prepSample 0 1)).predict [[1, 1/2]] = .ok (pairTable 15 (1/2)) := by
    have h1 : (thickEnv (prepSample 0 1)).standardize [[1, 1/2]] = .ok [[1, 1/2]] := toyEnv_standardize (prepSample 0 1) _ (by simp)
    have h2 : (thickEnv (prepSample 0 1)).net [[1, 1/2]] = .ok (.array 1 [[some ((1/2 : ℝ) : ℂ)], [some ((1/2 : ℝ) : ℂ)]]) := rfl
    have h3 : (thickEnv (prepSample 0 1)).sample = prepSample 0 1 := rfl
    unfold FitEnv.predict
    rw [h1, bind_ok, h2, bind_ok, h3, restore_pair, bind_ok, show (1/2 : ℝ) * 10 + 10 = 15 by norm_num, pair_positive (by norm_num)]
    rfl
  have hsim : ∀ q t, ∃ r, (thickEnv (prepSample 0 1)).simulate q t = .ok r := fun _ _ => ⟨_, rfl⟩
  obtain ⟨r1, hr1⟩ := hsim [1, 2] (pairTable 15 (1/2))
  obtain ⟨r2, hr2⟩ := hsim [1, 2] (ensurePositive u)
  refine ⟨⟨pairTable 15 (1/2), some r1, none, none⟩, ⟨ensurePositive u, some r2, none, none⟩, ?_, ?_, rfl⟩
  · unfold FitEnv.fitCurve
    rw [hq, bind_ok]
    have e1 : (plainOpts false).dq = 0 := rfl
    have e2 : (plainOpts false).factor = 1 := rfl
    simp only [e1, e2, hnet, bind_ok]
    unfold FitEnv.qStep FitEnv.scalingStep FitEnv.chooseParams FitEnv.polishStep FitEnv.simulateStep
    simp only [plainOpts, Bool.false_eq_true, if_false, bind_ok, Bool.false_and, hpred, if_true, hr1]
    rfl
  · unfold FitEnv.fitCurve
    rw [hq, bind_ok]
    have e1 : (plainOpts true).dq = 0 := rfl
    have e2 : (plainOpts true).factor = 1 := rfl
    simp only [e1, e2, hnet, bind_ok]
    unfold FitEnv.qStep FitEnv.scalingStep FitEnv.chooseParams FitEnv.polishStep FitEnv.simulateStep
    simp only [plainOpts, Bool.false_eq_true, if_false, bind_ok, Bool.false_and, hpred, if_true]
    have : List.range ([[1, 1/2]] : List (List ℝ)).length = [0] := rfl
    rw [this, mapM_cons]
    have h4 : getItem ([[1, 1/2]] : List (List ℝ)) ((0 : Nat) : Int) = .ok [1, 1/2] := rfl
    rw [h4]
    simp only [bind_ok]
    have h5 : slice ([1, 2] : List ℝ) (some ((0 : Nat) : Int)) (some ((2 : Nat) : Int)) = [1, 2] := rfl
    have h6 : slice ([1, 1/2] : List ℝ) (some ((0 : Nat) : Int)) (some ((2 : Nat) : Int)) = [1, 1/2] := rfl
    have h7 : (pairTable 15 (1/2)).row 0 = pairTable 15 (1/2) := rfl
    rw [h5, h6, h7, hu]
    simp only [bind_ok, mapM_ok_nil, pure, Except.pure]
    have h8 : Table.concat [u] = .ok u := rfl
    rw [h8]
    simp only [bind_ok]
    rw [hr2]
    rfl

/-- The hypotheses of `C98_improves_inside` (and of `C98_simulated` and `C98_each`) hold for this fit. -/
example : ∃ s0 s1 : List ℝ, ∃ out', (thickEnv (prepSample 0 1)).fitCurve [[1, 1/2]] [1, 2] (plainOpts true) (fun _ => []) (fun _ => []) = .ok out' ∧
    (thickEnv (prepSample 0 1)).simulate [1, 2] (pairTable 15 (1/2)) = .ok [s0.map some] ∧
    (thickEnv (prepSample 0 1)).simulate [1, 2] (out'.params.row 0) = .ok [s1.map some] ∧
    logMse [1, 1/2] s1 ≤ logMse [1, 1/2] s0 := by
  obtain ⟨out, out', h, h', hp⟩ := thick_fit
  have h7 : (pairTable 15 (1/2)).row 0 = pairTable 15 (1/2) := rfl
  obtain ⟨lo, hi, s0, s1, e1, e2, e3, e4⟩ := C98_improves_inside (thickEnv (prepSample 0 1)) (prepSample_regular (by norm_num)) (prepSample_names _ _)
    (thickEnv_sim _) (prepSample_realRanges _ _) (thickEnv_within _) (thickEnv_descends _) [[1, 1/2]] [1, 2] (plainOpts true) _ _ out out' h h'
    0 [1, 1/2] rfl (pairLabels 15 (1/2)) (by rw [hp, h7]; exact pairTable_row _ _) (fun n x nm => pair_const n x nm)
    (pair_inside (by norm_num)) (by simp only [plainOpts, List.mem_cons, List.not_mem_nil, or_false]; rintro f (rfl | rfl | rfl) <;> norm_num)
  have hq : (thickEnv (prepSample 0 1)).qIndices [1, 2] = .ok (0, 2) := toy_qIndices (prepSample 0 1)
  rw [hq] at e1
  cases e1
  rw [hp] at e2
  exact ⟨s0, s1, out', h', e2, e3, e4⟩

end Verif.Props
