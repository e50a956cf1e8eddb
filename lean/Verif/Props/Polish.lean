import Verif.Props.CurveFitterCases

/-!
# C63: the refinement
-/

namespace Verif.Props
open Verif.Py Verif.Model Verif.Spec Verif.Model.FitEnv

/-- The normalized start value of a free parameter. -/
noncomputable def startOf (v : Str → ℝ) (q : Str × Param ℝ) : ℝ :=
  (v q.1 - q.2.min.toC.re) / (q.2.max.toC.re - q.2.min.toC.re)

theorem get_map_of_mem {l : List (Str × Param ℝ)} (hn : (l.map Prod.fst).Nodup) (g : Str × Param ℝ → List Fl)
    {q : Str × Param ℝ} (hq : q ∈ l) :
    Frame.get (l.map fun (q : Str × Param ℝ) => (q.1, g q)) q.1 = .ok (g q) := by
  refine get_of_mem ?_ (List.mem_map.2 ⟨q, hq, rfl⟩)
  simpa [Frame.columns, List.map_map, Function.comp_def] using hn

theorem apply_row {s : SampleV ℝ} (hs : SampleRegular s) (hn : (partNames s).Nodup) (hr : RealRanges s) {t : Table} {v : Str → ℝ}
    (ht : PredictionRow s t v) :
    ∃ a b, applyPreprocessing fitNorm s (.frame t) = .ok (a, b) ∧
      a.cols = (freeParams s).map fun (q : Str × Param ℝ) => (q.1, [some ((startOf v q : ℝ) : ℂ)]) := by
  have hl : fitNorm = minToZero ∨ fitNorm = absoluteMax := Or.inl rfl
  have hz : Normalizable fitNorm s := fun he => absurd he (by decide)
  have hnd := labelParams_nodup hs hn
  obtain ⟨t1, t2, t3⟩ := ht
  obtain ⟨a, b, h1, -, -, -, -, h6, -⟩ := apply_spec hl hs hn hz (t := t) (by rw [t2])
  have hused : a.cols.columns = (freeParams s).map Prod.fst := by
    obtain ⟨a', b', e1, _, _, _, _, _, e7, _⟩ := C24_partition fitNorm hl s hs hn hz t (by rw [t2])
    rw [h1] at e1; cases e1
    exact e7 t2
  have hfn : ((freeParams s).map Prod.fst).Nodup := hnd.sublist (List.filter_sublist.map _)
  refine ⟨a, b, h1, frame_ext ?_ (hused ▸ hfn) ?_⟩
  · rw [hused]; simp [Frame.columns, List.map_map, Function.comp_def]
  · intro k hk
    rw [hused] at hk
    obtain ⟨⟨n, p⟩, hq, rfl⟩ := List.mem_map.1 hk
    rw [get_map_of_mem hfn _ hq]
    obtain ⟨hq1, hq2⟩ := List.mem_filter.1 hq
    cases p with
    | const c nm => simp [Param.isConst] at hq2
    | range lo hi nm =>
      have hc := t3 n (by rw [t2]; exact List.mem_map.2 ⟨_, hq1, rfl⟩)
      obtain ⟨x, y, rfl, rfl⟩ := hr _ _ _ _ hq1
      rw [h6 n _ _ nm _ hq1 hc]
      simp only [List.map_cons, List.map_nil, Option.map_some, normalized]
      rw [if_pos (show fitNorm = minToZero from rfl)]
      congr 3
      simp only [startOf, Param.min, Param.max, Num.toC]
      apply Complex.ext <;> norm_cast
      · rw [show (⟨x, 0⟩ : ℂ) = (x : ℂ) from rfl, show (⟨y, 0⟩ : ℂ) = (y : ℂ) from rfl]; norm_cast
      · rw [show (⟨x, 0⟩ : ℂ) = (x : ℂ) from rfl, show (⟨y, 0⟩ : ℂ) = (y : ℂ) from rfl]; norm_cast

theorem realLabels_map (l : List ℝ) : FitEnv.realLabels (l.map fun (x : ℝ) => some (x : ℂ)) = .ok l := by
  unfold FitEnv.realLabels
  rw [mapM_eq_ok_map (g := fun (x : Fl) => (x.getD 0).re)]
  · simp [Function.comp_def]
  · intro x hx
    obtain ⟨y, -, rfl⟩ := List.mem_map.1 hx
    simp

theorem checkFinite_pos {data : List ℝ} (h : PositiveCurve data) :
    checkFinite (data.map fun (x : ℝ) => log10 (some x)) = .ok (data.map fun (x : ℝ) => Real.logb 10 x) := by
  unfold checkFinite
  rw [mapM_eq_ok_map (g := fun (x : Option ℝ) => x.getD 0)]
  · rw [List.map_map]
    congr 1
    refine List.map_congr_left fun x hx => ?_
    simp [log10, h x hx]
  · intro x hx
    obtain ⟨y, hy, rfl⟩ := List.mem_map.1 hx
    simp [log10, h y hy]

theorem forall₂_mem_left {α β : Type} {R : α → β → Prop} {l : List α} {l' : List β} (h : List.Forall₂ R l l') :
    ∀ a ∈ l, ∃ b ∈ l', R a b := by
  induction h with
  | nil => simp
  | cons hr _ ih =>
    intro x hx
    rcases List.mem_cons.1 hx with rfl | hx
    · exact ⟨_, List.mem_cons_self .., hr⟩
    · obtain ⟨b, hb, h⟩ := ih x hx
      exact ⟨b, List.mem_cons_of_mem _ hb, h⟩

theorem checkFinite_ok {data : List ℝ} {d : List ℝ} (h : checkFinite (data.map fun (x : ℝ) => log10 (some x)) = .ok d) :
    PositiveCurve data ∧ d = data.map fun (x : ℝ) => Real.logb 10 x := by
  have hp : PositiveCurve data := by
    intro x hx
    by_contra hn
    unfold checkFinite at h
    have h1 := mapM_ok_iff.1 h
    obtain ⟨y, -, hy⟩ := forall₂_mem_left h1 _ (List.mem_map.2 ⟨x, hx, rfl⟩)
    rw [show log10 (some x) = none by simp [log10, hn]] at hy
    cases hy
  rw [checkFinite_pos hp] at h
  exact ⟨hp, by cases h; rfl⟩

/-- The lower (upper) bounds of the search. -/
noncomputable def lowerBounds (v : Str → ℝ) (s : SampleV ℝ) (fr : List ℝ) : List ℝ :=
  List.zipWith (fun (v f : ℝ) => v - f * |v|) ((freeParams s).map (startOf v)) fr
noncomputable def upperBounds (v : Str → ℝ) (s : SampleV ℝ) (fr : List ℝ) : List ℝ :=
  List.zipWith (fun (v f : ℝ) => v + f * |v|) ((freeParams s).map (startOf v)) fr

theorem leastLog_eq (env : FitEnv) (hs : SampleRegular env.sample) (hn : (partNames env.sample).Nodup) (hr : RealRanges env.sample)
    {t : Table} {v : Str → ℝ} (ht : PredictionRow env.sample t v) (q data fr : List ℝ) :
    env.leastLogFit q data t fr = (do
      let p ← env.curveFit (env.fittingModel q) (data.map fun (x : ℝ) => log10 (some x))
        ((freeParams env.sample).map (startOf v)) (lowerBounds v env.sample fr) (upperBounds v env.sample fr)
      restoreLabels fitNorm env.sample (.array 1 (p.map fun (x : ℝ) => [some (x : ℂ)]))) := by
  obtain ⟨a, b, h1, h2⟩ := apply_row hs hn hr ht
  unfold FitEnv.leastLogFit
  rw [h1]
  simp only [bind_ok, h2]
  rw [mapM_eq_ok_map (f := fun (c : Str × List Fl) => getItem c.2 0) (g := fun (c : Str × List Fl) => c.2.headD none) (by
    intro c hc
    obtain ⟨q, -, rfl⟩ := List.mem_map.1 hc
    rfl)]
  simp only [bind_ok, List.map_map]
  have : ((fun (c : Str × List Fl) => c.2.headD none) ∘ fun (q : Str × Param ℝ) => (q.1, [some ((startOf v q : ℝ) : ℂ)])) =
      (fun (x : ℝ) => some (x : ℂ)) ∘ startOf v := by
    funext q; rfl
  rw [this, ← List.map_map, realLabels_map]
  rfl

theorem free_pos {s : SampleV ℝ} (hs : SampleRegular s) (hr : RealRanges s) {q : Str × Param ℝ} (hq : q ∈ freeParams s) :
    0 < q.2.max.toC.re - q.2.min.toC.re := by
  obtain ⟨hq1, hq2⟩ := List.mem_filter.1 hq
  obtain ⟨n, p⟩ := q
  cases p with
  | const c nm => simp [Param.isConst] at hq2
  | range lo hi nm =>
    obtain ⟨x, y, rfl, rfl⟩ := hr _ _ _ _ hq1
    have := labelParams_valid hs _ hq1
    simp only [ParamValid, Num.ge] at this
    simp only [Param.max, Param.min, Num.toC]
    simp at this
    linarith

/-- C63, bounds: the refined value of the free parameter number `i` is within `fraction * |prediction - lower limit of its range|`
of the prediction, with the fraction number `i`; constants keep their value. Missing for the documented bounds: the documented
radius is `fraction * |prediction|` (see `C63_documented_partial`, `C63_false`). -/
theorem C63_bounds_partial (env : FitEnv) (hs : SampleRegular env.sample) (hn : (partNames env.sample).Nodup)
    (hr : RealRanges env.sample) (hb : WithinBounds env) (t : Table) (v : Str → ℝ) (ht : PredictionRow env.sample t v)
    (q data fr : List ℝ) (u : Table) (h : env.leastLogFit q data t fr = .ok u) :
    u.rows = 1 ∧ u.cols.columns = (labelParams env.sample).map Prod.fst ∧
    (∀ (i : Nat) (n : Str) (lo hi : ℝ) (nm : Option Str),
      (freeParams env.sample)[i]? = some (n, .range (.real lo) (.real hi) nm) →
      ∃ f w : ℝ, fr[i]? = some f ∧ 0 < f ∧ u.cols.get n = .ok [some (w : ℂ)] ∧ |w - v n| ≤ f * |v n - lo|) ∧
    (∀ n c nm, (n, Param.const c nm) ∈ labelParams env.sample → u.cols.get n = .ok [some c.toC]) := by
  have hnd := labelParams_nodup hs hn
  have hfn : ((freeParams env.sample).map Prod.fst).Nodup := hnd.sublist (List.filter_sublist.map _)
  rw [leastLog_eq env hs hn hr ht] at h
  obtain ⟨p, h1, h2⟩ := bind_eq_ok.1 h
  unfold FitEnv.curveFit at h1
  split_ifs at h1 with c1 c2
  push Not at c1 c2
  obtain ⟨dl, -, h1⟩ := bind_eq_ok.1 h1
  obtain ⟨b1, b2⟩ := hb _ _ _ _ _ _ c1.1 c1.2 c2 h1
  rw [restore_array hs (by simpa [freeParams] using b1)] at h2
  obtain ⟨u', r1, r2, r3, r4, r5⟩ := restore_spec (norm := fitNorm) (Or.inl rfl) hs hn
    (t := ⟨1, ((freeParams env.sample).map Prod.fst).zip (p.map fun (x : ℝ) => [some (x : ℂ)])⟩) (by
      intro q hq hc
      simp only [Frame.columns]
      rw [List.map_fst_zip (by simp [b1])]
      exact List.mem_map.2 ⟨q, List.mem_filter.2 ⟨hq, by simp [hc]⟩, rfl⟩)
  have : u = u' := by
    have := h2.symm.trans r1
    simpa using this
  subst this
  refine ⟨r2, r3, ?_, ?_⟩
  · intro i n lo hi nm hi'
    obtain ⟨hil, hie⟩ := List.getElem?_eq_some_iff.1 hi'
    have hmem : (n, Param.range (.real lo) (.real hi) nm) ∈ freeParams env.sample := hie ▸ List.getElem_mem hil
    have hm := (List.mem_filter.1 hmem).1
    have hipl : i < p.length := by simpa [b1] using hil
    have hfl : i < fr.length := by
      have := c1.1
      simp only [lowerBounds, List.length_zipWith, List.length_map] at this
      omega
    have hlb : (lowerBounds v env.sample fr)[i]? = some (startOf v (n, .range (.real lo) (.real hi) nm) -
        fr[i] * |startOf v (n, .range (.real lo) (.real hi) nm)|) := by
      simp only [lowerBounds, List.getElem?_zipWith, List.getElem?_map, hi', List.getElem?_eq_getElem hfl, Option.map_some]
    have hub : (upperBounds v env.sample fr)[i]? = some (startOf v (n, .range (.real lo) (.real hi) nm) +
        fr[i] * |startOf v (n, .range (.real lo) (.real hi) nm)|) := by
      simp only [upperBounds, List.getElem?_zipWith, List.getElem?_map, hi', List.getElem?_eq_getElem hfl, Option.map_some]
    obtain ⟨k1, k2⟩ := b2 i p[i] _ _ (List.getElem?_eq_getElem hipl) hlb hub
    have hpos := free_pos hs hr hmem
    simp only [Param.max, Param.min, Num.toC] at hpos
    have hlt := c2 (_, _) (List.mem_iff_getElem?.2 ⟨i, List.getElem?_zip_eq_some.2 ⟨hlb, hub⟩⟩)
    simp only at hlt
    have hget := r4 _ hm rfl [some ((p[i] : ℝ) : ℂ)] (get_of_mem (by
      simp only [Frame.columns]
      rw [List.map_fst_zip (by simp [b1])]
      exact hfn) (List.mem_iff_getElem?.2 ⟨i, List.getElem?_zip_eq_some.2
        ⟨by simp [hi'], by simp [List.getElem?_eq_getElem hipl]⟩⟩))
    have hsv : startOf v (n, .range (.real lo) (.real hi) nm) = (v n - lo) / (hi - lo) := rfl
    rw [hsv] at k1 k2 hlt
    have hf : 0 < fr[i] * |(v n - lo) / (hi - lo)| := by linarith
    have hf0 : 0 < fr[i] := by
      by_contra hh
      push Not at hh
      have := mul_nonpos_of_nonpos_of_nonneg hh (abs_nonneg ((v n - lo) / (hi - lo)))
      linarith
    refine ⟨fr[i], p[i] * (hi - lo) + lo, List.getElem?_eq_getElem hfl, hf0, ?_, ?_⟩
    · rw [hget]
      unfold renormUpd
      rw [if_pos (by decide)]
      simp only [List.map_cons, List.map_nil, Option.map_some, Param.min, Param.max, Num.toC]
      rw [show (⟨lo, 0⟩ : ℂ) = (lo : ℂ) from rfl, show (⟨hi, 0⟩ : ℂ) = (hi : ℂ) from rfl]
      push_cast
      rfl
    · have e1 : p[i] * (hi - lo) + lo - v n = (p[i] - (v n - lo) / (hi - lo)) * (hi - lo) := by
        field_simp; ring
      have e2 : |p[i] - (v n - lo) / (hi - lo)| ≤ fr[i] * |(v n - lo) / (hi - lo)| := by
        rw [abs_le]; constructor <;> linarith
      rw [e1, abs_mul, abs_of_pos hpos]
      calc _ ≤ fr[i] * |(v n - lo) / (hi - lo)| * (hi - lo) := mul_le_mul_of_nonneg_right e2 hpos.le
        _ = _ := by rw [abs_div, abs_of_pos hpos]; field_simp
  · intro n c nm hc
    exact r5 n c nm hc

/-- C63, documented bounds: they hold if the range of the parameter starts at a number not below zero and not above the
prediction. -/
theorem C63_documented_partial (env : FitEnv) (hs : SampleRegular env.sample) (hn : (partNames env.sample).Nodup)
    (hr : RealRanges env.sample) (hb : WithinBounds env) (t : Table) (v : Str → ℝ) (ht : PredictionRow env.sample t v)
    (q data fr : List ℝ) (u : Table) (h : env.leastLogFit q data t fr = .ok u)
    (i : Nat) (n : Str) (lo hi : ℝ) (nm : Option Str)
    (hi' : (freeParams env.sample)[i]? = some (n, .range (.real lo) (.real hi) nm)) (h0 : 0 ≤ lo) (h1 : lo ≤ v n) :
    ∃ f w : ℝ, fr[i]? = some f ∧ u.cols.get n = .ok [some (w : ℂ)] ∧ |w - v n| ≤ f * |v n| := by
  obtain ⟨-, -, h2, -⟩ := C63_bounds_partial env hs hn hr hb t v ht q data fr u h
  obtain ⟨f, w, e1, e2, e3, e4⟩ := h2 i n lo hi nm hi'
  refine ⟨f, w, e1, e3, e4.trans (mul_le_mul_of_nonneg_left ?_ e2.le)⟩
  rw [abs_of_nonneg (by linarith), abs_of_nonneg (by linarith)]
  linarith

/-- C63, refinement does not work for every sample: with more free parameters than fractions it stops with `ValueError`. -/
theorem C63_count (env : FitEnv) (hs : SampleRegular env.sample) (hn : (partNames env.sample).Nodup)
    (hr : RealRanges env.sample) (t : Table) (v : Str → ℝ) (ht : PredictionRow env.sample t v)
    (q data fr : List ℝ) (h : fr.length < (freeParams env.sample).length) :
    env.leastLogFit q data t fr = .error .valueError := by
  rw [leastLog_eq env hs hn hr ht]
  unfold FitEnv.curveFit
  rw [if_pos (Or.inl (by simp only [lowerBounds, List.length_zipWith, List.length_map]; omega))]
  rfl

/-- C63, refinement does not work for every prediction: it stops with `ValueError` if a predicted value is the lower limit of its
range. -/
theorem C63_minimum (env : FitEnv) (hs : SampleRegular env.sample) (hn : (partNames env.sample).Nodup)
    (hr : RealRanges env.sample) (t : Table) (v : Str → ℝ) (ht : PredictionRow env.sample t v)
    (q data fr : List ℝ) (n : Str) (lo hi : ℝ) (nm : Option Str)
    (hm : (n, .range (.real lo) (.real hi) nm) ∈ freeParams env.sample) (hv : v n = lo) :
    env.leastLogFit q data t fr = .error .valueError := by
  rcases Nat.lt_or_ge fr.length (freeParams env.sample).length with hlt | hge
  · exact C63_count env hs hn hr t v ht q data fr hlt
  · rw [leastLog_eq env hs hn hr ht]
    unfold FitEnv.curveFit
    rw [if_neg (by simp only [lowerBounds, upperBounds, List.length_zipWith, List.length_map]; omega), if_pos]
    · rfl
    · obtain ⟨i, hi'⟩ := List.mem_iff_getElem?.1 hm
      obtain ⟨hil, -⟩ := List.getElem?_eq_some_iff.1 hi'
      have hfl : i < fr.length := by omega
      have h0 : startOf v (n, .range (.real lo) (.real hi) nm) = 0 := by
        show (v n - lo) / (hi - lo) = 0
        rw [hv]; simp
      refine ⟨(0, 0), List.mem_iff_getElem?.2 ⟨i, List.getElem?_zip_eq_some.2 ⟨?_, ?_⟩⟩, le_refl _⟩
      · simp only [lowerBounds, List.getElem?_zipWith, List.getElem?_map, hi', List.getElem?_eq_getElem hfl, Option.map_some, h0]
        simp
      · simp only [upperBounds, List.getElem?_zipWith, List.getElem?_map, hi', List.getElem?_eq_getElem hfl, Option.map_some, h0]
        simp

/-! ### A concrete sample -/

/-- The labels of `prepTable x`. -/
noncomputable def prepLabels (x : ℝ) (n : Str) : ℝ :=
  if n = "film_thickness".toList then 15 else if n = "Si_roughness".toList then 1 else if n = "film_roughness".toList then 3
  else if n = "Si_sld".toList then 20 else if n = "film_sld".toList then x else 0

theorem prepTable_row (lo hi x : ℝ) : PredictionRow (prepSample lo hi) (prepTable x) (prepLabels x) := by
  refine ⟨rfl, prepTable_columns lo hi x, fun n hn => ?_⟩
  rw [prepTable_columns lo hi, prepSample_params] at hn
  simp only [List.map_cons, List.map_nil, List.mem_cons, List.not_mem_nil, or_false] at hn
  have e1 : prepLabels x "film_thickness".toList = 15 := if_pos rfl
  have e2 : prepLabels x "Si_roughness".toList = 1 := by unfold prepLabels; rw [if_neg (by decide), if_pos rfl]
  have e3 : prepLabels x "film_roughness".toList = 3 := by
    unfold prepLabels; rw [if_neg (by decide), if_neg (by decide), if_pos rfl]
  have e4 : prepLabels x "Si_sld".toList = 20 := by
    unfold prepLabels; rw [if_neg (by decide), if_neg (by decide), if_neg (by decide), if_pos rfl]
  have e5 : prepLabels x "film_sld".toList = x := by
    unfold prepLabels; rw [if_neg (by decide), if_neg (by decide), if_neg (by decide), if_neg (by decide), if_pos rfl]
  have e6 : prepLabels x "air_sld".toList = 0 := by
    unfold prepLabels
    rw [if_neg (by decide), if_neg (by decide), if_neg (by decide), if_neg (by decide), if_neg (by decide)]
  rcases hn with rfl | rfl | rfl | rfl | rfl | rfl
  · rw [e1]; push_cast; rfl
  · rw [e2]; push_cast; rfl
  · rw [e3]; push_cast; rfl
  · rw [e4]; push_cast; rfl
  · rw [e5]; rfl
  · rw [e6]; push_cast; rfl

theorem prepSample_realRanges (lo hi : ℝ) : RealRanges (prepSample lo hi) := by
  intro n a b nm h
  rw [prepSample_params] at h
  simp only [List.mem_cons, List.not_mem_nil, or_false, Prod.mk.injEq, reduceCtorEq, and_false, false_or, or_false,
    Param.range.injEq] at h
  rcases h with ⟨-, rfl, rfl, -⟩ | ⟨-, rfl, rfl, -⟩ <;> exact ⟨_, _, rfl, rfl⟩

/-- A search that stops at the upper bounds. -/
noncomputable def upEnv (lo hi : ℝ) : FitEnv := { toyEnv (prepSample lo hi) with optimizer := fun _ _ _ _ ub => .ok ub }

theorem upEnv_within (lo hi : ℝ) : WithinBounds (upEnv lo hi) := by
  intro q data start lb ub p h1 h2 h3 h
  simp only [upEnv, Except.ok.injEq] at h
  subst h
  refine ⟨h2, fun i x l u hx hl hu => ?_⟩
  rw [hu] at hx
  cases hx
  exact ⟨(h3 (l, x) (List.mem_iff_getElem?.2 ⟨i, List.getElem?_zip_eq_some.2 ⟨hl, hu⟩⟩)).le, le_refl _⟩

theorem prepSample_free (lo hi : ℝ) : freeParams (prepSample lo hi) =
    [("film_thickness".toList, .range (.real 10) (.real 20) (some "thickness".toList)),
     ("film_sld".toList, .range (.real lo) (.real hi) (some "sld".toList))] := rfl

/-- The refinement of `prepTable 1` for an SLD range from -4 to 4 succeeds. -/
theorem upEnv_fit : ∃ u, (upEnv (-4) 4).leastLogFit [1, 2] [1, 1] (prepTable 1) [0.5, 0.5, 0.1] = .ok u ∧
    u.cols.get "film_sld".toList = .ok [some ((3.5 : ℝ) : ℂ)] := by
  have hs : SampleRegular (upEnv (-4) 4).sample := prepSample_regular (by norm_num)
  have hn : (partNames (upEnv (-4) 4).sample).Nodup := prepSample_names _ _
  rw [leastLog_eq (upEnv (-4) 4) hs hn (prepSample_realRanges _ _) (prepTable_row (-4) 4 1)]
  have e1 : prepLabels 1 "film_thickness".toList = 15 := if_pos rfl
  have e5 : prepLabels 1 "film_sld".toList = 1 := by
    unfold prepLabels; rw [if_neg (by decide), if_neg (by decide), if_neg (by decide), if_neg (by decide), if_pos rfl]
  have hst : (freeParams (upEnv (-4) 4).sample).map (startOf (prepLabels 1)) = [1/2, 5/8] := by
    show (freeParams (prepSample (-4) 4)).map (startOf (prepLabels 1)) = _
    rw [prepSample_free]
    simp only [List.map_cons, List.map_nil, startOf, e1, e5, Param.min, Param.max, Num.toC]
    norm_num
  have hlb : lowerBounds (prepLabels 1) (upEnv (-4) 4).sample [0.5, 0.5, 0.1] = [1/4, 5/16] := by
    unfold lowerBounds
    rw [hst]
    simp only [List.zipWith_cons_cons, List.zipWith_nil_left]
    norm_num [abs_of_pos]
  have hub : upperBounds (prepLabels 1) (upEnv (-4) 4).sample [0.5, 0.5, 0.1] = [3/4, 15/16] := by
    unfold upperBounds
    rw [hst]
    simp only [List.zipWith_cons_cons, List.zipWith_nil_left]
    norm_num [abs_of_pos]
  rw [hst, hlb, hub]
  unfold FitEnv.curveFit
  rw [if_neg (by simp), if_neg (by
    rintro ⟨p, hp, hle⟩
    simp only [List.zip_cons_cons, List.zip_nil_right, List.mem_cons, List.not_mem_nil, or_false] at hp
    rcases hp with rfl | rfl <;> norm_num at hle)]
  have : ∀ a b c d, (upEnv (-4) 4).optimizer a b c d [3/4, 15/16] = .ok [3/4, 15/16] := fun _ _ _ _ => rfl
  rw [checkFinite_pos (by intro v hv; simp at hv; rw [hv]; norm_num), bind_ok, this]
  simp only [bind_ok]
  rw [restore_array hs rfl]
  obtain ⟨u', r1, r2, r3, r4, r5⟩ := restore_spec (norm := fitNorm) (Or.inl rfl) hs hn
    (t := ⟨1, (((labelParams (upEnv (-4) 4).sample).filter fun q => !q.2.isConst).map (·.1)).zip
      (([3/4, 15/16] : List ℝ).map fun (x : ℝ) => [some (x : ℂ)])⟩) (by
      intro q hq hc
      simp only [Frame.columns]
      rw [List.map_fst_zip (by rw [List.length_map]; exact le_refl 2)]
      exact List.mem_map.2 ⟨q, List.mem_filter.2 ⟨hq, by simp [hc]⟩, rfl⟩)
  refine ⟨u', r1, ?_⟩
  have hm : ("film_sld".toList, Param.range (.real (-4)) (.real 4) (some "sld".toList)) ∈ labelParams (upEnv (-4) 4).sample := by
    show _ ∈ labelParams (prepSample (-4) 4)
    rw [prepSample_params]
    simp
  have := r4 _ hm rfl [some ((15/16 : ℝ) : ℂ)] rfl
  rw [this]
  unfold renormUpd
  rw [if_pos (by decide)]
  simp only [List.map_cons, List.map_nil, Option.map_some, Param.min, Param.max, Num.toC]
  rw [show (⟨-4, 0⟩ : ℂ) = ((-4 : ℝ) : ℂ) from rfl, show (⟨4, 0⟩ : ℂ) = ((4 : ℝ) : ℂ) from rfl]
  congr 3
  norm_cast
  norm_num

/-- C63 is false if a range starts below zero: here an SLD predicted as 1 is refined to 3.5, which is outside of every radius
`fraction * |1|` for the given fractions. -/
theorem C63_false : ∃ (env : FitEnv) (t u : Table) (v : Str → ℝ) (w : ℝ) (fr : List ℝ),
    SampleRegular env.sample ∧ (partNames env.sample).Nodup ∧ RealRanges env.sample ∧ WithinBounds env ∧
    PredictionRow env.sample t v ∧ env.leastLogFit [1, 2] [1, 1] t fr = .ok u ∧
    (∃ lo hi nm, ("film_sld".toList, .range (.real lo) (.real hi) nm) ∈ freeParams env.sample ∧ lo < v "film_sld".toList ∧
      v "film_sld".toList < hi) ∧
    u.cols.get "film_sld".toList = .ok [some (w : ℂ)] ∧ ∀ f ∈ fr, f * |v "film_sld".toList| < |w - v "film_sld".toList| := by
  obtain ⟨u, h1, h2⟩ := upEnv_fit
  have e5 : prepLabels 1 "film_sld".toList = 1 := by
    unfold prepLabels; rw [if_neg (by decide), if_neg (by decide), if_neg (by decide), if_neg (by decide), if_pos rfl]
  refine ⟨upEnv (-4) 4, prepTable 1, u, prepLabels 1, 3.5, [0.5, 0.5, 0.1], prepSample_regular (by norm_num), prepSample_names _ _,
    prepSample_realRanges _ _, upEnv_within _ _, prepTable_row _ _ _, h1, ⟨-4, 4, some "sld".toList, ?_, ?_, ?_⟩, h2, ?_⟩
  · show _ ∈ freeParams (prepSample (-4) 4)
    rw [prepSample_free]
    simp
  · rw [e5]; norm_num
  · rw [e5]; norm_num
  · intro f hf
    rw [e5]
    simp only [List.mem_cons, List.not_mem_nil, or_false] at hf
    rcases hf with rfl | rfl | rfl <;> norm_num

/-- The hypotheses of `C63_bounds_partial` and `C63_documented_partial` (for the thickness) hold for this case. -/
example : ∃ u, ∃ f w : ℝ, (upEnv (-4) 4).leastLogFit [1, 2] [1, 1] (prepTable 1) [0.5, 0.5, 0.1] = .ok u ∧
    ([0.5, 0.5, 0.1] : List ℝ)[0]? = some f ∧ u.cols.get "film_thickness".toList = .ok [some (w : ℂ)] ∧
    |w - prepLabels 1 "film_thickness".toList| ≤ f * |prepLabels 1 "film_thickness".toList| := by
  obtain ⟨u, h1, -⟩ := upEnv_fit
  have e1 : prepLabels 1 "film_thickness".toList = 15 := if_pos rfl
  obtain ⟨f, w, k1, k2, k3⟩ := C63_documented_partial (upEnv (-4) 4) (prepSample_regular (by norm_num)) (prepSample_names _ _)
    (prepSample_realRanges _ _) (upEnv_within _ _) (prepTable 1) (prepLabels 1) (prepTable_row _ _ _) [1, 2] [1, 1] [0.5, 0.5, 0.1] u h1 0
    "film_thickness".toList 10 20 (some "thickness".toList) rfl (by norm_num) (by rw [e1]; norm_num)
  exact ⟨u, f, w, h1, k1, k2, k3⟩

/-- `C63_count`: two free parameters, one fraction. -/
example : (upEnv (-4) 4).leastLogFit [1, 2] [1, 1] (prepTable 1) [0.5] = .error .valueError :=
  C63_count (upEnv (-4) 4) (prepSample_regular (by norm_num)) (prepSample_names _ _) (prepSample_realRanges _ _) _ _
    (prepTable_row (-4) 4 1) _ _ _ (by show 1 < 2; norm_num)

/-- `C63_minimum`: the SLD is the lower limit. -/
example : (upEnv 1 4).leastLogFit [1, 2] [1, 1] (prepTable 1) [0.5, 0.5, 0.1] = .error .valueError :=
  C63_minimum (upEnv 1 4) (prepSample_regular (by norm_num)) (prepSample_names _ _) (prepSample_realRanges _ _) _ _
    (prepTable_row 1 4 1) _ _ _ "film_sld".toList 1 4 (some "sld".toList)
    (by show _ ∈ freeParams (prepSample 1 4); rw [prepSample_free]; simp)
    (by unfold prepLabels; rw [if_neg (by decide), if_neg (by decide), if_neg (by decide), if_neg (by decide), if_pos rfl])

end Verif.Props
