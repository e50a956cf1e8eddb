import Verif.Props.Refine
import Verif.Props.CurveError
import Verif.Props.TrainerCases

/-!
# C109: fitting simulated curves with a network that has learned them
-/

namespace Verif.Props
open Verif.Py Verif.Model Verif.Spec Verif.Model.FitEnv

/-! ### The claim -/

/-- `cols` are the outputs of a network that knows the labels of the table `t`: for every free parameter, in the order of the label
names, the labels relative to the range of the parameter. -/
def ExactOutput (s : SampleV ℝ) (t : Table) (cols : List (List Fl)) : Prop :=
  List.Forall₂ (fun (p : Str × Param ℝ) (col : List Fl) => ∃ labels : List Fl, t.cols.get p.1 = .ok labels ∧
      col = labels.map (Option.map fun (z : ℂ) => (z - p.2.min.toC) / (p.2.max.toC - p.2.min.toC))) (freeParams s) cols

/-- The curve `c`, measured at the q values `q`, has the values `r` at the q values `x`, which are among the measured ones. -/
def HasValues (q c x r : List ℝ) : Prop :=
  r.length = x.length ∧ ∀ (k : Nat) (a : ℝ), x[k]? = some a → ∃ j : Nat, q[j]? = some a ∧ c[j]? = r[k]?

/-- The curve as the network sees it: every value minus the mean and divided by the deviation. -/
noncomputable def standardized (m sd r : List ℝ) : List ℝ := List.zipWith (· / ·) (List.zipWith (· - ·) r m) sd

/-! ### Proofs -/

theorem interp_values {q c x r : List ℝ} (hq : q.Pairwise (· < ·)) (hne : q ≠ []) (hl : c.length = q.length) (hp : PositiveCurve c)
    (h : HasValues q c x r) : interpReflectivity x q c = .ok r := by
  obtain ⟨f, h1, -, h3, -⟩ := C42_interpolation q c hq hl hne hp
  rw [h1 x]
  congr 1
  refine List.ext_getElem (by simp [h.1]) fun k k1 k2 => ?_
  rw [List.getElem_map]
  rw [List.length_map] at k1
  obtain ⟨j, j1, j2⟩ := h.2 k x[k] (List.getElem?_eq_getElem k1)
  obtain ⟨j3, j4⟩ := List.getElem?_eq_some_iff.1 j1
  rw [List.getElem?_eq_getElem k2] at j2
  obtain ⟨j5, j6⟩ := List.getElem?_eq_some_iff.1 j2
  rw [← j4, h3 j j3 j5, j6]

theorem networkInput_values {env : FitEnv} {q : List ℝ} (hq : q.Pairwise (· < ·)) (hne : q ≠ []) {curves rows : List (List ℝ)}
    (h : List.Forall₂ (fun (c r : List ℝ) => c.length = q.length ∧ PositiveCurve c ∧ HasValues q c env.trainedQ r) curves rows) :
    env.networkInput curves q 0 1 = .ok rows := by
  unfold FitEnv.networkInput FitEnv.interpolate
  simp only [mul_one, add_zero, List.map_id']
  refine mapM_ok_iff.2 (h.imp ?_)
  rintro c r ⟨h1, h2, h3⟩
  exact interp_values hq hne h1 h2 h3

theorem standardize_eq {env : FitEnv} {rows : List (List ℝ)} (h1 : ∀ r ∈ rows, r.length = env.mean.length)
    (h2 : env.std.length = env.mean.length) : env.standardize rows = .ok (rows.map (standardized env.mean env.std)) := by
  unfold FitEnv.standardize
  rw [bcastRows_eq h1, bind_ok, bcastRows_eq, List.map_map]
  · rfl
  · intro r hr
    obtain ⟨r', hr', rfl⟩ := List.mem_map.1 hr
    rw [List.length_zipWith, h1 r' hr', h2, min_self]

theorem restore_exact {s : SampleV ℝ} (hs : SampleRegular s) (hn : (partNames s).Nodup) {t : Table} (ht : IsLabelTable s t)
    (hc : t.cols.columns = (labelParams s).map Prod.fst) {cols : List (List Fl)} (h : ExactOutput s t cols) :
    restoreLabels fitNorm s (.array t.rows cols) = .ok t := by
  have hz : Normalizable fitNorm s := fun he => absurd he (by decide)
  obtain ⟨a, b, r, e1, e2, e3, e4, e5, e6⟩ := C22_round_trip_partial fitNorm (Or.inl rfl) s hs hn hz t ht
  obtain ⟨e7, e8⟩ := e6 hc
  have hrt : r = t := by
    cases r
    cases t
    simp only at e3 e7
    rw [e3, e7]
  obtain ⟨a', b', k1, k2, k3, k4, k5, k6, k7, k8, k9⟩ := C24_partition fitNorm (Or.inl rfl) s hs hn hz t ht.columns
  rw [e1] at k1
  cases k1
  have hnd := labelParams_nodup hs hn
  have hcol := k7 hc
  have hna : a.cols.columns.Nodup := by
    rw [hcol]
    exact hnd.sublist (List.filter_sublist.map _)
  have hcols : a.cols.map (fun (c : Str × List Fl) => c.2) = cols := by
    refine List.ext_getElem ?_ fun i i1 i2 => ?_
    · have := congrArg List.length hcol
      simp only [Frame.columns, List.length_map] at this
      rw [List.length_map, this]
      exact h.length_eq
    · rw [List.length_map] at i1
      have i3 : i < (freeParams s).length := by rw [h.length_eq]; exact i2
      obtain ⟨labels, l1, l2⟩ := (List.forall₂_iff_get.1 h).2 i i3 i2
      simp only [List.get_eq_getElem] at l1 l2
      rw [List.getElem_map, l2]
      have hname : (a.cols[i]).1 = ((freeParams s)[i]).1 := by
        have : a.cols.columns[i]? = (((labelParams s).filter fun q => !q.2.isConst).map (·.1))[i]? := by rw [hcol]
        simp only [Frame.columns, List.getElem?_map] at this
        rw [List.getElem?_eq_getElem i1] at this
        have i4 : (List.filter (fun q : Str × Param ℝ => !q.2.isConst) (labelParams s))[i]? = some (freeParams s)[i] :=
          List.getElem?_eq_getElem i3
        rw [i4] at this
        simpa using this
      have hmem := List.mem_filter.1 (List.getElem_mem i3)
      have hget := get_of_mem hna (show ((a.cols[i]).1, (a.cols[i]).2) ∈ a.cols from List.getElem_mem i1)
      generalize hp : (freeParams s)[i] = p at hmem hname l1 l2 ⊢
      obtain ⟨n, p⟩ := p
      cases p with
      | const v nm => simp [Param.isConst] at hmem
      | range lo hi nm =>
        obtain ⟨col, g1, g2⟩ := k8 n lo hi nm hmem.1
        simp only at hname l1
        rw [hname, g2] at hget
        rw [l1] at g1
        cases g1
        simp only [Except.ok.injEq] at hget
        rw [← hget]
        rfl
  rw [← hcols, ← k2, ← hrt]
  exact e8

theorem predict_exact {env : FitEnv} (hs : SampleRegular env.sample) (hn : (partNames env.sample).Nodup) {t : Table}
    (ht : IsLabelTable env.sample t) (hc : t.cols.columns = (labelParams env.sample).map Prod.fst) (hpos : NonnegLengths t)
    {rows : List (List ℝ)} (h1 : ∀ r ∈ rows, r.length = env.mean.length) (h2 : env.std.length = env.mean.length)
    {cols : List (List Fl)} (hcols : ExactOutput env.sample t cols)
    (hnet : env.net (rows.map (standardized env.mean env.std)) = .ok (.array t.rows cols)) : env.predict rows = .ok t := by
  unfold FitEnv.predict
  rw [standardize_eq h1 h2, bind_ok, hnet, bind_ok, restore_exact hs hn ht hc hcols, bind_ok, ensurePositive_id hpos]
  rfl

/-- C109: if the measured curves contain the trained q values and the network returns the labels of these curves, relative to the
ranges, the fit without optimization and refinement returns exactly these labels and the curves simulated with them. -/
theorem C109_perfect (env : FitEnv) (hs : SampleRegular env.sample) (hn : (partNames env.sample).Nodup) (t : Table)
    (ht : IsLabelTable env.sample t) (hc : t.cols.columns = (labelParams env.sample).map Prod.fst) (hpos : NonnegLengths t)
    (q : List ℝ) (hq : q.Pairwise (· < ·)) (hne : q ≠ []) (hne' : env.trainedQ ≠ []) (hm : env.mean.length = env.trainedQ.length)
    (hsd : env.std.length = env.trainedQ.length) (curves rows : List (List ℝ))
    (h : List.Forall₂ (fun (c r : List ℝ) => c.length = q.length ∧ PositiveCurve c ∧ HasValues q c env.trainedQ r) curves rows)
    (cols : List (List Fl)) (hcols : ExactOutput env.sample t cols)
    (hnet : env.net (rows.map (standardized env.mean env.std)) = .ok (.array t.rows cols)) (sims : List (List (Option ℝ)))
    (hsim : env.simulate q t = .ok sims) (fractions : List ℝ) (shifts scalings : Nat → List ℝ) :
    env.fitCurve curves q ⟨0, 1, false, fractions, false, false, true⟩ shifts scalings = .ok ⟨t, some sims, none, none⟩ := by
  obtain ⟨⟨lo, hi⟩, hidx⟩ := qIndices_ok hne' hne
  have hlen : ∀ r ∈ rows, r.length = env.mean.length := by
    intro r hr
    obtain ⟨c, -, -, -, h3⟩ := forall₂_mem_right h hr
    rw [h3.1, hm]
  have hpred := predict_exact hs hn ht hc hpos hlen (by rw [hsd, hm]) hcols hnet
  unfold FitEnv.fitCurve
  rw [hidx, bind_ok]
  simp only [networkInput_values hq hne h, bind_ok]
  unfold FitEnv.qStep FitEnv.scalingStep FitEnv.chooseParams FitEnv.polishStep FitEnv.simulateStep
  simp only [Bool.false_eq_true, if_false, bind_ok, Bool.false_and, hpred, if_true, hsim]
  rfl

/-- C109: a curve that is measured with a wrong intensity scale and wrong q values gives the same labels as the right curve if the
fit is told about both. -/
theorem C109_corrections (env : FitEnv) (curves : List (List ℝ)) (q : List ℝ) (dq f : ℝ) (hf : f ≠ 0) (fractions : List ℝ)
    (shifts scalings : Nat → List ℝ) (out : Output)
    (h : env.fitCurve curves q ⟨0, 1, false, fractions, false, false, false⟩ shifts scalings = .ok out) :
    env.fitCurve (curves.map fun (c : List ℝ) => c.map fun (x : ℝ) => x / f) (q.map fun (x : ℝ) => x - dq)
      ⟨dq, f, false, fractions, false, false, false⟩ shifts scalings = .ok out := by
  obtain ⟨lo, hi, rows, scaled, params, h1, h2, h3, h4, h5, h6, h7, h8⟩ := fitCurve_ok h
  have hq : q ≠ [] ∧ env.trainedQ ≠ [] := by
    constructor
    · rintro rfl
      unfold FitEnv.qIndices at h1
      obtain ⟨x, -, h1⟩ := bind_eq_ok.1 h1
      cases h1
    · intro he
      unfold FitEnv.qIndices at h1
      rw [he] at h1
      cases h1
  obtain ⟨⟨lo', hi'⟩, hidx⟩ := qIndices_ok (env := env) (q := q.map fun (x : ℝ) => x - dq) hq.2 (by simpa using hq.1)
  have hin : env.networkInput (curves.map fun (c : List ℝ) => c.map fun (x : ℝ) => x / f) (q.map fun (x : ℝ) => x - dq) dq f = .ok rows := by
    rw [← h2]
    unfold FitEnv.networkInput
    simp only [List.map_map, Function.comp_def, mul_one, add_zero, sub_add_cancel, div_mul_cancel₀ _ hf, List.map_id']
  simp only [FitEnv.qStep, Bool.false_eq_true, if_false, Except.ok.injEq] at h3
  simp only [FitEnv.scalingStep, Bool.false_eq_true, if_false, Except.ok.injEq] at h4
  simp only [FitEnv.polishStep, Bool.false_eq_true, if_false, Except.ok.injEq] at h6
  simp only [FitEnv.simulateStep, Bool.false_eq_true, if_false, Except.ok.injEq] at h7
  subst h4
  subst h6
  simp only [FitEnv.chooseParams, Bool.false_and] at h5
  unfold FitEnv.fitCurve
  rw [hidx, bind_ok]
  simp only [hin, bind_ok]
  unfold FitEnv.qStep FitEnv.scalingStep FitEnv.chooseParams FitEnv.polishStep FitEnv.simulateStep
  simp only [Bool.false_eq_true, if_false, bind_ok, Bool.false_and, h5]
  cases out
  simp only at h3 h7 h8
  rw [← h3, ← h7, h8]
  rfl

theorem logMse_nonpos {a b : List ℝ} (ha : PositiveCurve a) (hb : PositiveCurve b) (hl : a.length = b.length) (h : logMse a b ≤ 0) :
    a = b := by
  by_cases hne : a = []
  · subst hne
    exact (List.length_eq_zero_iff.1 hl.symm).symm
  · obtain ⟨e, -, -, e3, e4, -, -, e7⟩ := C65_metric a b ha hb hl hne
    refine e7.1 (le_antisymm ?_ e4)
    rw [e3]
    exact h

theorem logMse_self (a : List ℝ) : logMse a a = 0 := by
  unfold logMse
  simp

/-- C109: the refinement of labels within their ranges that already reproduce the measured curve, between the positions of the
trained q range, returns labels that reproduce it as well. -/
theorem C109_refined (env : FitEnv) (hs : SampleRegular env.sample) (hn : (partNames env.sample).Nodup) (hsim : SimShape env)
    (hr : Spec.RealRanges env.sample) (hb : WithinBounds env) (hd : Descends env) (curves : List (List ℝ)) (q : List ℝ) (o : Options)
    (shifts scalings : Nat → List ℝ) (out out' : Output)
    (h : env.fitCurve curves q { o with polish := false } shifts scalings = .ok out)
    (h' : env.fitCurve curves q { o with polish := true } shifts scalings = .ok out') (i : Nat) (c : List ℝ) (hc : curves[i]? = some c)
    (v : Str → ℝ) (hp : PredictionRow env.sample (out.params.row i) v)
    (hconst : ∀ n x nm, (n, Param.const x nm) ∈ labelParams env.sample → x.toC = (v n : ℝ))
    (hv : PredictionInside env.sample v) (hf : ∀ f ∈ o.fractions, f ≤ 1) (lo hi : Nat) (hidx : env.qIndices q = .ok (lo, hi))
    (hexact : env.simulate ((q.take hi).drop lo) (out.params.row i) = .ok [((c.take hi).drop lo).map some]) :
    env.simulate ((q.take hi).drop lo) (out'.params.row i) = .ok [((c.take hi).drop lo).map some] := by
  obtain ⟨lo', hi', u, e1, e2, e3⟩ := C98_each env curves q o shifts scalings out out' h h' i c hc
  rw [hidx] at e1
  cases e1
  obtain ⟨p1, p2, p3⟩ := hp
  have hnd := labelParams_nodup hs hn
  have hcol : ∀ d ∈ (out.params.row i).cols, d.2 = [some ((v d.1 : ℝ) : ℂ)] := by
    intro d hd
    have h1 := p3 d.1 (List.mem_map.2 ⟨d, hd, rfl⟩)
    rw [get_of_mem (by rw [p2]; exact hnd) hd] at h1
    simpa using h1
  have ht : IsLabelTable env.sample (out.params.row i) := by
    refine ⟨by rw [p2], ?_, ?_, ?_⟩
    · intro d hd
      rw [hcol d hd, p1]
      rfl
    · intro d hd x hx
      rw [hcol d hd, List.mem_singleton] at hx
      rw [hx]
      simp
    · intro n x nm hx d hd hdn y hy
      rw [hcol d hd, List.mem_singleton] at hy
      rw [hy, hconst n x nm hx, hdn]
  obtain ⟨-, k0, s0, s1, -, k2, -, k4, k5, k6, k7⟩ := leastLog_descends env hs hn hsim hd ht p2 p1 e2
  rw [hexact] at k5
  have hs0 : (c.take hi).drop lo = s0 := by
    simp only [Except.ok.injEq, List.cons.injEq, and_true] at k5
    exact List.map_injective_iff.2 (Option.some_injective ℝ) k5
  rw [← hs0, logMse_self] at k7
  have hs1 := logMse_nonpos k0 k2 k4.symm k7
  rw [e3, ensurePositive_id (refined_nonneg env hs hn hr hb ⟨p1, p2, p3⟩ hv hf e2), k6, ← hs1]

/-! ### A network that has learned its training data -/

/-- The table with the labels `v`. -/
noncomputable def rowTable (s : SampleV ℝ) (v : Str → ℂ) : Table :=
  ⟨1, ((labelParams s).map Prod.fst).map fun (n : Str) => (n, [some (v n)])⟩

theorem rowTable_columns (s : SampleV ℝ) (v : Str → ℂ) : (rowTable s v).cols.columns = (labelParams s).map Prod.fst := by
  simp [rowTable, Frame.columns, List.map_map, Function.comp_def]

theorem rowTable_get {s : SampleV ℝ} (hs : SampleRegular s) (hn : (partNames s).Nodup) (v : Str → ℂ) {n : Str}
    (h : n ∈ (labelParams s).map Prod.fst) : (rowTable s v).cols.get n = .ok [some (v n)] :=
  get_of_mem (by rw [rowTable_columns]; exact labelParams_nodup hs hn) (List.mem_map.2 ⟨n, h, rfl⟩)

theorem labelCell_unique {f : Frame (Num ℝ)} {k : Str} {j : Nat} {a b : ℂ} (ha : LabelCell f k j a) (hb : LabelCell f k j b) : a = b := by
  obtain ⟨c, x, h1, h2, rfl⟩ := ha
  obtain ⟨d, y, h3, h4, rfl⟩ := hb
  rw [h1] at h3
  cases h3
  rw [h2] at h4
  cases h4
  rfl

/-- C109: if the network returns the training label of sample `j` of a label table for a curve on the trained q values, the fit of
this curve returns the labels of sample `j` in the table. -/
theorem C109_learned (env : FitEnv) (hs : SampleRegular env.sample) (hn : (partNames env.sample).Nodup) (f : Frame (Num ℝ))
    (hml : env.mean.length = env.trainedQ.length) (hsl : env.std.length = env.trainedQ.length) (hq : env.trainedQ.Pairwise (· < ·)) (hne : env.trainedQ ≠ []) (j : Nat) (c : List ℝ) (hcl : c.length = env.trainedQ.length)
    (hpos : PositiveCurve c) (y : List ℝ) (hy : TargetOf env.sample f j y)
    (hconst : ∀ k x nm, (k, Param.const x nm) ∈ labelParams env.sample → LabelCell f k j x.toC)
    (hlen : ∀ k ∈ (labelParams env.sample).map Prod.fst, "thickness".toList <:+: k ∨ "roughness".toList <:+: k →
      ∀ z : ℂ, LabelCell f k j z → z.im = 0 ∧ 0 ≤ z.re)
    (hnet : env.net [standardized env.mean env.std c] = .ok (.array 1 (y.map fun (x : ℝ) => [some (x : ℂ)])))
    (fractions : List ℝ) (shifts scalings : Nat → List ℝ) :
    ∃ out, env.fitCurve [c] env.trainedQ ⟨0, 1, false, fractions, false, false, false⟩ shifts scalings = .ok out ∧ out.params.rows = 1 ∧
      out.params.cols.columns = (labelParams env.sample).map Prod.fst ∧
      ∀ k ∈ (labelParams env.sample).map Prod.fst, ∃ z : ℂ, LabelCell f k j z ∧ out.params.cols.get k = .ok [some z] := by
  have hnd := labelParams_nodup hs hn
  have hcell : ∀ p ∈ labelParams env.sample, ∃ z : ℂ, LabelCell f p.1 j z := by
    rintro ⟨k, p⟩ hp
    cases p with
    | const x nm => exact ⟨_, hconst k x nm hp⟩
    | range lo hi nm =>
      obtain ⟨x, -, z, hz, -⟩ := forall₂_mem_left hy _ (List.mem_filter.2 ⟨hp, rfl⟩)
      exact ⟨z, hz⟩
  have hv : ∀ k : Str, ∃ z : ℂ, k ∈ (labelParams env.sample).map Prod.fst → LabelCell f k j z := by
    intro k
    by_cases hk : k ∈ (labelParams env.sample).map Prod.fst
    · obtain ⟨p, hp, rfl⟩ := List.mem_map.1 hk
      obtain ⟨z, hz⟩ := hcell p hp
      exact ⟨z, fun _ => hz⟩
    · exact ⟨0, fun h => absurd h hk⟩
  choose v hv using hv
  have ht : IsLabelTable env.sample (rowTable env.sample v) := by
    refine ⟨by rw [rowTable_columns], ?_, ?_, ?_⟩
    · intro d hd
      obtain ⟨k, -, rfl⟩ := List.mem_map.1 hd
      rfl
    · intro d hd x hx
      obtain ⟨k, -, rfl⟩ := List.mem_map.1 hd
      rw [List.mem_singleton] at hx
      rw [hx]
      simp
    · intro k x nm hx d hd hdk z hz
      obtain ⟨k', hk', rfl⟩ := List.mem_map.1 hd
      simp only at hdk
      subst hdk
      rw [List.mem_singleton] at hz
      rw [hz, labelCell_unique (hv k' hk') (hconst k' x nm hx)]
  have hnon : NonnegLengths (rowTable env.sample v) := by
    intro d hd hl z hz
    obtain ⟨k, hk, rfl⟩ := List.mem_map.1 hd
    rw [List.mem_singleton, Option.some.injEq] at hz
    rw [hz]
    exact hlen k hk hl _ (hv k hk)
  have hout : ExactOutput env.sample (rowTable env.sample v) (y.map fun (x : ℝ) => [some (x : ℂ)]) := by
    unfold ExactOutput
    rw [List.forall₂_map_right_iff]
    have hy' : List.Forall₂ (fun (p : Str × Param ℝ) (x : ℝ) => p ∈ freeParams env.sample ∧ ∃ z : ℂ, LabelCell f p.1 j z ∧
        (x : ℂ) = (z - p.2.min.toC) / (p.2.max.toC - p.2.min.toC)) (freeParams env.sample) y := by
      have h1 : List.Forall₂ _ (freeParams env.sample) y := hy
      rw [List.forall₂_iff_get] at h1 ⊢
      exact ⟨h1.1, fun i i1 i2 => ⟨List.getElem_mem _, h1.2 i i1 i2⟩⟩
    refine hy'.imp ?_
    rintro p x ⟨hp, z, hz, hx⟩
    have hm : p.1 ∈ (labelParams env.sample).map Prod.fst := List.mem_map.2 ⟨p, (List.mem_filter.1 hp).1, rfl⟩
    refine ⟨_, rowTable_get hs hn v hm, ?_⟩
    rw [labelCell_unique (hv _ hm) hz, hx]
    rfl
  have hpred : env.predict [c] = .ok (rowTable env.sample v) :=
    predict_exact hs hn ht (rowTable_columns _ _) hnon (by intro r hr; rw [List.mem_singleton] at hr; rw [hr, hcl, hml])
      (by rw [hsl, hml]) hout hnet
  have hin : env.networkInput [c] env.trainedQ 0 1 = .ok [c] :=
    networkInput_self hq hne (by intro d hd; rw [List.mem_singleton] at hd; rw [hd]; exact ⟨hcl, hpos⟩)
  obtain ⟨⟨lo, hi⟩, hidx⟩ := qIndices_ok (env := env) hne hne
  refine ⟨⟨rowTable env.sample v, none, none, none⟩, ?_, rfl, rowTable_columns _ _, ?_⟩
  · unfold FitEnv.fitCurve
    rw [hidx, bind_ok]
    simp only [hin, bind_ok]
    unfold FitEnv.qStep FitEnv.scalingStep FitEnv.chooseParams FitEnv.polishStep FitEnv.simulateStep
    simp only [Bool.false_eq_true, if_false, bind_ok, Bool.false_and, hpred]
    rfl
  · intro k hk
    exact ⟨v k, hv k hk, rowTable_get hs hn v hk⟩

theorem generated_const {G : Type} {rng : Rng G} (ok : rng.Ok) {s : SampleV ℝ} (hs : SampleRegular s) (hn : (partNames s).Nodup) {n : Int}
    {d : DistArgs} {g g' : G} {f : Frame (Num ℝ)} (h : generateRandomLabels rng s n d g = .ok (f, g')) {k : Str} {x : Num ℝ}
    {nm : Option Str} (hk : (k, Param.const x nm) ∈ labelParams s) {j : Nat} (hj : j < n.toNat) : LabelCell f k j x.toC := by
  obtain ⟨-, -, -, hrows⟩ := C17_label_table ok s hs hn n d g g' f h
  have key : ∀ col : List (Num ℝ), f.get k = .ok col → col.length = n.toNat → (∀ v ∈ col, v = x) → LabelCell f k j x.toC := by
    intro col h1 h2 h3
    exact ⟨col, x, h1, by rw [List.getElem?_eq_getElem (by omega), h3 _ (List.getElem_mem _)], rfl⟩
  have mem : ∀ {ls : List (LayerV ℝ)} {sel : LayerV ℝ → Option (Param ℝ)} {w : Str},
      (k, Param.const x nm) ∈ ls.filterMap (fun l => (sel l).map fun p => (l.name ++ w, p)) →
      ∃ l ∈ ls, sel l = some (.const x nm) ∧ k = l.name ++ w := by
    intro ls sel w hm
    obtain ⟨l, hl, hm⟩ := List.mem_filterMap.1 hm
    obtain ⟨p, hp, hm⟩ := Option.map_eq_some_iff.1 hm
    cases hm
    exact ⟨l, hl, hp, rfl⟩
  unfold labelParams at hk
  rcases List.mem_append.1 hk with hk | hk
  · rcases List.mem_append.1 hk with hk | hk
    · obtain ⟨l, hl, hp, rfl⟩ := mem hk
      obtain ⟨q, hq, -⟩ := (hs.layers l hl).roughness
      obtain ⟨col, col', h1, h2, -⟩ := (hrows l (by simp [hl])).film _ q hp hq
      exact key col h1 h2.1 fun v hv => h2.2.1 (Or.inl rfl) v hv
    · obtain ⟨l, hl, hp, rfl⟩ := mem hk
      rcases List.mem_cons.1 hl with rfl | hl
      · obtain ⟨col, h1, h2⟩ := (hrows s.substrate (by simp)).substrate _ hs.substrate.thickness hp
        exact key col h1 h2.1 fun v hv => h2.2.1 (Or.inl rfl) v hv
      · obtain ⟨q, hq, -⟩ := (hs.layers l hl).thickness
        obtain ⟨col, col', -, -, h3, h4, -, h6⟩ := (hrows l (by simp [hl])).film q _ hq hp
        refine key col' h3 h4 fun v hv => ?_
        obtain ⟨t, -, ht, -⟩ := forall₂_mem_right (h6 (Or.inl rfl)) hv
        exact ht
  · obtain ⟨l, hl, hp, rfl⟩ := mem hk
    obtain ⟨col, h1, h2⟩ := (hrows l hl).sld _ hp
    exact key col h1 h2.1 fun v hv => h2.2.1 (Or.inl rfl) v hv

/-- C109: let a trainer return a model `r` (as in `C91_training`), and let the network of a fit with this model return the
training label of sample `j` for the curve of sample `j` without noise. This input is standardized like the training inputs, and the
curve without noise is one of those that the training may show to the network for sample `j`. Then the fit returns the labels of
sample `j` in the table of the training data. -/
theorem C109_trained {G Net : Type} (tenv : TrainEnv G Net) (ok : tenv.rng.Ok)
    (hz : ∀ m n g, ∀ x ∈ (tenv.rng.normal m 0 n g).1, x = m) (w0 : TrainerSt G Net) (hs : SampleRegular w0.sample)
    (hn : (partNames w0.sample).Nodup) (hk : KeywordFree (partNames w0.sample)) (hlay : 0 < w0.sample.layers.length)
    (hsub : ∀ p, w0.sample.substrate.roughness = some p → ∃ a b, p.min = .real a ∧ p.max = .real b)
    (n : Int) (w : TrainerSt G Net) (hg : w0.generate tenv n = (w, .ok ()))
    (l : List (TrainEvent G)) (hl : ∀ e ∈ l, (∃ a b c, e = .train a b c) ∨ ∃ g, e = .draws g)
    (epochs batch : Nat) (hb : 1 ≤ batch) (v : ℝ) (h0 : 0 ≤ v) (h1 : v ≤ 1) (r : ModelRef)
    (hr : ((w.run tenv l).train tenv epochs batch v).2 = .ok r)
    (env : FitEnv) (es : env.sample = w0.sample) (eq : env.trainedQ = w0.q) (em : env.mean = r.mean) (esd : env.std = r.std)
    (hq : w0.q.Pairwise (· < ·)) (hne : w0.q ≠ []) :
    ∃ (d : TrainData) (u : UGen) (nT : Nat), (w.run tenv l).data = some d ∧
      BatchesOk tenv u w0.sample w0.q d.labels 0 nT batch env.mean env.std ∧
      ∀ (j : Nat) (c y : List ℝ), j < n.toNat → CurveOf tenv.refl1d w0.sample w0.q d.labels j c → c.length = w0.q.length → PositiveCurve c →
        TargetOf w0.sample d.labels j y →
        (∀ k ∈ (labelParams w0.sample).map Prod.fst, "thickness".toList <:+: k ∨ "roughness".toList <:+: k →
          ∀ z : ℂ, LabelCell d.labels k j z → z.im = 0 ∧ 0 ≤ z.re) →
        env.net [standardized env.mean env.std c] = .ok (.array 1 (y.map fun (x : ℝ) => [some (x : ℂ)])) →
        ScaledOf (0.9, 1.1) (0.9, 1.1) c c ∧
        ∀ (fractions : List ℝ) (shifts scalings : Nat → List ℝ), ∃ out,
          env.fitCurve [c] w0.q ⟨0, 1, false, fractions, false, false, false⟩ shifts scalings = .ok out ∧ out.params.rows = 1 ∧
          out.params.cols.columns = (labelParams w0.sample).map Prod.fst ∧
          ∀ k ∈ (labelParams w0.sample).map Prod.fst, ∃ z : ℂ, LabelCell d.labels k j z ∧ out.params.cols.get k = .ok [some z] := by
  have hp : ∃ f g', (w.run tenv l).prepare tenv epochs batch v (w.run tenv l).g = .ok (f, g') := by
    unfold TrainerSt.train at hr
    cases hpr : (w.run tenv l).prepare tenv epochs batch v (w.run tenv l).g with
    | error e => rw [hpr] at hr; cases hr
    | ok p => exact ⟨p.1, p.2, rfl⟩
  obtain ⟨f, g', hp⟩ := hp
  obtain ⟨d, m, sd, nT, d1, d2, d3, d4, -, -, -, -, d9⟩ := C91_training tenv ok hz w0 hs hn hk hlay hsub n w hg l hl epochs batch hb v h0 h1 f g' hp
  obtain ⟨rfl, -⟩ := d9 r hr
  simp only at em esd
  obtain ⟨noisy, -, m1, m2, -⟩ := d3
  have hml : env.mean.length = env.trainedQ.length := by rw [em, m1, eq]; simp
  have hsl : env.std.length = env.trainedQ.length := by rw [esd, m2, eq]; simp
  refine ⟨d, f.train, nT, d1, by rw [em, esd]; exact d4, ?_⟩
  intro j c y hj hc hcl hpos hy hlen hnet
  have hconst : ∀ k x nm, (k, Param.const x nm) ∈ labelParams w0.sample → LabelCell d.labels k j x.toC := by
    intro k x nm hm
    have hw := (run_keeps tenv l hl w).1
    rw [d1] at hw
    unfold TrainerSt.generate at hg
    cases hd : trainingData tenv w0.sample w0.q n w0.g with
    | error e => rw [hd] at hg; cases hg
    | ok dg =>
      obtain ⟨d', g1⟩ := dg
      rw [hd] at hg
      simp only at hg
      have hdw : w.data = some d' := by
        cases hi : prepareInput tenv w0.q.length d'.curves g1 with
        | error e => rw [hi] at hg; cases hg
        | ok ig => rw [hi] at hg; cases hg; rfl
      rw [hdw] at hw
      cases hw
      unfold trainingData at hd
      obtain ⟨f0, g2, e1, hd⟩ := Rand.bind_ok.1 hd
      obtain ⟨c0, g3, -, hd⟩ := Rand.bind_ok.1 hd
      obtain ⟨c1, g4, -, hd⟩ := Rand.bind_ok.1 hd
      cases Rand.pure_ok.1 hd
      exact generated_const ok.toOk hs hn e1 hm hj
  refine ⟨⟨List.replicate c.length 1, 1, by simp, ?_, ?_, ?_⟩, fun fractions shifts scalings => ?_⟩
  · intro x hx
    rw [(List.mem_replicate.1 hx).2, Set.mem_uIcc]
    left
    constructor <;> norm_num
  · rw [Set.mem_uIcc]
    left
    constructor <;> norm_num
  · refine List.ext_getElem (by simp) fun i i1 i2 => ?_
    simp
  · obtain ⟨out, o1, o2, o3, o4⟩ := C109_learned env (by rw [es]; exact hs) (by rw [es]; exact hn) d.labels hml hsl (by rw [eq]; exact hq)
      (by rw [eq]; exact hne) j c (by rw [eq]; exact hcl) hpos y (by rw [es]; exact hy) (by rw [es]; exact hconst) (by rw [es]; exact hlen)
      hnet fractions shifts scalings
    rw [es] at o3 o4
    rw [eq] at o1
    exact ⟨out, o1, o2, o3, o4⟩

/-! ### A concrete fit -/

/-- The network of `thickEnv` with another deviation: it knows that the curve 15, 15 has the thickness 15. -/
noncomputable def exactEnv : FitEnv := { thickEnv (prepSample 0 1) with std := [30, 30] }

theorem exact_output : ExactOutput (prepSample 0 1) (pairTable 15 (1/2)) [[some ((1/2 : ℝ) : ℂ)], [some ((1/2 : ℝ) : ℂ)]] := by
  unfold ExactOutput
  rw [prepSample_free]
  refine .cons ⟨[some ((15 : ℝ) : ℂ)], rfl, ?_⟩ (.cons ⟨[some ((1/2 : ℝ) : ℂ)], rfl, ?_⟩ .nil)
  · simp only [List.map_cons, List.map_nil, Option.map_some, Param.min, Param.max, Num.toC]
    rw [show (⟨10, 0⟩ : ℂ) = ((10 : ℝ) : ℂ) from rfl, show (⟨20, 0⟩ : ℂ) = ((20 : ℝ) : ℂ) from rfl]
    norm_num
  · simp only [List.map_cons, List.map_nil, Option.map_some, Param.min, Param.max, Num.toC]
    rw [show (⟨0, 0⟩ : ℂ) = ((0 : ℝ) : ℂ) from rfl, show (⟨1, 0⟩ : ℂ) = ((1 : ℝ) : ℂ) from rfl]
    norm_num

theorem exact_table : IsLabelTable (prepSample 0 1) (pairTable 15 (1/2)) := by
  obtain ⟨p1, p2, p3⟩ := pairTable_row 15 (1/2)
  have hnd := labelParams_nodup (prepSample_regular (lo := 0) (hi := 1) (by norm_num)) (prepSample_names 0 1)
  have hcol : ∀ d ∈ (pairTable 15 (1/2)).cols, d.2 = [some ((pairLabels 15 (1/2) d.1 : ℝ) : ℂ)] := by
    intro d hd
    have h1 := p3 d.1 (List.mem_map.2 ⟨d, hd, rfl⟩)
    rw [get_of_mem (by rw [p2]; exact hnd) hd] at h1
    simpa using h1
  refine ⟨by rw [p2], ?_, ?_, ?_⟩
  · intro d hd
    rw [hcol d hd]
    rfl
  · intro d hd x hx
    rw [hcol d hd, List.mem_singleton] at hx
    rw [hx]
    simp
  · intro n x nm hx d hd hdn y hy
    rw [hcol d hd, List.mem_singleton] at hy
    rw [hy, pair_const (a := 15) (b := 1/2) n x nm hx, hdn]

theorem exact_nonneg : NonnegLengths (pairTable 15 (1/2)) := by
  rw [← pair_positive (a := 15) (b := 1/2) (by norm_num)]
  exact ensurePositive_nonneg _

theorem exact_net : exactEnv.net ([[15, 15]].map (standardized exactEnv.mean exactEnv.std)) =
    .ok (.array 1 [[some ((1/2 : ℝ) : ℂ)], [some ((1/2 : ℝ) : ℂ)]]) := by
  have : standardized exactEnv.mean exactEnv.std [15, 15] = [1/2, 1/2] := by
    show List.zipWith (· / ·) (List.zipWith (· - ·) [15, 15] [0, 0]) [30, 30] = ([1/2, 1/2] : List ℝ)
    simp only [List.zipWith_cons_cons, List.zipWith_nil_left]
    norm_num
  rw [List.map_cons, List.map_nil, this]
  rfl

/-- The hypotheses of `C109_perfect` hold; the measurement has a q value more than the network. -/
theorem exact_fit : exactEnv.fitCurve [[15, 15, 15]] [1, 2, 3] (plainOpts false) (fun _ => []) (fun _ => []) =
    .ok ⟨pairTable 15 (1/2), some [[some 15, some 15, some 15]], none, none⟩ := by
  have hsim : exactEnv.simulate [1, 2, 3] (pairTable 15 (1/2)) = .ok [[some 15, some 15, some 15]] := rfl
  refine C109_perfect exactEnv (prepSample_regular (by norm_num)) (prepSample_names _ _) (pairTable 15 (1/2)) exact_table rfl exact_nonneg
    [1, 2, 3] (by norm_num) (by simp) (by show ([1, 2] : List ℝ) ≠ []; simp) rfl rfl [[15, 15, 15]] [[15, 15]] ?_ _ exact_output exact_net _ hsim _ _ _
  refine .cons ⟨rfl, ?_, rfl, ?_⟩ .nil
  · intro x hx
    simp only [List.mem_cons, List.not_mem_nil, or_false, or_self] at hx
    rw [hx]
    norm_num
  · intro k a hk
    match k, hk with
    | 0, hk => cases hk; exact ⟨0, rfl, rfl⟩
    | 1, hk => cases hk; exact ⟨1, rfl, rfl⟩

theorem exact_predict : exactEnv.predict [[15, 15]] = .ok (pairTable 15 (1/2)) :=
  predict_exact (env := exactEnv) (prepSample_regular (by norm_num)) (prepSample_names _ _) exact_table rfl exact_nonneg
    (by intro r hr; rw [List.mem_singleton] at hr; rw [hr]; rfl) rfl exact_output exact_net

theorem exact_input : exactEnv.networkInput [[15, 15]] [1, 2] 0 1 = .ok [[15, 15]] :=
  networkInput_self (env := exactEnv) (by show ([1, 2] : List ℝ).Pairwise (· < ·); norm_num) (by show ([1, 2] : List ℝ) ≠ []; simp) (by
    intro c hc
    rw [List.mem_singleton] at hc
    subst hc
    refine ⟨rfl, fun x hx => ?_⟩
    simp only [List.mem_cons, List.not_mem_nil, or_false, or_self] at hx
    rw [hx]
    norm_num)

theorem exact_indices : exactEnv.qIndices [1, 2] = .ok (0, 2) := toy_qIndices (prepSample 0 1)

theorem exact_plain (b : Bool) : ∃ out, exactEnv.fitCurve [[15, 15]] [1, 2] ⟨0, 1, false, [0.5, 0.5, 0.1], false, false, b⟩
    (fun _ => []) (fun _ => []) = .ok out ∧ out.params = pairTable 15 (1/2) := by
  obtain ⟨r, hr⟩ : ∃ r, exactEnv.simulate [1, 2] (pairTable 15 (1/2)) = .ok r := ⟨_, rfl⟩
  refine ⟨⟨pairTable 15 (1/2), if b then some r else none, none, none⟩, ?_, rfl⟩
  unfold FitEnv.fitCurve
  rw [exact_indices, bind_ok]
  simp only [exact_input, bind_ok]
  unfold FitEnv.qStep FitEnv.scalingStep FitEnv.chooseParams FitEnv.polishStep FitEnv.simulateStep
  simp only [Bool.false_eq_true, if_false, bind_ok, Bool.false_and, exact_predict, hr]
  cases b <;> rfl

/-- The hypotheses of `C109_corrections` hold: a third of the curve, shifted by one. -/
example : ∃ out, exactEnv.fitCurve [[15 / 3, 15 / 3]] [1 - 1, 2 - 1] ⟨1, 3, false, [0.5, 0.5, 0.1], false, false, false⟩
    (fun _ => []) (fun _ => []) = .ok out ∧ out.params = pairTable 15 (1/2) := by
  obtain ⟨out, h, hp⟩ := exact_plain false
  exact ⟨out, C109_corrections exactEnv [[15, 15]] [1, 2] 1 3 (by norm_num) _ _ _ _ h, hp⟩

/-- The hypotheses of `C109_refined` hold: refined labels for the curve 15, 15. -/
example : ∃ out', exactEnv.fitCurve [[15, 15]] [1, 2] (plainOpts true) (fun _ => []) (fun _ => []) = .ok out' ∧
    exactEnv.simulate [1, 2] (out'.params.row 0) = .ok [[some 15, some 15]] := by
  obtain ⟨out, h, hp⟩ := exact_plain true
  obtain ⟨u, hu⟩ := thick_refine (a := 15) (b := 15) (by norm_num) (by norm_num)
  have hu' : exactEnv.leastLogFit [1, 2] [15, 15] (pairTable 15 (1/2)) [0.5, 0.5, 0.1] = .ok u := hu
  obtain ⟨r, hr⟩ : ∃ r, exactEnv.simulate [1, 2] (ensurePositive u) = .ok r := ⟨_, rfl⟩
  have h' : exactEnv.fitCurve [[15, 15]] [1, 2] (plainOpts true) (fun _ => []) (fun _ => []) = .ok ⟨ensurePositive u, some r, none, none⟩ := by
    unfold FitEnv.fitCurve
    rw [exact_indices, bind_ok]
    have e1 : (plainOpts true).dq = 0 := rfl
    have e2 : (plainOpts true).factor = 1 := rfl
    simp only [e1, e2, exact_input, bind_ok]
    unfold FitEnv.qStep FitEnv.scalingStep FitEnv.chooseParams FitEnv.polishStep FitEnv.simulateStep
    simp only [plainOpts, Bool.false_eq_true, if_false, bind_ok, Bool.false_and, exact_predict, if_true]
    have : List.range ([[15, 15]] : List (List ℝ)).length = [0] := rfl
    rw [this, mapM_cons]
    have h4 : getItem ([[15, 15]] : List (List ℝ)) ((0 : Nat) : Int) = .ok [15, 15] := rfl
    rw [h4]
    simp only [bind_ok]
    have h5 : slice ([1, 2] : List ℝ) (some ((0 : Nat) : Int)) (some ((2 : Nat) : Int)) = [1, 2] := rfl
    have h6 : slice ([15, 15] : List ℝ) (some ((0 : Nat) : Int)) (some ((2 : Nat) : Int)) = [15, 15] := rfl
    have h7 : (pairTable 15 (1/2)).row 0 = pairTable 15 (1/2) := rfl
    rw [h5, h6, h7, hu']
    simp only [bind_ok, mapM_ok_nil, pure, Except.pure]
    have h8 : Table.concat [u] = .ok u := rfl
    rw [h8]
    simp only [bind_ok]
    rw [hr]
    rfl
  have h7 : (pairTable 15 (1/2)).row 0 = pairTable 15 (1/2) := rfl
  have hsim : exactEnv.simulate [1, 2] (pairTable 15 (1/2)) = .ok [[some 15, some 15]] := rfl
  refine ⟨_, h', C109_refined exactEnv (prepSample_regular (by norm_num)) (prepSample_names _ _) (thickEnv_sim (prepSample 0 1)) (prepSample_realRanges _ _)
    (thickEnv_within (prepSample 0 1)) (thickEnv_descends (prepSample 0 1)) [[15, 15]] [1, 2] (plainOpts true) _ _ out _ h h' 0 [15, 15] rfl (pairLabels 15 (1/2))
    (by rw [hp, h7]; exact pairTable_row _ _) (fun n x nm => pair_const n x nm) (pair_inside (by norm_num))
    (by simp only [plainOpts, List.mem_cons, List.not_mem_nil, or_false]; rintro f (rfl | rfl | rfl) <;> norm_num) 0 2 exact_indices
    (by rw [hp, h7]; exact hsim)⟩

/-- The hypotheses of `C109_trained` (and of `C109_learned`) hold for a trainer with four samples and a network that returns the training
label of one sample. -/
example : ∃ (r : ModelRef) (w : TrainerSt Bool Nat), countTrainer.generate countEnv 4 = (w, .ok ()) ∧
    ((w.run countEnv []).train countEnv 1 2 (1 / 2)).2 = .ok r := by
  obtain ⟨d, sd, g, h⟩ := count_train countTrainer rfl rfl 4 (by norm_num) (by decide) 0.9 count_input4
  obtain ⟨d', sd', g', h'⟩ := count_generate countTrainer rfl rfl 4 (by norm_num) 0.9 count_input4
  refine ⟨⟨[0.9], sd, countTrainer.netId⟩, _, h', ?_⟩
  rw [h'] at h
  exact congrArg Prod.snd h

end Verif.Props
