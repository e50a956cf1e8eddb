import Verif.Model.ResultPlots
import Verif.Props.Results
import Verif.Props.ResultProfiles
import Verif.Props.Scans
import Verif.Props.ScanSeries
import Verif.Props.Labels
import Verif.Props.Plots

/-!
# C102: the plots of fit results and scans
-/

namespace Verif.Props
open Verif.Py Verif.Model Verif.Spec

theorem points_eq {α β : Type} {x : List α} {y : List β} (h : x.length = y.length) : points x y = .ok (x.zip y) := by
  unfold points
  rw [if_pos h]

theorem points_ok {α β : Type} {x : List α} {y : List β} {c : List (α × β)} (h : points x y = .ok c) :
    x.length = y.length ∧ c = x.zip y := by
  unfold points at h
  split at h
  · cases h; exact ⟨by assumption, rfl⟩
  · cases h

/-! ### Units -/

/-- The unit that belongs to a parameter, by the words in its name; `sld` is the unit written for densities. -/
def UnitOf (sld p u : Str) : Prop :=
  (("thickness".toList <:+: p ∨ "roughness".toList <:+: p) ∧ u = "Å".toList) ∨
  (¬ "thickness".toList <:+: p ∧ ¬ "roughness".toList <:+: p ∧ "sld".toList <:+: p ∧ u = sld)

/-- A parameter whose name has none of the three words. -/
def NoUnit (p : Str) : Prop := ¬ "thickness".toList <:+: p ∧ ¬ "roughness".toList <:+: p ∧ ¬ "sld".toList <:+: p

theorem mapM_some {α β : Type} {f : α → Res β} {l : List α} (h : ∀ a ∈ l, ∃ b, f a = .ok b) : ∃ bs, l.mapM f = .ok bs := by
  obtain ⟨bs, hb, -⟩ := mapM_exists (f := f) (l := l) (R := fun _ _ => True) fun a ha => (h a ha).imp fun _ hb => ⟨hb, trivial⟩
  exact ⟨bs, hb⟩

theorem unitOf_iff {sld p u : Str} : unitOf sld p = .ok u ↔ UnitOf sld p u := by
  unfold unitOf UnitOf
  by_cases h1 : isLengthName p = true
  · rw [if_pos h1]
    rw [isLengthName_iff] at h1
    constructor
    · intro h
      cases h
      exact Or.inl ⟨h1, rfl⟩
    · rintro (⟨-, rfl⟩ | ⟨h2, h3, -⟩)
      · rfl
      · exact (h1.elim h2 h3).elim
  · rw [if_neg h1]
    rw [isLengthName_iff, not_or] at h1
    by_cases h2 : contains p sldS = true
    · rw [if_pos h2]
      rw [contains_iff] at h2
      constructor
      · intro h
        cases h
        exact Or.inr ⟨h1.1, h1.2, h2, rfl⟩
      · rintro (⟨h, -⟩ | ⟨-, -, -, rfl⟩)
        · exact (h.elim h1.1 h1.2).elim
        · rfl
    · rw [if_neg h2]
      rw [contains_iff] at h2
      constructor
      · intro h; cases h
      · rintro (⟨h, -⟩ | ⟨-, -, h, -⟩)
        · exact (h.elim h1.1 h1.2).elim
        · exact (h2 h).elim

theorem unitOf_none {sld p : Str} (h : NoUnit p) : unitOf sld p = .error .valueError := by
  unfold unitOf
  rw [if_neg (by rw [isLengthName_iff]; exact fun h' => h'.elim h.1 h.2.1), if_neg (by rw [contains_iff]; exact h.2.2)]

theorem unit_exists (sld : Str) {p : Str} (h : ¬ NoUnit p) : ∃ u, UnitOf sld p u := by
  unfold NoUnit at h
  by_cases h1 : "thickness".toList <:+: p ∨ "roughness".toList <:+: p
  · exact ⟨_, Or.inl ⟨h1, rfl⟩⟩
  · rw [not_or] at h1
    exact ⟨_, Or.inr ⟨h1.1, h1.2, by by_contra h2; exact h ⟨h1.1, h1.2, h2⟩, rfl⟩⟩

/-- C102, units: the thickness and roughness of a part are shown in Å, and its density with the unit of a density, exactly if
the name of the part has neither `thickness` nor `roughness` in it. -/
theorem C102_units_partial (sld name : Str) (hs : sld ≠ "Å".toList) :
    UnitOf sld (name ++ "_thickness".toList) "Å".toList ∧ UnitOf sld (name ++ "_roughness".toList) "Å".toList ∧
    (UnitOf sld (name ++ "_sld".toList) sld ↔ KeywordFree [name]) ∧
    (¬ KeywordFree [name] → UnitOf sld (name ++ "_sld".toList) "Å".toList) := by
  refine ⟨Or.inl ⟨Or.inl (thickness_in_name name), rfl⟩, Or.inl ⟨Or.inr (roughness_in_name name), rfl⟩, ?_, ?_⟩
  · unfold UnitOf KeywordFree
    rw [thickness_in_sld, roughness_in_sld]
    constructor
    · rintro (⟨-, h⟩ | ⟨h1, h2, -⟩)
      · exact (hs h).elim
      · intro n hn
        rw [List.mem_singleton] at hn
        subst hn
        exact ⟨h1, h2⟩
    · intro h
      obtain ⟨h1, h2⟩ := h name (List.mem_singleton.2 rfl)
      exact Or.inr ⟨h1, h2, sld_in_name name, rfl⟩
  · intro h
    unfold UnitOf
    rw [thickness_in_sld, roughness_in_sld]
    refine Or.inl ⟨?_, rfl⟩
    by_contra h'
    rw [not_or] at h'
    exact h fun n hn => by rw [List.mem_singleton] at hn; subst hn; exact h'

/-- C102 is false for the units: the density of a layer called `roughness_layer` is shown in Å. -/
theorem C102_wrong_unit : unitOf axisSldUnit "roughness_layer_sld".toList = .ok "Å".toList := by decide

/-! ### The annotated prediction -/

/-- The single value of a parameter of a result. -/
def ValueIn (r : FitResult) (p : Str) (v : Fl) : Prop := (p, [v]) ∈ r.params.cols

/-- C102, prediction: for a result with as many data and predicted values as q values and one row of parameters, the plot shows
the data and the prediction over the same q values, and every chosen parameter with its value and unit in the chosen order. -/
theorem C102_prediction (r : FitResult) (params : List Str) (h1 : r.corrected.length = r.qInput.length)
    (h2 : r.predicted.length = r.qInput.length) (h3 : OneRow r.params) (h4 : ∀ p ∈ params, p ∈ r.params.cols.columns)
    (h5 : ∀ p ∈ params, ¬ NoUnit p) :
    ∃ plot e, r.plotPrediction params = .ok plot ∧ plot.number = r.number ∧ plot.timestamp = r.timestamp ∧
      (∀ (k : Nat) (q y : ℝ), plot.data[k]? = some (q, y) ↔ r.qInput[k]? = some q ∧ r.corrected[k]? = some y) ∧
      (∀ (k : Nat) (q : ℝ) (y : Option ℝ), plot.prediction[k]? = some (q, y) ↔ r.qInput[k]? = some q ∧ r.predicted[k]? = some y) ∧
      List.Forall₂ (fun (p : Str) (n : NoteLine) => n.name = p ∧ ValueIn r p n.value ∧ UnitOf noteSldUnit p n.unit)
        params plot.lines ∧ r.curveMse = .ok e ∧ plot.logMse = e := by
  have hl : ∀ p ∈ params, ∃ n, r.noteLine p = .ok n := by
    intro p hp
    obtain ⟨u, hu⟩ := unit_exists noteSldUnit (h5 p hp)
    obtain ⟨c, hc⟩ := get_ok_of_mem (h4 p hp)
    obtain ⟨v, hv⟩ := List.length_eq_one_iff.1 (h3.2 _ (mem_of_get hc))
    simp only at hv
    subst hv
    refine ⟨⟨p, v, u⟩, ?_⟩
    unfold FitResult.noteLine
    rw [unitOf_iff.2 hu, bind_ok, hc, bind_ok]
    rfl
  obtain ⟨ns, hns⟩ := mapM_some hl
  have hf := mapM_ok_iff.1 hns
  have he : ∃ e, r.curveMse = .ok e := by
    unfold FitResult.curveMse
    rw [if_neg (by rw [h1, h2]; simp)]
    exact ⟨_, rfl⟩
  obtain ⟨e, he⟩ := he
  refine ⟨⟨r.number, r.timestamp, r.qInput.zip r.corrected, r.qInput.zip r.predicted, ns, e⟩, e, ?_, rfl, rfl, ?_, ?_, ?_, he, rfl⟩
  · unfold FitResult.plotPrediction
    rw [points_eq h1.symm, bind_ok, points_eq h2.symm, bind_ok, hns, bind_ok, he]
    rfl
  · intro k q y
    rw [List.getElem?_zip_eq_some]
  · intro k q y
    rw [List.getElem?_zip_eq_some]
  · refine hf.imp fun p n hn => ?_
    unfold FitResult.noteLine at hn
    obtain ⟨u, hu, hn⟩ := bind_eq_ok.1 hn
    obtain ⟨c, hc, hn⟩ := bind_eq_ok.1 hn
    obtain ⟨v, hv, hn⟩ := bind_eq_ok.1 hn
    have hn' := Except.ok.inj hn
    subst hn'
    refine ⟨rfl, ?_, unitOf_iff.1 hu⟩
    unfold floatOf at hv
    split at hv
    · cases hv
      exact mem_of_get hc
    · cases hv

/-- C102: the error that the plot shows is given by `C65_rounded_partial`; data or predictions of another length than the q values
cannot be drawn. -/
theorem C102_prediction_lengths (r : FitResult) (params : List Str)
    (h : r.corrected.length ≠ r.qInput.length ∨ r.predicted.length ≠ r.qInput.length) :
    r.plotPrediction params = .error .valueError := by
  unfold FitResult.plotPrediction
  by_cases h1 : r.qInput.length = r.corrected.length
  · rw [points_eq h1, bind_ok]
    have h2 : r.qInput.length ≠ r.predicted.length := fun h' => h.elim (fun g => g h1.symm) fun g => g h'.symm
    have : points r.qInput r.predicted = .error .valueError := by unfold points; rw [if_neg h2]
    rw [this]
    rfl
  · have : points r.qInput r.corrected = .error .valueError := by unfold points; rw [if_neg h1]
    rw [this]
    rfl

/-! ### Parameters of a series -/

theorem append_get {a b : Table} {p : Str} {x y : List Fl} (hc : b.cols.columns = a.cols.columns) (ha : a.cols.get p = .ok x)
    (hb : b.cols.get p = .ok y) : (a.append b).cols.get p = .ok (x ++ y) := by
  obtain ⟨n, a⟩ := a
  obtain ⟨m, b⟩ := b
  simp only [Table.append, Frame.columns] at hc ha hb ⊢
  induction a generalizing b x with
  | nil => simp [Frame.get] at ha
  | cons c a ih =>
    cases b with
    | nil => simp at hc
    | cons d b =>
      simp only [List.map_cons, List.cons.injEq] at hc
      rw [List.zipWith_cons_cons, get_cons]
      rw [get_cons] at ha hb
      by_cases hk : c.1 = p
      · have hk' : d.1 = p := hc.1.trans hk
        rw [if_pos hk] at ha
        rw [if_pos hk'] at hb
        cases ha
        cases hb
        simp [hk]
      · have hk' : d.1 ≠ p := fun h => hk (hc.1.symm.trans h)
        rw [if_neg hk] at ha
        rw [if_neg hk'] at hb
        rw [if_neg hk]
        exact ih ha b hb hc.2

theorem fold_get (ts : List Table) (t : Table) (p : Str) (x : List Fl) (vs : List Fl) (hc : ∀ u ∈ ts, u.cols.columns = t.cols.columns)
    (ht : t.cols.get p = .ok x) (hv : List.Forall₂ (fun (u : Table) (v : Fl) => u.cols.get p = .ok [v]) ts vs) :
    (ts.foldl Table.append t).cols.get p = .ok (x ++ vs) := by
  induction ts generalizing t x vs with
  | nil =>
    cases hv
    simpa using ht
  | cons u ts ih =>
    cases hv with
    | @cons _ v _ vs h1 h2 =>
      have ha := (append_spec t u (hc u (by simp))).1
      have := ih (t.append u) (x ++ [v]) vs (fun w hw => (hc w (by simp [hw])).trans ha.symm) (append_get (hc u (by simp)) ht h1) h2
      rw [List.foldl_cons, this]
      simp

/-- The columns of the results of a series are the same. -/
theorem init_columns {r : FitResult} {l : List FitResult} {s : Series} (h : Series.init (r :: l) = .ok s) :
    ∀ u ∈ l, u.params.cols.columns = r.params.cols.columns := by
  unfold Series.init at h
  obtain ⟨t, ht, -⟩ := bind_eq_ok.1 h
  unfold Table.concat at ht
  rw [List.map_cons] at ht
  simp only at ht
  split at ht
  · rename_i hall
    simpa using hall
  · cases ht

theorem series_column {r : FitResult} {l : List FitResult} {s : Series} (h : Series.init (r :: l) = .ok s)
    (h1 : ∀ u ∈ r :: l, OneRow u.params) {p : Str} (hp : p ∈ r.params.cols.columns) :
    ∃ col, s.params.cols.get p = .ok col ∧ List.Forall₂ (fun (u : FitResult) (v : Fl) => ValueIn u p v) (r :: l) col := by
  have hcc := init_columns h
  have hone : ∀ u ∈ r :: l, ∃ v, u.params.cols.get p = .ok [v] := by
    intro u hu
    have hpu : p ∈ u.params.cols.columns := by
      rcases List.mem_cons.1 hu with rfl | hu
      · exact hp
      · rw [hcc u hu]; exact hp
    obtain ⟨c, hc⟩ := get_ok_of_mem hpu
    obtain ⟨v, hv⟩ := List.length_eq_one_iff.1 ((h1 u hu).2 _ (mem_of_get hc))
    simp only at hv
    exact ⟨v, by rw [hc, hv]⟩
  obtain ⟨v0, hv0⟩ := hone r (by simp)
  have hvs : ∃ vs, List.Forall₂ (fun (u : FitResult) (v : Fl) => u.params.cols.get p = .ok [v]) l vs := by
    have : ∀ l' : List FitResult, (∀ u ∈ l', ∃ v, u.params.cols.get p = .ok [v]) →
        ∃ vs, List.Forall₂ (fun (u : FitResult) (v : Fl) => u.params.cols.get p = .ok [v]) l' vs := by
      intro l' hl'
      induction l' with
      | nil => exact ⟨[], .nil⟩
      | cons u l' ih =>
        obtain ⟨v, hv⟩ := hl' u (by simp)
        obtain ⟨vs, hvs⟩ := ih fun w hw => hl' w (by simp [hw])
        exact ⟨v :: vs, .cons hv hvs⟩
    exact this l fun u hu => hone u (by simp [hu])
  obtain ⟨vs, hvs⟩ := hvs
  have hf := fold_get (l.map FitResult.params) r.params p [v0] vs (by simpa using hcc) hv0 (by
    rw [List.forall₂_map_left_iff]; exact hvs)
  have hs : s.params = (l.map FitResult.params).foldl Table.append r.params := by
    have h0 := h
    unfold Series.init at h0
    obtain ⟨t, ht, h0⟩ := bind_eq_ok.1 h0
    obtain ⟨f, -, h0⟩ := bind_eq_ok.1 h0
    have h0' := Except.ok.inj h0
    subst h0'
    unfold Table.concat at ht
    rw [List.map_cons] at ht
    simp only at ht
    split at ht
    · cases ht; rfl
    · cases ht
  refine ⟨v0 :: vs, by rw [hs, hf]; rfl, .cons (mem_of_get hv0) (hvs.imp fun u v hu => mem_of_get hu)⟩

/-- The panels of the chosen parameters over the given axis: one below the other in the chosen order, each with the values of all
results in their order. -/
def RangePanels (l : List FitResult) (params : List Str) (time : Bool) (x : List ℝ) (panels : List RangePanel) : Prop :=
  panels.length = params.length ∧ ∀ (j : Nat) (p : Str), params[j]? = some p →
    ∃ panel : RangePanel, panels[j]? = some panel ∧ panel.rows = params.length ∧ panel.number = j + 1 ∧ panel.time = time ∧
      panel.name = p ∧ UnitOf axisSldUnit p panel.unit ∧ panel.curve.length = l.length ∧
      ∀ (i : Nat) (u : FitResult), l[i]? = some u → ∃ v t, ValueIn u p v ∧ x[i]? = some t ∧ panel.curve[i]? = some (t, v)

theorem plotRange_spec (parse : Str → Res ℝ) (r : FitResult) (l : List FitResult) (s : Series) (h : Series.init (r :: l) = .ok s)
    (h1 : ∀ u ∈ r :: l, OneRow u.params) (params : List Str) (h4 : ∀ p ∈ params, p ∈ r.params.cols.columns)
    (h5 : ∀ p ∈ params, ¬ NoUnit p) (fmt : Str) (time : Bool) (x : List ℝ) (hx : s.xAxis parse fmt = .ok (time, x))
    (hxl : x.length = (r :: l).length) :
    ∃ panels, s.plotRange parse params fmt = .ok panels ∧ RangePanels (r :: l) params time x panels := by
  have hp : ∀ q ∈ params.zipIdx, ∃ panel, s.rangePanel params.length (time, x) q = .ok panel ∧
      panel.rows = params.length ∧ panel.number = q.2 + 1 ∧ panel.time = time ∧ panel.name = q.1 ∧
      UnitOf axisSldUnit q.1 panel.unit ∧ panel.curve.length = (r :: l).length ∧
      ∀ (i : Nat) (u : FitResult), (r :: l)[i]? = some u → ∃ v t, ValueIn u q.1 v ∧ x[i]? = some t ∧ panel.curve[i]? = some (t, v) := by
    intro q hq
    have hqm : q.1 ∈ params := by
      have := List.fst_mem_of_mem_zipIdx hq
      exact this
    obtain ⟨un, hu⟩ := unit_exists axisSldUnit (h5 q.1 hqm)
    obtain ⟨col, hc, hf⟩ := series_column h h1 (h4 q.1 hqm)
    have hlen : x.length = col.length := hxl.trans hf.length_eq
    refine ⟨⟨params.length, q.2 + 1, time, q.1, un, x.zip col⟩, ?_, rfl, rfl, rfl, rfl, hu, ?_, ?_⟩
    · unfold Series.rangePanel
      rw [unitOf_iff.2 hu, bind_ok, hc, bind_ok, points_eq hlen]
      rfl
    · simp [hlen, hf.length_eq.symm]
    · intro i u hi
      obtain ⟨hil, rfl⟩ := List.getElem?_eq_some_iff.1 hi
      have hic : i < col.length := hf.length_eq ▸ hil
      have hix : i < x.length := by rw [hlen]; exact hic
      refine ⟨col[i], x[i], ?_, List.getElem?_eq_getElem hix, ?_⟩
      · have := (List.forall₂_iff_get.1 hf).2 i hil hic
        exact this
      · rw [List.getElem?_zip_eq_some]
        exact ⟨List.getElem?_eq_getElem hix, List.getElem?_eq_getElem hic⟩
  obtain ⟨panels, hpan⟩ := mapM_some (f := s.rangePanel params.length (time, x)) fun q hq => (hp q hq).imp fun _ h => h.1
  have hf := mapM_ok_iff.1 hpan
  refine ⟨panels, ?_, by simpa using hf.length_eq.symm, ?_⟩
  · unfold Series.plotRange
    rw [hx, bind_ok]
    exact hpan
  · intro j p hj
    obtain ⟨hjl, rfl⟩ := List.getElem?_eq_some_iff.1 hj
    have hjz : j < params.zipIdx.length := by simpa using hjl
    have hjp : j < panels.length := hf.length_eq ▸ hjz
    have hget := (List.forall₂_iff_get.1 hf).2 j hjz hjp
    have hm : (params[j], j) ∈ params.zipIdx := by
      rw [List.mem_zipIdx_iff_getElem?]
      exact List.getElem?_eq_getElem hjl
    obtain ⟨panel, k0, k⟩ := hp _ hm
    have he : params.zipIdx.get ⟨j, hjz⟩ = (params[j], j) := by simp
    rw [he, k0] at hget
    have hpj : panel = panels.get ⟨j, hjp⟩ := Except.ok.inj hget
    refine ⟨panel, ?_, k⟩
    rw [hpj]
    exact List.getElem?_eq_getElem hjp

theorem axis_scan {parse : Str → Res ℝ} {s : Series} {fmt : Str} (h : fmt ≠ "time".toList ∨ none ∈ s.timestamps) :
    s.xAxis parse fmt = .ok (false, s.numbers.map fun (n : Int) => (n : ℝ)) := by
  unfold Series.xAxis
  by_cases hf : fmt = timeS
  · rw [if_pos hf, (C67_none_iff parse s).2 (h.resolve_left fun h' => h' hf)]
    rfl
  · rw [if_neg hf]

/-- C102, parameters over scans: with another format than `time`, or if a timestamp is missing, there is one panel per chosen
parameter in the chosen order, with the value of every result over its scan number. -/
theorem C102_over_scans (parse : Str → Res ℝ) (r : FitResult) (l : List FitResult) (s : Series) (h : Series.init (r :: l) = .ok s)
    (h1 : ∀ u ∈ r :: l, OneRow u.params) (params : List Str) (h4 : ∀ p ∈ params, p ∈ r.params.cols.columns)
    (h5 : ∀ p ∈ params, ¬ NoUnit p) (fmt : Str) (hf : fmt ≠ "time".toList ∨ ∃ u ∈ r :: l, u.timestamp = none) :
    ∃ panels, s.plotRange parse params fmt = .ok panels ∧
      RangePanels (r :: l) params false ((r :: l).map fun (u : FitResult) => (u.number : ℝ)) panels := by
  have hn : s.numbers = (r :: l).map FitResult.number ∧ s.timestamps = (r :: l).map FitResult.timestamp := by
    unfold Series.init at h
    obtain ⟨t, -, h⟩ := bind_eq_ok.1 h
    obtain ⟨f, -, h⟩ := bind_eq_ok.1 h
    have h' := Except.ok.inj h
    subst h'
    exact ⟨rfl, rfl⟩
  refine plotRange_spec parse r l s h h1 params h4 h5 fmt false _ ?_ (by simp)
  rw [axis_scan, hn.1, List.map_map]
  · rfl
  · refine hf.imp id ?_
    rintro ⟨u, hu, ht⟩
    rw [hn.2]
    exact List.mem_map.2 ⟨u, hu, ht⟩

/-- C102, parameters over time: with format `time` and timestamps that can be read, the values are drawn over the time in minutes
since the first scan. -/
theorem C102_over_time (parse : Str → Res ℝ) (r : FitResult) (l : List FitResult) (s : Series) (h : Series.init (r :: l) = .ok s)
    (h1 : ∀ u ∈ r :: l, OneRow u.params) (params : List Str) (h4 : ∀ p ∈ params, p ∈ r.params.cols.columns)
    (h5 : ∀ p ∈ params, ¬ NoUnit p) (time : FitResult → ℝ)
    (ht : ∀ u ∈ r :: l, ∃ t, u.timestamp = some t ∧ parse t = .ok (time u)) :
    ∃ panels, s.plotRange parse params "time".toList = .ok panels ∧
      RangePanels (r :: l) params true ((r :: l).map fun (u : FitResult) => (time u - time r) / 60) panels := by
  have hn : s.timestamps = (r :: l).map FitResult.timestamp := by
    unfold Series.init at h
    obtain ⟨t, -, h⟩ := bind_eq_ok.1 h
    obtain ⟨f, -, h⟩ := bind_eq_ok.1 h
    have h' := Except.ok.inj h
    subst h'
    rfl
  have hts : ∃ ts : List Str, s.timestamps = ts.map some ∧
      List.Forall₂ (fun t x => parse t = .ok x) ts ((r :: l).map time) := by
    rw [hn]
    clear hn h h1 h4
    generalize r :: l = l at ht
    induction l with
    | nil => exact ⟨[], rfl, .nil⟩
    | cons u l ih =>
      obtain ⟨t, a1, a2⟩ := ht u (by simp)
      obtain ⟨ts, b1, b2⟩ := ih fun w hw => ht w (by simp [hw])
      exact ⟨t :: ts, by simp [a1, b1], .cons a2 b2⟩
  obtain ⟨ts, g1, g2⟩ := hts
  obtain ⟨d, d1, d2, d3, -⟩ := C67_values parse s ts _ g1 g2
  have hd : d = (r :: l).map fun (u : FitResult) => (time u - time r) / 60 := by
    refine List.ext_getElem? fun i => ?_
    by_cases hi : i < (r :: l).length
    · have := d3 i (time (r :: l)[i]) (time r) (by rw [List.getElem?_map, List.getElem?_eq_getElem hi]; rfl) rfl
      rw [this, List.getElem?_map, List.getElem?_eq_getElem hi]
      rfl
    · rw [List.getElem?_eq_none (by rw [d2, hn]; simpa using hi), List.getElem?_eq_none (by simpa using hi)]
  refine plotRange_spec parse r l s h h1 params h4 h5 _ true _ ?_ (by simp)
  unfold Series.xAxis
  rw [if_pos (show "time".toList = timeS from rfl), d1, hd]
  rfl

/-- C102: a parameter whose name tells no unit is rejected. -/
theorem C102_no_unit (parse : Str → Res ℝ) (s : Series) (fmt p : Str) (ps : List Str) (a : Bool × List ℝ)
    (hx : s.xAxis parse fmt = .ok a) (h : NoUnit p) : s.plotRange parse (p :: ps) fmt = .error .valueError := by
  unfold Series.plotRange
  rw [hx, bind_ok, List.zipIdx_cons, mapM_cons]
  unfold Series.rangePanel
  rw [unitOf_none h]
  rfl

/-- C102 is false for the documented parameter names: `thickness`, `roughness` and `sld` are not among the label names of any
sample, and the call raises `KeyError`. -/
theorem C102_documented_names (parse : Str → Res ℝ) (r : FitResult) (l : List FitResult) (s : Series)
    (h : Series.init (r :: l) = .ok s) (hs : SampleRegular r.sample) (hc : r.sample.labelNames = .ok r.params.cols.columns) (fmt p : Str)
    (hp : p = "thickness".toList ∨ p = "roughness".toList ∨ p = "sld".toList) (ps : List Str) (a : Bool × List ℝ)
    (hx : s.xAxis parse fmt = .ok a) : s.plotRange parse (p :: ps) fmt = .error .keyError := by
  obtain ⟨names, n1, n2, -⟩ := C05_label_names r.sample hs
  rw [hc] at n1
  have n1' := Except.ok.inj n1
  obtain ⟨s', hs', -, k2, -⟩ := C66_params r l (init_columns h)
  rw [h] at hs'
  cases hs'
  have hnot : p ∉ s.params.cols.columns := by
    rw [k2, n1', n2]
    intro hm
    have hu : '_' ∈ p := by
      unfold expectedLabels at hm
      simp only [List.mem_append, List.mem_map] at hm
      rcases hm with (⟨n, -, rfl⟩ | ⟨n, -, rfl⟩) | ⟨n, -, rfl⟩
      all_goals exact List.mem_append_right _ (by decide)
    rcases hp with rfl | rfl | rfl <;> exact absurd hu (by decide)
  have hu : ¬ NoUnit p := by
    rintro ⟨g1, g2, g3⟩
    rcases hp with rfl | rfl | rfl
    · exact g1 (List.infix_refl _)
    · exact g2 (List.infix_refl _)
    · exact g3 (List.infix_refl _)
  obtain ⟨u, hu⟩ := unit_exists axisSldUnit hu
  have hg : s.params.cols.get p = .error .keyError := by
    unfold Frame.get
    have : s.params.cols.find? (fun c => c.1 = p) = none := by
      rw [List.find?_eq_none]
      intro c hcm he
      exact hnot (List.mem_map.2 ⟨c, hcm, by simpa using he⟩)
    rw [this]
  unfold Series.plotRange
  rw [hx, bind_ok, List.zipIdx_cons, mapM_cons]
  unfold Series.rangePanel
  simp only
  rw [unitOf_iff.2 hu, bind_ok, hg]
  rfl

/-! ### Density profiles -/

theorem makeSldProfile_length {t r : List ℝ} {sl : List ℂ} {sub amb : ℂ} {p : List ℝ × List (Option ℝ)}
    (h : makeSldProfile t sl r sub amb = .ok p) : p.1.length = p.2.length := by
  unfold makeSldProfile at h
  split at h
  · cases h
  · obtain ⟨r0, -, h⟩ := bind_eq_ok.1 h
    obtain ⟨rl, -, h⟩ := bind_eq_ok.1 h
    obtain ⟨s0, -, h⟩ := bind_eq_ok.1 h
    obtain ⟨pr, hp, h⟩ := bind_eq_ok.1 h
    have h' := Except.ok.inj h
    subst h'
    simp only
    have key : ∀ (ns : List Nat) (height : List ℝ) (f : Nat → Res (List (Option ℝ))) (a b : List (Option ℝ)),
        (∀ i sg, f i = .ok sg → sg.length = height.length) → a.length = height.length →
        ns.foldlM (fun (x : List (Option ℝ)) i => (f i) >>= fun sg => pure (List.zipWith addNan x sg)) a = .ok b →
        b.length = height.length := by
      intro ns
      induction ns with
      | nil => intro height f a b _ ha hb; cases hb; exact ha
      | cons n ns ih =>
        intro height f a b hf ha hb
        rw [List.foldlM_cons] at hb
        obtain ⟨c, hc, hb⟩ := bind_eq_ok.1 hb
        obtain ⟨sg, hsg, hc⟩ := bind_eq_ok.1 hc
        have hc' := Except.ok.inj hc
        subst hc'
        exact ih height f _ b hf (by simp [ha, hf n sg hsg]) hb
    symm
    refine key _ _ (fun i => do
      let center ← getItem (cumulative 0 (t.map fun (x : ℝ) => |x|)) (i : Int)
      let width ← getItem (r.map fun (x : ℝ) => |x|) (i : Int)
      let l ← getItem ((sub :: sl ++ [amb]).map fun (z : ℂ) => z.re) (i : Int)
      let rr ← getItem ((sub :: sl ++ [amb]).map fun (z : ℂ) => z.re) ((i : Int) + 1)
      return (arange (-(10 + 3 * r0)) ((t.map fun (x : ℝ) => |x|).sum + (10 + 3 * rl))).map fun (z : ℝ) => smoothStep z center width l rr)
      _ _ ?_ ?_ (by simpa only [bind_assoc, pure_bind] using hp)
    · intro i sg hsg
      obtain ⟨_, -, hsg⟩ := bind_eq_ok.1 hsg
      obtain ⟨_, -, hsg⟩ := bind_eq_ok.1 hsg
      obtain ⟨_, -, hsg⟩ := bind_eq_ok.1 hsg
      obtain ⟨_, -, hsg⟩ := bind_eq_ok.1 hsg
      have := Except.ok.inj hsg
      subst this
      simp
    · simp

theorem sldProfile_length {u : FitResult} (h1 : OneRow u.params) {p : List ℝ × List (Option ℝ)} (h : u.sldProfile = .ok p) :
    p.1.length = p.2.length := by
  obtain ⟨-, -, h⟩ := (sldProfile_ok h1).1 h
  unfold rowProfile at h
  split at h
  · cases h
  · obtain ⟨_, -, h⟩ := bind_eq_ok.1 h
    obtain ⟨_, -, h⟩ := bind_eq_ok.1 h
    exact makeSldProfile_length h

/-- C102, profile: the density profile of a result is drawn over its heights. -/
theorem C102_profile (r : FitResult) (h1 : OneRow r.params) (p : List ℝ × List (Option ℝ)) (h : r.sldProfile = .ok p) :
    ∃ c, r.plotSldProfile = .ok c ∧ c.map Prod.fst = p.1 ∧ c.map Prod.snd = p.2 := by
  have hl := sldProfile_length h1 h
  refine ⟨p.1.zip p.2, ?_, List.map_fst_zip hl.le, List.map_snd_zip hl.ge⟩
  unfold FitResult.plotSldProfile
  rw [h, bind_ok, points_eq hl]

/-- C102, profiles: the profiles of a series are the ones of its results, in their order, with evenly spaced colours from 0 to 1; the
colour bar reaches from the first to the last scan number. -/
theorem C102_profiles (r : FitResult) (l : List FitResult) (s : Series) (h : Series.init (r :: l) = .ok s)
    (h1 : ∀ u ∈ r :: l, OneRow u.params) (ps : List (List ℝ × List (Option ℝ))) (hps : s.sldProfiles = .ok ps) :
    ∃ curves last, s.plotSldProfiles = .ok (((r.number : ℝ), ((last : FitResult).number : ℝ)), curves) ∧ (r :: l).getLast? = some last ∧
      curves.length = l.length + 1 ∧
      ∀ (i : Nat) (u : FitResult), (r :: l)[i]? = some u → ∃ p c, u.sldProfile = .ok p ∧
        curves[i]? = some (if l = [] then 0 else (i : ℝ) / l.length, c) ∧ c.map Prod.fst = p.1 ∧ c.map Prod.snd = p.2 := by
  obtain ⟨hlen, heach⟩ := C95_each r l s h h1 ps hps
  have hn : s.numbers = (r :: l).map FitResult.number := by
    unfold Series.init at h
    obtain ⟨t, -, h⟩ := bind_eq_ok.1 h
    obtain ⟨f, -, h⟩ := bind_eq_ok.1 h
    have h' := Except.ok.inj h
    subst h'
    rfl
  obtain ⟨s', hs', k1, -⟩ := C66_params r l (init_columns h)
  rw [h] at hs'
  cases hs'
  have hrows : s.params.rows = l.length + 1 := by
    rw [k1]
    have : ((r :: l).map fun (u : FitResult) => u.params.rows) = (r :: l).map fun _ => 1 :=
      List.map_congr_left fun u hu => (h1 u hu).1
    rw [this]
    simp [add_comm]
  have hcol : ∀ i : Nat, Series.colour ps.length i = if l = [] then 0 else (i : ℝ) / l.length := by
    intro i
    unfold Series.colour
    rw [hlen]
    by_cases hl : l = []
    · simp [hl]
    · have : l.length ≠ 0 := fun h' => hl (List.length_eq_zero_iff.1 h')
      rw [if_neg hl, if_neg (by omega)]
      push_cast
      ring_nf
  have hprof : ∀ i ∈ List.range s.params.rows, ∃ c, Series.profileCurve ps i = .ok c := by
    intro i hi
    rw [List.mem_range, hrows] at hi
    obtain ⟨p, hp1, hp2⟩ := heach i (r :: l)[i] (List.getElem?_eq_getElem (by simpa using hi))
    obtain ⟨hip, rfl⟩ := List.getElem?_eq_some_iff.1 hp1
    unfold Series.profileCurve
    rw [getItem_nat hip, bind_ok, points_eq (sldProfile_length (h1 _ (List.getElem_mem _)) hp2)]
    exact ⟨_, rfl⟩
  obtain ⟨cs, hcs⟩ := mapM_some hprof
  have hf := mapM_ok_iff.1 hcs
  have hcl : cs.length = l.length + 1 := by rw [← hf.length_eq, List.length_range, hrows]
  refine ⟨cs, (r :: l).getLast (by simp), ?_, List.getLast?_eq_some_getLast _, hcl, ?_⟩
  · unfold Series.plotSldProfiles
    have e0 : getItem s.numbers 0 = .ok r.number := by rw [hn]; rfl
    have e1 : getItem s.numbers (-1) = .ok ((r :: l).getLast (by simp)).number := by
      rw [hn, getItem_eq_ok_iff]
      refine ⟨l.length, ?_, ?_⟩
      · unfold normIdx
        simp
      · rw [List.getLast_eq_getElem, List.getElem?_map, List.getElem?_eq_getElem (by simp)]
        simp
    rw [hps, bind_ok, e0, bind_ok, e1, bind_ok, hcs]
    rfl
  · intro i u hi
    obtain ⟨p, hp1, hp2⟩ := heach i u hi
    obtain ⟨hil, rfl⟩ := List.getElem?_eq_some_iff.1 hi
    obtain ⟨hip, rfl⟩ := List.getElem?_eq_some_iff.1 hp1
    have hlp := sldProfile_length (h1 _ (List.getElem_mem _)) hp2
    have hir : i < (List.range s.params.rows).length := by rw [List.length_range, hrows]; simpa using hil
    have hic : i < cs.length := by rw [hcl]; simpa using hil
    have hc := (List.forall₂_iff_get.1 hf).2 i hir hic
    refine ⟨ps[i], ps[i].1.zip ps[i].2, hp2, ?_, List.map_fst_zip hlp.le, List.map_snd_zip hlp.ge⟩
    rw [List.getElem?_eq_getElem hic]
    unfold Series.profileCurve at hc
    simp only [List.get_eq_getElem, List.getElem_range] at hc
    rw [getItem_nat hip, bind_ok, points_eq hlp, bind_ok] at hc
    rw [← Except.ok.inj hc, hcol]

/-- C102, colours: for increasing numbers of the first and the last scan the bar gives every scan the colour of its curve exactly
if the scan numbers are evenly spaced. -/
theorem C102_colours_partial (numbers : List ℝ) (hl : 2 ≤ numbers.length) (first last : ℝ) (hlt : first < last) :
    (∀ (i : Nat) (x : ℝ), numbers[i]? = some x → Series.barPosition first last x = Series.colour numbers.length i) ↔
    ∀ (i : Nat) (x : ℝ), numbers[i]? = some x → x = first + i * ((last - first) / (numbers.length - 1)) := by
  refine forall_congr' fun i => forall_congr' fun x => imp_congr_right fun _ => ?_
  unfold Series.barPosition Series.colour
  rw [if_neg (by omega)]
  have h1 : (2 : ℝ) ≤ numbers.length := by exact_mod_cast hl
  have h2 : (numbers.length : ℝ) - 1 ≠ 0 := by linarith
  have h3 : last - first ≠ 0 := by linarith
  rw [div_eq_div_iff h3 h2]
  constructor
  · intro h
    field_simp
    linarith
  · intro h
    rw [h]
    field_simp
    ring

/-- C102 is false for unevenly spaced scans: with scans 1, 2 and 10 the curve of scan 2 has the colour of scan 5.5. -/
theorem C102_wrong_colour : Series.colour 3 1 = Series.barPosition 1 10 5.5 ∧ Series.colour 3 1 ≠ Series.barPosition 1 10 2 := by
  unfold Series.colour Series.barPosition
  norm_num

/-! ### Scans -/

/-- C102, scans: point `k` of the plots of a scan is the one with the `k`-th q value at or after the lower limit, and its raw or
corrected intensity; the plot stops before the upper limit. -/
theorem C102_scan (s : Scan) (hl : s.raw.length = s.angle.length) (hw : s.wavelength ≠ 0) (lo hi : Option ℝ)
    (hne : s.angle ≠ [] ∨ lo = none ∧ hi = none) :
    ∃ (q : List ℝ) (i j : Nat), s.q = .ok q ∧ LimitIndex q 0 lo i ∧ LimitIndex q q.length hi j ∧
      (∃ c, s.plotRaw lo hi = .ok c ∧ ∀ (k : Nat) (x y : ℝ), c[k]? = some (x, y) ↔
        i + k < j ∧ q[i + k]? = some x ∧ s.raw[i + k]? = some y) ∧
      ∀ w, s.correctedIntensity = .ok w → ∃ c, s.plotCorrected lo hi = .ok c ∧ ∀ (k : Nat) (x y : ℝ), c[k]? = some (x, y) ↔
        i + k < j ∧ q[i + k]? = some x ∧ w[i + k]? = some y := by
  obtain ⟨q, i, j, k1, k2, k3, k4, k5, k6, k7, k8, k9, k10, k11, k12⟩ := C48_ranges s hl hw lo hi hne
  have hz : ∀ (w : List ℝ) (k : Nat) (x y : ℝ), (((q.take j).drop i).zip ((w.take j).drop i))[k]? = some (x, y) ↔
      i + k < j ∧ q[i + k]? = some x ∧ w[i + k]? = some y := by
    intro w k x y
    rw [List.getElem?_zip_eq_some, List.getElem?_drop, List.getElem?_drop, List.getElem?_take, List.getElem?_take]
    by_cases hk : i + k < j
    · simp [hk]
    · simp [hk]
  refine ⟨q, i, j, k1, k3, k4, ⟨_, ?_, hz s.raw⟩, fun w hw' => ⟨_, ?_, hz w⟩⟩
  · unfold Scan.plotRaw
    rw [k7, bind_ok, k8, bind_ok, points_eq (k10.trans k11.symm)]
  · unfold Scan.plotCorrected
    rw [k7, bind_ok, k9, hw']
    exact points_eq (k10.trans (k12 w hw').symm)

/-- C102, series: without a selection every scan is drawn once, in order and labelled with its number. -/
theorem C102_series (l : List Scan) (hl : l ≠ []) (lo hi : Option ℝ) (cs : List (Int × List (ℝ × ℝ))) :
    plotSeries (l.map SeriesItem.scan) none lo hi = .ok (some cs) ↔
      List.Forall₂ (fun (s : Scan) (c : Int × List (ℝ × ℝ)) => c.1 = s.number ∧ s.plotCorrected lo hi = .ok c.2) l cs := by
  unfold plotSeries
  rw [if_neg (by simpa using hl)]
  simp only [List.mapM_map]
  have : (l.mapM (itemCurve lo hi ∘ SeriesItem.scan) >>= fun cs => (pure (some cs) : Res _)) = .ok (some cs) ↔
      l.mapM (itemCurve lo hi ∘ SeriesItem.scan) = .ok cs := by
    constructor
    · intro h
      obtain ⟨cs', h1, h2⟩ := bind_eq_ok.1 h
      cases h2
      exact h1
    · intro h
      rw [h]
      rfl
  refine Iff.trans this (mapM_ok_iff.trans ?_)
  constructor <;> intro h <;> refine h.imp fun s c hc => ?_
  · obtain ⟨c', h1, h2⟩ := bind_eq_ok.1 (show (s.plotCorrected lo hi >>= fun c => (pure (s.number, c) : Res _)) = .ok c from hc)
    cases h2
    exact ⟨rfl, h1⟩
  · show (s.plotCorrected lo hi >>= fun c => (pure (s.number, c) : Res _)) = .ok c
    rw [hc.2, ← hc.1]
    rfl

/-- C102, selection: an entry of `scan_range` is a position in the series, counted from 0 or, if negative, from the end; position `k`
draws the curve that the whole series has at `k`. -/
theorem C102_selection (l : List SeriesItem) (lo hi : Option ℝ) (all : List (Int × List (ℝ × ℝ)))
    (ha : plotSeries l none lo hi = .ok (some all)) (ks : List Int) (cs : List (Int × List (ℝ × ℝ))) :
    plotSeries l (some ks) lo hi = .ok (some cs) ↔
      List.Forall₂ (fun (k : Int) (c : Int × List (ℝ × ℝ)) =>
        (0 ≤ k ∧ all[k.toNat]? = some c) ∨ (k < 0 ∧ 0 ≤ k + all.length ∧ all[(k + all.length).toNat]? = some c)) ks cs := by
  unfold plotSeries at ha ⊢
  by_cases hl : l.isEmpty = true
  · rw [if_pos hl] at ha
    cases ha
  · rw [if_neg hl] at ha ⊢
    obtain ⟨all', h1, h2⟩ := bind_eq_ok.1 ha
    cases h2
    have hf := mapM_ok_iff.1 h1
    have hs : (ks.mapM (rangeCurve l lo hi) >>= fun cs => (pure (some cs) : Res _)) = .ok (some cs) ↔
        ks.mapM (rangeCurve l lo hi) = .ok cs := by
      constructor
      · intro h
        obtain ⟨cs', h1, h2⟩ := bind_eq_ok.1 h
        cases h2
        exact h1
      · intro h
        rw [h]
        rfl
    have hk : ∀ (n : Nat) (x : SeriesItem) (c : Int × List (ℝ × ℝ)), l[n]? = some x → (itemCurve lo hi x = .ok c ↔ all[n]? = some c) := by
      intro n x c hn
      obtain ⟨hnl, rfl⟩ := List.getElem?_eq_some_iff.1 hn
      have hna : n < all.length := hf.length_eq ▸ hnl
      have := (List.forall₂_iff_get.1 hf).2 n hnl hna
      simp only [List.get_eq_getElem] at this
      rw [this, List.getElem?_eq_getElem hna]
      simp
    refine Iff.trans hs (mapM_ok_iff.trans ?_)
    have hiff : ∀ (k : Int) (c : Int × List (ℝ × ℝ)), rangeCurve l lo hi k = .ok c ↔
        ((0 ≤ k ∧ all[k.toNat]? = some c) ∨ (k < 0 ∧ 0 ≤ k + all.length ∧ all[(k + all.length).toNat]? = some c)) := by
      intro k c
      unfold rangeCurve
      rw [bind_eq_ok]
      constructor
      · rintro ⟨x, hx, hc⟩
        obtain ⟨n, hn, hx⟩ := getItem_eq_ok_iff.1 hx
        have := (hk n x c hx).1 hc
        unfold normIdx at hn
        rw [hf.length_eq] at hn
        split at hn
        · split at hn
          · cases hn
            exact Or.inl ⟨by omega, this⟩
          · cases hn
        · split at hn
          · cases hn
            refine Or.inr ⟨by omega, by omega, this⟩
          · cases hn
      · intro h
        have hn : ∃ n, normIdx l.length k = some n ∧ all[n]? = some c := by
          unfold normIdx
          rw [hf.length_eq]
          rcases h with ⟨h1, h2⟩ | ⟨h1, h2, h3⟩
          · obtain ⟨h4, -⟩ := List.getElem?_eq_some_iff.1 h2
            rw [if_pos h1, if_pos h4]
            exact ⟨_, rfl, h2⟩
          · rw [if_neg (by omega), if_pos (by omega)]
            exact ⟨_, rfl, h3⟩
        obtain ⟨n, hn, hc⟩ := hn
        have hnl : n < l.length := by
          obtain ⟨h4, -⟩ := List.getElem?_eq_some_iff.1 hc
          rw [hf.length_eq]; exact h4
        exact ⟨l[n], getItem_eq_ok_iff.2 ⟨n, hn, List.getElem?_eq_getElem hnl⟩, (hk n _ c (List.getElem?_eq_getElem hnl)).2 hc⟩
    constructor <;> intro h <;> refine h.imp fun k c hc => ?_
    · exact (hiff k c).1 hc
    · exact (hiff k c).2 hc

/-- C102: an empty series draws nothing, whatever is selected. -/
theorem C102_empty_series (range : Option (List Int)) (lo hi : Option ℝ) : plotSeries [] range lo hi = .ok none := rfl

/-- C102 is false if `scan_range` is read as scan numbers: a series with fewer scans than the number of the chosen scan raises
`IndexError`, also if that scan is in the series. -/
theorem C102_not_numbers (l : List SeriesItem) (hl : l ≠ []) (n : Int) (h : (l.length : Int) ≤ n) (lo hi : Option ℝ) :
    plotSeries l (some [n]) lo hi = .error .indexError := by
  have : getItem l n = .error .indexError := by
    unfold getItem normIdx
    rw [if_pos (by omega), if_neg (by omega)]
  unfold plotSeries
  rw [if_neg (by simpa using hl)]
  simp only [mapM_cons]
  unfold rangeCurve
  rw [this]
  rfl

/-! ### Examples -/

/-- Two scans over their numbers. -/
example (parse : Str → Res ℝ) : ∃ s panels, Series.init [exampleResult 7 none 0.5, exampleResult 9 none 0.25] = .ok s ∧
    s.plotRange parse ["Film_thickness".toList] "time".toList = .ok panels ∧
    RangePanels [exampleResult 7 none 0.5, exampleResult 9 none 0.25] ["Film_thickness".toList] false [7, 9] panels := by
  have h1 : ∀ u ∈ [exampleResult 7 none 0.5, exampleResult 9 none 0.25], OneRow u.params := by
    intro u hu
    simp only [List.mem_cons, List.not_mem_nil, or_false] at hu
    rcases hu with rfl | rfl <;> exact ⟨rfl, by intro c hc; rw [List.mem_singleton.1 hc]; rfl⟩
  have h4 : ∀ p ∈ ["Film_thickness".toList], p ∈ (exampleResult 7 none 0.5).params.cols.columns := by
    intro p hp
    rw [List.mem_singleton] at hp
    subst hp
    exact List.mem_singleton.2 rfl
  have h5 : ∀ p ∈ ["Film_thickness".toList], ¬ NoUnit p := by
    intro p hp
    rw [List.mem_singleton] at hp
    subst hp
    exact fun h => h.1 (by decide)
  obtain ⟨panels, k1, k2⟩ := C102_over_scans parse (exampleResult 7 none 0.5) [exampleResult 9 none 0.25] _ rfl h1 _ h4 h5 _
    (Or.inr ⟨_, List.mem_cons_self .., rfl⟩)
  refine ⟨_, panels, rfl, k1, ?_⟩
  have : ([exampleResult 7 none 0.5, exampleResult 9 none 0.25].map fun (u : FitResult) => (u.number : ℝ)) = [7, 9] := by
    simp [exampleResult]
  rw [← this]
  exact k2

/-- A result for which the hypotheses of `C102_prediction` hold, and for which the documented name `thickness` fails. -/
example (parse : Str → Res ℝ) (x : ℝ) : (∃ plot, (prepResult 3 x).plotPrediction ["film_sld".toList] = .ok plot ∧ plot.lines.length = 1) ∧
    ∃ s, Series.init [prepResult 3 x] = .ok s ∧ s.plotRange parse ["thickness".toList] "time".toList = .error .keyError := by
  constructor
  · obtain ⟨plot, e, h, -, -, -, -, hf, -⟩ := C102_prediction (prepResult 3 x) ["film_sld".toList] rfl rfl
      ⟨rfl, by simp [prepResult, prepTable]⟩ (by
        intro p hp
        rw [List.mem_singleton] at hp
        subst hp
        show _ ∈ ["film_thickness".toList, "Si_roughness".toList, "film_roughness".toList, "Si_sld".toList, "film_sld".toList,
          "air_sld".toList]
        decide) (by
        intro p hp
        rw [List.mem_singleton] at hp
        subst hp
        exact fun h => h.2.2 (by decide))
    exact ⟨plot, h, by simpa using hf.length_eq.symm⟩
  · refine ⟨_, rfl, C102_documented_names parse (prepResult 3 x) [] _ rfl (prepSample_regular one_pos) ?_ _ _ (Or.inl rfl) [] _
      (axis_scan (Or.inr (List.mem_cons_self ..)))⟩
    obtain ⟨names, e1, e2, -⟩ := C05_label_names (prepSample 0 1) (prepSample_regular one_pos)
    show (prepSample 0 1).labelNames = _
    rw [e1, e2]
    rfl

/-- C102, foreign objects: `plot_series` raises `AttributeError` when it reaches an entry that is no scan. -/
theorem C102_foreign (pre : List Scan) (post : List SeriesItem) (lo hi : Option ℝ)
    (h : ∀ s ∈ pre, ∃ c, s.plotCorrected lo hi = .ok c) :
    plotSeries (pre.map SeriesItem.scan ++ .foreign :: post) none lo hi = .error .attributeError := by
  unfold plotSeries
  rw [if_neg (by simp)]
  simp only
  rw [mapM_first_error (f := itemCurve lo hi) (e := .attributeError) rfl post]
  · rfl
  · intro x hx
    obtain ⟨s, hs, rfl⟩ := List.mem_map.1 hx
    obtain ⟨c, hc⟩ := h s hs
    exact ⟨(s.number, c), by unfold itemCurve; simp only; rw [hc]; rfl⟩

end Verif.Props
