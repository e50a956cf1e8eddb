import Verif.Model.ResultProfiles
import Verif.Props.Results
import Verif.Props.SldProfile
import Verif.Props.TrainerCases
import Verif.Props.Polish

/-!
# C95: the density profiles of fit results
-/

namespace Verif.Props
open Verif.Py Verif.Model Verif.Spec

/-! ### Profiles row by row -/

/-- The values of a category in row `i`. -/
def catRow (f : Frame ℂ) (c : Category) (i : Nat) : List ℂ := (pick f c).filterMap fun (col : List ℂ) => col[i]?

/-- The profile of one row. -/
noncomputable def rowProfile (f : Frame ℂ) (i : Nat) : Res (List ℝ × List (Option ℝ)) :=
  if pick f .thickness = [] then .error .indexError
  else do
    let sub ← getItem (catRow f .sld i) 0
    let amb ← getItem (catRow f .sld i) (-1)
    makeSldProfile ((catRow f .thickness i).map Complex.re) (slice (catRow f .sld i) (some 1) (some (-1)))
      ((catRow f .roughness i).map Complex.re) sub amb

/-- Without columns of densities or of roughnesses there is no profile. -/
def NoColumns (f : Frame ℂ) : Prop := pick f .sld = [] ∨ pick f .roughness = []

open Classical in
theorem simulate_rows (f : Frame ℂ) (n : Nat) : simulateSldProfiles ⟨f, n⟩ =
    if NoColumns f then .error .indexError
    else (List.range n).mapM (rowProfile f) := by
  unfold simulateSldProfiles separateLabels
  by_cases h1 : pick f .sld = []
  · rw [if_pos (show NoColumns f from Or.inl h1)]
    simp [h1, LabelArr.ofCols]
  by_cases h2 : pick f .roughness = []
  · rw [if_pos (show NoColumns f from Or.inr h2)]
    simp only [h2, ofCols_ne h1]
    rfl
  rw [if_neg (by simp [NoColumns, h1, h2])]
  simp only [ofCols_ne h1, ofCols_ne h2, LabelArr.map]
  refine mapM_congr fun i hi => ?_
  have hi := List.mem_range.1 hi
  have g : ∀ {α : Type} (f : Nat → α), getItem ((List.range n).map f) (i : Int) = .ok (f i) := fun f =>
    getItem_rangeMap hi
  by_cases h3 : pick f .thickness = []
  · unfold rowProfile
    rw [if_pos h3, h3]
    rfl
  · unfold rowProfile
    rw [if_neg h3, ofCols_ne h3]
    simp only [LabelArr.row, List.map_map, g, bind_ok]
    rfl

/-- Row `i` of one table is row `k` of the other one. -/
def SameRow (f g : Frame ℂ) (i k : Nat) : Prop :=
  List.Forall₂ (fun (c d : Str × List ℂ) => c.1 = d.1 ∧ c.2[i]? = d.2[k]?) f g

theorem sameRow_cat {f g : Frame ℂ} {i k : Nat} (h : SameRow f g i k) (c : Category) :
    catRow f c i = catRow g c k ∧ (pick f c = [] ↔ pick g c = []) := by
  unfold SameRow at h
  unfold catRow pick
  induction h with
  | nil => simp
  | @cons a b l l' hab _ ih =>
    by_cases hc : category a.1 = some c
    · have hc' := hab.1 ▸ hc
      simp only [List.filter_cons, hc, hc', decide_true, if_true, List.map_cons, List.filterMap_cons, hab.2, ih.1]
      simp
    · have hc' : ¬ category b.1 = some c := hab.1 ▸ hc
      simp only [List.filter_cons, hc, hc', decide_false, Bool.false_eq_true, if_false]
      exact ih

theorem sameRow_profile {f g : Frame ℂ} {i k : Nat} (h : SameRow f g i k) : rowProfile f i = rowProfile g k := by
  unfold rowProfile
  simp only [(sameRow_cat h .thickness).1, (sameRow_cat h .sld).1, (sameRow_cat h .roughness).1, (sameRow_cat h .thickness).2]

/-! ### Series -/

/-- The parameters of a single curve: one row. -/
def OneRow (t : Table) : Prop := t.rows = 1 ∧ ∀ c ∈ t.cols, c.2.length = 1

theorem flatMap_one {α β : Type} (g : α → List β) (l : List α) (h : ∀ u ∈ l, (g u).length = 1) (i : Nat) :
    (l.flatMap g)[i]? = l[i]?.bind fun u => (g u)[0]? := by
  induction l generalizing i with
  | nil => simp
  | cons a l ih =>
    have ha := h a (by simp)
    obtain ⟨x, hx⟩ := List.length_eq_one_iff.1 ha
    rw [List.flatMap_cons, hx]
    cases i with
    | zero => simp [hx]
    | succ i => simpa using ih (fun u hu => h u (by simp [hu])) i

/-- The values of column `j`. -/
def colAt (t : Table) (j : Nat) : List Fl := (t.cols[j]?.map Prod.snd).getD []

/-- No value is NaN. -/
def NoNan (t : Table) : Prop := ∀ (j : Nat), ∀ x ∈ colAt t j, x.isSome = true

/-- The numbers of a table. -/
def numFrame (t : Table) : Frame ℂ := t.cols.map fun (c : Str × List Fl) => (c.1, c.2.map fun (x : Fl) => x.getD 0)

open Classical in
theorem toSim_eq (t : Table) : t.toSim = if NoNan t then .ok ⟨numFrame t, t.rows⟩ else .error .nanResult := by
  unfold Table.toSim
  have : (t.cols.all (fun (c : Str × List Fl) => c.2.all Option.isSome) = true) ↔ NoNan t := by
    simp only [List.all_eq_true, NoNan, colAt]
    constructor
    · intro h j x hx
      cases hj : t.cols[j]? with
      | none => simp [hj] at hx
      | some c =>
        rw [hj] at hx
        exact h c (List.mem_of_getElem? hj) x hx
    · intro h c hc x hx
      obtain ⟨j, hj⟩ := List.getElem?_of_mem hc
      exact h j x (by rw [hj]; exact hx)
  by_cases h : NoNan t
  · rw [if_pos (this.2 h), if_pos h]
    rfl
  · rw [if_neg (fun h' => h (this.1 h')), if_neg h]

theorem sameRow_of {s u : Table} {i : Nat} (hc : s.cols.columns = u.cols.columns)
    (hv : ∀ j, (colAt s j)[i]? = (colAt u j)[0]?) : SameRow (numFrame s) (numFrame u) i 0 := by
  have hlen : s.cols.length = u.cols.length := by
    have := congrArg List.length hc
    simpa [Frame.columns] using this
  unfold SameRow numFrame
  refine List.forall₂_iff_get.2 ⟨by simpa using hlen, ?_⟩
  intro j h1 h2
  have h1' : j < s.cols.length := by simpa using h1
  have h2' : j < u.cols.length := by simpa using h2
  have hn : s.cols[j].1 = u.cols[j].1 := by
    have := congrArg (fun l => l[j]?) hc
    simpa [Frame.columns, List.getElem?_eq_getElem h1', List.getElem?_eq_getElem h2'] using this
  have hj := hv j
  unfold colAt at hj
  rw [List.getElem?_eq_getElem h1', List.getElem?_eq_getElem h2'] at hj
  simp only [Option.map_some, Option.getD_some] at hj
  simp only [List.get_eq_getElem, List.getElem_map, List.getElem?_map]
  exact ⟨hn, by rw [hj]⟩

theorem sameRow_noColumns {f g : Frame ℂ} {i k : Nat} (h : SameRow f g i k) : NoColumns f ↔ NoColumns g := by
  unfold NoColumns
  rw [(sameRow_cat h .sld).2, (sameRow_cat h .roughness).2]

theorem sldProfile_ok {u : FitResult} (h1 : OneRow u.params) {p : List ℝ × List (Option ℝ)} :
    u.sldProfile = .ok p ↔ NoNan u.params ∧ ¬ NoColumns (numFrame u.params) ∧ rowProfile (numFrame u.params) 0 = .ok p := by
  unfold FitResult.sldProfile
  rw [toSim_eq]
  by_cases hn : NoNan u.params
  · rw [if_pos hn, bind_ok, simulate_rows]
    by_cases hc : NoColumns (numFrame u.params)
    · rw [if_pos hc]
      simp [hc]
    · rw [if_neg hc, h1.1]
      simp only [hn, hc, not_false_eq_true, true_and]
      have : List.range 1 = [0] := rfl
      simp only [this, mapM_cons, mapM_ok_nil]
      cases hr : rowProfile (numFrame u.params) 0 with
      | error e => simp
      | ok p' =>
        simp only [bind_ok]
        show getItem [p'] 0 = _ ↔ _
        exact Iff.rfl
  · rw [if_neg hn]
    simp [hn]

theorem range_mapM {α β : Type} {l : List α} {f : Nat → Res β} {g : α → Res β} (h : ∀ (i : Nat) (hi : i < l.length), f i = g l[i]) :
    (List.range l.length).mapM f = l.mapM g := by
  have : (List.range l.length).mapM f = ((List.finRange l.length).map fun i => l[i]).mapM g := by
    rw [List.mapM_map, ← List.map_coe_finRange_eq_range, List.mapM_map]
    refine mapM_congr fun i _ => ?_
    exact h i i.2
  rw [this]
  congr 1
  refine List.ext_getElem (by simp) fun i h1 h2 => ?_
  simp

/-- C95, series: for results with one row of parameters each and the same columns, the profiles of the series are the profiles of
the results, in their order: the one exists exactly if the others exist. -/
theorem C95_series (r : FitResult) (l : List FitResult) (s : Series) (h : Series.init (r :: l) = .ok s)
    (h1 : ∀ u ∈ r :: l, OneRow u.params) (ps : List (List ℝ × List (Option ℝ))) :
    s.sldProfiles = .ok ps ↔ (r :: l).mapM FitResult.sldProfile = .ok ps := by
  have hcc : ∀ u ∈ l, u.params.cols.columns = r.params.cols.columns := by
    have h0 := h
    unfold Series.init at h0
    obtain ⟨t, ht, -⟩ := bind_eq_ok.1 h0
    unfold Table.concat at ht
    rw [List.map_cons] at ht
    simp only at ht
    split at ht
    · rename_i hall
      simpa using hall
    · cases ht
  obtain ⟨s', hs', k1, k2, -, k3⟩ := C66_params r l hcc
  rw [h] at hs'
  cases hs'
  have hcols : ∀ u ∈ r :: l, s.params.cols.columns = u.params.cols.columns := by
    intro u hu
    rcases List.mem_cons.1 hu with rfl | hu
    · exact k2
    · rw [k2, hcc u hu]
  have hlen : ∀ u ∈ r :: l, u.params.cols.length = r.params.cols.length := by
    intro u hu
    have := congrArg List.length ((hcols u hu).symm.trans k2)
    simpa [Frame.columns] using this
  have hrows : s.params.rows = (r :: l).length := by
    rw [k1]
    have : ((r :: l).map fun (u : FitResult) => u.params.rows) = (r :: l).map fun _ => 1 :=
      List.map_congr_left fun u hu => (h1 u hu).1
    rw [this]
    simp [add_comm]
  have hval : ∀ (j i : Nat) (hi : i < (r :: l).length), (colAt s.params j)[i]? = (colAt (r :: l)[i].params j)[0]? := by
    intro j i hi
    have hk := k3 j
    change colAt s.params j = (r :: l).flatMap fun (u : FitResult) => colAt u.params j at hk
    by_cases hj : j < r.params.cols.length
    · rw [hk, flatMap_one, List.getElem?_eq_getElem hi]
      · rfl
      · intro u hu
        have hju : j < u.params.cols.length := by rw [hlen u hu]; exact hj
        unfold colAt
        rw [List.getElem?_eq_getElem hju]
        exact (h1 u hu).2 _ (List.getElem_mem hju)
    · have e : ∀ u ∈ r :: l, colAt u.params j = [] := by
        intro u hu
        unfold colAt
        rw [List.getElem?_eq_none (by rw [hlen u hu]; omega)]
        rfl
      rw [hk, e _ (List.getElem_mem hi)]
      have : ((r :: l).flatMap fun (u : FitResult) => colAt u.params j) = [] := by
        rw [List.flatMap_eq_nil_iff]
        exact e
      rw [this]
      simp
  have hsame : ∀ (i : Nat) (hi : i < (r :: l).length), SameRow (numFrame s.params) (numFrame (r :: l)[i].params) i 0 := by
    intro i hi
    exact sameRow_of (hcols _ (List.getElem_mem hi)) fun j => hval j i hi
  have hnan : NoNan s.params ↔ ∀ u ∈ r :: l, NoNan u.params := by
    unfold NoNan
    have hk : ∀ j, colAt s.params j = (r :: l).flatMap fun (u : FitResult) => colAt u.params j := k3
    constructor
    · intro hh u hu j x hx
      refine hh j x ?_
      rw [hk]
      exact List.mem_flatMap.2 ⟨u, hu, hx⟩
    · intro hh j x hx
      rw [hk] at hx
      obtain ⟨u, hu, hx⟩ := List.mem_flatMap.1 hx
      exact hh u hu j x hx
  have hnc : ∀ u ∈ r :: l, (NoColumns (numFrame s.params) ↔ NoColumns (numFrame u.params)) := by
    intro u hu
    obtain ⟨i, hi, rfl⟩ := List.getElem_of_mem hu
    exact sameRow_noColumns (hsame i hi)
  have hmap : (List.range s.params.rows).mapM (rowProfile (numFrame s.params)) =
      (r :: l).mapM fun (u : FitResult) => rowProfile (numFrame u.params) 0 := by
    rw [hrows]
    exact range_mapM fun i hi => sameRow_profile (hsame i hi)
  unfold Series.sldProfiles
  rw [toSim_eq]
  by_cases hn : NoNan s.params
  · rw [if_pos hn, bind_ok, simulate_rows]
    by_cases hc : NoColumns (numFrame s.params)
    · rw [if_pos hc]
      refine ⟨fun h' => (by cases h'), fun h' => ?_⟩
      obtain ⟨p, -, hp⟩ := forall₂_mem_left (mapM_ok_iff.1 h') r (by simp)
      exact (((sldProfile_ok (h1 r (by simp))).1 hp).2.1 ((hnc r (by simp)).1 hc)).elim
    · rw [if_neg hc, hmap, mapM_ok_iff, mapM_ok_iff]
      constructor
      · intro hf
        refine forall₂_imp_mem hf fun u p hu hp => ?_
        exact (sldProfile_ok (h1 u hu)).2 ⟨hnan.1 hn u hu, fun h' => hc ((hnc u hu).2 h'), hp⟩
      · intro hf
        refine forall₂_imp_mem hf fun u p hu hp => ?_
        exact ((sldProfile_ok (h1 u hu)).1 hp).2.2
  · rw [if_neg hn]
    refine ⟨fun h' => (by cases h'), fun h' => ?_⟩
    refine (hn (hnan.2 fun u hu => ?_)).elim
    obtain ⟨p, -, hp⟩ := forall₂_mem_left (mapM_ok_iff.1 h') u hu
    exact ((sldProfile_ok (h1 u hu)).1 hp).1

/-- C95, order: profile `i` of a series is the profile of result `i` alone. -/
theorem C95_each (r : FitResult) (l : List FitResult) (s : Series) (h : Series.init (r :: l) = .ok s)
    (h1 : ∀ u ∈ r :: l, OneRow u.params) (ps : List (List ℝ × List (Option ℝ))) (hp : s.sldProfiles = .ok ps) :
    ps.length = l.length + 1 ∧ ∀ (i : Nat) u, (r :: l)[i]? = some u → ∃ p, ps[i]? = some p ∧ u.sldProfile = .ok p := by
  have hf := mapM_ok_iff.1 ((C95_series r l s h h1 ps).1 hp)
  refine ⟨by simpa using hf.length_eq.symm, ?_⟩
  intro i u hi
  obtain ⟨hil, rfl⟩ := List.getElem?_eq_some_iff.1 hi
  have hri : i < ps.length := hf.length_eq ▸ hil
  exact ⟨ps[i], List.getElem?_eq_getElem hri, (List.forall₂_iff_get.1 hf).2 i hil hri⟩

/-- C95, content: the profile of a result is the one of the film that its parameters describe (Spec/SldProfile). -/
theorem C95_profile (r : FitResult) (hs : SampleRegular r.sample) (names : List Str) (hn : r.sample.labelNames = .ok names)
    (hk : KeywordFree (partNames r.sample)) (hl : 0 < r.sample.layers.length) (σ : ℝ) (ls : List (ℝ × ℂ × ℝ)) (sub amb : ℂ)
    (hlen : ls.length = r.sample.layers.length) (hσ : σ ≠ 0) (hr : ∀ a ∈ ls, a.2.2 ≠ 0) (hrow : r.params.rows = 1)
    (hcols : r.params.cols = names.zip (((ls.map fun (a : ℝ × ℂ × ℝ) => (a.1 : ℂ)) ++
      ((σ :: ls.map fun (a : ℝ × ℂ × ℝ) => a.2.2).map fun (x : ℝ) => (x : ℂ)) ++
      (sub :: (ls.map fun (a : ℝ × ℂ × ℝ) => a.2.1) ++ [amb])).map fun (z : ℂ) => [some z])) :
    ∃ heights : List ℝ,
      r.sldProfile = .ok (heights, heights.map fun z => some (profileAt sub.re (interfacesOf 0 |σ| sub.re amb.re
        (ls.map fun a => (|a.1|, a.2.1.re, |a.2.2|))) z)) ∧
      heights = arange (-(10 + 3 * |σ|)) ((ls.map fun a => |a.1|).sum +
        (10 + 3 * |(σ :: ls.map (·.2.2)).getLast (by simp)|)) := by
  obtain ⟨heights, hp, hh⟩ := C41_profile σ ls sub amb hσ hr
  refine ⟨heights, ?_, hh⟩
  set vals : List ℂ := (ls.map fun (a : ℝ × ℂ × ℝ) => (a.1 : ℂ)) ++
      ((σ :: ls.map fun (a : ℝ × ℂ × ℝ) => a.2.2).map fun (x : ℝ) => (x : ℂ)) ++
      (sub :: (ls.map fun (a : ℝ × ℂ × ℝ) => a.2.1) ++ [amb]) with hvals
  obtain ⟨names', e1, e2, -⟩ := C05_label_names r.sample hs
  rw [hn] at e1
  cases e1
  have hnl : names.length = vals.length := by
    have : vals.length = 3 * r.sample.layers.length + 3 := by
      rw [hvals]
      simp [hlen]
      omega
    rw [this, e2]
    simp [expectedLabels]
    omega
  have hsim : r.params.toSim = .ok ⟨names.zip (vals.map fun z => [z]), 1⟩ := by
    have hcm : numFrame r.params = names.zip (vals.map fun z => [z]) := by
      unfold numFrame
      rw [hcols, List.zip_map_right, List.zip_map_right, List.map_map]
      exact List.map_congr_left fun c _ => rfl
    rw [toSim_eq, if_pos, hcm, hrow]
    intro j x hx
    unfold colAt at hx
    cases hj : r.params.cols[j]? with
    | none => simp [hj] at hx
    | some c =>
      rw [hj] at hx
      have hm := List.mem_of_getElem? hj
      rw [hcols] at hm
      have := (List.of_mem_zip hm).2
      obtain ⟨z, -, hz⟩ := List.mem_map.1 this
      simp only [Option.map_some, Option.getD_some] at hx
      rw [← hz] at hx
      simp only [List.mem_singleton] at hx
      rw [hx]
      rfl
  have htab := C41_table r.sample hs names hn hk hl ⟨names.zip (vals.map fun z => [z]), 1⟩ (fun _ => ls.map (·.1))
    (fun _ => σ :: ls.map (·.2.2)) (fun _ => sub :: ls.map (·.2.1) ++ [amb]) {
      columns := by
        unfold Frame.columns
        exact List.map_fst_zip (by simp [hnl])
      row := by
        intro i hi
        have : i = 0 := by simpa using hi
        subst this
        have e : (fun (c : Str × List ℂ) => c.2[0]?) = (fun (v : List ℂ) => v[0]?) ∘ Prod.snd := rfl
        simp only
        rw [e, ← List.map_map, List.map_snd_zip (by simp [hnl]), List.map_map, hvals]
        simp [Function.comp_def]
      thickness := by intro i _; simpa using hlen
      roughness := by intro i _; simpa using hlen
      sld := by intro i _; simpa using hlen } (fun _ => sub) (fun _ => amb) (fun _ => ls.map (·.2.1)) fun _ _ => rfl
  unfold FitResult.sldProfile
  rw [hsim, bind_ok, htab]
  have : List.range 1 = [0] := rfl
  simp only [this, mapM_cons, mapM_ok_nil, hp, bind_ok]
  rfl

/-! ### A concrete result -/

/-- A result with the parameters of `prepTable`. -/
noncomputable def prepResult (n : Int) (x : ℝ) : FitResult :=
  { number := n, timestamp := none, corrected := [1], qInput := [1], predicted := [some 1], qPrediction := [1],
    params := prepTable x, bestShift := none, sample := prepSample 0 1 }

/-- The hypotheses hold for results of one film with different densities: each has a profile, and so has the series. -/
example (x y : ℝ) : ∃ s ps, Series.init [prepResult 1 x, prepResult 2 y] = .ok s ∧ s.sldProfiles = .ok ps ∧
    (∀ u ∈ [prepResult 1 x, prepResult 2 y], OneRow u.params) := by
  have hp : ∀ n z, ∃ p, (prepResult n z).sldProfile = .ok p := by
    intro n z
    obtain ⟨names, e1, e2, -⟩ := C05_label_names (prepSample 0 1) (prepSample_regular one_pos)
    have e3 : names = ["film_thickness".toList, "Si_roughness".toList, "film_roughness".toList, "Si_sld".toList,
      "film_sld".toList, "air_sld".toList] := e2.trans rfl
    obtain ⟨hs, h, -⟩ := C95_profile (prepResult n z) (prepSample_regular one_pos) names e1 prepSample_keywordFree Nat.one_pos 1
      [(15, (z : ℂ), 3)] 20 0 rfl one_ne_zero (by simp) rfl (by
        rw [e3]
        show (prepTable z).cols = _
        simp only [prepTable, List.map_cons, List.map_nil, List.cons_append, List.nil_append, List.zip_cons_cons, List.zip_nil_right,
          Complex.ofReal_ofNat, Complex.ofReal_one])
    exact ⟨_, h⟩
  have h1 : ∀ u ∈ [prepResult 1 x, prepResult 2 y], OneRow u.params := by
    intro u hu
    simp only [List.mem_cons, List.not_mem_nil, or_false] at hu
    rcases hu with rfl | rfl <;> exact ⟨rfl, by simp [prepResult, prepTable]⟩
  obtain ⟨s, hs, -⟩ := C66_params (prepResult 1 x) [prepResult 2 y] (by
    intro u hu
    simp only [List.mem_singleton] at hu
    subst hu
    rfl)
  obtain ⟨p1, hp1⟩ := hp 1 x
  obtain ⟨p2, hp2⟩ := hp 2 y
  refine ⟨s, [p1, p2], hs, (C95_series _ _ s hs h1 _).2 ?_, h1⟩
  simp only [mapM_cons, hp1, hp2, bind_ok]
  rfl

end Verif.Props
