import Verif.Props.H5

/-!
# C70, C71: loading what was saved, interrupted saves
-/

namespace Verif.Props
open Verif.Py Verif.Model
variable {V : Type}

theorem lastOf_eq_some {κ α : Type} [DecidableEq κ] {l : List (κ × α)} {k : κ} {v : α}
    (hm : (k, v) ∈ l) (hu : ∀ w ∈ l, w.1 = k → w.2 = v) : lastOf l k = some v := by
  unfold lastOf
  cases h : l.reverse.find? (fun w => w.1 = k) with
  | none =>
    rw [List.find?_eq_none] at h
    exact absurd (h (k, v) (List.mem_reverse.2 hm)) (by simp)
  | some w =>
    have h1 := List.mem_of_find?_eq_some h
    have h2 := List.find?_some h
    simp only [Option.map_some, hu w (List.mem_reverse.1 h1) (by simpa using h2)]

theorem lastOf_eq_none {κ α : Type} [DecidableEq κ] {l : List (κ × α)} {k : κ}
    (hu : ∀ w ∈ l, w.1 ≠ k) : lastOf l k = none := by
  unfold lastOf
  rw [List.find?_eq_none.2]
  · rfl
  · intro w hw; simpa using hu w (List.mem_reverse.1 hw)

theorem foldl_min_isLeast (l : List ℝ) (x : ℝ) : IsLeast {y | y ∈ x :: l} (l.foldl min x) := by
  induction l generalizing x with
  | nil => exact ⟨by simp, by simp [lowerBounds]⟩
  | cons a l ih =>
    obtain ⟨h1, h2⟩ := ih (min x a)
    simp only [List.foldl_cons]
    refine ⟨?_, ?_⟩
    · simp only [Set.mem_ofPred_eq, List.mem_cons] at h1 ⊢
      rcases h1 with h1 | h1
      · rcases min_choice x a with h | h <;> rw [h] at h1 <;> simp [h, h1]
      · simp [h1]
    · intro y hy
      have hxa : l.foldl min (min x a) ≤ min x a := h2 (by simp)
      simp only [Set.mem_ofPred_eq, List.mem_cons] at hy
      rcases hy with rfl | rfl | hy
      · exact hxa.trans (min_le_left _ _)
      · exact hxa.trans (min_le_right _ _)
      · exact h2 (by simp [hy])

theorem foldl_max_isGreatest (l : List ℝ) (x : ℝ) : IsGreatest {y | y ∈ x :: l} (l.foldl max x) := by
  induction l generalizing x with
  | nil => exact ⟨by simp, by simp [upperBounds]⟩
  | cons a l ih =>
    obtain ⟨h1, h2⟩ := ih (max x a)
    simp only [List.foldl_cons]
    refine ⟨?_, ?_⟩
    · simp only [Set.mem_ofPred_eq, List.mem_cons] at h1 ⊢
      rcases h1 with h1 | h1
      · rcases max_choice x a with h | h <;> rw [h] at h1 <;> simp [h, h1]
      · simp [h1]
    · intro y hy
      have hxa : max x a ≤ l.foldl max (max x a) := h2 (by simp)
      simp only [Set.mem_ofPred_eq, List.mem_cons] at hy
      rcases hy with rfl | rfl | hy
      · exact (le_max_left _ _).trans hxa
      · exact (le_max_right _ _).trans hxa
      · exact h2 (by simp [hy])

/-! ## The attributes that are written -/

/-- The keys that every data set has. -/
def fixedKeys : List Str :=
  ["number_of_layers".toList, "num_curves".toList, "q_unit".toList, "thickness_unit".toList,
    "roughness_uni".toList, "sld_unit".toList]

theorem fixed_last {k : Str} (h : k ∈ fixedKeys) : k.getLast? ≠ some 'n' ∧ k.getLast? ≠ some 'x' := by
  have : ∀ k ∈ fixedKeys, k.getLast? ≠ some 'n' ∧ k.getLast? ≠ some 'x' := by decide
  exact this k h

theorem last_min (c : Str) : (c ++ sufMin).getLast? = some 'n' := by
  have : c ++ sufMin = (c ++ ['_', 'm', 'i']) ++ ['n'] := by
    rw [show sufMin = ['_', 'm', 'i', 'n'] from by decide]; simp
  rw [this, List.getLast?_concat]

theorem last_max (c : Str) : (c ++ sufMax).getLast? = some 'x' := by
  have : c ++ sufMax = (c ++ ['_', 'm', 'a']) ++ ['x'] := by
    rw [show sufMax = ['_', 'm', 'a', 'x'] from by decide]; simp
  rw [this, List.getLast?_concat]

/-- The list of fixed attributes. -/
def fixedAttrs (t : Frame ℝ) (n : Int) : List (Str × Attr) :=
  [(kNumberOfLayers, .int n), (kNumCurves, .int (numRows t)), (kQUnit, .text "1/A".toList),
   (kThicknessUnit, .text "A".toList), (kRoughnessUnit, .text "A".toList),
   (kSldUnit, .text "1e-6 1/A^2".toList)]

theorem infoAttrs_eq (t : Frame ℝ) (n : Int) : infoAttrs t n = fixedAttrs t n ++ t.flatMap labelAttrs := rfl

theorem fixedAttrs_keys (t : Frame ℝ) (n : Int) : (fixedAttrs t n).map Prod.fst = fixedKeys := rfl

theorem fixedAttrs_mem {t : Frame ℝ} {n : Int} {w : Str × Attr} (h : w ∈ fixedAttrs t n) :
    w.1 ∈ fixedKeys := by
  rw [← fixedAttrs_keys t n]; exact List.mem_map_of_mem h

/-- A fixed attribute has the value that is written for it. -/
theorem lastOf_fixed {t : Frame ℝ} {n : Int} {w : Str × Attr} (h : w ∈ fixedAttrs t n) :
    lastOf (infoAttrs t n) w.1 = some w.2 := by
  apply lastOf_eq_some
  · rw [infoAttrs_eq, List.mem_append]; exact .inl h
  · intro w' hw' e
    rw [infoAttrs_eq, List.mem_append] at hw'
    rcases hw' with hw' | hw'
    · have hn : ((fixedAttrs t n).map Prod.fst).Nodup := by
        rw [fixedAttrs_keys]; decide
      exact congrArg Prod.snd (List.inj_on_of_nodup_map hn hw' h e)
    · obtain ⟨c, -, hc⟩ := List.mem_flatMap.1 hw'
      obtain ⟨f1, f2⟩ := fixed_last (fixedAttrs_mem h)
      simp only [labelAttrs, List.mem_cons, List.not_mem_nil, or_false] at hc
      rcases hc with rfl | rfl
      · rw [← e, last_min] at f1; exact absurd rfl f1
      · rw [← e, last_max] at f2; exact absurd rfl f2

theorem lastOf_label {t : Frame ℝ} (hn : t.columns.Nodup) (n : Int) {c : Str × List ℝ} (hc : c ∈ t) :
    lastOf (infoAttrs t n) (c.1 ++ sufMin) = some (colMin c.2) ∧
    lastOf (infoAttrs t n) (c.1 ++ sufMax) = some (colMax c.2) := by
  constructor
  · apply lastOf_eq_some
    · rw [infoAttrs_eq, List.mem_append]
      exact .inr (List.mem_flatMap.2 ⟨c, hc, by simp [labelAttrs]⟩)
    · intro w hw e
      rw [infoAttrs_eq, List.mem_append] at hw
      rcases hw with hw | hw
      · have := (fixed_last (fixedAttrs_mem hw)).1
        rw [e, last_min] at this; exact absurd rfl this
      · obtain ⟨c', hc', hw⟩ := List.mem_flatMap.1 hw
        simp only [labelAttrs, List.mem_cons, List.not_mem_nil, or_false] at hw
        rcases hw with rfl | rfl
        · have : c' = c := List.inj_on_of_nodup_map hn hc' hc (List.append_cancel_right e)
          rw [this]
        · have := congrArg List.getLast? e
          simp only [last_min, last_max] at this
          cases this
  · apply lastOf_eq_some
    · rw [infoAttrs_eq, List.mem_append]
      exact .inr (List.mem_flatMap.2 ⟨c, hc, by simp [labelAttrs]⟩)
    · intro w hw e
      rw [infoAttrs_eq, List.mem_append] at hw
      rcases hw with hw | hw
      · have := (fixed_last (fixedAttrs_mem hw)).2
        rw [e, last_max] at this; exact absurd rfl this
      · obtain ⟨c', hc', hw⟩ := List.mem_flatMap.1 hw
        simp only [labelAttrs, List.mem_cons, List.not_mem_nil, or_false] at hw
        rcases hw with rfl | rfl
        · have := congrArg List.getLast? e
          simp only [last_min, last_max] at this
          cases this
        · have : c' = c := List.inj_on_of_nodup_map hn hc' hc (List.append_cancel_right e)
          rw [this]

/-- The keys that belong to a set of labels. -/
def labelKey (t : Frame ℝ) (k : Str) : Prop :=
  ∃ c ∈ t.columns, k = c ++ "_min".toList ∨ k = c ++ "_max".toList

theorem lastOf_isSome (t : Frame ℝ) (n : Int) (k : Str) :
    lastOf (infoAttrs t n) k ≠ none ↔ k ∈ fixedKeys ∨ labelKey t k := by
  constructor
  · intro h
    by_contra hc
    push Not at hc
    apply h
    apply lastOf_eq_none
    intro w hw e
    rw [infoAttrs_eq, List.mem_append] at hw
    rcases hw with hw | hw
    · exact hc.1 (e ▸ fixedAttrs_mem hw)
    · obtain ⟨c, hct, hw⟩ := List.mem_flatMap.1 hw
      simp only [labelAttrs, List.mem_cons, List.not_mem_nil, or_false] at hw
      refine hc.2 ⟨c.1, List.mem_map_of_mem hct, ?_⟩
      rcases hw with rfl | rfl
      · exact .inl e.symm
      · exact .inr e.symm
  · intro h hn
    have hall : ∀ w ∈ infoAttrs t n, w.1 ≠ k := by
      intro w hw e
      unfold lastOf at hn
      rw [Option.map_eq_none_iff, List.find?_eq_none] at hn
      exact absurd e (by simpa using hn w (List.mem_reverse.2 hw))
    rcases h with h | ⟨c, hc, h⟩
    · rw [← fixedAttrs_keys t n, List.mem_map] at h
      obtain ⟨w, hw, e⟩ := h
      exact hall w (by rw [infoAttrs_eq, List.mem_append]; exact .inl hw) e
    · obtain ⟨col, hcol, rfl⟩ := List.mem_map.1 hc
      rcases h with h | h
      · exact hall (col.1 ++ sufMin, colMin col.2) (by
          rw [infoAttrs_eq, List.mem_append]
          exact .inr (List.mem_flatMap.2 ⟨col, hcol, by simp [labelAttrs]⟩)) h.symm
      · exact hall (col.1 ++ sufMax, colMax col.2) (by
          rw [infoAttrs_eq, List.mem_append]
          exact .inr (List.mem_flatMap.2 ⟨col, hcol, by simp [labelAttrs]⟩)) h.symm

/-! ## C70 -/

/-- C70 (partial): for every prior content in which `info` is not a foreign member, saving succeeds
and loading the completed name returns exactly the saved q values, reflectivity and labels. The
information contains the numbers of layers and curves, and the exact minimum and maximum of every
label. It contains nothing else except attributes that the file had before; so it is about exactly
the saved labels iff the file had no attributes of other labels.

Missing: the attributes of labels saved earlier stay in the file (`C70_stale`), the name must have
an extension (`C70_other_name`), and a foreign member `info` makes the call fail
(`C70_info_conflict`). -/
theorem C70_roundtrip_partial (d : Disk V) (f : Str) (q r : V) (t : Frame ℝ) (n : Int)
    (h : InfoFree (openAppend d (ensureH5Extension f))) :
    ((SaveCall.data f q r t n).run d).2 = none ∧
    ∃ ds, loadData ((SaveCall.data f q r t n).run d).1 (ensureH5Extension f) = .ok ds ∧
      ds.q = .value q ∧ ds.reflectivity = .value r ∧ ds.labels = t ∧
      ds.info "number_of_layers".toList = some (.int n) ∧
      ds.info "num_curves".toList = some (.int (numRows t)) ∧
      ds.info "q_unit".toList = some (.text "1/A".toList) ∧
      (t.columns.Nodup → ∀ c ∈ t, c.2 ≠ [] → ∃ lo hi,
        ds.info (c.1 ++ "_min".toList) = some (.num lo) ∧ IsLeast {x | x ∈ c.2} lo ∧
        ds.info (c.1 ++ "_max".toList) = some (.num hi) ∧ IsGreatest {x | x ∈ c.2} hi) ∧
      ((∀ k, ds.info k ≠ none ↔ k ∈ fixedKeys ∨ labelKey t k) ↔
        ∀ k, infoAttr d (ensureH5Extension f) k ≠ none → k ∈ fixedKeys ∨ labelKey t k) := by
  obtain ⟨g, hg, hF⟩ := run_saveData h q r t n
  have hr : (SaveCall.data f q r t n).run d = (Function.update d (ensureH5Extension f) (some
      (Function.update (Function.update (Function.update (Function.update
        (openAppend d (ensureH5Extension f)) nQ (some (.dataset q)))
        nInfo (some (.group g))) nReflectivity (some (.dataset r))) nLabels (some (.table t)))), none) := by
    simp only [SaveCall.run, SaveCall.file, SaveCall.steps, hF]
  rw [hr]
  refine ⟨rfl, ⟨.value q, .value r, t, g⟩, ?_, rfl, rfl, rfl, ?_, ?_, ?_, ?_, ?_⟩
  · have e1 : nInfo ≠ nLabels := by decide
    have e2 : nInfo ≠ nReflectivity := by decide
    have e3 : nQ ≠ nLabels := by decide
    have e4 : nQ ≠ nReflectivity := by decide
    have e5 : nQ ≠ nInfo := by decide
    have e6 : nReflectivity ≠ nLabels := by decide
    simp only [loadData, Function.update_self, loadFile, readHdf, readAttrs, getArray,
      Function.update_of_ne e1, Function.update_of_ne e2, Function.update_of_ne e3,
      Function.update_of_ne e4, Function.update_of_ne e5, Function.update_of_ne e6, bind_ok]
    rfl
  · have := lastOf_fixed (t := t) (n := n) (w := (kNumberOfLayers, .int n)) (by simp [fixedAttrs])
    change g kNumberOfLayers = _
    rw [hg, this]; rfl
  · have := lastOf_fixed (t := t) (n := n) (w := (kNumCurves, .int (numRows t))) (by simp [fixedAttrs])
    change g kNumCurves = _
    rw [hg, this]; rfl
  · have := lastOf_fixed (t := t) (n := n) (w := (kQUnit, .text "1/A".toList)) (by simp [fixedAttrs])
    change g kQUnit = _
    rw [hg, this]; rfl
  · intro hn c hc hne
    obtain ⟨l1, l2⟩ := lastOf_label hn n hc
    obtain ⟨x, l, hl⟩ := List.exists_cons_of_ne_nil hne
    rw [hl] at l1 l2 ⊢
    refine ⟨l.foldl min x, l.foldl max x, ?_, foldl_min_isLeast l x, ?_, foldl_max_isGreatest l x⟩
    · change g (c.1 ++ sufMin) = _
      rw [hg, l1]; rfl
    · change g (c.1 ++ sufMax) = _
      rw [hg, l2]; rfl
  · have hk : ∀ k, g k ≠ none ↔ (k ∈ fixedKeys ∨ labelKey t k) ∨ infoAttr d (ensureH5Extension f) k ≠ none := by
      intro k
      rw [hg, openAppend_attr, ← lastOf_isSome t n k]
      cases lastOf (infoAttrs t n) k <;> simp
    constructor
    · intro h' k hk'
      exact (h' k).1 ((hk k).2 (.inr hk'))
    · intro h' k
      rw [hk]
      exact ⟨fun o => o.elim id (h' k), .inl⟩

/-- C70 does not hold for names without extension: the data go to another file, and loading the name
gives what it gave before. -/
theorem C70_other_name (d : Disk V) (f : Str) (q r : V) (t : Frame ℝ) (n : Int) (h : ¬ HasH5Ext f) :
    loadData ((SaveCall.data f q r t n).run d).1 f = loadData d f := by
  have hne : f ≠ ensureH5Extension f := by
    rw [ensure_of_not_ext h]
    intro e
    have := congrArg List.length e
    simp at this
  simp only [loadData, SaveCall.run, SaveCall.file, Function.update_of_ne hne]

/-- C70 does not hold: saving under a name without extension and loading under the same name fails
on a new disk. -/
theorem C70_no_extension : ∃ f : Str, ∀ (q r : V) (t : Frame ℝ) (n : Int),
    loadData ((SaveCall.data f q r t n).run fun _ => none).1 f = .error .fileNotFoundError := by
  refine ⟨"train".toList, fun q r t n => ?_⟩
  rw [C70_other_name]
  · rfl
  · rw [← hasH5Ext_iff]; decide

/-- C70 does not hold: after saving other labels under the same name, the information is also about
the labels that were saved before. -/
theorem C70_stale (q r : V) (n : Int) : ∃ (t₁ t₂ : Frame ℝ) (ds : DataSet V),
    loadData (runCalls [.data "f.h5".toList q r t₁ n, .data "f.h5".toList q r t₂ n] fun _ => none)
      "f.h5".toList = .ok ds ∧
    ds.labels = t₂ ∧ ∃ k, ds.info k ≠ none ∧ ¬ (k ∈ fixedKeys ∨ labelKey t₂ k) := by
  have hext : ensureH5Extension "f.h5".toList = "f.h5".toList := by decide
  refine ⟨[(['A'], [1])], [(['B'], [2])], ?_⟩
  have h0 : ∀ p, InfoFree (openAppend (fun _ => none : Disk V) p) := fun p => .inl rfl
  obtain ⟨-, -, h1, h3⟩ := call_effect (.data "f.h5".toList q r [(['A'], [1])] n) (fun _ => none : Disk V)
    (h0 _)
  have hf := h3 "f.h5".toList (h0 _)
  obtain ⟨-, ds, l1, -, -, l4, -⟩ := C70_roundtrip_partial
    ((SaveCall.data "f.h5".toList q r [(['A'], [1])] n).run fun _ => none).1 "f.h5".toList q r [(['B'], [2])] n
    (by rw [hext]; exact hf)
  rw [hext] at l1
  refine ⟨ds, l1, l4, ?_⟩
  by_contra hc
  have hall : ∀ k, ds.info k ≠ none → k ∈ fixedKeys ∨ labelKey [(['B'], [2])] k := by
    intro k hk
    by_contra hn
    exact hc ⟨k, hk, hn⟩
  -- the attribute of the first label is still there
  have hA : infoAttr ((SaveCall.data "f.h5".toList q r [(['A'], [1])] n).run fun _ => none).1
      "f.h5".toList (['A'] ++ sufMin) ≠ none := by
    rw [h1]
    have : lastOf (savedAttrs (SaveCall.data "f.h5".toList q r [(['A'], [1])] n))
        ("f.h5".toList, ['A'] ++ sufMin) ≠ none := by
      simp only [savedAttrs, hext]
      unfold lastOf
      intro hn
      rw [Option.map_eq_none_iff, List.find?_eq_none] at hn
      refine absurd (hn (("f.h5".toList, ['A'] ++ sufMin), colMin [1]) ?_) (by simp)
      rw [List.mem_reverse, List.mem_map]
      exact ⟨(['A'] ++ sufMin, colMin [1]), by simp [infoAttrs, labelAttrs], rfl⟩
    intro e
    exact this (Option.or_eq_none_iff.1 e).1
  have hnot : ¬ ((['A'] ++ sufMin) ∈ fixedKeys ∨ labelKey [(['B'], [2])] (['A'] ++ sufMin)) := by
    rintro (hm | ⟨c, hcm, hm⟩)
    · exact absurd hm (by decide)
    · simp only [Frame.columns, List.map_cons, List.map_nil, List.mem_singleton] at hcm
      subst hcm
      rcases hm with hm | hm
      · exact absurd hm (by decide)
      · exact absurd hm (by decide)
  -- but the loaded information contains every attribute that was there before
  have hload : ds.info (['A'] ++ sufMin) ≠ none := by
    have hrun := run_saveData hf q r [(['B'], [2])] n
    obtain ⟨g, hg, hF⟩ := hrun
    have hr : (SaveCall.data "f.h5".toList q r [(['B'], [2])] n).run
        ((SaveCall.data "f.h5".toList q r [(['A'], [1])] n).run fun _ => none).1 =
        (Function.update ((SaveCall.data "f.h5".toList q r [(['A'], [1])] n).run fun _ => none).1
          "f.h5".toList (some (Function.update (Function.update (Function.update (Function.update
          (openAppend ((SaveCall.data "f.h5".toList q r [(['A'], [1])] n).run fun _ => none).1 "f.h5".toList)
          nQ (some (.dataset q))) nInfo (some (.group g))) nReflectivity (some (.dataset r)))
          nLabels (some (.table [(['B'], [2])])))), none) := by
      simp only [SaveCall.run, SaveCall.file, SaveCall.steps, hext] at hF ⊢
      rw [hF]
    rw [hr] at l1
    have e1 : nInfo ≠ nLabels := by decide
    have e2 : nInfo ≠ nReflectivity := by decide
    simp only [loadData, Function.update_self, loadFile, readHdf, readAttrs,
      Function.update_of_ne e1, Function.update_of_ne e2, bind_ok] at l1
    cases l1
    simp only
    rw [hg, openAppend_attr]
    intro e
    exact hA (Option.or_eq_none_iff.1 e).2
  exact hnot (hall _ hload)

/-- C70: if the file has a foreign member `info`, the call raises `TypeError`, after it has already
replaced the q values. -/
theorem C70_info_conflict (d : Disk V) (f : Str) (v q r : V) (t : Frame ℝ) (n : Int)
    (h : contents d (ensureH5Extension f) "info".toList = some (.dataset v)) :
    ((SaveCall.data f q r t n).run d).2 = some .typeError ∧
    contents ((SaveCall.data f q r t n).run d).1 (ensureH5Extension f) "q_values".toList =
      some (.dataset q) := by
  have hne : nInfo ≠ nQ := by decide
  have hi : openAppend d (ensureH5Extension f) nInfo = some (.dataset v) := by
    rw [openAppend_apply]; exact h
  have hF : runSteps (saveDataSteps q r t n) (openAppend d (ensureH5Extension f)) =
      (Function.update (openAppend d (ensureH5Extension f)) nQ (some (.dataset q)), some .typeError) := by
    unfold saveDataSteps
    rw [List.append_assoc, List.append_assoc, List.append_assoc, runSteps_append (run_override _ _ _)]
    simp only [List.singleton_append, runSteps, requireGroup, Function.update_of_ne hne, hi]
  have hr : (SaveCall.data f q r t n).run d = (Function.update d (ensureH5Extension f) (some
      (Function.update (openAppend d (ensureH5Extension f)) nQ (some (.dataset q)))), some .typeError) := by
    simp only [SaveCall.run, SaveCall.file, SaveCall.steps, hF]
  rw [hr]
  refine ⟨rfl, ?_⟩
  simp only [contents, Function.update_self, Option.bind_some]
  exact Function.update_self _ _ _

/-! ## C71 -/

/-- The primitives before the labels are touched. -/
def headSteps (q r : V) (t : Frame ℝ) (n : Int) : List (H5File V → Res (H5File V)) :=
  overrideSteps nQ q ++ [requireGroup nInfo] ++
  (infoAttrs t n).map (fun (a : Str × Attr) => setAttr nInfo a.1 a.2) ++ overrideSteps nReflectivity r

theorem saveDataSteps_eq (q r : V) (t : Frame ℝ) (n : Int) :
    saveDataSteps q r t n = headSteps q r t n ++ toHdfSteps nLabels t := rfl

theorem head_keeps_labels {q r : V} {t : Frame ℝ} {n : Int} {s : H5File V → Res (H5File V)}
    (h : s ∈ headSteps q r t n) {f f' : H5File V} (hs : s f = .ok f') : f' nLabels = f nLabels := by
  have e1 : nLabels ≠ nQ := by decide
  have e2 : nLabels ≠ nInfo := by decide
  have e3 : nLabels ≠ nReflectivity := by decide
  have del : ∀ name, nLabels ≠ name → delIfPresent name f = .ok f' → f' nLabels = f nLabels := by
    intro name hn hd
    unfold delIfPresent at hd
    cases hf : f name with
    | none => rw [hf] at hd; cases hd; rfl
    | some w => simp only [hf, delNode] at hd; cases hd; exact Function.update_of_ne hn _ _
  have cre : ∀ name v, nLabels ≠ name → createDataset name v f = .ok f' → f' nLabels = f nLabels := by
    intro name v hn hd
    unfold createDataset at hd
    cases hf : f name with
    | none => simp only [hf] at hd; cases hd; exact Function.update_of_ne hn _ _
    | some w => simp only [hf] at hd; cases hd
  simp only [headSteps, overrideSteps, List.mem_append, List.mem_cons, List.not_mem_nil, or_false,
    List.mem_map] at h
  rcases h with (((rfl | rfl) | rfl) | ⟨a, -, rfl⟩) | (rfl | rfl)
  · exact del _ e1 hs
  · exact cre _ _ e1 hs
  · unfold requireGroup at hs
    cases hf : f nInfo with
    | none => simp only [hf] at hs; cases hs; exact Function.update_of_ne e2 _ _
    | some w =>
      cases w with
      | group g => simp only [hf] at hs; cases hs; rfl
      | dataset _ => simp only [hf] at hs; cases hs
      | table _ => simp only [hf] at hs; cases hs
      | partialTable => simp only [hf] at hs; cases hs
  · unfold setAttr at hs
    cases hf : f nInfo with
    | none => simp only [hf] at hs; cases hs
    | some w =>
      cases w with
      | group g => simp only [hf] at hs; cases hs; exact Function.update_of_ne e2 _ _
      | dataset _ => simp only [hf] at hs; cases hs
      | table _ => simp only [hf] at hs; cases hs
      | partialTable => simp only [hf] at hs; cases hs
  · exact del _ e3 hs
  · exact cre _ _ e3 hs

theorem run_keeps_labels {l : List (H5File V → Res (H5File V))}
    (h : ∀ s ∈ l, ∀ f f', s f = .ok f' → f' nLabels = f nLabels) (f : H5File V) :
    (runSteps l f).1 nLabels = f nLabels := by
  induction l generalizing f with
  | nil => rfl
  | cons s l ih =>
    unfold runSteps
    cases hs : s f with
    | ok f' =>
      simp only
      rw [ih (fun s hs => h s (by simp [hs])), h s (by simp) f f' hs]
    | error e => rfl

theorem runSteps_append_or {a b : List (H5File V → Res (H5File V))} (f : H5File V) :
    (∃ f', runSteps a f = (f', none) ∧ runSteps (a ++ b) f = runSteps b f') ∨
    runSteps (a ++ b) f = runSteps a f ∧ (runSteps a f).2 ≠ none := by
  induction a generalizing f with
  | nil => left; exact ⟨f, rfl, rfl⟩
  | cons s a ih =>
    simp only [List.cons_append, runSteps]
    cases hs : s f with
    | ok f' => exact ih f'
    | error e => right; simp

/-- What the labels are after any number of primitives: unchanged, unreadable, or complete. -/
theorem labels_after (q r : V) (t : Frame ℝ) (n : Int) (k : Nat) (f : H5File V) :
    let F := (runSteps ((saveDataSteps q r t n).take k) f).1
    F nLabels = f nLabels ∨ F nLabels = none ∨ F nLabels = some .partialTable ∨
      (F nLabels = some (.table t) ∧ (saveDataSteps q r t n).length ≤ k ∧
        (runSteps (saveDataSteps q r t n) f).2 = none) := by
  intro F
  have hk : ∀ l, (∀ s ∈ l, s ∈ headSteps q r t n) → (runSteps l f).1 nLabels = f nLabels :=
    fun l hl => run_keeps_labels (fun s hs f f' he => head_keeps_labels (hl s hs) he) f
  rw [saveDataSteps_eq] at *
  have hlen : (headSteps q r t n ++ toHdfSteps nLabels t).length = (headSteps q r t n).length + 3 := by
    simp [toHdfSteps]
  rcases Nat.lt_or_ge k ((headSteps q r t n).length + 1) with hlt | hge
  · left
    have : (headSteps q r t n ++ toHdfSteps nLabels t).take k = (headSteps q r t n).take k :=
      List.take_append_of_le_length (by omega)
    show (runSteps ((headSteps q r t n ++ toHdfSteps nLabels t).take k) f).1 nLabels = _
    rw [this]
    exact hk _ fun s hs => List.mem_of_mem_take hs
  · have htake : (headSteps q r t n ++ toHdfSteps nLabels t).take k =
        headSteps q r t n ++ (toHdfSteps nLabels t).take (k - (headSteps q r t n).length) := by
      rw [List.take_append, List.take_of_length_le (by omega)]
    have hF : F = (runSteps (headSteps q r t n ++
        (toHdfSteps nLabels t).take (k - (headSteps q r t n).length)) f).1 := by
      show (runSteps ((headSteps q r t n ++ toHdfSteps nLabels t).take k) f).1 = _
      rw [htake]
    rcases runSteps_append_or (a := headSteps q r t n)
        (b := (toHdfSteps nLabels t).take (k - (headSteps q r t n).length)) f with ⟨f', h1, h2⟩ | ⟨h1, h2⟩
    · obtain ⟨j, hj⟩ : ∃ j, k - (headSteps q r t n).length = j + 1 := ⟨k - (headSteps q r t n).length - 1, by omega⟩
      rw [h2, hj] at hF
      rcases j with _ | _ | j
      · right; left; rw [hF]; simp [toHdfSteps, runSteps]
      · right; right; left; rw [hF]; simp [toHdfSteps, runSteps]
      · right; right; right
        refine ⟨by rw [hF]; simp [toHdfSteps, runSteps], by omega, ?_⟩
        rw [runSteps_append h1]; simp [toHdfSteps, runSteps]
    · left; rw [hF, h1]; exact hk _ fun s hs => hs

/-- C71 (partial): if the file did not exist or had no readable labels, an interrupted save can never
be loaded. -/
theorem C71_fresh_partial (d : Disk V) (f : Str) (q r : V) (t : Frame ℝ) (n : Int) (k : Nat)
    (hk : k < (SaveCall.data f q r t n).steps.length)
    (h : ∀ t', contents d (ensureH5Extension f) "labels".toList ≠ some (.table t')) :
    ∃ e, loadData ((SaveCall.data f q r t n).interrupted k d) (ensureH5Extension f) = .error e := by
  have hl := labels_after q r t n k (openAppend d (ensureH5Extension f))
  simp only [SaveCall.interrupted, SaveCall.file, SaveCall.steps, loadData, Function.update_self, loadFile]
  have hold : openAppend d (ensureH5Extension f) nLabels = contents d (ensureH5Extension f) "labels".toList :=
    openAppend_apply _ _ _
  have : ∀ t', (runSteps ((saveDataSteps q r t n).take k) (openAppend d (ensureH5Extension f))).1 nLabels ≠
      some (.table t') := by
    intro t'
    rcases hl with e | e | e | ⟨-, e, -⟩
    · rw [e, hold]; exact h t'
    · rw [e]; simp
    · rw [e]; simp
    · exact absurd hk (by simp only [SaveCall.steps]; omega)
  unfold readHdf
  cases hc : (runSteps ((saveDataSteps q r t n).take k) (openAppend d (ensureH5Extension f))).1 nLabels with
  | none => exact ⟨.keyError, rfl⟩
  | some w =>
    cases w with
    | table t' => exact absurd hc (this t')
    | dataset _ => exact ⟨.typeError, rfl⟩
    | group _ => exact ⟨.typeError, rfl⟩
    | partialTable => exact ⟨.typeError, rfl⟩

/-- C71 (partial): for every prior content and crash point, if a later load succeeds, its labels are
the labels the file had before, or the save was complete and everything is new. -/
theorem C71_labels_partial (d : Disk V) (f : Str) (q r : V) (t : Frame ℝ) (n : Int) (k : Nat) (ds : DataSet V)
    (hl : loadData ((SaveCall.data f q r t n).interrupted k d) (ensureH5Extension f) = .ok ds) :
    contents d (ensureH5Extension f) "labels".toList = some (.table ds.labels) ∨
    (ds.q = .value q ∧ ds.reflectivity = .value r ∧ ds.labels = t) := by
  have ha := labels_after q r t n k (openAppend d (ensureH5Extension f))
  have hold : openAppend d (ensureH5Extension f) nLabels = contents d (ensureH5Extension f) "labels".toList :=
    openAppend_apply _ _ _
  simp only [SaveCall.interrupted, SaveCall.file, SaveCall.steps, loadData, Function.update_self, loadFile] at hl
  obtain ⟨t', h1, hl⟩ := bind_eq_ok.1 hl
  obtain ⟨g, h2, hl⟩ := bind_eq_ok.1 hl
  cases hl
  have hF : (runSteps ((saveDataSteps q r t n).take k) (openAppend d (ensureH5Extension f))).1 nLabels =
      some (.table t') := by
    unfold readHdf at h1
    cases hc : (runSteps ((saveDataSteps q r t n).take k) (openAppend d (ensureH5Extension f))).1 nLabels with
    | none => rw [hc] at h1; cases h1
    | some w =>
      rw [hc] at h1
      cases w with
      | table t'' => simp only at h1; cases h1; rfl
      | dataset _ => cases h1
      | group _ => cases h1
      | partialTable => cases h1
  rcases ha with e | e | e | ⟨e, hlen, hok⟩
  · left; simp only; rw [← hold, ← e, hF]
  · rw [e] at hF; cases hF
  · rw [e] at hF; cases hF
  · right
    rw [List.take_of_length_le hlen] at h1 hF ⊢
    have hI : InfoFree (openAppend d (ensureH5Extension f)) := by
      by_contra hc
      -- with a foreign member `info` the complete call fails
      have hfail : (runSteps (saveDataSteps q r t n) (openAppend d (ensureH5Extension f))).2 ≠ none := by
        have hne : nInfo ≠ nQ := by decide
        unfold saveDataSteps
        rw [List.append_assoc, List.append_assoc, List.append_assoc, runSteps_append (run_override _ _ _)]
        simp only [List.singleton_append, runSteps, requireGroup, Function.update_of_ne hne]
        unfold InfoFree at hc
        rw [show "info".toList = nInfo from rfl] at hc
        cases hi : openAppend d (ensureH5Extension f) nInfo with
        | none => exact absurd (.inl hi) hc
        | some w =>
          cases w with
          | group g => exact absurd (.inr ⟨g, hi⟩) hc
          | dataset _ => simp
          | table _ => simp
          | partialTable => simp
      exact hfail hok
    obtain ⟨g', -, hrun⟩ := run_saveData hI q r t n
    rw [hrun] at hF ⊢
    have e3 : nQ ≠ nLabels := by decide
    have e4 : nQ ≠ nReflectivity := by decide
    have e5 : nQ ≠ nInfo := by decide
    have e6 : nReflectivity ≠ nLabels := by decide
    refine ⟨?_, ?_, ?_⟩
    · simp [getArray, Function.update_of_ne e3, Function.update_of_ne e4, Function.update_of_ne e5]
    · simp [getArray, Function.update_of_ne e6]
    · simp only [Function.update_self] at hF
      cases hF; rfl

/-- C71 does not hold for a file that already holds a data set: whatever it holds, if the save is
interrupted after the q values were replaced, the load returns the new q values with the old
reflectivity and labels; and if it is interrupted one primitive earlier, there are no q values. -/
theorem C71_mixes (d : Disk V) (f : Str) (hf : HasH5Ext f) (ds : DataSet V) (h : loadData d f = .ok ds)
    (q r : V) (t : Frame ℝ) (n : Int) :
    loadData ((SaveCall.data f q r t n).interrupted 2 d) f = .ok { ds with q := .value q } ∧
    loadData ((SaveCall.data f q r t n).interrupted 1 d) f = .ok { ds with q := .noneArray } := by
  have e3 : nLabels ≠ nQ := by decide
  have e4 : nReflectivity ≠ nQ := by decide
  have e5 : nInfo ≠ nQ := by decide
  unfold loadData at h
  cases hd : d f with
  | none => rw [hd] at h; cases h
  | some F =>
    rw [hd] at h
    replace h : loadFile F = .ok ds := h
    have ho : openAppend d f = F := by simp [openAppend, hd]
    have ht : (saveDataSteps q r t n).take 2 = overrideSteps nQ q := by
      simp [saveDataSteps, overrideSteps]
    have ht1 : (saveDataSteps q r t n).take 1 = [delIfPresent nQ] := by
      simp [saveDataSteps, overrideSteps]
    have hdel : (runSteps [delIfPresent nQ] F).1 = Function.update F nQ none := by
      simp only [runSteps, delIfPresent]
      cases hq : F nQ with
      | none => simp only; rw [← hq, Function.update_eq_self]
      | some w => simp [delNode, hq]
    simp only [SaveCall.interrupted, SaveCall.file, SaveCall.steps, ensure_of_ext hf, loadData,
      Function.update_self, ho, ht, ht1, run_override, hdel]
    have upd : ∀ w : Option (Node V), loadFile (Function.update F nQ w) =
        (do
          let ds ← loadFile F
          return { ds with q := getArray (Function.update F nQ w) nQ }) := by
      intro w
      simp only [loadFile, readHdf, readAttrs, getArray, Function.update_of_ne e3, Function.update_of_ne e4,
        Function.update_of_ne e5, bind_assoc]
      rfl
    refine ⟨?_, ?_⟩
    · rw [upd, h]; simp [getArray, pure, Except.pure, bind, Except.bind]
    · rw [upd, h]; simp [getArray, pure, Except.pure, bind, Except.bind]

/-- The hypotheses of `C71_mixes` are met after one complete save, so the full claim fails: a data
set with q values 2, reflectivity 1 and the labels of the first save was never saved. -/
example : ∃ d : Disk ℕ, ∃ ds, loadData d "f.h5".toList = .ok ds ∧ ds.q = .value 1 ∧
    loadData ((SaveCall.data "f.h5".toList 2 2 [] 1).interrupted 2 d) "f.h5".toList =
      .ok { ds with q := .value 2 } := by
  have hext : ensureH5Extension "f.h5".toList = "f.h5".toList := by decide
  obtain ⟨-, ds, h1, h2, -⟩ := C70_roundtrip_partial (fun _ => none : Disk ℕ) "f.h5".toList 1 1 [] 1 (.inl rfl)
  rw [hext] at h1
  refine ⟨_, ds, h1, h2, (C71_mixes _ _ ?_ ds h1 2 2 [] 1).1⟩
  rw [← hasH5Ext_iff]; decide

/-- The hypotheses of `C71_fresh_partial` are met by a new disk. -/
example (q r : V) (t : Frame ℝ) (n : Int) : ∃ e,
    loadData ((SaveCall.data "f".toList q r t n).interrupted 3 fun _ => none)
      (ensureH5Extension "f".toList) = .error e :=
  C71_fresh_partial _ _ _ _ _ _ _ (by simp [SaveCall.steps, saveDataSteps, overrideSteps, toHdfSteps, infoAttrs])
    (by simp [contents])

end Verif.Props
