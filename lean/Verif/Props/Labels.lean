import Verif.Spec.Sample
import Verif.Lemmas.Except
import Verif.Lemmas.Str
import Verif.Model.Labels

/-!
# C05 – C07: label names
-/

set_option linter.unusedSectionVars false

namespace Verif.Props
open Verif.Py Verif.Model Verif.Spec
variable {K : Type} [LinearOrder K] [Zero K]

theorem copy_of_valid {p : Param K} (h : ParamValid p) : p.copy = .ok p := by
  cases p with
  | range a b n => simp only [ParamValid] at h; simp [Param.copy, Param.mk, h]
  | const v n => rfl

theorem setName_name (p : Param K) (n : Option Str) : (p.setName n).name = n := by cases p <;> rfl

/-- The parameter under its label name, as listed by `thicknesses`, `roughnesses` and `slds`. -/
def labelled (layer : Str) (nm : Str) (p : Param K) : Param K :=
  p.setName (some (layer ++ "_".toList ++ nm))

theorem label_param {p : Param K} {nm : Str} (h : ParamRegular nm p) (layer : Str) :
    (do let c ← p.copy; return c.setName (some (prefixedName layer c.name)) : Res (Param K)) =
      .ok (labelled layer nm p) := by
  rw [copy_of_valid h.2]
  simp only [bind_ok, prefixedName, h.1]
  rfl

theorem thicknesses_eq {s : SampleV K} (h : SampleRegular s) :
    s.thicknesses = .ok (s.layers.filterMap fun l =>
      l.thickness.map (labelled l.name "thickness".toList)) := by
  have hf : s.structure_.filter (fun l => l.thickness.isSome) = s.layers := by
    unfold SampleV.structure_
    rw [List.filter_append, List.filter_append]
    have h1 : List.filter (fun l : LayerV K => l.thickness.isSome) [s.substrate] = [] := by
      simp [h.substrate.thickness]
    have h2 : List.filter (fun l : LayerV K => l.thickness.isSome) [s.ambient] = [] := by
      simp [h.ambient.thickness]
    rw [h1, h2, List.nil_append, List.append_nil, List.filter_eq_self]
    intro l hl
    obtain ⟨p, hp, -⟩ := (h.layers l hl).thickness
    simp [hp]
  unfold SampleV.thicknesses
  rw [hf]
  have hl := h.layers
  generalize s.layers = ls at hl
  induction ls with
  | nil => rfl
  | cons l ls ih =>
    obtain ⟨p, hp, hr, -⟩ := (hl l (by simp)).thickness
    rw [mapM_cons, ih (fun l h => hl l (by simp [h])), List.filterMap_cons, hp]
    simp only [label_param hr, bind_ok, Option.map_some]
    rfl

theorem roughnesses_eq {s : SampleV K} (h : SampleRegular s) :
    s.roughnesses = .ok ((s.substrate :: s.layers).filterMap fun l =>
      l.roughness.map (labelled l.name "roughness".toList)) := by
  have hf : s.structure_.filter (fun l => l.roughness.isSome) = s.substrate :: s.layers := by
    unfold SampleV.structure_
    rw [List.filter_append]
    have h2 : List.filter (fun l : LayerV K => l.roughness.isSome) [s.ambient] = [] := by
      simp [h.ambient.roughness]
    rw [h2, List.append_nil, List.singleton_append, List.filter_eq_self]
    intro l hl
    simp only [List.mem_cons] at hl
    rcases hl with rfl | hl
    · obtain ⟨p, hp, -⟩ := h.substrate.roughness; simp [hp]
    · obtain ⟨p, hp, -⟩ := (h.layers l hl).roughness; simp [hp]
  unfold SampleV.roughnesses
  rw [hf]
  have hl : ∀ l ∈ s.substrate :: s.layers, ∃ p, l.roughness = some p ∧
      ParamRegular "roughness".toList p ∧ p.min.ltZero = .ok false := by
    intro l hl
    rcases List.mem_cons.1 hl with rfl | hl
    · exact h.substrate.roughness
    · exact (h.layers l hl).roughness
  generalize s.substrate :: s.layers = ls at hl
  induction ls with
  | nil => rfl
  | cons l ls ih =>
    obtain ⟨p, hp, hr, -⟩ := (hl l (by simp))
    rw [mapM_cons, ih (fun l h => hl l (by simp [h])), List.filterMap_cons, hp]
    simp only [label_param hr, bind_ok, Option.map_some]
    rfl

theorem slds_eq {s : SampleV K} (h : SampleRegular s) :
    s.slds = .ok (s.structure_.filterMap fun l => l.sld.map (labelled l.name "sld".toList)) := by
  unfold SampleV.slds
  have hl : ∀ l ∈ s.structure_, ∃ p, l.sld = some p ∧ ParamRegular "sld".toList p := by
    intro l hl
    unfold SampleV.structure_ at hl
    simp only [List.cons_append, List.nil_append, List.mem_cons, List.mem_append,
      List.not_mem_nil, or_false] at hl
    rcases hl with rfl | hl | rfl
    · exact h.substrate.sld
    · exact (h.layers l hl).sld
    · exact h.ambient.sld
  generalize s.structure_ = ls at hl
  induction ls with
  | nil => rfl
  | cons l ls ih =>
    obtain ⟨p, hp, hr⟩ := (hl l (by simp))
    rw [mapM_cons, ih (fun l h => hl l (by simp [h])), List.filterMap_cons, hp]
    simp only [label_param hr, bind_ok, Option.map_some]
    rfl

theorem paramNames_filterMap {ls : List (LayerV K)} {f : LayerV K → Option (Param K)} {nm : Str}
    (h : ∀ l ∈ ls, ∃ p, f l = some p) :
    paramNames (ls.filterMap fun l => (f l).map (labelled l.name nm)) =
      ls.map fun l => l.name ++ "_".toList ++ nm := by
  induction ls with
  | nil => rfl
  | cons l ls ih =>
    obtain ⟨p, hp⟩ := h l (by simp)
    rw [List.filterMap_cons, hp]
    simp only [Option.map_some, paramNames, List.map_cons, labelled, setName_name, Option.getD_some]
    congr 1
    exact ih fun l hl => h l (by simp [hl])

/-- C05: the label names of a sample are the thicknesses of its layers, the roughnesses of substrate
and layers and the SLDs of substrate, layers and ambient, each from bottom to top. -/
theorem C05_label_names (s : SampleV K) (h : SampleRegular s) :
    ∃ names, s.labelNames = .ok names ∧
      names = expectedLabels s.substrate.name (s.layers.map (·.name)) s.ambient.name ∧
      names.length = 3 * s.layers.length + 3 := by
  refine ⟨_, ?_, rfl, ?_⟩
  · unfold SampleV.labelNames
    rw [thicknesses_eq h, roughnesses_eq h, slds_eq h]
    simp only [bind_ok, pure, Except.pure, Except.ok.injEq]
    rw [paramNames_filterMap, paramNames_filterMap, paramNames_filterMap]
    · simp [expectedLabels, SampleV.structure_, Function.comp_def]
    · intro l hl
      unfold SampleV.structure_ at hl
      simp only [List.cons_append, List.nil_append, List.mem_cons, List.mem_append,
        List.not_mem_nil, or_false] at hl
      rcases hl with rfl | hl | rfl
      · obtain ⟨p, hp, -⟩ := h.substrate.sld; exact ⟨p, hp⟩
      · obtain ⟨p, hp, -⟩ := (h.layers l hl).sld; exact ⟨p, hp⟩
      · obtain ⟨p, hp, -⟩ := h.ambient.sld; exact ⟨p, hp⟩
    · intro l hl
      rcases List.mem_cons.1 hl with rfl | hl
      · obtain ⟨p, hp, -⟩ := h.substrate.roughness; exact ⟨p, hp⟩
      · obtain ⟨p, hp, -⟩ := (h.layers l hl).roughness; exact ⟨p, hp⟩
    · intro l hl
      obtain ⟨p, hp, -⟩ := (h.layers l hl).thickness; exact ⟨p, hp⟩
  · simp [expectedLabels]; omega

/-! ## C06 -/

theorem thickness_ne_roughness (a b : Str) : a ++ "_thickness".toList ≠ b ++ "_roughness".toList := by
  intro h
  have := (List.append_inj' h (by decide)).2
  exact absurd this (by decide)

theorem thickness_ne_sld (a b : Str) : a ++ "_thickness".toList ≠ b ++ "_sld".toList := by
  intro h
  have := congrArg (fun l => l.getLast?) h
  simp only [List.getLast?_append] at this
  have h3 : some 's' = some 'd' := this
  exact absurd h3 (by decide)

theorem roughness_ne_sld (a b : Str) : a ++ "_roughness".toList ≠ b ++ "_sld".toList := by
  intro h
  have := congrArg (fun l => l.getLast?) h
  simp only [List.getLast?_append] at this
  have h3 : some 's' = some 'd' := this
  exact absurd h3 (by decide)

theorem nodup_map_append {l : List Str} (w : Str) : (l.map (· ++ w)).Nodup ↔ l.Nodup :=
  List.nodup_map_iff (fun _ _ h => List.append_cancel_right h)

theorem expectedLabels_nodup_iff (sub amb : Str) (ls : List Str) :
    (expectedLabels sub ls amb).Nodup ↔ (sub :: (ls ++ [amb])).Nodup := by
  unfold expectedLabels
  constructor
  · intro h
    have := (List.nodup_append.1 h).2.1
    rw [nodup_map_append] at this
    simpa using this
  · intro h
    have h1 : ls.Nodup := (List.nodup_append.1 (List.nodup_cons.1 h).2).1
    have h2 : (sub :: ls).Nodup := by
      have : (sub :: ls).Sublist (sub :: (ls ++ [amb])) := by simp
      exact h.sublist this
    rw [List.nodup_append, List.nodup_append]
    refine ⟨⟨(nodup_map_append _).2 h1, (nodup_map_append _).2 h2, ?_⟩, (nodup_map_append _).2 (by simpa using h), ?_⟩
    · intro a ha b hb
      obtain ⟨x, -, rfl⟩ := List.mem_map.1 ha
      obtain ⟨y, -, rfl⟩ := List.mem_map.1 hb
      exact thickness_ne_roughness x y
    · intro a ha b hb
      obtain ⟨y, -, rfl⟩ := List.mem_map.1 hb
      rcases List.mem_append.1 ha with ha | ha
      · obtain ⟨x, -, rfl⟩ := List.mem_map.1 ha
        exact thickness_ne_sld x y
      · obtain ⟨x, -, rfl⟩ := List.mem_map.1 ha
        exact roughness_ne_sld x y

/-- C06: the label names are pairwise distinct iff the names of substrate, layers and ambient are. -/
theorem C06_labels_distinct_iff (s : SampleV K) (h : SampleRegular s) :
    ∃ names, s.labelNames = .ok names ∧ (names.Nodup ↔ (partNames s).Nodup) := by
  obtain ⟨names, h1, h2, -⟩ := C05_label_names s h
  refine ⟨names, h1, ?_⟩
  rw [h2, expectedLabels_nodup_iff]
  rfl

/-! ## C07 -/

/-- No part of the sample has a name containing one of the words `thickness`, `roughness`. -/
def KeywordFree (names : List Str) : Prop :=
  ∀ n ∈ names, ¬ "thickness".toList <:+: n ∧ ¬ "roughness".toList <:+: n

variable {V : Type}

/-- The columns whose name carries the given suffix, i.e. the physical category of a column of a
table labelled with `label_names`. -/
def columnsOf (cols : Str → List V) (names : List Str) (suffix : Str) : List (List V) :=
  names.map fun n => cols (n ++ suffix)

theorem thickness_in_name (n : Str) : "thickness".toList <:+: n ++ "_thickness".toList :=
  (show "thickness".toList <:+ "_thickness".toList by decide).isInfix.trans
    (List.suffix_append _ _).isInfix

theorem thickness_in_roughness (n : Str) :
    "thickness".toList <:+: n ++ "_roughness".toList ↔ "thickness".toList <:+: n := by
  have := infix_sep_iff (w := "thickness".toList) (a := n) (b := "roughness".toList) (c := '_') (by decide)
  have h2 : ¬ "thickness".toList <:+: "roughness".toList := by decide
  rw [show n ++ "_roughness".toList = n ++ '_' :: "roughness".toList from rfl, this]
  simp only [h2, or_false]

theorem thickness_in_sld (n : Str) :
    "thickness".toList <:+: n ++ "_sld".toList ↔ "thickness".toList <:+: n := by
  have := infix_sep_iff (w := "thickness".toList) (a := n) (b := "sld".toList) (c := '_') (by decide)
  have h2 : ¬ "thickness".toList <:+: "sld".toList := by decide
  rw [show n ++ "_sld".toList = n ++ '_' :: "sld".toList from rfl, this]
  simp only [h2, or_false]

theorem roughness_in_sld (n : Str) :
    "roughness".toList <:+: n ++ "_sld".toList ↔ "roughness".toList <:+: n := by
  have := infix_sep_iff (w := "roughness".toList) (a := n) (b := "sld".toList) (c := '_') (by decide)
  have h2 : ¬ "roughness".toList <:+: "sld".toList := by decide
  rw [show n ++ "_sld".toList = n ++ '_' :: "sld".toList from rfl, this]
  simp only [h2, or_false]

theorem roughness_in_name (n : Str) : "roughness".toList <:+: n ++ "_roughness".toList :=
  (show "roughness".toList <:+ "_roughness".toList by decide).isInfix.trans
    (List.suffix_append _ _).isInfix

theorem sld_in_name (n : Str) : "sld".toList <:+: n ++ "_sld".toList :=
  (show "sld".toList <:+ "_sld".toList by decide).isInfix.trans (List.suffix_append _ _).isInfix

/-- A label table of a sample: its columns are the label names. -/
def labelTable (sub amb : Str) (ls : List Str) (cols : Str → List V) : Frame V :=
  (expectedLabels sub ls amb).map fun n => (n, cols n)

theorem category_thickness (n : Str) : category (n ++ "_thickness".toList) = some .thickness := by
  unfold category; rw [if_pos (thickness_in_name n)]

theorem category_roughness (n : Str) : category (n ++ "_roughness".toList) =
    if "thickness".toList <:+: n then some .thickness else some .roughness := by
  unfold category
  simp only [thickness_in_roughness, roughness_in_name, if_true]

theorem category_sld (n : Str) : category (n ++ "_sld".toList) =
    if "thickness".toList <:+: n then some .thickness else
    if "roughness".toList <:+: n then some .roughness else some .sld := by
  unfold category
  simp only [thickness_in_sld, roughness_in_sld, sld_in_name, if_true]

theorem pick_append (f g : Frame V) (c : Category) : pick (f ++ g) c = pick f c ++ pick g c := by
  simp [pick, List.filter_append]

theorem pick_map_all {names : List Str} {suffix : Str} {cols : Str → List V} {c : Category}
    (h : ∀ n ∈ names, category (n ++ suffix) = some c) :
    pick ((names.map (· ++ suffix)).map fun n => (n, cols n)) c = columnsOf cols names suffix := by
  unfold pick columnsOf
  rw [List.filter_eq_self.2]
  · simp [Function.comp_def]
  · intro a ha
    simp only [List.map_map, List.mem_map, Function.comp_apply] at ha
    obtain ⟨n, hn, rfl⟩ := ha
    simp [h n hn]

theorem pick_map_none {names : List Str} {suffix : Str} {cols : Str → List V} {c : Category}
    (h : ∀ n ∈ names, category (n ++ suffix) ≠ some c) :
    pick ((names.map (· ++ suffix)).map fun n => (n, cols n)) c = [] := by
  unfold pick
  rw [List.filter_eq_nil_iff.2]
  · rfl
  · intro a ha
    simp only [List.map_map, List.mem_map, Function.comp_apply] at ha
    obtain ⟨n, hn, rfl⟩ := ha
    simpa using h n hn

/-- C07 (partial): for layer names that contain none of the words `thickness`, `roughness`, splitting
a label table returns exactly the thickness, roughness and SLD columns from bottom to top. Missing for
the full claim: names containing these words, for which it is false (`C07_separate_iff`,
`C07_separate_wrong`). -/
theorem C07_separate_partial (sub amb : Str) (ls : List Str) (cols : Str → List V)
    (h : KeywordFree (sub :: (ls ++ [amb]))) :
    separateLabels (labelTable sub amb ls cols) =
      (columnsOf cols ls "_thickness".toList, columnsOf cols (sub :: ls) "_roughness".toList,
        columnsOf cols (sub :: ls ++ [amb]) "_sld".toList) := by
  have hm : ∀ n ∈ (sub :: ls), n ∈ sub :: (ls ++ [amb]) := by
    intro n hn; simp only [List.mem_cons, List.mem_append] at hn ⊢; tauto
  have r : ∀ n ∈ sub :: ls, category (n ++ "_roughness".toList) = some .roughness := by
    intro n hn; rw [category_roughness, if_neg (h n (hm n hn)).1]
  have d : ∀ n ∈ sub :: ls ++ [amb], category (n ++ "_sld".toList) = some .sld := by
    intro n hn
    have := h n (by simpa using hn)
    rw [category_sld, if_neg this.1, if_neg this.2]
  have t : ∀ n ∈ ls, category (n ++ "_thickness".toList) = some .thickness :=
    fun n _ => category_thickness n
  unfold separateLabels labelTable expectedLabels
  simp only [List.map_append (l₁ := _ ++ _), List.map_append (f := fun n => (n, cols n)), pick_append]
  rw [pick_map_all t, pick_map_all r, pick_map_all d,
    pick_map_none (c := .roughness) (fun n hn => by rw [t n hn]; simp),
    pick_map_none (c := .sld) (fun n hn => by rw [t n hn]; simp),
    pick_map_none (c := .thickness) (fun n hn => by rw [r n hn]; simp),
    pick_map_none (c := .sld) (fun n hn => by rw [r n hn]; simp),
    pick_map_none (c := .thickness) (fun n hn => by rw [d n hn]; simp),
    pick_map_none (c := .roughness) (fun n hn => by rw [d n hn]; simp)]
  simp

theorem pick_length_le (f : Frame V) (c : Category) : (pick f c).length ≤ f.length := by
  simp only [pick, List.length_map]; exact List.length_filter_le _ _

/-- C07, exact criterion: the split has the right numbers of columns iff no part of the sample has a
name containing one of the words. -/
theorem C07_separate_iff (sub amb : Str) (ls : List Str) (cols : Str → List V) :
    separateLabels (labelTable sub amb ls cols) =
      (columnsOf cols ls "_thickness".toList, columnsOf cols (sub :: ls) "_roughness".toList,
        columnsOf cols (sub :: ls ++ [amb]) "_sld".toList) ↔
    KeywordFree (sub :: (ls ++ [amb])) := by
  refine ⟨fun heq => ?_, C07_separate_partial sub amb ls cols⟩
  have h3 := congrArg (fun x => x.2.2.length) heq
  simp only [separateLabels, labelTable, expectedLabels, List.map_append (f := fun n => (n, cols n)),
    pick_append] at h3
  rw [pick_map_none (c := .sld) (fun n _ => by rw [category_thickness]; simp),
    pick_map_none (c := .sld) (fun n _ => by rw [category_roughness]; split <;> simp)] at h3
  simp only [List.nil_append, columnsOf, List.length_map, pick] at h3
  have h4 := List.length_filter_eq_length_iff.1 (h3.trans (by simp))
  intro n hn
  have := h4 (n ++ "_sld".toList, cols (n ++ "_sld".toList)) (by
    simp only [List.map_map, List.mem_map]
    exact ⟨n, by simpa using hn, rfl⟩)
  simp only [decide_eq_true_eq, category_sld] at this
  split_ifs at this with h1 h2
  · simp at this
  · simp at this
  · exact ⟨h1, h2⟩

theorem pick_all {f : Frame V} {c : Category} (h : ∀ col ∈ f, category col.1 = some c) :
    pick f c = f.map Prod.snd := by
  unfold pick
  rw [List.filter_eq_self.2]
  intro a ha; simpa using h a ha

theorem pick_none {f : Frame V} {c : Category} (h : ∀ col ∈ f, category col.1 ≠ some c) :
    pick f c = [] := by
  unfold pick
  rw [List.filter_eq_nil_iff.2]
  · rfl
  · intro a ha; simpa using h a ha

/-- C07 (partial), by position: any table whose columns are the label names of a regular sample with
keyword-free names is cut after the `n` thicknesses and the `n + 1` roughnesses. -/
theorem C07_separate_sample_partial (s : SampleV K) (hs : SampleRegular s) (names : List Str)
    (hn : s.labelNames = .ok names) (h : KeywordFree (partNames s)) (f : Frame V)
    (hf : f.columns = names) :
    let n := s.layers.length
    let cols := f.map Prod.snd
    separateLabels f = (cols.take n, (cols.drop n).take (n + 1), cols.drop (2 * n + 1)) := by
  obtain ⟨names', h1, h2, -⟩ := C05_label_names s hs
  rw [hn] at h1
  cases h1
  intro n cols
  have hn' : n = (s.layers.map (·.name)).length := by simp [n]
  set ls := s.layers.map (·.name) with hls
  have hf' : f.columns = expectedLabels s.substrate.name ls s.ambient.name := hf.trans h2
  unfold expectedLabels at hf'
  obtain ⟨AB, C, rfl, hAB, hC⟩ := List.map_eq_append_iff.1 hf'
  obtain ⟨A, B, rfl, hA, hB⟩ := List.map_eq_append_iff.1 hAB
  have mem : ∀ {X : Frame V} {ns : List Str} {sf : Str}, X.map Prod.fst = ns.map (· ++ sf) →
      ∀ col ∈ X, ∃ m ∈ ns, col.1 = m ++ sf := by
    intro X ns sf hX col hcol
    have : col.1 ∈ X.map Prod.fst := List.mem_map_of_mem hcol
    rw [hX, List.mem_map] at this
    obtain ⟨m, hm, e⟩ := this
    exact ⟨m, hm, e.symm⟩
  have t : ∀ col ∈ A, category col.1 = some .thickness := by
    intro col hc; obtain ⟨m, -, e⟩ := mem hA col hc; rw [e, category_thickness]
  have r : ∀ col ∈ B, category col.1 = some .roughness := by
    intro col hc; obtain ⟨m, hm, e⟩ := mem hB col hc
    have := h m (by unfold partNames; rw [← hls]; simp only [List.mem_cons, List.mem_append] at hm ⊢; tauto)
    rw [e, category_roughness, if_neg this.1]
  have d : ∀ col ∈ C, category col.1 = some .sld := by
    intro col hc; obtain ⟨m, hm, e⟩ := mem hC col hc
    have := h m (by unfold partNames; rw [← hls]; simpa using hm)
    rw [e, category_sld, if_neg this.1, if_neg this.2]
  have lA : A.length = n := by have := congrArg List.length hA; simpa [hn'] using this
  have lB : B.length = n + 1 := by have := congrArg List.length hB; simpa [hn'] using this
  unfold separateLabels
  simp only [pick_append]
  rw [pick_all t, pick_all r, pick_all d, pick_none (c := .roughness) (fun c hc => by rw [t c hc]; simp),
    pick_none (c := .sld) (fun c hc => by rw [t c hc]; simp),
    pick_none (c := .thickness) (fun c hc => by rw [r c hc]; simp),
    pick_none (c := .sld) (fun c hc => by rw [r c hc]; simp),
    pick_none (c := .thickness) (fun c hc => by rw [d c hc]; simp),
    pick_none (c := .roughness) (fun c hc => by rw [d c hc]; simp)]
  have e1 : cols = A.map Prod.snd ++ (B.map Prod.snd ++ C.map Prod.snd) := by simp [cols]
  have e2 : cols.drop (2 * n + 1) = C.map Prod.snd := by
    rw [e1, ← List.append_assoc]
    apply List.drop_left'
    simp [lA, lB]; omega
  rw [e2, e1, List.take_left' (by simp [lA]), List.drop_left' (by simp [lA]),
    List.take_left' (by simp [lB])]
  simp

/-- The full claim C07 does not hold for the code: with a layer named `thickness_grading` the split
returns three thickness columns for one layer. -/
theorem C07_separate_wrong :
    ∃ (sub amb : Str) (ls : List Str) (cols : Str → List Nat), (sub :: (ls ++ [amb])).Nodup ∧
      (separateLabels (labelTable sub amb ls cols)).1.length = 3 ∧ ls.length = 1 :=
  ⟨"Si".toList, "air".toList, ["thickness_grading".toList], fun _ => [0], by decide, by decide, rfl⟩

example : KeywordFree ["Si".toList, "SiOx".toList, "organic_film".toList, "air".toList] := by
  simp only [KeywordFree, List.mem_cons, List.not_mem_nil, or_false, forall_eq_or_imp, forall_eq]; decide

end Verif.Props
