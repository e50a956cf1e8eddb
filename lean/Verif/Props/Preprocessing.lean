import Verif.Lemmas.Frame
import Verif.Spec.Preprocessing
import Mathlib.Tactic.FieldSimp

/-!
# C22 – C25: label preprocessing
-/

namespace Verif.Props
open Verif.Py Verif.Model Verif.Spec

/-! ### The parameters of a sample -/

theorem labelParams_names {s : SampleV ℝ} (h : SampleRegular s) :
    (labelParams s).map (·.1) = expectedLabels s.substrate.name (s.layers.map (·.name)) s.ambient.name := by
  have aux : ∀ (ls : List (LayerV ℝ)) (g : LayerV ℝ → Option (Param ℝ)) (w : Str),
      (∀ l ∈ ls, ∃ p, g l = some p) →
      (ls.filterMap fun l => (g l).map fun p => (l.name ++ w, p)).map (·.1) = ls.map fun l => l.name ++ w := by
    intro ls g w hg
    induction ls with
    | nil => rfl
    | cons l ls ih =>
      obtain ⟨p, hp⟩ := hg l (by simp)
      rw [List.filterMap_cons, hp]
      simp [ih fun l hl => hg l (by simp [hl])]
  unfold labelParams expectedLabels
  rw [List.map_append, List.map_append, aux _ (fun l => l.thickness), aux _ (fun l => l.roughness),
    aux _ (fun l => l.sld)]
  · simp [Function.comp_def]
  · intro l hl
    simp only [List.cons_append, List.mem_cons, List.mem_append, List.not_mem_nil, or_false] at hl
    rcases hl with rfl | hl | rfl
    · obtain ⟨p, hp, -⟩ := h.substrate.sld; exact ⟨p, hp⟩
    · obtain ⟨p, hp, -⟩ := (h.layers l hl).sld; exact ⟨p, hp⟩
    · obtain ⟨p, hp, -⟩ := h.ambient.sld; exact ⟨p, hp⟩
  · intro l hl
    rcases List.mem_cons.1 hl with rfl | hl
    · obtain ⟨p, hp, -⟩ := h.substrate.roughness; exact ⟨p, hp⟩
    · obtain ⟨p, hp, -⟩ := (h.layers l hl).roughness; exact ⟨p, hp⟩
  · intro l hl
    obtain ⟨p, hp, -⟩ := (h.layers l hl).thickness; exact ⟨p, hp⟩

theorem labelParams_nodup {s : SampleV ℝ} (h : SampleRegular s) (hn : (partNames s).Nodup) :
    ((labelParams s).map (·.1)).Nodup := by
  obtain ⟨names, h1, h2, -⟩ := C05_label_names s h
  rw [labelParams_names h, ← h2]
  obtain ⟨names', h3, h4⟩ := C06_labels_distinct_iff s h
  rw [h1] at h3; cases h3
  exact h4.2 hn

theorem labelParams_valid {s : SampleV ℝ} (h : SampleRegular s) :
    ∀ q ∈ labelParams s, ParamValid q.2 := by
  rintro ⟨n, p⟩ hq
  unfold labelParams at hq
  simp only [List.mem_append, List.mem_filterMap, Option.map_eq_some_iff, Prod.mk.injEq] at hq
  have hv := sample_valid h
  rcases hq with (⟨l, hl, p', hp, -, rfl⟩ | ⟨l, hl, p', hp, -, rfl⟩) | ⟨l, hl, p', hp, -, rfl⟩
  · exact (hv l (by simp [SampleV.structure_, hl])).thickness _ hp
  · refine (hv l ?_).roughness _ hp
    rcases List.mem_cons.1 hl with rfl | hl
    · simp [SampleV.structure_]
    · simp [SampleV.structure_, hl]
  · refine (hv l ?_).sld _ hp
    simpa [SampleV.structure_, or_assoc] using hl

/-- The labelled parameter of a pair. -/
def lparam (q : Str × Param ℝ) : Param ℝ := q.2.setName (some q.1)

theorem pname_lparam (q : Str × Param ℝ) : pname (lparam q) = q.1 := by
  unfold pname lparam; rw [setName_name]; rfl

theorem isConst_lparam (q : Str × Param ℝ) : (lparam q).isConst = q.2.isConst := by
  unfold lparam; cases q.2 <;> rfl

theorem min_lparam (q : Str × Param ℝ) : (lparam q).min = q.2.min := by
  unfold lparam; cases q.2 <;> rfl

theorem max_lparam (q : Str × Param ℝ) : (lparam q).max = q.2.max := by
  unfold lparam; cases q.2 <;> rfl

theorem allLabelParameters_eq {s : SampleV ℝ} (h : SampleRegular s) :
    s.allLabelParameters = .ok ((labelParams s).map lparam) := by
  unfold SampleV.allLabelParameters
  rw [thicknesses_eq h, roughnesses_eq h, slds_eq h]
  simp only [bind_ok, pure, Except.pure]
  unfold labelParams
  rw [List.map_append, List.map_append]
  have aux : ∀ (ls : List (LayerV ℝ)) (g : LayerV ℝ → Option (Param ℝ)) (w w' : Str),
      w = "_".toList ++ w' →
      (ls.filterMap fun l => (g l).map fun p => (l.name ++ w, p)).map lparam =
      ls.filterMap fun l => (g l).map (labelled l.name w') := by
    intro ls g w w' hw
    subst hw
    rw [List.map_filterMap]
    refine List.filterMap_congr fun l _ => ?_
    rw [Option.map_map]
    congr 1
    funext p
    simp [lparam, labelled]
  rw [aux _ (fun l => l.thickness) _ "thickness".toList (by decide),
    aux _ (fun l => l.roughness) _ "roughness".toList (by decide),
    aux _ (fun l => l.sld) _ "sld".toList (by decide)]
  rfl

theorem labelNames_eq {s : SampleV ℝ} (h : SampleRegular s) :
    s.labelNames = .ok ((labelParams s).map (·.1)) := by
  obtain ⟨names, h1, h2, -⟩ := C05_label_names s h
  rw [h1, h2, labelParams_names h]

/-! ### The loops -/

/-- The effect of `normalize_labels` on one column. -/
noncomputable def normUpd (norm : PyStr) (p : Param ℝ) (col : List Fl) : List Fl :=
  if norm.isLit minToZeroS then
    col.map fun x => Fl.div (x.map fun x => x - p.min.toC) (p.max.toC - p.min.toC)
  else col.map fun x => Fl.div x (‖p.max.toC‖ : ℝ)

/-- The effect of `renormalize_labels` on one column. -/
noncomputable def renormUpd (norm : PyStr) (p : Param ℝ) (col : List Fl) : List Fl :=
  if norm.isLit minToZeroS then
    col.map fun x => x.map fun x => x * (p.max.toC - p.min.toC) + p.min.toC
  else col.map fun x => x.map fun x => x * (‖p.max.toC‖ : ℝ)

theorem literal_cases {norm : PyStr} (h : norm = minToZero ∨ norm = absoluteMax) :
    norm.isLit minToZeroS = true ∨
    (norm.isLit minToZeroS = false ∧ norm.isLit absoluteMaxS = true) := by
  rcases h with rfl | rfl
  · left; decide
  · right; decide

theorem normalizeLabels_eq {norm : PyStr} (h : norm = minToZero ∨ norm = absoluteMax)
    (ps : List (Param ℝ)) (f : Frame Fl) :
    normalizeLabels norm ps f = (usedLabels ps).foldlM
      (fun f p => do let col ← f.get (pname p); return f.set (pname p) (normUpd norm p col)) f := by
  have step : ∀ f p, p.isConst = false → normalizeStep norm f p =
      (do let col ← f.get (pname p); return f.set (pname p) (normUpd norm p col)) := by
    intro f p hp
    unfold normalizeStep normUpd
    rcases literal_cases h with h1 | ⟨h1, h2⟩
    · simp [h1, hp]
    · simp [h1, h2, hp]
  unfold normalizeLabels usedLabels
  induction ps generalizing f with
  | nil => rfl
  | cons p ps ih =>
    rw [List.foldlM_cons, List.filter_cons]
    by_cases hp : p.isConst = true
    · rw [hp]
      have : normalizeStep norm f p = .ok f := by unfold normalizeStep; rw [if_pos hp]
      rw [this]
      exact ih f
    · have hp' : p.isConst = false := by simpa using hp
      rw [hp', step f p hp']
      simp only [Bool.not_false, if_true]
      rw [List.foldlM_cons]
      congr 1
      funext f'
      exact ih f'

theorem renormalizeLabels_eq {norm : PyStr} (h : norm = minToZero ∨ norm = absoluteMax)
    (ps : List (Param ℝ)) (f : Frame Fl) :
    renormalizeLabels norm ps f = (usedLabels ps).foldlM
      (fun f p => do let col ← f.get (pname p); return f.set (pname p) (renormUpd norm p col)) f := by
  unfold renormalizeLabels
  congr 1
  funext f p
  unfold renormalizeStep renormUpd
  rcases literal_cases h with h1 | ⟨h1, h2⟩
  · simp [h1]
  · simp [h1, h2]

theorem removeLabels_eq (ps : List (Param ℝ)) (f : Frame Fl) :
    removeLabels ps f = f.filter fun c => decide (c.1 ∉ (constantLabels ps).map pname) := by
  unfold removeLabels
  generalize constantLabels ps = cs
  induction cs generalizing f with
  | nil => simp
  | cons p cs ih =>
    rw [List.foldl_cons, ih]
    have : (if pname p ∉ f.columns then f else f.del (pname p)) = f.filter fun c => c.1 ≠ pname p := by
      split_ifs with hm
      · rfl
      · symm
        rw [List.filter_eq_self]
        intro a ha
        simp only [ne_eq, decide_not, Bool.not_eq_eq_eq_not, Bool.not_true, decide_eq_false_iff_not]
        intro he
        exact hm (he ▸ List.mem_map.2 ⟨a, ha, rfl⟩)
    rw [this, List.filter_filter]
    refine List.filter_congr fun a _ => ?_
    simp only [List.map_cons, List.mem_cons, not_or, Bool.decide_and, ne_eq, decide_not]
    rw [Bool.and_comm]

/-! ### Applying the preprocessing -/

/-- No division by zero: `absolute_max` divides by the magnitude of the upper limit. -/
def Normalizable (norm : PyStr) (s : SampleV ℝ) : Prop :=
  norm = absoluteMax → ∀ n lo hi nm, (n, Param.range lo hi nm) ∈ labelParams s → hi.toC ≠ 0

theorem toC_ne {lo hi : Num ℝ} {nm : Option Str} (h : ParamValid (.range lo hi nm)) :
    hi.toC - lo.toC ≠ 0 := by
  rw [sub_ne_zero]
  intro he
  have hre := congrArg Complex.re he
  have him := congrArg Complex.im he
  simp only [ParamValid] at h
  cases lo <;> cases hi <;> simp_all [Num.ge, Num.toC, Num.isNp, Num.re, Num.im] <;>
    split_ifs at h <;> cases h

theorem normUpd_eq {norm : PyStr} (h : norm = minToZero ∨ norm = absoluteMax) {lo hi : Num ℝ}
    {nm : Option Str} (hv : ParamValid (.range lo hi nm)) (h0 : norm = absoluteMax → hi.toC ≠ 0)
    {p : Param ℝ} (h1 : p.min = lo) (h2 : p.max = hi) (col : List Fl) :
    normUpd norm p col = col.map (Option.map (normalized norm lo.toC hi.toC)) := by
  subst h1 h2
  unfold normUpd
  rcases h with rfl | rfl
  · have : (minToZero).isLit minToZeroS = true := by decide
    rw [if_pos this]
    refine List.map_congr_left fun x _ => ?_
    cases x with
    | none => rfl
    | some x =>
      simp only [Option.map_some, Fl.div, Option.bind_some, if_neg (toC_ne hv), normalized, if_true]
  · have : (absoluteMax).isLit minToZeroS = false := by decide
    have hne : absoluteMax ≠ minToZero := by decide
    simp only [this, Bool.false_eq_true, if_false]
    refine List.map_congr_left fun x _ => ?_
    have hz : ((‖p.max.toC‖ : ℝ) : ℂ) ≠ 0 := by simpa using h0 rfl
    cases x with
    | none => rfl
    | some x =>
      simp only [Option.map_some, Fl.div, Option.bind_some, if_neg hz, normalized, if_neg hne]

theorem used_names (s : SampleV ℝ) : (usedLabels ((labelParams s).map lparam)).map pname =
    ((labelParams s).filter fun q => !q.2.isConst).map (·.1) := by
  unfold usedLabels
  rw [List.filter_map, List.map_map]
  have : ((fun p : Param ℝ => !p.isConst) ∘ lparam) = fun q => !q.2.isConst := by
    funext q; simp [isConst_lparam]
  rw [this]
  exact List.map_congr_left fun q _ => pname_lparam q

theorem const_names (s : SampleV ℝ) : (constantLabels ((labelParams s).map lparam)).map pname =
    ((labelParams s).filter fun q => q.2.isConst).map (·.1) := by
  unfold constantLabels
  rw [List.filter_map, List.map_map]
  have : ((fun p : Param ℝ => p.isConst) ∘ lparam) = fun q => q.2.isConst := by
    funext q; simp [isConst_lparam]
  rw [this]
  exact List.map_congr_left fun q _ => pname_lparam q

theorem const_iff_of_mem {s : SampleV ℝ} (hn : ((labelParams s).map (·.1)).Nodup) {q : Str × Param ℝ}
    (hq : q ∈ labelParams s) :
    q.1 ∈ ((labelParams s).filter fun q => q.2.isConst).map (·.1) ↔ q.2.isConst = true := by
  constructor
  · intro h
    obtain ⟨q', h', he⟩ := List.mem_map.1 h
    have hq' := List.mem_filter.1 h'
    have : q' = q := List.inj_on_of_nodup_map hn hq'.1 hq he
    rw [← this]; exact hq'.2
  · intro h
    exact List.mem_map.2 ⟨q, List.mem_filter.2 ⟨hq, h⟩, rfl⟩

theorem apply_spec {norm : PyStr} (h : norm = minToZero ∨ norm = absoluteMax) {s : SampleV ℝ}
    (hs : SampleRegular s) (hn : (partNames s).Nodup) (hz : Normalizable norm s) {t : Table}
    (ht : t.cols.columns.Perm ((labelParams s).map (·.1))) :
    ∃ a b, applyPreprocessing norm s (.frame t) = .ok (a, b) ∧ a.rows = t.rows ∧ b.rows = t.rows ∧
      a.cols.columns = t.cols.columns.filter
        (fun k => decide (k ∉ ((labelParams s).filter fun q => q.2.isConst).map (·.1))) ∧
      b.cols.columns = ((labelParams s).filter fun q => q.2.isConst).map (·.1) ∧
      (∀ n lo hi nm col, (n, Param.range lo hi nm) ∈ labelParams s → t.cols.get n = .ok col →
        a.cols.get n = .ok (col.map (Option.map (normalized norm lo.toC hi.toC)))) ∧
      (∀ n v nm, (n, Param.const v nm) ∈ labelParams s → b.cols.get n = t.cols.get n) := by
  have hnd := labelParams_nodup hs hn
  have hmem : ∀ q ∈ labelParams s, q.1 ∈ t.cols.columns := fun q hq =>
    ht.mem_iff.2 (List.mem_map.2 ⟨q, hq, rfl⟩)
  set C := ((labelParams s).filter fun q => q.2.isConst).map (·.1) with hC
  have hund : ((usedLabels ((labelParams s).map lparam)).map pname).Nodup := by
    rw [used_names]
    exact hnd.sublist (List.filter_sublist.map _)
  have hrc : ∀ k, k ∉ C → (Frame.get (removeLabels ((labelParams s).map lparam) t.cols) k) = t.cols.get k := by
    intro k hk
    rw [removeLabels_eq, const_names]
    exact get_filter (f := t.cols) (q := fun k => decide (k ∉ C)) (by simpa using hk)
  have hcols : (removeLabels ((labelParams s).map lparam) t.cols).columns =
      t.cols.columns.filter (fun k => decide (k ∉ C)) := by
    rw [removeLabels_eq, const_names]
    exact columns_filter (f := t.cols) (q := fun k => decide (k ∉ C))
  obtain ⟨f', h1, h2, h3, h4⟩ := foldlM_update (upd := normUpd norm) (nm := pname)
    (ps := usedLabels ((labelParams s).map lparam))
    (f := removeLabels ((labelParams s).map lparam) t.cols) hund (by
      intro p hp
      obtain ⟨hp1, hp2⟩ := List.mem_filter.1 hp
      obtain ⟨q, hq, rfl⟩ := List.mem_map.1 hp1
      rw [hcols, pname_lparam, List.mem_filter]
      refine ⟨hmem q hq, ?_⟩
      rw [isConst_lparam] at hp2
      simp only [decide_eq_true_eq]
      rw [const_iff_of_mem hnd hq]
      simpa using hp2)
  obtain ⟨b, hb⟩ := select_ok (f := t.cols) (names := C) (by
    intro k hk
    obtain ⟨q, hq, rfl⟩ := List.mem_map.1 hk
    exact get_ok_of_mem (hmem q (List.mem_filter.1 hq).1))
  obtain ⟨hb1, hb2⟩ := select_get hb
  refine ⟨⟨t.rows, f'⟩, ⟨t.rows, b⟩, ?_, rfl, rfl, h2.trans hcols, hb1, ?_, ?_⟩
  · unfold applyPreprocessing
    rw [labelNames_eq hs, allLabelParameters_eq hs]
    simp only [bind_ok, convertToDataframe]
    rw [normalizeLabels_eq h, h1, const_names, ← hC, hb]
    rfl
  · intro n lo hi nm col hq hc
    have hnc : n ∉ C := by
      have := (const_iff_of_mem hnd hq).not.2 (by simp [Param.isConst])
      exact this
    have := h3 (lparam (n, .range lo hi nm)) (List.mem_filter.2
      ⟨List.mem_map.2 ⟨_, hq, rfl⟩, by rw [isConst_lparam]; rfl⟩) col (by
        rw [pname_lparam, hrc n hnc, hc])
    rw [pname_lparam] at this
    rw [this, normUpd_eq h (labelParams_valid hs _ hq) (fun he => hz he n lo hi nm hq)
      (by rw [min_lparam]; rfl) (by rw [max_lparam]; rfl)]
  · intro n v nm hq
    exact hb2 n ((const_iff_of_mem hnd hq).2 rfl)

/-- C24: for every sample with distinct names and every table with the labels of the sample (columns
in any order, any values), `apply_preprocessing` returns a table with the non-constant labels in the
order of the input, each normalized with the limits of its parameter, and a table with exactly the
constant labels in sample order, unmodified. Together they cover every label once. If the input is in
sample order, so is the first table. -/
theorem C24_partition (norm : PyStr) (h : norm = minToZero ∨ norm = absoluteMax) (s : SampleV ℝ)
    (hs : SampleRegular s) (hn : (partNames s).Nodup) (hz : Normalizable norm s) (t : Table)
    (ht : t.cols.columns.Perm ((labelParams s).map (·.1))) :
    ∃ a b, applyPreprocessing norm s (.frame t) = .ok (a, b) ∧ a.rows = t.rows ∧ b.rows = t.rows ∧
      (a.cols.columns ++ b.cols.columns).Perm ((labelParams s).map (·.1)) ∧
      a.cols.columns.Sublist t.cols.columns ∧
      b.cols.columns = ((labelParams s).filter fun q => q.2.isConst).map (·.1) ∧
      (t.cols.columns = (labelParams s).map (·.1) →
        a.cols.columns = ((labelParams s).filter fun q => !q.2.isConst).map (·.1)) ∧
      (∀ n lo hi nm, (n, Param.range lo hi nm) ∈ labelParams s → ∃ col, t.cols.get n = .ok col ∧
        a.cols.get n = .ok (col.map (Option.map (normalized norm lo.toC hi.toC)))) ∧
      (∀ n v nm, (n, Param.const v nm) ∈ labelParams s → ∃ col, t.cols.get n = .ok col ∧
        b.cols.get n = .ok col) := by
  have hnd := labelParams_nodup hs hn
  obtain ⟨a, b, h1, h2, h3, h4, h5, h6, h7⟩ := apply_spec h hs hn hz ht
  have hused : ((labelParams s).map (·.1)).filter
      (fun k => decide (k ∉ ((labelParams s).filter fun q => q.2.isConst).map (·.1))) =
      ((labelParams s).filter fun q => !q.2.isConst).map (·.1) := by
    rw [List.filter_map]
    congr 1
    refine List.filter_congr fun q hq => ?_
    have := const_iff_of_mem hnd hq
    simp only [Function.comp]
    rw [Bool.eq_iff_iff]
    simp only [decide_eq_true_eq, this]
    simp
  refine ⟨a, b, h1, h2, h3, ?_, ?_, h5, ?_, ?_, ?_⟩
  · rw [h4, h5]
    refine ((ht.filter _).append_right _).trans ?_
    rw [hused, ← List.map_append]
    refine List.Perm.map _ ?_
    refine List.perm_append_comm.trans ?_
    exact List.filter_append_perm (fun q : Str × Param ℝ => q.2.isConst) (labelParams s)
  · rw [h4]; exact List.filter_sublist
  · intro he; rw [h4, he, hused]
  · intro n lo hi nm hq
    obtain ⟨col, hc⟩ := get_ok_of_mem (f := t.cols) (ht.mem_iff.2 (List.mem_map.2 ⟨_, hq, rfl⟩))
    exact ⟨col, hc, h6 n lo hi nm col hq hc⟩
  · intro n v nm hq
    obtain ⟨col, hc⟩ := get_ok_of_mem (f := t.cols) (ht.mem_iff.2 (List.mem_map.2 ⟨_, hq, rfl⟩))
    exact ⟨col, hc, by rw [h7 n v nm hq, hc]⟩

/-! ### Restoring labels -/

theorem restore_spec {norm : PyStr} (h : norm = minToZero ∨ norm = absoluteMax) {s : SampleV ℝ}
    (hs : SampleRegular s) (hn : (partNames s).Nodup) {t : Table}
    (ht : ∀ q ∈ labelParams s, q.2.isConst = false → q.1 ∈ t.cols.columns) :
    ∃ r, restoreLabels norm s (.frame t) = .ok r ∧ r.rows = t.rows ∧
      r.cols.columns = (labelParams s).map (·.1) ∧
      (∀ q ∈ labelParams s, q.2.isConst = false → ∀ col, t.cols.get q.1 = .ok col →
        r.cols.get q.1 = .ok (renormUpd norm q.2 col)) ∧
      (∀ n v nm, (n, Param.const v nm) ∈ labelParams s →
        r.cols.get n = .ok (List.replicate t.rows (some v.toC))) := by
  have hnd := labelParams_nodup hs hn
  have hund : ((usedLabels ((labelParams s).map lparam)).map pname).Nodup := by
    rw [used_names]
    exact hnd.sublist (List.filter_sublist.map _)
  have hcnd : ((constantLabels ((labelParams s).map lparam)).map pname).Nodup := by
    rw [const_names]
    exact hnd.sublist (List.filter_sublist.map _)
  obtain ⟨f', h1, h2, h3, h4⟩ := foldlM_update (upd := renormUpd norm) (nm := pname)
    (ps := usedLabels ((labelParams s).map lparam)) (f := t.cols) hund (by
      intro p hp
      obtain ⟨hp1, hp2⟩ := List.mem_filter.1 hp
      obtain ⟨q, hq, rfl⟩ := List.mem_map.1 hp1
      rw [isConst_lparam] at hp2
      rw [pname_lparam]
      exact ht q hq (by simpa using hp2))
  obtain ⟨c1, c2⟩ := foldl_set_get (nm := pname) (f := f')
    (val := fun p : Param ℝ => List.replicate t.rows (some p.min.toC))
    (ps := constantLabels ((labelParams s).map lparam)) hcnd
  set g := (addConstantLabels ((labelParams s).map lparam) ⟨t.rows, f'⟩).cols with hg
  have gconst : ∀ n v nm, (n, Param.const v nm) ∈ labelParams s →
      g.get n = .ok (List.replicate t.rows (some v.toC)) := by
    intro n v nm hq
    have := c1 (lparam (n, .const v nm)) (List.mem_filter.2
      ⟨List.mem_map.2 ⟨_, hq, rfl⟩, by rw [isConst_lparam]; rfl⟩)
    rw [pname_lparam, min_lparam] at this
    exact this
  have gused : ∀ q ∈ labelParams s, q.2.isConst = false → ∀ col, t.cols.get q.1 = .ok col →
      g.get q.1 = .ok (renormUpd norm q.2 col) := by
    intro q hq hqc col hc
    have hnc : q.1 ∉ (constantLabels ((labelParams s).map lparam)).map pname := by
      rw [const_names, const_iff_of_mem hnd hq, hqc]; simp
    have e1 : g.get q.1 = f'.get q.1 := c2 q.1 hnc
    have := h3 (lparam q) (List.mem_filter.2
      ⟨List.mem_map.2 ⟨_, hq, rfl⟩, by rw [isConst_lparam, hqc]; rfl⟩) col (by rw [pname_lparam, hc])
    rw [pname_lparam] at this
    rw [e1, this]
    unfold renormUpd
    rw [min_lparam, max_lparam]
  obtain ⟨r, hr⟩ := select_ok (f := g) (names := (labelParams s).map (·.1)) (by
    intro k hk
    obtain ⟨⟨n, p⟩, hq, rfl⟩ := List.mem_map.1 hk
    cases p with
    | const v nm => exact ⟨_, gconst n v nm hq⟩
    | range lo hi nm =>
      obtain ⟨col, hc⟩ := get_ok_of_mem (ht _ hq rfl)
      exact ⟨_, gused _ hq rfl col hc⟩)
  obtain ⟨r1, r2⟩ := select_get hr
  refine ⟨⟨t.rows, r⟩, ?_, rfl, r1, ?_, ?_⟩
  · unfold restoreLabels
    rw [labelNames_eq hs, allLabelParameters_eq hs]
    simp only [bind_ok, convertToDataframe]
    rw [renormalizeLabels_eq h, h1]
    simp only [bind_ok]
    rw [← hg, hr]
    rfl
  · intro q hq hqc col hc
    rw [r2 q.1 (List.mem_map.2 ⟨q, hq, rfl⟩)]
    exact gused q hq hqc col hc
  · intro n v nm hq
    rw [r2 n (List.mem_map.2 ⟨_, hq, rfl⟩)]
    exact gconst n v nm hq

theorem renorm_norm {norm : PyStr} (h : norm = minToZero ∨ norm = absoluteMax) {lo hi : Num ℝ}
    {nm : Option Str} (hv : ParamValid (.range lo hi nm)) (h0 : norm = absoluteMax → hi.toC ≠ 0)
    (col : List Fl) :
    renormUpd norm (.range lo hi nm) (col.map (Option.map (normalized norm lo.toC hi.toC))) = col := by
  have hd := toC_ne hv
  conv_rhs => rw [← List.map_id col]
  unfold renormUpd
  rcases h with rfl | rfl
  · have : (minToZero).isLit minToZeroS = true := by decide
    rw [if_pos this, List.map_map]
    refine List.map_congr_left fun x _ => ?_
    cases x with
    | none => rfl
    | some x =>
      simp only [Function.comp, Option.map_some, normalized, if_true, Param.min, Param.max, id]
      congr 1
      field_simp
      ring
  · have : (absoluteMax).isLit minToZeroS = false := by decide
    have hne : absoluteMax ≠ minToZero := by decide
    have hz : ((‖hi.toC‖ : ℝ) : ℂ) ≠ 0 := by simpa using h0 rfl
    simp only [this, Bool.false_eq_true, if_false]
    rw [List.map_map]
    refine List.map_congr_left fun x _ => ?_
    cases x with
    | none => rfl
    | some x =>
      simp only [Function.comp, Option.map_some, normalized, if_neg hne, Param.max, id]
      congr 1
      field_simp

/-- C22, for normalizations that divide by non-zero numbers: restoring the preprocessed labels gives
back the label table with the columns in sample order and the same values, whether the normalized
labels are passed as a table or (in sample order) as an array. Missing: `absolute_max` with an upper
limit of zero, where it is false, see `C22_absolute_max_zero`. -/
theorem C22_round_trip_partial (norm : PyStr) (h : norm = minToZero ∨ norm = absoluteMax)
    (s : SampleV ℝ) (hs : SampleRegular s) (hn : (partNames s).Nodup) (hz : Normalizable norm s)
    (t : Table) (ht : IsLabelTable s t) :
    ∃ a b r, applyPreprocessing norm s (.frame t) = .ok (a, b) ∧
      restoreLabels norm s (.frame a) = .ok r ∧ r.rows = t.rows ∧
      r.cols.columns = (labelParams s).map (·.1) ∧
      (∀ k ∈ t.cols.columns, r.cols.get k = t.cols.get k) ∧
      (t.cols.columns = (labelParams s).map (·.1) →
        r.cols = t.cols ∧ restoreLabels norm s (.array a.rows (a.cols.map (·.2))) = .ok r) := by
  have hnd := labelParams_nodup hs hn
  have htn : t.cols.columns.Nodup := ht.columns.nodup_iff.2 hnd
  obtain ⟨a, b, h1, h2, h3, h4, h5, h6, h7⟩ := apply_spec h hs hn hz ht.columns
  have hmem : ∀ q ∈ labelParams s, q.1 ∈ t.cols.columns := fun q hq =>
    ht.columns.mem_iff.2 (List.mem_map.2 ⟨q, hq, rfl⟩)
  obtain ⟨r, r1, r2, r3, r4, r5⟩ := restore_spec (t := a) h hs hn (by
    intro q hq hqc
    rw [h4, List.mem_filter]
    refine ⟨hmem q hq, ?_⟩
    simp only [decide_eq_true_eq]
    rw [const_iff_of_mem hnd hq, hqc]; simp)
  have hget : ∀ k ∈ t.cols.columns, r.cols.get k = t.cols.get k := by
    intro k hk
    obtain ⟨⟨n, p⟩, hq, rfl⟩ := List.mem_map.1 (ht.columns.mem_iff.1 hk)
    obtain ⟨col, hc⟩ := get_ok_of_mem (hmem _ hq)
    have hcm := mem_of_get hc
    cases p with
    | const v nm =>
      simp only at hc hcm ⊢
      rw [r5 n v nm hq, hc, h2]
      congr 1
      symm
      rw [List.eq_replicate_iff]
      exact ⟨ht.length _ hcm, ht.constants n v nm hq _ hcm rfl⟩
    | range lo hi nm =>
      simp only at hc hcm ⊢
      rw [r4 _ hq rfl _ (h6 n lo hi nm col hq hc), hc,
        renorm_norm h (labelParams_valid hs _ hq) (fun he => hz he n lo hi nm hq)]
  refine ⟨a, b, r, h1, r1, r2.trans h2, r3, hget, ?_⟩
  intro he
  have hused : a.cols.columns = ((labelParams s).filter fun q => !q.2.isConst).map (·.1) := by
    obtain ⟨a', b', e1, _, _, _, _, _, e7, _⟩ := C24_partition norm h s hs hn hz t ht.columns
    rw [h1] at e1; cases e1
    exact e7 he
  refine ⟨frame_ext (r3.trans he.symm) (r3 ▸ hnd) (by rw [r3, ← he]; exact hget), ?_⟩
  rw [← r1]
  unfold restoreLabels
  rw [allLabelParameters_eq hs]
  simp only [bind_ok, convertToDataframe]
  rw [used_names, ← hused, if_pos (by simp [Frame.columns])]
  have : (a.cols.columns.zip (a.cols.map (·.2))) = a.cols := by
    unfold Frame.columns
    rw [List.zip_map']
    simp
  rw [this]
  rfl

/-! ### Bounds of the normalized labels -/

/-- C23 for `min_to_zero`: in the normalized table every label that is in range is in `[0, 1]`; the
minimum becomes 0 and the maximum becomes 1. -/
theorem C23_min_to_zero (s : SampleV ℝ) (hs : SampleRegular s) (hn : (partNames s).Nodup)
    (t : Table) (ht : t.cols.columns.Perm ((labelParams s).map (·.1))) :
    ∃ a b, applyPreprocessing minToZero s (.frame t) = .ok (a, b) ∧
      ∀ n lo hi nm, (n, Param.range (.real lo) (.real hi) nm) ∈ labelParams s →
      ∃ col col', t.cols.get n = .ok col ∧ a.cols.get n = .ok col' ∧
        List.Forall₂ (fun x y => ∀ v : ℝ, x = some (v : ℂ) → lo ≤ v → v ≤ hi →
          ∃ w : ℝ, y = some (w : ℂ) ∧ 0 ≤ w ∧ w ≤ 1 ∧ (v = lo → w = 0) ∧ (v = hi → w = 1)) col col' := by
  obtain ⟨a, b, h1, -, -, -, -, -, -, h2, -⟩ := C24_partition minToZero (Or.inl rfl) s hs hn
    (by intro h; exact absurd h (by decide)) t ht
  refine ⟨a, b, h1, ?_⟩
  intro n lo hi nm hq
  obtain ⟨col, hc, ha⟩ := h2 n _ _ nm hq
  refine ⟨col, _, hc, ha, ?_⟩
  have hlt : lo < hi := by
    have := labelParams_valid hs _ hq
    simpa [ParamValid, Num.ge] using this
  rw [List.forall₂_map_right_iff, List.forall₂_same]
  intro x _ v hx h3 h4
  subst hx
  have hpos : 0 < hi - lo := sub_pos.2 hlt
  refine ⟨(v - lo) / (hi - lo), ?_, div_nonneg (by linarith) hpos.le, ?_, ?_, ?_⟩
  · simp only [Option.map_some, normalized, if_true, Num.toC, Option.some.injEq]
    have e1 : (⟨lo, 0⟩ : ℂ) = (lo : ℂ) := rfl
    have e2 : (⟨hi, 0⟩ : ℂ) = (hi : ℂ) := rfl
    rw [e1, e2]
    push_cast
    rfl
  · rw [div_le_one hpos]; linarith
  · rintro rfl; simp
  · rintro rfl; exact div_self hpos.ne'

/-- C23 for `absolute_max`, exactly: with limits `lo < hi`, `hi ≠ 0`, all in-range labels are
normalized into `[-1, 1]` if and only if the lower limit does not exceed the upper limit in magnitude
on the negative side. -/
theorem C23_absolute_max_iff (lo hi : ℝ) (h : lo < hi) (h0 : hi ≠ 0) :
    (∀ v : ℝ, lo ≤ v → v ≤ hi → ∃ w : ℝ, normalized absoluteMax (Num.real lo).toC (Num.real hi).toC v = w ∧
      -1 ≤ w ∧ w ≤ 1) ↔ -|hi| ≤ lo := by
  have hne : absoluteMax ≠ minToZero := by decide
  have e2 : (Num.real hi).toC = (hi : ℂ) := rfl
  have hpos : 0 < |hi| := abs_pos.2 h0
  have hval : ∀ v : ℝ, normalized absoluteMax (Num.real lo).toC (Num.real hi).toC v = ((v / |hi| : ℝ) : ℂ) := by
    intro v
    simp only [normalized, if_neg hne, e2, Complex.norm_real, Real.norm_eq_abs]
    push_cast
    rfl
  constructor
  · intro hb
    obtain ⟨w, hw, h1, -⟩ := hb lo le_rfl h.le
    rw [hval] at hw
    have : lo / |hi| = w := by exact_mod_cast hw
    rw [← this, le_div_iff₀ hpos] at h1
    linarith
  · intro hb v h1 h2
    refine ⟨v / |hi|, hval v, ?_, ?_⟩
    · rw [le_div_iff₀ hpos]; linarith
    · rw [div_le_one hpos]; exact h2.trans (le_abs_self _)

/-- C23 for `absolute_max` when no lower limit is below minus the magnitude of its upper limit.
Missing: ranges that reach further on the negative side, where it is false, see
`C23_absolute_max_iff` and `C23_absolute_max_exceeds`. -/
theorem C23_absolute_max_partial (s : SampleV ℝ) (hs : SampleRegular s) (hn : (partNames s).Nodup)
    (hz : Normalizable absoluteMax s)
    (t : Table) (ht : t.cols.columns.Perm ((labelParams s).map (·.1))) :
    ∃ a b, applyPreprocessing absoluteMax s (.frame t) = .ok (a, b) ∧
      ∀ n lo hi nm, (n, Param.range (.real lo) (.real hi) nm) ∈ labelParams s → -|hi| ≤ lo →
      ∃ col col', t.cols.get n = .ok col ∧ a.cols.get n = .ok col' ∧
        List.Forall₂ (fun x y => ∀ v : ℝ, x = some (v : ℂ) → lo ≤ v → v ≤ hi →
          ∃ w : ℝ, y = some (w : ℂ) ∧ -1 ≤ w ∧ w ≤ 1) col col' := by
  obtain ⟨a, b, h1, -, -, -, -, -, -, h2, -⟩ := C24_partition absoluteMax (Or.inr rfl) s hs hn hz t ht
  refine ⟨a, b, h1, ?_⟩
  intro n lo hi nm hq hb
  obtain ⟨col, hc, ha⟩ := h2 n _ _ nm hq
  refine ⟨col, _, hc, ha, ?_⟩
  have hlt : lo < hi := by
    have := labelParams_valid hs _ hq
    simpa [ParamValid, Num.ge] using this
  have h0 : hi ≠ 0 := by
    rintro rfl
    exact hz rfl n _ _ nm hq rfl
  rw [List.forall₂_map_right_iff, List.forall₂_same]
  intro x _ v hx h3 h4
  subst hx
  obtain ⟨w, hw, h5, h6⟩ := (C23_absolute_max_iff lo hi hlt h0).2 hb v h3 h4
  exact ⟨w, by rw [Option.map_some, hw], h5, h6⟩

/-! ### String identity -/

theorem normalizeLabels_nonliteral {norm : PyStr} (h : norm.literal = false) (ps : List (Param ℝ))
    (f : Frame Fl) : normalizeLabels norm ps f = .ok f := by
  unfold normalizeLabels
  have step : ∀ f p, normalizeStep norm f p = .ok f := by
    intro f p
    unfold normalizeStep PyStr.isLit
    rw [h]
    simp
  induction ps generalizing f with
  | nil => rfl
  | cons p ps ih => rw [List.foldlM_cons, step]; exact ih f

/-- C25 holds when the string object is the interned literal: every accepted literal causes
normalization. Missing: other string objects with the same value, where it is false, see
`C25_not_by_value`. -/
theorem C25_literal_partial (norm : PyStr) (hl : norm.literal = true) (hi : opInit norm = .ok norm)
    (s : SampleV ℝ) (hs : SampleRegular s) (hn : (partNames s).Nodup) (hz : Normalizable norm s) (t : Table)
    (ht : t.cols.columns.Perm ((labelParams s).map (·.1))) :
    ∃ a b, applyPreprocessing norm s (.frame t) = .ok (a, b) ∧
      ∀ n lo hi nm, (n, Param.range lo hi nm) ∈ labelParams s → ∃ col, t.cols.get n = .ok col ∧
        a.cols.get n = .ok (col.map (Option.map (normalized norm lo.toC hi.toC))) := by
  have h : norm = minToZero ∨ norm = absoluteMax := by
    unfold opInit at hi
    split_ifs at hi with hm
    obtain ⟨v, l⟩ := norm
    simp only at hl hm
    subst hl
    simp only [List.mem_cons, List.not_mem_nil, or_false] at hm
    rcases hm with rfl | rfl
    · exact Or.inl rfl
    · exact Or.inr rfl
  obtain ⟨a, b, h1, -, -, -, -, -, -, h2, -⟩ := C24_partition norm h s hs hn hz t ht
  exact ⟨a, b, h1, h2⟩

/-- C25 is false in general: for every string object with an accepted value that is not the interned
literal, the constructor accepts it but the labels come back without any normalization. -/
theorem C25_not_by_value (norm : PyStr) (hv : norm.val = minToZeroS ∨ norm.val = absoluteMaxS)
    (hl : norm.literal = false) (s : SampleV ℝ) (hs : SampleRegular s) (hn : (partNames s).Nodup)
    (t : Table) (ht : t.cols.columns.Perm ((labelParams s).map (·.1))) :
    opInit norm = .ok norm ∧
    ∃ a b, applyPreprocessing norm s (.frame t) = .ok (a, b) ∧
      ∀ n lo hi nm, (n, Param.range lo hi nm) ∈ labelParams s → a.cols.get n = t.cols.get n := by
  have hnd := labelParams_nodup hs hn
  refine ⟨by unfold opInit; rw [if_pos]; simpa using hv, ?_⟩
  obtain ⟨b, hb⟩ := select_ok (f := t.cols)
    (names := ((labelParams s).filter fun q => q.2.isConst).map (·.1)) (by
    intro k hk
    obtain ⟨q, hq, rfl⟩ := List.mem_map.1 hk
    exact get_ok_of_mem (ht.mem_iff.2 (List.mem_map.2 ⟨q, (List.mem_filter.1 hq).1, rfl⟩)))
  refine ⟨⟨t.rows, removeLabels ((labelParams s).map lparam) t.cols⟩, ⟨t.rows, b⟩, ?_, ?_⟩
  · unfold applyPreprocessing
    rw [labelNames_eq hs, allLabelParameters_eq hs]
    simp only [bind_ok, convertToDataframe]
    rw [normalizeLabels_nonliteral hl, const_names, hb]
    rfl
  · intro n lo hi nm hq
    simp only
    rw [removeLabels_eq, const_names]
    refine get_filter (f := t.cols) (k := n)
      (q := fun k => decide (k ∉ ((labelParams s).filter fun q => q.2.isConst).map (·.1))) ?_
    rw [decide_eq_true_eq, const_iff_of_mem hnd hq]
    simp [Param.isConst]

/-! ### A concrete sample -/

/-- One film layer on a substrate, the SLD of the film ranges from `lo` to `hi`. -/
noncomputable def prepSample (lo hi : ℝ) : SampleV ℝ where
  substrate := ⟨.substrate, "Si".toList, none, some (.const (.real 1) (some "roughness".toList)),
    some (.const (.real 20) (some "sld".toList))⟩
  ambient := ⟨.ambient, "air".toList, none, none, some (.const (.real 0) (some "sld".toList))⟩
  layers := [⟨.layer, "film".toList, some (.range (.real 10) (.real 20) (some "thickness".toList)),
    some (.const (.real 3) (some "roughness".toList)),
    some (.range (.real lo) (.real hi) (some "sld".toList))⟩]

theorem prepSample_regular {lo hi : ℝ} (h : lo < hi) : SampleRegular (prepSample lo hi) := by
  refine ⟨⟨rfl, rfl, ⟨_, rfl, ⟨rfl, trivial⟩, ?_⟩, ⟨_, rfl, rfl, trivial⟩⟩,
    ⟨rfl, rfl, rfl, ⟨_, rfl, rfl, trivial⟩⟩, ?_⟩
  · simp only [Param.min, Num.ltZero]; norm_num
  · intro l hl
    simp only [prepSample, List.mem_singleton] at hl
    subst hl
    refine ⟨Or.inl rfl, ⟨_, rfl, ⟨rfl, ?_⟩, ?_⟩, ⟨_, rfl, ⟨rfl, trivial⟩, ?_⟩, ⟨_, rfl, rfl, ?_⟩⟩
    · simp only [ParamValid, Num.ge]; norm_num
    · simp only [Param.min, Num.ltZero]; norm_num
    · simp only [Param.min, Num.ltZero]; norm_num
    · simp only [ParamValid, Num.ge]; simp [h]

theorem prepSample_names (lo hi : ℝ) : (partNames (prepSample lo hi)).Nodup := by
  show (["Si".toList, "film".toList, "air".toList]).Nodup
  decide

theorem prepSample_params (lo hi : ℝ) : labelParams (prepSample lo hi) =
    [("film_thickness".toList, .range (.real 10) (.real 20) (some "thickness".toList)),
     ("Si_roughness".toList, .const (.real 1) (some "roughness".toList)),
     ("film_roughness".toList, .const (.real 3) (some "roughness".toList)),
     ("Si_sld".toList, .const (.real 20) (some "sld".toList)),
     ("film_sld".toList, .range (.real lo) (.real hi) (some "sld".toList)),
     ("air_sld".toList, .const (.real 0) (some "sld".toList))] := rfl

/-- One row of labels for `prepSample`. -/
noncomputable def prepTable (x : ℝ) : Table :=
  ⟨1, [("film_thickness".toList, [some 15]), ("Si_roughness".toList, [some 1]),
    ("film_roughness".toList, [some 3]), ("Si_sld".toList, [some 20]),
    ("film_sld".toList, [some (x : ℂ)]), ("air_sld".toList, [some 0])]⟩

theorem prepTable_columns (lo hi x : ℝ) :
    (prepTable x).cols.columns = (labelParams (prepSample lo hi)).map (·.1) := rfl

theorem prepTable_isLabelTable (lo hi x : ℝ) : IsLabelTable (prepSample lo hi) (prepTable x) := by
  refine ⟨by rw [prepTable_columns lo hi], ?_, ?_, ?_⟩
  · intro c hc
    simp only [prepTable, List.mem_cons, List.not_mem_nil, or_false] at hc
    rcases hc with rfl | rfl | rfl | rfl | rfl | rfl <;> rfl
  · intro c hc
    simp only [prepTable, List.mem_cons, List.not_mem_nil, or_false] at hc
    rcases hc with rfl | rfl | rfl | rfl | rfl | rfl <;> simp
  · intro n v nm hq c hc hn y hy
    rw [prepSample_params] at hq
    simp only [prepTable, List.mem_cons, List.not_mem_nil, or_false] at hc
    simp only [List.mem_cons, List.not_mem_nil, or_false, Prod.mk.injEq, reduceCtorEq, and_false, false_or,
      Param.const.injEq] at hq
    have e : ∀ r : ℝ, (Num.real r).toC = (r : ℂ) := fun _ => rfl
    rcases hq with ⟨h1, rfl, -⟩ | ⟨h1, rfl, -⟩ | ⟨h1, rfl, -⟩ | ⟨h1, rfl, -⟩ <;>
      rcases hc with rfl | rfl | rfl | rfl | rfl | rfl <;>
      first
      | (dsimp only at hn; exact absurd (hn.trans h1) (by decide))
      | (simp only [List.mem_singleton] at hy; rw [hy, e]; norm_num)

/-- The hypotheses of `C22_round_trip_partial`, `C24_partition` and `C23_absolute_max_partial` hold for
this sample and table. -/
example : ∃ a b r, applyPreprocessing absoluteMax (prepSample (-1) 4) (.frame (prepTable 2)) = .ok (a, b) ∧
    restoreLabels absoluteMax (prepSample (-1) 4) (.frame a) = .ok r ∧ r.cols = (prepTable 2).cols := by
  obtain ⟨a, b, r, h1, h2, -, -, -, h6⟩ := C22_round_trip_partial absoluteMax (Or.inr rfl) (prepSample (-1) 4)
    (prepSample_regular (by norm_num)) (prepSample_names _ _) (by
      intro _ n lo hi nm hq
      rw [prepSample_params] at hq
      simp only [List.mem_cons, List.not_mem_nil, or_false, Prod.mk.injEq, reduceCtorEq, and_false, false_or,
        or_false, Param.range.injEq] at hq
      rcases hq with ⟨-, -, rfl, -⟩ | ⟨-, -, rfl, -⟩ <;> intro h <;>
        have := congrArg Complex.re h <;> norm_num [Num.toC] at this) (prepTable 2)
    (prepTable_isLabelTable _ _ _)
  exact ⟨a, b, r, h1, h2, (h6 (prepTable_columns _ _ _)).1⟩

theorem apply_film_sld (lo hi x : ℝ) (h : lo < hi) :
    ∃ a b, applyPreprocessing absoluteMax (prepSample lo hi) (.frame (prepTable x)) = .ok (a, b) ∧
      a.cols.get "film_sld".toList = .ok [Fl.div (some (x : ℂ)) (‖(hi : ℂ)‖ : ℝ)] := by
  have hl : absoluteMax = minToZero ∨ absoluteMax = absoluteMax := Or.inr rfl
  have hs := prepSample_regular h
  have hrem : removeLabels ((labelParams (prepSample lo hi)).map lparam) (prepTable x).cols =
      [("film_thickness".toList, [some 15]), ("film_sld".toList, [some (x : ℂ)])] := by
    rw [removeLabels_eq, const_names, prepSample_params]
    rfl
  have hund : ((usedLabels ((labelParams (prepSample lo hi)).map lparam)).map pname).Nodup := by
    rw [used_names]
    exact (labelParams_nodup hs (prepSample_names _ _)).sublist (List.filter_sublist.map _)
  obtain ⟨f', h1, -, h3, -⟩ := foldlM_update (upd := normUpd absoluteMax) (nm := pname)
    (ps := usedLabels ((labelParams (prepSample lo hi)).map lparam))
    (f := removeLabels ((labelParams (prepSample lo hi)).map lparam) (prepTable x).cols) hund (by
      intro p hp
      have : pname p ∈ (usedLabels ((labelParams (prepSample lo hi)).map lparam)).map pname :=
        List.mem_map.2 ⟨p, hp, rfl⟩
      rw [used_names] at this
      rw [hrem]
      exact this)
  obtain ⟨b, hb⟩ := select_ok (f := (prepTable x).cols)
    (names := ((labelParams (prepSample lo hi)).filter fun q => q.2.isConst).map (·.1)) (by
    intro k hk
    refine get_ok_of_mem ?_
    rw [prepTable_columns lo hi]
    obtain ⟨q, hq, rfl⟩ := List.mem_map.1 hk
    exact List.mem_map.2 ⟨q, (List.mem_filter.1 hq).1, rfl⟩)
  refine ⟨⟨1, f'⟩, ⟨1, b⟩, ?_, ?_⟩
  · unfold applyPreprocessing
    rw [labelNames_eq hs, allLabelParameters_eq hs]
    simp only [bind_ok, convertToDataframe]
    rw [normalizeLabels_eq hl, h1, const_names, hb]
    rfl
  · have := h3 (lparam ("film_sld".toList, .range (.real lo) (.real hi) (some "sld".toList)))
      (List.mem_filter.2 ⟨List.mem_map.2 ⟨_, by rw [prepSample_params]; simp, rfl⟩, rfl⟩)
      [some (x : ℂ)] (by rw [hrem]; rfl)
    exact this

/-- C22 is false for `absolute_max` with an upper limit of zero: the normalized label is not finite. -/
theorem C22_absolute_max_zero :
    ∃ a b, applyPreprocessing absoluteMax (prepSample (-5) 0) (.frame (prepTable (-2))) = .ok (a, b) ∧
      a.cols.get "film_sld".toList = .ok [none] := by
  obtain ⟨a, b, h1, h2⟩ := apply_film_sld (-5) 0 (-2) (by norm_num)
  refine ⟨a, b, h1, h2.trans ?_⟩
  simp [Fl.div]

/-- C23 is false for `absolute_max` in general: an SLD of `-5` in the range `[-5, 1]` is normalized to
`-5`. -/
theorem C23_absolute_max_exceeds :
    ∃ a b, applyPreprocessing absoluteMax (prepSample (-5) 1) (.frame (prepTable (-5))) = .ok (a, b) ∧
      a.cols.get "film_sld".toList = .ok [some (-5)] := by
  obtain ⟨a, b, h1, h2⟩ := apply_film_sld (-5) 1 (-5) (by norm_num)
  refine ⟨a, b, h1, h2.trans ?_⟩
  simp [Fl.div]

end Verif.Props
