import Verif.Model.ScanSeries
import Verif.Props.CurveFitter
import Verif.Props.Polish
import Verif.Props.P08
import Verif.Props.FitterCases

/-!
# C94: series of scans
-/

namespace Verif.Props
open Verif.Py Verif.Model

/-- The event is a call of `append`. -/
def SeriesEvent.isAppend : SeriesEvent → Prop
  | .append _ => True
  | _ => False

/-- The scans appended by a trace, in order. -/
def appendedScans : List SeriesEvent → List Scan
  | [] => []
  | .append (.scan s) :: es => s :: appendedScans es
  | _ :: es => appendedScans es

/-- C94, content: after any sequence of `append` calls, also ones that raise, the series holds exactly the appended scans in their
order. -/
theorem C94_append (es : List SeriesEvent) (h : ∀ e ∈ es, SeriesEvent.isAppend e) :
    seriesRun [] es = (appendedScans es).map SeriesItem.scan := by
  have key : ∀ (es : List SeriesEvent) (l : List SeriesItem), (∀ e ∈ es, SeriesEvent.isAppend e) →
      seriesRun l es = l ++ (appendedScans es).map SeriesItem.scan := by
    intro es
    induction es with
    | nil => intro l _; simp [seriesRun, appendedScans]
    | cons e es ih =>
      intro l h
      have he := h e (by simp)
      have ih := ih (seriesStep l e) fun x hx => h x (by simp [hx])
      show seriesRun (seriesStep l e) es = _
      rw [ih]
      cases e with
      | append x =>
        cases x with
        | scan s => simp [seriesStep, seriesCall, seriesAppend, appendedScans]
        | foreign => simp [seriesStep, seriesCall, seriesAppend, appendedScans]
      | extend _ => exact he.elim
      | insert _ _ => exact he.elim
      | setItem _ _ => exact he.elim
      | delete _ => exact he.elim
  simpa using key es [] h

/-- C94, type check: `append` accepts exactly scans. -/
theorem C94_check (l : List SeriesItem) (x : SeriesItem) :
    (x = .foreign → seriesAppend l x = .error .typeError) ∧ ∀ s, x = .scan s → seriesAppend l x = .ok (l ++ [.scan s]) := by
  refine ⟨?_, ?_⟩
  · rintro rfl; rfl
  · rintro s rfl; rfl

/-- C94, order: deleting and replacing act on the addressed scan alone, with negative numbers counted from the end, and raise an
`IndexError` for other numbers; inserting keeps the other scans in their order. -/
theorem C94_positions (l : List SeriesItem) (i : Int) (x : SeriesItem) :
    (∀ k : Nat, k < l.length → (i = k ∨ i = (k : Int) - l.length) →
      seriesCall l (.delete i) = .ok (l.take k ++ l.drop (k + 1)) ∧
      seriesCall l (.setItem i x) = .ok (l.take k ++ x :: l.drop (k + 1))) ∧
    (¬ (-(l.length : Int) ≤ i ∧ i < l.length) →
      seriesCall l (.delete i) = .error .indexError ∧ seriesCall l (.setItem i x) = .error .indexError) ∧
    ∃ k ≤ l.length, seriesCall l (.insert i x) = .ok (l.take k ++ x :: l.drop k) ∧
      ((k : Int) = i ∨ (k : Int) = i + l.length ∧ i < 0 ∨ k = l.length ∧ (l.length : Int) < i ∨ k = 0 ∧ i < -l.length) := by
  refine ⟨fun k hk hi => ?_, fun h => ?_, insertPos l.length i, ?_, ?_, ?_⟩
  · have hn : normIdx l.length i = some k := normIdx_eq_some_iff.2 ⟨hk, by omega⟩
    constructor
    · show delItem l i = _
      unfold delItem
      rw [hn]
      simp only [List.eraseIdx_eq_take_drop_succ]
    · show Verif.Py.setItem l i x = _
      unfold Verif.Py.setItem
      rw [hn]
      simp only [List.set_eq_take_append_cons_drop, if_pos hk]
  · have hn : normIdx l.length i = none := by
      rw [← Option.not_isSome_iff_eq_none, normIdx_isSome]
      exact h
    constructor
    · show delItem l i = _
      unfold delItem
      rw [hn]
    · show Verif.Py.setItem l i x = _
      unfold Verif.Py.setItem
      rw [hn]
  · unfold insertPos
    split <;> omega
  · have hle : insertPos l.length i ≤ l.length := by
      unfold insertPos
      split <;> omega
    show Except.ok (l.insertIdx (insertPos l.length i) x) = _
    generalize insertPos l.length i = k at hle
    congr 1
    clear i
    induction l generalizing k with
    | nil =>
      have : k = 0 := by simpa using hle
      subst this
      rfl
    | cons a l ih =>
      cases k with
      | zero => rfl
      | succ k =>
        simp only [List.insertIdx_succ_cons, List.take_succ_cons, List.drop_succ_cons, List.cons_append, List.cons.injEq, true_and]
        exact ih k (by simpa using hle)
  · unfold insertPos
    split <;> omega

/-- C94 is false for the other methods of a list: each of them can put a foreign object into the series, after which `stats` and
`to_array` raise. -/
theorem C94_foreign (s : Scan) : ∀ e ∈ [SeriesEvent.extend [.foreign], .insert 0 .foreign, .setItem 0 .foreign],
    SeriesItem.foreign ∈ seriesRun [.scan s] [e] ∧ ∃ e1 e2, seriesStats (seriesRun [.scan s] [e]) = .error e1 ∧
      seriesArray (seriesRun [.scan s] [e]) = .error e2 := by
  have hm : ∀ l : List SeriesItem, SeriesItem.foreign ∈ l → ∃ e1 e2, seriesStats l = .error e1 ∧ seriesArray l = .error e2 := by
    intro l hl
    have aux : ∀ {β : Type} (f : SeriesItem → Res β) (e : PyErr), f .foreign = .error e → ∃ e', l.mapM f = .error e' := by
      intro β f e hf
      cases h : l.mapM f with
      | error e' => exact ⟨e', rfl⟩
      | ok r =>
        obtain ⟨y, hy⟩ : ∃ y, f .foreign = .ok y := by
          have h2 := mapM_ok_iff.1 h
          clear h
          induction h2 with
          | nil => simp at hl
          | @cons a b _ _ hab _ ih =>
            rcases List.mem_cons.1 hl with rfl | hl
            · exact ⟨b, hab⟩
            · exact ih hl
        rw [hf] at hy
        cases hy
    obtain ⟨e1, h1⟩ := aux itemStats _ rfl
    obtain ⟨e2, h2⟩ := aux itemIntensity _ rfl
    refine ⟨e1, e2, ?_, ?_⟩
    · unfold seriesStats; rw [h1]; rfl
    · unfold seriesArray; rw [h2]; rfl
  intro e he
  simp only [List.mem_cons, List.not_mem_nil, or_false] at he
  rcases he with rfl | rfl | rfl
  · have : SeriesItem.foreign ∈ seriesRun [.scan s] [.extend [.foreign]] := by simp [seriesRun, seriesStep, seriesCall]
    exact ⟨this, hm _ this⟩
  · have : SeriesItem.foreign ∈ seriesRun [.scan s] [.insert 0 .foreign] := by
      show SeriesItem.foreign ∈ [SeriesItem.foreign, .scan s]
      simp
    exact ⟨this, hm _ this⟩
  · have : SeriesItem.foreign ∈ seriesRun [.scan s] [.setItem 0 .foreign] := by
      show SeriesItem.foreign ∈ [SeriesItem.foreign]
      simp
    exact ⟨this, hm _ this⟩

/-- `lo` and `hi` are the smallest and the largest entry of `l`. -/
def IsRange (l : List ℝ) (lo hi : ℝ) : Prop := lo ∈ l ∧ hi ∈ l ∧ ∀ x ∈ l, lo ≤ x ∧ x ≤ hi

theorem npMin_spec {l : List ℝ} (h : l ≠ []) : ∃ m, npMin l = .ok m ∧ m ∈ l ∧ ∀ v ∈ l, m ≤ v := by
  have key : ∀ (l : List ℝ) (a : ℝ), (∀ v ∈ a :: l, l.foldl min a ≤ v) ∧ l.foldl min a ∈ a :: l := by
    intro l
    induction l with
    | nil => intro a; simp
    | cons b l ih =>
      intro a
      obtain ⟨h1, h2⟩ := ih (min a b)
      have h0 := h1 (min a b) (by simp)
      refine ⟨?_, ?_⟩
      · intro v hv
        simp only [List.foldl_cons]
        rcases List.mem_cons.1 hv with rfl | hv
        · exact h0.trans (min_le_left _ _)
        · rcases List.mem_cons.1 hv with rfl | hv
          · exact h0.trans (min_le_right _ _)
          · exact h1 v (by simp [hv])
      · simp only [List.foldl_cons]
        rcases List.mem_cons.1 h2 with h | h
        · rw [h]
          rcases min_choice a b with h' | h' <;> rw [h'] <;> simp
        · simp [h]
  cases l with
  | nil => exact (h rfl).elim
  | cons a l => exact ⟨_, rfl, (key l a).2, (key l a).1⟩

theorem scan_q_length {s : Scan} {q : List ℝ} (h : s.q = .ok q) : q.length = s.angle.length := by
  unfold Scan.q angleToQ at h
  split at h
  · cases h
  · cases h
    simp

/-- C94, statistics: one entry per scan, in the order of the series: the number of points, and the smallest and the largest q value. -/
theorem C94_stats (scans : List Scan) (n : List Nat) (lo hi : List ℝ) (h : seriesStats (scans.map SeriesItem.scan) = .ok (n, lo, hi)) :
    n.length = scans.length ∧ lo.length = scans.length ∧ hi.length = scans.length ∧
    ∀ (i : Nat) s, scans[i]? = some s → ∃ q a b, n[i]? = some s.angle.length ∧ s.q = .ok q ∧ q.length = s.angle.length ∧
      lo[i]? = some a ∧ hi[i]? = some b ∧ IsRange q a b := by
  unfold seriesStats at h
  obtain ⟨r, hr, h⟩ := bind_eq_ok.1 h
  cases h
  have hf := mapM_ok_iff.1 hr
  rw [List.forall₂_map_left_iff] at hf
  have hlen := hf.length_eq
  refine ⟨by simp [hlen], by simp [hlen], by simp [hlen], ?_⟩
  intro i s hi
  obtain ⟨hil, rfl⟩ := List.getElem?_eq_some_iff.1 hi
  have hri : i < r.length := hlen ▸ hil
  have hi' := (List.forall₂_iff_get.1 hf).2 i hil hri
  obtain ⟨q, hq, h1⟩ := bind_eq_ok.1 hi'
  obtain ⟨a, ha, h2⟩ := bind_eq_ok.1 h1
  obtain ⟨b, hb, h3⟩ := bind_eq_ok.1 h2
  have h3 := Except.ok.inj h3
  have hql := scan_q_length hq
  have hne : q ≠ [] := by rintro rfl; cases ha
  obtain ⟨a', e1, m1, k1⟩ := npMin_spec hne
  obtain ⟨b', e2, m2, k2⟩ := npMax_spec hne
  rw [e1] at ha
  rw [e2] at hb
  cases ha
  cases hb
  have hg : r[i] = (scans[i].angle.length, a, b) := h3.symm
  refine ⟨q, a, b, ?_, hq, hql, ?_, ?_, m1, m2, fun x hx => ⟨k1 x hx, k2 x hx⟩⟩
  all_goals simp [List.getElem?_eq_getElem hri, hg]

/-- C94: the statistics exist exactly if every scan has points and a wavelength that is not zero. -/
theorem C94_stats_exists (scans : List Scan) :
    (∃ r, seriesStats (scans.map SeriesItem.scan) = .ok r) ↔ ∀ s ∈ scans, s.angle ≠ [] ∧ s.wavelength ≠ 0 := by
  have key : ∀ s : Scan, (∃ y, itemStats (.scan s) = .ok y) ↔ s.angle ≠ [] ∧ s.wavelength ≠ 0 := by
    intro s
    constructor
    · rintro ⟨y, hy⟩
      obtain ⟨q, hq, h1⟩ := bind_eq_ok.1 hy
      obtain ⟨a, ha, -⟩ := bind_eq_ok.1 h1
      refine ⟨?_, ?_⟩
      · intro h0
        have := scan_q_length hq
        rw [h0] at this
        rw [List.length_eq_zero_iff.1 this] at ha
        cases ha
      · intro h0
        unfold Scan.q angleToQ at hq
        rw [if_pos h0] at hq
        cases hq
    · rintro ⟨h1, h2⟩
      have hq : ∃ q, s.q = .ok q := by
        unfold Scan.q angleToQ
        rw [if_neg h2]
        exact ⟨_, rfl⟩
      obtain ⟨q, hq⟩ := hq
      have hne : q ≠ [] := by
        rintro rfl
        exact h1 (List.length_eq_zero_iff.1 (scan_q_length hq).symm)
      obtain ⟨a, ha, -⟩ := npMin_spec hne
      obtain ⟨b, hb, -⟩ := npMax_spec hne
      refine ⟨(s.angle.length, a, b), ?_⟩
      simp only [itemStats, hq, bind_ok, ha, hb]
      rfl
  constructor
  · rintro ⟨x, hx⟩
    unfold seriesStats at hx
    obtain ⟨r, hr, -⟩ := bind_eq_ok.1 hx
    have hf := mapM_ok_iff.1 hr
    rw [List.forall₂_map_left_iff] at hf
    intro s hs
    obtain ⟨y, -, hy⟩ := forall₂_mem_left hf s hs
    exact (key s).1 ⟨y, hy⟩
  · intro h
    obtain ⟨r, hr, -⟩ := mapM_exists (l := scans.map SeriesItem.scan) (f := itemStats) (R := fun _ _ => True) (by
      intro x hx
      obtain ⟨s, hs, rfl⟩ := List.mem_map.1 hx
      obtain ⟨y, hy⟩ := (key s).2 (h s hs)
      exact ⟨y, hy, trivial⟩)
    exact ⟨_, by unfold seriesStats; rw [hr]; rfl⟩

/-- C94, array: for a series whose corrected intensities exist and have the same length, row `i` of the array is the corrected
intensity of scan `i`. -/
theorem C94_array (scans : List Scan) (r : RowArray) (h : seriesArray (scans.map SeriesItem.scan) = .ok r) :
    ∃ rows, scans.mapM Scan.correctedIntensity = .ok rows ∧
      ((∃ w, ∀ c ∈ rows, c.length = w) → rows ≠ [] → ∃ w, r = .matrix w rows ∧ ∀ c ∈ rows, c.length = w) ∧
      (¬ (∃ w, ∀ c ∈ rows, c.length = w) → r = .objects rows) ∧ (rows = [] → r = .empty) := by
  unfold seriesArray at h
  obtain ⟨rows, hr, h⟩ := bind_eq_ok.1 h
  have h := Except.ok.inj h
  subst h
  have hr' : scans.mapM Scan.correctedIntensity = .ok rows := by
    rw [mapM_ok_iff] at hr ⊢
    rw [List.forall₂_map_left_iff] at hr
    exact hr
  refine ⟨rows, hr', ?_, ?_, ?_⟩
  · rintro ⟨w, hw⟩ hne
    cases rows with
    | nil => exact (hne rfl).elim
    | cons a l =>
      have ha := hw a (by simp)
      refine ⟨a.length, ?_, fun c hc => (hw c hc).trans ha.symm⟩
      refine if_pos ?_
      simp only [List.all_eq_true, decide_eq_true_eq]
      intro x hx
      exact (hw x (by simp [hx])).trans ha.symm
  · intro hn
    cases rows with
    | nil => exact (hn ⟨0, by simp⟩).elim
    | cons a l =>
      refine if_neg ?_
      intro hall
      simp only [List.all_eq_true, decide_eq_true_eq] at hall
      refine hn ⟨a.length, ?_⟩
      intro c hc
      rcases List.mem_cons.1 hc with rfl | hc
      · rfl
      · exact hall c hc
  · rintro rfl
    rfl

/-! ### A concrete series -/

/-- A scan of two points without footprint correction and normalization. -/
def plainScan (raw : List ℝ) : Scan :=
  { number := 1, timestamp := none, angle := [1, 2], raw := raw, wavelength := 1, beamWidth := none, sampleLength := none,
    beamShape := none, normalizeTo := none }

theorem plainScan_intensity (raw : List ℝ) : (plainScan raw).correctedIntensity = .ok raw := by
  simp only [Scan.correctedIntensity, Scan.correctFootprint, Scan.normalize, plainScan]

/-- The hypotheses of C94 are satisfiable: two scans make a matrix of their intensities and have statistics. -/
example : (∃ r, seriesStats ([plainScan [3, 4], plainScan [5, 6]].map SeriesItem.scan) = .ok r) ∧
    seriesArray ([plainScan [3, 4], plainScan [5, 6]].map SeriesItem.scan) = .ok (.matrix 2 [[3, 4], [5, 6]]) ∧
    seriesArray ([plainScan [3, 4], plainScan [5]].map SeriesItem.scan) = .ok (.objects [[3, 4], [5]]) ∧
    seriesRun [] [.append (.scan (plainScan [3])), .append .foreign] = [.scan (plainScan [3])] := by
  have h : ∀ a b : List ℝ, seriesArray ([plainScan a, plainScan b].map SeriesItem.scan) = .ok (rowArray [a, b]) := by
    intro a b
    simp only [seriesArray, List.map_cons, List.map_nil, mapM_cons, itemIntensity, plainScan_intensity, bind_ok]
    rfl
  refine ⟨(C94_stats_exists _).2 ?_, by rw [h]; rfl, by rw [h]; rfl, rfl⟩
  intro s hs
  simp only [List.mem_cons, List.not_mem_nil, or_false] at hs
  rcases hs with rfl | rfl <;> simp [plainScan]

/-- The first failing item of a list decides the error. -/
theorem mapM_first_error {α β : Type} {f : α → Res β} {a : α} {e : PyErr} (he : f a = .error e) (post : List α) :
    ∀ pre : List α, (∀ x ∈ pre, ∃ y, f x = .ok y) → (pre ++ a :: post).mapM f = .error e
  | [], _ => by rw [List.nil_append, mapM_cons, he]; rfl
  | x :: pre, h => by
    obtain ⟨y, hy⟩ := h x (List.mem_cons_self ..)
    rw [List.cons_append, mapM_cons, hy, bind_ok, mapM_first_error he post pre fun z hz => h z (List.mem_cons_of_mem _ hz)]
    rfl

/-- **C94** (foreign objects): a foreign object in a series makes `stats` raise `TypeError` and `to_array` `AttributeError` unless an
earlier scan raises. -/
theorem C94_foreign_error (pre : List Scan) (post : List SeriesItem) :
    ((∃ r, seriesStats (pre.map SeriesItem.scan) = .ok r) →
      seriesStats (pre.map SeriesItem.scan ++ .foreign :: post) = .error .typeError) ∧
    ((∃ r, seriesArray (pre.map SeriesItem.scan) = .ok r) →
      seriesArray (pre.map SeriesItem.scan ++ .foreign :: post) = .error .attributeError) := by
  have aux : ∀ {β : Type} (f : SeriesItem → Res β) (l : List SeriesItem) (r : List β), l.mapM f = .ok r → ∀ x ∈ l, ∃ y, f x = .ok y := by
    intro β f l r h x hx
    have hf := mapM_ok_iff.1 h
    clear h
    induction hf with
    | nil => cases hx
    | cons h1 _ ih => rcases List.mem_cons.1 hx with rfl | hx
                      · exact ⟨_, h1⟩
                      · exact ih hx
  refine ⟨?_, ?_⟩
  · rintro ⟨r, hr⟩
    obtain ⟨rows, h, -⟩ := bind_eq_ok.1 hr
    unfold seriesStats
    rw [mapM_first_error (f := itemStats) (e := .typeError) rfl post _ (aux _ _ _ h)]
    rfl
  · rintro ⟨r, hr⟩
    obtain ⟨rows, h, -⟩ := bind_eq_ok.1 hr
    unfold seriesArray
    rw [mapM_first_error (f := itemIntensity) (e := .attributeError) rfl post _ (aux _ _ _ h)]
    rfl

/-- The hypotheses hold for the series that starts with a foreign object. -/
example : (∃ r, seriesStats (([] : List Scan).map SeriesItem.scan) = .ok r) ∧ ∃ r, seriesArray (([] : List Scan).map SeriesItem.scan) = .ok r :=
  ⟨⟨_, rfl⟩, ⟨_, rfl⟩⟩

end Verif.Props
