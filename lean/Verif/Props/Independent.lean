import Verif.Props.Refine
import Verif.Props.Trainer
import Verif.Props.CurveFitterCases

/-!
# C110: curves are fitted independently of each other
-/

namespace Verif.Props
open Verif.Py Verif.Model Verif.Spec Verif.Model.FitEnv

/-! ### The claim -/

/-- The network computes every row of its output from the same row of its input. -/
def RowNet (env : FitEnv) : Prop :=
  ∃ (m : Nat) (N : List ℝ → Nat → Fl), ∀ x, env.net x = .ok (.array x.length ((List.range m).map fun (k : Nat) => x.map fun (r : List ℝ) => N r k))

/-- A table with the labels of the sample as columns, each with one value per row. -/
def LabelShape (s : SampleV ℝ) (t : Table) : Prop :=
  t.cols.columns = (labelParams s).map Prod.fst ∧ ∀ c ∈ t.cols, c.2.length = t.rows

/-- The simulation computes every curve from one row of the labels. -/
def RowSim (env : FitEnv) : Prop :=
  ∃ S : List ℝ → Table → Res (List (Option ℝ)), ∀ q t r, LabelShape env.sample t →
    (env.simulate q t = .ok r ↔ ((List.range t.rows).mapM fun (i : Nat) => S q (t.row i)) = .ok r)

/-- The part of an output that belongs to curve `i`. -/
def onlyCurve (out : Output) (i : Nat) : Output :=
  ⟨out.params.row i, out.refl.map fun (r : List (List (Option ℝ))) => (r[i]?).toList, out.bestShift.map fun (l : List ℝ) => (l[i]?).toList,
    out.bestScaling.map fun (l : List ℝ) => (l[i]?).toList⟩

/-! ### Rows of predictions -/

theorem RowNet.shape {env : FitEnv} (h : RowNet env) : NetShape env := by
  obtain ⟨m, N, h⟩ := h
  intro x y hy
  rw [h x] at hy
  cases hy
  refine ⟨_, rfl, fun c hc => ?_⟩
  obtain ⟨k, -, rfl⟩ := List.mem_map.1 hc
  simp

theorem mapM_all {α β : Type} {f : α → Res β} {l : List α} (h : ∀ a ∈ l, ∃ b, f a = .ok b) : ∃ r, l.mapM f = .ok r := by
  induction l with
  | nil => exact ⟨[], rfl⟩
  | cons a l ih =>
    obtain ⟨b, hb⟩ := h a (by simp)
    obtain ⟨r, hr⟩ := ih fun x hx => h x (by simp [hx])
    exact ⟨b :: r, by rw [mapM_cons, hb, bind_ok, hr]; rfl⟩

theorem drop_take_one {α : Type} {l : List α} {i : Nat} {a : α} (h : l[i]? = some a) : (l.drop i).take 1 = [a] := by
  obtain ⟨hi, rfl⟩ := List.getElem?_eq_some_iff.1 h
  rw [List.drop_eq_getElem_cons hi]
  rfl

theorem restore_row {s : SampleV ℝ} (hs : SampleRegular s) (hn : (partNames s).Nodup) {n : Nat} {cols : List (List Fl)} {i : Nat} (hi : i < n)
    {t : Table} (h : restoreLabels fitNorm s (.array n cols) = .ok t) :
    restoreLabels fitNorm s (.array 1 (cols.map fun (c : List Fl) => (c.drop i).take 1)) = .ok (t.row i) ∧
      t.cols.columns = (labelParams s).map Prod.fst := by
  have hnd := labelParams_nodup hs hn
  have hl : cols.length = ((labelParams s).filter fun q => !q.2.isConst).length := by
    have h' := h
    unfold restoreLabels at h'
    rw [allLabelParameters_eq hs] at h'
    simp only [bind_ok, used_names, convertToDataframe] at h'
    by_contra hne
    rw [if_neg (by simpa using hne)] at h'
    cases h'
  rw [restore_array hs hl] at h
  rw [restore_array hs (by rw [List.length_map]; exact hl)]
  have hmem : ∀ (cs : List (List Fl)), cs.length = cols.length → ∀ q ∈ labelParams s, q.2.isConst = false → q.1 ∈
      Frame.columns ((((labelParams s).filter fun q => !q.2.isConst).map (·.1)).zip cs) := by
    intro cs hcs q hq hc
    simp only [Frame.columns]
    rw [List.map_fst_zip (by rw [List.length_map, hcs, hl])]
    exact List.mem_map.2 ⟨q, List.mem_filter.2 ⟨hq, by simp [hc]⟩, rfl⟩
  obtain ⟨a, a1, a2, a3, a4, a5⟩ := restore_spec (norm := fitNorm) (Or.inl rfl) hs hn
    (t := ⟨n, (((labelParams s).filter fun q => !q.2.isConst).map (·.1)).zip cols⟩) (hmem cols rfl)
  obtain ⟨b, b1, b2, b3, b4, b5⟩ := restore_spec (norm := fitNorm) (Or.inl rfl) hs hn
    (t := ⟨1, (((labelParams s).filter fun q => !q.2.isConst).map (·.1)).zip (cols.map fun (c : List Fl) => (c.drop i).take 1)⟩)
    (hmem _ (by simp))
  rw [h] at a1
  cases a1
  rw [b1]
  refine ⟨?_, a3⟩
  have hrowget : ∀ k, (t.row i).cols.get k = (t.cols.get k).map fun (c : List Fl) => (c.drop i).take 1 := fun k =>
    get_map_val (fun (c : List Fl) => (c.drop i).take 1) t.cols k
  have hcols : b.cols = (t.row i).cols := by
    refine frame_ext ?_ (by rw [b3]; exact hnd) ?_
    · rw [b3, ← a3]
      simp [Table.row, Frame.columns, List.map_map, Function.comp_def]
    · intro k hk
      rw [b3] at hk
      obtain ⟨⟨k, p⟩, hp, rfl⟩ := List.mem_map.1 hk
      rw [hrowget]
      cases p with
      | const v nm =>
        rw [b5 k v nm hp, a5 k v nm hp]
        show _ = Except.ok ((List.drop i (List.replicate n (some v.toC))).take 1)
        rw [drop_take_one (a := some v.toC) (by rw [List.getElem?_replicate, if_pos hi])]
        rfl
      | range lo hi' nm =>
        obtain ⟨col, hcol⟩ := get_ok_of_mem (hmem cols rfl _ hp rfl)
        have hcol' : Frame.get ((((labelParams s).filter fun q => !q.2.isConst).map (·.1)).zip
            (cols.map fun (c : List Fl) => (c.drop i).take 1)) k = .ok ((col.drop i).take 1) := by
          rw [List.zip_map_right]
          have := get_map_val (fun (c : List Fl) => (c.drop i).take 1) ((((labelParams s).filter fun q => !q.2.isConst).map (·.1)).zip cols) k
          simp only at hcol
          rw [hcol] at this
          exact this
        rw [b4 _ hp rfl _ hcol', a4 _ hp rfl _ hcol]
        show _ = Except.ok _
        congr 1
        unfold renormUpd
        split_ifs <;> simp [List.map_drop, List.map_take]
  have hr : b.rows = (t.row i).rows := by
    rw [b2]
    simp only [Table.row]
    rw [if_pos (by rw [a2]; exact hi)]
  obtain ⟨br, bc⟩ := b
  simp only at hr hcols
  rw [hr, hcols]

theorem standardize_row {env : FitEnv} {rows x : List (List ℝ)} (h : env.standardize rows = .ok x) {i : Nat} {r : List ℝ}
    (hr : rows[i]? = some r) : ∃ y, x[i]? = some y ∧ env.standardize [r] = .ok [y] := by
  unfold FitEnv.standardize at h ⊢
  obtain ⟨c, h1, h2⟩ := bind_eq_ok.1 h
  have key : ∀ {op : ℝ → ℝ → ℝ} {v : List ℝ} {a b : List (List ℝ)} (_ : bcastRows op a v = .ok b) {z : List ℝ}, a[i]? = some z →
      ∃ y, b[i]? = some y ∧ bcastRows op [z] v = .ok [y] := by
    intro op v a b hb z hz
    unfold bcastRows at hb ⊢
    obtain ⟨hi, rfl⟩ := List.getElem?_eq_some_iff.1 hz
    have hlen := mapM_length hb
    have := (List.forall₂_iff_get.1 (mapM_ok_iff.1 hb)).2 i hi (by omega)
    simp only [List.get_eq_getElem] at this
    exact ⟨_, List.getElem?_eq_getElem (by omega), by rw [mapM_cons, this]; rfl⟩
  obtain ⟨y, e1, e2⟩ := key h1 hr
  obtain ⟨z, e3, e4⟩ := key h2 e1
  exact ⟨z, e3, by rw [e2, bind_ok, e4]⟩

theorem predict_row {env : FitEnv} (hs : SampleRegular env.sample) (hn : (partNames env.sample).Nodup) (hnet : RowNet env)
    {rows : List (List ℝ)} {t : Table} (h : env.predict rows = .ok t) {i : Nat} {r : List ℝ} (hr : rows[i]? = some r) :
    env.predict [r] = .ok (t.row i) := by
  have hrl := predict_rows hnet.shape h
  obtain ⟨x, y, u, h1, h2, h3, rfl⟩ := predict_ok h
  obtain ⟨m, N, hN⟩ := hnet
  obtain ⟨z, z1, z2⟩ := standardize_row h1 hr
  rw [hN x] at h2
  cases h2
  have hi : i < x.length := (List.getElem?_eq_some_iff.1 z1).1
  obtain ⟨e1, -⟩ := restore_row hs hn hi h3
  unfold FitEnv.predict
  rw [z2, bind_ok, hN, bind_ok]
  have : (List.map (fun (k : Nat) => List.map (fun (r : List ℝ) => N r k) [z]) (List.range m)) =
      (List.map (fun (k : Nat) => List.map (fun (r : List ℝ) => N r k) x) (List.range m)).map fun (c : List Fl) => (c.drop i).take 1 := by
    rw [List.map_map]
    refine List.map_congr_left fun k _ => ?_
    show _ = List.take 1 (List.drop i (List.map (fun (r : List ℝ) => N r k) x))
    rw [drop_take_one (a := N z k) (by rw [List.getElem?_map, z1]; rfl)]
    rfl
  rw [this]
  show ((restoreLabels fitNorm env.sample (.array 1 _)) >>= _) = _
  rw [e1, bind_ok, ensurePositive_row]
  rfl

theorem restore_columns {s : SampleV ℝ} (hs : SampleRegular s) (hn : (partNames s).Nodup) {n : Nat} {cols : List (List Fl)}
    {t : Table} (h : restoreLabels fitNorm s (.array n cols) = .ok t) : t.cols.columns = (labelParams s).map Prod.fst := by
  have hl : cols.length = ((labelParams s).filter fun q => !q.2.isConst).length := by
    have h' := h
    unfold restoreLabels at h'
    rw [allLabelParameters_eq hs] at h'
    simp only [bind_ok, used_names, convertToDataframe] at h'
    by_contra hne
    rw [if_neg (by simpa using hne)] at h'
    cases h'
  rw [restore_array hs hl] at h
  obtain ⟨a, a1, a2, a3, a4, a5⟩ := restore_spec (norm := fitNorm) (Or.inl rfl) hs hn
    (t := ⟨n, (((labelParams s).filter fun q => !q.2.isConst).map (·.1)).zip cols⟩) (by
      intro q hq hc
      simp only [Frame.columns]
      rw [List.map_fst_zip (by rw [List.length_map, hl])]
      exact List.mem_map.2 ⟨q, List.mem_filter.2 ⟨hq, by simp [hc]⟩, rfl⟩)
  rw [h] at a1
  cases a1
  exact a3

theorem ensurePositive_columns (t : Table) : (ensurePositive t).cols.columns = t.cols.columns := by
  simp only [ensurePositive, Frame.columns, List.map_map]
  refine List.map_congr_left fun c _ => ?_
  simp only [Function.comp]
  split_ifs <;> rfl

theorem row_columns (t : Table) (i : Nat) : (t.row i).cols.columns = t.cols.columns := by
  simp [Table.row, Frame.columns, List.map_map, Function.comp_def]

theorem predict_columns {env : FitEnv} (hs : SampleRegular env.sample) (hn : (partNames env.sample).Nodup) (hnet : RowNet env)
    {rows : List (List ℝ)} {t : Table} (h : env.predict rows = .ok t) :
    t.cols.columns = (labelParams env.sample).map Prod.fst := by
  obtain ⟨x, y, u, h1, h2, h3, rfl⟩ := predict_ok h
  obtain ⟨m, N, hN⟩ := hnet
  rw [hN x] at h2
  cases h2
  rw [ensurePositive_columns, restore_columns hs hn h3]

theorem predict_all {env : FitEnv} (hs : SampleRegular env.sample) (hn : (partNames env.sample).Nodup) (hnet : RowNet env)
    {rows : List (List ℝ)} (hne : rows ≠ []) (h : ∀ r ∈ rows, ∃ t, env.predict [r] = .ok t) : ∃ t, env.predict rows = .ok t := by
  have hstd : ∀ r ∈ rows, ∃ x, env.standardize [r] = .ok x := by
    intro r hr
    obtain ⟨t, ht⟩ := h r hr
    obtain ⟨x, y, u, h1, -⟩ := predict_ok ht
    exact ⟨x, h1⟩
  have hx : ∃ x, env.standardize rows = .ok x := by
    unfold FitEnv.standardize
    have key : ∀ {op : ℝ → ℝ → ℝ} {v : List ℝ} {a : List (List ℝ)}, (∀ r ∈ a, ∃ b, bcastRows op [r] v = .ok b) →
        ∃ b, bcastRows op a v = .ok b := by
      intro op v a ha
      unfold bcastRows at ha ⊢
      refine mapM_all fun r hr => ?_
      obtain ⟨b, hb⟩ := ha r hr
      rw [mapM_cons] at hb
      obtain ⟨y, hy, -⟩ := bind_eq_ok.1 hb
      exact ⟨y, hy⟩
    obtain ⟨c, hc⟩ := key (op := (· - ·)) (v := env.mean) (a := rows) fun r hr => by
      obtain ⟨x, hx⟩ := hstd r hr
      obtain ⟨c, hc, -⟩ := bind_eq_ok.1 hx
      exact ⟨c, hc⟩
    obtain ⟨d, hd⟩ := key (op := (· / ·)) (v := env.std) (a := c) fun z hz => by
      unfold bcastRows at hc
      obtain ⟨r, hr, hz'⟩ := forall₂_mem_right (mapM_ok_iff.1 hc) hz
      obtain ⟨x, hx⟩ := hstd r hr
      obtain ⟨c', hc', hx⟩ := bind_eq_ok.1 hx
      unfold bcastRows at hc'
      rw [mapM_cons, hz'] at hc'
      cases hc'
      exact ⟨x, hx⟩
    exact ⟨d, by rw [hc, bind_ok, hd]⟩
  obtain ⟨x, hx⟩ := hx
  obtain ⟨r, hr⟩ := List.exists_mem_of_ne_nil rows hne
  obtain ⟨t, ht⟩ := h r hr
  obtain ⟨z, y, u, -, h2, h3, -⟩ := predict_ok ht
  obtain ⟨m, N, hN⟩ := hnet
  rw [hN] at h2
  cases h2
  have hl : m = ((labelParams env.sample).filter fun q => !q.2.isConst).length := by
    have h' := h3
    unfold restoreLabels at h'
    rw [allLabelParameters_eq hs] at h'
    simp only [bind_ok, used_names, convertToDataframe] at h'
    by_contra hne
    rw [if_neg (by simpa using hne)] at h'
    cases h'
  unfold FitEnv.predict
  rw [hx, bind_ok, hN, bind_ok]
  show ∃ t, ((restoreLabels fitNorm env.sample (.array x.length _)) >>= _) = _
  rw [restore_array hs (by simpa using hl)]
  obtain ⟨a, a1, -⟩ := restore_spec (norm := fitNorm) (Or.inl rfl) hs hn
    (t := ⟨x.length, (((labelParams env.sample).filter fun q => !q.2.isConst).map (·.1)).zip
      ((List.range m).map fun (k : Nat) => x.map fun (r : List ℝ) => N r k)⟩) (by
      intro q hq hc
      simp only [Frame.columns]
      rw [List.map_fst_zip (by rw [List.length_map, List.length_map, List.length_range, hl])]
      exact List.mem_map.2 ⟨q, List.mem_filter.2 ⟨hq, by simp [hc]⟩, rfl⟩)
  rw [a1]
  exact ⟨_, rfl⟩

theorem concat_one (u : Table) : Table.concat [u] = .ok u := rfl

theorem concat_ok {ts : List Table} (hne : ts ≠ []) {L : List Str} (h : ∀ u ∈ ts, u.cols.columns = L) : ∃ t, Table.concat ts = .ok t := by
  cases ts with
  | nil => exact absurd rfl hne
  | cons u ts =>
    simp only [Table.concat]
    rw [if_pos]
    · exact ⟨_, rfl⟩
    · refine List.all_eq_true.2 fun v hv => ?_
      rw [h v (by simp [hv]), h u (by simp)]
      simp

theorem concat_shape {s : SampleV ℝ} {ts : List Table} {t : Table} (h : Table.concat ts = .ok t) (hts : ∀ u ∈ ts, TableWf u ∧ u.rows = 1)
    (hc : ∀ u ∈ ts, u.cols.columns = (labelParams s).map Prod.fst) : LabelShape s t := by
  cases ts with
  | nil => simp [Table.concat] at h
  | cons u ts =>
    simp only [Table.concat] at h
    split_ifs at h with hc'
    simp only [Except.ok.injEq] at h
    obtain ⟨hu, hu1⟩ := hts u (by simp)
    obtain ⟨-, h2, h3, -⟩ := foldl_append_rows ts u hu (fun v hv => hts v (by simp [hv])) (fun v hv => by
      simpa using List.all_eq_true.1 hc' v hv)
    rw [h] at h2 h3
    exact ⟨by rw [h3, hc u (by simp)], h2⟩

theorem LabelShape.row {s : SampleV ℝ} {t : Table} (h : LabelShape s t) (i : Nat) : LabelShape s (t.row i) :=
  ⟨by rw [row_columns, h.1], row_wf h.2 i⟩

theorem LabelShape.positive {s : SampleV ℝ} {t : Table} (h : LabelShape s t) : LabelShape s (ensurePositive t) :=
  ⟨by rw [ensurePositive_columns, h.1], ensurePositive_wf h.2⟩

/-! ### The steps of the fit -/

theorem networkInput_row {env : FitEnv} {curves rows : List (List ℝ)} {q : List ℝ} {dq factor : ℝ}
    (h : env.networkInput curves q dq factor = .ok rows) {i : Nat} {c : List ℝ} (hc : curves[i]? = some c) :
    ∃ r, rows[i]? = some r ∧ env.networkInput [c] q dq factor = .ok [r] := by
  unfold FitEnv.networkInput FitEnv.interpolate at h ⊢
  obtain ⟨hi, rfl⟩ := List.getElem?_eq_some_iff.1 hc
  have hlen := mapM_length h
  rw [List.length_map] at hlen
  have := (List.forall₂_iff_get.1 (mapM_ok_iff.1 h)).2 i (by simpa using hi) (by omega)
  simp only [List.get_eq_getElem, List.getElem_map] at this
  exact ⟨_, List.getElem?_eq_getElem (by omega), by rw [List.map_cons, mapM_cons, this]; rfl⟩

theorem networkInput_all {env : FitEnv} {curves : List (List ℝ)} {q : List ℝ} {dq factor : ℝ}
    (h : ∀ c ∈ curves, ∃ r, env.networkInput [c] q dq factor = .ok r) : ∃ rows, env.networkInput curves q dq factor = .ok rows := by
  unfold FitEnv.networkInput FitEnv.interpolate at h ⊢
  refine mapM_all fun d hd => ?_
  obtain ⟨c, hc, rfl⟩ := List.mem_map.1 hd
  obtain ⟨r, hr⟩ := h c hc
  rw [List.map_cons, mapM_cons] at hr
  obtain ⟨y, hy, -⟩ := bind_eq_ok.1 hr
  exact ⟨y, hy⟩

theorem networkInput_length {env : FitEnv} {curves rows : List (List ℝ)} {q : List ℝ} {dq factor : ℝ}
    (h : env.networkInput curves q dq factor = .ok rows) : rows.length = curves.length := by
  unfold FitEnv.networkInput FitEnv.interpolate at h
  simpa using mapM_length h

theorem zipIdx_mapM_all {α β : Type} {f : α × Nat → Res β} {l : List α} (h : ∀ i a, l[i]? = some a → ∃ b, f (a, i) = .ok b) :
    ∃ r, l.zipIdx.mapM f = .ok r := by
  refine mapM_all fun p hp => ?_
  obtain ⟨a, i⟩ := p
  exact h i a (by simpa using List.mem_zipIdx_iff_getElem?.1 hp)

theorem qStep_row {env : FitEnv} {on : Bool} {curves : List (List ℝ)} {q : List ℝ} {shifts : Nat → List ℝ} {best : Option (List ℝ)}
    (h : env.qStep on curves q shifts = .ok best) {i : Nat} {c : List ℝ} (hc : curves[i]? = some c) :
    env.qStep on [c] q (fun _ => shifts i) = .ok (best.map fun (l : List ℝ) => (l[i]?).toList) ∧
      ∀ l, best = some l → l.length = curves.length := by
  unfold FitEnv.qStep at h ⊢
  cases on with
  | false =>
    cases h
    exact ⟨rfl, by simp⟩
  | true =>
    rw [if_pos rfl] at h ⊢
    obtain ⟨out, h1, h⟩ := bind_eq_ok.1 h
    obtain ⟨t, -, h⟩ := bind_eq_ok.1 h
    cases h
    obtain ⟨hl, hg⟩ := zipIdx_mapM_get h1
    obtain ⟨b, hb, hf⟩ := hg i c hc
    refine ⟨?_, fun l hl' => ?_⟩
    · simp only [List.zipIdx_cons, List.zipIdx_nil]
      rw [mapM_cons]
      simp only at hf ⊢
      rw [hf, bind_ok, mapM_ok_nil, bind_ok]
      simp only [pure, Except.pure]
      rw [bind_ok]
      show ((Table.concat [b.2]) >>= _) = _
      rw [concat_one, bind_ok]
      simp [hb]
    · cases hl'
      simpa using hl

theorem optimizeQ_columns {env : FitEnv} (hs : SampleRegular env.sample) (hn : (partNames env.sample).Nodup) (hnet : RowNet env)
    {q c sh : List ℝ} {b : ℝ × Table} (h : env.optimizeQ q c sh = .ok b) : b.2.cols.columns = (labelParams env.sample).map Prod.fst := by
  unfold FitEnv.optimizeQ at h
  obtain ⟨v, -, h⟩ := bind_eq_ok.1 h
  obtain ⟨⟨p, r⟩, h1, h⟩ := bind_eq_ok.1 h
  obtain ⟨_, -, h⟩ := bind_eq_ok.1 h
  obtain ⟨_, -, h⟩ := bind_eq_ok.1 h
  obtain ⟨_, -, h⟩ := bind_eq_ok.1 h
  obtain ⟨_, -, h⟩ := bind_eq_ok.1 h
  obtain ⟨_, -, h⟩ := bind_eq_ok.1 h
  obtain ⟨_, -, h⟩ := bind_eq_ok.1 h
  cases h
  obtain ⟨rows, -, h2, -⟩ := fitPlain_ok h1
  rw [row_columns, predict_columns hs hn hnet h2]

theorem optimizeScaling_columns {env : FitEnv} (hs : SampleRegular env.sample) (hn : (partNames env.sample).Nodup) (hnet : RowNet env)
    {q c sc : List ℝ} {lo hi : Nat} {dq : ℝ} {b : ℝ × Table} (h : env.optimizeScaling q lo hi c sc dq = .ok b) :
    b.2.cols.columns = (labelParams env.sample).map Prod.fst := by
  unfold FitEnv.optimizeScaling at h
  obtain ⟨⟨p, r⟩, h1, h⟩ := bind_eq_ok.1 h
  obtain ⟨_, -, h⟩ := bind_eq_ok.1 h
  obtain ⟨_, -, h⟩ := bind_eq_ok.1 h
  obtain ⟨_, -, h⟩ := bind_eq_ok.1 h
  obtain ⟨_, -, h⟩ := bind_eq_ok.1 h
  cases h
  obtain ⟨rows, -, h2, -⟩ := fitPlain_ok h1
  rw [row_columns, predict_columns hs hn hnet h2]

theorem qStep_all {env : FitEnv} (hs : SampleRegular env.sample) (hn : (partNames env.sample).Nodup) (hnet : RowNet env) {on : Bool}
    {curves : List (List ℝ)} (hne : curves ≠ []) {q : List ℝ} {shifts : Nat → List ℝ}
    (h : ∀ (i : Nat) c, curves[i]? = some c → ∃ b, env.qStep on [c] q (fun _ => shifts i) = .ok b) :
    ∃ best, env.qStep on curves q shifts = .ok best := by
  unfold FitEnv.qStep at h ⊢
  cases on with
  | false => exact ⟨_, rfl⟩
  | true =>
    simp only [if_true] at h ⊢
    obtain ⟨out, ho⟩ := zipIdx_mapM_all (f := fun (c : List ℝ × Nat) => env.optimizeQ q c.1 (shifts c.2)) (l := curves) (fun i c hc => by
      obtain ⟨b, hb⟩ := h i c hc
      simp only [List.zipIdx_cons, List.zipIdx_nil] at hb
      rw [mapM_cons] at hb
      obtain ⟨r, hr, -⟩ := bind_eq_ok.1 hb
      obtain ⟨y, hy, -⟩ := bind_eq_ok.1 hr
      exact ⟨y, hy⟩)
    obtain ⟨t, ht⟩ := concat_ok (ts := out.map Prod.snd) (L := (labelParams env.sample).map Prod.fst) (by
      have := (zipIdx_mapM_get ho).1
      intro h0
      have h1 : out.length = 0 := by simpa using congrArg List.length h0
      exact hne (List.eq_nil_of_length_eq_zero (by omega))) (by
      intro u hu
      obtain ⟨b, hb, rfl⟩ := List.mem_map.1 hu
      obtain ⟨p, -, hp⟩ := forall₂_mem_right (mapM_ok_iff.1 ho) hb
      exact optimizeQ_columns hs hn hnet hp)
    exact ⟨_, by rw [ho, bind_ok, ht, bind_ok]; rfl⟩

/-- The shift of curve `i`. -/
def shiftOf (best : Option (List ℝ)) (i : Nat) : ℝ := match best with | none => 0 | some l => l.getD i 0

theorem shiftOf_only {best : Option (List ℝ)} {i n : Nat} (hi : i < n) (hb : ∀ l, best = some l → l.length = n) :
    shiftOf (best.map fun (l : List ℝ) => (l[i]?).toList) 0 = shiftOf best i := by
  cases best with
  | none => rfl
  | some l =>
    have := hb l rfl
    simp [shiftOf, List.getD, List.getElem?_eq_getElem (show i < l.length by omega)]

theorem scalingStep_row {env : FitEnv} (hs : SampleRegular env.sample) (hn : (partNames env.sample).Nodup) (hnet : RowNet env) (hsim : SimShape env) {on : Bool} {curves : List (List ℝ)} {q : List ℝ}
    {lo hi : Nat} {best : Option (List ℝ)} (hb : ∀ l, best = some l → l.length = curves.length) {scalings : Nat → List ℝ}
    {sc : Option (List ℝ × Table)} (h : env.scalingStep on curves q lo hi best scalings = .ok sc) {i : Nat} {c : List ℝ}
    (hc : curves[i]? = some c) :
    env.scalingStep on [c] q lo hi (best.map fun (l : List ℝ) => (l[i]?).toList) (fun _ => scalings i) =
        .ok (sc.map fun (s : List ℝ × Table) => ((s.1[i]?).toList, s.2.row i)) ∧
      (on = true → sc.isSome) ∧ ∀ s, sc = some s → s.2.rows = curves.length ∧ LabelShape env.sample s.2 := by
  unfold FitEnv.scalingStep at h ⊢
  cases on with
  | false =>
    cases h
    exact ⟨rfl, by simp, by simp⟩
  | true =>
    rw [if_pos rfl] at h ⊢
    obtain ⟨out, h1, h⟩ := bind_eq_ok.1 h
    obtain ⟨t, h2, h⟩ := bind_eq_ok.1 h
    cases h
    obtain ⟨hl, hg⟩ := zipIdx_mapM_get h1
    obtain ⟨b, hb', hf⟩ := hg i c hc
    have hts : ∀ u ∈ out.map Prod.snd, (TableWf u ∧ u.rows = 1) ∧ u.cols.columns = (labelParams env.sample).map Prod.fst := by
      intro u hu
      obtain ⟨b, hb, rfl⟩ := List.mem_map.1 hu
      obtain ⟨p, -, hp⟩ := forall₂_mem_right (mapM_ok_iff.1 h1) hb
      exact ⟨optimizeScaling_row hnet.shape hsim hp, optimizeScaling_columns hs hn hnet hp⟩
    obtain ⟨r1, r2⟩ := concat_rows h2 fun u hu => (hts u hu).1
    have hrow : t.row i = b.2 := r2 i b.2 (by rw [List.getElem?_map, hb']; rfl)
    have hil : i < curves.length := (List.getElem?_eq_some_iff.1 hc).1
    refine ⟨?_, fun _ => rfl, fun s hs => ?_⟩
    · simp only [List.zipIdx_cons, List.zipIdx_nil]
      rw [mapM_cons]
      have hf' : env.optimizeScaling q lo hi c (scalings i) (shiftOf best i) = .ok b := hf
      show ((env.optimizeScaling q lo hi c (scalings i) (shiftOf (best.map fun (l : List ℝ) => (l[i]?).toList) 0) >>= _) >>= _) = _
      rw [shiftOf_only hil hb, hf']
      rw [bind_ok, mapM_ok_nil, bind_ok]
      simp only [pure, Except.pure]
      rw [bind_ok]
      show ((Table.concat [b.2]) >>= _) = _
      rw [concat_one, bind_ok]
      simp [hb', hrow]
    · cases hs
      exact ⟨by rw [r1, List.length_map, hl], concat_shape h2 (fun u hu => (hts u hu).1) fun u hu => (hts u hu).2⟩

theorem scalingStep_all {env : FitEnv} (hs : SampleRegular env.sample) (hn : (partNames env.sample).Nodup) (hnet : RowNet env) {on : Bool}
    {curves : List (List ℝ)} (hne : curves ≠ []) {q : List ℝ} {lo hi : Nat} {best : Option (List ℝ)}
    (hb : ∀ l, best = some l → l.length = curves.length) {scalings : Nat → List ℝ}
    (h : ∀ (i : Nat) c, curves[i]? = some c →
      ∃ b, env.scalingStep on [c] q lo hi (best.map fun (l : List ℝ) => (l[i]?).toList) (fun _ => scalings i) = .ok b) :
    ∃ sc, env.scalingStep on curves q lo hi best scalings = .ok sc := by
  unfold FitEnv.scalingStep at h ⊢
  cases on with
  | false => exact ⟨_, rfl⟩
  | true =>
    simp only [if_true] at h ⊢
    obtain ⟨out, ho⟩ := zipIdx_mapM_all (f := fun (c : List ℝ × Nat) => env.optimizeScaling q lo hi c.1 (scalings c.2)
        (shiftOf best c.2)) (l := curves) (fun i c hc => by
      obtain ⟨b, hb'⟩ := h i c hc
      simp only [List.zipIdx_cons, List.zipIdx_nil] at hb'
      rw [mapM_cons] at hb'
      obtain ⟨r, hr, -⟩ := bind_eq_ok.1 hb'
      obtain ⟨y, hy, -⟩ := bind_eq_ok.1 hr
      have hy' : env.optimizeScaling q lo hi c (scalings i) (shiftOf (best.map fun (l : List ℝ) => (l[i]?).toList) 0) = .ok y := hy
      rw [shiftOf_only (List.getElem?_eq_some_iff.1 hc).1 hb] at hy'
      exact ⟨y, hy'⟩)
    obtain ⟨t, ht⟩ := concat_ok (ts := out.map Prod.snd) (L := (labelParams env.sample).map Prod.fst) (by
      have := (zipIdx_mapM_get ho).1
      intro h0
      have h1 : out.length = 0 := by simpa using congrArg List.length h0
      exact hne (List.eq_nil_of_length_eq_zero (by omega))) (by
      intro u hu
      obtain ⟨b, hb, rfl⟩ := List.mem_map.1 hu
      obtain ⟨p, -, hp⟩ := forall₂_mem_right (mapM_ok_iff.1 ho) hb
      exact optimizeScaling_columns hs hn hnet hp)
    refine ⟨some (out.map Prod.fst, t), ?_⟩
    show (List.mapM (fun (c : List ℝ × Nat) => env.optimizeScaling q lo hi c.1 (scalings c.2) (shiftOf best c.2)) curves.zipIdx >>= _) = _
    rw [ho, bind_ok, ht, bind_ok]
    rfl

theorem row_row {t : Table} {i : Nat} (h : TableWf t) (hi : i < t.rows) : (t.row i).row 0 = t.row i :=
  row_self (row_wf h i) (by simp [Table.row, hi])

theorem chooseParams_row {env : FitEnv} (hs : SampleRegular env.sample) (hn : (partNames env.sample).Nodup) (hnet : RowNet env)
    {o : Options} {rows : List (List ℝ)} {sc : Option (List ℝ × Table)} {p : Table} (h : env.chooseParams o rows sc = .ok p) {i : Nat}
    {r : List ℝ} (hr : rows[i]? = some r) (hw : ∀ s, sc = some s → s.2.rows = rows.length ∧ LabelShape env.sample s.2) :
    env.chooseParams o [r] (sc.map fun (s : List ℝ × Table) => ((s.1[i]?).toList, s.2.row i)) = .ok (p.row i) ∧
      p.rows = rows.length ∧ LabelShape env.sample p := by
  unfold FitEnv.chooseParams at h ⊢
  have hpred : env.predict rows = .ok p → env.predict [r] = .ok (p.row i) ∧ p.rows = rows.length ∧ LabelShape env.sample p :=
    fun hp => ⟨predict_row hs hn hnet hp hr, predict_rows hnet.shape hp, predict_columns hs hn hnet hp, predict_wf hnet.shape hp⟩
  cases hb : (o.optimizeScaling && o.optimizeQ) <;> rw [hb] at h
  · exact hpred h
  · cases sc with
    | none => exact hpred h
    | some s =>
      simp only [Except.ok.injEq] at h
      subst h
      exact ⟨rfl, hw s rfl⟩

theorem chooseParams_all {env : FitEnv} (hs : SampleRegular env.sample) (hn : (partNames env.sample).Nodup) (hnet : RowNet env)
    {o : Options} {rows : List (List ℝ)} (hne : rows ≠ []) {sc : Option (List ℝ × Table)}
    (h : ∀ (i : Nat) r, rows[i]? = some r →
      ∃ p, env.chooseParams o [r] (sc.map fun (s : List ℝ × Table) => ((s.1[i]?).toList, s.2.row i)) = .ok p) :
    ∃ p, env.chooseParams o rows sc = .ok p := by
  unfold FitEnv.chooseParams at h ⊢
  cases hb : (o.optimizeScaling && o.optimizeQ) <;> simp only [hb] at h ⊢
  · refine predict_all hs hn hnet hne fun r hr => ?_
    obtain ⟨i, hi⟩ := List.mem_iff_getElem?.1 hr
    exact h i r hi
  · cases sc with
    | none =>
      refine predict_all hs hn hnet hne fun r hr => ?_
      obtain ⟨i, hi⟩ := List.mem_iff_getElem?.1 hr
      exact h i r hi
    | some s => exact ⟨_, rfl⟩

theorem leastLogFit_wf {env : FitEnv} {q data : List ℝ} {labels u : Table} {fr : List ℝ}
    (h : env.leastLogFit q data labels fr = .ok u) : TableWf u ∧ u.rows = 1 := by
  unfold FitEnv.leastLogFit at h
  obtain ⟨_, -, h⟩ := bind_eq_ok.1 h
  obtain ⟨_, -, h⟩ := bind_eq_ok.1 h
  obtain ⟨_, -, h⟩ := bind_eq_ok.1 h
  obtain ⟨p, -, h⟩ := bind_eq_ok.1 h
  exact ⟨restore_wf (by simp) h, restore_rows h⟩

theorem leastLogFit_columns {env : FitEnv} (hs : SampleRegular env.sample) (hn : (partNames env.sample).Nodup) {q data : List ℝ}
    {labels u : Table} {fr : List ℝ} (h : env.leastLogFit q data labels fr = .ok u) :
    u.cols.columns = (labelParams env.sample).map Prod.fst := by
  unfold FitEnv.leastLogFit at h
  obtain ⟨_, -, h⟩ := bind_eq_ok.1 h
  obtain ⟨_, -, h⟩ := bind_eq_ok.1 h
  obtain ⟨_, -, h⟩ := bind_eq_ok.1 h
  obtain ⟨p, -, h⟩ := bind_eq_ok.1 h
  exact restore_columns hs hn h

theorem polishStep_row {env : FitEnv} (hs : SampleRegular env.sample) (hn : (partNames env.sample).Nodup) {o : Options} {curves : List (List ℝ)} {q : List ℝ} {lo hi : Nat} {p p' : Table}
    (h : env.polishStep o curves q lo hi curves.length p = .ok p') {i : Nat} {c : List ℝ} (hc : curves[i]? = some c)
    (hr : p.rows = curves.length) (hw : LabelShape env.sample p) :
    env.polishStep o [c] q lo hi 1 (p.row i) = .ok (p'.row i) ∧ p'.rows = curves.length ∧ LabelShape env.sample p' := by
  have hi : i < curves.length := (List.getElem?_eq_some_iff.1 hc).1
  unfold FitEnv.polishStep at h ⊢
  cases hp : o.polish <;> simp only [hp, if_true, Bool.false_eq_true, if_false] at h ⊢
  · cases h
    exact ⟨rfl, hr, hw⟩
  · obtain ⟨ts, k1, h⟩ := bind_eq_ok.1 h
    obtain ⟨t, k2, h⟩ := bind_eq_ok.1 h
    cases h
    have hts : ∀ u ∈ ts, TableWf u ∧ u.rows = 1 := by
      intro u hu
      obtain ⟨j, -, hj⟩ := forall₂_mem_right (mapM_ok_iff.1 k1) hu
      obtain ⟨cj, -, hj⟩ := bind_eq_ok.1 hj
      exact leastLogFit_wf hj
    obtain ⟨n1, n2⟩ := concat_rows k2 hts
    have htl : ts.length = curves.length := by simpa using mapM_length k1
    obtain ⟨u, hu⟩ : ∃ u, ts[i]? = some u := ⟨_, List.getElem?_eq_getElem (by omega)⟩
    have hf := (List.forall₂_iff_get.1 (mapM_ok_iff.1 k1)).2 i (by simp; omega) (by omega)
    simp only [List.get_eq_getElem, List.getElem_range] at hf
    obtain ⟨c', hc', hf⟩ := bind_eq_ok.1 hf
    have e1 := getItem_nat_some hc'
    rw [hc] at e1
    cases e1
    rw [(List.getElem?_eq_some_iff.1 hu).2] at hf
    refine ⟨?_, by simpa [ensurePositive, n1] using htl, ?_⟩
    · have hr1 : List.range 1 = [0] := rfl
      rw [hr1, mapM_cons]
      have hg : getItem [c] ((0 : Nat) : Int) = .ok c := rfl
      rw [hg, bind_ok, row_row hw.2 (by omega), hf, bind_ok, mapM_ok_nil, bind_ok]
      simp only [pure, Except.pure]
      rw [bind_ok, concat_one, bind_ok, ensurePositive_row, n2 i u hu]
    · refine (concat_shape k2 hts fun u hu => ?_).positive
      obtain ⟨j, -, hj⟩ := forall₂_mem_right (mapM_ok_iff.1 k1) hu
      obtain ⟨cj, -, hj⟩ := bind_eq_ok.1 hj
      exact leastLogFit_columns hs hn hj

theorem polishStep_all {env : FitEnv} (hs : SampleRegular env.sample) (hn : (partNames env.sample).Nodup) {o : Options}
    {curves : List (List ℝ)} (hne : curves ≠ []) {q : List ℝ} {lo hi : Nat} {p : Table} (hr : p.rows = curves.length)
    (hw : LabelShape env.sample p)
    (h : ∀ (i : Nat) c, curves[i]? = some c → ∃ p', env.polishStep o [c] q lo hi 1 (p.row i) = .ok p') :
    ∃ p', env.polishStep o curves q lo hi curves.length p = .ok p' := by
  unfold FitEnv.polishStep at h ⊢
  cases hp : o.polish <;> simp only [hp, if_true, Bool.false_eq_true, if_false] at h ⊢
  · exact ⟨_, rfl⟩
  · obtain ⟨ts, hts⟩ := mapM_all (l := List.range curves.length) (f := fun (i : Nat) => do
        let c ← getItem curves (i : Int)
        env.leastLogFit (slice q (some lo) (some hi)) (slice c (some lo) (some hi)) (p.row i) o.fractions) (fun i hi' => by
      have hi := List.mem_range.1 hi'
      obtain ⟨p', h'⟩ := h i curves[i] (List.getElem?_eq_getElem hi)
      obtain ⟨ts, h', -⟩ := bind_eq_ok.1 h'
      have hr1 : List.range 1 = [0] := rfl
      rw [hr1, mapM_cons] at h'
      obtain ⟨u, h', -⟩ := bind_eq_ok.1 h'
      have hg : getItem [curves[i]] ((0 : Nat) : Int) = .ok curves[i] := rfl
      rw [hg, bind_ok, row_row hw.2 (by omega)] at h'
      refine ⟨u, ?_⟩
      rw [getItem_nat hi, bind_ok]
      exact h')
    obtain ⟨t, ht⟩ := concat_ok (ts := ts) (L := (labelParams env.sample).map Prod.fst) (by
      have := mapM_length hts
      rw [List.length_range] at this
      intro h0
      rw [h0] at this
      exact hne (List.eq_nil_of_length_eq_zero this.symm)) (by
      intro u hu
      obtain ⟨j, -, hj⟩ := forall₂_mem_right (mapM_ok_iff.1 hts) hu
      obtain ⟨cj, -, hj⟩ := bind_eq_ok.1 hj
      exact leastLogFit_columns hs hn hj)
    exact ⟨_, by rw [hts, bind_ok, ht, bind_ok]; rfl⟩

theorem simulateStep_row {env : FitEnv} (hsim : RowSim env) {o : Options} {q : List ℝ} {p : Table} {r : Option (List (List (Option ℝ)))}
    (h : env.simulateStep o q p = .ok r) {i : Nat} (hi : i < p.rows) (hw : LabelShape env.sample p) :
    env.simulateStep o q (p.row i) = .ok (r.map fun (l : List (List (Option ℝ))) => (l[i]?).toList) := by
  obtain ⟨S, hS⟩ := hsim
  unfold FitEnv.simulateStep at h ⊢
  cases ho : o.simulate <;> simp only [ho, if_true, Bool.false_eq_true, if_false] at h ⊢
  · cases h
    rfl
  · obtain ⟨l, h1, h⟩ := bind_eq_ok.1 h
    cases h
    rw [hS _ _ _ hw] at h1
    have hrows : (p.row i).rows = 1 := by simp [Table.row, hi]
    have hr1 : List.range 1 = [0] := rfl
    have hlen : l.length = p.rows := by simpa using mapM_length h1
    have hf := (List.forall₂_iff_get.1 (mapM_ok_iff.1 h1)).2 i (by simpa using hi) (by omega)
    simp only [List.get_eq_getElem, List.getElem_range] at hf
    have := (hS q (p.row i) [l[i]] (hw.row i)).2 (by
      rw [hrows, hr1, mapM_cons, row_row hw.2 hi, hf, bind_ok, mapM_ok_nil, bind_ok]; rfl)
    rw [this, bind_ok]
    simp [pure, Except.pure, List.getElem?_eq_getElem (show i < l.length by omega)]

theorem simulateStep_all {env : FitEnv} (hsim : RowSim env) {o : Options} {q : List ℝ} {p : Table} (hw : LabelShape env.sample p)
    (h : ∀ i, i < p.rows → ∃ r, env.simulateStep o q (p.row i) = .ok r) : ∃ r, env.simulateStep o q p = .ok r := by
  obtain ⟨S, hS⟩ := hsim
  unfold FitEnv.simulateStep at h ⊢
  cases ho : o.simulate <;> simp only [ho, if_true, Bool.false_eq_true, if_false] at h ⊢
  · exact ⟨_, rfl⟩
  · obtain ⟨l, hl⟩ := mapM_all (l := List.range p.rows) (f := fun (i : Nat) => S q (p.row i)) (fun i hi' => by
      have hi := List.mem_range.1 hi'
      obtain ⟨r, hr⟩ := h i hi
      obtain ⟨l, h1, -⟩ := bind_eq_ok.1 hr
      have hrows : (p.row i).rows = 1 := by simp [Table.row, hi]
      have hr1 : List.range 1 = [0] := rfl
      rw [hS _ _ _ (hw.row i), hrows, hr1, mapM_cons, row_row hw.2 hi] at h1
      obtain ⟨y, hy, -⟩ := bind_eq_ok.1 h1
      exact ⟨y, hy⟩)
    rw [← hS _ _ _ hw] at hl
    exact ⟨_, by rw [hl, bind_ok]; rfl⟩

/-! ### C110 -/

/-- C110, a curve of a batch is fitted as if it was fitted alone: for every trained model whose network and simulation treat each row by itself,
all curves, all options and all drawn numbers, if the fit of many curves returns a result then the fit of any of them alone with
the numbers drawn for it returns its part of this result. -/
theorem C110_alone (env : FitEnv) (hs : SampleRegular env.sample) (hn : (partNames env.sample).Nodup) (hnet : RowNet env)
    (hshape : SimShape env) (hsim : RowSim env) (curves : List (List ℝ)) (q : List ℝ) (o : Options) (shifts scalings : Nat → List ℝ) (out : Output)
    (h : env.fitCurve curves q o shifts scalings = .ok out) (i : Nat) (c : List ℝ) (hc : curves[i]? = some c) :
    env.fitCurve [c] q o (fun _ => shifts i) (fun _ => scalings i) = .ok (onlyCurve out i) := by
  obtain ⟨lo, hi, rows, scaled, params, h1, h2, h3, h4, h5, h6, h7, h8⟩ := fitCurve_ok h
  have hil : i < curves.length := (List.getElem?_eq_some_iff.1 hc).1
  have hrl := networkInput_length h2
  obtain ⟨r, r1, r2⟩ := networkInput_row h2 hc
  obtain ⟨q1, q2⟩ := qStep_row h3 hc
  obtain ⟨s1, s2, s3⟩ := scalingStep_row hs hn hnet hshape q2 h4 hc
  obtain ⟨c1, c2, c3⟩ := chooseParams_row hs hn hnet h5 r1 (fun s hs' => by rw [hrl]; exact s3 s hs')
  rw [hrl] at h6 c2
  obtain ⟨p1, p2, p3⟩ := polishStep_row hs hn h6 hc c2 c3
  have m1 := simulateStep_row hsim h7 (i := i) (by omega) p3
  unfold FitEnv.fitCurve
  rw [h1, bind_ok]
  simp only
  rw [r2, bind_ok, q1, bind_ok, s1, bind_ok, c1, bind_ok]
  show (env.polishStep o [c] q lo hi 1 (params.row i) >>= _) = _
  rw [p1, bind_ok, m1, bind_ok]
  simp [onlyCurve, h8, pure, Except.pure, Option.map_map, Function.comp_def]

/-- C110, a curve cannot spoil the fit of the others: if each curve of a non-empty list can be fitted alone then all of them can be fitted
together. -/
theorem C110_together (env : FitEnv) (hs : SampleRegular env.sample) (hn : (partNames env.sample).Nodup) (hnet : RowNet env)
    (hshape : SimShape env) (hsim : RowSim env) (curves : List (List ℝ)) (hne : curves ≠ []) (q : List ℝ) (o : Options) (shifts scalings : Nat → List ℝ)
    (h : ∀ (i : Nat) c, curves[i]? = some c → ∃ o', env.fitCurve [c] q o (fun _ => shifts i) (fun _ => scalings i) = .ok o') :
    ∃ out, env.fitCurve curves q o shifts scalings = .ok out := by
  have h0 : 0 < curves.length := List.length_pos_iff.2 hne
  obtain ⟨lo, hi, hq⟩ : ∃ lo hi, env.qIndices q = .ok (lo, hi) := by
    obtain ⟨o', ho⟩ := h 0 curves[0] (List.getElem?_eq_getElem h0)
    obtain ⟨lo, hi, rows, scaled, params, h1, -⟩ := fitCurve_ok ho
    exact ⟨lo, hi, h1⟩
  obtain ⟨rows, hrows⟩ := networkInput_all (env := env) (curves := curves) (q := q) (dq := o.dq) (factor := o.factor) fun c hc => by
    obtain ⟨i, hi⟩ := List.mem_iff_getElem?.1 hc
    obtain ⟨o', ho⟩ := h i c hi
    obtain ⟨lo, hi, rows, scaled, params, -, h2, -⟩ := fitCurve_ok ho
    exact ⟨rows, h2⟩
  have hrl := networkInput_length hrows
  obtain ⟨best, hbest⟩ := qStep_all hs hn hnet (on := o.optimizeQ) hne (q := q) (shifts := shifts) fun i c hc => by
    obtain ⟨o', ho⟩ := h i c hc
    obtain ⟨lo, hi, rows, scaled, params, -, -, h3, -⟩ := fitCurve_ok ho
    exact ⟨_, h3⟩
  have hbl : ∀ l, best = some l → l.length = curves.length := (qStep_row hbest (List.getElem?_eq_getElem h0)).2
  obtain ⟨sc, hsc⟩ := scalingStep_all hs hn hnet (on := o.optimizeScaling) hne (q := q) (lo := lo) (hi := hi) hbl (scalings := scalings)
    fun i c hc => by
      obtain ⟨o', ho⟩ := h i c hc
      obtain ⟨lo', hi', rows', scaled', params', h1, -, h3, h4, -⟩ := fitCurve_ok ho
      rw [hq] at h1
      cases h1
      rw [(qStep_row hbest hc).1] at h3
      simp only [Except.ok.injEq] at h3
      exact ⟨_, by rw [h3]; exact h4⟩
  obtain ⟨p, hp⟩ := chooseParams_all hs hn hnet (o := o) (rows := rows) (by
    intro h0'
    rw [h0'] at hrl
    exact absurd hrl.symm (by simpa using hne)) (sc := sc) fun i r hr => by
      have hir : i < curves.length := by rw [← hrl]; exact (List.getElem?_eq_some_iff.1 hr).1
      have hc := List.getElem?_eq_getElem hir
      obtain ⟨o', ho⟩ := h i curves[i] hc
      obtain ⟨lo', hi', rows', scaled', params', h1, h2, h3, h4, h5, -⟩ := fitCurve_ok ho
      rw [hq] at h1
      cases h1
      rw [(qStep_row hbest hc).1] at h3
      simp only [Except.ok.injEq] at h3
      rw [← h3, (scalingStep_row hs hn hnet hshape hbl hsc hc).1] at h4
      cases h4
      obtain ⟨r', r1, r2⟩ := networkInput_row hrows hc
      rw [hr] at r1
      cases r1
      rw [r2] at h2
      cases h2
      exact ⟨_, h5⟩
  have hch : ∀ i (hi' : i < curves.length), ∃ r, rows[i]? = some r ∧ env.networkInput [curves[i]] q o.dq o.factor = .ok [r] ∧
      env.chooseParams o [r] (sc.map fun (s : List ℝ × Table) => ((s.1[i]?).toList, s.2.row i)) = .ok (p.row i) ∧
      p.rows = curves.length ∧ LabelShape env.sample p := by
    intro i hi'
    have hc := List.getElem?_eq_getElem hi'
    obtain ⟨r, r1, r2⟩ := networkInput_row hrows hc
    obtain ⟨c1, c2, c3⟩ := chooseParams_row hs hn hnet hp r1 (fun s hs' => by
      rw [hrl]; exact (scalingStep_row hs hn hnet hshape hbl hsc hc).2.2 s hs')
    exact ⟨r, r1, r2, c1, by rw [c2, hrl], c3⟩
  obtain ⟨_, -, -, -, hpr, hpw⟩ := hch 0 h0
  have single : ∀ i (hi' : i < curves.length), ∃ o' : Output, env.polishStep o [curves[i]] q lo hi 1 (p.row i) = .ok o'.params ∧
      env.simulateStep o q o'.params = .ok o'.refl := by
    intro i hi'
    have hc := List.getElem?_eq_getElem hi'
    obtain ⟨o', ho⟩ := h i curves[i] hc
    obtain ⟨lo', hi'', rows', scaled', params', h1, h2, h3, h4, h5, h6, h7, -⟩ := fitCurve_ok ho
    obtain ⟨r, r1, r2, r3, -, -⟩ := hch i hi'
    rw [hq] at h1
    cases h1
    rw [(qStep_row hbest hc).1] at h3
    simp only [Except.ok.injEq] at h3
    rw [← h3, (scalingStep_row hs hn hnet hshape hbl hsc hc).1] at h4
    cases h4
    rw [r2] at h2
    cases h2
    rw [r3] at h5
    cases h5
    exact ⟨o', h6, h7⟩
  obtain ⟨p', hp'⟩ := polishStep_all hs hn (o := o) hne (q := q) (lo := lo) (hi := hi) hpr hpw
    fun i c hc => by
      obtain ⟨hi', rfl⟩ := List.getElem?_eq_some_iff.1 hc
      obtain ⟨o', h6, -⟩ := single i hi'
      exact ⟨_, h6⟩
  have hpol : ∀ i (hi' : i < curves.length), env.polishStep o [curves[i]] q lo hi 1 (p.row i) = .ok (p'.row i) ∧
      p'.rows = curves.length ∧ LabelShape env.sample p' := fun i hi' =>
    polishStep_row hs hn hp' (List.getElem?_eq_getElem hi') hpr hpw
  have hpr' := (hpol 0 h0).2.1
  obtain ⟨r, hr⟩ := simulateStep_all hsim (o := o) (q := q) (p := p') (hpol 0 h0).2.2 fun i hi' => by
    obtain ⟨o', h6, h7⟩ := single i (by omega)
    rw [(hpol i (by omega)).1] at h6
    simp only [Except.ok.injEq] at h6
    exact ⟨_, by rw [h6]; exact h7⟩
  unfold FitEnv.fitCurve
  rw [hq, bind_ok]
  simp only
  rw [hrows, bind_ok, hbest, bind_ok, hsc, bind_ok, hp, bind_ok, hrl, hp', bind_ok, hr, bind_ok]
  exact ⟨_, rfl⟩

/-! ### A case -/

theorem toyEnv_rowNet (s : SampleV ℝ) : RowNet (toyEnv s) :=
  ⟨2, fun (r : List ℝ) _ => some ((r.getD 1 0 : ℝ) : ℂ), fun _ => rfl⟩

theorem toyEnv_rowSim (s : SampleV ℝ) : RowSim (toyEnv s) := by
  refine ⟨fun q _ => .ok (List.replicate q.length (some 1)), fun q t r _ => ?_⟩
  rw [mapM_eq_ok_map (g := fun (_ : Nat) => List.replicate q.length (some (1 : ℝ))) (fun _ _ => rfl), List.map_const',
    List.length_range]
  rfl

/-- Two curves are fitted together with both optimizations, and each alone. -/
example : ∃ out, (toyEnv (prepSample 0 1)).fitCurve [[1, 10], [1, 10]] [1, 2] bothOn (fun _ => [1]) (fun _ => [1]) = .ok out ∧
    ∀ i < 2, (toyEnv (prepSample 0 1)).fitCurve [[1, 10]] [1, 2] bothOn (fun _ => [1]) (fun _ => [1]) = .ok (onlyCurve out i) := by
  have hs : SampleRegular (toyEnv (prepSample 0 1)).sample := prepSample_regular (by norm_num)
  have hn : (partNames (toyEnv (prepSample 0 1)).sample).Nodup := prepSample_names _ _
  obtain ⟨out, h⟩ := C110_together _ hs hn (toyEnv_rowNet _) (toyEnv_sim _) (toyEnv_rowSim _) [[1, 10], [1, 10]] (by simp) [1, 2] bothOn (fun _ => [1])
    (fun _ => [1]) (by
      intro i c hc
      obtain ⟨o', ho⟩ := toy_both
      match i, hc with
      | 0, hc => cases hc; exact ⟨o', ho⟩
      | 1, hc => cases hc; exact ⟨o', ho⟩)
  refine ⟨out, h, fun i hi => ?_⟩
  have := C110_alone _ hs hn (toyEnv_rowNet _) (toyEnv_sim _) (toyEnv_rowSim _) _ _ _ _ _ out h i [1, 10] (by
    match i, hi with
    | 0, _ => rfl
    | 1, _ => rfl)
  exact this

end Verif.Props
