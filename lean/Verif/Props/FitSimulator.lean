import Verif.Model.FitSimulator
import Verif.Props.Independent
import Verif.Props.Simulate

/-!
# C110 for the simulation of the code
-/

namespace Verif.Props
open Verif.Py Verif.Model Verif.Spec Verif.Model.FitEnv

/-- The table of Python cells of a table of numbers. -/
def embedTable (tab : SimTable) : Table := ⟨tab.nrows, tab.frame.map fun (d : Str × List ℂ) => (d.1, d.2.map some)⟩

theorem finiteCells_iff {l : List Fl} {r : List ℂ} : l.mapM finiteCell = .ok r ↔ l = r.map some := by
  induction l generalizing r with
  | nil =>
    rw [mapM_ok_nil]
    cases r <;> simp
  | cons a l ih =>
    rw [mapM_cons]
    cases a with
    | none =>
      simp only [finiteCell]
      cases r <;> simp
    | some z =>
      simp only [finiteCell, bind_ok]
      cases r with
      | nil =>
        constructor
        · intro h
          obtain ⟨x, -, h⟩ := bind_eq_ok.1 h
          cases h
        · intro h
          cases h
      | cons y r =>
        constructor
        · intro h
          obtain ⟨x, h1, h⟩ := bind_eq_ok.1 h
          cases h
          rw [ih.1 h1]
          rfl
        · intro h
          simp only [List.map_cons, List.cons.injEq, Option.some.injEq] at h
          rw [ih.2 h.2, h.1]
          rfl

theorem cells_iff {t : Table} {tab : SimTable} : t.cells = .ok tab ↔ t = embedTable tab := by
  obtain ⟨n, cols⟩ := t
  obtain ⟨f, m⟩ := tab
  unfold Table.cells embedTable
  have key : ∀ (cols : Frame Fl) (f : Frame ℂ), (cols.mapM fun (c : Str × List Fl) => (do
      let l ← c.2.mapM finiteCell
      return (c.1, l) : Res (Str × List ℂ))) = .ok f ↔ cols = f.map fun (d : Str × List ℂ) => (d.1, d.2.map some) := by
    intro cols
    induction cols with
    | nil =>
      intro f
      rw [mapM_ok_nil]
      cases f <;> simp
    | cons c cols ih =>
      intro f
      rw [mapM_cons]
      constructor
      · intro h
        obtain ⟨d, h1, h⟩ := bind_eq_ok.1 h
        obtain ⟨g, h2, h⟩ := bind_eq_ok.1 h
        cases h
        obtain ⟨l, h3, h1⟩ := bind_eq_ok.1 h1
        cases h1
        rw [(ih g).1 h2, List.map_cons]
        simp only [← finiteCells_iff.1 h3]
      · intro h
        cases f with
        | nil => cases h
        | cons d f =>
          simp only [List.map_cons, List.cons.injEq] at h
          rw [h.1]
          simp only
          rw [finiteCells_iff.2 rfl, bind_ok, (ih f).2 h.2]
          rfl
  constructor
  · intro h
    obtain ⟨g, h1, h⟩ := bind_eq_ok.1 h
    cases h
    have h2 := (key _ _).1 h1
    simp only at h2 ⊢
    rw [← h2]
  · intro h
    simp only [Table.mk.injEq] at h
    rw [(key _ _).2 h.2, bind_ok, h.1]
    rfl

/-- The curve that the engine returns for the labels `z` of a sample with `n` layers. -/
noncomputable def rowCurve (engine : Option Engine) (n : Nat) (q : List ℝ) (z : List ℂ) : Res (List (Option ℝ)) :=
  match engine with
  | some eng => runRefl1d eng (.rows [(z.take n).map Complex.re]) (.rows [((z.drop n).take (n + 1)).map Complex.re])
      (.rows [z.drop (2 * n + 1)]) q.length [q] >>= fun c => getItem c 0
  | none => runBuiltin (.rows [(z.take n).map Complex.re]) (.rows [((z.drop n).take (n + 1)).map Complex.re])
      (.rows [z.drop (2 * n + 1)]) q.length [q] >>= fun c => getItem c 0

/-- The labels in row `i`. -/
noncomputable def labelRow (tab : SimTable) (i : Nat) : List ℂ := tab.frame.map fun (d : Str × List ℂ) => d.2.getD i 0

theorem mapM_one {α : Type} (f : Nat → Res α) : ((List.range 1).mapM f >>= fun c => getItem c 0) = f 0 := by
  have hr1 : List.range 1 = [0] := rfl
  rw [hr1, mapM_cons, mapM_ok_nil]
  cases f 0 <;> rfl

theorem runRefl1d_rows (eng : Engine) (T R : Nat → List ℝ) (S : Nat → List ℂ) (m nq : Nat) (q : List ℝ) :
    runRefl1d eng (.rows ((List.range m).map T)) (.rows ((List.range m).map R)) (.rows ((List.range m).map S)) nq
        ((List.range m).map fun (_ : Nat) => q) =
      (List.range m).mapM fun (i : Nat) => (runRefl1d eng (.rows [T i]) (.rows [R i]) (.rows [S i]) nq [q] >>= fun c => getItem c 0) := by
  unfold runRefl1d
  simp only [LabelArr.fliplr, bind_ok, LabelArr.len, List.length_map, List.length_range, List.map_map]
  refine mapM_congr fun i hi => ?_
  have hi := List.mem_range.1 hi
  show _ = (((List.range 1).mapM _) >>= fun c => getItem c 0)
  rw [mapM_one]
  simp only [LabelArr.row, getItem_rangeMap hi, List.map_cons, List.map_nil]
  rfl

theorem runBuiltin_rows (T R : Nat → List ℝ) (S : Nat → List ℂ) (m nq : Nat) (q : List ℝ) :
    runBuiltin (.rows ((List.range m).map T)) (.rows ((List.range m).map R)) (.rows ((List.range m).map S)) nq
        ((List.range m).map fun (_ : Nat) => q) =
      (List.range m).mapM fun (i : Nat) => (runBuiltin (.rows [T i]) (.rows [R i]) (.rows [S i]) nq [q] >>= fun c => getItem c 0) := by
  unfold runBuiltin
  simp only [LabelArr.len, List.length_map, List.length_range, List.map_map, LabelArr.map]
  refine mapM_congr fun i hi => ?_
  have hi := List.mem_range.1 hi
  show _ = (((List.range 1).mapM _) >>= fun c => getItem c 0)
  rw [mapM_one]
  simp only [LabelArr.row, getItem_rangeMap hi, List.map_cons, List.map_nil]
  rfl

theorem ofCols_rows {cols : List (List ℂ)} (hne : cols ≠ []) {m : Nat} (hm : ∀ c ∈ cols, c.length = m) :
    LabelArr.ofCols m cols = .rows ((List.range m).map fun (i : Nat) => cols.map fun (c : List ℂ) => c.getD i 0) := by
  rw [ofCols_ne hne]
  congr 1
  refine List.map_congr_left fun i hi => filterMap_of_map ?_
  have hi := List.mem_range.1 hi
  rw [List.map_map]
  refine List.map_congr_left fun c hc => ?_
  have := hm c hc
  simp [List.getD, List.getElem?_eq_getElem (show i < c.length by omega)]

/-- The simulation of a table of finite labels runs the engine row by row. -/
theorem generatorSimulate_rows {s : SampleV ℝ} (hs : SampleRegular s) (hk : KeywordFree (partNames s)) (hl : 0 < s.layers.length)
    (engine : Option Engine) (q : List ℝ) (tab : SimTable) (ht : LabelShape s (embedTable tab)) :
    generatorSimulate engine ((labelParams s).map Prod.fst) q (embedTable tab) =
      (List.range tab.nrows).mapM fun (i : Nat) => rowCurve engine s.layers.length q (labelRow tab i) := by
  unfold generatorSimulate
  rw [if_pos ⟨ht.1, ht.2⟩, cells_iff.2 rfl, bind_ok]
  have hcol : tab.frame.columns = (labelParams s).map Prod.fst := by
    rw [← ht.1]
    simp [embedTable, Frame.columns, Function.comp_def]
  have hlen : ∀ c ∈ tab.frame.map Prod.snd, c.length = tab.nrows := by
    intro c hc
    obtain ⟨d, hd, rfl⟩ := List.mem_map.1 hc
    have := ht.2 (d.1, d.2.map some) (List.mem_map.2 ⟨d, hd, rfl⟩)
    simpa [embedTable] using this
  have hnames := labelNames_eq hs
  obtain ⟨names', h1, h2, -⟩ := C05_label_names s hs
  rw [hnames] at h1
  cases h1
  have hnl : (tab.frame.map Prod.snd).length = 3 * s.layers.length + 3 := by
    have := congrArg List.length hcol
    rw [h2] at this
    simp [Frame.columns, expectedLabels] at this
    simp
    omega
  have hsep := C07_separate_sample_partial s hs _ hnames hk tab.frame hcol
  simp only at hsep
  rw [hsep]
  simp only
  have hz : ∀ i, labelRow tab i = (tab.frame.map Prod.snd).map fun (c : List ℂ) => c.getD i 0 := fun i => by
    simp [labelRow, List.map_map, Function.comp_def]
  simp only [hz]
  generalize tab.frame.map Prod.snd = cols at hlen hnl ⊢
  generalize hn : s.layers.length = n at hnl hl ⊢
  rw [ofCols_rows (cols := cols.take n) (by
        intro h
        have := congrArg List.length h
        simp only [List.length_take, List.length_nil] at this
        omega)
      (fun c hc => hlen c (List.mem_of_mem_take hc)),
    ofCols_rows (cols := (cols.drop n).take (n + 1)) (by
        intro h
        have := congrArg List.length h
        simp only [List.length_take, List.length_drop, List.length_nil] at this
        omega)
      (fun c hc => hlen c (List.mem_of_mem_drop (List.mem_of_mem_take hc))),
    ofCols_rows (cols := cols.drop (2 * n + 1)) (by intro h; have := congrArg List.length h; simp at this; omega)
      (fun c hc => hlen c (List.mem_of_mem_drop hc))]
  simp only [LabelArr.map, LabelArr.len, List.map_map, List.length_map, List.length_range]
  cases engine with
  | none =>
    simp only [rowCurve]
    refine (runBuiltin_rows _ _ _ _ _ _).trans (mapM_congr fun i _ => ?_)
    simp only [Function.comp, List.map_take, List.map_drop, List.map_map]
  | some eng =>
    simp only [rowCurve]
    refine (runRefl1d_rows _ _ _ _ _ _ _).trans (mapM_congr fun i _ => ?_)
    simp only [Function.comp, List.map_take, List.map_drop, List.map_map]

theorem assignRow_length {nq : Nat} {r c : List (Option ℝ)} (h : assignRow nq r = .ok c) : c.length = nq := by
  unfold assignRow at h
  split_ifs at h with hl
  · cases h
    exact hl
  · split at h
    · cases h
      simp
    · cases h

theorem rowCurve_length {engine : Option Engine} {n : Nat} {q : List ℝ} {z : List ℂ} {c : List (Option ℝ)}
    (h : rowCurve engine n q z = .ok c) : c.length = q.length := by
  unfold rowCurve at h
  cases engine with
  | none =>
    simp only at h
    unfold runBuiltin at h
    simp only at h
    have h' : (((List.range 1).mapM _) >>= fun c => getItem c 0) = Except.ok c := h
    rw [mapM_one] at h'
    obtain ⟨_, -, h'⟩ := bind_eq_ok.1 h'
    obtain ⟨_, -, h'⟩ := bind_eq_ok.1 h'
    obtain ⟨_, -, h'⟩ := bind_eq_ok.1 h'
    obtain ⟨_, -, h'⟩ := bind_eq_ok.1 h'
    obtain ⟨_, -, h'⟩ := bind_eq_ok.1 h'
    obtain ⟨_, -, h'⟩ := bind_eq_ok.1 h'
    exact assignRow_length h'
  | some eng =>
    simp only at h
    unfold runRefl1d at h
    simp only [LabelArr.fliplr, bind_ok] at h
    have h' : (((List.range 1).mapM _) >>= fun c => getItem c 0) = Except.ok c := h
    rw [mapM_one] at h'
    obtain ⟨_, -, h'⟩ := bind_eq_ok.1 h'
    obtain ⟨_, -, h'⟩ := bind_eq_ok.1 h'
    obtain ⟨_, -, h'⟩ := bind_eq_ok.1 h'
    obtain ⟨_, -, h'⟩ := bind_eq_ok.1 h'
    split_ifs at h' <;>
    · obtain ⟨_, -, h'⟩ := bind_eq_ok.1 h'
      exact assignRow_length h'

/-- C110, the simulation of the code: with the default arguments and normal numbers of width zero it is the simulation of the generator. -/
theorem C110_generator {G : Type} (rng : Rng G) (ok : rng.Ok) (hz : ∀ m n g, ∀ x ∈ (rng.normal m 0 n g).1, x = m) (pf : Str → Option ℝ)
    (engine : Option Engine) (s : SampleV ℝ) (q : List ℝ) (tab : SimTable) (ht : LabelShape s (embedTable tab)) (g : G) :
    ∃ g', simulateReflectivity rng engine pf q (some tab) (.num 0) "refl1d".toList g =
      (generatorSimulate engine ((labelParams s).map Prod.fst) q (embedTable tab)).map (·, g') := by
  unfold generatorSimulate
  rw [if_pos ⟨ht.1, ht.2⟩, cells_iff.2 rfl, bind_ok]
  unfold simulateReflectivity
  simp only
  rw [if_neg (fun h => h.1 rfl)]
  obtain ⟨g', hg'⟩ := noisyQ_zero rng ok hz pf q (((LabelArr.ofCols tab.nrows (separateLabels tab.frame).1).map Complex.re).len) g
  refine ⟨g', ?_⟩
  have key : ∀ (m : Rand G (List (List ℝ))) (Q : List (List ℝ)) (r : List (List ℝ) → Res (List (List (Option ℝ)))), m g = .ok (Q, g') →
      (m >>= fun (noisy : List (List ℝ)) => Rand.ofRes (r noisy)) g = (r Q).map (·, g') := by
    intro m Q r hm
    show (m g >>= fun p => Rand.ofRes (r p.1) p.2) = _
    rw [hm, bind_ok]
    rfl
  cases engine with
  | none => exact key _ _ _ hg'
  | some eng =>
    exact key _ _ _ hg'

theorem LabelShape.embed {s : SampleV ℝ} {t : Table} {tab : SimTable} (h : LabelShape s t) (hc : t.cells = .ok tab) :
    LabelShape s (embedTable tab) := by
  rw [← cells_iff.1 hc]
  exact h

theorem generator_shape {s : SampleV ℝ} (hs : SampleRegular s) (hk : KeywordFree (partNames s)) (hl : 0 < s.layers.length)
    {engine : Option Engine} {q : List ℝ} {t : Table} {r : List (List (Option ℝ))}
    (h : generatorSimulate engine ((labelParams s).map Prod.fst) q t = .ok r) : r.length = t.rows ∧ ∀ c ∈ r, c.length = q.length := by
  have h' := h
  unfold generatorSimulate at h'
  split_ifs at h' with hsh
  obtain ⟨tab, hc, -⟩ := bind_eq_ok.1 h'
  have hsh' : LabelShape s t := hsh
  have he := cells_iff.1 hc
  have hw := hsh'.embed hc
  rw [he] at h ⊢
  rw [generatorSimulate_rows hs hk hl engine q tab hw] at h
  refine ⟨by simpa [embedTable] using mapM_length h, fun c hc' => ?_⟩
  obtain ⟨i, -, hi⟩ := forall₂_mem_right (mapM_ok_iff.1 h) hc'
  exact rowCurve_length hi

theorem generator_rowSim {s : SampleV ℝ} (hs : SampleRegular s) (hk : KeywordFree (partNames s)) (hl : 0 < s.layers.length)
    (engine : Option Engine) {env : FitEnv} (he : env.sample = s)
    (hsim : env.simulate = generatorSimulate engine ((labelParams s).map Prod.fst)) : RowSim env := by
  refine ⟨fun q t => t.cells >>= fun tab => rowCurve engine s.layers.length q (labelRow tab 0), fun q t r ht => ?_⟩
  rw [he] at ht
  rw [hsim]
  have key : ∀ tab, t.cells = .ok tab → generatorSimulate engine ((labelParams s).map Prod.fst) q t =
      (List.range t.rows).mapM fun (i : Nat) => ((t.row i).cells >>= fun tab => rowCurve engine s.layers.length q (labelRow tab 0)) := by
    intro tab hc
    have hw := ht.embed hc
    have hrow : ∀ i < t.rows, (t.row i).cells = .ok ⟨tab.frame.map fun (d : Str × List ℂ) => (d.1, (d.2.drop i).take 1), 1⟩ := by
      intro i hi
      rw [cells_iff]
      rw [cells_iff.1 hc] at hi ⊢
      unfold embedTable Table.row at *
      simp only [if_pos hi, List.map_map, Table.mk.injEq, true_and]
      refine List.map_congr_left fun d _ => ?_
      simp [List.map_drop, List.map_take]
    have hlen : ∀ d ∈ tab.frame, d.2.length = t.rows := by
      intro d hd
      have := hw.2 (d.1, d.2.map some) (List.mem_map.2 ⟨d, hd, rfl⟩)
      rw [cells_iff.1 hc]
      simpa using this
    conv_lhs => rw [cells_iff.1 hc]
    rw [generatorSimulate_rows hs hk hl engine q tab hw]
    have : tab.nrows = t.rows := by rw [cells_iff.1 hc]; rfl
    rw [this]
    refine mapM_congr fun i hi => ?_
    have hi := List.mem_range.1 hi
    rw [hrow i hi, bind_ok]
    congr 1
    simp only [labelRow, List.map_map]
    refine List.map_congr_left fun d hd => ?_
    have := hlen d hd
    simp only [Function.comp]
    rw [drop_take_one (List.getElem?_eq_getElem (show i < d.2.length by omega))]
    simp [List.getD, List.getElem?_eq_getElem (show i < d.2.length by omega)]
  constructor
  · intro h
    have h' := h
    unfold generatorSimulate at h'
    split_ifs at h' with hsh
    obtain ⟨tab, hc, -⟩ := bind_eq_ok.1 h'
    rw [← key tab hc, h]
  · intro h
    have hall : ∃ tab, t.cells = .ok tab := by
      refine ⟨⟨t.cols.map fun (c : Str × List Fl) => (c.1, c.2.map fun (x : Fl) => x.getD 0), t.rows⟩, ?_⟩
      rw [cells_iff]
      have hsome : ∀ c ∈ t.cols, ∀ x ∈ c.2, x = some (x.getD 0) := by
        intro c hc x hx
        obtain ⟨i, hi, rfl⟩ := List.mem_iff_getElem.1 hx
        have hl' := ht.2 c hc
        obtain ⟨y, -, hy⟩ := forall₂_mem_left (mapM_ok_iff.1 h) i (List.mem_range.2 (by omega))
        obtain ⟨tab, hy, -⟩ := bind_eq_ok.1 hy
        have h1 := cells_iff.1 hy
        have h2 : (c.1, (c.2.drop i).take 1) ∈ (t.row i).cols := List.mem_map.2 ⟨c, hc, rfl⟩
        rw [h1] at h2
        obtain ⟨d, -, hd⟩ := List.mem_map.1 h2
        have h3 := congrArg Prod.snd hd
        simp only at h3
        rw [drop_take_one (List.getElem?_eq_getElem hi)] at h3
        have h4 : c.2[i] ∈ d.2.map some := by rw [h3]; simp
        obtain ⟨z, -, hz⟩ := List.mem_map.1 h4
        rw [← hz]
        rfl
      obtain ⟨n, cols⟩ := t
      unfold embedTable
      simp only [Table.mk.injEq, true_and, List.map_map]
      conv_lhs => rw [← List.map_id cols]
      refine List.map_congr_left fun c hc => ?_
      simp only [id, Function.comp, List.map_map]
      ext1
      · rfl
      · simp only
        conv_lhs => rw [← List.map_id c.2]
        exact List.map_congr_left fun x hx => hsome c hc x hx
    obtain ⟨tab, hc⟩ := hall
    rw [key tab hc, h]

/-- C110, the code: for every sample with layers whose names are distinct and free of the key words, every engine that returns one list of
values for a stack, every network that computes its outputs row by row, every q grid, standardization and search of the
optimizer, fitting many curves at once returns for each curve what fitting it alone returns. -/
theorem C110_code (engine : Option Engine) (trainedQ mean std : List ℝ) (outputs : Nat) (net : List ℝ → Nat → Fl) (s : SampleV ℝ)
    (optimizer : (List ℝ → Res (List (Option ℝ))) → List ℝ → List ℝ → List ℝ → List ℝ → Res (List ℝ)) (hs : SampleRegular s)
    (hn : (partNames s).Nodup) (hk : KeywordFree (partNames s)) (hl : 0 < s.layers.length) (curves : List (List ℝ)) (q : List ℝ)
    (o : Options) (shifts scalings : Nat → List ℝ) :
    let env := codeEnv engine ((labelParams s).map Prod.fst) trainedQ mean std outputs net s optimizer
    (∀ out, env.fitCurve curves q o shifts scalings = .ok out → ∀ (i : Nat) c, curves[i]? = some c →
      env.fitCurve [c] q o (fun _ => shifts i) (fun _ => scalings i) = .ok (onlyCurve out i)) ∧
    (curves ≠ [] → (∀ (i : Nat) c, curves[i]? = some c → ∃ o', env.fitCurve [c] q o (fun _ => shifts i) (fun _ => scalings i) = .ok o') →
      ∃ out, env.fitCurve curves q o shifts scalings = .ok out) := by
  intro env
  have h1 : RowNet env := ⟨outputs, net, fun _ => rfl⟩
  have h2 : SimShape env := fun q t r h => generator_shape hs hk hl (engine := engine) h
  have h3 : RowSim env := generator_rowSim hs hk hl engine rfl rfl
  exact ⟨fun out h i c hc => C110_alone env hs hn h1 h2 h3 curves q o shifts scalings out h i c hc,
    fun hne h => C110_together env hs hn h1 h2 h3 curves hne q o shifts scalings h⟩

/-! ### Finite labels -/

/-- All cells are numbers. -/
def FiniteTable (t : Table) : Prop := ∀ c ∈ t.cols, ∀ x ∈ c.2, x.isSome

theorem FiniteTable.cells {t : Table} (h : FiniteTable t) : ∃ tab, t.cells = .ok tab := by
  refine ⟨⟨t.cols.map fun (c : Str × List Fl) => (c.1, c.2.map fun (x : Fl) => x.getD 0), t.rows⟩, ?_⟩
  rw [cells_iff]
  obtain ⟨n, cols⟩ := t
  unfold embedTable
  simp only [Table.mk.injEq, true_and, List.map_map]
  conv_lhs => rw [← List.map_id cols]
  refine List.map_congr_left fun c hc => ?_
  simp only [id, Function.comp, List.map_map]
  ext1
  · rfl
  · simp only
    conv_lhs => rw [← List.map_id c.2]
    refine List.map_congr_left fun x hx => ?_
    obtain ⟨z, rfl⟩ := Option.isSome_iff_exists.1 (h c hc x hx)
    rfl

theorem restore_finite {s : SampleV ℝ} (hs : SampleRegular s) (hn : (partNames s).Nodup) {n : Nat} {cols : List (List Fl)}
    (hf : ∀ c ∈ cols, ∀ x ∈ c, x.isSome) {t : Table} (h : restoreLabels fitNorm s (.array n cols) = .ok t) : FiniteTable t := by
  have hl : cols.length = ((labelParams s).filter fun q => !q.2.isConst).length := by
    have h' := h
    unfold restoreLabels at h'
    rw [allLabelParameters_eq hs] at h'
    simp only [bind_ok, used_names, convertToDataframe] at h'
    by_contra hne
    rw [if_neg (by simpa using hne)] at h'
    cases h'
  rw [restore_array hs hl] at h
  have hm : ∀ q ∈ labelParams s, q.2.isConst = false → q.1 ∈
      Frame.columns ((((labelParams s).filter fun q => !q.2.isConst).map (·.1)).zip cols) := by
    intro q hq hc
    simp only [Frame.columns]
    rw [List.map_fst_zip (by rw [List.length_map, hl])]
    exact List.mem_map.2 ⟨q, List.mem_filter.2 ⟨hq, by simp [hc]⟩, rfl⟩
  obtain ⟨a, a1, a2, a3, a4, a5⟩ := restore_spec (norm := fitNorm) (Or.inl rfl) hs hn
    (t := ⟨n, (((labelParams s).filter fun q => !q.2.isConst).map (·.1)).zip cols⟩) hm
  rw [h] at a1
  cases a1
  have hnd := labelParams_nodup hs hn
  intro c hc x hx
  have hget := get_of_mem (by rw [a3]; exact hnd) hc
  have hmem : c.1 ∈ t.cols.columns := List.mem_map.2 ⟨c, hc, rfl⟩
  rw [a3] at hmem
  obtain ⟨⟨k, p⟩, hp, hk⟩ := List.mem_map.1 hmem
  simp only at hk
  rw [← hk] at hget
  cases p with
  | const v nm =>
    rw [a5 k v nm hp] at hget
    simp only [Except.ok.injEq] at hget
    rw [← hget] at hx
    rw [(List.mem_replicate.1 hx).2]
    rfl
  | range lo hi nm =>
    obtain ⟨col, hcol⟩ := get_ok_of_mem (hm _ hp rfl)
    have hcol' := List.of_mem_zip (mem_of_get hcol)
    rw [a4 _ hp rfl _ hcol] at hget
    simp only [Except.ok.injEq] at hget
    rw [← hget] at hx
    unfold renormUpd at hx
    split_ifs at hx
    all_goals
      obtain ⟨y, hy, rfl⟩ := List.mem_map.1 hx
      obtain ⟨z, rfl⟩ := Option.isSome_iff_exists.1 (hf col hcol'.2 y hy)
      rfl

theorem FiniteTable.positive {t : Table} (h : FiniteTable t) : FiniteTable (ensurePositive t) := by
  intro c hc x hx
  unfold ensurePositive at hc
  obtain ⟨d, hd, rfl⟩ := List.mem_map.1 hc
  split_ifs at hx
  · obtain ⟨y, hy, rfl⟩ := List.mem_map.1 hx
    obtain ⟨z, rfl⟩ := Option.isSome_iff_exists.1 (h d hd y hy)
    rfl
  · exact h d hd x hx

/-! ### A case -/

/-- An engine that returns ones. -/
noncomputable def onesEngine : Engine := fun a => .ok (a.kz.map fun (_ : ℝ) => some 1)

/-- The simulation of the code with this engine and the network of `toyEnv`. -/
noncomputable def onesEnv : FitEnv := codeEnv (some onesEngine) ((labelParams (prepSample 0 1)).map Prod.fst) [1, 2] [0, 0] [1, 1] 2
  (fun (r : List ℝ) (_ : Nat) => some ((r.getD 1 0 : ℝ) : ℂ)) (prepSample 0 1) (fun _ _ start _ _ => .ok start)

theorem prep_keywordFree : KeywordFree (partNames (prepSample 0 1)) := by
  unfold KeywordFree
  decide

theorem ones_fit {b : ℝ} (hb : 0 < b) : ∃ out, onesEnv.fitCurve [[1, b]] [1, 2] (plainOpts false) (fun _ => []) (fun _ => []) = .ok out := by
  have hs : SampleRegular (prepSample 0 1) := prepSample_regular (by norm_num)
  obtain ⟨t, u, p1, e1, r1, ⟨x, y, w1, w2, w3⟩, -⟩ := toyEnv_predict (prepSample 0 1) hs (prepSample_names _ _)
    _ _ _ _ _ _ _ _ (prepSample_used 0 1) [[1, b]] (by simp)
  have hp : onesEnv.predict [[1, b]] = .ok t := p1
  have hin : onesEnv.networkInput [[1, b]] [1, 2] 0 1 = .ok [[1, b]] :=
    networkInput_self (env := onesEnv) (by show ([1, 2] : List ℝ).Pairwise (· < ·); norm_num) (by show ([1, 2] : List ℝ) ≠ []; simp) (by
      intro c hc
      simp only [List.mem_singleton] at hc
      subst hc
      refine ⟨rfl, fun v hv => ?_⟩
      simp only [List.mem_cons, List.not_mem_nil, or_false] at hv
      rcases hv with rfl | rfl
      · norm_num
      · exact hb)
  have hshape : LabelShape (prepSample 0 1) t :=
    ⟨predict_columns (env := onesEnv) hs (prepSample_names 0 1) ⟨2, _, fun _ => rfl⟩ hp,
      predict_wf (env := onesEnv) (RowNet.shape ⟨2, _, fun _ => rfl⟩) hp⟩
  have hfin : FiniteTable t := by
    rw [e1]
    refine FiniteTable.positive ?_
    simp only [toyEnv, Except.ok.injEq] at w2
    subst w2
    refine restore_finite hs (prepSample_names 0 1) (fun c hc v hv => ?_) w3
    simp only [List.mem_cons, List.not_mem_nil, or_false] at hc
    rcases hc with rfl | rfl <;>
    · obtain ⟨r, -, rfl⟩ := List.mem_map.1 hv
      rfl
  obtain ⟨tab, htab⟩ := hfin.cells
  have hsim : ∃ r, onesEnv.simulate [1, 2] t = .ok r := by
    show ∃ r, generatorSimulate (some onesEngine) ((labelParams (prepSample 0 1)).map Prod.fst) [1, 2] t = .ok r
    have hw := hshape.embed htab
    rw [cells_iff.1 htab, generatorSimulate_rows hs prep_keywordFree (by decide) _ _ tab hw]
    refine mapM_all fun i _ => ⟨[some 1, some 1], ?_⟩
    simp only [rowCurve]
    unfold runRefl1d
    simp only [LabelArr.fliplr, bind_ok]
    show (((List.range 1).mapM _) >>= fun c => getItem c 0) = _
    rw [mapM_one]
    simp only [onesEngine, ite_self]
    rfl
  obtain ⟨r, hr⟩ := hsim
  refine ⟨⟨t, some r, none, none⟩, ?_⟩
  unfold FitEnv.fitCurve
  have hq : onesEnv.qIndices [1, 2] = .ok (0, 2) := toy_qIndices (prepSample 0 1)
  rw [hq, bind_ok]
  have e1 : (plainOpts false).dq = 0 := rfl
  have e2 : (plainOpts false).factor = 1 := rfl
  simp only [e1, e2, hin, bind_ok]
  unfold FitEnv.qStep FitEnv.scalingStep FitEnv.chooseParams FitEnv.polishStep FitEnv.simulateStep
  simp only [plainOpts, Bool.false_eq_true, if_false, bind_ok, Bool.false_and, hp, if_true, hr]
  rfl

/-- Two different curves, fitted with the simulation of the code. -/
example : ∃ out, onesEnv.fitCurve [[1, 10], [1, 5]] [1, 2] (plainOpts false) (fun _ => []) (fun _ => []) = .ok out ∧
    onesEnv.fitCurve [[1, 10]] [1, 2] (plainOpts false) (fun _ => []) (fun _ => []) = .ok (onlyCurve out 0) ∧
    onesEnv.fitCurve [[1, 5]] [1, 2] (plainOpts false) (fun _ => []) (fun _ => []) = .ok (onlyCurve out 1) := by
  obtain ⟨h1, h2⟩ := C110_code (some onesEngine) [1, 2] [0, 0] [1, 1] 2 (fun (r : List ℝ) (_ : Nat) => some ((r.getD 1 0 : ℝ) : ℂ)) (prepSample 0 1)
    (fun _ _ start _ _ => .ok start) (prepSample_regular (by norm_num)) (prepSample_names _ _) prep_keywordFree (by decide)
    [[1, 10], [1, 5]] [1, 2] (plainOpts false) (fun _ => []) (fun _ => [])
  obtain ⟨out, h⟩ := h2 (by simp) (by
    intro i c hc
    match i, hc with
    | 0, hc => cases hc; exact ones_fit (by norm_num)
    | 1, hc => cases hc; exact ones_fit (by norm_num))
  exact ⟨out, h, h1 out h 0 _ rfl, h1 out h 1 _ rfl⟩

end Verif.Props
