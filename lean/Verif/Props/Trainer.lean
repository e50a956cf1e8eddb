import Verif.Model.Trainer
import Verif.Props.Noise
import Verif.Props.Simulate
import Verif.Props.Preprocessing
import Verif.Props.Standardize
import Verif.Lemmas.PyList

/-!
# C91: what the network is trained on
-/

namespace Verif.Props
open Verif.Py Verif.Model Verif.Spec
variable {G Net : Type}

/-! ### The claim -/

/-- The value `v` of the label `k` of training sample `j`. -/
def LabelCell (f : Frame (Num ℝ)) (k : Str) (j : Nat) (v : ℂ) : Prop :=
  ∃ col x, f.get k = .ok col ∧ col[j]? = some x ∧ x.toC = v

/-- The training label of sample `j`: for each parameter with a range, in the order of the labels, the value relative
to the range. -/
def TargetOf (s : SampleV ℝ) (f : Frame (Num ℝ)) (j : Nat) (y : List ℝ) : Prop :=
  List.Forall₂ (fun (p : Str × Param ℝ) (x : ℝ) => ∃ v : ℂ, LabelCell f p.1 j v ∧
      (x : ℂ) = (v - p.2.min.toC) / (p.2.max.toC - p.2.min.toC))
    ((labelParams s).filter fun (p : Str × Param ℝ) => !p.2.isConst) y

/-- The curve of sample `j`: thicknesses `t`, roughnesses `r` and densities `d` of row `j` go to the engine (or to the
builtin simulation) with the q values of the trainer. -/
def CurveOf (eng : Option Engine) (s : SampleV ℝ) (q : List ℝ) (f : Frame (Num ℝ)) (j : Nat) (c : List ℝ) : Prop :=
  ∃ (t r : List ℝ) (d : List ℂ),
    List.Forall₂ (fun (l : LayerV ℝ) (x : ℝ) => LabelCell f (l.name ++ "_thickness".toList) j x) s.layers t ∧
    List.Forall₂ (fun (l : LayerV ℝ) (x : ℝ) => LabelCell f (l.name ++ "_roughness".toList) j x)
      (s.substrate :: s.layers) r ∧
    List.Forall₂ (fun (l : LayerV ℝ) (x : ℂ) => LabelCell f (l.name ++ "_sld".toList) j x)
      (s.substrate :: s.layers ++ [s.ambient]) d ∧
    match eng with
    | some eng => ∃ a e, refl1dFor q t r d a ∧ eng a = .ok e ∧ assignRow q.length e = .ok (c.map some)
    | none => multilayerReflectivity (q.map fun (x : ℝ) => x * 1e10) (t.map fun (x : ℝ) => x * 1e-10)
        (r.map fun (x : ℝ) => x * 1e-10) ((d.map fun (z : ℂ) => z * 1e14).dropLast)
        ((d.map fun (z : ℂ) => z * 1e14).getLastD 0) = .ok (c.map some)

/-- The input of a batch with these rows: a table, but a single curve is passed without the batch dimension (noise.py l.36-39). -/
def InputOf (w : Nat) (rows : List (List ℝ)) (x : NArr) : Prop :=
  if rows.length = 1 then ∃ r, rows = [r] ∧ r.length = w ∧ x = .d1 r else x = .d2 w rows

/-- Every batch that the generator `u` gives after any number of epochs consists of distinct samples `j` from `[lo, hi)`;
its label rows are their training labels and its input rows (`InputOf`) their curves with noise and scaling of up to ten percent,
standardized with `m` and `sd`. -/
def BatchesOk (env : TrainEnv G Net) (u : UGen) (s : SampleV ℝ) (q : List ℝ) (f : Frame (Num ℝ)) (lo hi batch : Nat)
    (m sd : List ℝ) : Prop :=
  ∀ s' : Gen, Gen.Epochs env.rng u.gen s' → ∀ i < s'.len, ∀ g g' x y,
    s'.uniformItem env.rng u.noise u.scaling (u.ip.mean.getD []) (u.ip.std.getD []) i g = .ok ((x, y), g') →
    ∃ (samples : List Nat) (rows : List (List ℝ)), InputOf q.length rows x ∧ samples.length = batch ∧ samples.Nodup ∧
      (∀ j ∈ samples, lo ≤ j ∧ j < hi) ∧
      List.Forall₂ (fun (j : Nat) (t : List ℝ) => TargetOf s f j t) samples y ∧
      List.Forall₂ (fun (j : Nat) (r : List ℝ) => ∃ c r1, CurveOf env.refl1d s q f j c ∧
        ScaledOf (0.9, 1.1) (0.9, 1.1) c r1 ∧
        r = List.zipWith (· / ·) (List.zipWith (· - ·) r1 m) sd) samples rows

/-- `m` and `sd` are mean and standard deviation of one noisy version of every curve, and no deviation is zero. -/
def FittedOn (env : TrainEnv G Net) (s : SampleV ℝ) (q : List ℝ) (f : Frame (Num ℝ)) (n : Nat) (m sd : List ℝ) : Prop :=
  ∃ noisy : List (List ℝ),
    List.Forall₂ (fun (j : Nat) (r : List ℝ) => ∃ c, CurveOf env.refl1d s q f j c ∧ ScaledOf (0.9, 1.1) (0.9, 1.1) c r)
      (List.range n) noisy ∧
    m = (List.range q.length).map (colMean noisy) ∧
    sd = (List.range q.length).map (fun (j : Nat) => Real.sqrt (colVar noisy j)) ∧ ∀ x ∈ sd, 0 < x

/-! ### The label table -/

theorem get_map_val {V W : Type} (h : List V → List W) (f : Frame V) (k : Str) :
    Frame.get (f.map fun (c : Str × List V) => (c.1, h c.2)) k = (f.get k).map h := by
  induction f with
  | nil => rfl
  | cons c f ih =>
    rw [List.map_cons, get_cons, get_cons]
    split_ifs
    · rfl
    · exact ih

theorem frame_eq_map {V : Type} {f : Frame V} (hnd : f.columns.Nodup) (F : Str → List V)
    (hF : ∀ k ∈ f.columns, f.get k = .ok (F k)) : f = f.columns.map fun (k : Str) => (k, F k) := by
  induction f with
  | nil => rfl
  | cons c f ih =>
    simp only [Frame.columns, List.map_cons, List.nodup_cons] at hnd
    have h1 := hF c.1 (by simp [Frame.columns])
    rw [get_cons, if_pos rfl] at h1
    have h2 : c = (c.1, F c.1) := by
      rw [Except.ok.injEq] at h1
      exact Prod.ext rfl h1
    have h3 := ih hnd.2 fun k hk => by
      have := hF k (by simp only [Frame.columns, List.map_cons, List.mem_cons]; exact Or.inr hk)
      rw [get_cons, if_neg (fun he : c.1 = k => hnd.1 (by rw [he]; exact hk))] at this
      exact this
    simp only [Frame.columns, List.map_cons]
    rw [← h2]
    congr 1

/-- The columns of a generated table: one list of `n` values for each label; thicknesses and roughnesses are real. -/
theorem generated_columns {rng : Rng G} (ok : rng.Ok) {s : SampleV ℝ} (hs : SampleRegular s) (hn : (partNames s).Nodup)
    (hsub : ∀ p, s.substrate.roughness = some p → ∃ a b, p.min = .real a ∧ p.max = .real b)
    {n : Int} {d : DistArgs} {g g' : G} {f : Frame (Num ℝ)} (h : generateRandomLabels rng s n d g = .ok (f, g')) :
    ∃ F : Str → List (Num ℝ), f = f.columns.map (fun (k : Str) => (k, F k)) ∧
      (∀ k ∈ f.columns, f.get k = .ok (F k) ∧ (F k).length = n.toNat) ∧
      (∀ l ∈ s.layers, ∀ v ∈ F (l.name ++ "_thickness".toList), ∃ x, v = Num.real x) ∧
      (∀ l ∈ s.substrate :: s.layers, ∀ v ∈ F (l.name ++ "_roughness".toList), ∃ x, v = Num.real x) ∧
      (∀ l ∈ s.substrate :: s.layers ++ [s.ambient], ∀ p, l.sld = some p → ∀ a b, p.min = .real a → p.max = .real b →
        ∀ v ∈ F (l.name ++ "_sld".toList), ∃ x, v = Num.real x) := by
  obtain ⟨-, hc, hlab, hrows⟩ := C17_label_table ok s hs hn n d g g' f h
  have hnd : f.columns.Nodup := by
    rw [hc, ← labelParams_names hs]; exact labelParams_nodup hs hn
  have hget : ∀ k ∈ f.columns, ∃ col, f.get k = .ok col ∧ col.length = n.toNat := by
    intro k hk
    rw [hc, expectedLabels, List.mem_append, List.mem_append] at hk
    rcases hk with (hk | hk) | hk
    · obtain ⟨nm, hnm, rfl⟩ := List.mem_map.1 hk
      obtain ⟨l, hl, rfl⟩ := List.mem_map.1 hnm
      obtain ⟨p, hp, -⟩ := (hs.layers l hl).thickness
      obtain ⟨q, hq, -⟩ := (hs.layers l hl).roughness
      obtain ⟨col, col', h1, h2, -⟩ := (hrows l (by simp [hl])).film p q hp hq
      exact ⟨col, h1, h2.1⟩
    · obtain ⟨nm, hnm, rfl⟩ := List.mem_map.1 hk
      rcases List.mem_cons.1 hnm with rfl | hnm
      · obtain ⟨q, hq, -⟩ := hs.substrate.roughness
        obtain ⟨col, h1, h2⟩ := (hrows s.substrate (by simp)).substrate q hs.substrate.thickness hq
        exact ⟨col, h1, h2.1⟩
      · obtain ⟨l, hl, rfl⟩ := List.mem_map.1 hnm
        obtain ⟨p, hp, -⟩ := (hs.layers l hl).thickness
        obtain ⟨q, hq, -⟩ := (hs.layers l hl).roughness
        obtain ⟨col, col', -, -, h3, h4, -⟩ := (hrows l (by simp [hl])).film p q hp hq
        exact ⟨col', h3, h4⟩
    · obtain ⟨nm, hnm, rfl⟩ := List.mem_map.1 hk
      have hl : ∃ l ∈ s.substrate :: s.layers ++ [s.ambient], l.name = nm ∧ ∃ p, l.sld = some p := by
        simp only [List.cons_append, List.mem_cons, List.mem_append, List.not_mem_nil, or_false] at hnm
        rcases hnm with rfl | hnm | rfl
        · obtain ⟨p, hp, -⟩ := hs.substrate.sld
          exact ⟨s.substrate, by simp, rfl, p, hp⟩
        · obtain ⟨l, hl, rfl⟩ := List.mem_map.1 hnm
          obtain ⟨p, hp, -⟩ := (hs.layers l hl).sld
          exact ⟨l, by simp [hl], rfl, p, hp⟩
        · obtain ⟨p, hp, -⟩ := hs.ambient.sld
          exact ⟨s.ambient, by simp, rfl, p, hp⟩
      obtain ⟨l, hl, rfl, p, hp⟩ := hl
      obtain ⟨col, h1, h2⟩ := (hrows l hl).sld p hp
      exact ⟨col, h1, h2.1⟩
  refine ⟨fun k => match f.get k with | .ok c => c | .error _ => [], ?_, ?_, ?_, ?_, ?_⟩
  · refine frame_eq_map hnd _ fun k hk => ?_
    obtain ⟨col, h1, -⟩ := hget k hk
    rw [h1]
  · intro k hk
    obtain ⟨col, h1, h2⟩ := hget k hk
    simp only [h1]
    exact ⟨trivial, h2⟩
  · intro l hl
    obtain ⟨p, hp, -⟩ := (hs.layers l hl).thickness
    obtain ⟨q, hq, -⟩ := (hs.layers l hl).roughness
    obtain ⟨col, col', h1, -, -, -, h5, -⟩ := (hrows l (by simp [hl])).film p q hp hq
    simp only [h1]
    exact fun v hv => h5 v (List.mem_append_left _ hv)
  · intro l hl
    rcases List.mem_cons.1 hl with rfl | hl
    · obtain ⟨q, hq, -⟩ := hs.substrate.roughness
      obtain ⟨col, h1, h2⟩ := (hrows s.substrate (by simp)).substrate q hs.substrate.thickness hq
      obtain ⟨a, b, ha, hb⟩ := hsub q hq
      simp only [h1]
      exact h2.2.2 a b ha hb
    · obtain ⟨p, hp, -⟩ := (hs.layers l hl).thickness
      obtain ⟨q, hq, -⟩ := (hs.layers l hl).roughness
      obtain ⟨col, col', -, -, h3, -, h5, -⟩ := (hrows l (by simp [hl])).film p q hp hq
      simp only [h3]
      exact fun v hv => h5 v (List.mem_append_right _ hv)
  · intro l hl p hp
    obtain ⟨col, h1, h2⟩ := (hrows l hl).sld p hp
    simp only [h1]
    exact h2.2.2

/-- The value of a label of a sample. -/
noncomputable def cellC (F : Str → List (Num ℝ)) (k : Str) (i : Nat) : ℂ := ((F k)[i]?.getD (.real 0)).toC

theorem cellC_some {F : Str → List (Num ℝ)} {k : Str} {i n : Nat} (hl : (F k).length = n) (hi : i < n) :
    ∃ x, (F k)[i]? = some x ∧ x ∈ F k ∧ x.toC = cellC F k i := by
  have hi' : i < (F k).length := by omega
  refine ⟨(F k)[i], by simp [hi'], List.getElem_mem hi', ?_⟩
  unfold cellC
  rw [List.getElem?_eq_getElem hi']
  rfl

theorem cellC_real {F : Str → List (Num ℝ)} {k : Str} {i n : Nat} (hl : (F k).length = n) (hi : i < n)
    (hr : ∀ v ∈ F k, ∃ x, v = Num.real x) : cellC F k i = ((cellC F k i).re : ℂ) := by
  obtain ⟨x, -, hx, he⟩ := cellC_some hl hi
  obtain ⟨y, rfl⟩ := hr x hx
  rw [← he]
  rfl

/-- Thicknesses, roughnesses and densities of sample `i`. -/
noncomputable def rowT (s : SampleV ℝ) (F : Str → List (Num ℝ)) (i : Nat) : List ℝ :=
  s.layers.map fun (l : LayerV ℝ) => (cellC F (l.name ++ "_thickness".toList) i).re
noncomputable def rowR (s : SampleV ℝ) (F : Str → List (Num ℝ)) (i : Nat) : List ℝ :=
  (s.substrate :: s.layers).map fun (l : LayerV ℝ) => (cellC F (l.name ++ "_roughness".toList) i).re
noncomputable def rowS (s : SampleV ℝ) (F : Str → List (Num ℝ)) (i : Nat) : List ℂ :=
  (s.substrate :: s.layers ++ [s.ambient]).map fun (l : LayerV ℝ) => cellC F (l.name ++ "_sld".toList) i

theorem mem_labels {s : SampleV ℝ} :
    (∀ l ∈ s.layers, l.name ++ "_thickness".toList ∈
      expectedLabels s.substrate.name (s.layers.map (·.name)) s.ambient.name) ∧
    (∀ l ∈ s.substrate :: s.layers, l.name ++ "_roughness".toList ∈
      expectedLabels s.substrate.name (s.layers.map (·.name)) s.ambient.name) ∧
    (∀ l ∈ s.substrate :: s.layers ++ [s.ambient], l.name ++ "_sld".toList ∈
      expectedLabels s.substrate.name (s.layers.map (·.name)) s.ambient.name) := by
  unfold expectedLabels
  refine ⟨fun l hl => ?_, fun l hl => ?_, fun l hl => ?_⟩
  · exact List.mem_append_left _ (List.mem_append_left _ (List.mem_map.2 ⟨_, List.mem_map.2 ⟨l, hl, rfl⟩, rfl⟩))
  · refine List.mem_append_left _ (List.mem_append_right _ (List.mem_map.2 ⟨l.name, ?_, rfl⟩))
    rw [← List.map_cons (f := fun (x : LayerV ℝ) => x.name)]
    exact List.mem_map.2 ⟨l, hl, rfl⟩
  · refine List.mem_append_right _ (List.mem_map.2 ⟨l.name, ?_, rfl⟩)
    have : s.substrate.name :: s.layers.map (·.name) ++ [s.ambient.name] =
        (s.substrate :: s.layers ++ [s.ambient]).map (·.name) := by simp
    rw [this]
    exact List.mem_map.2 ⟨l, hl, rfl⟩

theorem generated_isTable {s : SampleV ℝ} {f : Frame (Num ℝ)} {n : Nat} {F : Str → List (Num ℝ)}
    (hc : f.columns = expectedLabels s.substrate.name (s.layers.map (·.name)) s.ambient.name)
    (hF : f = f.columns.map (fun (k : Str) => (k, F k)))
    (hl : ∀ k ∈ f.columns, (F k).length = n)
    (ht : ∀ l ∈ s.layers, ∀ v ∈ F (l.name ++ "_thickness".toList), ∃ x, v = Num.real x)
    (hr : ∀ l ∈ s.substrate :: s.layers, ∀ v ∈ F (l.name ++ "_roughness".toList), ∃ x, v = Num.real x) :
    IsTable f.columns s.layers.length (toSimTable f n) (rowT s F) (rowR s F) (rowS s F) := by
  obtain ⟨m1, m2, m3⟩ := mem_labels (s := s)
  rw [← hc] at m1 m2 m3
  refine ⟨?_, fun i hi => ?_, fun i _ => by simp [rowT], fun i _ => by simp [rowR], fun i _ => by simp [rowS]⟩
  · simp [toSimTable, Frame.columns]
  · have hi : i < n := hi
    have e1 : (toSimTable f n).frame.map (fun c => c.2[i]?) = f.columns.map fun (k : Str) => some (cellC F k i) := by
      unfold toSimTable
      simp only
      conv_lhs => rw [hF]
      rw [List.map_map, List.map_map]
      refine List.map_congr_left fun k hk => ?_
      obtain ⟨x, h1, -, h3⟩ := cellC_some (hl k hk) hi
      simp only [Function.comp, List.getElem?_map, h1, Option.map_some, h3]
    have eA : ((s.layers.map fun (l : LayerV ℝ) => l.name).map (· ++ "_thickness".toList)).map
        (fun (k : Str) => some (cellC F k i)) = ((rowT s F i).map Complex.ofReal).map some := by
      unfold rowT
      simp only [List.map_map]
      refine List.map_congr_left fun l hm => ?_
      simp only [Function.comp]
      rw [← cellC_real (hl _ (m1 l hm)) hi (ht l hm)]
    have eB : ((s.substrate.name :: s.layers.map fun (l : LayerV ℝ) => l.name).map (· ++ "_roughness".toList)).map
        (fun (k : Str) => some (cellC F k i)) = ((rowR s F i).map Complex.ofReal).map some := by
      unfold rowR
      rw [← List.map_cons (f := fun (x : LayerV ℝ) => x.name)]
      simp only [List.map_map]
      refine List.map_congr_left fun l hm => ?_
      simp only [Function.comp]
      rw [← cellC_real (hl _ (m2 l hm)) hi (hr l hm)]
    have eC : ((s.substrate.name :: (s.layers.map fun (l : LayerV ℝ) => l.name) ++ [s.ambient.name]).map
        (· ++ "_sld".toList)).map (fun (k : Str) => some (cellC F k i)) = (rowS s F i).map some := by
      have : s.substrate.name :: s.layers.map (·.name) ++ [s.ambient.name] =
          (s.substrate :: s.layers ++ [s.ambient]).map (·.name) := by simp
      rw [this]
      unfold rowS
      simp only [List.map_map]
      rfl
    rw [e1, hc]
    unfold expectedLabels
    simp only [List.map_append (f := fun (k : Str) => some (cellC F k i))]
    rw [eA, eB, eC, ← List.map_append, ← List.map_append]

/-! ### The curves -/

theorem finiteCurve_ok {c : List (Option ℝ)} {v : List ℝ} (h : finiteCurve c = .ok v) : c = v.map some := by
  unfold finiteCurve at h
  rw [mapM_ok_iff] at h
  induction h with
  | nil => rfl
  | @cons a b l r hab _ ih =>
    cases a with
    | none => cases hab
    | some x => cases hab; rw [List.map_cons, ← ih]

theorem forall₂_map_self {α β : Type} {R : α → β → Prop} {l : List α} {f : α → β} (h : ∀ a ∈ l, R a (f a)) :
    List.Forall₂ R l (l.map f) := by
  rw [List.forall₂_map_right_iff, List.forall₂_same]
  exact h

/-- Curve `j` of the training data belongs to row `j` of the labels. -/
theorem data_curves {env : TrainEnv G Net} (ok : env.rng.Ok)
    (hz : ∀ m n g, ∀ x ∈ (env.rng.normal m 0 n g).1, x = m) {s : SampleV ℝ} (hs : SampleRegular s)
    (hn : (partNames s).Nodup) (hk : KeywordFree (partNames s)) (hlay : 0 < s.layers.length)
    (hsub : ∀ p, s.substrate.roughness = some p → ∃ a b, p.min = .real a ∧ p.max = .real b)
    {q : List ℝ} {n : Int} {g g' : G} {d : TrainData} (h : trainingData env s q n g = .ok (d, g')) :
    d.rows = n.toNat ∧ d.labels.columns = (labelParams s).map (·.1) ∧
    (∃ F : Str → List (Num ℝ), d.labels = d.labels.columns.map (fun (k : Str) => (k, F k)) ∧
      (∀ k ∈ d.labels.columns, d.labels.get k = .ok (F k) ∧ (F k).length = n.toNat) ∧
      (∀ l ∈ s.layers, ∀ v ∈ F (l.name ++ "_thickness".toList), ∃ x, v = Num.real x) ∧
      (∀ l ∈ s.substrate :: s.layers, ∀ v ∈ F (l.name ++ "_roughness".toList), ∃ x, v = Num.real x) ∧
      (∀ l ∈ s.substrate :: s.layers ++ [s.ambient], ∀ p, l.sld = some p → ∀ a b, p.min = .real a → p.max = .real b →
        ∀ v ∈ F (l.name ++ "_sld".toList), ∃ x, v = Num.real x)) ∧
    List.Forall₂ (fun (j : Nat) (c : List ℝ) => CurveOf env.refl1d s q d.labels j c ∧ c.length = q.length)
      (List.range n.toNat) d.curves := by
  unfold trainingData at h
  obtain ⟨f, g1, h1, h⟩ := Rand.bind_ok.1 h
  obtain ⟨c0, g2, h2, h⟩ := Rand.bind_ok.1 h
  obtain ⟨c, g3, h3, h⟩ := Rand.bind_ok.1 h
  cases Rand.pure_ok.1 h
  have h3 := (Rand.ofRes_ok.1 h3).1
  simp only at h3 ⊢
  obtain ⟨-, hc, hlab, -⟩ := C17_label_table ok.toOk s hs hn n _ _ _ f h1
  obtain ⟨F, hF, hget, ht, hr, hsld⟩ := generated_columns ok.toOk hs hn hsub h1
  have htab := generated_isTable hc hF (fun k hk => (hget k hk).2) ht hr
  refine ⟨trivial, by rw [hc, labelParams_names hs], ⟨F, hF, hget, ht, hr, hsld⟩, ?_⟩
  obtain ⟨m1, m2, m3⟩ := mem_labels (s := s)
  rw [← hc] at m1 m2 m3
  have hcell : ∀ i < n.toNat, ∀ k ∈ f.columns, LabelCell f k i (cellC F k i) := by
    intro i hi k hk
    obtain ⟨x, e1, -, e2⟩ := cellC_some (hget k hk).2 hi
    exact ⟨F k, x, (hget k hk).1, e1, e2⟩
  have hrows : ∀ i < n.toNat,
      List.Forall₂ (fun (l : LayerV ℝ) (x : ℝ) => LabelCell f (l.name ++ "_thickness".toList) i x) s.layers (rowT s F i) ∧
      List.Forall₂ (fun (l : LayerV ℝ) (x : ℝ) => LabelCell f (l.name ++ "_roughness".toList) i x)
        (s.substrate :: s.layers) (rowR s F i) ∧
      List.Forall₂ (fun (l : LayerV ℝ) (x : ℂ) => LabelCell f (l.name ++ "_sld".toList) i x)
        (s.substrate :: s.layers ++ [s.ambient]) (rowS s F i) := by
    intro i hi
    refine ⟨forall₂_map_self fun l hl => ?_, forall₂_map_self fun l hl => ?_, forall₂_map_self fun l hl => ?_⟩
    · rw [← cellC_real (hget _ (m1 l hl)).2 hi (ht l hl)]; exact hcell i hi _ (m1 l hl)
    · rw [← cellC_real (hget _ (m2 l hl)).2 hi (hr l hl)]; exact hcell i hi _ (m2 l hl)
    · exact hcell i hi _ (m3 l hl)
  obtain ⟨gq, hq⟩ := noisyQ_zero env.rng.toRng ok.toOk hz env.pf q n.toNat g1
  have hcurve : List.Forall₂ (fun (j : Nat) (c : List (Option ℝ)) => c.length = q.length ∧ ∀ v : List ℝ, c = v.map some →
      CurveOf env.refl1d s q f j v) (List.range n.toNat) c0 := by
    cases he : env.refl1d with
    | some eng =>
      rw [he] at h2
      obtain ⟨Q, a, h4, h5, h6⟩ := C40_refl1d_partial s hs f.columns hlab hk hlay _ _ _ _ htab env.rng.toRng ok.toOk eng
        env.pf q (.num 0) g1 g2 c0 h2
      have hQ : ∀ i < n.toNat, Q i = q := by
        have h5 : makeNoisyQ env.rng.toRng env.pf q (.num 0) n.toNat g1 = _ := h5
        rw [hq] at h5
        simp only [Except.ok.injEq, Prod.mk.injEq] at h5
        intro i hi
        have := congrArg (fun l => l[i]?) h5.1
        simp [toSimTable, hi] at this
        exact this.symm
      refine forall₂_imp_mem h6 fun i ci hi hci => ?_
      have hi : i < n.toNat := List.mem_range.1 hi
      obtain ⟨e, he1, he2⟩ := hci
      have ha := (h4 i hi).2
      rw [hQ i hi] at ha
      refine ⟨?_, fun v hv => ?_⟩
      · unfold assignRow at he2
        split_ifs at he2 with hlen
        · cases he2; exact hlen
        · split at he2
          · cases he2; simp
          · cases he2
      · obtain ⟨r1, r2, r3⟩ := hrows i hi
        exact ⟨_, _, _, r1, r2, r3, a i, e, ha, he1, by rw [he2, hv]⟩
    | none =>
      rw [he] at h2
      unfold refl1dS at h2
      rw [C40_builtin_partial s hs f.columns hlab hk hlay _ _ _ _ htab env.rng.toRng none env.pf q (.num 0) g1 gq _
        (.inr ⟨rfl, rfl⟩) (fun _ => q) (fun _ _ => rfl) hq] at h2
      cases hm : ((List.range (toSimTable f n.toNat).nrows).mapM fun (i : Nat) =>
        multilayerReflectivity (q.map fun (x : ℝ) => x * 1e10) ((rowT s F i).map fun (x : ℝ) => x * 1e-10)
          ((rowR s F i).map fun (x : ℝ) => x * 1e-10) (((rowS s F i).map fun (z : ℂ) => z * 1e14).dropLast)
          (((rowS s F i).map fun (z : ℂ) => z * 1e14).getLastD 0)) with
      | error e => rw [hm] at h2; cases h2
      | ok c1 =>
        rw [hm] at h2
        cases h2
        rw [mapM_ok_iff] at hm
        refine forall₂_imp_mem hm fun i ci hi hci => ?_
        have hi : i < n.toNat := List.mem_range.1 hi
        refine ⟨by rw [multilayer_length hci]; simp, fun v hv => ?_⟩
        obtain ⟨r1, r2, r3⟩ := hrows i hi
        exact ⟨_, _, _, r1, r2, r3, by rw [← hv]; exact hci⟩
  rw [mapM_ok_iff] at h3
  refine (forall₂_comp hcurve h3).imp ?_
  rintro i v ⟨ci, ⟨h4, h5⟩, h6⟩
  have := finiteCurve_ok h6
  exact ⟨h5 v this, by rw [this] at h4; simpa using h4⟩

/-! ### The standardization -/

theorem scaledOf_comp {noise scaling : ℝ × ℝ} {cs ns rs : List (List ℝ)}
    (h1 : List.Forall₂ (fun (v r : List ℝ) => ∃ u : List ℝ, u.length = v.length ∧
      (∀ f ∈ u, f ∈ Set.uIcc noise.1 noise.2) ∧ r = List.zipWith (· * ·) v u) cs ns)
    (h2 : List.Forall₂ (fun (v r : List ℝ) => ∃ f : ℝ, f ∈ Set.uIcc scaling.1 scaling.2 ∧ r = v.map (· * f)) ns rs) :
    List.Forall₂ (ScaledOf noise scaling) cs rs := by
  refine (forall₂_comp h1 h2).imp ?_
  rintro c r ⟨v, ⟨u, hu, hm, rfl⟩, f, hf, rfl⟩
  exact ⟨u, f, hu, hm, hf, rfl⟩

theorem prepareInput_ok {env : TrainEnv G Net} (ok : env.rng.Ok) {nq : Nat} {cs : List (List ℝ)}
    {g g' : G} {ip : IPState} (h : prepareInput env nq cs g = .ok (ip, g')) :
    ∃ noisy : List (List ℝ), List.Forall₂ (ScaledOf (0.9, 1.1) (0.9, 1.1)) cs noisy ∧
      ip = ⟨some ((List.range nq).map (colMean noisy)),
        some ((List.range nq).map fun (j : Nat) => Real.sqrt (colVar noisy j))⟩ ∧
      ∀ x ∈ (List.range nq).map (fun (j : Nat) => Real.sqrt (colVar noisy j)), 0 < x := by
  unfold prepareInput at h
  obtain ⟨x1, g1, h1, h⟩ := Rand.bind_ok.1 h
  obtain ⟨x2, g2, h2, h⟩ := Rand.bind_ok.1 h
  have h3 := (Rand.ofRes_ok.1 h).1
  simp only at h3
  obtain ⟨ns, hf1, hx1⟩ := uniform_ok ok h1
  rcases hx1 with ⟨v, r, e, -, -⟩ | ⟨w, rows, e, rfl⟩
  · cases e
  cases e
  obtain ⟨rs, hf2, hx2⟩ := scaling_ok ok h2
  rcases hx2 with ⟨r, rfl, rfl⟩ | ⟨w, rows, e, -, rfl⟩
  · cases h3
  cases e
  have hs := scaledOf_comp (noise := (0.9, 1.1)) (scaling := (0.9, 1.1)) hf1 hf2
  refine ⟨rs, hs, ?_⟩
  unfold freshStandardize at h3
  simp only at h3
  split_ifs at h3 with hw
  by_cases hnc : NonConstant ⟨nq, rs, hw.1, hw.2⟩
  swap
  · rw [(standardize_fresh _).1 hnc] at h3
    cases h3
  have hrun : IPState.run [.standardize ⟨nq, rs, hw.1, hw.2⟩] = fitted ⟨nq, rs, hw.1, hw.2⟩ := by
    show (IPState.init.standardize _).2 = _
    rw [(standardize_fresh _).2 hnc]
  rw [(standardize_fresh _).2 hnc] at h3
  cases h3
  refine ⟨rfl, ?_⟩
  have := (C19_consistent [.standardize ⟨nq, rs, hw.1, hw.2⟩]).2.2
  rw [hrun] at this
  exact this _ rfl

/-! ### The training labels -/

/-- The table of the labels with a range, each relative to its range. -/
theorem prep_table {s : SampleV ℝ} (hs : SampleRegular s) (hn : (partNames s).Nodup) {f : Frame (Num ℝ)} {n : Nat}
    {F : Str → List (Num ℝ)} (hc : f.columns = (labelParams s).map (·.1))
    (hget : ∀ k ∈ f.columns, f.get k = .ok (F k) ∧ (F k).length = n) :
    ∃ b, applyPreprocessing ⟨minToZeroS, true⟩ s (.frame (toTable f n)) = .ok (⟨n,
      ((labelParams s).filter fun (p : Str × Param ℝ) => !p.2.isConst).map fun (q : Str × Param ℝ) =>
        (q.1, (F q.1).map fun (x : Num ℝ) => some (normalized minToZero q.2.min.toC q.2.max.toC x.toC))⟩, b) := by
  have hcol : (toTable f n).cols.columns = (labelParams s).map (·.1) := by
    rw [← hc]; simp [toTable, Frame.columns]
  obtain ⟨p, b, h1, h2, -, -, -, -, h7, h8, -⟩ := C24_partition minToZero (Or.inl rfl) s hs hn
    (by intro h; exact absurd h (by decide)) (toTable f n) (by rw [hcol])
  have h7 := h7 hcol
  have hrows : p.rows = n := h2
  have hlp := labelParams_nodup hs hn
  have hand : p.cols.columns.Nodup := by
    rw [h7]; exact hlp.sublist (List.filter_sublist.map _)
  have hval : ∀ q ∈ (labelParams s).filter (fun (p : Str × Param ℝ) => !p.2.isConst),
      p.cols.get q.1 = .ok ((F q.1).map fun (x : Num ℝ) => some (normalized minToZero q.2.min.toC q.2.max.toC x.toC)) := by
    rintro ⟨nm, q⟩ hq
    obtain ⟨hq1, hq2⟩ := List.mem_filter.1 hq
    cases q with
    | const v nm' => simp [Param.isConst] at hq2
    | range lo hi nm' =>
      obtain ⟨col, e1, e2⟩ := h8 nm lo hi nm' hq1
      have hk : nm ∈ f.columns := by rw [hc]; exact List.mem_map.2 ⟨_, hq1, rfl⟩
      unfold toTable at e1
      simp only at e1
      rw [get_map_val (fun (l : List (Num ℝ)) => l.map fun (x : Num ℝ) => some x.toC), (hget nm hk).1] at e1
      cases e1
      rw [e2, List.map_map]
      rfl
  have hA := frame_eq_map (f := p.cols) hand
    (fun k => match p.cols.get k with | .ok c => c | .error _ => []) (fun k hk => by
      obtain ⟨c, hc⟩ := get_ok_of_mem hk
      rw [hc])
  refine ⟨b, ?_⟩
  have hp : p = ⟨n, ((labelParams s).filter fun (p : Str × Param ℝ) => !p.2.isConst).map fun (q : Str × Param ℝ) =>
        (q.1, (F q.1).map fun (x : Num ℝ) => some (normalized minToZero q.2.min.toC q.2.max.toC x.toC))⟩ := by
    obtain ⟨rows, cols⟩ := p
    simp only at hrows hA h7 hval
    rw [hA, h7, List.map_map, hrows]
    congr 1
    refine List.map_congr_left fun q hq => ?_
    simp only [Function.comp, hval q hq]
  rw [← hp]
  exact h1

theorem target_rows {s : SampleV ℝ} (hs : SampleRegular s) (hn : (partNames s).Nodup) {f : Frame (Num ℝ)} {n : Nat}
    {F : Str → List (Num ℝ)} (hc : f.columns = (labelParams s).map (·.1))
    (hget : ∀ k ∈ f.columns, f.get k = .ok (F k) ∧ (F k).length = n) {p b : Table}
    (hp : applyPreprocessing ⟨minToZeroS, true⟩ s (.frame (toTable f n)) = .ok (p, b)) {rows : List (List ℝ)}
    (hr : tableRows p = .ok rows) : p.rows = n ∧ rows.length = n ∧
      List.Forall₂ (fun (j : Nat) (y : List ℝ) => TargetOf s f j y) (List.range n) rows := by
  obtain ⟨b', h1⟩ := prep_table hs hn hc hget
  rw [h1] at hp
  cases hp
  unfold tableRows at hr
  rw [mapM_ok_iff] at hr
  simp only at hr
  refine ⟨rfl, by rw [← hr.length_eq, List.length_range], forall₂_imp_mem hr fun j y hj hy => ?_⟩
  have hj : j < n := List.mem_range.1 hj
  rw [mapM_ok_iff, List.forall₂_map_left_iff] at hy
  refine forall₂_imp_mem hy fun q x hq hx => ?_
  obtain ⟨v, h3, h4⟩ := bind_eq_ok.1 hx
  simp only at h3
  have hk : q.1 ∈ f.columns := by rw [hc]; exact List.mem_map.2 ⟨_, (List.mem_filter.1 hq).1, rfl⟩
  obtain ⟨z, e1, -, e2⟩ := cellC_some (hget q.1 hk).2 hj
  obtain ⟨k, h5, h6⟩ := getItem_eq_ok_iff.1 h3
  rw [normIdx_nat (by rw [List.length_map, (hget q.1 hk).2]; exact hj)] at h5
  cases h5
  rw [List.getElem?_map, e1] at h6
  cases h6
  refine ⟨z.toC, ⟨F q.1, z, (hget q.1 hk).1, e1, rfl⟩, ?_⟩
  unfold realCell at h4
  simp only at h4
  split_ifs at h4 with him
  cases h4
  have : normalized minToZero q.2.min.toC q.2.max.toC z.toC = (z.toC - q.2.min.toC) / (q.2.max.toC - q.2.min.toC) := by
    unfold normalized
    rw [if_pos rfl]
  rw [← this]
  exact Complex.ext rfl him.symm

/-! ### The batches -/

theorem forall₂_range_get {α : Type} {R : Nat → α → Prop} {n : Nat} {l : List α}
    (h : List.Forall₂ R (List.range n) l) : l.length = n ∧ ∀ (j : Nat) (a : α), l[j]? = some a → R j a := by
  have hlen : l.length = n := by rw [← h.length_eq, List.length_range]
  refine ⟨hlen, fun j a ha => ?_⟩
  obtain ⟨hj, ha⟩ := List.getElem?_eq_some_iff.1 ha
  have := h.get (i := j) (by simp; omega) hj
  simp only [List.get_eq_getElem, List.getElem_range, ha] at this
  exact this

theorem gen_batches {env : TrainEnv G Net} (ok : env.rng.Ok) {s : SampleV ℝ} {q : List ℝ} {f : Frame (Num ℝ)}
    {cs ls : List (List ℝ)} {lo batch : Nat} (hlen : ls.length = cs.length)
    (hc : ∀ (j : Nat) (c : List ℝ), cs[j]? = some c → CurveOf env.refl1d s q f (lo + j) c ∧ c.length = q.length)
    (ht : ∀ (j : Nat) (y : List ℝ), ls[j]? = some y → TargetOf s f (lo + j) y)
    (hb : 1 ≤ batch) {g g' : G} {gt : Gen} (h : Gen.init env.rng cs q.length ls batch true g = .ok (gt, g'))
    {m sd : List ℝ} (hm : m.length = q.length) (hsd : sd.length = q.length) :
    BatchesOk env ⟨gt, noiseRange, scalingRange, ⟨some m, some sd⟩⟩ s q f lo (lo + cs.length) batch m sd := by
  intro s' hs' i hi g1 g2 x y hx
  have hset : GenSetting env.rng cs ls q.length batch true s' m sd i := by
    refine ⟨⟨g, gt, g', h, hs'⟩, hlen, fun r hr => ?_, by omega, hm, hsd, hi⟩
    obtain ⟨j, hj, rfl⟩ := List.getElem_of_mem hr
    exact (hc j _ (List.getElem?_eq_getElem hj)).2
  obtain ⟨samples, rows, hin, h2, h3, h4, h5⟩ : ∃ (samples : List Nat) (rows : List (List ℝ)), InputOf q.length rows x ∧
      samples.length = batch ∧ samples.Nodup ∧ List.Forall₂ (fun j r => ls[j]? = some r) samples y ∧
      List.Forall₂ (fun j r => ∃ curve r1, cs[j]? = some curve ∧ ScaledOf noiseRange scalingRange curve r1 ∧
        r = List.zipWith (· / ·) (List.zipWith (· - ·) r1 m) sd) samples rows := by
    rcases Nat.lt_or_ge 1 batch with hb2 | hb1
    · obtain ⟨samples, rows, e, h2, h3, h4, h5⟩ := C27_uniform_partial ok cs ls q.length batch true s' m sd i hset hb2
        noiseRange scalingRange g1 g2 x y hx
      refine ⟨samples, rows, ?_, h2, h3, h4, h5⟩
      unfold InputOf
      rw [if_neg (by rw [← h5.length_eq, h2]; omega)]
      exact e
    · obtain rfl : batch = 1 := by omega
      obtain ⟨samples, rs, x3, hl, hnd, fy, hf, hst, hx3⟩ := uniformItem_rows ok hset hx
      rcases hx3 with ⟨r, rfl, rfl⟩ | ⟨h1, rfl⟩
      · have hr : r.length = q.length := by
          obtain ⟨j, -, -, hj⟩ := forall₂_mem_right hf (show r ∈ [r] by simp)
          exact hj
        unfold standardizeArr bcast at hst
        simp only [hr, hm, hsd, List.length_zipWith, min_self, if_true, bind_ok] at hst
        cases hst
        refine ⟨samples, [List.zipWith (· / ·) (List.zipWith (· - ·) r m) sd], ?_, hl, hnd, fy, ?_⟩
        · unfold InputOf
          rw [if_pos (by simp)]
          exact ⟨_, rfl, by simp [hr, hm, hsd], rfl⟩
        · cases hf with
          | cons h4 h5 =>
            cases h5
            obtain ⟨⟨c, hc1, hc2⟩, -⟩ := h4
            exact .cons ⟨c, r, hc1, hc2, rfl⟩ .nil
      · exact (h1 (by rw [← hf.length_eq, hl])).elim
  refine ⟨samples.map (lo + ·), rows, hin, by simpa using h2, h3.map (fun a b hab => by simpa using hab), ?_, ?_, ?_⟩
  · intro j hj
    obtain ⟨k, hk, rfl⟩ := List.mem_map.1 hj
    obtain ⟨r, -, c, -, e, -⟩ := forall₂_mem_right h5.flip hk
    obtain ⟨hk, -⟩ := List.getElem?_eq_some_iff.1 e
    omega
  · rw [List.forall₂_map_left_iff]
    exact h4.imp fun j r hr => ht j r hr
  · rw [List.forall₂_map_left_iff]
    refine h5.imp ?_
    rintro j r ⟨c, r1, e1, e2, e3⟩
    exact ⟨c, r1, (hc j c e1).1, e2, e3⟩

/-- Training and drawing random numbers leave the data, the preprocessor, the sample and the q values. -/
theorem run_keeps (env : TrainEnv G Net) (l : List (TrainEvent G))
    (hl : ∀ e ∈ l, (∃ a b c, e = .train a b c) ∨ ∃ g, e = .draws g) (w : TrainerSt G Net) :
    (w.run env l).data = w.data ∧ (w.run env l).ip = w.ip ∧ (w.run env l).sample = w.sample ∧ (w.run env l).q = w.q ∧
      (w.run env l).netId = w.netId := by
  induction l generalizing w with
  | nil => exact ⟨rfl, rfl, rfl, rfl, rfl⟩
  | cons e l ih =>
    have key : (w.step env e).data = w.data ∧ (w.step env e).ip = w.ip ∧ (w.step env e).sample = w.sample ∧
        (w.step env e).q = w.q ∧ (w.step env e).netId = w.netId := by
      rcases hl e (by simp) with ⟨a, b, c, rfl⟩ | ⟨g, rfl⟩
      · simp only [TrainerSt.step, TrainerSt.train]
        split
        · exact ⟨rfl, rfl, rfl, rfl, rfl⟩
        · split <;> exact ⟨rfl, rfl, rfl, rfl, rfl⟩
      · exact ⟨rfl, rfl, rfl, rfl, rfl⟩
    obtain ⟨h1, h2, h3, h4, h5⟩ := ih (fun x hx => hl x (by simp [hx])) (w.step env e)
    exact ⟨h1.trans key.1, h2.trans key.2.1, h3.trans key.2.2.1, h4.trans key.2.2.2.1, h5.trans key.2.2.2.2⟩

/-- C91: after a successful `generate_training_data(n)` and any number of training runs, `train` passes two
generators to the network: every batch of the first consists of distinct samples among the first `⌊(1 - val_split) n⌋`,
every batch of the second of distinct other samples; inputs and labels of a row belong to the same sample, whose curve
was simulated from its own labels at the q values of the trainer; and the returned model stores exactly the mean and the
deviation with which the inputs were standardized, which are those of noisy versions of all curves. A batch of a single
curve has no batch dimension (`InputOf`, `C27_uniform_one`). Samples without layers are those of `C79_bare_substrate`, layer
names with the words thickness or roughness those of C07. -/
theorem C91_training (env : TrainEnv G Net) (ok : env.rng.Ok)
    (hz : ∀ m n g, ∀ x ∈ (env.rng.normal m 0 n g).1, x = m) (w0 : TrainerSt G Net) (hs : SampleRegular w0.sample)
    (hn : (partNames w0.sample).Nodup) (hk : KeywordFree (partNames w0.sample)) (hlay : 0 < w0.sample.layers.length)
    (hsub : ∀ p, w0.sample.substrate.roughness = some p → ∃ a b, p.min = .real a ∧ p.max = .real b)
    (n : Int) (w : TrainerSt G Net) (hg : w0.generate env n = (w, .ok ()))
    (l : List (TrainEvent G)) (hl : ∀ e ∈ l, (∃ a b c, e = .train a b c) ∨ ∃ g, e = .draws g)
    (epochs batch : Nat) (hb : 1 ≤ batch) (v : ℝ) (h0 : 0 ≤ v) (h1 : v ≤ 1) (f : FitIn) (g' : G)
    (hp : (w.run env l).prepare env epochs batch v (w.run env l).g = .ok (f, g')) :
    ∃ (d : TrainData) (m sd : List ℝ) (nT : Nat), (w.run env l).data = some d ∧ d.rows = n.toNat ∧
      FittedOn env w0.sample w0.q d.labels n.toNat m sd ∧
      BatchesOk env f.train w0.sample w0.q d.labels 0 nT batch m sd ∧
      BatchesOk env f.val w0.sample w0.q d.labels nT n.toNat batch m sd ∧
      (nT : ℝ) ≤ (1 - v) * n.toNat ∧ (1 - v) * n.toNat < nT + 1 ∧ f.epochs = epochs ∧
      ∀ r, ((w.run env l).train env epochs batch v).2 = .ok r → r = ⟨m, sd, w0.netId⟩ ∧
        ((w.run env l).train env epochs batch v).1.net = (env.fit (w.run env l).net f g').1 ∧
        ((w.run env l).train env epochs batch v).1.sample = w0.sample ∧
        ((w.run env l).train env epochs batch v).1.q = w0.q := by
  obtain ⟨k1, k2, k3, k4, k5⟩ := run_keeps env l hl w
  unfold TrainerSt.generate at hg
  cases hd : trainingData env w0.sample w0.q n w0.g with
  | error e => rw [hd] at hg; cases hg
  | ok dg =>
    obtain ⟨d, g1⟩ := dg
    rw [hd] at hg
    simp only at hg
    cases hi : prepareInput env w0.q.length d.curves g1 with
    | error e => rw [hi] at hg; cases hg
    | ok ig =>
      obtain ⟨ip, g2⟩ := ig
      rw [hi] at hg
      cases hg
      simp only at k1 k2 k3 k4 k5
      obtain ⟨e1, e2, ⟨F, hF, hget, -⟩, hcur⟩ := data_curves ok hz hs hn hk hlay hsub hd
      obtain ⟨noisy, hno, rfl, hpos⟩ := prepareInput_ok ok hi
      obtain ⟨hclen, hcget⟩ := forall₂_range_get hcur
      have hp0 := hp
      unfold TrainerSt.prepare at hp
      rw [k1, k2, k3, k4] at hp
      simp only at hp
      obtain ⟨⟨p, b⟩, g3, h3, hp⟩ := Rand.bind_ok.1 hp
      obtain ⟨rows, g4, h4, hp⟩ := Rand.bind_ok.1 hp
      obtain ⟨gt, g5, h5, hp⟩ := Rand.bind_ok.1 hp
      obtain ⟨gv, g6, h6, hp⟩ := Rand.bind_ok.1 hp
      obtain ⟨ip', g7, h7, hp⟩ := Rand.bind_ok.1 hp
      have h3 := (Rand.ofRes_ok.1 h3).1
      have h4 := (Rand.ofRes_ok.1 h4).1
      have h7 := (Rand.ofRes_ok.1 h7).1
      simp only at h3 h4 h7
      cases h7
      cases Rand.pure_ok.1 hp
      rw [e1] at h3
      obtain ⟨hprows, hrlen, htar⟩ := target_rows hs hn e2 hget h3 h4
      obtain ⟨-, htget⟩ := forall₂_range_get htar
      have s1 := trainSplit_eq h0 h1 d.curves
      have s2 := trainSplit_eq h0 h1 rows
      rw [hclen] at s1
      rw [hrlen] at s2
      rw [hprows, s1, s2] at h5 h6
      obtain ⟨b0, b1⟩ := nTrain_bounds h0 h1 n.toNat
      have hx : 0 ≤ (1 - v) * (n.toNat : ℝ) := mul_nonneg (by linarith) (Nat.cast_nonneg _)
      have hcast : (((nTrain v n.toNat).toNat : Nat) : ℝ) = ((nTrain v n.toNat : Int) : ℝ) := by
        have : ((nTrain v n.toNat).toNat : Int) = nTrain v n.toNat := Int.toNat_of_nonneg b0
        exact_mod_cast congrArg (Int.cast : Int → ℝ) this
      have hfl : nTrain v n.toNat = ⌊(1 - v) * (n.toNat : ℝ)⌋ := by
        unfold nTrain
        simp only [if_pos hx]
      have hT := gen_batches ok (lo := 0) (s := w0.sample) (q := w0.q) (f := d.labels) (by simp [hrlen, hclen])
        (fun j c hc => by
          rw [List.getElem?_take] at hc
          split_ifs at hc
          rw [Nat.zero_add]
          exact hcget j c hc)
        (fun j y hy => by
          rw [List.getElem?_take] at hy
          split_ifs at hy
          rw [Nat.zero_add]
          exact htget j y hy) hb h5 (m := (List.range w0.q.length).map (colMean noisy))
          (sd := (List.range w0.q.length).map fun (j : Nat) => Real.sqrt (colVar noisy j)) (by simp) (by simp)
      have hV := gen_batches ok (lo := (nTrain v n.toNat).toNat) (s := w0.sample) (q := w0.q) (f := d.labels)
        (by simp [hrlen, hclen])
        (fun j c hc => by
          rw [List.getElem?_drop] at hc
          exact hcget _ c hc)
        (fun j y hy => by
          rw [List.getElem?_drop] at hy
          exact htget _ y hy) hb h6 (m := (List.range w0.q.length).map (colMean noisy))
          (sd := (List.range w0.q.length).map fun (j : Nat) => Real.sqrt (colVar noisy j)) (by simp) (by simp)
      have l1 : 0 + (d.curves.take (nTrain v n.toNat).toNat).length = (nTrain v n.toNat).toNat := by
        rw [List.length_take, hclen]; omega
      have l2 : (nTrain v n.toNat).toNat + (d.curves.drop (nTrain v n.toNat).toNat).length = n.toNat := by
        rw [List.length_drop, hclen]; omega
      rw [l1] at hT
      rw [l2] at hV
      refine ⟨d, _, _, (nTrain v n.toNat).toNat, k1, e1, ⟨noisy, ?_, rfl, rfl, hpos⟩, hT, hV, ?_, ?_, rfl, ?_⟩
      · refine (forall₂_comp hcur hno).imp ?_
        rintro j r ⟨c, hc, hr⟩
        exact ⟨c, hc.1, hr⟩
      · rw [hcast, hfl]; exact Int.floor_le _
      · rw [hcast, hfl]; exact Int.lt_floor_add_one _
      · intro r hr
        unfold TrainerSt.train at hr ⊢
        rw [hp0] at hr ⊢
        simp only at hr ⊢
        cases hfit : env.fit (TrainerSt.run env _ l).net _ g' with
        | mk net res =>
          rw [hfit] at hr
          cases res with
          | error e => cases hr
          | ok g'' =>
            cases hr
            rw [k2, k5]
            exact ⟨rfl, if_pos rfl, k3, k4⟩

end Verif.Props
