import Verif.Props.Sampling

/-!
# C17: the table of random labels
-/

namespace Verif.Props
open Verif.Py Verif.Model Verif.Spec

/-! ### Column access -/

section
variable {V : Type}

theorem get_of_not_mem {f : Frame V} {k : Str} (h : k ∉ f.columns) : f.get k = .error .keyError := by
  unfold Frame.get
  have : f.find? (fun c => c.1 = k) = none := by
    rw [List.find?_eq_none]
    intro c hc hk
    simp only [decide_eq_true_eq] at hk
    exact h (List.mem_map.2 ⟨c, hc, hk⟩)
  rw [this]

theorem get_cons (c : Str × List V) (f : Frame V) (k : Str) :
    Frame.get (c :: f) k = if c.1 = k then .ok c.2 else Frame.get f k := by
  unfold Frame.get
  by_cases h : c.1 = k <;> simp [h]

theorem get_append_of_not_mem {f g : Frame V} {k : Str} (h : k ∉ f.columns) :
    Frame.get (f ++ g) k = Frame.get g k := by
  induction f with
  | nil => rfl
  | cons c f ih =>
    simp only [Frame.columns, List.map_cons, List.mem_cons, not_or] at h
    rw [List.cons_append, get_cons, if_neg (Ne.symm h.1)]
    exact ih h.2

theorem get_map_set (f : Frame V) (k k' : Str) (col : List V) (hk : k ∈ f.columns) :
    Frame.get (f.map fun c => if c.1 = k then (k, col) else c) k' =
      if k' = k then .ok col else Frame.get f k' := by
  induction f with
  | nil => simp [Frame.columns] at hk
  | cons c f ih =>
    rw [List.map_cons, get_cons, get_cons]
    by_cases hc : c.1 = k
    · simp only [hc, if_true]
      by_cases h : k' = k
      · simp [h]
      · rw [if_neg (Ne.symm h), if_neg h, if_neg (Ne.symm h)]
        by_cases hk' : k ∈ Frame.columns f
        · rw [ih hk', if_neg h]
        · have : (List.map (fun c : Str × List V => if c.1 = k then (k, col) else c) f) = f := by
            conv_rhs => rw [← List.map_id f]
            refine List.map_congr_left fun a ha => ?_
            rw [if_neg]
            · rfl
            · rintro rfl; exact hk' (List.mem_map.2 ⟨a, ha, rfl⟩)
          rw [this]
    · rw [if_neg hc]
      have hk' : k ∈ Frame.columns f := by
        simp only [Frame.columns, List.map_cons, List.mem_cons] at hk
        exact hk.resolve_left (Ne.symm hc)
      rw [ih hk']
      by_cases h : k' = k
      · subst h; rw [if_neg hc, if_pos rfl, if_pos rfl]
      · rw [if_neg h, if_neg h]

/-- `df[k] = col` sets column `k` and leaves the other columns. -/
theorem get_set (f : Frame V) (k k' : Str) (col : List V) :
    (f.set k col).get k' = if k' = k then .ok col else f.get k' := by
  unfold Frame.set
  split_ifs with h1 h2 h3
  · rw [get_map_set f k k' col h1, if_pos h2]
  · rw [get_map_set f k k' col h1, if_neg h2]
  · subst h3
    rw [get_append_of_not_mem h1, get_cons, if_pos rfl]
  · by_cases hm : k' ∈ f.columns
    · clear h1
      induction f with
      | nil => simp [Frame.columns] at hm
      | cons c f ih =>
        rw [List.cons_append, get_cons, get_cons]
        by_cases hc : c.1 = k'
        · simp [hc]
        · rw [if_neg hc, if_neg hc]
          simp only [Frame.columns, List.map_cons, List.mem_cons] at hm
          exact ih (hm.resolve_left (Ne.symm hc))
    · rw [get_append_of_not_mem hm, get_of_not_mem hm, get_cons, if_neg (Ne.symm h3)]
      exact get_of_not_mem (by simp [Frame.columns])

end

variable {G : Type} {rng : Rng G}

/-! ### One layer -/

/-- The label names of one layer. -/
def layerKeys (n : Str) : List Str :=
  [n ++ "_sld".toList, n ++ "_thickness".toList, n ++ "_roughness".toList]

theorem layerKeys_disjoint {m n : Str} (h : m ≠ n) {k : Str} (hk : k ∈ layerKeys m) : k ∉ layerKeys n := by
  have e1 := fun w : Str => fun hh : m ++ w = n ++ w => h (List.append_cancel_right hh)
  simp only [layerKeys, List.mem_cons, List.not_mem_nil, or_false, not_or] at hk ⊢
  rcases hk with rfl | rfl | rfl
  · exact ⟨e1 _, (thickness_ne_sld _ _).symm, (roughness_ne_sld _ _).symm⟩
  · exact ⟨thickness_ne_sld _ _, e1 _, thickness_ne_roughness _ _⟩
  · exact ⟨roughness_ne_sld _ _, (thickness_ne_roughness _ _).symm, e1 _⟩

/-- The column holds `n` values which are in the range of the parameter, if that can be guaranteed; they are real
numbers if the limits are. -/
def ColOk (rng : Rng G) (d : DistArgs) (n : Nat) (p : Param ℝ) (col : List (Num ℝ)) : Prop :=
  col.length = n ∧
    (p.isConst = true ∨ (Tame rng d ∧ (d.kind = .bolstered → Ordered p)) → ∀ v ∈ col, InRange p v) ∧
    (∀ a b, p.min = .real a → p.max = .real b → ∀ v ∈ col, ∃ x, v = Num.real x)

/-- The columns of one layer in the table. -/
structure LayerRows (rng : Rng G) (d : DistArgs) (n : Nat) (f : Frame (Num ℝ)) (l : LayerV ℝ) : Prop where
  sld : ∀ p, l.sld = some p → ∃ col, f.get (l.name ++ "_sld".toList) = .ok col ∧ ColOk rng d n p col
  substrate : ∀ p, l.thickness = none → l.roughness = some p →
    ∃ col, f.get (l.name ++ "_roughness".toList) = .ok col ∧ ColOk rng d n p col
  film : ∀ p q, l.thickness = some p → l.roughness = some q →
    ∃ col col', f.get (l.name ++ "_thickness".toList) = .ok col ∧ ColOk rng d n p col ∧
      f.get (l.name ++ "_roughness".toList) = .ok col' ∧ col'.length = n ∧
      (∀ v ∈ col ++ col', ∃ x, v = Num.real x) ∧
      (q.isConst = true ∨ Tame rng d →
        List.Forall₂ (fun t v => InRange q v ∧ RoughBound q t v) col col')

theorem LayerRows.congr {d : DistArgs} {n : Nat} {f f' : Frame (Num ℝ)} {l : LayerV ℝ}
    (h : LayerRows rng d n f l) (he : ∀ k ∈ layerKeys l.name, f'.get k = f.get k) : LayerRows rng d n f' l := by
  have h1 := he (l.name ++ "_sld".toList) (by simp [layerKeys])
  have h2 := he (l.name ++ "_thickness".toList) (by simp [layerKeys])
  have h3 := he (l.name ++ "_roughness".toList) (by simp [layerKeys])
  constructor
  · rw [h1]; exact h.sld
  · rw [h3]; exact h.substrate
  · rw [h2, h3]; exact h.film

/-- All parameters of the layer are valid. -/
structure LayerValid (l : LayerV ℝ) : Prop where
  thickness : ∀ p, l.thickness = some p → ParamValid p
  roughness : ∀ p, l.roughness = some p → ParamValid p
  sld : ∀ p, l.sld = some p → ParamValid p

theorem sample_realLimits {p : Param ℝ} {a b : ℝ} (ha : p.min = .real a) (hb : p.max = .real b) {d : DistArgs} {n : Int}
    {g g' : G} {xs : List (Num ℝ)} (h : p.sample rng n d g = .ok (xs, g')) : ∀ v ∈ xs, ∃ x, v = Num.real x := by
  cases p with
  | const c nm =>
    simp only [Param.min] at ha
    subst ha
    unfold Param.sample at h
    simp only at h
    split_ifs at h
    · exact (Rand.fail_ok.1 h).elim
    · cases Rand.pure_ok.1 h
      intro v hv
      exact ⟨a, (List.mem_replicate.1 hv).2⟩
  | range lo hi nm =>
    simp only [Param.min, Param.max] at ha hb
    subst ha hb
    unfold Param.sample at h
    simp only at h
    rw [if_pos ⟨rfl, rfl⟩] at h
    obtain ⟨w, g1, _, h⟩ := Rand.bind_ok.1 h
    cases Rand.pure_ok.1 h
    intro v hv
    obtain ⟨x, _, rfl⟩ := List.mem_map.1 hv
    exact ⟨x, rfl⟩

theorem generateRoughness_real {d : DistArgs} {p : Param ℝ} {ts vs : List (Num ℝ)} {g g' : G}
    (h : generateRoughness rng d p ts g = .ok (vs, g')) : ∀ v ∈ ts ++ vs, ∃ x, v = Num.real x := by
  unfold generateRoughness at h
  obtain ⟨rs, g1, hrs, h⟩ := Rand.bind_ok.1 h
  obtain ⟨t, g2, ht, h⟩ := Rand.bind_ok.1 h
  obtain ⟨r, g3, hr, h⟩ := Rand.bind_ok.1 h
  have ht := asReals_ok (Rand.ofRes_ok.1 ht).1
  simp only at ht
  have hvs : ∃ w : List ℝ, vs = w.map Num.real := by
    cases hmn : p.min with
    | cplx _ _ _ => simp only [hmn] at h; exact (Rand.fail_ok.1 h).elim
    | real mn =>
      cases hmx : p.max with
      | cplx _ _ _ => simp only [hmn, hmx] at h; exact (Rand.fail_ok.1 h).elim
      | real mx =>
        simp only [hmn, hmx] at h
        obtain ⟨w, g4, hw, h⟩ := Rand.bind_ok.1 h
        cases Rand.pure_ok.1 h
        exact ⟨w, rfl⟩
  obtain ⟨w, rfl⟩ := hvs
  rw [ht]
  intro v hv
  rw [← List.map_append] at hv
  obtain ⟨x, _, rfl⟩ := List.mem_map.1 hv
  exact ⟨x, rfl⟩

theorem sample_colOk (ok : rng.Ok) {p : Param ℝ} (hv : ParamValid p) {d : DistArgs} {n : Nat} {g g' : G}
    {xs : List (Num ℝ)} (h : p.sample rng n d g = .ok (xs, g')) : ColOk rng d n p xs := by
  have := sample_length ok h
  exact ⟨by exact_mod_cast this, fun hp => sample_inRange ok hp hv h, fun a b ha hb => sample_realLimits ha hb h⟩

theorem labelStep_ok (ok : rng.Ok) {d : DistArgs} {n : Nat} {f f' : Frame (Num ℝ)} {l : LayerV ℝ} {g g' : G}
    (hv : LayerValid l) (h : labelStep rng n d f l g = .ok (f', g')) :
    LayerRows rng d n f' l ∧ ∀ k, k ∉ layerKeys l.name → f'.get k = f.get k := by
  unfold labelStep at h
  generalize hs : "_sld".toList = ws at *
  generalize ht : "_thickness".toList = wt at *
  generalize hr : "_roughness".toList = wr at *
  have hkeys : layerKeys l.name = [l.name ++ ws, l.name ++ wt, l.name ++ wr] := by
    rw [← hs, ← ht, ← hr]; rfl
  have n1 : l.name ++ ws ≠ l.name ++ wt := by rw [← hs, ← ht]; exact (thickness_ne_sld _ _).symm
  have n2 : l.name ++ ws ≠ l.name ++ wr := by rw [← hs, ← hr]; exact (roughness_ne_sld _ _).symm
  have n3 : l.name ++ wt ≠ l.name ++ wr := by rw [← ht, ← hr]; exact thickness_ne_roughness _ _
  cases hsld : l.sld with
  | none => rw [hsld] at h; exact (Rand.fail_ok.1 h).elim
  | some sld =>
    rw [hsld] at h
    simp only at h
    obtain ⟨v, g1, hv1, h⟩ := Rand.bind_ok.1 h
    have c1 := sample_colOk ok (hv.sld _ hsld) hv1
    cases hth : l.thickness with
    | none =>
      cases hro : l.roughness with
      | none =>
        rw [hth, hro] at h
        have := Rand.pure_ok.1 h
        simp only [Prod.mk.injEq] at this
        obtain ⟨rfl, rfl⟩ := this
        refine ⟨⟨?_, ?_, ?_⟩, ?_⟩
        · intro p hp
          rw [hsld] at hp; cases hp
          rw [hs, get_set, if_pos rfl]
          exact ⟨v, rfl, c1⟩
        · intro p _ hp; rw [hro] at hp; cases hp
        · intro p q hp; rw [hth] at hp; cases hp
        · intro k hk
          rw [hkeys] at hk
          rw [get_set, if_neg (by rintro rfl; simp at hk)]
      | some r =>
        rw [hth, hro] at h
        simp only at h
        obtain ⟨rv, g2, hrv, h⟩ := Rand.bind_ok.1 h
        have := Rand.pure_ok.1 h
        simp only [Prod.mk.injEq] at this
        obtain ⟨rfl, rfl⟩ := this
        have c2 := sample_colOk ok (hv.roughness _ hro) hrv
        refine ⟨⟨?_, ?_, ?_⟩, ?_⟩
        · intro p hp
          rw [hsld] at hp; cases hp
          rw [hs, get_set, if_neg n2, get_set, if_pos rfl]
          exact ⟨v, rfl, c1⟩
        · intro p _ hp
          rw [hro] at hp; cases hp
          rw [hr, get_set, if_pos rfl]
          exact ⟨rv, rfl, c2⟩
        · intro p q hp; rw [hth] at hp; cases hp
        · intro k hk
          rw [hkeys] at hk
          rw [get_set, if_neg (by rintro rfl; simp at hk), get_set, if_neg (by rintro rfl; simp at hk)]
    | some t =>
      cases hro : l.roughness with
      | none => rw [hth, hro] at h; exact (Rand.fail_ok.1 h).elim
      | some r =>
        rw [hth, hro] at h
        simp only at h
        obtain ⟨tv, g2, htv, h⟩ := Rand.bind_ok.1 h
        obtain ⟨rv, g3, hrv, h⟩ := Rand.bind_ok.1 h
        have := Rand.pure_ok.1 h
        simp only [Prod.mk.injEq] at this
        obtain ⟨rfl, rfl⟩ := this
        have c2 := sample_colOk ok (hv.thickness _ hth) htv
        obtain ⟨c3, c4⟩ := generateRoughness_ok ok (hv.roughness _ hro) hrv
        refine ⟨⟨?_, ?_, ?_⟩, ?_⟩
        · intro p hp
          rw [hsld] at hp; cases hp
          rw [hs, get_set, if_neg n2, get_set, if_neg n1, get_set, if_pos rfl]
          exact ⟨v, rfl, c1⟩
        · intro p hp; rw [hth] at hp; cases hp
        · intro p q hp hq
          rw [hth] at hp; cases hp
          rw [hro] at hq; cases hq
          rw [ht, hr, get_set, if_neg n3, get_set, if_pos rfl, get_set, if_pos rfl]
          exact ⟨tv, rv, rfl, c2, rfl, by rw [c3, c2.1], generateRoughness_real hrv, c4⟩
        · intro k hk
          rw [hkeys] at hk
          rw [get_set, if_neg (by rintro rfl; simp at hk), get_set, if_neg (by rintro rfl; simp at hk),
            get_set, if_neg (by rintro rfl; simp at hk)]

theorem labelLoop_ok (ok : rng.Ok) {d : DistArgs} {n : Nat} {f f' : Frame (Num ℝ)} {ls : List (LayerV ℝ)}
    {g g' : G} (hv : ∀ l ∈ ls, LayerValid l) (hn : (ls.map (·.name)).Nodup)
    (h : labelLoop rng n d f ls g = .ok (f', g')) :
    (∀ l ∈ ls, LayerRows rng d n f' l) ∧ ∀ k, (∀ l ∈ ls, k ∉ layerKeys l.name) → f'.get k = f.get k := by
  induction ls generalizing f g with
  | nil =>
    have := Rand.pure_ok.1 h
    simp only [Prod.mk.injEq] at this
    obtain ⟨rfl, rfl⟩ := this
    exact ⟨by simp, fun _ _ => rfl⟩
  | cons l ls ih =>
    unfold labelLoop at h
    obtain ⟨f1, g1, h1, h⟩ := Rand.bind_ok.1 h
    obtain ⟨hl, hf1⟩ := labelStep_ok ok (hv l (by simp)) h1
    rw [List.map_cons, List.nodup_cons] at hn
    obtain ⟨hls, hf'⟩ := ih (fun x hx => hv x (by simp [hx])) hn.2 h
    constructor
    · intro x hx
      rcases List.mem_cons.1 hx with rfl | hx
      · refine hl.congr fun k hk => hf' k fun y hy => ?_
        refine layerKeys_disjoint ?_ hk
        intro he
        exact hn.1 (List.mem_map.2 ⟨y, hy, he.symm⟩)
      · exact hls x hx
    · intro k hk
      rw [hf' k fun y hy => hk y (by simp [hy]), hf1 k (hk l (by simp))]

theorem sample_valid {s : SampleV ℝ} (h : SampleRegular s) : ∀ l ∈ s.structure_, LayerValid l := by
  intro l hl
  simp only [SampleV.structure_, List.cons_append, List.nil_append, List.mem_cons, List.mem_append,
    List.not_mem_nil, or_false] at hl
  rcases hl with rfl | hl | rfl
  · obtain ⟨_, h1, ⟨p, h2, h3, _⟩, ⟨q, h4, h5⟩⟩ := h.substrate
    refine ⟨?_, ?_, ?_⟩ <;> intro x hx
    · rw [h1] at hx; cases hx
    · rw [h2] at hx; cases hx; exact h3.2
    · rw [h4] at hx; cases hx; exact h5.2
  · obtain ⟨_, ⟨r, h1, h6, _⟩, ⟨p, h2, h3, _⟩, ⟨q, h4, h5⟩⟩ := h.layers l hl
    refine ⟨?_, ?_, ?_⟩ <;> intro x hx
    · rw [h1] at hx; cases hx; exact h6.2
    · rw [h2] at hx; cases hx; exact h3.2
    · rw [h4] at hx; cases hx; exact h5.2
  · obtain ⟨_, h1, h2, ⟨q, h4, h5⟩⟩ := h.ambient
    refine ⟨?_, ?_, ?_⟩ <;> intro x hx
    · rw [h1] at hx; cases hx
    · rw [h2] at hx; cases hx
    · rw [h4] at hx; cases hx; exact h5.2

theorem select_get {V : Type} {f r : Frame V} {names : List Str} (h : f.select names = .ok r) :
    r.columns = names ∧ ∀ k ∈ names, r.get k = f.get k := by
  unfold Frame.select at h
  rw [mapM_ok_iff] at h
  induction h with
  | nil => exact ⟨rfl, by simp⟩
  | @cons a b l r hab _ ih =>
    obtain ⟨col, hc, hb⟩ := bind_eq_ok.1 hab
    cases hb
    refine ⟨by simp only [Frame.columns, List.map_cons] at ih ⊢; rw [ih.1], ?_⟩
    intro k hk
    rw [get_cons]
    split_ifs with hka
    · rw [← hka, hc]
    · rcases List.mem_cons.1 hk with rfl | hk
      · exact absurd rfl hka
      · exact ih.2 k hk

/-- C17: for distinct layer names, the table returned by `generate_random_labels(n)` has exactly the label
names of the sample as columns, in order; every column has `n` rows; columns of constants hold the
constant; the other columns respect the parameter ranges under the conditions of C14, C16 and C18. -/
theorem C17_label_table (ok : rng.Ok) (s : SampleV ℝ) (hs : SampleRegular s) (hn : (partNames s).Nodup)
    (n : Int) (d : DistArgs) (g g' : G) (f : Frame (Num ℝ))
    (h : generateRandomLabels rng s n d g = .ok (f, g')) :
    0 < n ∧
    f.columns = expectedLabels s.substrate.name (s.layers.map (·.name)) s.ambient.name ∧
    s.labelNames = .ok f.columns ∧
    ∀ l ∈ s.substrate :: s.layers ++ [s.ambient], LayerRows rng d n.toNat f l := by
  unfold generateRandomLabels at h
  by_cases hpos : n > 0
  swap
  · rw [if_pos hpos] at h
    exact (Rand.fail_ok.1 h).elim
  rw [if_neg (not_not.2 hpos)] at h
  obtain ⟨names, g1, h1, h⟩ := Rand.bind_ok.1 h
  obtain ⟨f0, g2, h2, h⟩ := Rand.bind_ok.1 h
  have h1 := (Rand.ofRes_ok.1 h1).1
  have h3 := (Rand.ofRes_ok.1 h).1
  simp only at h1 h3
  obtain ⟨names', hn1, hn2, _⟩ := C05_label_names s hs
  rw [h1] at hn1
  cases hn1
  obtain ⟨hc, hg⟩ := select_get h3
  have hnat : n = (n.toNat : Int) := by omega
  rw [hnat] at h2
  obtain ⟨hl, _⟩ := labelLoop_ok ok (sample_valid hs)
    (by simpa [SampleV.structure_, partNames] using hn) h2
  refine ⟨hpos, by rw [hc, hn2], by rw [h1, hc], ?_⟩
  intro l hmem
  have hmem' : l ∈ s.structure_ := by simpa [SampleV.structure_] using hmem
  have hlo := hl l hmem'
  have hlabel : ∀ w, l.name ++ w ∈ names → f.get (l.name ++ w) = f0.get (l.name ++ w) := fun w hw =>
    hg _ hw
  have hsldmem : l.name ++ "_sld".toList ∈ names := by
    rw [hn2]
    unfold expectedLabels
    refine List.mem_append_right _ (List.mem_map.2 ⟨l.name, ?_, rfl⟩)
    simp only [List.cons_append, List.mem_cons, List.mem_append, List.not_mem_nil, or_false] at hmem ⊢
    rcases hmem with rfl | hmem | rfl
    · exact Or.inl rfl
    · exact Or.inr (Or.inl (List.mem_map.2 ⟨l, hmem, rfl⟩))
    · exact Or.inr (Or.inr rfl)
  have hrough : l.roughness ≠ none → l.name ++ "_roughness".toList ∈ names := by
    intro hr
    rw [hn2]
    unfold expectedLabels
    refine List.mem_append_left _ (List.mem_append_right _ (List.mem_map.2 ⟨l.name, ?_, rfl⟩))
    simp only [List.cons_append, List.mem_cons, List.mem_append, List.not_mem_nil, or_false] at hmem ⊢
    rcases hmem with rfl | hmem | rfl
    · exact Or.inl rfl
    · exact Or.inr (List.mem_map.2 ⟨l, hmem, rfl⟩)
    · exact absurd hs.ambient.roughness hr
  have hthick : l.thickness ≠ none → l.name ++ "_thickness".toList ∈ names := by
    intro hr
    rw [hn2]
    unfold expectedLabels
    refine List.mem_append_left _ (List.mem_append_left _ (List.mem_map.2 ⟨l.name, ?_, rfl⟩))
    simp only [List.cons_append, List.mem_cons, List.mem_append, List.not_mem_nil, or_false] at hmem
    rcases hmem with rfl | hmem | rfl
    · exact absurd hs.substrate.thickness hr
    · exact List.mem_map.2 ⟨l, hmem, rfl⟩
    · exact absurd hs.ambient.thickness hr
  constructor
  · rw [hlabel _ hsldmem]; exact hlo.sld
  · intro p h1 h2
    rw [hlabel _ (hrough (by rw [h2]; simp))]
    exact hlo.substrate p h1 h2
  · intro p q h1 h2
    rw [hlabel _ (hrough (by rw [h2]; simp)), hlabel _ (hthick (by rw [h1]; simp))]
    exact hlo.film p q h1 h2

/-- C17: non-positive sample numbers are rejected. -/
theorem C17_rejects (rng : Rng G) (s : SampleV ℝ) (n : Int) (hn : n ≤ 0) (d : DistArgs) (g : G) :
    generateRandomLabels rng s n d g = .error .valueError := by
  unfold generateRandomLabels
  rw [if_pos (by omega)]
  rfl

/-! ### The call returns -/

/-- The distribution settings are in their documented range. -/
def DistValid (d : DistArgs) : Prop :=
  d.kind = .uniform ∨
    (d.kind = .bolstered ∧ ∃ f w, d.fraction = some f ∧ d.width = some w ∧ 0 ≤ f ∧ f ≤ 1 ∧ 0 ≤ w)

theorem sampleDistribution_total (rng : Rng G) {d : DistArgs} (hd : DistValid d) {n : Int} (hn : 0 ≤ n)
    {mn mx : ℝ} (hm : mn ≤ mx) (g : G) : ∃ xs g', sampleDistribution rng n mn mx d g = .ok (xs, g') := by
  obtain ⟨kind, fr, wd⟩ := d
  rcases hd with hk | ⟨hk, f, w, hf, hw, h1, h2, h3⟩
  · simp only at hk
    subst hk
    exact ⟨_, _, drawUniform_of_nonneg rng mn mx hn g⟩
  · simp only at hk hf hw
    subst hk hf hw
    exact bolstered_total rng hn h1 h2 h3 hm g

/-- Limits that can be sampled: real ones, or genuinely complex ones ordered in both parts. -/
def Drawable : Param ℝ → Prop
  | .const _ _ => True
  | .range a b _ => a.re ≤ b.re ∧ a.im ≤ b.im ∧
      ((∃ x y, a = .real x ∧ b = .real y) ∨ a.im ≠ 0 ∨ b.im ≠ 0)

theorem sample_total (rng : Rng G) {d : DistArgs} (hd : DistValid d) {n : Int} (hn : 0 ≤ n) {p : Param ℝ}
    (hp : Drawable p) (g : G) : ∃ xs g', p.sample rng n d g = .ok (xs, g') := by
  cases p with
  | const v nm =>
    simp only [Param.sample]
    rw [if_neg (by omega)]
    exact ⟨_, _, rfl⟩
  | range a b nm =>
    obtain ⟨h1, h2, h3⟩ := hp
    rcases h3 with ⟨x, y, rfl, rfl⟩ | h3
    · rw [sample_real]
      exact Rand.bind_total (sampleDistribution_total rng hd hn h1 g) fun v g1 _ => ⟨_, _, rfl⟩
    · have hne : ¬ (a.im = 0 ∧ b.im = 0) := by rintro ⟨e1, e2⟩; simp [e1, e2] at h3
      simp only [Param.sample, if_neg hne]
      refine Rand.bind_total (sampleDistribution_total rng hd hn h1 g) fun v g1 _ => ?_
      exact Rand.bind_total (sampleDistribution_total rng hd hn h2 g1) fun v g1 _ => ⟨_, _, rfl⟩

/-- A real parameter: the constant or the limits are real. -/
def RealParam (p : Param ℝ) : Prop := ∃ a b, p.min = .real a ∧ p.max = .real b ∧ a ≤ b

theorem RealParam.drawable {p : Param ℝ} (h : RealParam p) : Drawable p := by
  obtain ⟨a, b, h1, h2, h3⟩ := h
  cases p with
  | const v nm => trivial
  | range x y nm =>
    simp only [Param.min, Param.max] at h1 h2
    subst h1 h2
    exact ⟨h3, le_refl _, Or.inl ⟨_, _, rfl, rfl⟩⟩

theorem sample_real_values {p : Param ℝ} (hp : RealParam p) {d : DistArgs} {n : Int} {g g' : G}
    {xs : List (Num ℝ)} (h : p.sample rng n d g = .ok (xs, g')) : ∃ r : List ℝ, xs = r.map Num.real := by
  obtain ⟨a, b, h1, h2, _⟩ := hp
  cases p with
  | const v nm =>
    simp only [Param.min] at h1
    subst h1
    simp only [Param.sample] at h
    split_ifs at h
    · exact (Rand.fail_ok.1 h).elim
    · have := Rand.pure_ok.1 h
      simp only [Prod.mk.injEq] at this
      exact ⟨List.replicate n.toNat a, by rw [this.1]; simp⟩
  | range x y nm =>
    simp only [Param.min, Param.max] at h1 h2
    subst h1 h2
    rw [sample_real] at h
    obtain ⟨v, g1, hd, h⟩ := Rand.bind_ok.1 h
    have := Rand.pure_ok.1 h
    simp only [Prod.mk.injEq] at this
    exact ⟨v, this.1⟩

theorem adjustRoughnesses_total (ok : rng.Ok) {d : DistArgs} (hd : DistValid d) {mn mx : ℝ} {ts rs : List ℝ}
    (hl : ts.length = rs.length) (g : G) :
    ∃ vs g', adjustRoughnesses rng d mn mx ts rs g = .ok (vs, g') := by
  induction ts generalizing rs g with
  | nil => exact ⟨_, _, rfl⟩
  | cons t ts ih =>
    cases rs with
    | nil => simp at hl
    | cons r rs =>
      unfold adjustRoughnesses
      refine Rand.bind_total ?_ fun v g1 _ => ?_
      · unfold adjustRoughness
        split_ifs with h1 h2
        · exact ⟨_, _, rfl⟩
        · exact ⟨_, _, rfl⟩
        · refine Rand.bind_total
            (sampleDistribution_total rng hd (by omega) (not_lt.1 h1) g) fun xs g1 hx => ?_
          have hlen := C15_count ok _ _ _ _ _ _ _ hx
          match xs, hlen with
          | [x], _ => exact ⟨_, _, rfl⟩
      · exact Rand.bind_total (ih (by simpa using hl) g1) fun vs g2 _ => ⟨_, _, rfl⟩

theorem generateRoughness_total (ok : rng.Ok) {d : DistArgs} (hd : DistValid d) {p : Param ℝ}
    (hp : RealParam p) (ts : List ℝ) (g : G) :
    ∃ vs g', generateRoughness rng d p (ts.map Num.real) g = .ok (vs, g') := by
  unfold generateRoughness
  refine Rand.bind_total (sample_total rng hd (by omega) hp.drawable g) fun rs g1 hrs => ?_
  have hl := sample_length ok hrs
  obtain ⟨r, rfl⟩ := sample_real_values hp hrs
  refine Rand.bind_total ⟨ts, g1, Rand.ofRes_ok.2 ⟨asReals_map ts, rfl⟩⟩ fun t g2 ht => ?_
  have ht := (Rand.ofRes_ok.1 ht).1
  rw [asReals_map] at ht
  cases ht
  refine Rand.bind_total ⟨r, g2, Rand.ofRes_ok.2 ⟨asReals_map r, rfl⟩⟩ fun r' g3 hr => ?_
  have hr := (Rand.ofRes_ok.1 hr).1
  rw [asReals_map] at hr
  cases hr
  obtain ⟨a, b, h1, h2, _⟩ := hp
  simp only [h1, h2]
  simp at hl
  exact Rand.bind_total (adjustRoughnesses_total ok hd hl.symm g3) fun vs g4 _ => ⟨_, _, rfl⟩

/-- The parameters of a layer can be sampled. -/
structure LayerDrawable (l : LayerV ℝ) : Prop where
  sld : ∀ p, l.sld = some p → Drawable p
  thickness : ∀ p, l.thickness = some p → RealParam p
  roughness : ∀ p, l.roughness = some p → RealParam p

theorem labelStep_total (ok : rng.Ok) {d : DistArgs} (hd : DistValid d) {n : Int} (hn : 0 ≤ n)
    {l : LayerV ℝ} (hl : LayerDrawable l) (hsld : l.sld ≠ none)
    (hr : l.thickness ≠ none → l.roughness ≠ none) (f : Frame (Num ℝ)) (g : G) :
    ∃ f' g', labelStep rng n d f l g = .ok (f', g') := by
  unfold labelStep
  cases h1 : l.sld with
  | none => exact absurd h1 hsld
  | some sld =>
    refine Rand.bind_total (sample_total rng hd hn (hl.sld _ h1) g) fun v g1 _ => ?_
    cases h2 : l.thickness with
    | none =>
      cases h3 : l.roughness with
      | none => exact ⟨_, _, rfl⟩
      | some r =>
        exact Rand.bind_total (sample_total rng hd hn (hl.roughness _ h3).drawable g1)
          fun v g2 _ => ⟨_, _, rfl⟩
    | some t =>
      cases h3 : l.roughness with
      | none => exact absurd h3 (hr (by rw [h2]; simp))
      | some r =>
        refine Rand.bind_total (sample_total rng hd hn (hl.thickness _ h2).drawable g1)
          fun tv g2 htv => ?_
        obtain ⟨ts, rfl⟩ := sample_real_values (hl.thickness _ h2) htv
        exact Rand.bind_total (generateRoughness_total ok hd (hl.roughness _ h3) ts g2)
          fun v g2 _ => ⟨_, _, rfl⟩

theorem labelLoop_total (ok : rng.Ok) {d : DistArgs} (hd : DistValid d) {n : Int} (hn : 0 ≤ n)
    {ls : List (LayerV ℝ)} (hl : ∀ l ∈ ls, LayerDrawable l ∧ l.sld ≠ none ∧
      (l.thickness ≠ none → l.roughness ≠ none)) (f : Frame (Num ℝ)) (g : G) :
    ∃ f' g', labelLoop rng n d f ls g = .ok (f', g') := by
  induction ls generalizing f g with
  | nil => exact ⟨_, _, rfl⟩
  | cons l ls ih =>
    unfold labelLoop
    obtain ⟨a, b, c⟩ := hl l (by simp)
    exact Rand.bind_total (labelStep_total ok hd hn a b c f g) fun f1 g1 _ =>
      ih (fun x hx => hl x (by simp [hx])) f1 g1

/-- C17: with the uniform or the bolstered distribution (fraction in `[0, 1]`, width at least 0) the call
returns for every sample with distinct names whose limits are ordered. -/
theorem C17_returns (ok : rng.Ok) (s : SampleV ℝ) (hs : SampleRegular s) (hn : (partNames s).Nodup)
    (hl : ∀ l ∈ s.structure_, LayerDrawable l) (n : Int) (hpos : 0 < n) (d : DistArgs) (hd : DistValid d)
    (g : G) : ∃ f g', generateRandomLabels rng s n d g = .ok (f, g') := by
  unfold generateRandomLabels
  rw [if_neg (not_not.2 hpos)]
  obtain ⟨names, h1, h2, _⟩ := C05_label_names s hs
  refine Rand.bind_total ⟨names, g, Rand.ofRes_ok.2 ⟨h1, rfl⟩⟩ fun nm g1 hnm => ?_
  have hnm := (Rand.ofRes_ok.1 hnm).1
  simp only at hnm
  rw [h1] at hnm
  cases hnm
  have hparts : ∀ l ∈ s.structure_, LayerDrawable l ∧ l.sld ≠ none ∧
      (l.thickness ≠ none → l.roughness ≠ none) := by
    intro l hm
    refine ⟨hl l hm, ?_⟩
    simp only [SampleV.structure_, List.cons_append, List.nil_append, List.mem_cons, List.mem_append,
      List.not_mem_nil, or_false] at hm
    rcases hm with rfl | hm | rfl
    · obtain ⟨_, e1, _, ⟨q, e4, _⟩⟩ := hs.substrate
      exact ⟨by rw [e4]; simp, by rw [e1]; simp⟩
    · obtain ⟨_, _, ⟨p, e2, _⟩, ⟨q, e4, _⟩⟩ := hs.layers l hm
      exact ⟨by rw [e4]; simp, by rw [e2]; simp⟩
    · obtain ⟨_, e1, _, ⟨q, e4, _⟩⟩ := hs.ambient
      exact ⟨by rw [e4]; simp, by rw [e1]; simp⟩
  refine Rand.bind_total (labelLoop_total ok hd hpos.le hparts [] g1) fun f g2 hf => ?_
  have hnat : n = (n.toNat : Int) := by omega
  rw [hnat] at hf
  obtain ⟨hlo, _⟩ := labelLoop_ok ok (sample_valid hs)
    (by simpa [SampleV.structure_, partNames] using hn) hf
  have hget : ∀ k ∈ names, ∃ col, f.get k = .ok col := by
    intro k hk
    rw [h2] at hk
    unfold expectedLabels at hk
    have hsub : s.substrate ∈ s.structure_ := by simp [SampleV.structure_]
    have hamb : s.ambient ∈ s.structure_ := by simp [SampleV.structure_]
    have hfilm : ∀ l ∈ s.layers, l ∈ s.structure_ := fun l h => by simp [SampleV.structure_, h]
    rcases List.mem_append.1 hk with hk | hk
    · rcases List.mem_append.1 hk with hk | hk
      · obtain ⟨m, hm, rfl⟩ := List.mem_map.1 hk
        obtain ⟨l, hl', rfl⟩ := List.mem_map.1 hm
        obtain ⟨_, ⟨p, e1, _⟩, ⟨q, e2, _⟩, _⟩ := hs.layers l hl'
        obtain ⟨col, _, hc, _⟩ := (hlo l (hfilm l hl')).film p q e1 e2
        exact ⟨col, hc⟩
      · obtain ⟨m, hm, rfl⟩ := List.mem_map.1 hk
        rcases List.mem_cons.1 hm with rfl | hm
        · obtain ⟨_, e1, ⟨q, e2, _⟩, _⟩ := hs.substrate
          obtain ⟨col, hc, _⟩ := (hlo _ hsub).substrate q e1 e2
          exact ⟨col, hc⟩
        · obtain ⟨l, hl', rfl⟩ := List.mem_map.1 hm
          obtain ⟨_, ⟨p, e1, _⟩, ⟨q, e2, _⟩, _⟩ := hs.layers l hl'
          obtain ⟨_, col, _, _, hc, _⟩ := (hlo l (hfilm l hl')).film p q e1 e2
          exact ⟨col, hc⟩
    · obtain ⟨m, hm, rfl⟩ := List.mem_map.1 hk
      have : ∃ l ∈ s.structure_, l.name = m := by
        simp only [List.cons_append, List.mem_cons, List.mem_append, List.not_mem_nil, or_false,
          List.mem_map] at hm
        rcases hm with rfl | ⟨l, hl', rfl⟩ | rfl
        · exact ⟨_, hsub, rfl⟩
        · exact ⟨l, hfilm l hl', rfl⟩
        · exact ⟨_, hamb, rfl⟩
      obtain ⟨l, hl', rfl⟩ := this
      have hne := (hparts l hl').2.1
      obtain ⟨q, e⟩ := Option.ne_none_iff_exists'.1 hne
      obtain ⟨col, hc, _⟩ := (hlo l hl').sld q e
      exact ⟨col, hc⟩
  have : ∃ r, f.select names = .ok r := by
    refine ⟨names.map fun k => (k, match f.get k with | .ok c => c | .error _ => []), ?_⟩
    unfold Frame.select
    refine mapM_eq_ok_map fun k hk => ?_
    obtain ⟨col, hc⟩ := hget k hk
    rw [hc]; rfl
  obtain ⟨r, hr⟩ := this
  exact ⟨r, g2, Rand.ofRes_ok.2 ⟨hr, rfl⟩⟩

/-- A sample with one film layer, a real and a complex range. -/
noncomputable def exampleTableSample : SampleV ℝ where
  substrate := ⟨.substrate, "Si".toList, none, some (.const (.real 1) (some "roughness".toList)),
    some (.const (.real 20) (some "sld".toList))⟩
  ambient := ⟨.ambient, "air".toList, none, none, some (.const (.real 0) (some "sld".toList))⟩
  layers := [⟨.layer, "film".toList, some (.range (.real 10) (.real 20) (some "thickness".toList)),
    some (.range (.real 0) (.real 8) (some "roughness".toList)),
    some (.range (.cplx true 1 1) (.cplx true 2 2) (some "sld".toList))⟩]

/-- The hypotheses of `C17_returns` and hence of `C17_label_table` hold for it. -/
example : ∃ f g', generateRandomLabels (constRng 1) exampleTableSample 20
    ⟨.bolstered, some 0.15, some 0.1⟩ () = .ok (f, g') := by
  refine C17_returns (constRng_ok 1) _ ?_ ?_ ?_ 20 (by norm_num) _ ?_ ()
  · refine ⟨⟨rfl, rfl, ⟨_, rfl, ⟨rfl, trivial⟩, ?_⟩, ⟨_, rfl, rfl, trivial⟩⟩,
      ⟨rfl, rfl, rfl, ⟨_, rfl, rfl, trivial⟩⟩, ?_⟩
    · simp only [Param.min, Num.ltZero]; norm_num
    · intro l hl
      simp only [exampleTableSample, List.mem_singleton] at hl
      subst hl
      refine ⟨Or.inl rfl, ⟨_, rfl, ⟨rfl, ?_⟩, ?_⟩, ⟨_, rfl, ⟨rfl, ?_⟩, ?_⟩, ⟨_, rfl, rfl, ?_⟩⟩
      · simp only [ParamValid, Num.ge]; norm_num
      · simp only [Param.min, Num.ltZero]; norm_num
      · simp only [ParamValid, Num.ge]; norm_num
      · simp only [Param.min, Num.ltZero]; norm_num
      · simp only [ParamValid, Num.ge, Num.isNp, Num.re]; norm_num
  · simp only [partNames, exampleTableSample]
    decide
  · intro l hl
    simp only [SampleV.structure_, exampleTableSample, List.cons_append, List.nil_append, List.mem_cons,
      List.not_mem_nil, or_false] at hl
    rcases hl with rfl | rfl | rfl
    · refine ⟨?_, by simp, ?_⟩ <;> rintro p ⟨⟩
      · trivial
      · exact ⟨1, 1, rfl, rfl, le_refl _⟩
    · refine ⟨?_, ?_, ?_⟩ <;> rintro p ⟨⟩
      · exact ⟨by simp [Num.re], by simp [Num.im], Or.inr (Or.inl (by simp [Num.im]))⟩
      · exact ⟨10, 20, rfl, rfl, by norm_num⟩
      · exact ⟨0, 8, rfl, rfl, by norm_num⟩
    · refine ⟨?_, by simp, by simp⟩
      rintro p ⟨⟩
      trivial
  · exact Or.inr ⟨rfl, _, _, rfl, rfl, by norm_num, by norm_num, by norm_num⟩

/-- C16 for the returned table (partial, as `C16_roughness_partial`): in every row the roughness of every layer is in
its range and at most `max(roughness.min, thickness / 2)` for the thickness in the same row. -/
theorem C16_table_partial (ok : rng.Ok) (s : SampleV ℝ) (hs : SampleRegular s) (hn : (partNames s).Nodup)
    (n : Int) (d : DistArgs) (g g' : G) (f : Frame (Num ℝ))
    (h : generateRandomLabels rng s n d g = .ok (f, g')) (l : LayerV ℝ) (hl : l ∈ s.layers) (p q : Param ℝ)
    (hp : l.thickness = some p) (hq : l.roughness = some q) (ht : q.isConst = true ∨ Tame rng d) :
    ∃ ts rs, f.get (l.name ++ "_thickness".toList) = .ok ts ∧ f.get (l.name ++ "_roughness".toList) = .ok rs ∧
      ts.length = n.toNat ∧ rs.length = n.toNat ∧
      ∀ (i : Nat) (t v : Num ℝ), ts[i]? = some t → rs[i]? = some v → InRange q v ∧ RoughBound q t v := by
  obtain ⟨-, -, -, hrows⟩ := C17_label_table ok s hs hn n d g g' f h
  obtain ⟨ts, rs, h1, h2, h3, h4, -, h5⟩ := (hrows l (by simp [hl])).film p q hp hq
  refine ⟨ts, rs, h1, h3, h2.1, h4, fun i t v hi hv => ?_⟩
  have hf := h5 ht
  obtain ⟨a, ha⟩ := List.getElem?_eq_some_iff.1 hi
  obtain ⟨b, hb⟩ := List.getElem?_eq_some_iff.1 hv
  have := (List.forall₂_iff_get.1 hf).2 i a b
  simp only [List.get_eq_getElem] at this
  rw [ha, hb] at this
  exact this

end Verif.Props
