import Verif.Spec.FittedCurve
import Verif.Props.FitSimulator
import Verif.Props.Parratt

/-!
# C118: the curve returned with a fit is the reflectivity of the returned parameters
-/

namespace Verif.Props
open Verif.Py Verif.Model Verif.Spec FitEnv

theorem cellIs_unique {t : Table} (hn : t.cols.columns.Nodup) {name : Str} {i : Nat} {z w : ℂ} (h1 : CellIs t name i z)
    (h2 : CellIs t name i w) : z = w := by
  obtain ⟨c, hc, e1, g1⟩ := h1
  obtain ⟨d, hd, e2, g2⟩ := h2
  have : c = d := List.inj_on_of_nodup_map hn hc hd (e1.trans e2.symm)
  subst this
  rw [g1] at g2
  simpa using g2

theorem lengthIs_unique {t : Table} (hn : t.cols.columns.Nodup) {name : Str} {i : Nat} {x y : ℝ} (h1 : LengthIs t name i x)
    (h2 : LengthIs t name i y) : x = y := by
  obtain ⟨z, hz, rfl⟩ := h1
  obtain ⟨w, hw, rfl⟩ := h2
  rw [cellIs_unique hn hz hw]

theorem forall₂_unique {α β : Type} {R : α → β → Prop} (hu : ∀ a b c, R a b → R a c → b = c) {l : List α} {m m' : List β}
    (h1 : List.Forall₂ R l m) (h2 : List.Forall₂ R l m') : m = m' := by
  induction h1 generalizing m' with
  | nil => cases h2; rfl
  | cons hab _ ih =>
    cases h2 with
    | cons hab' h2 => rw [hu _ _ _ hab hab', ih h2]

theorem stackRow_unique {t : Table} (hn : t.cols.columns.Nodup) {i : Nat} {sub amb : Str} {layers : List Str} {th ro th' ro' : List ℝ}
    {sl sl' : List ℂ} {a a' : ℂ} (h1 : StackRow t i sub layers amb th ro sl a) (h2 : StackRow t i sub layers amb th' ro' sl' a') :
    th' = th ∧ ro' = ro ∧ sl' = sl ∧ a' = a :=
  ⟨forall₂_unique (R := fun (n : Str) (x : ℝ) => LengthIs t (n ++ "_thickness".toList) i x) (fun _ _ _ => lengthIs_unique hn) h2.thickness h1.thickness,
    forall₂_unique (R := fun (n : Str) (x : ℝ) => LengthIs t (n ++ "_roughness".toList) i x) (fun _ _ _ => lengthIs_unique hn) h2.roughness h1.roughness,
    forall₂_unique (R := fun (n : Str) (z : ℂ) => CellIs t (n ++ "_sld".toList) i z) (fun _ _ _ => cellIs_unique hn) h2.sld h1.sld, cellIs_unique hn h2.ambient h1.ambient⟩

theorem forall₂_append_left {α β : Type} {R : α → β → Prop} {a b : List α} {z : List β} (h : List.Forall₂ R (a ++ b) z) :
    List.Forall₂ R a (z.take a.length) ∧ List.Forall₂ R b (z.drop a.length) := by
  induction a generalizing z with
  | nil => exact ⟨by simp, by simpa using h⟩
  | cons x a ih =>
    cases h with
    | cons hx h => exact ⟨.cons hx (ih h).1, (ih h).2⟩

theorem getItem_minusOne {α : Type} (l : List α) (a : α) : getItem (l ++ [a]) (-1) = .ok a := by
  rw [getItem_eq_ok_iff]
  refine ⟨l.length, ?_, by simp⟩
  unfold normIdx
  simp

/-- The rows of a table of finite labels describe stacks. -/
theorem labelRow_stack {s : SampleV ℝ} (hs : SampleRegular s) {tab : SimTable} (ht : LabelShape s (embedTable tab)) {i : Nat}
    (hi : i < tab.nrows) : ∃ th ro sl amb,
      StackRow (embedTable tab) i s.substrate.name (s.layers.map (·.name)) s.ambient.name th ro sl amb ∧
      ((labelRow tab i).take s.layers.length).map Complex.re = th ∧
      (((labelRow tab i).drop s.layers.length).take (s.layers.length + 1)).map Complex.re = ro ∧
      (labelRow tab i).drop (2 * s.layers.length + 1) = sl ++ [amb] := by
  have hnames := labelNames_eq hs
  obtain ⟨names', h1, h2, -⟩ := C05_label_names s hs
  rw [hnames] at h1
  cases h1
  have hall : List.Forall₂ (fun (n : Str) (z : ℂ) => CellIs (embedTable tab) n i z) ((labelParams s).map Prod.fst) (labelRow tab i) := by
    rw [← ht.1]
    unfold labelRow embedTable Frame.columns
    simp only [List.map_map]
    rw [List.forall₂_map_left_iff, List.forall₂_map_right_iff, List.forall₂_same]
    intro d hd
    have hl := ht.2 (d.1, d.2.map some) (List.mem_map.2 ⟨d, hd, rfl⟩)
    have hl : d.2.length = tab.nrows := by simpa [embedTable] using hl
    refine ⟨(d.1, d.2.map some), List.mem_map.2 ⟨d, hd, rfl⟩, rfl, ?_⟩
    have : i < d.2.length := by omega
    simp [List.getElem?_eq_getElem this, List.getD_eq_getElem?_getD]
  rw [h2] at hall
  unfold expectedLabels at hall
  have hL : (s.layers.map (·.name)).length = s.layers.length := by simp
  generalize s.layers.map (·.name) = L at hall hL ⊢
  generalize s.layers.length = n at hL ⊢
  generalize labelRow tab i = z at hall ⊢
  subst hL
  rw [List.append_assoc] at hall
  obtain ⟨hA, hB⟩ := forall₂_append_left hall
  rw [List.length_map] at hA hB
  obtain ⟨hC, hD⟩ := forall₂_append_left hB
  rw [List.length_map, List.length_cons] at hC hD
  rw [List.drop_drop, List.map_append] at hD
  rw [show L.length + (L.length + 1) = 2 * L.length + 1 by omega] at hD
  generalize hw : z.drop (2 * L.length + 1) = w at hD ⊢
  obtain ⟨hE, hF⟩ := forall₂_append_left hD
  rw [List.map_singleton] at hF
  obtain ⟨a, l', ha, hl', he⟩ := List.forall₂_cons_left_iff.1 hF
  cases hl'
  refine ⟨_, _, _, a, ⟨?_, ?_, List.forall₂_map_left_iff.1 hE, ha⟩, rfl, rfl, ?_⟩
  · exact List.forall₂_map_right_iff.2 ((List.forall₂_map_left_iff.1 hA).imp fun n z h => ⟨z, h, rfl⟩)
  · exact List.forall₂_map_right_iff.2 ((List.forall₂_map_left_iff.1 hC).imp fun n z h => ⟨z, h, rfl⟩)
  · rw [← he, List.take_append_drop]

theorem rowCurve_builtin {n : Nat} (q : List ℝ) {z : List ℂ} {th ro : List ℝ} {sl : List ℂ} {amb : ℂ}
    (h1 : (z.take n).map Complex.re = th) (h2 : ((z.drop n).take (n + 1)).map Complex.re = ro)
    (h3 : z.drop (2 * n + 1) = sl ++ [amb]) :
    rowCurve none n q z = multilayerReflectivity (q.map fun (x : ℝ) => x * 1e10) (th.map fun (x : ℝ) => x * 1e-10)
      (ro.map fun (x : ℝ) => x * 1e-10) (sl.map fun (z : ℂ) => z * 1e14) (amb * 1e14) := by
  unfold rowCurve runBuiltin
  rw [h1, h2, h3]
  show (((List.range 1).mapM _) >>= fun c => getItem c 0) = _
  rw [mapM_one]
  have g1 : getItem [q] ((0 : Nat) : Int) = .ok q := rfl
  have g2 : (LabelArr.map (fun (x : ℝ) => x * 1e-10) (.rows [th])).row 0 = .ok (th.map fun (x : ℝ) => x * 1e-10) := rfl
  have g3 : (LabelArr.map (fun (x : ℝ) => x * 1e-10) (.rows [ro])).row 0 = .ok (ro.map fun (x : ℝ) => x * 1e-10) := rfl
  have g4 : (LabelArr.map (fun (z : ℂ) => z * 1e14) (.rows [sl ++ [amb]])).row 0 = .ok ((sl.map fun (z : ℂ) => z * 1e14) ++ [amb * 1e14]) := by
    show Except.ok _ = _
    rw [List.map_append, List.map_singleton]
  simp only [g1, g2, g3, g4, bind_ok, getItem_minusOne, List.dropLast_concat]
  cases h : multilayerReflectivity (q.map fun (x : ℝ) => x * 1e10) (th.map fun (x : ℝ) => x * 1e-10)
      (ro.map fun (x : ℝ) => x * 1e-10) (sl.map fun (z : ℂ) => z * 1e14) (amb * 1e14) with
  | error e => rfl
  | ok c =>
    rw [bind_ok]
    unfold assignRow
    rw [if_pos (by rw [multilayer_length h, List.length_map])]

open Classical in
/-- The arguments of refl1d for a stack. -/
noncomputable def stackArgs (q th ro : List ℝ) (s : List ℂ) : Refl1dArgs :=
  if ∃ z ∈ s.reverse, z.im ≠ 0 then
    ⟨q.map fun (x : ℝ) => x / 2, 1 :: th.reverse ++ [1], ro.reverse, s.reverse.map fun (z : ℂ) => (z.re : ℂ),
      some (s.reverse.map fun (z : ℂ) => z.im)⟩
  else ⟨q.map fun (x : ℝ) => x / 2, 1 :: th.reverse ++ [1], ro.reverse, s.reverse, none⟩

theorem stackArgs_for (q th ro : List ℝ) (s : List ℂ) : refl1dFor q th ro s (stackArgs q th ro s) := by
  unfold stackArgs
  by_cases hc : ∃ z ∈ s.reverse, z.im ≠ 0
  · rw [if_pos hc]
    exact ⟨rfl, rfl, rfl, .inl ⟨by simpa using hc, rfl, rfl⟩⟩
  · rw [if_neg hc]
    exact ⟨rfl, rfl, rfl, .inr ⟨by push Not at hc; simpa using hc, rfl, rfl⟩⟩

theorem rowCurve_refl1d (eng : Engine) {n : Nat} (q : List ℝ) {z : List ℂ} {th ro : List ℝ} {s : List ℂ}
    (h1 : (z.take n).map Complex.re = th) (h2 : ((z.drop n).take (n + 1)).map Complex.re = ro) (h3 : z.drop (2 * n + 1) = s) :
    rowCurve (some eng) n q z = eng (stackArgs q th ro s) >>= fun e => assignRow q.length e := by
  unfold rowCurve runRefl1d
  rw [h1, h2, h3]
  simp only [LabelArr.fliplr, bind_ok]
  show (((List.range 1).mapM _) >>= fun c => getItem c 0) = _
  rw [mapM_one]
  unfold stackArgs
  by_cases hc : ∃ z ∈ s.reverse, z.im ≠ 0
  · rw [if_pos hc]
    show (if ∃ z ∈ s.reverse, z.im ≠ 0 then _ else _) = _
    rw [if_pos hc]
  · rw [if_neg hc]
    show (if ∃ z ∈ s.reverse, z.im ≠ 0 then _ else _) = _
    rw [if_neg hc]

/-- The curve of a stack. -/
noncomputable def stackCurve (engine : Option Engine) (q th ro : List ℝ) (sl : List ℂ) (amb : ℂ) : Res (List (Option ℝ)) :=
  match engine with
  | some eng => eng (stackArgs q th ro (sl ++ [amb])) >>= fun e => assignRow q.length e
  | none => multilayerReflectivity (q.map fun (x : ℝ) => x * 1e10) (th.map fun (x : ℝ) => x * 1e-10)
      (ro.map fun (x : ℝ) => x * 1e-10) (sl.map fun (z : ℂ) => z * 1e14) (amb * 1e14)

/-- What the simulation of a table of labels computes for row `i`. -/
theorem generator_row {s : SampleV ℝ} (hs : SampleRegular s) (hk : KeywordFree (partNames s)) (hl : 0 < s.layers.length)
    {engine : Option Engine} {q : List ℝ} {t : Table} {r : List (List (Option ℝ))}
    (h : generatorSimulate engine ((labelParams s).map Prod.fst) q t = .ok r) :
    t.cols.columns = (labelParams s).map Prod.fst ∧ r.length = t.rows ∧ ∀ i < t.rows, ∃ ci th ro sl amb, r[i]? = some ci ∧
      StackRow t i s.substrate.name (s.layers.map (·.name)) s.ambient.name th ro sl amb ∧
      stackCurve engine q th ro sl amb = .ok ci := by
  have h' := h
  unfold generatorSimulate at h'
  split_ifs at h' with hsh
  obtain ⟨tab, hc, -⟩ := bind_eq_ok.1 h'
  have hsh' : LabelShape s t := hsh
  have he := cells_iff.1 hc
  have hw := hsh'.embed hc
  rw [he] at h ⊢
  rw [generatorSimulate_rows hs hk hl engine q tab hw] at h
  have hf := mapM_ok_iff.1 h
  refine ⟨hw.1, by simpa [embedTable] using mapM_length h, fun i hi => ?_⟩
  have hi : i < tab.nrows := hi
  have hlc : r.length = tab.nrows := by simpa using hf.length_eq.symm
  obtain ⟨th, ro, sl, amb, h1, h2, h3, h4⟩ := labelRow_stack hs hw hi
  have := (List.forall₂_iff_get.1 hf).2 i (by simpa using hi) (by omega)
  simp only [List.get_eq_getElem, List.getElem_range] at this
  refine ⟨r[i]'(by omega), th, ro, sl, amb, List.getElem?_eq_getElem _, h1, ?_⟩
  cases engine with
  | none => rw [rowCurve_builtin q h2 h3 h4] at this; exact this
  | some eng => rw [rowCurve_refl1d eng q h2 h3 h4] at this; exact this

theorem stackRow_lengths {t : Table} {i : Nat} {sub amb : Str} {layers : List Str} {th ro : List ℝ} {sl : List ℂ} {a : ℂ}
    (h : StackRow t i sub layers amb th ro sl a) : th.length + 1 = ro.length ∧ ro.length = sl.length := by
  have h1 := h.thickness.length_eq
  have h2 := h.roughness.length_eq
  have h3 := h.sld.length_eq
  rw [List.length_cons] at h2 h3
  omega

/-- C118, builtin engine: for every trained model, sample (with layers, distinct names free of the key words), scan and choice of the
options with simulated curves, including shifts, scalings and refinement, curve `i` belongs to the stack that row `i` of the
returned parameters describes. The ambient density is zero, there is one value for each q value, every number lies between 0
and 1, and it is the squared modulus of Parratt's recursion in the documented units where this is defined. -/
theorem C118_builtin (env : FitEnv) (hs : SampleRegular env.sample) (hn : (partNames env.sample).Nodup)
    (hk : KeywordFree (partNames env.sample)) (hl : 0 < env.sample.layers.length)
    (hsim : env.simulate = generatorSimulate none ((labelParams env.sample).map Prod.fst))
    (curves : List (List ℝ)) (q : List ℝ) (o : Options) (shifts scalings : Nat → List ℝ) (out : Output)
    (h : env.fitCurve curves q o shifts scalings = .ok out) (ho : o.simulate = true) :
    ∃ r, out.refl = some r ∧ r.length = out.params.rows ∧ ∀ i < out.params.rows, ∃ ci, r[i]? = some ci ∧ ci.length = q.length ∧
      (∀ v, some v ∈ ci → 0 ≤ v ∧ v ≤ 1) ∧
      (∃ th ro sl amb, StackRow out.params i env.sample.substrate.name (env.sample.layers.map (·.name)) env.sample.ambient.name th ro sl amb) ∧
      ∀ th ro sl amb,
        StackRow out.params i env.sample.substrate.name (env.sample.layers.map (·.name)) env.sample.ambient.name th ro sl amb →
        amb = 0 ∧ ∀ (j : Nat) qj, q[j]? = some qj → (∀ ρ ∈ sl, 0 ≤ ρ.im) → ∀ wave : ℂ → ℂ, (∀ ρ, 0 ≤ ρ.im → IsWaveAngstrom qj ρ (wave ρ)) →
          ∀ x, parratt wave (wave 0) (slabs th ro sl) = some x → ci[j]? = some (some (min (‖x‖ ^ 2) 1)) := by
  obtain ⟨r, h1, h2⟩ := (C98_simulated env curves q o shifts scalings out h).1 ho
  rw [hsim] at h2
  obtain ⟨g0, g1, g2⟩ := generator_row hs hk hl h2
  refine ⟨r, h1, g1, fun i hi => ?_⟩
  obtain ⟨ci, th, ro, sl, amb, e1, e2, e3⟩ := g2 i hi
  simp only [stackCurve] at e3
  obtain ⟨l1, l2⟩ := stackRow_lengths e2
  have ha : amb = 0 := by
    by_contra hne
    have hne : amb * 1e14 ≠ 0 := mul_ne_zero hne (by norm_num)
    rw [(C34_range_partial _ _ _ _ _).1 hne] at e3
    cases e3
  obtain ⟨c, k1, k2, k3⟩ := (C34_range_partial (q.map fun (x : ℝ) => x * 1e10) (th.map fun (x : ℝ) => x * 1e-10)
    (ro.map fun (x : ℝ) => x * 1e-10) (sl.map fun (z : ℂ) => z * 1e14) (amb * 1e14)).2.2 (by rw [ha, zero_mul]) (by simpa using l1) (by simpa using l2)
  have k1' := k1.symm.trans e3
  cases k1'
  refine ⟨ci, e1, by simpa using k2, k3, ⟨th, ro, sl, amb, e2⟩, fun th' ro' sl' amb' hr => ?_⟩
  obtain ⟨rfl, rfl, rfl, rfl⟩ := stackRow_unique (by rw [g0]; exact labelParams_nodup hs hn) e2 hr
  refine ⟨ha, fun j qj hj hp wave hw x hx => ?_⟩
  rw [ha, zero_mul, multilayer_eq _ _ _ _ (by simpa using l1) (by simpa using l2)] at e3
  have h3 := C113_units qj th' ro' sl' l1 l2 hp wave hw x hx
  rw [multilayer_eq _ _ _ _ (by simpa using l1) (by simpa using l2), List.map_singleton] at h3
  have h3 := (List.cons.inj (Except.ok.inj h3)).1
  rw [← Except.ok.inj e3, List.map_map, List.getElem?_map, hj]
  simp only [Option.map_some, Function.comp_apply]
  rw [h3]

/-- C118, refl1d: curve `i` is what refl1d returns for the stack that row `i` of the returned parameters describes. -/
theorem C118_refl1d (env : FitEnv) (eng : Engine) (hs : SampleRegular env.sample) (hn : (partNames env.sample).Nodup)
    (hk : KeywordFree (partNames env.sample)) (hl : 0 < env.sample.layers.length)
    (hsim : env.simulate = generatorSimulate (some eng) ((labelParams env.sample).map Prod.fst))
    (curves : List (List ℝ)) (q : List ℝ) (o : Options) (shifts scalings : Nat → List ℝ) (out : Output)
    (h : env.fitCurve curves q o shifts scalings = .ok out) (ho : o.simulate = true) :
    ∃ r, out.refl = some r ∧ r.length = out.params.rows ∧ ∀ i < out.params.rows, ∃ ci, r[i]? = some ci ∧
      (∃ th ro sl amb, StackRow out.params i env.sample.substrate.name (env.sample.layers.map (·.name)) env.sample.ambient.name th ro sl amb) ∧
      ∀ th ro sl amb,
        StackRow out.params i env.sample.substrate.name (env.sample.layers.map (·.name)) env.sample.ambient.name th ro sl amb →
        ∃ a e, refl1dFor q th ro (sl ++ [amb]) a ∧ eng a = .ok e ∧ (e.length = q.length → ci = e) ∧ ci.length = q.length ∧
          refl1dStack a.depth a.sigma a.rho a.irho =
            ⟨amb * 1e14, slabs (th.map fun (x : ℝ) => x * 1e-10) (ro.map fun (x : ℝ) => x * 1e-10) (sl.map fun (z : ℂ) => z * 1e14)⟩ := by
  obtain ⟨r, h1, h2⟩ := (C98_simulated env curves q o shifts scalings out h).1 ho
  rw [hsim] at h2
  obtain ⟨g0, g1, g2⟩ := generator_row hs hk hl h2
  refine ⟨r, h1, g1, fun i hi => ?_⟩
  obtain ⟨ci, th, ro, sl, amb, e1, e2, e3⟩ := g2 i hi
  simp only [stackCurve] at e3
  obtain ⟨l1, l2⟩ := stackRow_lengths e2
  refine ⟨ci, e1, ⟨th, ro, sl, amb, e2⟩, fun th' ro' sl' amb' hr => ?_⟩
  obtain ⟨rfl, rfl, rfl, rfl⟩ := stackRow_unique (by rw [g0]; exact labelParams_nodup hs hn) e2 hr
  obtain ⟨e, e4, e5⟩ := bind_eq_ok.1 e3
  refine ⟨_, e, stackArgs_for q _ _ _, e4, fun he => ?_, assignRow_length e5, ?_⟩
  · unfold assignRow at e5
    rw [if_pos he] at e5
    cases e5
    rfl
  · obtain ⟨-, -, -, -, hst⟩ := refl1dStack_eq (stackArgs_for q th' ro' (sl' ++ [amb'])) l1 (by simp [l2])
    rw [hst, List.map_append, List.map_singleton, List.dropLast_concat, List.getLastD_concat]
    rfl

/-! ### A case -/

/-- The builtin engine with the network of `toyEnv`. -/
noncomputable def plainEnv : FitEnv := codeEnv none ((labelParams (prepSample 0 1)).map Prod.fst) [1, 2] [0, 0] [1, 1] 2
  (fun (r : List ℝ) (_ : Nat) => some ((r.getD 1 0 : ℝ) : ℂ)) (prepSample 0 1) (fun _ _ start _ _ => .ok start)

/-- The numbers of `pairTable`. -/
noncomputable def pairCells (a b : ℝ) : SimTable :=
  ⟨[("film_thickness".toList, [(a : ℂ)]), ("Si_roughness".toList, [((1 : ℝ) : ℂ)]), ("film_roughness".toList, [((3 : ℝ) : ℂ)]),
    ("Si_sld".toList, [((20 : ℝ) : ℂ)]), ("film_sld".toList, [(b : ℂ)]), ("air_sld".toList, [((0 : ℝ) : ℂ)])], 1⟩

theorem pairTable_stack (a b : ℝ) : StackRow (pairTable a b) 0 "Si".toList ["film".toList] "air".toList [a] [1, 3] [20, (b : ℂ)] 0 := by
  have hc : ∀ (k : Nat) (n : Str) (z : ℂ), (pairTable a b).cols[k]? = some (n, [some z]) → CellIs (pairTable a b) n 0 z :=
    fun k n z h => ⟨_, List.mem_of_getElem? h, rfl, rfl⟩
  refine ⟨.cons ⟨_, hc 0 _ _ rfl, rfl⟩ .nil, .cons ⟨_, hc 1 _ _ rfl, rfl⟩ (.cons ⟨_, hc 2 _ _ rfl, rfl⟩ .nil),
    .cons (hc 3 _ _ (by simp [pairTable])) (.cons (hc 4 _ _ rfl) .nil), hc 5 _ _ (by simp [pairTable])⟩

theorem plain_predict {b : ℝ} (hb : 0 < b) : plainEnv.predict [[1, b]] = .ok (pairTable (b * 10 + 10) b) := by
  have h1 : plainEnv.standardize [[1, b]] = .ok [[1, b]] := toyEnv_standardize (prepSample 0 1) _ (by simp)
  have h2 : plainEnv.net [[1, b]] = .ok (.array 1 [[some (b : ℂ)], [some (b : ℂ)]]) := rfl
  have h3 : plainEnv.sample = prepSample 0 1 := rfl
  unfold FitEnv.predict
  rw [h1, bind_ok, h2, bind_ok, h3, restore_pair, bind_ok, pair_positive (by linarith)]
  rfl

theorem plain_simulate (a b : ℝ) (q : List ℝ) : ∃ r, plainEnv.simulate q (pairTable a b) = .ok r := by
  have hs : SampleRegular (prepSample 0 1) := prepSample_regular (by norm_num)
  have he : pairTable a b = embedTable (pairCells a b) := rfl
  have hshape : LabelShape (prepSample 0 1) (embedTable (pairCells a b)) := by
    rw [← he]
    refine ⟨by rw [prepSample_params]; rfl, fun c hc => ?_⟩
    simp only [pairTable, List.mem_cons, List.not_mem_nil, or_false] at hc
    rcases hc with rfl | rfl | rfl | rfl | rfl | rfl <;> rfl
  show ∃ r, generatorSimulate none ((labelParams (prepSample 0 1)).map Prod.fst) q (pairTable a b) = .ok r
  rw [he, generatorSimulate_rows hs prep_keywordFree (by decide) _ _ _ hshape]
  refine mapM_all fun i hi => ?_
  obtain ⟨th, ro, sl, amb, h1, h2, h3, h4⟩ := labelRow_stack hs hshape (List.mem_range.1 hi)
  have hi : i = 0 := by
    have := List.mem_range.1 hi
    simp only [pairCells] at this
    omega
  subst hi
  rw [rowCurve_builtin q h2 h3 h4]
  have hn : (embedTable (pairCells a b)).cols.columns.Nodup := by
    rw [hshape.1]
    exact labelParams_nodup hs (prepSample_names 0 1)
  have h5 := stackRow_unique hn h1 (pairTable_stack a b)
  obtain ⟨rfl, rfl, rfl, rfl⟩ := h5
  rw [zero_mul, multilayer_eq _ _ _ _ rfl rfl]
  exact ⟨_, rfl⟩

/-- A fit with the builtin engine succeeds, and the returned parameters describe a film of the thickness `10 b + 10`. -/
theorem plain_fit {b : ℝ} (hb : 0 < b) :
    ∃ out, plainEnv.fitCurve [[1, b]] [1, 2] (plainOpts false) (fun _ => []) (fun _ => []) = .ok out ∧ out.params.rows = 1 ∧
      StackRow out.params 0 "Si".toList ["film".toList] "air".toList [b * 10 + 10] [1, 3] [20, (b : ℂ)] 0 := by
  obtain ⟨r, hr⟩ := plain_simulate (b * 10 + 10) b [1, 2]
  have hin : plainEnv.networkInput [[1, b]] [1, 2] 0 1 = .ok [[1, b]] :=
    networkInput_self (env := plainEnv) (by show ([1, 2] : List ℝ).Pairwise (· < ·); norm_num) (by show ([1, 2] : List ℝ) ≠ []; simp) (by
      intro c hc
      simp only [List.mem_singleton] at hc
      subst hc
      refine ⟨rfl, fun v hv => ?_⟩
      simp only [List.mem_cons, List.not_mem_nil, or_false] at hv
      rcases hv with rfl | rfl
      · norm_num
      · exact hb)
  refine ⟨⟨pairTable (b * 10 + 10) b, some r, none, none⟩, ?_, rfl, pairTable_stack _ _⟩
  unfold FitEnv.fitCurve
  have hq : plainEnv.qIndices [1, 2] = .ok (0, 2) := toy_qIndices (prepSample 0 1)
  rw [hq, bind_ok]
  have e1 : (plainOpts false).dq = 0 := rfl
  have e2 : (plainOpts false).factor = 1 := rfl
  simp only [e1, e2, hin, bind_ok]
  unfold FitEnv.qStep FitEnv.scalingStep FitEnv.chooseParams FitEnv.polishStep FitEnv.simulateStep
  simp only [plainOpts, Bool.false_eq_true, if_false, bind_ok, Bool.false_and, plain_predict hb, if_true, hr]
  rfl

/-- The returned curve is Parratt's curve of this film. -/
example {b : ℝ} (hb : 0 < b) (wave : ℂ → ℂ) (hw : ∀ ρ, 0 ≤ ρ.im → IsWaveAngstrom 2 ρ (wave ρ)) (x : ℂ)
    (hx : parratt wave (wave 0) (slabs [b * 10 + 10] [1, 3] [20, (b : ℂ)]) = some x) :
    ∃ out r c, plainEnv.fitCurve [[1, b]] [1, 2] (plainOpts false) (fun _ => []) (fun _ => []) = .ok out ∧ out.refl = some r ∧
      r[0]? = some c ∧ c[1]? = some (some (min (‖x‖ ^ 2) 1)) := by
  obtain ⟨out, h1, h2, h3⟩ := plain_fit hb
  obtain ⟨r, h4, -, h5⟩ := C118_builtin plainEnv (prepSample_regular (by norm_num)) (prepSample_names 0 1) prep_keywordFree (by decide) rfl
    _ _ _ _ _ out h1 rfl
  obtain ⟨c, h6, -, -, -, h7⟩ := h5 0 (by omega)
  refine ⟨out, r, c, h1, h4, h6, (h7 _ _ _ _ h3).2 1 2 rfl (fun ρ hρ => ?_) wave hw x hx⟩
  simp only [List.mem_cons, List.not_mem_nil, or_false] at hρ
  rcases hρ with rfl | rfl <;> simp

/-- The hypotheses of `C118_refl1d` hold. -/
example {b : ℝ} (hb : 0 < b) : ∃ out r, onesEnv.fitCurve [[1, b]] [1, 2] (plainOpts false) (fun _ => []) (fun _ => []) = .ok out ∧
    out.refl = some r ∧ r.length = out.params.rows := by
  obtain ⟨out, h1⟩ := ones_fit hb
  obtain ⟨r, h4, h5, -⟩ := C118_refl1d onesEnv onesEngine (prepSample_regular (by norm_num)) (prepSample_names 0 1) prep_keywordFree (by decide) rfl
    _ _ _ _ _ out h1 rfl
  exact ⟨out, r, h1, h4, h5⟩

end Verif.Props
