import Verif.Model.Simulate
import Verif.Spec.Simulate
import Verif.Props.Labels
import Verif.Props.Noise
import Verif.Props.Flux

/-!
# C32, C40, C79: the simulation of label tables
-/

namespace Verif.Props
open Verif.Py Verif.Model Verif.Spec
variable {G : Type}

/-! ### C40: the arguments of the engines -/

/-- The arguments that refl1d gets for one row of labels: thicknesses `t`, roughnesses `r` and densities `s`,
all from the bottom to the top. -/
def refl1dFor (q t r : List ℝ) (s : List ℂ) (a : Refl1dArgs) : Prop :=
  a.kz = q.map (fun (x : ℝ) => x / 2) ∧ a.depth = 1 :: t.reverse ++ [1] ∧ a.sigma = r.reverse ∧
  ((∃ z ∈ s, z.im ≠ 0) ∧ a.rho = s.reverse.map (fun (z : ℂ) => (z.re : ℂ)) ∧
      a.irho = some (s.reverse.map fun (z : ℂ) => z.im) ∨
    (∀ z ∈ s, z.im = 0) ∧ a.rho = s.reverse ∧ a.irho = none)

theorem refl1dStack_eq {q t r : List ℝ} {s : List ℂ} {a : Refl1dArgs} (h : refl1dFor q t r s a)
    (h1 : t.length + 1 = r.length) (h2 : r.length + 1 = s.length) :
    a.depth.length = t.length + 2 ∧ a.rho.length = t.length + 2 ∧ (∀ i ∈ a.irho, i.length = t.length + 2) ∧
    a.sigma.length = t.length + 1 ∧
    refl1dStack a.depth a.sigma a.rho a.irho =
      builtinStack (t.map fun (x : ℝ) => x * 1e-10) (r.map fun (x : ℝ) => x * 1e-10)
        ((s.map fun (z : ℂ) => z * 1e14).dropLast) ((s.map fun (z : ℂ) => z * 1e14).getLastD 0) := by
  obtain ⟨-, hd, hs, hr⟩ := h
  obtain ⟨s, amb, rfl⟩ : ∃ s' amb, s = s' ++ [amb] := by
    rcases List.eq_nil_or_concat s with rfl | ⟨l, x, rfl⟩
    · simp at h2
    · exact ⟨l, x, by simp⟩
  have hfull : fullRho a.rho a.irho = (s ++ [amb]).reverse := by
    rcases hr with ⟨-, e1, e2⟩ | ⟨-, e1, e2⟩
    · rw [e1, e2]
      show List.zipWith _ _ _ = _
      rw [List.zipWith_map]
      generalize (s ++ [amb]).reverse = l
      induction l with
      | nil => rfl
      | cons x l ih => simp only [List.zipWith_cons_cons, ih, Complex.re_add_im]
    · rw [e1, e2]
      rfl
  have hlen : (s ++ [amb]).length = t.length + 2 := by omega
  refine ⟨by rw [hd]; simp, ?_, ?_, by rw [hs]; simp [h1], ?_⟩
  · rcases hr with ⟨-, e1, -⟩ | ⟨-, e1, -⟩ <;> rw [e1] <;> simpa using hlen
  · rcases hr with ⟨-, -, e2⟩ | ⟨-, -, e2⟩ <;> rw [e2]
    · intro i hi
      simp only [Option.mem_def, Option.some.injEq] at hi
      rw [← hi]; simpa using hlen
    · simp
  · unfold refl1dStack builtinStack
    rw [hfull, hd, hs]
    simp only [List.reverse_append, List.reverse_cons, List.reverse_nil, List.nil_append, List.cons_append,
      List.headD_cons, List.tail_cons, List.map_append, List.map_cons, List.map_nil, List.dropLast_concat,
      List.getLastD_concat]
    congr 1
    unfold slabs
    rw [List.reverse_zipWith (by simp at hlen ⊢; omega), List.reverse_cons]
    simp only [List.zip, List.reverse_zipWith (show (r.map fun (x : ℝ) => x * 1e-10).length =
      (s.map fun (z : ℂ) => z * 1e14).length by simp at hlen ⊢; omega)]
    rw [← List.map_reverse, ← List.map_reverse, ← List.map_reverse]
    have e0 : t.reverse.map (fun (x : ℝ) => x * 1e-10) ++ [0] = (t.reverse ++ [0]).map fun (x : ℝ) => x * 1e-10 := by
      simp
    rw [e0, List.zipWith_map, List.zipWith_map_right]
    generalize t.reverse ++ [0] = t'
    generalize r.reverse = r'
    generalize s.reverse = s'
    induction t' generalizing r' s' with
    | nil => simp
    | cons x t' ih =>
      cases r' with
      | nil => simp
      | cons y r' => cases s' with
        | nil => simp
        | cons z s' =>
          simp only [List.zipWith_cons_cons, List.cons.injEq, true_and]
          exact ih _ _

/-- A label table of a sample with `n` layers: row `i` consists of the thicknesses `t i`, the roughnesses `r i` and
the densities `s i`. -/
structure IsTable (names : List Str) (n : Nat) (tab : SimTable) (t r : Nat → List ℝ) (s : Nat → List ℂ) : Prop where
  columns : tab.frame.columns = names
  row : ∀ i < tab.nrows, tab.frame.map (fun c => c.2[i]?) =
    ((t i).map Complex.ofReal ++ (r i).map Complex.ofReal ++ s i).map some
  thickness : ∀ i < tab.nrows, (t i).length = n
  roughness : ∀ i < tab.nrows, (r i).length = n + 1
  sld : ∀ i < tab.nrows, (s i).length = n + 2

theorem filterMap_of_map {α β : Type} {f : α → Option β} {l : List α} {r : List β} (h : l.map f = r.map some) :
    l.filterMap f = r := by
  induction l generalizing r with
  | nil => cases r with
    | nil => rfl
    | cons => simp at h
  | cons a l ih =>
    cases r with
    | nil => simp at h
    | cons b r =>
      simp only [List.map_cons, List.cons.injEq] at h
      rw [List.filterMap_cons_some h.1, ih h.2]

theorem ofCols_ne {α : Type} {m : Nat} {cols : List (List α)} (h : cols ≠ []) :
    LabelArr.ofCols m cols = .rows ((List.range m).map fun (i : Nat) => cols.filterMap fun c => c[i]?) := by
  cases cols with
  | nil => exact (h rfl).elim
  | cons => rfl

/-- The three arrays that the code makes of a label table. -/
theorem arrays_eq (smp : SampleV ℝ) (hs : SampleRegular smp) (names : List Str) (hn : smp.labelNames = .ok names)
    (hk : KeywordFree (partNames smp)) (hl : 0 < smp.layers.length) (tab : SimTable) (t r : Nat → List ℝ)
    (s : Nat → List ℂ) (ht : IsTable names smp.layers.length tab t r s) :
    (LabelArr.ofCols tab.nrows (separateLabels tab.frame).1).map Complex.re = .rows ((List.range tab.nrows).map t) ∧
    (LabelArr.ofCols tab.nrows (separateLabels tab.frame).2.1).map Complex.re = .rows ((List.range tab.nrows).map r) ∧
    LabelArr.ofCols tab.nrows (separateLabels tab.frame).2.2 = .rows ((List.range tab.nrows).map s) := by
  obtain ⟨names', h1, h2, -⟩ := C05_label_names smp hs
  have hnl : tab.frame.length = 3 * smp.layers.length + 3 := by
    have := congrArg List.length ht.columns
    rw [hn] at h1
    cases h1
    rw [h2] at this
    simp [Frame.columns, expectedLabels] at this
    omega
  have hsep := C07_separate_sample_partial smp hs names hn hk tab.frame ht.columns
  simp only at hsep
  rw [hsep]
  set n := smp.layers.length
  have key : ∀ i < tab.nrows, (tab.frame.map Prod.snd).map (fun c => c[i]?) =
      ((t i).map Complex.ofReal ++ (r i).map Complex.ofReal ++ s i).map some := by
    intro i hi
    rw [← ht.row i hi, List.map_map]
    rfl
  have reof : ∀ l : List ℝ, (l.map Complex.ofReal).map Complex.re = l := fun l => by
    rw [List.map_map]; simp [Function.comp_def]
  have ne1 : (tab.frame.map Prod.snd).take n ≠ [] := by
    intro h
    have := congrArg List.length h
    simp only [List.length_take, List.length_map, List.length_nil] at this
    omega
  have ne2 : ((tab.frame.map Prod.snd).drop n).take (n + 1) ≠ [] := by
    intro h
    have := congrArg List.length h
    simp only [List.length_take, List.length_drop, List.length_map, List.length_nil] at this
    omega
  have ne3 : (tab.frame.map Prod.snd).drop (2 * n + 1) ≠ [] := by
    intro h
    have := congrArg List.length h
    simp only [List.length_drop, List.length_map, List.length_nil] at this
    omega
  rw [ofCols_ne ne1, ofCols_ne ne2, ofCols_ne ne3]
  simp only [LabelArr.map, List.map_map, LabelArr.rows.injEq]
  refine ⟨List.map_congr_left fun i hi => ?_, List.map_congr_left fun i hi => ?_, List.map_congr_left fun i hi => ?_⟩
  all_goals have hi := List.mem_range.1 hi
  · rw [Function.comp_apply, filterMap_of_map (r := (t i).map Complex.ofReal), reof]
    rw [List.map_take, key i hi, ← List.map_take, List.append_assoc,
      List.take_left' (by simp [ht.thickness i hi])]
  · rw [Function.comp_apply, filterMap_of_map (r := (r i).map Complex.ofReal), reof]
    rw [List.map_take, List.map_drop, key i hi, ← List.map_drop, ← List.map_take, List.append_assoc,
      List.drop_left' (by simp [ht.thickness i hi]), List.take_left' (by simp [ht.roughness i hi])]
  · rw [filterMap_of_map (r := s i)]
    rw [List.map_drop, key i hi, ← List.map_drop,
      List.drop_left' (by simp [ht.thickness i hi, ht.roughness i hi]; omega)]

theorem getItem_rangeMap {α : Type} {f : Nat → α} {m i : Nat} (hi : i < m) :
    getItem ((List.range m).map f) (i : Int) = .ok (f i) := by
  unfold getItem normIdx
  simp [hi]

theorem forall₂_imp_mem {α β : Type} {R S : α → β → Prop} {l : List α} {r : List β} (h : List.Forall₂ R l r)
    (hi : ∀ a b, a ∈ l → R a b → S a b) : List.Forall₂ S l r := by
  induction h with
  | nil => exact .nil
  | cons h _ ih => exact .cons (hi _ _ (by simp) h) (ih fun a b ha => hi a b (by simp [ha]))

theorem mapM_congr {α β : Type} {f f' : α → Res β} {l : List α} (h : ∀ a ∈ l, f a = f' a) : l.mapM f = l.mapM f' := by
  induction l with
  | nil => rfl
  | cons a l ih => rw [mapM_cons, mapM_cons, h a (by simp), ih fun b hb => h b (by simp [hb])]

/-- The noisy momentum transfers: one list of the right length per curve. -/
theorem noisyQ_spec (rng : Rng G) (ok : rng.Ok) (pf : Str → Option ℝ) (q : List ℝ) (sp : SpreadVal) (n : Nat) (g g' : G)
    (Q : List (List ℝ)) (h : makeNoisyQ rng pf q sp n g = .ok (Q, g')) :
    ∃ Q' : Nat → List ℝ, Q = (List.range n).map Q' ∧ ∀ i < n, (Q' i).length = q.length := by
  unfold makeNoisyQ at h
  rw [Rand.bind_ok] at h
  obtain ⟨x, g1, h1, h⟩ := h
  rw [Rand.bind_ok] at h
  obtain ⟨d, g2, h2, h⟩ := h
  have h := (Rand.pure_ok.1 h)
  simp only [Prod.mk.injEq] at h
  have hd : d.length = n * q.length := by
    unfold drawNormal at h2
    split_ifs at h2
    simp only [Except.ok.injEq, Int.toNat_natCast] at h2
    have := ok.normal_length 1 x (n * q.length) g1
    rw [h2] at this
    exact this
  refine ⟨_, h.1, fun i hi => ?_⟩
  have : (i + 1) * q.length ≤ n * q.length := Nat.mul_le_mul_right _ hi
  simp only [List.length_zipWith, List.length_take, List.length_drop, hd]
  rw [Nat.add_mul] at this
  omega

/-- Without noise the momentum transfers are the given ones, if a normal distribution of width zero returns its
mean. -/
theorem noisyQ_zero (rng : Rng G) (ok : rng.Ok) (hz : ∀ m n g, ∀ x ∈ (rng.normal m 0 n g).1, x = m)
    (pf : Str → Option ℝ) (q : List ℝ) (n : Nat) (g : G) :
    ∃ g', makeNoisyQ rng pf q (.num 0) n g = .ok ((List.range n).map fun _ => q, g') := by
  refine ⟨(rng.normal 1 0 (n * q.length) g).2, ?_⟩
  unfold makeNoisyQ
  rw [Rand.bind_ok]
  refine ⟨0, g, rfl, ?_⟩
  rw [Rand.bind_ok]
  refine ⟨(rng.normal 1 0 (n * q.length) g).1, (rng.normal 1 0 (n * q.length) g).2, ?_, ?_⟩
  · unfold drawNormal
    rw [if_neg (by push Not; exact ⟨Int.natCast_nonneg _, le_rfl⟩)]
    rfl
  · rw [Rand.pure_ok]
    congr 1
    refine List.map_congr_left fun i hi => ?_
    have hi := List.mem_range.1 hi
    have hrep : (rng.normal 1 0 (n * q.length) g).1 = List.replicate (n * q.length) 1 :=
      List.eq_replicate_iff.2 ⟨ok.normal_length _ _ _ _, hz 1 _ g⟩
    rw [hrep, List.drop_replicate, List.take_replicate]
    have : (i + 1) * q.length ≤ n * q.length := Nat.mul_le_mul_right _ hi
    rw [Nat.add_mul] at this
    rw [min_eq_left (by omega)]
    have : ∀ l : List ℝ, l = List.zipWith (· * ·) l (List.replicate l.length 1) := by
      intro l
      induction l with
      | nil => rfl
      | cons a l ih =>
        rw [List.length_cons, List.replicate_succ, List.zipWith_cons_cons, ← ih, mul_one]
    exact this q

/-- C40, refl1d: for every sample with layers, every label table and every engine, the returned curves are what
the engine returns for the arguments `refl1dFor` of the rows. (Partial: layer names without the key words, see
C07; the package must be installed.) -/
theorem C40_refl1d_partial (smp : SampleV ℝ) (hs : SampleRegular smp) (names : List Str)
    (hn : smp.labelNames = .ok names) (hk : KeywordFree (partNames smp)) (hl : 0 < smp.layers.length) (tab : SimTable)
    (t r : Nat → List ℝ) (s : Nat → List ℂ) (ht : IsTable names smp.layers.length tab t r s)
    (rng : Rng G) (ok : rng.Ok) (eng : Engine) (pf : Str → Option ℝ) (q : List ℝ) (sp : SpreadVal) (g g' : G)
    (c : List (List (Option ℝ)))
    (h : simulateReflectivity rng (some eng) pf q (some tab) sp "refl1d".toList g = .ok (c, g')) :
    ∃ (Q : Nat → List ℝ) (a : Nat → Refl1dArgs), (∀ i < tab.nrows, (Q i).length = q.length ∧
        refl1dFor (Q i) (t i) (r i) (s i) (a i)) ∧
      makeNoisyQ rng pf q sp tab.nrows g = .ok ((List.range tab.nrows).map Q, g') ∧
      List.Forall₂ (fun i ci => ∃ e, eng (a i) = .ok e ∧ assignRow q.length e = .ok ci) (List.range tab.nrows) c := by
  obtain ⟨e1, e2, e3⟩ := arrays_eq smp hs names hn hk hl tab t r s ht
  unfold simulateReflectivity at h
  simp only at h
  rw [if_neg (fun h => h.1 rfl), e1, e2, e3, Rand.bind_ok] at h
  obtain ⟨Q0, g1, h1, h⟩ := h
  have hlen : (LabelArr.rows ((List.range tab.nrows).map t)).len = tab.nrows := by simp [LabelArr.len]
  rw [hlen] at h1
  obtain ⟨Q, rfl, hQ⟩ := noisyQ_spec rng ok pf q sp _ g g1 Q0 h1
  rw [if_pos (show "refl1d".toList = refl1dS from rfl)] at h
  obtain ⟨hres, hg⟩ := Rand.ofRes_ok.1 h
  clear h
  simp only at hres hg
  subst hg
  unfold runRefl1d at hres
  simp only [LabelArr.fliplr, bind_ok, LabelArr.row, hlen] at hres
  rw [mapM_ok_iff] at hres
  classical
  refine ⟨Q, fun i => if ∃ z ∈ (s i).reverse, z.im ≠ 0 then
    ⟨(Q i).map fun (x : ℝ) => x / 2, 1 :: (t i).reverse ++ [1], (r i).reverse,
      (s i).reverse.map fun (z : ℂ) => (z.re : ℂ), some ((s i).reverse.map fun (z : ℂ) => z.im)⟩
    else ⟨(Q i).map fun (x : ℝ) => x / 2, 1 :: (t i).reverse ++ [1], (r i).reverse, (s i).reverse, none⟩,
    fun i hi => ⟨hQ i hi, ?_⟩, h1, ?_⟩
  · by_cases hc : ∃ z ∈ (s i).reverse, z.im ≠ 0
    · simp only [hc, if_true]
      exact ⟨rfl, rfl, rfl, .inl ⟨by simpa using hc, rfl, rfl⟩⟩
    · simp only [hc, if_false]
      exact ⟨rfl, rfl, rfl, .inr ⟨by push Not at hc; simpa using hc, rfl, rfl⟩⟩
  · have hmem : ∀ i ∈ List.range tab.nrows, i < tab.nrows := fun i hi => List.mem_range.1 hi
    refine forall₂_imp_mem hres fun i ci hi hci => ?_
    have hi := hmem i hi
    rw [getItem_rangeMap hi, List.map_map, getItem_rangeMap hi, getItem_rangeMap hi, List.map_map,
      getItem_rangeMap hi] at hci
    simp only [bind_ok, Function.comp_apply] at hci
    beta_reduce
    by_cases hc : ∃ z ∈ (s i).reverse, z.im ≠ 0
    · rw [if_pos hc] at hci ⊢
      obtain ⟨e, he, hci⟩ := bind_eq_ok.1 hci
      exact ⟨e, he, hci⟩
    · rw [if_neg hc] at hci ⊢
      obtain ⟨e, he, hci⟩ := bind_eq_ok.1 hci
      exact ⟨e, he, hci⟩

theorem multilayer_length {q t r : List ℝ} {s : List ℂ} {amb : ℂ} {c : List (Option ℝ)}
    (h : multilayerReflectivity q t r s amb = .ok c) : c.length = q.length := by
  by_cases ha : amb = 0
  · subst ha
    by_cases hc : t.length + 1 = r.length ∧ r.length = s.length
    · rw [multilayer_eq q t r s hc.1 hc.2] at h
      cases h
      simp
    · rw [(C34_range_partial q t r s 0).2.1 rfl hc] at h
      cases h
  · rw [(C34_range_partial q t r s amb).1 ha] at h
    cases h

/-- C40, builtin: for every sample with layers and every label table, row `i` is handed to the builtin simulation as
`n` thicknesses, `n + 1` roughnesses and `n + 1` densities from the bottom to the top and the ambient density, all in
SI units. This engine is also used if `refl1d` cannot be imported. (Partial: layer names without the key words.) -/
theorem C40_builtin_partial (smp : SampleV ℝ) (hs : SampleRegular smp) (names : List Str)
    (hn : smp.labelNames = .ok names) (hk : KeywordFree (partNames smp)) (hl : 0 < smp.layers.length) (tab : SimTable)
    (t r : Nat → List ℝ) (s : Nat → List ℂ) (ht : IsTable names smp.layers.length tab t r s)
    (rng : Rng G) (eng : Option Engine) (pf : Str → Option ℝ) (q : List ℝ) (sp : SpreadVal) (g g' : G)
    (engine : Str) (he : engine = "builtin".toList ∨ engine = "refl1d".toList ∧ eng = none)
    (Q : Nat → List ℝ) (hq : ∀ i < tab.nrows, (Q i).length = q.length)
    (hQ : makeNoisyQ rng pf q sp tab.nrows g = .ok ((List.range tab.nrows).map Q, g')) :
    simulateReflectivity rng eng pf q (some tab) sp engine g =
      ((List.range tab.nrows).mapM fun (i : Nat) =>
        multilayerReflectivity ((Q i).map fun (x : ℝ) => x * 1e10) ((t i).map fun (x : ℝ) => x * 1e-10)
          ((r i).map fun (x : ℝ) => x * 1e-10) (((s i).map fun (z : ℂ) => z * 1e14).dropLast)
          (((s i).map fun (z : ℂ) => z * 1e14).getLastD 0)).map (·, g') := by
  obtain ⟨e1, e2, e3⟩ := arrays_eq smp hs names hn hk hl tab t r s ht
  have hlen : (LabelArr.rows ((List.range tab.nrows).map t)).len = tab.nrows := by simp [LabelArr.len]
  have hrun : runBuiltin (.rows ((List.range tab.nrows).map t)) (.rows ((List.range tab.nrows).map r))
      (.rows ((List.range tab.nrows).map s)) q.length ((List.range tab.nrows).map Q) =
      (List.range tab.nrows).mapM fun (i : Nat) =>
        multilayerReflectivity ((Q i).map fun (x : ℝ) => x * 1e10) ((t i).map fun (x : ℝ) => x * 1e-10)
          ((r i).map fun (x : ℝ) => x * 1e-10) (((s i).map fun (z : ℂ) => z * 1e14).dropLast)
          (((s i).map fun (z : ℂ) => z * 1e14).getLastD 0) := by
    unfold runBuiltin
    simp only [hlen]
    refine mapM_congr fun i hi => ?_
    have hi := List.mem_range.1 hi
    simp only [LabelArr.map, LabelArr.row, List.map_map]
    rw [getItem_rangeMap hi, getItem_rangeMap hi, getItem_rangeMap hi, getItem_rangeMap hi]
    simp only [bind_ok, Function.comp_apply]
    have hsl := ht.sld i hi
    obtain ⟨s', a, hsa⟩ : ∃ s' a, (s i).map (fun (z : ℂ) => z * 1e14) = s' ++ [a] := by
      rcases List.eq_nil_or_concat ((s i).map (fun (z : ℂ) => z * 1e14)) with h | ⟨l, x, h⟩
      · have := congrArg List.length h
        simp [hsl] at this
      · exact ⟨l, x, by rw [h]; simp⟩
    rw [hsa]
    have hg : getItem (s' ++ [a]) (-1) = .ok a := by
      unfold getItem normIdx
      simp
    rw [hg]
    simp only [bind_ok, List.dropLast_concat, List.getLastD_concat]
    cases hm : multilayerReflectivity ((Q i).map fun (x : ℝ) => x * 1e10) ((t i).map fun (x : ℝ) => x * 1e-10)
      ((r i).map fun (x : ℝ) => x * 1e-10) s' a with
    | error e => rfl
    | ok c =>
      simp only [bind_ok]
      unfold assignRow
      rw [if_pos (by rw [multilayer_length hm, List.length_map, hq i hi])]
  unfold simulateReflectivity
  have hv : ¬(engine ≠ refl1dS ∧ engine ≠ builtinS) := by
    rintro ⟨a, b⟩
    rcases he with h | ⟨h, -⟩
    · exact b h
    · exact a h
  simp only
  rw [if_neg hv, e1, e2, e3, hlen]
  have hbind : ∀ f : List (List ℝ) → Rand G (List (List (Option ℝ))),
      (makeNoisyQ rng pf q sp tab.nrows >>= f) g = f ((List.range tab.nrows).map Q) g' := by
    intro f
    show (makeNoisyQ rng pf q sp tab.nrows g >>= fun p => f p.1 p.2) = _
    rw [hQ]
    rfl
  rw [hbind, ← hrun]
  rcases he with h | ⟨-, rfl⟩
  · subst h
    cases eng with
    | none => rfl
    | some eng =>
      simp only
      rw [if_neg (by unfold refl1dS; decide)]
      rfl
  · rfl

/-- C40: for every row, the arguments of refl1d and the arguments of the builtin simulation describe the same
physical stack, with the stated numbers of entries. -/
theorem C40_same_stack (q t r : List ℝ) (s : List ℂ) (a : Refl1dArgs) (h : refl1dFor q t r s a)
    (h1 : t.length + 1 = r.length) (h2 : r.length + 1 = s.length) :
    a.depth.length = t.length + 2 ∧ a.rho.length = t.length + 2 ∧ (∀ i ∈ a.irho, i.length = t.length + 2) ∧
    a.sigma.length = t.length + 1 ∧
    refl1dStack a.depth a.sigma a.rho a.irho =
      builtinStack (t.map fun (x : ℝ) => x * 1e-10) (r.map fun (x : ℝ) => x * 1e-10)
        ((s.map fun (z : ℂ) => z * 1e14).dropLast) ((s.map fun (z : ℂ) => z * 1e14).getLastD 0) :=
  refl1dStack_eq h h1 h2

/-! ### C79: one curve per row -/

/-- C79 (partial): with the builtin engine, for samples with at least one layer and zero ambient density, there is one
curve per row of the table, each with one value per momentum transfer, and every number lies in `[0, 1]`. Missing:
samples without layers, for which it is false (`C79_bare_substrate`). -/
theorem C79_one_curve_per_row_partial (smp : SampleV ℝ) (hs : SampleRegular smp) (names : List Str)
    (hn : smp.labelNames = .ok names) (hk : KeywordFree (partNames smp)) (hl : 0 < smp.layers.length) (tab : SimTable)
    (t r : Nat → List ℝ) (s : Nat → List ℂ) (ht : IsTable names smp.layers.length tab t r s)
    (hamb : ∀ i < tab.nrows, (s i).getLast? = some 0)
    (rng : Rng G) (ok : rng.Ok) (eng : Option Engine) (pf : Str → Option ℝ) (q : List ℝ) (sp : ℝ) (hsp : 0 ≤ sp) (g : G) :
    ∃ c g', simulateReflectivity rng eng pf q (some tab) (.num sp) "builtin".toList g = .ok (c, g') ∧
      c.length = tab.nrows ∧ ∀ ci ∈ c, ci.length = q.length ∧ ∀ v, some v ∈ ci → 0 ≤ v ∧ v ≤ 1 := by
  have hq0 : ∃ Q0 g', makeNoisyQ rng pf q (.num sp) tab.nrows g = .ok (Q0, g') := by
    unfold makeNoisyQ
    refine Rand.bind_total ⟨sp, g, rfl⟩ fun a g1 ha => ?_
    have := (Rand.ofRes_ok.1 ha).1
    simp only [SpreadVal.toFloat, Except.ok.injEq] at this
    subst this
    refine Rand.bind_total ⟨(rng.normal 1 sp (tab.nrows * q.length) g1).1,
      (rng.normal 1 sp (tab.nrows * q.length) g1).2, ?_⟩ fun _ _ _ => ⟨_, _, rfl⟩
    unfold drawNormal
    rw [if_neg (by push Not; exact ⟨Int.natCast_nonneg _, hsp⟩)]
    rfl
  obtain ⟨Q0, g', hQ⟩ := hq0
  obtain ⟨Q, rfl, hqQ⟩ := noisyQ_spec rng ok pf q _ _ g g' Q0 hQ
  have hrow : ∀ i ∈ List.range tab.nrows, ∃ c,
      multilayerReflectivity ((Q i).map fun (x : ℝ) => x * 1e10) ((t i).map fun (x : ℝ) => x * 1e-10)
          ((r i).map fun (x : ℝ) => x * 1e-10) (((s i).map fun (z : ℂ) => z * 1e14).dropLast)
          (((s i).map fun (z : ℂ) => z * 1e14).getLastD 0) = .ok c ∧ c.length = q.length ∧
        ∀ v, some v ∈ c → 0 ≤ v ∧ v ≤ 1 := by
    intro i hi
    have hi := List.mem_range.1 hi
    have ha : ((s i).map fun (z : ℂ) => z * 1e14).getLastD 0 = 0 := by
      rw [List.getLastD_eq_getLast?, List.getLast?_map, hamb i hi]
      simp
    obtain ⟨c, h1, h2, h3⟩ := (C34_range_partial ((Q i).map fun (x : ℝ) => x * 1e10) ((t i).map fun (x : ℝ) => x * 1e-10)
      ((r i).map fun (x : ℝ) => x * 1e-10) (((s i).map fun (z : ℂ) => z * 1e14).dropLast) _).2.2 ha
      (by simp [ht.thickness i hi, ht.roughness i hi]) (by simp [ht.roughness i hi, ht.sld i hi])
    exact ⟨c, h1, by rw [h2, List.length_map, hqQ i hi], h3⟩
  rw [C40_builtin_partial smp hs names hn hk hl tab t r s ht rng eng pf q _ g g' _ (.inl rfl) Q hqQ hQ]
  classical
  have : ∃ f : Nat → List (Option ℝ), ∀ i ∈ List.range tab.nrows,
      multilayerReflectivity ((Q i).map fun (x : ℝ) => x * 1e10) ((t i).map fun (x : ℝ) => x * 1e-10)
          ((r i).map fun (x : ℝ) => x * 1e-10) (((s i).map fun (z : ℂ) => z * 1e14).dropLast)
          (((s i).map fun (z : ℂ) => z * 1e14).getLastD 0) = .ok (f i) ∧ (f i).length = q.length ∧
        ∀ v, some v ∈ f i → 0 ≤ v ∧ v ≤ 1 :=
    ⟨fun i => if h : i ∈ List.range tab.nrows then (hrow i h).choose else [], fun i h => by
      simp only [h, dif_pos]
      exact (hrow i h).choose_spec⟩
  obtain ⟨f, hf⟩ := this
  rw [mapM_eq_ok_map (fun i hi => (hf i hi).1)]
  refine ⟨_, _, rfl, by simp, fun ci hci => ?_⟩
  obtain ⟨i, hi, rfl⟩ := List.mem_map.1 hci
  exact (hf i hi).2

/-- The noisy momentum transfers, value by value: curve `i` uses the draws `i * |q|` to `i * |q| + |q| - 1`. -/
theorem noisyQ_num (rng : Rng G) (ok : rng.Ok) (pf : Str → Option ℝ) (q : List ℝ) (sp : ℝ) (hsp : 0 ≤ sp) (n : Nat) (g : G) :
    makeNoisyQ rng pf q (.num sp) n g =
      .ok ((List.range n).map fun (i : Nat) => (List.range q.length).map fun (j : Nat) =>
          q.getD j 0 * (rng.normal 1 sp (n * q.length) g).1.getD (i * q.length + j) 0,
        (rng.normal 1 sp (n * q.length) g).2) := by
  have hlen := ok.normal_length 1 sp (n * q.length) g
  have hd : drawNormal rng 1 sp (n * q.length : Nat) g = .ok (rng.normal 1 sp (n * q.length) g) := by
    unfold drawNormal
    rw [if_neg (by push Not; exact ⟨Int.natCast_nonneg _, hsp⟩)]
    rfl
  have : makeNoisyQ rng pf q (.num sp) n g =
      (drawNormal rng 1 sp (n * q.length : Nat) g >>= fun p => .ok ((List.range n).map fun (i : Nat) =>
        List.zipWith (· * ·) q ((p.1.drop (i * q.length)).take q.length), p.2)) := rfl
  rw [this, hd, bind_ok]
  congr 2
  refine List.map_congr_left fun i hi => ?_
  have hi := List.mem_range.1 hi
  have hle : (i + 1) * q.length ≤ n * q.length := Nat.mul_le_mul_right _ hi
  rw [Nat.add_mul] at hle
  have hl2 : (List.zipWith (· * ·) q (((rng.normal 1 sp (n * q.length) g).1.drop (i * q.length)).take q.length)).length =
      q.length := by
    simp only [List.length_zipWith, List.length_take, List.length_drop, hlen]
    omega
  refine List.ext_getElem (by rw [hl2]; simp) fun j h1 h2 => ?_
  rw [hl2] at h1
  have hj : i * q.length + j < (rng.normal 1 sp (n * q.length) g).1.length := by
    rw [hlen]
    omega
  simp [List.getD_eq_getElem?_getD, List.getElem?_eq_getElem h1, List.getElem?_eq_getElem hj]

/-- C79 (partial): curve `i` is the reflectivity of the stack in row `i`, at the momentum transfers multiplied by the
normal draws of this curve, one draw for each curve and momentum transfer. -/
theorem C79_own_row_partial (smp : SampleV ℝ) (hs : SampleRegular smp) (names : List Str)
    (hn : smp.labelNames = .ok names) (hk : KeywordFree (partNames smp)) (hl : 0 < smp.layers.length) (tab : SimTable)
    (t r : Nat → List ℝ) (s : Nat → List ℂ) (ht : IsTable names smp.layers.length tab t r s)
    (rng : Rng G) (ok : rng.Ok) (eng : Option Engine) (pf : Str → Option ℝ) (q : List ℝ) (sp : ℝ) (hsp : 0 ≤ sp) (g g' : G)
    (c : List (List (Option ℝ)))
    (h : simulateReflectivity rng eng pf q (some tab) (.num sp) "builtin".toList g = .ok (c, g')) :
    g' = (rng.normal 1 sp (tab.nrows * q.length) g).2 ∧ c.length = tab.nrows ∧
    ∀ i < tab.nrows, ∃ ci, c[i]? = some ci ∧
      multilayerReflectivity
        ((List.range q.length).map fun (j : Nat) =>
          q.getD j 0 * (rng.normal 1 sp (tab.nrows * q.length) g).1.getD (i * q.length + j) 0 * 1e10)
        ((t i).map fun (x : ℝ) => x * 1e-10) ((r i).map fun (x : ℝ) => x * 1e-10)
        (((s i).map fun (z : ℂ) => z * 1e14).dropLast) (((s i).map fun (z : ℂ) => z * 1e14).getLastD 0) = .ok ci := by
  rw [C40_builtin_partial smp hs names hn hk hl tab t r s ht rng eng pf q _ g _ _ (.inl rfl) _ (by simp)
    (noisyQ_num rng ok pf q sp hsp tab.nrows g)] at h
  cases hm : (List.range tab.nrows).mapM fun (i : Nat) =>
        multilayerReflectivity (((List.range q.length).map fun (j : Nat) =>
          q.getD j 0 * (rng.normal 1 sp (tab.nrows * q.length) g).1.getD (i * q.length + j) 0).map
            fun (x : ℝ) => x * 1e10) ((t i).map fun (x : ℝ) => x * 1e-10)
          ((r i).map fun (x : ℝ) => x * 1e-10) (((s i).map fun (z : ℂ) => z * 1e14).dropLast)
          (((s i).map fun (z : ℂ) => z * 1e14).getLastD 0) with
  | error e =>
    rw [hm] at h
    cases h
  | ok c' =>
    rw [hm] at h
    cases h
    have hf := mapM_ok_iff.1 hm
    refine ⟨rfl, by simpa using hf.length_eq.symm, fun i hi => ?_⟩
    have hlc : c.length = tab.nrows := by simpa using hf.length_eq.symm
    refine ⟨c[i]'(by omega), List.getElem?_eq_getElem _, ?_⟩
    have := (List.forall₂_iff_get.1 hf).2 i (by simpa using hi) (by omega)
    simp only [List.get_eq_getElem, List.getElem_range, List.map_map] at this
    exact this

/-- C79 is false for a bare substrate: whatever the number of rows, the builtin engine returns no curve at all, and
refl1d is not even called (`ValueError`). -/
theorem C79_bare_substrate (smp : SampleV ℝ) (hs : SampleRegular smp) (names : List Str)
    (hn : smp.labelNames = .ok names) (hk : KeywordFree (partNames smp)) (hl : smp.layers = []) (tab : SimTable)
    (hc : tab.frame.columns = names)
    (rng : Rng G) (eng : Option Engine) (pf : Str → Option ℝ) (q : List ℝ) (sp : ℝ) (hsp : 0 ≤ sp) (g : G) :
    (∃ g', simulateReflectivity rng eng pf q (some tab) (.num sp) "builtin".toList g = .ok ([], g')) ∧
    (eng.isSome → simulateReflectivity rng eng pf q (some tab) (.num sp) "refl1d".toList g = .error .valueError) := by
  have hsep := C07_separate_sample_partial smp hs names hn hk tab.frame hc
  simp only [hl, List.length_nil, List.take_zero] at hsep
  have h1 : (LabelArr.ofCols tab.nrows (separateLabels tab.frame).1).map Complex.re = .flat := by
    rw [hsep]
    rfl
  have hq : makeNoisyQ rng pf q (.num sp) 0 g = .ok ([], (rng.normal 1 sp 0 g).2) := by
    unfold makeNoisyQ
    rw [Rand.bind_ok]
    refine ⟨sp, g, rfl, ?_⟩
    rw [Rand.bind_ok]
    refine ⟨(rng.normal 1 sp 0 g).1, (rng.normal 1 sp 0 g).2, ?_, rfl⟩
    unfold drawNormal
    rw [if_neg (by push Not; exact ⟨Int.natCast_nonneg _, hsp⟩)]
    simp
  have hbind : ∀ f : List (List ℝ) → Rand G (List (List (Option ℝ))),
      (makeNoisyQ rng pf q (.num sp) 0 >>= f) g = f [] (rng.normal 1 sp 0 g).2 := by
    intro f
    show (makeNoisyQ rng pf q (.num sp) 0 g >>= fun p => f p.1 p.2) = _
    rw [hq]
    rfl
  constructor
  · refine ⟨(rng.normal 1 sp 0 g).2, ?_⟩
    unfold simulateReflectivity
    simp only
    rw [if_neg (fun h => h.2 rfl), h1]
    have hz : (LabelArr.flat : LabelArr ℝ).len = 0 := rfl
    rw [hz, hbind]
    cases eng with
    | none => rfl
    | some eng =>
      simp only
      rw [if_neg (by unfold refl1dS; decide)]
      rfl
  · intro he
    obtain ⟨eng, rfl⟩ := Option.isSome_iff_exists.1 he
    unfold simulateReflectivity
    simp only
    rw [if_neg (fun h => h.1 rfl), h1]
    have hz : (LabelArr.flat : LabelArr ℝ).len = 0 := rfl
    rw [hz, hbind]
    rw [if_pos (show "refl1d".toList = refl1dS from rfl)]
    rfl

/-- C79: arguments that are no data frame and unknown engines are rejected before anything is drawn. -/
theorem C79_errors (rng : Rng G) (eng : Option Engine) (pf : Str → Option ℝ) (q : List ℝ) (sp : SpreadVal) (engine : Str)
    (g : G) : simulateReflectivity rng eng pf q none sp engine g = .error .typeError ∧
    ∀ tab, engine ≠ "refl1d".toList → engine ≠ "builtin".toList →
      simulateReflectivity rng eng pf q (some tab) sp engine g = .error .valueError := by
  refine ⟨rfl, fun tab h1 h2 => ?_⟩
  unfold simulateReflectivity
  simp only
  rw [if_pos ⟨h1, h2⟩]
  rfl

/-- The hypotheses on the table hold for a table with two rows of a sample with one layer. -/
example : IsTable ["film_thickness".toList, "Si_roughness".toList, "film_roughness".toList, "Si_sld".toList,
      "film_sld".toList, "air_sld".toList] 1
    ⟨[("film_thickness".toList, [100, 200]), ("Si_roughness".toList, [1, 2]), ("film_roughness".toList, [3, 4]),
      ("Si_sld".toList, [20, 20]), ("film_sld".toList, [10, 11]), ("air_sld".toList, [0, 0])], 2⟩
    (fun i => [[100], [200]].getD i []) (fun i => [[1, 3], [2, 4]].getD i [])
    (fun i => [[20, 10, 0], [20, 11, 0]].getD i []) where
  columns := rfl
  row := by
    intro i hi
    match i, hi with
    | 0, _ => simp
    | 1, _ => simp
  thickness := by
    intro i hi
    match i, hi with
    | 0, _ => rfl
    | 1, _ => rfl
  roughness := by
    intro i hi
    match i, hi with
    | 0, _ => rfl
    | 1, _ => rfl
  sld := by
    intro i hi
    match i, hi with
    | 0, _ => rfl
    | 1, _ => rfl

/-! ### C32: the model mixer -/

/-- C32 fails for every table with at least one row: whatever the models, weights, labels, random numbers and the
engine name, `ModelMixer.simulate_reflectivity` raises, because the engine name is passed as the width of the noise
on the momentum transfers. (`pf engine = none`: the name of the engine cannot be read as a number.) -/
theorem C32_always_raises (rng : Rng G) (refl1d : Option Engine) (pf : Str → Option ℝ) (q : List ℝ)
    (models : List (SampleV ℝ)) (choice : List (SampleV ℝ) → Rand G (SampleV ℝ))
    (overwrite : Nat → Frame (Num ℝ) → Res SimTable) (n : Nat) (engine : Str) (hpf : pf engine = none) (g : G) :
    ∃ e, mixerSimulate rng refl1d pf q models choice overwrite (n + 1) engine g = .error e := by
  cases h : mixerSimulate rng refl1d pf q models choice overwrite (n + 1) engine g with
  | error e => exact ⟨e, rfl⟩
  | ok r =>
    exfalso
    obtain ⟨c, g'⟩ := r
    have hf := Rand.mapM_ok h
    rw [List.range_succ_eq_map] at hf
    cases hf with
    | cons hf _ =>
      obtain ⟨g1, g2, hf⟩ := hf
      rw [Rand.bind_ok] at hf
      obtain ⟨smp, g3, -, hf⟩ := hf
      rw [Rand.bind_ok] at hf
      obtain ⟨new, g4, -, hf⟩ := hf
      rw [Rand.bind_ok] at hf
      obtain ⟨tab, g5, -, hf⟩ := hf
      rw [Rand.bind_ok] at hf
      obtain ⟨curves, g6, hf, -⟩ := hf
      unfold simulateReflectivity at hf
      simp only at hf
      rw [if_neg (fun h => h.1 rfl)] at hf
      rw [Rand.bind_ok] at hf
      obtain ⟨Q, g7, hf, -⟩ := hf
      unfold makeNoisyQ at hf
      rw [Rand.bind_ok] at hf
      obtain ⟨x, g8, hf, -⟩ := hf
      have := (Rand.ofRes_ok.1 hf).1
      simp [SpreadVal.toFloat, hpf] at this

/-- C32 (partial): the claim holds for an empty table only. -/
theorem C32_empty_partial (rng : Rng G) (refl1d : Option Engine) (pf : Str → Option ℝ) (q : List ℝ)
    (models : List (SampleV ℝ)) (choice : List (SampleV ℝ) → Rand G (SampleV ℝ))
    (overwrite : Nat → Frame (Num ℝ) → Res SimTable) (engine : Str) (g : G) :
    mixerSimulate rng refl1d pf q models choice overwrite 0 engine g = .ok ([], g) := rfl

end Verif.Props
