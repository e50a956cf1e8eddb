import Verif.Props.Trainer

/-!
# C91, C92: when training starts, stale preprocessors, shared networks
-/

namespace Verif.Props
open Verif.Py Verif.Model Verif.Spec
variable {G Net : Type}

/-! ### When training starts -/

/-- All parameters have real limits. -/
def RealRanges (s : SampleV ℝ) : Prop :=
  ∀ q ∈ labelParams s, ∃ a b, q.2.min = .real a ∧ q.2.max = .real b

theorem bind_run {α β : Type} {x : Rand G α} {f : α → Rand G β} {g g' : G} {a : α} (h : x g = .ok (a, g')) :
    (x >>= f) g = f a g' := by
  show (x g >>= fun p => f p.1 p.2) = _
  rw [h]
  rfl

theorem mapM_total {α β : Type} {f : α → Res β} {l : List α} (h : ∀ a ∈ l, ∃ b, f a = .ok b) : ∃ r, l.mapM f = .ok r := by
  induction l with
  | nil => exact ⟨[], rfl⟩
  | cons a l ih =>
    obtain ⟨b, h1⟩ := h a (List.mem_cons_self ..)
    obtain ⟨r, h3⟩ := ih fun a ha => h a (List.mem_cons_of_mem _ ha)
    exact ⟨b :: r, by rw [mapM_cons, h1, bind_ok, h3]; rfl⟩

theorem RealRanges.substrate {s : SampleV ℝ} (h : RealRanges s) :
    ∀ p, s.substrate.roughness = some p → ∃ a b, p.min = .real a ∧ p.max = .real b := by
  intro p hp
  refine h (s.substrate.name ++ "_roughness".toList, p) ?_
  unfold labelParams
  refine List.mem_append_left _ (List.mem_append_right _ (List.mem_filterMap.2 ⟨s.substrate, by simp, ?_⟩))
  rw [hp]
  rfl

theorem normalized_real {lo hi x : Num ℝ} (h : ∃ a, lo = .real a) (h' : ∃ a, hi = .real a) (h'' : ∃ a, x = .real a) :
    (normalized minToZero lo.toC hi.toC x.toC).im = 0 := by
  obtain ⟨a, rfl⟩ := h
  obtain ⟨b, rfl⟩ := h'
  obtain ⟨c, rfl⟩ := h''
  unfold normalized
  rw [if_pos rfl]
  have : ((Num.real c).toC - (Num.real a).toC) / ((Num.real b).toC - (Num.real a).toC) =
      (((c - a) / (b - a) : ℝ) : ℂ) := by
    show ((c : ℂ) - (a : ℂ)) / ((b : ℂ) - (a : ℂ)) = _
    push_cast
    rfl
  rw [this]
  exact Complex.ofReal_im _

theorem tableRows_total {t : Table} (h : ∀ c ∈ t.cols, c.2.length = t.rows ∧ ∀ x ∈ c.2, ∃ z : ℂ, x = some z ∧ z.im = 0) :
    ∃ rows, tableRows t = .ok rows ∧ rows.length = t.rows := by
  have key : ∀ i ∈ List.range t.rows, ∃ y, (t.cols.mapM fun (c : Str × List Fl) => do
      let x ← getItem c.2 (i : Int)
      realCell x : Res (List ℝ)) = .ok y := by
    intro i hi
    refine mapM_total fun c hc => ?_
    obtain ⟨h1, h2⟩ := h c hc
    have hi : i < c.2.length := by rw [h1]; exact List.mem_range.1 hi
    obtain ⟨z, hz, him⟩ := h2 c.2[i] (List.getElem_mem hi)
    refine ⟨z.re, ?_⟩
    rw [getItem_nat hi, bind_ok, hz]
    exact if_pos him
  obtain ⟨rows, hr⟩ := mapM_total key
  refine ⟨rows, hr, ?_⟩
  rw [mapM_ok_iff] at hr
  rw [← hr.length_eq, List.length_range]

/-- C91, when training starts: after a successful `generate_training_data(n)` with real limits, the generators can be made
if and only if both parts of the data hold at least one batch; otherwise `train` raises `ValueError`. In particular
`val_split = 0` always raises for `batch ≥ 1`. -/
theorem C91_starts_iff (env : TrainEnv G Net) (ok : env.rng.Ok)
    (hz : ∀ m n g, ∀ x ∈ (env.rng.normal m 0 n g).1, x = m) (w0 : TrainerSt G Net) (hs : SampleRegular w0.sample)
    (hn : (partNames w0.sample).Nodup) (hk : KeywordFree (partNames w0.sample)) (hlay : 0 < w0.sample.layers.length)
    (hreal : RealRanges w0.sample)
    (n : Int) (w : TrainerSt G Net) (hg : w0.generate env n = (w, .ok ()))
    (l : List (TrainEvent G)) (hl : ∀ e ∈ l, (∃ a b c, e = .train a b c) ∨ ∃ g, e = .draws g)
    (epochs batch : Nat) (v : ℝ) (h0 : 0 ≤ v) (h1 : v ≤ 1) (nT : Nat) (hT : (nT : ℝ) ≤ (1 - v) * n.toNat)
    (hT' : (1 - v) * n.toNat < nT + 1) :
    (batch ≤ nT ∧ batch + nT ≤ n.toNat →
      ∃ f g', (w.run env l).prepare env epochs batch v (w.run env l).g = .ok (f, g')) ∧
    (¬ (batch ≤ nT ∧ batch + nT ≤ n.toNat) →
      (w.run env l).train env epochs batch v = (w.run env l, .error .valueError)) := by
  obtain ⟨k1, k2, k3, k4, -⟩ := run_keeps env l hl w
  unfold TrainerSt.generate at hg
  cases hd : trainingData env w0.sample w0.q n w0.g with
  | error e => rw [hd] at hg; cases hg
  | ok dg =>
    obtain ⟨d, g1⟩ := dg
    rw [hd] at hg
    simp only at hg
    cases hi : prepareInput env w0.q.length d.curves g1 with
    | error e => rw [hi] at hg; cases hg
    | ok ig =>
      obtain ⟨ip, g2⟩ := ig
      rw [hi] at hg
      cases hg
      simp only at k1 k2 k3 k4
      obtain ⟨e1, e2, ⟨F, hF, hget, ht, hr, hsld⟩, hcur⟩ := data_curves ok hz hs hn hk hlay hreal.substrate hd
      obtain ⟨hclen, -⟩ := forall₂_range_get hcur
      obtain ⟨b, hprep⟩ := prep_table hs hn e2 hget
      obtain ⟨rows, hrows, hrlen⟩ := tableRows_total (t := ⟨n.toNat,
        ((labelParams w0.sample).filter fun (p : Str × Param ℝ) => !p.2.isConst).map fun (q : Str × Param ℝ) =>
        (q.1, (F q.1).map fun (x : Num ℝ) => some (normalized minToZero q.2.min.toC q.2.max.toC x.toC))⟩) (by
        intro c hc
        obtain ⟨q, hq, rfl⟩ := List.mem_map.1 hc
        have hq := (List.mem_filter.1 hq).1
        have hcol : q.1 ∈ d.labels.columns := by rw [e2]; exact List.mem_map.2 ⟨q, hq, rfl⟩
        refine ⟨by simp [(hget q.1 hcol).2], fun x hx => ?_⟩
        obtain ⟨y, hy, rfl⟩ := List.mem_map.1 hx
        refine ⟨_, rfl, ?_⟩
        obtain ⟨a, c, ha, hc'⟩ := hreal q hq
        refine normalized_real ⟨a, ha⟩ ⟨c, hc'⟩ ?_
        unfold labelParams at hq
        rw [List.mem_append, List.mem_append] at hq
        rcases hq with (hq | hq) | hq
        · obtain ⟨l, hl, he⟩ := List.mem_filterMap.1 hq
          obtain ⟨p, -, rfl⟩ := Option.map_eq_some_iff.1 he
          exact ht l hl y hy
        · obtain ⟨l, hl, he⟩ := List.mem_filterMap.1 hq
          obtain ⟨p, -, rfl⟩ := Option.map_eq_some_iff.1 he
          exact hr l hl y hy
        · obtain ⟨l, hl, he⟩ := List.mem_filterMap.1 hq
          obtain ⟨p, hp, rfl⟩ := Option.map_eq_some_iff.1 he
          exact hsld l hl p hp a c ha hc' y hy)
      have s1 := trainSplit_eq h0 h1 d.curves
      have s2 := trainSplit_eq h0 h1 rows
      rw [hclen] at s1
      simp only at hrlen
      rw [hrlen] at s2
      obtain ⟨b0, b1⟩ := nTrain_bounds h0 h1 n.toNat
      have hx : 0 ≤ (1 - v) * (n.toNat : ℝ) := mul_nonneg (by linarith) (Nat.cast_nonneg _)
      have hfl : (nTrain v n.toNat).toNat = nT := by
        have : nTrain v n.toNat = (nT : Int) := by
          unfold nTrain
          simp only [if_pos hx]
          exact Int.floor_eq_iff.2 ⟨by exact_mod_cast hT, by exact_mod_cast hT'⟩
        rw [this]
        rfl
      have hnT : nT ≤ n.toNat := by omega
      have init_ok : ∀ (cs ls : List (List ℝ)) (g : G), batch ≤ cs.length →
          ∃ s g', Gen.init env.rng cs w0.q.length ls batch true g = .ok (s, g') := by
        intro cs ls g hb
        unfold Gen.init
        rw [if_neg (by omega)]
        exact ⟨_, _, rfl⟩
      have init_error : ∀ (cs ls : List (List ℝ)) (g : G), cs.length < batch →
          Gen.init env.rng cs w0.q.length ls batch true g = .error .valueError := by
        intro cs ls g hb
        unfold Gen.init
        rw [if_pos hb]
        rfl
      have hprepare : ∀ (w' : TrainerSt G Net) (g : G), w'.data = some d → w'.ip = some ip → w'.sample = w0.sample →
          w'.q = w0.q → w'.prepare env epochs batch v g = (do
            let gt ← Gen.init env.rng (d.curves.take nT) w0.q.length (rows.take nT) batch true
            let gv ← Gen.init env.rng (d.curves.drop nT) w0.q.length (rows.drop nT) batch true
            let ip ← Rand.ofRes (hasPreprocessor (some ip))
            return ⟨⟨gt, noiseRange, scalingRange, ip⟩, ⟨gv, noiseRange, scalingRange, ip⟩, epochs⟩ : Rand G FitIn) g := by
        intro w' g j1 j2 j3 j4
        unfold TrainerSt.prepare
        rw [j1, j2, j3, j4]
        simp only
        rw [e1]
        refine (bind_run (Rand.ofRes_ok.2 ⟨hprep, rfl⟩)).trans ?_
        refine (bind_run (Rand.ofRes_ok.2 ⟨hrows, rfl⟩)).trans ?_
        simp only [s1, s2, hfl]
      have l1 : (d.curves.take nT).length = nT := by rw [List.length_take, hclen]; omega
      have l2 : (d.curves.drop nT).length = n.toNat - nT := by rw [List.length_drop, hclen]
      refine ⟨fun hb => ?_, fun hb => ?_⟩
      · rw [hprepare _ _ k1 k2 k3 k4]
        obtain ⟨gt, g3, h3⟩ := init_ok (d.curves.take nT) (rows.take nT) (TrainerSt.run env _ l).g (by omega)
        obtain ⟨gv, g4, h4⟩ := init_ok (d.curves.drop nT) (rows.drop nT) g3 (by omega)
        rw [bind_run h3, bind_run h4]
        exact ⟨_, _, rfl⟩
      · unfold TrainerSt.train
        rw [hprepare _ _ k1 k2 k3 k4]
        have : (do
            let gt ← Gen.init env.rng (d.curves.take nT) w0.q.length (rows.take nT) batch true
            let gv ← Gen.init env.rng (d.curves.drop nT) w0.q.length (rows.drop nT) batch true
            let ip ← Rand.ofRes (hasPreprocessor (some ip))
            return ⟨⟨gt, noiseRange, scalingRange, ip⟩, ⟨gv, noiseRange, scalingRange, ip⟩, epochs⟩ : Rand G FitIn)
              (TrainerSt.run env { w0 with data := some d, ip := some ip, g := g2 } l).g = .error .valueError := by
          by_cases hb1 : batch ≤ nT
          · obtain ⟨gt, g3, h3⟩ := init_ok (d.curves.take nT) (rows.take nT)
              (TrainerSt.run env { w0 with data := some d, ip := some ip, g := g2 } l).g (by omega)
            rw [bind_run h3]
            exact bind_error (init_error _ _ _ (by omega))
          · exact bind_error (init_error _ _ _ (by omega))
        rw [this]

/-- C91: `train` before any data were made raises `ValueError` and changes nothing. -/
theorem C91_needs_data (env : TrainEnv G Net) (w : TrainerSt G Net) (h : w.data = none) (epochs batch : Nat) (v : ℝ) :
    w.train env epochs batch v = (w, .error .valueError) := by
  unfold TrainerSt.train TrainerSt.prepare
  rw [h]
  rfl

/-- C91: if making the preprocessor fails, the new data are kept together with the old preprocessor. -/
theorem C91_stale_preprocessor (env : TrainEnv G Net) (w : TrainerSt G Net) (n : Int) (d : TrainData) (g : G) (e : PyErr)
    (hd : trainingData env w.sample w.q n w.g = .ok (d, g)) (he : prepareInput env w.q.length d.curves g = .error e) :
    (w.generate env n).2 = .error e ∧ (w.generate env n).1.data = some d ∧ (w.generate env n).1.ip = w.ip := by
  unfold TrainerSt.generate
  rw [hd]
  simp only
  rw [he]
  exact ⟨rfl, rfl, rfl⟩

/-! ### Shared objects -/

/-- C92: the mean and the deviation of a returned model never change: whatever happens later, the models returned before
are the first of all returned models, in the same order. -/
theorem C92_statistics (env : TrainEnv G Net) (w : TrainerSt G Net) (l : List (TrainEvent G)) :
    w.models <+: (w.run env l).models := by
  induction l generalizing w with
  | nil => exact List.prefix_refl _
  | cons e l ih =>
    refine List.IsPrefix.trans ?_ (ih (w.step env e))
    cases e with
    | generate n =>
      simp only [TrainerSt.step, TrainerSt.generate]
      split
      · exact List.prefix_refl _
      · split <;> exact List.prefix_refl _
    | train a b c =>
      simp only [TrainerSt.step, TrainerSt.train]
      split
      · exact List.prefix_refl _
      · split
        · exact List.prefix_refl _
        · exact List.prefix_append _ _
    | edit s q => exact List.prefix_refl _
    | draws g => exact List.prefix_refl _

/-- C92 (partial): as long as the trainer is not trained again and the sample and the q values are not changed, nothing
that a returned model refers to changes. Missing: further training (`C92_network_shared`). -/
theorem C92_unchanged_partial (env : TrainEnv G Net) (w : TrainerSt G Net) (l : List (TrainEvent G))
    (hl : ∀ e ∈ l, (∃ n, e = .generate n) ∨ ∃ g, e = .draws g) :
    (w.run env l).heap = w.heap ∧ (w.run env l).sample = w.sample ∧ (w.run env l).q = w.q ∧
      (w.run env l).models = w.models := by
  induction l generalizing w with
  | nil => exact ⟨rfl, rfl, rfl, rfl⟩
  | cons e l ih =>
    have key : (w.step env e).heap = w.heap ∧ (w.step env e).sample = w.sample ∧ (w.step env e).q = w.q ∧
        (w.step env e).models = w.models := by
      rcases hl e (by simp) with ⟨n, rfl⟩ | ⟨g, rfl⟩
      · simp only [TrainerSt.step, TrainerSt.generate]
        split
        · exact ⟨rfl, rfl, rfl, rfl⟩
        · split <;> exact ⟨rfl, rfl, rfl, rfl⟩
      · exact ⟨rfl, rfl, rfl, rfl⟩
    obtain ⟨h1, h2, h3, h4⟩ := ih (w.step env e) fun x hx => hl x (by simp [hx])
    exact ⟨h1.trans key.1, h2.trans key.2.1, h3.trans key.2.2.1, h4.trans key.2.2.2⟩

/-- C92 fails for further training: all models that a trainer returned refer to its only network. After any execution
of a new trainer, the network of every returned model is the network of the trainer, however often it was trained since. -/
theorem C92_network_shared (env : TrainEnv G Net) (mk : Nat → Nat → Net) (s : SampleV ℝ) (q : List ℝ) (g : G)
    (w : TrainerSt G Net) (h : TrainerSt.init mk s q g = .ok w) (l : List (TrainEvent G)) :
    ∀ m ∈ (w.run env l).models, (w.run env l).heap m.netId = (w.run env l).net := by
  have key : ∀ (w : TrainerSt G Net), (∀ m ∈ w.models, m.netId = w.netId) →
      ∀ m ∈ (w.run env l).models, m.netId = (w.run env l).netId := by
    clear h
    induction l with
    | nil => exact fun w hw => hw
    | cons e l ih =>
      intro w hw
      refine ih (w.step env e) ?_
      cases e with
      | generate n =>
        simp only [TrainerSt.step, TrainerSt.generate]
        split
        · exact hw
        · split <;> exact hw
      | train a b c =>
        simp only [TrainerSt.step, TrainerSt.train]
        split
        · exact hw
        · split
          · exact hw
          · intro m hm
            rcases List.mem_append.1 hm with hm | hm
            · exact hw m hm
            · rw [List.mem_singleton.1 hm]; rfl
      | edit s q => exact hw
      | draws g => exact hw
  have h0 : w.models = [] := by
    unfold TrainerSt.init at h
    obtain ⟨_, -, h⟩ := bind_eq_ok.1 h
    obtain ⟨_, -, h⟩ := bind_eq_ok.1 h
    cases h
    rfl
  intro m hm
  rw [key w (by rw [h0]; intro m hm; cases hm) m hm]
  rfl

/-! ### An execution -/

/-- Single numbers alternate between the limits; several numbers are all at the lower limit if there are four and at the
upper limit otherwise. -/
noncomputable def flipRng : NoiseRng Bool where
  uniform a b n g := if n = 1 then ([if g then b else a], !g) else (List.replicate n (if n = 4 then a else b), g)
  normal m _ n g := (List.replicate n m, g)
  shuffle l g := (l, g)
  normalEach l g := (l.map fun p => p.1, g)
  poissonEach l g := (l.map fun _ => 0, g)
  shuffleIdx l g := (l, g)

theorem flipRng_ok : flipRng.Ok where
  uniform_length a b n g := by
    simp only [flipRng]
    split_ifs with h <;> simp [h]
  uniform_mem a b n g x hx := by
    simp only [flipRng] at hx
    split_ifs at hx with h1 h2
    all_goals first
      | (rw [(List.mem_replicate.1 hx).2]; first | exact Set.left_mem_uIcc | exact Set.right_mem_uIcc)
      | (rw [List.mem_singleton.1 hx]; first | exact Set.left_mem_uIcc | exact Set.right_mem_uIcc)
  normal_length _ _ _ _ := List.length_replicate
  shuffle_perm _ _ := List.Perm.refl _
  normalEach_length _ _ := by simp [flipRng]
  poissonEach_length _ _ := by simp [flipRng]
  shuffleIdx_perm _ _ := List.Perm.refl _

/-- An engine that returns one, and networks that count how often they were trained. -/
noncomputable def countEnv : TrainEnv Bool Nat := ⟨flipRng, some fun _ => .ok [some 1], fun _ => none, fun n _ g => (n + 1, .ok g)⟩

/-- A new trainer for the film sample at one q value. -/
noncomputable def countTrainer : TrainerSt Bool Nat := ⟨prepSample 0 1, [2], fun _ => 0, 0, none, none, [], false⟩

theorem countTrainer_init : TrainerSt.init (fun _ _ => 0) (prepSample 0 1) [2] false = .ok countTrainer := by
  unfold TrainerSt.init
  rw [allLabelParameters_eq (prepSample_regular (by norm_num))]
  rfl

theorem prepSample_keywordFree : KeywordFree (partNames (prepSample 0 1)) := by
  show KeywordFree ["Si".toList, "film".toList, "air".toList]
  unfold KeywordFree
  decide

theorem prepSample_real : RealRanges (prepSample 0 1) := by
  intro q hq
  rw [prepSample_params] at hq
  simp only [List.mem_cons, List.not_mem_nil, or_false] at hq
  rcases hq with rfl | rfl | rfl | rfl | rfl | rfl <;> exact ⟨_, _, rfl, rfl⟩

theorem prepSample_drawable : ∀ l ∈ (prepSample 0 1).structure_, LayerDrawable l := by
  intro l hl
  have hl : l ∈ (prepSample 0 1).substrate :: (prepSample 0 1).layers ++ [(prepSample 0 1).ambient] := hl
  simp only [prepSample, List.cons_append, List.nil_append, List.mem_cons, List.not_mem_nil, or_false] at hl
  rcases hl with rfl | rfl | rfl
  · refine ⟨fun p hp => ?_, fun p hp => ?_, fun p hp => ?_⟩ <;> cases hp
    · exact trivial
    · exact ⟨_, _, rfl, rfl, le_rfl⟩
  · refine ⟨fun p hp => ?_, fun p hp => ?_, fun p hp => ?_⟩ <;> cases hp
    · exact ⟨zero_le_one, le_rfl, Or.inl ⟨_, _, rfl, rfl⟩⟩
    · exact ⟨_, _, rfl, rfl, by norm_num⟩
    · exact ⟨_, _, rfl, rfl, le_rfl⟩
  · refine ⟨fun p hp => ?_, fun p hp => ?_, fun p hp => ?_⟩ <;> cases hp
    exact trivial

/-- The simulation with this engine returns for every generated table. -/
theorem count_data (n : Int) (hn : 0 < n) (g : Bool) : ∃ d g', trainingData countEnv (prepSample 0 1) [2] n g = .ok (d, g') ∧
    d.curves = List.replicate n.toNat [1] := by
  have hs : SampleRegular (prepSample 0 1) := prepSample_regular (by norm_num)
  have hnm := prepSample_names 0 1
  obtain ⟨f, g1, h1⟩ := C17_returns flipRng_ok.toOk (prepSample 0 1) hs hnm prepSample_drawable n hn defaultDist
    (Or.inr ⟨rfl, _, _, rfl, rfl, by norm_num, by norm_num, by norm_num⟩) g
  obtain ⟨-, hc, hlab, -⟩ := C17_label_table flipRng_ok.toOk _ hs hnm n _ _ _ f h1
  obtain ⟨F, hF, hget, ht, hr, -⟩ := generated_columns flipRng_ok.toOk hs hnm prepSample_real.substrate h1
  have htab := generated_isTable hc hF (fun k hk => (hget k hk).2) ht hr
  obtain ⟨e1, e2, e3⟩ := arrays_eq _ hs f.columns hlab prepSample_keywordFree (by simp [prepSample]) _ _ _ _ htab
  obtain ⟨gq, hq⟩ := noisyQ_zero flipRng.toRng flipRng_ok.toOk (fun m n g x hx => (List.mem_replicate.1 hx).2)
    countEnv.pf [2] n.toNat g1
  have hsim : simulateReflectivity countEnv.rng.toRng countEnv.refl1d countEnv.pf [2] (some (toSimTable f n.toNat)) (.num 0)
      refl1dS g1 = .ok ((List.range n.toNat).map fun _ => [some 1], gq) := by
    unfold simulateReflectivity
    simp only
    rw [if_neg (fun h => h.1 rfl), e1, e2, e3]
    have hlen : (LabelArr.rows ((List.range (toSimTable f n.toNat).nrows).map (rowT (prepSample 0 1) F))).len = n.toNat := by
      simp [LabelArr.len, toSimTable]
    rw [hlen]
    refine (bind_run hq).trans ?_
    have he : countEnv.refl1d = some fun _ => .ok [some 1] := rfl
    rw [he]
    simp only
    rw [if_pos trivial]
    refine Rand.ofRes_ok.2 ⟨?_, rfl⟩
    unfold runRefl1d
    simp only [LabelArr.fliplr, bind_ok, LabelArr.row, hlen]
    refine mapM_eq_ok_map fun i hi => ?_
    have hi := List.mem_range.1 hi
    have hi' : i < (toSimTable f n.toNat).nrows := hi
    rw [getItem_rangeMap hi, List.map_map, getItem_rangeMap hi', getItem_rangeMap hi', List.map_map,
      getItem_rangeMap hi']
    simp only [bind_ok]
    split_ifs <;> rfl
  have hfin : ((List.range n.toNat).map fun _ => [some (1 : ℝ)]).mapM finiteCurve = .ok (List.replicate n.toNat [1]) := by
    refine (mapM_eq_ok_map (g := fun _ => [(1 : ℝ)]) (by
      intro a ha
      obtain ⟨_, -, rfl⟩ := List.mem_map.1 ha
      rfl)).trans ?_
    simp
  refine ⟨⟨f, n.toNat, List.replicate n.toNat [1]⟩, gq, ?_, rfl⟩
  unfold trainingData
  refine (bind_run h1).trans ?_
  refine (bind_run hsim).trans ?_
  exact bind_run (Rand.ofRes_ok.2 ⟨hfin, rfl⟩)

theorem fresh_mean {rows : List (List ℝ)} (hw : ∀ r ∈ rows, r.length = 1) (hne : rows ≠ [])
    (h : entry rows 0 0 ≠ entry rows 1 0) (hl : 2 ≤ rows.length) :
    freshStandardize (.d2 1 rows) = .ok ⟨some [colMean rows 0], some [Real.sqrt (colVar rows 0)]⟩ := by
  have hnc : NonConstant ⟨1, rows, hw, hne⟩ := by
    intro j hj
    have : j = 0 := by simpa using hj
    subst this
    exact ⟨0, 1, by simp only; omega, by simp only; omega, h⟩
  unfold freshStandardize
  simp only
  rw [dif_pos ⟨hw, hne⟩, (standardize_fresh _).2 hnc]
  rfl

/-- The statistics of four curves that are one: the noise averages out, all factors are 0.9. -/
theorem count_input4 (g : Bool) :
    ∃ sd, prepareInput countEnv 1 (List.replicate 4 [1]) g = .ok (⟨some [0.9], some sd⟩, g) := by
  have h1 : ∃ x y : ℝ, x ≠ y ∧ x + y = 2 ∧ applyUniformNoise countEnv.rng (.d2 1 (List.replicate 4 [1])) noiseRange.1
      noiseRange.2 g = .ok (.d2 1 [[1 * x], [1 * y], [1 * x], [1 * y]], g) := by
    cases g
    · exact ⟨0.9, 1.1, by norm_num, by norm_num, rfl⟩
    · exact ⟨1.1, 0.9, by norm_num, by norm_num, rfl⟩
  obtain ⟨x, y, hxy, hsum, h1⟩ := h1
  have h2 : applyScalingFactor countEnv.rng (.d2 1 [[1 * x], [1 * y], [1 * x], [1 * y]]) scalingRange.1 scalingRange.2 g =
      .ok (.d2 1 [[1 * x * 0.9], [1 * y * 0.9], [1 * x * 0.9], [1 * y * 0.9]], g) := rfl
  have h3 := fresh_mean (rows := [[1 * x * 0.9], [1 * y * 0.9], [1 * x * 0.9], [1 * y * 0.9]]) (by simp) (by simp)
    (by show 1 * x * 0.9 ≠ 1 * y * 0.9; intro h; exact hxy (by linarith)) (by simp)
  have h4 : colMean [[1 * x * 0.9], [1 * y * 0.9], [1 * x * 0.9], [1 * y * 0.9]] 0 = 0.9 := by
    unfold colMean
    simp only [List.length_cons, List.length_nil, Finset.sum_range_succ, Finset.sum_range_zero, entry, List.getD_cons_zero,
      List.getD_cons_succ]
    rw [eq_sub_of_add_eq hsum]
    norm_num
    ring
  rw [h4] at h3
  exact ⟨_, (bind_run h1).trans ((bind_run h2).trans (Rand.ofRes_ok.2 ⟨h3, rfl⟩))⟩

/-- The statistics of six curves that are one: the noise averages out, all factors are 1.1. -/
theorem count_input6 (g : Bool) :
    ∃ sd, prepareInput countEnv 1 (List.replicate 6 [1]) g = .ok (⟨some [1.1], some sd⟩, g) := by
  have h1 : ∃ x y : ℝ, x ≠ y ∧ x + y = 2 ∧ applyUniformNoise countEnv.rng (.d2 1 (List.replicate 6 [1])) noiseRange.1
      noiseRange.2 g = .ok (.d2 1 [[1 * x], [1 * y], [1 * x], [1 * y], [1 * x], [1 * y]], g) := by
    cases g
    · exact ⟨0.9, 1.1, by norm_num, by norm_num, rfl⟩
    · exact ⟨1.1, 0.9, by norm_num, by norm_num, rfl⟩
  obtain ⟨x, y, hxy, hsum, h1⟩ := h1
  have h2 : applyScalingFactor countEnv.rng (.d2 1 [[1 * x], [1 * y], [1 * x], [1 * y], [1 * x], [1 * y]]) scalingRange.1
      scalingRange.2 g =
      .ok (.d2 1 [[1 * x * 1.1], [1 * y * 1.1], [1 * x * 1.1], [1 * y * 1.1], [1 * x * 1.1], [1 * y * 1.1]], g) := rfl
  have h3 := fresh_mean (rows := [[1 * x * 1.1], [1 * y * 1.1], [1 * x * 1.1], [1 * y * 1.1], [1 * x * 1.1], [1 * y * 1.1]])
    (by simp) (by simp) (by show 1 * x * 1.1 ≠ 1 * y * 1.1; intro h; exact hxy (by linarith)) (by simp)
  have h4 : colMean [[1 * x * 1.1], [1 * y * 1.1], [1 * x * 1.1], [1 * y * 1.1], [1 * x * 1.1], [1 * y * 1.1]] 0 = 1.1 := by
    unfold colMean
    simp only [List.length_cons, List.length_nil, Finset.sum_range_succ, Finset.sum_range_zero, entry, List.getD_cons_zero,
      List.getD_cons_succ]
    rw [eq_sub_of_add_eq hsum]
    norm_num
    ring
  rw [h4] at h3
  exact ⟨_, (bind_run h1).trans ((bind_run h2).trans (Rand.ofRes_ok.2 ⟨h3, rfl⟩))⟩

theorem count_generate (w : TrainerSt Bool Nat) (hs : w.sample = prepSample 0 1) (hq : w.q = [2]) (n : Int) (hn : 0 < n)
    (m : ℝ) (hi : ∀ g, ∃ sd, prepareInput countEnv 1 (List.replicate n.toNat [1]) g = .ok (⟨some [m], some sd⟩, g)) :
    ∃ d sd g, w.generate countEnv n = ({ w with data := some d, ip := some ⟨some [m], some sd⟩, g := g }, .ok ()) := by
  obtain ⟨d, g1, h1, h2⟩ := count_data n hn w.g
  obtain ⟨sd, h3⟩ := hi g1
  refine ⟨d, sd, g1, ?_⟩
  unfold TrainerSt.generate
  rw [hs, hq, h1]
  simp only
  rw [h2]
  have : ([2] : List ℝ).length = 1 := rfl
  rw [this, h3]

/-- The hypotheses of `C91_training` and `C91_starts_iff` hold for this trainer and four samples: `train` calls the
network and returns a model. -/
theorem count_train (w : TrainerSt Bool Nat) (hs : w.sample = prepSample 0 1) (hq : w.q = [2]) (n : Int) (hn : 4 ≤ n)
    (hev : n.toNat % 2 = 0)
    (m : ℝ) (hi : ∀ g, ∃ sd, prepareInput countEnv 1 (List.replicate n.toNat [1]) g = .ok (⟨some [m], some sd⟩, g)) :
    ∃ d sd g, ((w.generate countEnv n).1.train countEnv 1 2 (1 / 2)) =
      (⟨w.sample, w.q, fun i => if i = w.netId then w.net + 1 else w.heap i, w.netId, some d, some ⟨some [m], some sd⟩,
        w.models ++ [⟨[m], sd, w.netId⟩], g⟩, .ok ⟨[m], sd, w.netId⟩) := by
  obtain ⟨d, sd, g, hg⟩ := count_generate w hs hq n (by omega) m hi
  have hz : ∀ m n g, ∀ x ∈ (countEnv.rng.normal m 0 n g).1, x = m := fun m n g x hx => (List.mem_replicate.1 hx).2
  obtain ⟨k, hk⟩ : ∃ k, n.toNat = 2 * k := ⟨n.toNat / 2, by omega⟩
  obtain ⟨f, g', hp⟩ := (C91_starts_iff countEnv flipRng_ok hz w (by rw [hs]; exact prepSample_regular (by norm_num))
    (by rw [hs]; exact prepSample_names _ _) (by rw [hs]; exact prepSample_keywordFree) (by rw [hs]; simp [prepSample])
    (by rw [hs]; exact prepSample_real) n _ hg [] (by simp) 1 2 (1 / 2) (by norm_num) (by norm_num) k
    (by rw [hk]; push_cast; linarith) (by rw [hk]; push_cast; linarith)).1 (by omega)
  refine ⟨d, sd, g', ?_⟩
  rw [hg]
  unfold TrainerSt.train
  have hp : TrainerSt.prepare countEnv { w with data := some d, ip := some ⟨some [m], some sd⟩, g := g } 1 2 (1 / 2) g = _ := hp
  simp only
  rw [hp]
  rfl

/-- C92 fails: a new trainer is trained, new data are made, and it is trained again. The first model still has the mean
0.9, but its network has meanwhile been trained a second time, on inputs that were standardized with the mean 1.1. -/
theorem C92_witness : ∃ sd1 sd2,
    (countTrainer.run countEnv [.generate 4, .train 1 2 (1 / 2)]).models = [⟨[0.9], sd1, 0⟩] ∧
    (countTrainer.run countEnv [.generate 4, .train 1 2 (1 / 2)]).heap 0 = 1 ∧
    (countTrainer.run countEnv [.generate 4, .train 1 2 (1 / 2), .generate 6, .train 1 2 (1 / 2)]).models =
      [⟨[0.9], sd1, 0⟩, ⟨[1.1], sd2, 0⟩] ∧
    (countTrainer.run countEnv [.generate 4, .train 1 2 (1 / 2), .generate 6, .train 1 2 (1 / 2)]).heap 0 = 2 := by
  obtain ⟨d1, sd1, g1, h1⟩ := count_train countTrainer rfl rfl 4 (by norm_num) (by decide) 0.9 count_input4
  have r1 : countTrainer.run countEnv [.generate 4, .train 1 2 (1 / 2)] = _ := congrArg Prod.fst h1
  obtain ⟨d2, sd2, g2, h2⟩ := count_train (countTrainer.run countEnv [.generate 4, .train 1 2 (1 / 2)])
    (by rw [r1]; rfl) (by rw [r1]; rfl) 6 (by norm_num) (by decide) 1.1 count_input6
  have r2 : countTrainer.run countEnv [.generate 4, .train 1 2 (1 / 2), .generate 6, .train 1 2 (1 / 2)] = _ :=
    congrArg Prod.fst h2
  refine ⟨sd1, sd2, ?_, ?_, ?_, ?_⟩
  · rw [r1]; rfl
  · rw [r1]; rfl
  · rw [r2, r1]; rfl
  · rw [r2, r1]; rfl

/-- **C91** (network): a new trainer keeps the sample and the q values, has no data, and its network has one input per q value and one
output per parameter that varies (training.py l.23-35, l.99-116). -/
theorem C91_network (mk : Nat → Nat → Net) (s : SampleV ℝ) (hs : SampleRegular s) (q : List ℝ) (g : G) :
    ∃ w, TrainerSt.init mk s q g = .ok w ∧ w.sample = s ∧ w.q = q ∧ w.data = none ∧ w.ip = none ∧ w.models = [] ∧ w.g = g ∧
      w.net = mk q.length ((labelParams s).filter fun q => !q.2.isConst).length := by
  have hl := congrArg List.length (used_names s)
  rw [List.length_map, List.length_map] at hl
  refine ⟨⟨s, q, fun _ => mk q.length (usedLabels ((labelParams s).map lparam)).length, 0, none, none, [], g⟩,
    ?_, rfl, rfl, rfl, rfl, rfl, rfl, ?_⟩
  · unfold TrainerSt.init
    rw [allLabelParameters_eq hs]
    rfl
  · show mk _ _ = _
    rw [hl]

/-- The hypotheses hold: one layer with one varying parameter. -/
example : ∃ w, TrainerSt.init (fun n m => (n, m)) (prepSample 0 1) [2, 3] false = .ok w ∧
    w.net = (2, ((labelParams (prepSample 0 1)).filter fun q => !q.2.isConst).length) := by
  obtain ⟨w, h, -, -, -, -, -, -, e⟩ := C91_network (fun n m => (n, m)) (prepSample 0 1) (prepSample_regular (by norm_num)) [2, 3] false
  exact ⟨w, h, e⟩

end Verif.Props
