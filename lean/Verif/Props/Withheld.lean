import Verif.Props.TrainerCases

/-!
# Property C139: what the samples withheld for validation have to do with the training

`Trainer.train` withholds the last samples for validation. The samples, the labels and the order of the training generator do not depend on them, but the
statistics with which the inputs are standardized were computed from all samples (training.py l.47, l.118-124): every withheld curve moves them.
-/

namespace Verif.Props
open Verif.Py Verif.Model Verif.Spec
variable {G Net : Type}

/-! ### Noise with the same random numbers -/

/-- The factors of uniform noise depend on the lengths of the curves only. -/
theorem uniform_rows (rng : NoiseRng G) (lo hi : ℝ) (rows rs : List (List ℝ)) (g g' : G) :
    (rows.mapM fun v => (do
      let u ← drawUniform rng.toRng lo hi v.length
      return List.zipWith (· * ·) v u : Rand G (List ℝ))) g = .ok (rs, g') ↔
    ∃ us, ((rows.map List.length).mapM fun (n : Nat) => (drawUniform rng.toRng lo hi n : Rand G (List ℝ))) g = .ok (us, g') ∧
      rs = List.zipWith (List.zipWith (· * ·)) rows us := by
  induction rows generalizing rs g with
  | nil =>
    simp only [List.mapM_nil, List.map_nil]
    constructor
    · intro h
      cases Rand.pure_ok.1 h
      exact ⟨[], Rand.pure_ok.2 rfl, rfl⟩
    · rintro ⟨us, h, rfl⟩
      cases Rand.pure_ok.1 h
      exact Rand.pure_ok.2 rfl
  | cons v rows ih =>
    rw [List.mapM_cons, List.map_cons, List.mapM_cons]
    constructor
    · intro h
      obtain ⟨r, g1, h1, h⟩ := Rand.bind_ok.1 h
      obtain ⟨u, g2, h2, h1⟩ := Rand.bind_ok.1 h1
      cases Rand.pure_ok.1 h1
      obtain ⟨rs', g3, h3, h⟩ := Rand.bind_ok.1 h
      cases Rand.pure_ok.1 h
      obtain ⟨us, h4, rfl⟩ := (ih _ _).1 h3
      exact ⟨u :: us, Rand.bind_ok.2 ⟨u, _, h2, Rand.bind_ok.2 ⟨us, _, h4, Rand.pure_ok.2 rfl⟩⟩, rfl⟩
    · rintro ⟨us, h, rfl⟩
      obtain ⟨u, g1, h1, h⟩ := Rand.bind_ok.1 h
      obtain ⟨us', g2, h2, h⟩ := Rand.bind_ok.1 h
      cases Rand.pure_ok.1 h
      exact Rand.bind_ok.2 ⟨_, _, Rand.bind_ok.2 ⟨u, _, h1, Rand.pure_ok.2 rfl⟩, Rand.bind_ok.2 ⟨_, _, (ih _ _).2 ⟨us', h2, rfl⟩, Rand.pure_ok.2 rfl⟩⟩

theorem drawn_lengths {rng : NoiseRng G} (ok : rng.Ok) {lo hi : ℝ} {ns : List Nat} {us : List (List ℝ)} {g g' : G}
    (h : (ns.mapM fun (n : Nat) => (drawUniform rng.toRng lo hi n : Rand G (List ℝ))) g = .ok (us, g')) :
    List.Forall₂ (fun n u => u.length = n ∧ ∀ x ∈ u, x ∈ Set.uIcc lo hi) ns us := by
  refine (Rand.mapM_ok h).imp fun n u ⟨g1, g2, h⟩ => ?_
  obtain ⟨a, b, -⟩ := drawUniform_ok ok.toOk h
  exact ⟨by exact_mod_cast a, b⟩

/-- Two sets of curves of the same shape get the same factors, between 0.81 and 1.21, and the statistics are those of the products. -/
theorem prepareInput_same {env : TrainEnv G Net} (ok : env.rng.Ok) {nq : Nat} {cs cs' : List (List ℝ)} (hc : ∀ c ∈ cs, c.length = nq)
    (hc' : ∀ c ∈ cs', c.length = nq) (hl : cs.length = cs'.length) {g g1 g1' : G} {ip ip' : IPState}
    (h : prepareInput env nq cs g = .ok (ip, g1)) (h' : prepareInput env nq cs' g = .ok (ip', g1')) :
    ∃ u : Nat → Nat → ℝ, (∀ i < cs.length, ∀ j < nq, 0.81 ≤ u i j ∧ u i j ≤ 1.21) ∧
      ip.mean = some ((List.range nq).map fun j => (∑ i ∈ Finset.range cs.length, entry cs i j * u i j) / cs.length) ∧
      ip'.mean = some ((List.range nq).map fun j => (∑ i ∈ Finset.range cs.length, entry cs' i j * u i j) / cs.length) := by
  -- the factors of one run
  have run : ∀ {cs : List (List ℝ)}, (∀ c ∈ cs, c.length = nq) → ∀ {g1 ip}, prepareInput env nq cs g = .ok (ip, g1) →
      ∃ us s g2 g3, ((List.replicate cs.length nq).mapM fun (n : Nat) => (drawUniform env.rng.toRng noiseRange.1 noiseRange.2 n : Rand G (List ℝ))) g =
          .ok (us, g2) ∧ drawUniform env.rng.toRng scalingRange.1 scalingRange.2 cs.length g2 = .ok (s, g3) ∧
        ip.mean = some ((List.range nq).map (colMean (List.zipWith (fun v f => v.map (· * f)) (List.zipWith (List.zipWith (· * ·)) cs us) s))) := by
    intro cs hc g1 ip h
    have hrep : cs.map List.length = List.replicate cs.length nq := by
      rw [List.eq_replicate_iff]
      refine ⟨by simp, fun n hn => ?_⟩
      obtain ⟨c, hm, rfl⟩ := List.mem_map.1 hn
      exact hc c hm
    unfold prepareInput at h
    obtain ⟨x1, g2, h1, h⟩ := Rand.bind_ok.1 h
    obtain ⟨x2, g3, h2, h⟩ := Rand.bind_ok.1 h
    have h3 := (Rand.ofRes_ok.1 h).1
    simp only at h3
    unfold applyUniformNoise at h1
    obtain ⟨rs, g4, h1, h1'⟩ := Rand.bind_ok.1 h1
    cases Rand.pure_ok.1 h1'
    obtain ⟨us, h4, rfl⟩ := (uniform_rows _ _ _ _ _ _ _).1 h1
    rw [hrep] at h4
    have hul : us.length = cs.length := by
      have := (drawn_lengths ok h4).length_eq
      simpa using this.symm
    unfold applyScalingFactor at h2
    obtain ⟨p, g5, h5, h2⟩ := Rand.bind_ok.1 h2
    cases Rand.pure_ok.1 h5
    obtain ⟨s, g6, h6, h2⟩ := Rand.bind_ok.1 h2
    rw [List.length_zipWith, hul, min_self] at h6
    refine ⟨us, s, _, _, h4, h6, ?_⟩
    generalize hz : List.zipWith (fun v f => v.map (· * f)) (List.zipWith (List.zipWith (· * ·)) cs us) s = z at h2
    have key : x2 = .d2 nq z ∨ ∃ r, x2 = .d1 r := by
      rcases z with _ | ⟨z1, _ | ⟨z2, zs⟩⟩
      · cases Rand.pure_ok.1 h2; exact .inl rfl
      · cases Rand.pure_ok.1 h2; exact .inr ⟨_, rfl⟩
      · cases Rand.pure_ok.1 h2; exact .inl rfl
    rcases key with rfl | ⟨r, rfl⟩
    swap
    · cases h3
    unfold freshStandardize at h3
    simp only at h3
    split_ifs at h3 with hw
    by_cases hnc : NonConstant ⟨nq, z, hw.1, hw.2⟩
    swap
    · rw [(standardize_fresh _).1 hnc] at h3
      cases h3
    rw [(standardize_fresh _).2 hnc] at h3
    cases h3
    rfl
  obtain ⟨us, s, g2, g3, a1, a2, a3⟩ := run hc h
  obtain ⟨us', s', g2', g3', b1, b2, b3⟩ := run hc' h'
  rw [← hl, a1] at b1
  cases b1
  rw [← hl, a2] at b2
  cases b2
  have hf := drawn_lengths ok a1
  have hul : us.length = cs.length := by simpa using hf.length_eq.symm
  obtain ⟨hsl, hsm, -⟩ := drawUniform_ok ok.toOk a2
  have hsl : s.length = cs.length := by exact_mod_cast hsl
  have hrow : ∀ i (hi : i < us.length), us[i].length = nq ∧ ∀ x ∈ us[i], x ∈ Set.uIcc noiseRange.1 noiseRange.2 := by
    intro i hi
    have := List.forall₂_iff_get.1 hf
    have := this.2 i (by simpa [hul] using hi) hi
    simpa using this
  have cell : ∀ cs : List (List ℝ), us.length = cs.length → (∀ c ∈ cs, c.length = nq) → ∀ i < us.length, ∀ j < nq,
      entry (List.zipWith (fun v f => v.map (· * f)) (List.zipWith (List.zipWith (· * ·)) cs us) s) i j = entry cs i j * (entry us i j * s.getD i 0) := by
    intro cs hl hc i hi j hj
    have h1 : i < cs.length := by omega
    have h2 : i < s.length := by omega
    have h3 := (hrow i hi).1
    have h4 := hc cs[i] (List.getElem_mem h1)
    unfold entry
    simp only [List.getD_eq_getElem?_getD, List.getElem?_zipWith, List.getElem?_eq_getElem h1, List.getElem?_eq_getElem hi, List.getElem?_eq_getElem h2,
      Option.getD_some, List.getElem?_map]
    rw [List.getElem?_eq_getElem (by omega), List.getElem?_eq_getElem (by omega)]
    simp only [Option.map_some, Option.getD_some]
    ring
  have len : ∀ cs : List (List ℝ), us.length = cs.length →
      (List.zipWith (fun v (f : ℝ) => v.map (· * f)) (List.zipWith (List.zipWith (· * ·)) cs us) s).length = us.length := by
    intro cs hl
    simp only [List.length_zipWith]
    omega
  refine ⟨fun i j => entry us i j * s.getD i 0, fun i hi j hj => ?_, ?_, ?_⟩
  · have hi' : i < us.length := by omega
    obtain ⟨r1, r2⟩ := hrow i hi'
    have m1 : entry us i j ∈ Set.uIcc noiseRange.1 noiseRange.2 := by
      unfold entry
      simp only [List.getD_eq_getElem?_getD]
      rw [List.getElem?_eq_getElem hi', Option.getD_some, List.getElem?_eq_getElem (by omega), Option.getD_some]
      exact r2 _ (List.getElem_mem _)
    have m2 : s.getD i 0 ∈ Set.uIcc scalingRange.1 scalingRange.2 := by
      rw [List.getD_eq_getElem?_getD, List.getElem?_eq_getElem (by omega), Option.getD_some]
      exact hsm _ (List.getElem_mem _)
    simp only [noiseRange, scalingRange] at m1 m2
    rw [Set.uIcc_of_le (by norm_num), Set.mem_Icc] at m1 m2
    constructor <;> nlinarith [m1.1, m1.2, m2.1, m2.2]
  · rw [a3]
    congr 1
    refine List.map_congr_left fun j hj => ?_
    unfold colMean
    rw [len cs hul, hul]
    congr 1
    refine Finset.sum_congr rfl fun i hi => ?_
    exact cell cs hul hc i (by rw [hul]; exact Finset.mem_range.1 hi) j (List.mem_range.1 hj)
  · rw [b3]
    congr 1
    refine List.map_congr_left fun j hj => ?_
    unfold colMean
    rw [len cs' (hul.trans hl), hul]
    congr 1
    refine Finset.sum_congr rfl fun i hi => ?_
    exact cell cs' (hul.trans hl) hc' i (by rw [hul]; exact Finset.mem_range.1 hi) j (List.mem_range.1 hj)

/-! ### The training generator -/

/-- Training data of `n` samples: a table with the labels of the sample and one curve per row. -/
structure DataFor (s : SampleV ℝ) (nq n : Nat) (d : TrainData) : Prop where
  columns : d.labels.columns = (labelParams s).map (·.1)
  cells : ∀ k ∈ d.labels.columns, ∃ col, d.labels.get k = .ok col ∧ col.length = n
  rows : d.rows = n
  curves : d.curves.length = n
  width : ∀ c ∈ d.curves, c.length = nq

/-- The first `k` samples of two sets of training data are the same. -/
structure AgreeFirst (k : Nat) (d d' : TrainData) : Prop where
  labels : ∀ key ∈ d.labels.columns, ∀ j < k, ∀ v, LabelCell d.labels key j v ↔ LabelCell d'.labels key j v
  curves : d.curves.take k = d'.curves.take k

theorem cell_unique {f : Frame (Num ℝ)} {k : Str} {j : Nat} {v v' : ℂ} (h : LabelCell f k j v) (h' : LabelCell f k j v') : v = v' := by
  obtain ⟨c, x, h1, h2, rfl⟩ := h
  obtain ⟨c', x', h1', h2', rfl⟩ := h'
  rw [h1] at h1'
  cases h1'
  rw [h2] at h2'
  cases h2'
  rfl

theorem target_unique {s : SampleV ℝ} {f f' : Frame (Num ℝ)} {j : Nat} (h : ∀ key ∈ (labelParams s).map (·.1), ∀ v, LabelCell f key j v ↔ LabelCell f' key j v)
    {y y' : List ℝ} (hy : TargetOf s f j y) (hy' : TargetOf s f' j y') : y = y' := by
  unfold TargetOf at hy hy'
  have hsub : ∀ p ∈ (labelParams s).filter (fun (p : Str × Param ℝ) => !p.2.isConst), p.1 ∈ (labelParams s).map (·.1) :=
    fun p hp => List.mem_map.2 ⟨p, (List.mem_filter.1 hp).1, rfl⟩
  generalize (labelParams s).filter (fun (p : Str × Param ℝ) => !p.2.isConst) = l at hy hy' hsub
  induction hy generalizing y' with
  | nil => cases hy'; rfl
  | cons h1 _ ih =>
    cases hy' with
    | cons h1' h2' =>
      obtain ⟨v, c, e⟩ := h1
      obtain ⟨v', c', e'⟩ := h1'
      have := cell_unique ((h _ (hsub _ (by simp)) _).1 c) c'
      subst this
      rw [ih h2' fun p hp => hsub p (by simp [hp])]
      congr 1
      exact_mod_cast e.trans e'.symm

/-- **C139** (samples of the training generator): two trainers with the same sample and q values, whose training data agree except in the samples that are
withheld for validation, pass the same samples, labels and order of samples to the network, if the random numbers are the same. -/
theorem C139_generator (env : TrainEnv G Net) (w w' : TrainerSt G Net) (hs : SampleRegular w.sample) (hn : (partNames w.sample).Nodup)
    (es : w'.sample = w.sample) (eq : w'.q = w.q) (n : Nat) (d d' : TrainData) (hd : w.data = some d) (hd' : w'.data = some d')
    (hf : DataFor w.sample w.q.length n d) (hf' : DataFor w.sample w.q.length n d') (v : ℝ) (h0 : 0 ≤ v) (h1 : v ≤ 1) (nT : Nat)
    (b0 : (nT : ℝ) ≤ (1 - v) * n) (b1 : (1 - v) * n < nT + 1) (ha : AgreeFirst nT d d') (epochs batch : Nat) (g g1 g1' : G) (f f' : FitIn)
    (hp : w.prepare env epochs batch v g = .ok (f, g1)) (hp' : w'.prepare env epochs batch v g = .ok (f', g1')) :
    f.train.gen = f'.train.gen := by
  have hx : 0 ≤ (1 - v) * (n : ℝ) := mul_nonneg (by linarith) (Nat.cast_nonneg _)
  have hnT : (nTrain v n).toNat = nT := by
    have : nTrain v n = (nT : Int) := by
      unfold nTrain
      simp only [if_pos hx]
      exact Int.floor_eq_iff.2 ⟨by exact_mod_cast b0, by exact_mod_cast b1⟩
    rw [this]
    rfl
  -- one call of `train`
  have call : ∀ (w : TrainerSt G Net), SampleRegular w.sample → (partNames w.sample).Nodup → ∀ (d : TrainData), w.data = some d →
      DataFor w.sample w.q.length n d → ∀ (f : FitIn) (g1 : G), w.prepare env epochs batch v g = .ok (f, g1) →
      ∃ rows g2, rows.length = n ∧ List.Forall₂ (fun (j : Nat) (y : List ℝ) => TargetOf w.sample d.labels j y) (List.range n) rows ∧
        Gen.init env.rng (d.curves.take nT) w.q.length (rows.take nT) batch true g = .ok (f.train.gen, g2) := by
    intro w hs hn d hd hf f g1 hp
    unfold TrainerSt.prepare at hp
    rw [hd] at hp
    simp only at hp
    obtain ⟨⟨p, b⟩, g3, h3, hp⟩ := Rand.bind_ok.1 hp
    obtain ⟨rows, g4, h4, hp⟩ := Rand.bind_ok.1 hp
    obtain ⟨gt, g5, h5, hp⟩ := Rand.bind_ok.1 hp
    obtain ⟨gv, g6, h6, hp⟩ := Rand.bind_ok.1 hp
    obtain ⟨ip', g7, h7, hp⟩ := Rand.bind_ok.1 hp
    cases Rand.pure_ok.1 hp
    obtain ⟨h3', e3⟩ := Rand.ofRes_ok.1 h3
    obtain ⟨h4', e4⟩ := Rand.ofRes_ok.1 h4
    clear h3 h4
    simp only at h3' h4' e3 e4
    subst e3 e4
    rw [hf.rows] at h3'
    obtain ⟨hprows, hrlen, htar⟩ := target_rows (F := fun k => match d.labels.get k with | .ok c => c | .error _ => []) hs hn hf.columns (fun k hk => by
      obtain ⟨col, e1, e2⟩ := hf.cells k hk
      rw [e1]
      exact ⟨rfl, e2⟩) h3' h4'
    have s1 := trainSplit_eq h0 h1 d.curves
    have s2 := trainSplit_eq h0 h1 rows
    rw [hf.curves, hnT] at s1
    rw [hrlen, hnT] at s2
    rw [hprows, s1, s2] at h5
    exact ⟨rows, _, hrlen, htar, h5⟩
  obtain ⟨rows, g2, l1, t1, c1⟩ := call w hs hn d hd hf f g1 hp
  obtain ⟨rows', g2', l2, t2, c2⟩ := call w' (by rw [es]; exact hs) (by rw [es]; exact hn) d' hd' (by rw [es, eq]; exact hf') f' g1' hp'
  have e : rows.take nT = rows'.take nT := by
    obtain ⟨-, r1⟩ := forall₂_range_get t1
    obtain ⟨-, r2⟩ := forall₂_range_get t2
    refine List.ext_getElem? fun j => ?_
    rw [List.getElem?_take, List.getElem?_take]
    split_ifs with hj
    · by_cases hjn : j < n
      · rw [List.getElem?_eq_getElem (by omega), List.getElem?_eq_getElem (by omega)]
        congr 1
        have a1 := r1 j _ (List.getElem?_eq_getElem (by omega))
        have a2 := r2 j _ (List.getElem?_eq_getElem (by omega))
        rw [es] at a2
        exact target_unique (fun key hk v => ha.labels key (by rw [hf.columns]; exact hk) j hj v) a1 a2
      · rw [List.getElem?_eq_none (by omega), List.getElem?_eq_none (by omega)]
    · rfl
  rw [e, ha.curves, ← eq, c2] at c1
  exact (Prod.mk.inj (Except.ok.inj c1)).1.symm

/-- **C139** (training): if also the preprocessors of the two trainers are the same, the whole training generator is. The hypothesis on the preprocessors
is what the claim lacks: it fails as soon as a withheld curve differs (`C139_leak`). -/
theorem C139_training_partial (env : TrainEnv G Net) (w w' : TrainerSt G Net) (hs : SampleRegular w.sample) (hn : (partNames w.sample).Nodup)
    (es : w'.sample = w.sample) (eq : w'.q = w.q) (hip : w'.ip = w.ip) (n : Nat) (d d' : TrainData) (hd : w.data = some d) (hd' : w'.data = some d')
    (hf : DataFor w.sample w.q.length n d) (hf' : DataFor w.sample w.q.length n d') (v : ℝ) (h0 : 0 ≤ v) (h1 : v ≤ 1) (nT : Nat)
    (b0 : (nT : ℝ) ≤ (1 - v) * n) (b1 : (1 - v) * n < nT + 1) (ha : AgreeFirst nT d d') (epochs batch : Nat) (g g1 g1' : G) (f f' : FitIn)
    (hp : w.prepare env epochs batch v g = .ok (f, g1)) (hp' : w'.prepare env epochs batch v g = .ok (f', g1')) :
    f.train = f'.train ∧ f.epochs = f'.epochs := by
  have hg := C139_generator env w w' hs hn es eq n d d' hd hd' hf hf' v h0 h1 nT b0 b1 ha epochs batch g g1 g1' f f' hp hp'
  have rest : ∀ (w : TrainerSt G Net) (f : FitIn) (g1 : G), w.prepare env epochs batch v g = .ok (f, g1) →
      f.train.noise = noiseRange ∧ f.train.scaling = scalingRange ∧ w.ip = some f.train.ip ∧ f.epochs = epochs := by
    intro w f g1 hp
    unfold TrainerSt.prepare at hp
    cases hdat : w.data with
    | none => rw [hdat] at hp; exact (Rand.fail_ok.1 hp).elim
    | some d =>
    rw [hdat] at hp
    obtain ⟨⟨p, b⟩, g3, h3, hp⟩ := Rand.bind_ok.1 hp
    obtain ⟨rows, g4, h4, hp⟩ := Rand.bind_ok.1 hp
    obtain ⟨gt, g5, h5, hp⟩ := Rand.bind_ok.1 hp
    obtain ⟨gv, g6, h6, hp⟩ := Rand.bind_ok.1 hp
    obtain ⟨ip', g7, h7, hp⟩ := Rand.bind_ok.1 hp
    cases Rand.pure_ok.1 hp
    have h7 := (Rand.ofRes_ok.1 h7).1
    refine ⟨rfl, rfl, ?_, rfl⟩
    unfold hasPreprocessor at h7
    split at h7
    · cases h7
    · rename_i e
      cases h7
      exact e
  obtain ⟨a1, a2, a3, a4⟩ := rest w f g1 hp
  obtain ⟨c1, c2, c3, c4⟩ := rest w' f' g1' hp'
  rw [hip, a3] at c3
  have c3 := Option.some.inj c3
  refine ⟨?_, a4.trans c4.symm⟩
  cases hft : f.train
  cases hft' : f'.train
  rw [hft] at hg a1 a2 c3
  rw [hft'] at hg c1 c2 c3
  simp only at hg a1 a2 c1 c2 c3
  rw [hg, a1, a2, c1, c2, c3]

/-- **C139** (every withheld curve counts): let the preprocessors of two trainers be made with the same random numbers from training data that differ in a
single curve, of any sample, also of one that is withheld for validation. Then the means stored in the two returned models differ at every q value by the difference of the
two curves divided by the number of samples, up to a factor between 0.81 and 1.21. -/
theorem C139_leak (env : TrainEnv G Net) (ok : env.rng.Ok) (w w' : TrainerSt G Net) (eq : w'.q = w.q) (d d' : TrainData)
    (hw : ∀ c ∈ d.curves, c.length = w.q.length) (k : Nat) (hk : k < d.curves.length) (c : List ℝ) (hc : c.length = w.q.length)
    (hset : d'.curves = d.curves.set k c) (g g1 g1' : G) (ip ip' : IPState) (hi : w.ip = some ip) (hi' : w'.ip = some ip')
    (hp : prepareInput env w.q.length d.curves g = .ok (ip, g1)) (hp' : prepareInput env w'.q.length d'.curves g = .ok (ip', g1'))
    (epochs epochs' batch batch' : Nat) (v v' : ℝ) (r r' : ModelRef) (hr : (w.train env epochs batch v).2 = .ok r)
    (hr' : (w'.train env epochs' batch' v').2 = .ok r') (j : Nat) (hj : j < w.q.length) :
    ∃ u, 0.81 ≤ u ∧ u ≤ 1.21 ∧ r'.mean.getD j 0 - r.mean.getD j 0 = u * (c.getD j 0 - entry d.curves k j) / d.curves.length := by
  have mean : ∀ (w : TrainerSt G Net) (ip : IPState) epochs batch v (r : ModelRef), w.ip = some ip → (w.train env epochs batch v).2 = .ok r →
      r.mean = ip.mean.getD [] := by
    intro w ip epochs batch v r hi hr
    unfold TrainerSt.train at hr
    split at hr
    · cases hr
    · split at hr
      · cases hr
      · cases hr
        rw [hi]
        rfl
  rw [eq] at hp'
  have hw' : ∀ x ∈ d'.curves, x.length = w.q.length := by
    intro x hx
    rw [hset] at hx
    rcases List.mem_or_eq_of_mem_set hx with hx | rfl
    · exact hw x hx
    · exact hc
  obtain ⟨u, hu, m1, m2⟩ := prepareInput_same ok hw hw' (by rw [hset, List.length_set]) hp hp'
  refine ⟨u k j, (hu k hk j hj).1, (hu k hk j hj).2, ?_⟩
  rw [mean w ip _ _ _ r hi hr, mean w' ip' _ _ _ r' hi' hr', m1, m2]
  simp only [Option.getD_some, List.getD_eq_getElem?_getD, List.getElem?_map, List.getElem?_range hj, Option.map_some]
  rw [← sub_div, ← Finset.sum_sub_distrib, Finset.sum_eq_single k]
  · have e : entry d'.curves k j = c.getD j 0 := by
      unfold entry
      simp only [List.getD_eq_getElem?_getD, hset, List.getElem?_set_self hk, Option.getD_some]
    rw [e, List.getD_eq_getElem?_getD]
    ring
  · intro i _ hik
    have e : entry d'.curves i j = entry d.curves i j := by
      unfold entry
      simp only [List.getD_eq_getElem?_getD, hset, List.getElem?_set_ne (Ne.symm hik)]
    rw [e, sub_self]
  · intro h
    exact absurd (Finset.mem_range.2 hk) h

/-! ### An example -/

theorem slice_same_length {α : Type} {l l' : List α} (h : l.length = l'.length) (a b : Option Int) : (slice l a b).length = (slice l' a b).length := by
  unfold slice
  simp [h]

theorem init_length {rng : NoiseRng G} {refl refl' : List (List ℝ)} (h : refl.length = refl'.length) {width : Nat} {labels : List (List ℝ)} {batch : Nat}
    {sh : Bool} {g g' : G} {x : Gen} (hx : Gen.init rng refl width labels batch sh g = .ok (x, g')) :
    ∃ x', Gen.init rng refl' width labels batch sh g = .ok (x', g') := by
  unfold Gen.init at hx ⊢
  rw [← h]
  split_ifs at hx ⊢
  · exact (Rand.fail_ok.1 hx).elim
  · unfold Gen.doShuffle at hx ⊢
    cases sh
    · cases hx
      exact ⟨_, rfl⟩
    · cases hx
      exact ⟨_, rfl⟩

/-- Whether `train` calls the network does not depend on the values of curves and statistics. -/
theorem prepare_curves {env : TrainEnv G Net} {w : TrainerSt G Net} {d : TrainData} (hd : w.data = some d) {cs : List (List ℝ)} (hl : d.curves.length = cs.length)
    {ip : IPState} {epochs batch : Nat} {v : ℝ} {g g' : G} {f : FitIn} (hp : w.prepare env epochs batch v g = .ok (f, g')) :
    ∃ f', ({ w with data := some { d with curves := cs }, ip := some ip } : TrainerSt G Net).prepare env epochs batch v g = .ok (f', g') := by
  unfold TrainerSt.prepare at hp ⊢
  rw [hd] at hp
  simp only at hp ⊢
  obtain ⟨⟨p, b⟩, g3, h3, hp⟩ := Rand.bind_ok.1 hp
  obtain ⟨rows, g4, h4, hp⟩ := Rand.bind_ok.1 hp
  obtain ⟨gt, g5, h5, hp⟩ := Rand.bind_ok.1 hp
  obtain ⟨gv, g6, h6, hp⟩ := Rand.bind_ok.1 hp
  obtain ⟨ip', g7, h7, hp'⟩ := Rand.bind_ok.1 hp
  clear hp
  have e7 := (Rand.ofRes_ok.1 h7).2
  simp only at e7
  subst e7
  cases Rand.pure_ok.1 hp'
  have s1 : (trainSplit v p.rows d.curves).1.length = (trainSplit v p.rows cs).1.length := slice_same_length hl none (some (nTrain v p.rows))
  have s2 : (trainSplit v p.rows d.curves).2.length = (trainSplit v p.rows cs).2.length := slice_same_length hl (some (nTrain v p.rows)) none
  obtain ⟨x1, e1⟩ := init_length s1 h5
  obtain ⟨x2, e2⟩ := init_length s2 h6
  exact ⟨_, Rand.bind_ok.2 ⟨_, _, h3, Rand.bind_ok.2 ⟨_, _, h4, Rand.bind_ok.2 ⟨_, _, e1, Rand.bind_ok.2 ⟨_, _, e2,
    Rand.bind_ok.2 ⟨_, _, Rand.ofRes_ok.2 ⟨rfl, rfl⟩, Rand.pure_ok.2 rfl⟩⟩⟩⟩⟩⟩

theorem count_input4' (g : Bool) : ∃ ip, prepareInput countEnv 1 ((List.replicate 4 [1]).set 3 [2]) g = .ok (ip, g) := by
  have h1 : ∃ x y : ℝ, x ≠ y ∧ applyUniformNoise countEnv.rng (.d2 1 ((List.replicate 4 [1]).set 3 [2])) noiseRange.1
      noiseRange.2 g = .ok (.d2 1 [[1 * x], [1 * y], [1 * x], [2 * y]], g) := by
    cases g
    · exact ⟨0.9, 1.1, by norm_num, rfl⟩
    · exact ⟨1.1, 0.9, by norm_num, rfl⟩
  obtain ⟨x, y, hxy, h1⟩ := h1
  have h2 : applyScalingFactor countEnv.rng (.d2 1 [[1 * x], [1 * y], [1 * x], [2 * y]]) scalingRange.1 scalingRange.2 g =
      .ok (.d2 1 [[1 * x * 0.9], [1 * y * 0.9], [1 * x * 0.9], [2 * y * 0.9]], g) := rfl
  have h3 := fresh_mean (rows := [[1 * x * 0.9], [1 * y * 0.9], [1 * x * 0.9], [2 * y * 0.9]]) (by simp) (by simp)
    (by show 1 * x * 0.9 ≠ 1 * y * 0.9; intro h; exact hxy (by linarith)) (by simp)
  exact ⟨_, (bind_run h1).trans ((bind_run h2).trans (Rand.ofRes_ok.2 ⟨h3, rfl⟩))⟩

/-- **C139** fails: two trainers with the same random numbers and four samples that agree except in the last curve, which is withheld by
`val_split = 0.5`, both train successfully, but the stored means differ by at least 0.2. -/
theorem C139_witness : ∃ (w w' : TrainerSt Bool Nat) (d d' : TrainData) (g : Bool) (ip ip' : IPState) (r r' : ModelRef),
    w.data = some d ∧ w'.data = some d' ∧ DataFor w.sample w.q.length 4 d ∧ DataFor w.sample w.q.length 4 d' ∧ AgreeFirst 2 d d' ∧
    w.ip = some ip ∧ w'.ip = some ip' ∧ prepareInput countEnv w.q.length d.curves g = .ok (ip, g) ∧ prepareInput countEnv w.q.length d'.curves g = .ok (ip', g) ∧
    w' = { w with data := some d', ip := some ip' } ∧
    (w.train countEnv 1 2 (1 / 2)).2 = .ok r ∧ (w'.train countEnv 1 2 (1 / 2)).2 = .ok r' ∧ 0.2 ≤ r'.mean.getD 0 0 - r.mean.getD 0 0 := by
  have hz : ∀ m n g, ∀ x ∈ (countEnv.rng.normal m 0 n g).1, x = m := fun m n g x hx => (List.mem_replicate.1 hx).2
  obtain ⟨d, g1, h1, h2⟩ := count_data 4 (by norm_num) false
  have h2 : d.curves = List.replicate 4 [1] := h2
  obtain ⟨sd, h3⟩ := count_input4 g1
  obtain ⟨ip', h3'⟩ := count_input4' g1
  have hg : countTrainer.generate countEnv 4 = ({ countTrainer with data := some d, ip := some ⟨some [0.9], some sd⟩, g := g1 }, .ok ()) := by
    unfold TrainerSt.generate
    have h1 : trainingData countEnv countTrainer.sample countTrainer.q 4 countTrainer.g = _ := h1
    rw [h1]
    simp only
    rw [h2]
    have h3 : prepareInput countEnv countTrainer.q.length (List.replicate 4 [1]) g1 = _ := h3
    rw [h3]
  obtain ⟨f, g', hp⟩ := (C91_starts_iff countEnv flipRng_ok hz countTrainer (prepSample_regular (by norm_num))
    (prepSample_names _ _) prepSample_keywordFree (by simp [countTrainer, prepSample])
    prepSample_real 4 _ hg [] (by simp) 1 2 (1 / 2) (by norm_num) (by norm_num) 2
    (by rw [show Int.toNat 4 = 4 from rfl]; norm_num) (by rw [show Int.toNat 4 = 4 from rfl]; norm_num)).1 (by omega)
  obtain ⟨e1, e2, ⟨F, hF, hget, -⟩, -⟩ := data_curves flipRng_ok hz (prepSample_regular (by norm_num)) (prepSample_names _ _) prepSample_keywordFree
    (by simp [prepSample]) prepSample_real.substrate h1
  have df : DataFor (prepSample 0 1) 1 4 d :=
    ⟨e2, fun k hk => ⟨_, (hget k hk).1, (hget k hk).2⟩, e1, by rw [h2]; rfl, by rw [h2]; simp⟩
  obtain ⟨f', hp'⟩ := prepare_curves (w := { countTrainer with data := some d, ip := some ⟨some [0.9], some sd⟩, g := g1 }) (d := d) rfl
    (cs := (List.replicate 4 [1]).set 3 [2]) (by rw [h2]; rfl) (ip := ip') hp
  have t1 : (TrainerSt.train countEnv { countTrainer with data := some d, ip := some ⟨some [0.9], some sd⟩, g := g1 } 1 2 (1 / 2)).2 =
      .ok ⟨[0.9], sd, 0⟩ := by
    unfold TrainerSt.train
    have hp : TrainerSt.prepare countEnv { countTrainer with data := some d, ip := some ⟨some [0.9], some sd⟩, g := g1 } 1 2 (1 / 2) g1 = _ := hp
    simp only
    rw [hp]
    rfl
  have t2 : ∃ r, (TrainerSt.train countEnv { countTrainer with data := some { d with curves := (List.replicate 4 [1]).set 3 [2] }, ip := some ip', g := g1 } 1 2 (1 / 2)).2 =
      .ok r := by
    unfold TrainerSt.train
    have hp' : TrainerSt.prepare countEnv { countTrainer with data := some { d with curves := (List.replicate 4 [1]).set 3 [2] }, ip := some ip', g := g1 } 1 2
      (1 / 2) g1 = _ := hp'
    simp only
    rw [hp']
    exact ⟨_, rfl⟩
  obtain ⟨r', t2⟩ := t2
  have i1 : prepareInput countEnv 1 d.curves g1 = .ok (⟨some [0.9], some sd⟩, g1) := by rw [h2]; exact h3
  refine ⟨{ countTrainer with data := some d, ip := some ⟨some [0.9], some sd⟩, g := g1 },
    { countTrainer with data := some { d with curves := (List.replicate 4 [1]).set 3 [2] }, ip := some ip', g := g1 }, d,
    { d with curves := (List.replicate 4 [1]).set 3 [2] }, g1, ⟨some [0.9], some sd⟩, ip', _, r', rfl, rfl, df,
    ⟨df.columns, df.cells, df.rows, rfl, by simp [countTrainer]⟩, ⟨fun _ _ _ _ _ => Iff.rfl, by rw [h2]; rfl⟩, rfl, rfl, i1, h3', rfl, t1, t2, ?_⟩
  obtain ⟨u, u1, u2, e⟩ := C139_leak countEnv flipRng_ok { countTrainer with data := some d, ip := some ⟨some [0.9], some sd⟩, g := g1 }
    { countTrainer with data := some { d with curves := (List.replicate 4 [1]).set 3 [2] }, ip := some ip', g := g1 } rfl d
    { d with curves := (List.replicate 4 [1]).set 3 [2] } (by rw [h2]; simp [countTrainer]) 3 (by rw [h2]; simp) [2] rfl (by rw [h2])
    g1 _ _ _ _ rfl rfl i1 h3' 1 1 2 2 (1 / 2) (1 / 2) _ _ t1 t2 0 (by simp [countTrainer])
  rw [e, h2]
  have : ([2] : List ℝ).getD 0 0 - entry (List.replicate 4 [1]) 3 0 = 1 := by
    show (2 : ℝ) - 1 = 1
    norm_num
  rw [this]
  simp only [List.length_replicate]
  norm_num
  linarith

end Verif.Props
