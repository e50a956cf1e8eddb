import Verif.Props.TrainerCases

/-!
# C149: calls of a trainer that raise

A client that catches an exception of `generate_training_data` or `train` and carries on expects the trainer to be as before. A failed call may have drawn
random numbers; therefore the states are compared for any random numbers `g` that come next (`TrainEvent.draws g`).
-/

namespace Verif.Props
open Verif.Py Verif.Model Verif.Spec
variable {G Net : Type}

/-- **C149** (training): if training a network never raises, a call of `train` that raises has not changed the trainer: all later events lead to the same state as
without the call. -/
theorem C149_train_partial (env : TrainEnv G Net) (hfit : ∀ net f g, ∃ g', (env.fit net f g).2 = .ok g') (w : TrainerSt G Net) (epochs batch : Nat) (v : ℝ)
    (e : PyErr) (h : (w.train env epochs batch v).2 = .error e) (g : G) (l : List (TrainEvent G)) :
    (w.train env epochs batch v).1.run env (.draws g :: l) = w.run env (.draws g :: l) := by
  have : (w.train env epochs batch v).1 = w := by
    unfold TrainerSt.train at h ⊢
    cases hp : w.prepare env epochs batch v w.g with
    | error e' => rfl
    | ok p =>
      rw [hp] at h
      obtain ⟨g', hg⟩ := hfit w.net p.1 p.2
      obtain ⟨f, g1⟩ := p
      simp only at h hg
      rcases hf : env.fit w.net f g1 with ⟨net, r⟩
      rw [hf] at h hg
      simp only at hg
      subst hg
      cases h
  rw [this]

/-- Not vacuous: the network of `countEnv` never raises, and a training without data raises. -/
example : (∀ net f g, ∃ g', (countEnv.fit net f g).2 = .ok g') ∧ (countTrainer.train countEnv 175 512 0.2).2 = .error .valueError :=
  ⟨fun _ _ g => ⟨g, rfl⟩, by rw [C91_needs_data countEnv countTrainer rfl]⟩

/-- **C149** (data, nothing requested): without a positive number of curves, `generate_training_data` raises a `ValueError` and keeps the data it has. -/
theorem C149_generate_partial (env : TrainEnv G Net) (w : TrainerSt G Net) (n : Int) (hn : n ≤ 0) :
    w.generate env n = (w, .error .valueError) := by
  have : trainingData env w.sample w.q n w.g = .error .valueError := by
    unfold trainingData generateRandomLabels
    rw [if_pos (by omega)]
    rfl
  unfold TrainerSt.generate
  rw [this]

/-- **C149** (data, in general): a call of `generate_training_data` that raises has either changed nothing, or has replaced the data and kept the preprocessor. -/
theorem C149_stored (env : TrainEnv G Net) (w : TrainerSt G Net) (n : Int) (e : PyErr) (h : (w.generate env n).2 = .error e) :
    (w.generate env n).1 = w ∨ ∃ d g, d.rows = n.toNat ∧ (w.generate env n).1 = { w with data := some d, g := g } := by
  unfold TrainerSt.generate at h ⊢
  cases hd : trainingData env w.sample w.q n w.g with
  | error e' => exact Or.inl rfl
  | ok p =>
    obtain ⟨d, g⟩ := p
    rw [hd] at h
    have hrows : d.rows = n.toNat := by
      unfold trainingData at hd
      obtain ⟨f, g1, h1, hd⟩ := Rand.bind_ok.1 hd
      obtain ⟨c0, g2, h2, hd⟩ := Rand.bind_ok.1 hd
      obtain ⟨c, g3, h3, hd⟩ := Rand.bind_ok.1 hd
      cases Rand.pure_ok.1 hd
      rfl
    simp only at h ⊢
    cases hi : prepareInput env w.q.length d.curves g with
    | error e' => exact Or.inr ⟨d, g, hrows, rfl⟩
    | ok q =>
      rw [hi] at h
      cases h

/-- One curve cannot be standardized. -/
theorem prepareInput_single (env : TrainEnv G Net) (ok : env.rng.Ok) (nq : Nat) (c : List ℝ) (g : G) : prepareInput env nq [c] g = .error .typeError := by
  obtain ⟨u, g1, h1⟩ : ∃ u g1, applyUniformNoise env.rng (.d2 nq [c]) noiseRange.1 noiseRange.2 g = .ok (.d2 nq [u], g1) := by
    unfold applyUniformNoise
    simp only [List.mapM_cons, List.mapM_nil]
    exact ⟨_, _, rfl⟩
  obtain ⟨r, g2, h2⟩ : ∃ r g2, applyScalingFactor env.rng (.d2 nq [u]) scalingRange.1 scalingRange.2 g1 = .ok (.d1 r, g2) := by
    have h : drawUniform env.rng.toRng scalingRange.1 scalingRange.2 ((([u] : List (List ℝ)).length : ℕ) : ℤ) g1 =
      .ok (env.rng.uniform scalingRange.1 scalingRange.2 1 g1) := rfl
    obtain ⟨hl, -⟩ := drawUniform_ok ok.toOk h
    obtain ⟨f, hf⟩ := List.length_eq_one_iff.1 (show (env.rng.uniform scalingRange.1 scalingRange.2 1 g1).1.length = 1 by exact_mod_cast hl)
    unfold applyScalingFactor
    refine ⟨u.map (· * f), (env.rng.uniform scalingRange.1 scalingRange.2 1 g1).2, ?_⟩
    have h' : drawUniform env.rng.toRng scalingRange.1 scalingRange.2 ((([u] : List (List ℝ)).length : ℕ) : ℤ) g1 =
      .ok ([f], (env.rng.uniform scalingRange.1 scalingRange.2 1 g1).2) := by rw [h, ← hf]
    exact (bind_run (x := (pure (nq, [u]) : Rand G _)) (a := (nq, [u])) (g' := g1) rfl).trans (bind_run h')
  unfold prepareInput
  rw [bind_run h1, bind_run h2]
  rfl

theorem split_single {v : ℝ} {n : Nat} {α : Type} (a : α) : (trainSplit v n [a]).1 = [] ∨ (trainSplit v n [a]).2 = [] := by
  unfold trainSplit slice
  simp only [List.length_cons, List.length_nil, List.drop_zero]
  generalize sliceBound (0 + 1) (nTrain v n) = k
  cases k with
  | zero => exact Or.inl rfl
  | succ k => exact Or.inr (List.drop_eq_nil_of_le (by simp))

theorem batch_fits {rng : NoiseRng G} {cs ls : List (List ℝ)} {nq batch : Nat} {g g' : G} {x : Gen} (h : Gen.init rng cs nq ls batch true g = .ok (x, g')) :
    batch ≤ cs.length := by
  unfold Gen.init at h
  split_ifs at h with hb
  · cases h
  · omega

/-- **C149** (data, one curve): `generate_training_data(1)` raises a `TypeError` whenever a curve can be simulated, and the curve replaces the data. -/
theorem C149_single (env : TrainEnv G Net) (ok : env.rng.Ok) (hz : ∀ m n g, ∀ x ∈ (env.rng.normal m 0 n g).1, x = m) (w : TrainerSt G Net)
    (hs : SampleRegular w.sample) (hn : (partNames w.sample).Nodup) (hk : KeywordFree (partNames w.sample)) (hlay : 0 < w.sample.layers.length)
    (hsub : ∀ p, w.sample.substrate.roughness = some p → ∃ a b, p.min = .real a ∧ p.max = .real b)
    (d : TrainData) (g : G) (hd : trainingData env w.sample w.q 1 w.g = .ok (d, g)) :
    w.generate env 1 = ({ w with data := some d, g := g }, .error .typeError) ∧ ∃ c, d.curves = [c] := by
  obtain ⟨-, -, -, hcur⟩ := data_curves ok hz hs hn hk hlay hsub hd
  have hl := hcur.length_eq
  obtain ⟨c, hc⟩ : ∃ c, d.curves = [c] := List.length_eq_one_iff.1 (by rw [← hl]; rfl)
  refine ⟨?_, c, hc⟩
  unfold TrainerSt.generate
  rw [hd]
  simp only
  rw [hc, prepareInput_single env ok]

/-- **C149** (what is lost): after such a call no training starts, with any batch size and any fraction, until data are generated again. -/
theorem C149_lost (env : TrainEnv G Net) (ok : env.rng.Ok) (hz : ∀ m n g, ∀ x ∈ (env.rng.normal m 0 n g).1, x = m) (w : TrainerSt G Net)
    (hs : SampleRegular w.sample) (hn : (partNames w.sample).Nodup) (hk : KeywordFree (partNames w.sample)) (hlay : 0 < w.sample.layers.length)
    (hsub : ∀ p, w.sample.substrate.roughness = some p → ∃ a b, p.min = .real a ∧ p.max = .real b)
    (d : TrainData) (g : G) (hd : trainingData env w.sample w.q 1 w.g = .ok (d, g))
    (l : List (TrainEvent G)) (hl : ∀ e ∈ l, (∃ a b c, e = .train a b c) ∨ ∃ g, e = .draws g) (epochs batch : Nat) (hb : 1 ≤ batch) (v : ℝ) :
    ∃ e, (((w.generate env 1).1.run env l).train env epochs batch v).2 = .error e := by
  obtain ⟨hg, c, hc⟩ := C149_single env ok hz w hs hn hk hlay hsub d g hd
  rw [hg]
  obtain ⟨k1, -⟩ := run_keeps env l hl ({ w with data := some d, g := g } : TrainerSt G Net)
  generalize TrainerSt.run env { w with data := some d, g := g } l = w' at k1
  cases hp : w'.prepare env epochs batch v w'.g with
  | error e => exact ⟨e, by unfold TrainerSt.train; rw [hp]⟩
  | ok p =>
    exfalso
    unfold TrainerSt.prepare at hp
    rw [k1] at hp
    simp only at hp
    obtain ⟨x1, g1, -, hp⟩ := Rand.bind_ok.1 hp
    obtain ⟨x2, g2, -, hp⟩ := Rand.bind_ok.1 hp
    obtain ⟨x3, g3, h3, hp⟩ := Rand.bind_ok.1 hp
    obtain ⟨x4, g4, h4, hp⟩ := Rand.bind_ok.1 hp
    have l3 := batch_fits h3
    have l4 := batch_fits h4
    rw [hc] at l3 l4
    rcases split_single (v := v) (n := x1.1.rows) c with e | e
    · rw [e] at l3; simp at l3; omega
    · rw [e] at l4; simp at l4; omega

/-- **C149** (false): a trainer with four curves can be trained; after a call `generate_training_data(1)`, which raises a `TypeError`, the same training raises. -/
theorem C149_not_always : ∃ w, countTrainer.generate countEnv 4 = (w, .ok ()) ∧ (∃ m, (w.train countEnv 175 1 (1 / 2)).2 = .ok m) ∧
    (w.generate countEnv 1).2 = .error .typeError ∧ ∃ e, ((w.generate countEnv 1).1.train countEnv 175 1 (1 / 2)).2 = .error e := by
  have hz : ∀ m n g, ∀ x ∈ (countEnv.rng.normal m 0 n g).1, x = m := fun m n g x hx => (List.mem_replicate.1 hx).2
  obtain ⟨d, sd, g, hg⟩ := count_generate countTrainer rfl rfl 4 (by norm_num) 0.9 count_input4
  obtain ⟨d', g', hd, -⟩ := count_data 1 (by norm_num) g
  refine ⟨_, hg, ?_, ?_, ?_⟩
  · obtain ⟨f, g', hp⟩ := (C91_starts_iff countEnv flipRng_ok hz countTrainer (prepSample_regular (by norm_num)) (prepSample_names _ _) prepSample_keywordFree
      (by simp [countTrainer, prepSample]) prepSample_real 4 _ hg [] (by simp) 175 1 (1 / 2) (by norm_num) (by norm_num) 2
      (by rw [show Int.toNat 4 = 4 from rfl]; norm_num) (by rw [show Int.toNat 4 = 4 from rfl]; norm_num)).1 (by rw [show Int.toNat 4 = 4 from rfl]; omega)
    refine ⟨⟨[0.9], sd, 0⟩, ?_⟩
    unfold TrainerSt.train
    have hp : TrainerSt.prepare countEnv { countTrainer with data := some d, ip := some ⟨some [0.9], some sd⟩, g := g } 175 1 (1 / 2) g = _ := hp
    simp only
    rw [hp]
    rfl
  · rw [(C149_single countEnv flipRng_ok hz { countTrainer with data := some d, ip := some ⟨some [0.9], some sd⟩, g := g } (prepSample_regular (by norm_num))
      (prepSample_names _ _) prepSample_keywordFree (by simp [countTrainer, prepSample]) prepSample_real.substrate d' g' hd).1]
  · exact C149_lost countEnv flipRng_ok hz { countTrainer with data := some d, ip := some ⟨some [0.9], some sd⟩, g := g } (prepSample_regular (by norm_num))
      (prepSample_names _ _) prepSample_keywordFree (by simp [countTrainer, prepSample]) prepSample_real.substrate d' g' hd [] (by simp) 175 1 le_rfl (1 / 2)

end Verif.Props
