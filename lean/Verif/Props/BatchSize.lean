import Verif.Props.TrainerCases
import Verif.Props.RoundedCounts

/-!
# Property C145: the documented condition on the batch size

training.py l.54-55: "`batch_size` must be smaller than `val_split` times the training set size".
-/

namespace Verif.Props
open Verif.Py Verif.Model Verif.Spec
variable {G Net : Type}

/-- training.py l.54-55, the documented condition. -/
def Documented (n batch : ℕ) (v : ℝ) : Prop := (batch : ℝ) < v * n

theorem split_exists {v : ℝ} (h1 : v ≤ 1) (n : ℕ) : ∃ nT : ℕ, (nT : ℝ) ≤ (1 - v) * n ∧ (1 - v) * n < nT + 1 :=
  have h : 0 ≤ (1 - v) * (n : ℝ) := mul_nonneg (by linarith) (Nat.cast_nonneg n)
  ⟨⌊(1 - v) * (n : ℝ)⌋₊, Nat.floor_le h, Nat.lt_floor_add_one _⟩

/-- **C145** (the condition is enough for at most half of the data): if at most half of the data are withheld, training starts with every batch size that is
allowed by the documentation. -/
theorem C145_enough_partial (env : TrainEnv G Net) (ok : env.rng.Ok)
    (hz : ∀ m n g, ∀ x ∈ (env.rng.normal m 0 n g).1, x = m) (w0 : TrainerSt G Net) (hs : SampleRegular w0.sample)
    (hn : (partNames w0.sample).Nodup) (hk : KeywordFree (partNames w0.sample)) (hlay : 0 < w0.sample.layers.length) (hreal : RealRanges w0.sample)
    (n : Int) (w : TrainerSt G Net) (hg : w0.generate env n = (w, .ok ()))
    (l : List (TrainEvent G)) (hl : ∀ e ∈ l, (∃ a b c, e = .train a b c) ∨ ∃ g, e = .draws g)
    (epochs batch : Nat) (v : ℝ) (h0 : 0 ≤ v) (h1 : v ≤ 1 / 2) (hdoc : Documented n.toNat batch v) :
    ∃ f g', (w.run env l).prepare env epochs batch v (w.run env l).g = .ok (f, g') := by
  obtain ⟨nT, a, b⟩ := split_exists (show v ≤ 1 by linarith) n.toNat
  refine (C91_starts_iff env ok hz w0 hs hn hk hlay hreal n w hg l hl epochs batch v h0 (by linarith) nT a b).1 ⟨?_, ?_⟩
  · have hN : (0 : ℝ) ≤ n.toNat := Nat.cast_nonneg _
    have : (batch : ℝ) < nT + 1 := by
      unfold Documented at hdoc
      nlinarith
    have : batch < nT + 1 := by exact_mod_cast this
    omega
  · have : ((batch + nT : ℕ) : ℝ) < n.toNat := by
      unfold Documented at hdoc
      push_cast
      linarith
    have : batch + nT < n.toNat := by exact_mod_cast this
    omega

/-- **C145** (false): if more than half of the data are withheld, a batch size between the two numbers of curves is allowed by the documentation, but `train`
raises a `ValueError`. -/
theorem C145_refused (env : TrainEnv G Net) (ok : env.rng.Ok)
    (hz : ∀ m n g, ∀ x ∈ (env.rng.normal m 0 n g).1, x = m) (w0 : TrainerSt G Net) (hs : SampleRegular w0.sample)
    (hn : (partNames w0.sample).Nodup) (hk : KeywordFree (partNames w0.sample)) (hlay : 0 < w0.sample.layers.length) (hreal : RealRanges w0.sample)
    (n : Int) (w : TrainerSt G Net) (hg : w0.generate env n = (w, .ok ()))
    (l : List (TrainEvent G)) (hl : ∀ e ∈ l, (∃ a b c, e = .train a b c) ∨ ∃ g, e = .draws g)
    (v : ℝ) (h0 : 1 / 2 < v) (h1 : v ≤ 1) (hlarge : 1 < (2 * v - 1) * n.toNat) :
    ∃ batch : ℕ, Documented n.toNat batch v ∧ ∀ epochs, (w.run env l).train env epochs batch v = (w.run env l, .error .valueError) := by
  obtain ⟨nT, a, b⟩ := split_exists h1 n.toNat
  refine ⟨nT + 1, ?_, fun epochs => (C91_starts_iff env ok hz w0 hs hn hk hlay hreal n w hg l hl epochs (nT + 1) v (by linarith) h1 nT a b).2 (by omega)⟩
  unfold Documented
  push_cast
  linarith

/-- **C145** (the condition is not needed): training starts exactly if the batch size is at most `(1 - val_split) n` and smaller than `val_split n + 1`. -/
theorem C145_exactly (env : TrainEnv G Net) (ok : env.rng.Ok)
    (hz : ∀ m n g, ∀ x ∈ (env.rng.normal m 0 n g).1, x = m) (w0 : TrainerSt G Net) (hs : SampleRegular w0.sample)
    (hn : (partNames w0.sample).Nodup) (hk : KeywordFree (partNames w0.sample)) (hlay : 0 < w0.sample.layers.length) (hreal : RealRanges w0.sample)
    (n : Int) (w : TrainerSt G Net) (hg : w0.generate env n = (w, .ok ()))
    (l : List (TrainEvent G)) (hl : ∀ e ∈ l, (∃ a b c, e = .train a b c) ∨ ∃ g, e = .draws g)
    (epochs batch : Nat) (v : ℝ) (h0 : 0 ≤ v) (h1 : v ≤ 1) :
    ((batch : ℝ) ≤ (1 - v) * n.toNat ∧ (batch : ℝ) < v * n.toNat + 1 →
      ∃ f g', (w.run env l).prepare env epochs batch v (w.run env l).g = .ok (f, g')) ∧
    (¬ ((batch : ℝ) ≤ (1 - v) * n.toNat ∧ (batch : ℝ) < v * n.toNat + 1) →
      (w.run env l).train env epochs batch v = (w.run env l, .error .valueError)) := by
  obtain ⟨nT, a, b⟩ := split_exists h1 n.toNat
  have key : ((batch : ℝ) ≤ (1 - v) * n.toNat ∧ (batch : ℝ) < v * n.toNat + 1) ↔ batch ≤ nT ∧ batch + nT ≤ n.toNat := by
    constructor
    · rintro ⟨h, h'⟩
      have : batch < nT + 1 := by exact_mod_cast h.trans_lt b
      have h2 : ((batch + nT : ℕ) : ℝ) < (n.toNat + 1 : ℕ) := by push_cast; linarith
      have : batch + nT < n.toNat + 1 := by exact_mod_cast h2
      omega
    · rintro ⟨h, h'⟩
      have h : (batch : ℝ) ≤ nT := by exact_mod_cast h
      have h' : (batch : ℝ) + nT ≤ n.toNat := by exact_mod_cast h'
      constructor <;> linarith
  rw [key]
  exact C91_starts_iff env ok hz w0 hs hn hk hlay hreal n w hg l hl epochs batch v h0 h1 nT a b

/-- **C145** (defaults): with its default arguments (512 curves per batch, one fifth withheld) `train` starts exactly if there are at least 2556 curves. -/
theorem C145_default (env : TrainEnv G Net) (ok : env.rng.Ok)
    (hz : ∀ m n g, ∀ x ∈ (env.rng.normal m 0 n g).1, x = m) (w0 : TrainerSt G Net) (hs : SampleRegular w0.sample)
    (hn : (partNames w0.sample).Nodup) (hk : KeywordFree (partNames w0.sample)) (hlay : 0 < w0.sample.layers.length) (hreal : RealRanges w0.sample)
    (n : Int) (w : TrainerSt G Net) (hg : w0.generate env n = (w, .ok ()))
    (l : List (TrainEvent G)) (hl : ∀ e ∈ l, (∃ a b c, e = .train a b c) ∨ ∃ g, e = .draws g) :
    (2556 ≤ n → ∃ f g', (w.run env l).prepare env 175 512 0.2 (w.run env l).g = .ok (f, g')) ∧
    (n < 2556 → (w.run env l).train env 175 512 0.2 = (w.run env l, .error .valueError)) := by
  obtain ⟨p, q⟩ := C145_exactly env ok hz w0 hs hn hk hlay hreal n w hg l hl 175 512 0.2 (by norm_num) (by norm_num)
  constructor
  · intro h
    have h : 2556 ≤ n.toNat := by omega
    have h : (2556 : ℝ) ≤ n.toNat := by exact_mod_cast h
    refine p ⟨?_, ?_⟩ <;> push_cast <;> norm_num <;> linarith
  · intro h
    refine q fun h' => ?_
    have h : n.toNat ≤ 2555 := by omega
    have h : (n.toNat : ℝ) ≤ 2555 := by exact_mod_cast h
    have := h'.2
    push_cast at this
    norm_num at this
    linarith

/-- **C145** (rounded numbers): the condition is also enough with `p` binary digits: both parts of the data hold a batch. -/
theorem C145_rounded (p : Nat) (hp : 2 ≤ p) (v : ℝ) (hv : roundBin p v = v) (h0 : 0 ≤ v) (h1 : v ≤ 1 / 2) (n batch : ℕ) (hn : 3 * n < 2 ^ p)
    (hdoc : Documented n batch v) : (batch : ℤ) ≤ nTrainR (binary p hp) v n ∧ batch + nTrainR (binary p hp) v n ≤ n := by
  set R := binary p hp with hR
  have hN : (0 : ℝ) ≤ n := Nat.cast_nonneg n
  unfold Documented at hdoc
  have hbn : batch ≤ n := by
    have : (batch : ℝ) ≤ n := by nlinarith
    exact_mod_cast this
  obtain ⟨q, e⟩ := train_near R h0 (show v ≤ 1 by linarith) n
  have low : (batch : ℝ) ≤ R.fl (R.fl (1 - v) * n) := by
    have a : v ≤ R.fl (1 - v) := le_of_eq_of_le (show v = R.fl v from hv.symm) (R.mono (by linarith))
    have b : R.fl batch = batch := roundBin_nat (by omega) (by omega)
    rw [← b]
    exact R.mono (hdoc.le.trans (mul_le_mul_of_nonneg_right a hN))
  have small : 3 * R.u * n < 1 := by
    show 3 * (1 / 2 : ℝ) ^ p * n < 1
    have : (3 * n : ℝ) < 2 ^ p := by exact_mod_cast hn
    rw [div_pow, one_pow, one_div, mul_comm (3 : ℝ), mul_assoc, inv_mul_lt_iff₀ (by positivity)]
    linarith
  unfold nTrainR
  simp only
  rw [if_pos q]
  refine ⟨Int.le_floor.2 (by exact_mod_cast low), ?_⟩
  have h : R.fl (R.fl (1 - v) * n) < (n : ℝ) - batch + 1 := by
    have := (abs_le.1 e).2
    linarith
  have f := Int.floor_le (R.fl (R.fl (1 - v) * n))
  have : ((⌊R.fl (R.fl (1 - v) * n)⌋ : ℤ) : ℝ) < ((n - batch + 1 : ℤ) : ℝ) := by
    push_cast
    linarith
  have : ⌊R.fl (R.fl (1 - v) * n)⌋ < (n : ℤ) - batch + 1 := by exact_mod_cast this
  omega

/-- The hypotheses of `C145_rounded` for `train(batch_size=2, val_split=0.5)` with five curves and `float64` numbers. -/
example : roundBin 53 (1 / 2) = 1 / 2 ∧ 3 * 5 < 2 ^ 53 ∧ Documented 5 2 (1 / 2) := by
  refine ⟨roundBin_exact (by norm_num) (k := 1) (e := -1) (by norm_num) (by norm_num), by norm_num, ?_⟩
  unfold Documented
  norm_num

/-- **C145** (false): after four curves were generated, `train(batch_size=2, val_split=0.75)` raises a `ValueError`, although 2 is smaller than three
quarters of 4. With `val_split=0.5` and one curve per batch, training starts. This also shows that the hypotheses of the theorems above can be met. -/
theorem C145_not_always : Documented 4 2 (3 / 4) ∧ ∃ w, countTrainer.generate countEnv 4 = (w, .ok ()) ∧
    (w.train countEnv 175 2 (3 / 4)) = (w, .error .valueError) ∧ ∃ f g', w.prepare countEnv 175 1 (1 / 2) w.g = .ok (f, g') := by
  have hz : ∀ m n g, ∀ x ∈ (countEnv.rng.normal m 0 n g).1, x = m := fun m n g x hx => (List.mem_replicate.1 hx).2
  obtain ⟨d, sd, g, hg⟩ := count_generate countTrainer rfl rfl 4 (by norm_num) 0.9 count_input4
  refine ⟨by unfold Documented; norm_num, _, hg, ?_, ?_⟩
  · refine (C145_exactly countEnv flipRng_ok hz countTrainer (prepSample_regular (by norm_num)) (prepSample_names _ _) prepSample_keywordFree
      (by simp [countTrainer, prepSample]) prepSample_real 4 _ hg [] (by simp) 175 2 (3 / 4) (by norm_num) (by norm_num)).2 fun h => ?_
    have := h.1
    rw [show Int.toNat 4 = 4 from rfl] at this
    norm_num at this
  · refine C145_enough_partial countEnv flipRng_ok hz countTrainer (prepSample_regular (by norm_num)) (prepSample_names _ _) prepSample_keywordFree
      (by simp [countTrainer, prepSample]) prepSample_real 4 _ hg [] (by simp) 175 1 (1 / 2) (by norm_num) (by norm_num) ?_
    unfold Documented
    rw [show Int.toNat 4 = 4 from rfl]
    norm_num

end Verif.Props
