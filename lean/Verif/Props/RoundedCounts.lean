import Verif.Props.Rounded
import Verif.Model.Noise
import Mathlib.Algebra.Order.Floor.Semifield

/-!
# Property C140: numbers of samples and batches computed with floating point numbers
-/

namespace Verif.Props
open Verif.Py Verif.Model

/-! ### Without rounding these are the functions of the other files -/

theorem nTrainR_exact (v : ℝ) (n : Nat) : nTrainR .exact v n = nTrain v n := rfl

theorem epochLenR_exact (s : Gen) : epochLenR .exact s.refl.length s.batch = s.len := by
  show ⌊((s.refl.length : ℝ) / s.batch)⌋ = ((s.refl.length / s.batch : ℕ) : ℤ)
  rw [← Nat.floor_div_eq_div (K := ℝ), Int.natCast_floor_eq_floor (by positivity)]

theorem nBolsterR_exact (n : Nat) (f : ℝ) : nBolsterR .exact n f = nBolster n f := by
  show ⌊(n : ℝ) * f / 2⌋ = ⌊((n : ℤ) : ℝ) * f / 2⌋
  rw [Int.cast_natCast]

/-! ### Numbers of batches -/

theorem roundBin_nat {p : Nat} (hp : 1 ≤ p) {n : Nat} (h : n ≤ 2 ^ p) : roundBin p n = n := by
  refine roundBin_exact hp (k := n) (e := 0) ?_ (by simp)
  rw [abs_of_nonneg (by positivity)]
  exact_mod_cast h

/-- **C140** (batches): with `p` binary digits the number of batches of an epoch is the quotient without remainder, if the number of samples and the batch
size together are at most `2 ^ p`: the rounded quotient never reaches the next whole number. -/
theorem C140_batches (p : Nat) (hp : 2 ≤ p) (n b : Nat) (hb : 1 ≤ b) (h : n + b ≤ 2 ^ p) : epochLenR (binary p hp) n b = (n / b : ℕ) := by
  have hb0 : (0 : ℝ) < b := by exact_mod_cast hb
  have hq : b * (n / b) ≤ n ∧ n < b * (n / b) + b := ⟨Nat.mul_div_le n b, by
    have := Nat.div_add_mod n b
    have := Nat.mod_lt n hb
    omega⟩
  unfold epochLenR
  rw [Int.floor_eq_iff]
  show (((n / b : ℕ) : ℤ) : ℝ) ≤ roundBin p ((n : ℝ) / b) ∧ roundBin p ((n : ℝ) / b) < (((n / b : ℕ) : ℤ) : ℝ) + 1
  rw [Int.cast_natCast]
  have le : n / b ≤ n := Nat.div_le_self n b
  constructor
  · rw [← roundBin_nat (p := p) (n := n / b) (by omega) (by omega)]
    refine roundBin_mono (by omega) ?_
    rw [le_div_iff₀ hb0]
    have : ((b * (n / b) : ℕ) : ℝ) ≤ n := by exact_mod_cast hq.1
    push_cast at this
    linarith
  · -- one unit below the next whole number
    have e := (abs_le.1 (roundBin_err (p := p) (by omega) ((n : ℝ) / b))).2
    rw [abs_of_nonneg (by positivity)] at e
    have h1 : (n : ℝ) + 1 ≤ b * (((n / b : ℕ) : ℝ) + 1) := by
      have : n + 1 ≤ b * (n / b + 1) := by
        rw [mul_add, mul_one]
        omega
      exact_mod_cast this
    have h2 : (n : ℝ) < 2 ^ p := by
      have : n < 2 ^ p := by omega
      exact_mod_cast this
    have h3 : (1 / 2 : ℝ) ^ p * n < 1 := by
      rw [div_pow, one_pow, one_div, inv_mul_lt_iff₀ (by positivity)]
      linarith
    have h4 : roundBin p ((n : ℝ) / b) * b ≤ n + (1 / 2) ^ p * n := by
      have := mul_le_mul_of_nonneg_right e hb0.le
      have e1 : (n : ℝ) / b * b = n := div_mul_cancel₀ _ hb0.ne'
      rw [sub_mul, mul_assoc, e1] at this
      linarith
    have h5 : roundBin p ((n : ℝ) / b) * b < (((n / b : ℕ) : ℝ) + 1) * b := by linarith
    exact lt_of_mul_lt_mul_right h5 hb0.le

/-! ### Numbers of training samples -/

theorem floor_near {x y δ : ℝ} (h : |y - x| ≤ δ) (hδ : δ < 1) : |⌊y⌋ - ⌊x⌋| ≤ 1 := by
  have h1 := abs_le.1 h
  have a1 := Int.floor_le x
  have a2 := Int.lt_floor_add_one x
  have b1 := Int.floor_le y
  have b2 := Int.lt_floor_add_one y
  have c1 : ((⌊y⌋ - ⌊x⌋ : ℤ) : ℝ) < 2 := by push_cast; linarith
  have c2 : ((⌊x⌋ - ⌊y⌋ : ℤ) : ℝ) < 2 := by push_cast; linarith
  have c1 : ⌊y⌋ - ⌊x⌋ < 2 := by exact_mod_cast c1
  have c2 : ⌊x⌋ - ⌊y⌋ < 2 := by exact_mod_cast c2
  rw [abs_le]
  omega

theorem floor_same {x y δ : ℝ} (h : |y - x| ≤ δ) (hx : ∀ m : ℤ, δ < |x - m|) : ⌊y⌋ = ⌊x⌋ := by
  have h1 := abs_le.1 h
  have a1 := Int.floor_le x
  have a2 := Int.lt_floor_add_one x
  have m1 := hx ⌊x⌋
  have m2 := hx (⌊x⌋ + 1)
  rw [abs_of_nonneg (by linarith)] at m1
  push_cast at m2
  rw [abs_of_nonpos (by linarith)] at m2
  rw [Int.floor_eq_iff]
  constructor <;> linarith

/-- Two roundings of a product of two numbers between 0 and `n`. -/
theorem near_two {R : Rounding} {x y : ℝ} {n : ℝ} (h : Near R 2 x y) (h0 : 0 ≤ x) (h1 : x ≤ n) : |y - x| ≤ 3 * R.u * n := by
  have u0 := u_nonneg R
  have us := R.small
  unfold Near at h
  rw [abs_of_nonneg h0] at h
  have : (1 + R.u) ^ 2 - 1 ≤ 3 * R.u := by nlinarith
  calc |y - x| ≤ ((1 + R.u) ^ 2 - 1) * x := h
    _ ≤ 3 * R.u * x := mul_le_mul_of_nonneg_right this h0
    _ ≤ 3 * R.u * n := mul_le_mul_of_nonneg_left h1 (by linarith)

theorem train_near (R : Rounding) {v : ℝ} (h0 : 0 ≤ v) (h1 : v ≤ 1) (n : Nat) :
    0 ≤ R.fl (R.fl (1 - v) * n) ∧ |R.fl (R.fl (1 - v) * n) - (1 - v) * n| ≤ 3 * R.u * n := by
  have hn : (0 : ℝ) ≤ n := Nat.cast_nonneg n
  refine ⟨fl_nonneg R (mul_nonneg (fl_nonneg R (by linarith)) hn), near_two (R := R) (near_fl ?_) (mul_nonneg (by linarith) hn) (by nlinarith)⟩
  exact near_scale (n : ℝ) (near_fl (near_rfl (1 - v)))

/-- **C140** (training samples): for a fraction between 0 and 1 the computed number of training samples differs from the exact one by at most one, as long
as the number of samples is smaller than `1 / (3 u)`, with `u` the relative error of an operation (`3.0e15` samples for `float64`). It is the exact one, if
`(1 - val_split) n` is farther than `3 u n` from every whole number. -/
theorem C140_train (R : Rounding) (v : ℝ) (h0 : 0 ≤ v) (h1 : v ≤ 1) (n : Nat) :
    (3 * R.u * n < 1 → |nTrainR R v n - nTrain v n| ≤ 1) ∧ ((∀ m : ℤ, 3 * R.u * n < |(1 - v) * n - m|) → nTrainR R v n = nTrain v n) := by
  obtain ⟨p, e⟩ := train_near R h0 h1 n
  have q : 0 ≤ (1 - v) * (n : ℝ) := mul_nonneg (by linarith) (Nat.cast_nonneg n)
  unfold nTrainR nTrain
  simp only
  rw [if_pos p, if_pos q]
  exact ⟨fun h => floor_near e h, fun h => floor_same e h⟩

/-- With `p` binary digits and at most `2 ^ p` samples the computed number of training samples lies between 0 and the number of samples. -/
theorem nTrainR_bounds (p : Nat) (hp : 2 ≤ p) (v : ℝ) (h0 : 0 ≤ v) (h1 : v ≤ 1) (n : Nat) (hn : n ≤ 2 ^ p) :
    0 ≤ nTrainR (binary p hp) v n ∧ nTrainR (binary p hp) v n ≤ n := by
  obtain ⟨q, -⟩ := train_near (binary p hp) h0 h1 n
  have up : (binary p hp).fl ((binary p hp).fl (1 - v) * n) ≤ n := by
    have e : (binary p hp).fl n = n := roundBin_nat (by omega) hn
    have := (fl_unit (binary p hp) (x := 1 - v) (by linarith) (by linarith)).2
    calc (binary p hp).fl ((binary p hp).fl (1 - v) * n) ≤ (binary p hp).fl n :=
          (binary p hp).mono (mul_le_of_le_one_left (Nat.cast_nonneg n) this)
      _ = n := e
  unfold nTrainR
  simp only
  rw [if_pos q]
  refine ⟨Int.floor_nonneg.2 q, ?_⟩
  have : ⌊(binary p hp).fl ((binary p hp).fl (1 - v) * n)⌋ ≤ ⌊(n : ℝ)⌋ := Int.floor_le_floor up
  rwa [Int.floor_natCast] at this

/-- **C140** (split): with `p` binary digits and at most `2 ^ p` samples the two slices of the data contain every sample once and in the original order, and
the first one has the computed number of samples. -/
theorem C140_split (p : Nat) (hp : 2 ≤ p) (v : ℝ) (h0 : 0 ≤ v) (h1 : v ≤ 1) {α : Type} (data : List α) (hn : data.length ≤ 2 ^ p) :
    slice data none (some (nTrainR (binary p hp) v data.length)) ++ slice data (some (nTrainR (binary p hp) v data.length)) none = data ∧
    ((slice data none (some (nTrainR (binary p hp) v data.length))).length : ℤ) = nTrainR (binary p hp) v data.length := by
  obtain ⟨b0, b1⟩ := nTrainR_bounds p hp v h0 h1 data.length hn
  unfold slice sliceBound
  simp only [if_pos b0, List.take_length, List.drop_zero]
  have : (nTrainR (binary p hp) v data.length).toNat ≤ data.length := by omega
  rw [min_eq_left this]
  refine ⟨List.take_append_drop _ _, ?_⟩
  rw [List.length_take]
  omega

/-- **C140** (one sample less): `val_split=0.9` of ten samples should leave one sample for training. With `float64` numbers it leaves none. -/
theorem C140_one_less : nTrainR (binary 53 (by norm_num)) (roundBin 53 0.9) 10 = 0 ∧ nTrain 0.9 10 = 1 := by
  have hv : roundBin 53 0.9 = 8106479329266893 * (2 : ℝ) ^ (-53 : ℤ) := by
    have hu : ulp 53 (0.9 : ℝ) = (2 : ℝ) ^ (-53 : ℤ) := by
      rw [ulp_of (e := -1)]
      · norm_num
      · rw [abs_of_pos (by norm_num)]; norm_num
      · rw [abs_of_pos (by norm_num)]; norm_num
    unfold roundBin
    rw [hu, rint_of (n := 8106479329266893)]
    · push_cast; rfl
    · rw [abs_lt, zpow_neg, div_inv_eq_mul, show ((53 : ℤ)) = ((53 : ℕ) : ℤ) from rfl, zpow_natCast]
      constructor <;> norm_num
  have h1 : (binary 53 (by norm_num)).fl (1 - roundBin 53 0.9) = 900719925474099 * (2 : ℝ) ^ (-53 : ℤ) := by
    have e : 1 - roundBin 53 0.9 = 900719925474099 * (2 : ℝ) ^ (-53 : ℤ) := by rw [hv]; norm_num
    rw [e]
    exact roundBin_exact (by norm_num) (k := 900719925474099) (e := -53) (by norm_num) (by push_cast; rfl)
  have h2 : (binary 53 (by norm_num)).fl ((binary 53 (by norm_num)).fl (1 - roundBin 53 0.9) * (10 : ℕ)) = 9007199254740990 * (2 : ℝ) ^ (-53 : ℤ) := by
    rw [h1]
    have e : 900719925474099 * (2 : ℝ) ^ (-53 : ℤ) * (10 : ℕ) = 9007199254740990 * (2 : ℝ) ^ (-53 : ℤ) := by push_cast; ring
    rw [e]
    exact roundBin_exact (by norm_num) (k := 9007199254740990) (e := -53) (by norm_num) (by push_cast; rfl)
  constructor
  · unfold nTrainR
    simp only
    rw [h2, if_pos (by positivity), Int.floor_eq_iff]
    constructor <;> norm_num
  · unfold nTrain
    simp only
    rw [if_pos (by norm_num), Int.floor_eq_iff]
    constructor <;> norm_num

/-! ### Numbers of values around the limits -/

/-- **C140** (values around the limits): for a fraction between 0 and 1 the computed number of values around each limit differs from the exact one by at
most one (as in `C140_train`), and with `p` binary digits and at most `2 ^ p` values both numbers together are at most the number of values. -/
theorem C140_bolstered (p : Nat) (hp : 2 ≤ p) (f : ℝ) (h0 : 0 ≤ f) (h1 : f ≤ 1) (n : Nat) (hn : 3 * n < 2 ^ p) :
    |nBolsterR (binary p hp) n f - nBolster n f| ≤ 1 ∧ 0 ≤ nBolsterR (binary p hp) n f ∧ 2 * nBolsterR (binary p hp) n f ≤ n := by
  have hn0 : (0 : ℝ) ≤ n := Nat.cast_nonneg n
  have nf : 0 ≤ (n : ℝ) * f := mul_nonneg hn0 h0
  have nf1 : (n : ℝ) * f ≤ n := mul_le_of_le_one_right hn0 h1
  have q : 0 ≤ (binary p hp).fl ((binary p hp).fl ((n : ℝ) * f) / 2) := fl_nonneg _ (by have := fl_nonneg (binary p hp) nf; linarith)
  have near : Near (binary p hp) 2 ((n : ℝ) * f / 2) ((binary p hp).fl ((binary p hp).fl ((n : ℝ) * f) / 2)) := by
    refine near_fl ?_
    have := near_scale (1 / 2 : ℝ) (near_fl (near_rfl (R := binary p hp) ((n : ℝ) * f)))
    simpa only [mul_one_div] using this
  have e := near_two near (by linarith) (show (n : ℝ) * f / 2 ≤ n by linarith)
  have hu : 3 * (binary p hp).u * n < 1 := by
    show 3 * (1 / 2 : ℝ) ^ p * n < 1
    have : (3 * n : ℝ) < 2 ^ p := by exact_mod_cast hn
    rw [div_pow, one_pow, one_div, mul_right_comm, mul_inv_lt_iff₀ (by positivity)]
    linarith
  have up : (binary p hp).fl ((binary p hp).fl ((n : ℝ) * f) / 2) ≤ n / 2 := by
    have e1 : (binary p hp).fl ((n : ℝ) * f) ≤ n := by
      have : (binary p hp).fl (n : ℝ) = n := roundBin_nat (by omega) (by omega)
      calc _ ≤ (binary p hp).fl (n : ℝ) := (binary p hp).mono nf1
        _ = n := this
    have e2 : (binary p hp).fl ((n : ℝ) / 2) = n / 2 := by
      refine roundBin_exact (by omega) (k := n) (e := -1) ?_ (by rw [zpow_neg_one]; push_cast; ring)
      rw [abs_of_nonneg (by positivity)]
      have : n ≤ 2 ^ p := by omega
      exact_mod_cast this
    calc _ ≤ (binary p hp).fl ((n : ℝ) / 2) := (binary p hp).mono (by linarith)
      _ = n / 2 := e2
  refine ⟨?_, Int.floor_nonneg.2 q, ?_⟩
  · unfold nBolsterR nBolster
    rw [Int.cast_natCast]
    exact floor_near e hu
  · have := (Int.floor_le ((binary p hp).fl ((binary p hp).fl ((n : ℝ) * f) / 2))).trans up
    have : ((2 * nBolsterR (binary p hp) n f : ℤ) : ℝ) ≤ (n : ℤ) := by
      unfold nBolsterR
      push_cast
      linarith
    exact_mod_cast this

/-- The hypotheses of C140 hold for the defaults: 131072 samples, batches of 512, a validation fraction of 0.2 and a fraction of 0.5 around the limits. -/
example : epochLenR (binary 53 (by norm_num)) 131072 512 = 256 ∧ |nTrainR (binary 53 (by norm_num)) (roundBin 53 0.2) 131072 - nTrain (roundBin 53 0.2) 131072| ≤ 1 ∧
    2 * nBolsterR (binary 53 (by norm_num)) 131072 0.5 ≤ 131072 := by
  have h := fl_unit (binary 53 (by norm_num)) (x := 0.2) (by norm_num) (by norm_num)
  refine ⟨C140_batches 53 (by norm_num) 131072 512 (by norm_num) (by norm_num), (C140_train _ _ h.1 h.2 131072).1 ?_,
    (C140_bolstered 53 (by norm_num) 0.5 (by norm_num) (by norm_num) 131072 (by norm_num)).2.2⟩
  show 3 * (1 / 2 : ℝ) ^ 53 * (131072 : ℕ) < 1
  norm_num

end Verif.Props
