import Verif.Model.Rounded
import Verif.Props.Results
import Verif.Props.Interpolation
import Verif.Props.Scans
import Mathlib.Data.List.Perm.Basic

/-!
# C120: rounding errors

The bounds below hold for every rounding (`Rounding`), among them IEEE 754 binary numbers with any number of digits (`binary`).
-/

namespace Verif.Props
open Verif.Py Verif.Model Verif.Spec

/-! ### Rounding to the nearest integer -/

theorem rint_int (n : ℤ) : FitResult.rint (n : ℝ) = n := by
  unfold FitResult.rint
  rw [Int.floor_intCast, if_pos (by norm_num)]

theorem rint_cases (x : ℝ) : (FitResult.rint x : ℤ) = ⌊x⌋ ∨ FitResult.rint x = ⌊x⌋ + 1 := by
  unfold FitResult.rint
  split_ifs <;> simp

theorem rint_le_of_lt {x y : ℝ} (h : x ≤ y) : FitResult.rint x ≤ FitResult.rint y := by
  have hf := Int.floor_mono h
  rcases lt_or_eq_of_le hf with hlt | heq
  · have : FitResult.rint x ≤ ⌊x⌋ + 1 := by rcases rint_cases x with e | e <;> omega
    have : ⌊y⌋ ≤ FitResult.rint y := by rcases rint_cases y with e | e <;> omega
    omega
  · unfold FitResult.rint
    rw [← heq]
    split_ifs <;> first | omega | linarith

theorem rint_neg (x : ℝ) : FitResult.rint (-x) = -FitResult.rint x := by
  by_cases hx : x = ⌊x⌋
  · rw [hx, ← Int.cast_neg, rint_int, rint_int]
  · have h1 := Int.floor_le x
    have h2 := Int.lt_floor_add_one x
    have h3 : (⌊x⌋ : ℝ) < x := lt_of_le_of_ne h1 fun e => hx e.symm
    have hf : ⌊-x⌋ = -⌊x⌋ - 1 := by
      rw [Int.floor_eq_iff]
      push_cast
      constructor <;> linarith
    unfold FitResult.rint
    rw [hf]
    push_cast
    have he : Even (-⌊x⌋ - 1) ↔ ¬Even ⌊x⌋ := by
      rw [Int.even_sub, even_neg]
      simp
    split_ifs <;> first | omega | (exfalso; linarith) | (exfalso; tauto)

/-! ### Binary numbers -/

theorem log2_eq {x : ℝ} {e : ℤ} (h1 : (2 : ℝ) ^ e ≤ x) (h2 : x < (2 : ℝ) ^ (e + 1)) : Int.log 2 x = e := by
  have hx : 0 < x := lt_of_lt_of_le (by positivity) h1
  have a := (Int.zpow_le_iff_le_log (b := 2) (by norm_num) (x := e) hx).1 (by exact_mod_cast h1)
  have b := (Int.lt_zpow_iff_log_lt (b := 2) (by norm_num) (x := e + 1) hx).1 (by exact_mod_cast h2)
  omega

theorem log2_spec {x : ℝ} (hx : 0 < x) : (2 : ℝ) ^ (Int.log 2 x) ≤ x ∧ x < (2 : ℝ) ^ (Int.log 2 x + 1) :=
  ⟨by exact_mod_cast Int.zpow_log_le_self (b := 2) (by norm_num) hx, by exact_mod_cast Int.lt_zpow_succ_log_self (b := 2) (by norm_num) x⟩

theorem ulp_pos (p : Nat) (x : ℝ) : 0 < ulp p x := by
  unfold ulp
  positivity

theorem ulp_of {p : Nat} {x : ℝ} {e : ℤ} (h1 : (2 : ℝ) ^ e ≤ |x|) (h2 : |x| < (2 : ℝ) ^ (e + 1)) : ulp p x = (2 : ℝ) ^ (e - p + 1) := by
  unfold ulp
  rw [log2_eq h1 h2]

/-- The size of a number in units of its last digit. -/
theorem ulp_size {p : Nat} (hp : 1 ≤ p) {x : ℝ} (hx : x ≠ 0) : (2 : ℝ) ^ (p - 1) * ulp p x ≤ |x| ∧ |x| < (2 : ℝ) ^ p * ulp p x := by
  obtain ⟨h1, h2⟩ := log2_spec (abs_pos.2 hx)
  unfold ulp
  have e1 : (2 : ℝ) ^ (p - 1) * (2 : ℝ) ^ (Int.log 2 |x| - p + 1) = (2 : ℝ) ^ (Int.log 2 |x|) := by
    rw [← zpow_natCast, ← zpow_add₀ (by norm_num)]
    congr 1
    omega
  have e2 : (2 : ℝ) ^ p * (2 : ℝ) ^ (Int.log 2 |x| - p + 1) = (2 : ℝ) ^ (Int.log 2 |x| + 1) := by
    rw [← zpow_natCast, ← zpow_add₀ (by norm_num)]
    congr 1
    omega
  rw [e1, e2]
  exact ⟨h1, h2⟩

theorem roundBin_odd (p : Nat) (x : ℝ) : roundBin p (-x) = -roundBin p x := by
  unfold roundBin
  have : ulp p (-x) = ulp p x := by
    unfold ulp
    rw [abs_neg]
  rw [this, neg_div, rint_neg]
  push_cast
  ring

theorem roundBin_zero (p : Nat) : roundBin p 0 = 0 := by
  have := roundBin_odd p 0
  rw [neg_zero] at this
  linarith

theorem roundBin_err {p : Nat} (hp : 1 ≤ p) (x : ℝ) : |roundBin p x - x| ≤ (1 / 2) ^ p * |x| := by
  by_cases hx : x = 0
  · rw [hx, roundBin_zero]; simp
  have hu := ulp_pos p x
  have h := rint_dist (x / ulp p x)
  have e : roundBin p x - x = (FitResult.rint (x / ulp p x) - x / ulp p x) * ulp p x := by
    unfold roundBin
    field_simp
  rw [e, abs_mul, abs_of_pos hu]
  have h1 := (ulp_size hp hx).1
  have e2 : (1 / 2 : ℝ) ^ p * 2 ^ (p - 1) = 1 / 2 := by
    obtain ⟨k, rfl⟩ : ∃ k, p = k + 1 := ⟨p - 1, by omega⟩
    rw [Nat.add_sub_cancel, pow_succ, mul_right_comm, ← mul_pow]
    norm_num
  calc _ ≤ 1 / 2 * ulp p x := mul_le_mul_of_nonneg_right h hu.le
    _ = (1 / 2) ^ p * (2 ^ (p - 1) * ulp p x) := by rw [← mul_assoc, e2]
    _ ≤ _ := mul_le_mul_of_nonneg_left h1 (by positivity)

theorem roundBin_mono_pos {p : Nat} (hp : 1 ≤ p) {x y : ℝ} (hx : 0 < x) (h : x ≤ y) : roundBin p x ≤ roundBin p y := by
  have hy := hx.trans_le h
  have hl := Int.log_mono_right (b := 2) hx h
  rcases lt_or_eq_of_le hl with hlt | heq
  · obtain ⟨-, h2⟩ := ulp_size hp hx.ne'
    obtain ⟨h3, -⟩ := ulp_size hp hy.ne'
    rw [abs_of_pos hx] at h2
    rw [abs_of_pos hy] at h3
    have hux := ulp_pos p x
    have huy := ulp_pos p y
    have a : FitResult.rint (x / ulp p x) ≤ (2 ^ p : ℤ) := by
      rw [← rint_int (2 ^ p : ℤ)]
      refine rint_le_of_lt ?_
      rw [div_le_iff₀ hux]
      push_cast
      exact h2.le
    have b : (2 ^ (p - 1) : ℤ) ≤ FitResult.rint (y / ulp p y) := by
      rw [← rint_int (2 ^ (p - 1) : ℤ)]
      refine rint_le_of_lt ?_
      rw [le_div_iff₀ huy]
      push_cast
      exact h3
    have a' : (FitResult.rint (x / ulp p x) : ℝ) ≤ 2 ^ p := by exact_mod_cast a
    have b' : (2 ^ (p - 1) : ℝ) ≤ FitResult.rint (y / ulp p y) := by exact_mod_cast b
    have hu : (2 : ℝ) ^ p * ulp p x ≤ 2 ^ (p - 1) * ulp p y := by
      unfold ulp
      rw [abs_of_pos hx, abs_of_pos hy, ← zpow_natCast, ← zpow_natCast, ← zpow_add₀ (by norm_num), ← zpow_add₀ (by norm_num)]
      refine zpow_le_zpow_right₀ (by norm_num) ?_
      omega
    calc roundBin p x ≤ 2 ^ p * ulp p x := mul_le_mul_of_nonneg_right a' hux.le
      _ ≤ 2 ^ (p - 1) * ulp p y := hu
      _ ≤ roundBin p y := mul_le_mul_of_nonneg_right b' huy.le
  · have hu : ulp p x = ulp p y := by
      unfold ulp
      rw [abs_of_pos hx, abs_of_pos hy, heq]
    unfold roundBin
    rw [hu]
    have := rint_le_of_lt (div_le_div_of_nonneg_right h (ulp_pos p y).le)
    exact mul_le_mul_of_nonneg_right (by exact_mod_cast this) (ulp_pos p y).le

theorem roundBin_nonneg {p : Nat} {x : ℝ} (hx : 0 ≤ x) : 0 ≤ roundBin p x := by
  have : (0 : ℤ) ≤ FitResult.rint (x / ulp p x) := rint_nonneg _ (div_nonneg hx (ulp_pos p x).le)
  exact mul_nonneg (by exact_mod_cast this) (ulp_pos p x).le

theorem roundBin_mono {p : Nat} (hp : 1 ≤ p) : Monotone (roundBin p) := by
  have hpos : ∀ x y : ℝ, 0 ≤ x → x ≤ y → roundBin p x ≤ roundBin p y := by
    intro x y hx h
    rcases hx.eq_or_lt with rfl | hx
    · rw [roundBin_zero]; exact roundBin_nonneg h
    · exact roundBin_mono_pos hp hx h
  intro x y h
  rcases le_total 0 x with hx | hx
  · exact hpos x y hx h
  rcases le_total 0 y with hy | hy
  · have h1 : roundBin p x ≤ 0 := by
      have := roundBin_nonneg (p := p) (x := -x) (by linarith)
      rw [roundBin_odd] at this
      linarith
    exact h1.trans (roundBin_nonneg hy)
  · have := hpos (-y) (-x) (by linarith) (by linarith)
    rw [roundBin_odd, roundBin_odd] at this
    linarith

/-- Numbers with few digits are exact. -/
theorem roundBin_exact {p : Nat} (hp : 1 ≤ p) {x : ℝ} {e k : ℤ} (hk : |k| ≤ 2 ^ p) (hx : x = k * (2 : ℝ) ^ e) : roundBin p x = x := by
  by_cases h0 : x = 0
  · rw [h0, roundBin_zero]
  have hu := ulp_pos p x
  -- `x` is a whole number of units
  have key : ∃ n : ℤ, x = n * ulp p x := by
    obtain ⟨h1, -⟩ := ulp_size hp h0
    have hx' : |x| = |(k : ℝ)| * (2 : ℝ) ^ e := by rw [hx, abs_mul, abs_of_pos (by positivity : (0 : ℝ) < 2 ^ e)]
    set f := Int.log 2 |x| - p + 1 with hf
    have hul : ulp p x = (2 : ℝ) ^ f := rfl
    by_cases hfe : f ≤ e
    · refine ⟨k * 2 ^ (e - f).toNat, ?_⟩
      rw [hul, hx]
      push_cast
      rw [mul_assoc, ← zpow_natCast, ← zpow_add₀ (by norm_num)]
      congr 2
      omega
    · -- then `k` is `± 2 ^ p`
      have hkR : |(k : ℝ)| ≤ 2 ^ p := by exact_mod_cast hk
      have h2 : (2 : ℝ) ^ (p - 1) * 2 ^ f ≤ 2 ^ p * 2 ^ e := by
        rw [hul, hx'] at h1
        exact h1.trans (mul_le_mul_of_nonneg_right hkR (by positivity))
      have h3 : f = e + 1 := by
        rw [← zpow_natCast, ← zpow_natCast, ← zpow_add₀ (by norm_num), ← zpow_add₀ (by norm_num),
          zpow_le_zpow_iff_right₀ (by norm_num)] at h2
        omega
      have h4 : |(k : ℝ)| = 2 ^ p := by
        refine le_antisymm hkR ?_
        rw [hul, hx', h3, zpow_add₀ (by norm_num), zpow_one, mul_comm ((2 : ℝ) ^ e), ← mul_assoc] at h1
        have := le_of_mul_le_mul_right h1 (by positivity)
        obtain ⟨j, rfl⟩ : ∃ j, p = j + 1 := ⟨p - 1, by omega⟩
        rw [pow_succ]
        exact this
      have e5 : ((2 : ℝ) ^ (p - 1)) * 2 = 2 ^ p := by
        obtain ⟨j, rfl⟩ : ∃ j, p = j + 1 := ⟨p - 1, by omega⟩
        rw [pow_succ]
        rfl
      rcases abs_choice (k : ℝ) with hc | hc
      · refine ⟨2 ^ (p - 1), ?_⟩
        rw [hul, hx, h3, zpow_add₀ (by norm_num), zpow_one, ← hc, h4, ← e5]
        push_cast
        ring
      · refine ⟨-2 ^ (p - 1), ?_⟩
        have : (k : ℝ) = -2 ^ p := by linarith
        rw [hul, hx, h3, zpow_add₀ (by norm_num), zpow_one, this, ← e5]
        push_cast
        ring
  obtain ⟨n, hn⟩ := key
  unfold roundBin
  have : x / ulp p x = n := by
    rw [div_eq_iff hu.ne']
    exact hn
  rw [this, rint_int]
  exact hn.symm

theorem roundBin_idem {p : Nat} (hp : 1 ≤ p) (x : ℝ) : roundBin p (roundBin p x) = roundBin p x := by
  by_cases h0 : x = 0
  · rw [h0, roundBin_zero, roundBin_zero]
  refine roundBin_exact hp (k := FitResult.rint (x / ulp p x)) (e := Int.log 2 |x| - p + 1) ?_ rfl
  have hu := ulp_pos p x
  have h2 := (ulp_size hp h0).2
  have hb : |x / ulp p x| ≤ ((2 ^ p : ℤ) : ℝ) := by
    rw [abs_div, abs_of_pos hu, div_le_iff₀ hu]
    push_cast
    exact h2.le
  rw [abs_le] at hb ⊢
  refine ⟨?_, ?_⟩
  · have := rint_le_of_lt (x := ((-2 ^ p : ℤ) : ℝ)) (y := x / ulp p x) (by push_cast at hb ⊢; exact hb.1)
    rwa [rint_int] at this
  · have := rint_le_of_lt hb.2
    rwa [rint_int] at this

/-- IEEE 754 rounding with `p` binary digits is a rounding with the error `2 ^ -p`. -/
noncomputable def binary (p : Nat) (hp : 2 ≤ p) : Rounding where
  fl := roundBin p
  u := (1 / 2) ^ p
  mono := roundBin_mono (by omega)
  odd := roundBin_odd p
  idem := roundBin_idem (by omega)
  one := roundBin_exact (by omega) (k := 1) (e := 0) (by rw [abs_one]; exact one_le_pow₀ (by norm_num)) (by simp)
  err := roundBin_err (by omega)
  small := by
    calc (1 / 2 : ℝ) ^ p ≤ (1 / 2) ^ 2 := pow_le_pow_of_le_one (by norm_num) (by norm_num) hp
      _ = 1 / 4 := by norm_num

/-! ### Consequences of the axioms of a rounding -/

section
variable (R : Rounding)

theorem fl_zero : R.fl 0 = 0 := by
  have := R.odd 0
  rw [neg_zero] at this
  linarith

theorem u_nonneg : 0 ≤ R.u := by
  have := R.err 1
  rw [R.one] at this
  simpa using this

theorem fl_nonneg {x : ℝ} (h : 0 ≤ x) : 0 ≤ R.fl x := by
  rw [← fl_zero R]
  exact R.mono h

theorem fl_pos {x : ℝ} (h : 0 < x) : 0 < R.fl x := by
  have h1 := (abs_le.1 (R.err x)).1
  have h2 := R.small
  rw [abs_of_pos h] at h1
  nlinarith

theorem fl_eq_zero {x : ℝ} : R.fl x = 0 ↔ x = 0 := by
  refine ⟨fun h => ?_, fun h => by rw [h, fl_zero]⟩
  rcases lt_trichotomy x 0 with hx | hx | hx
  · have := fl_pos R (x := -x) (by linarith)
    rw [R.odd, h] at this
    simp at this
  · exact hx
  · have := fl_pos R hx
    rw [h] at this
    exact absurd this (lt_irrefl _)

theorem fl_unit {x : ℝ} (h0 : 0 ≤ x) (h1 : x ≤ 1) : 0 ≤ R.fl x ∧ R.fl x ≤ 1 := by
  refine ⟨fl_nonneg R h0, ?_⟩
  rw [← R.one]
  exact R.mono h1

/-- `y` is off from `x` by at most `k` roundings. -/
def Near (k : Nat) (x y : ℝ) : Prop := |y - x| ≤ ((1 + R.u) ^ k - 1) * |x|

variable {R}

theorem near_rfl (x : ℝ) : Near R 0 x x := by simp [Near]

theorem one_le_pow_u (k : Nat) : 1 ≤ (1 + R.u) ^ k := one_le_pow₀ (by linarith [u_nonneg R])

theorem near_size {k : Nat} {x y : ℝ} (h : Near R k x y) : |y| ≤ (1 + R.u) ^ k * |x| := by
  have : |y| ≤ |y - x| + |x| := by simpa using abs_add_le (y - x) x
  unfold Near at h
  linarith

theorem near_fl {k : Nat} {x y : ℝ} (h : Near R k x y) : Near R (k + 1) x (R.fl y) := by
  have h1 := R.err y
  have h2 := near_size h
  have h3 : |R.fl y - x| ≤ |R.fl y - y| + |y - x| := by simpa using abs_add_le (R.fl y - y) (y - x)
  have h4 := mul_le_mul_of_nonneg_left h2 (u_nonneg R)
  unfold Near at h ⊢
  rw [pow_succ]
  nlinarith

theorem near_mono {j k : Nat} (hjk : j ≤ k) {x y : ℝ} (h : Near R j x y) : Near R k x y := by
  unfold Near at h ⊢
  have : (1 + R.u) ^ j ≤ (1 + R.u) ^ k := pow_le_pow_right₀ (by linarith [u_nonneg R]) hjk
  have := mul_le_mul_of_nonneg_right (sub_le_sub_right this 1) (abs_nonneg x)
  linarith

theorem near_mul {j k : Nat} {a a' b b' : ℝ} (ha : Near R j a a') (hb : Near R k b b') : Near R (j + k) (a * b) (a' * b') := by
  have h1 : |a' * b' - a * b| ≤ |a' - a| * |b'| + |a| * |b' - b| := by
    rw [← abs_mul, ← abs_mul]
    have : a' * b' - a * b = (a' - a) * b' + a * (b' - b) := by ring
    rw [this]
    exact abs_add_le _ _
  have h2 := near_size hb
  have h3 := mul_le_mul ha h2 (abs_nonneg _) ((abs_nonneg _).trans ha)
  have h4 := mul_le_mul_of_nonneg_left hb (abs_nonneg a)
  unfold Near
  rw [abs_mul, pow_add]
  nlinarith

theorem near_scale {k : Nat} {x y : ℝ} (c : ℝ) (h : Near R k x y) : Near R k (x * c) (y * c) := by
  simpa using near_mul h (near_rfl c)

theorem near_add {k : Nat} {x x' y y' : ℝ} (hx : 0 ≤ x) (hy : 0 ≤ y) (h : Near R k x x') (h' : Near R k y y') : Near R k (x + y) (x' + y') := by
  have : |x' + y' - (x + y)| ≤ |x' - x| + |y' - y| := by
    have e : x' + y' - (x + y) = (x' - x) + (y' - y) := by ring
    rw [e]
    exact abs_add_le _ _
  unfold Near at *
  rw [abs_of_nonneg (add_nonneg hx hy)]
  rw [abs_of_nonneg hx] at h
  rw [abs_of_nonneg hy] at h'
  linarith

theorem sumsTo_ne {l : List ℝ} {s : ℝ} (h : SumsTo R l s) : l ≠ [] := by
  induction h with
  | one => simp
  | add _ _ ih _ => simp [ih]
  | perm hp _ ih =>
    intro e
    rw [e] at hp
    exact ih hp.eq_nil

theorem sumsTo_near {l : List ℝ} {s : ℝ} (h : SumsTo R l s) {k : Nat} : ∀ {z : List ℝ}, List.Forall₂ (Near R k) z l → (∀ x ∈ z, 0 ≤ x) →
    Near R (k + (l.length - 1)) z.sum s := by
  induction h with
  | one x =>
    intro z hz _
    cases hz with
    | cons h1 h2 =>
      cases h2
      simpa using h1
  | @add l l' a b ha hb iha ihb =>
    intro z hz h0
    obtain ⟨x, y, rfl, h1, h2⟩ : ∃ x y, z = x ++ y ∧ List.Forall₂ (Near R k) x l ∧ List.Forall₂ (Near R k) y l' :=
      ⟨z.take l.length, z.drop l.length, (List.take_append_drop _ _).symm, List.forall₂_take_append z l l' hz, List.forall₂_drop_append z l l' hz⟩
    have p1 := List.length_pos_iff.2 (sumsTo_ne ha)
    have p2 := List.length_pos_iff.2 (sumsTo_ne hb)
    have q1 := iha h1 fun v hv => h0 v (List.mem_append_left _ hv)
    have q2 := ihb h2 fun v hv => h0 v (List.mem_append_right _ hv)
    rw [List.sum_append]
    have := near_fl (near_add (List.sum_nonneg fun v hv => h0 v (List.mem_append_left _ hv)) (List.sum_nonneg fun v hv => h0 v (List.mem_append_right _ hv))
      (near_mono (k := k + (l.length + l'.length - 2)) (by omega) q1) (near_mono (k := k + (l.length + l'.length - 2)) (by omega) q2))
    refine near_mono ?_ this
    rw [List.length_append]
    omega
  | @perm l l' a hp _ ih =>
    intro z hz h0
    have hc : Relation.Comp (List.Forall₂ (Near R k)) List.Perm z l := ⟨l', hz, hp.symm⟩
    rw [List.forall₂_comp_perm_eq_perm_comp_forall₂] at hc
    obtain ⟨w, hw, hzw⟩ := hc
    rw [← hp.length_eq, hw.sum_eq]
    exact ih hzw fun v hv => h0 v (hw.mem_iff.2 hv)

theorem sumsTo_zero {l : List ℝ} {s : ℝ} (h : SumsTo R l s) (h0 : ∀ x ∈ l, 0 ≤ x) : 0 ≤ s ∧ (s = 0 ↔ ∀ x ∈ l, x = 0) := by
  induction h with
  | one x => exact ⟨h0 x (by simp), by simp⟩
  | add _ _ iha ihb =>
    obtain ⟨a1, a2⟩ := iha fun v hv => h0 v (List.mem_append_left _ hv)
    obtain ⟨b1, b2⟩ := ihb fun v hv => h0 v (List.mem_append_right _ hv)
    refine ⟨fl_nonneg R (add_nonneg a1 b1), ?_⟩
    rw [fl_eq_zero, add_eq_zero_iff_of_nonneg a1 b1, a2, b2]
    simp only [List.mem_append]
    exact ⟨fun h x hx => hx.elim (h.1 x) (h.2 x), fun h => ⟨fun x hx => h x (.inl hx), fun x hx => h x (.inr hx)⟩⟩
  | perm hp _ ih =>
    obtain ⟨a1, a2⟩ := ih fun v hv => h0 v (hp.mem_iff.1 hv)
    refine ⟨a1, a2.trans ?_⟩
    simp only [hp.mem_iff]

end

/-! ### The functions without rounding are those of the model -/

theorem exact_div (a b : ℝ) : Rounding.exact.div a b = fdiv a b := by
  show (fdiv a b).map id = _
  rw [Option.map_id]
  rfl

/-- `normalize_labels` of the model maps every label of a column as `normalizeValue` without rounding. -/
theorem normalizeStep_exact (norm : PyStr) (f : Frame Fl) (lo hi : ℝ) (nm : Option Str) (col : List ℝ)
    (h : norm.isLit minToZeroS = true ∨ norm.isLit absoluteMaxS = true)
    (hc : f.get (pname (.range (.real lo) (.real hi) nm)) = .ok (col.map fun (x : ℝ) => some (x : ℂ))) :
    normalizeStep norm f (.range (.real lo) (.real hi) nm) = .ok (f.set (pname (.range (.real lo) (.real hi) nm))
      (col.map fun (x : ℝ) => (normalizeValue .exact norm lo hi x).map fun (y : ℝ) => (y : ℂ))) := by
  have hC : ∀ x : ℝ, (⟨x, 0⟩ : ℂ) = (x : ℂ) := fun _ => rfl
  unfold normalizeStep
  rw [if_neg (by simp [Param.isConst])]
  by_cases hm : norm.isLit minToZeroS = true
  · rw [if_pos hm, hc, bind_ok, List.map_map]
    congr 2
    refine List.map_congr_left fun x _ => ?_
    unfold normalizeValue
    rw [if_pos hm, exact_div]
    simp only [Function.comp, Rounding.exact, id, Option.map_some, Param.min, Param.max, Num.toC, hC]
    unfold Fl.div fdiv
    rw [Option.bind_some, ← Complex.ofReal_sub, ← Complex.ofReal_sub]
    by_cases h0 : hi - lo = 0
    · rw [if_pos (by rw [h0]; rfl), if_pos h0]; rfl
    · rw [if_neg (by exact_mod_cast h0), if_neg h0, Option.map_some, Complex.ofReal_div]
  · rw [if_neg hm, if_pos (h.resolve_left hm), hc, bind_ok, List.map_map]
    congr 2
    refine List.map_congr_left fun x _ => ?_
    unfold normalizeValue
    rw [if_neg hm, if_pos (h.resolve_left hm), exact_div]
    simp only [Function.comp, Param.max, Num.toC, hC, Complex.norm_real, Real.norm_eq_abs]
    unfold Fl.div fdiv
    rw [Option.bind_some]
    by_cases h0 : |hi| = 0
    · rw [if_pos (by rw [h0]; rfl), if_pos h0]; rfl
    · rw [if_neg (by exact_mod_cast h0), if_neg h0, Option.map_some, Complex.ofReal_div]

theorem renormalizeStep_exact (norm : PyStr) (f : Frame Fl) (lo hi : ℝ) (nm : Option Str) (col : List ℝ)
    (h : norm.isLit minToZeroS = true ∨ norm.isLit absoluteMaxS = true)
    (hc : f.get (pname (.range (.real lo) (.real hi) nm)) = .ok (col.map fun (x : ℝ) => some (x : ℂ))) :
    renormalizeStep norm f (.range (.real lo) (.real hi) nm) = .ok (f.set (pname (.range (.real lo) (.real hi) nm))
      (col.map fun (x : ℝ) => some ((renormalizeValue .exact norm lo hi x : ℝ) : ℂ))) := by
  have hC : ∀ x : ℝ, (⟨x, 0⟩ : ℂ) = (x : ℂ) := fun _ => rfl
  unfold renormalizeStep
  by_cases hm : norm.isLit minToZeroS = true
  · rw [if_pos hm, hc, bind_ok, List.map_map]
    congr 2
    refine List.map_congr_left fun x _ => ?_
    unfold renormalizeValue
    rw [if_pos hm]
    simp only [Function.comp, Rounding.exact, id, Option.map_some, Param.min, Param.max, Num.toC, hC]
    push_cast
    rfl
  · rw [if_neg hm, if_pos (h.resolve_left hm), hc, bind_ok, List.map_map]
    congr 2
    refine List.map_congr_left fun x _ => ?_
    unfold renormalizeValue
    rw [if_neg hm, if_pos (h.resolve_left hm)]
    simp only [Function.comp, Rounding.exact, id, Option.map_some, Param.max, Num.toC, hC, Complex.norm_real, Real.norm_eq_abs]
    push_cast
    rfl

theorem standardizeRows_exact (m sd : List ℝ) (d : Arr) : (IPState.mk (some m) (some sd)).standardize d = (standardizeRows .exact m sd d.rows, ⟨some m, some sd⟩) := by
  unfold IPState.standardize
  have : (IPState.mk (some m) (some sd)).hasSaved = .ok true := by
    unfold IPState.hasSaved
    rw [if_neg (by simp), if_pos (by simp)]
  rw [this]
  rfl

theorem revertRows_exact (m sd : List ℝ) (d : Arr) : (IPState.mk (some m) (some sd)).revert d = revertRows .exact m sd d.rows := by
  unfold IPState.revert
  have : (IPState.mk (some m) (some sd)).hasSaved = .ok true := by
    unfold IPState.hasSaved
    rw [if_neg (by simp), if_pos (by simp)]
  rw [this]
  rfl

theorem normalizeToMax_exact (l : List ℝ) : normalizeToMaxR .exact l = normalizeToMax l := by
  unfold normalizeToMaxR normalizeToMax
  simp only [exact_div]

theorem normalizeToFirst_exact (l : List ℝ) : normalizeToFirstR .exact l = normalizeToFirst l := by
  unfold normalizeToFirstR normalizeToFirst
  simp only [exact_div]

theorem foldValue_exact (mn mx v : ℝ) : foldValueR .exact mn mx v = foldValue mn mx v := rfl

/-- Logarithm and power without error. -/
noncomputable def Libm.exact : Libm where
  lg := Real.logb 10
  pw y := 10 ^ y
  v := 0
  lg_err x := by simp
  pw_err y := by simp

theorem interp_exact (x q r : List ℝ) : interpReflectivityR .exact Libm.exact x q r = interpReflectivity x q r := by
  unfold interpReflectivityR interpReflectivity npInterp
  simp only [Libm.exact]
  congr 1
  funext l
  by_cases h : l.length ≠ q.length ∨ q = []
  · rw [if_pos h, if_pos h]; rfl
  · rw [if_neg h, if_neg h, bind_ok, List.map_map]
    rfl

theorem sumsTo_exact {l : List ℝ} {s : ℝ} (h : SumsTo .exact l s) : s = l.sum := by
  induction h with
  | one x => simp
  | add _ _ ha hb => rw [List.sum_append, ha, hb]; rfl
  | perm hp _ ih => rw [ih, hp.sum_eq]

theorem sumsTo_exists (R : Rounding) {l : List ℝ} (h : l ≠ []) : ∃ s, SumsTo R l s := by
  induction l with
  | nil => exact (h rfl).elim
  | cons a l ih =>
    by_cases hl : l = []
    · exact ⟨a, hl ▸ .one a⟩
    · obtain ⟨s, hs⟩ := ih hl
      exact ⟨_, SumsTo.add (.one a) hs⟩

theorem meanSquared_exact {a b : List ℝ} (hl : a.length = b.length) (hne : a ≠ []) (m : ℝ) :
    MeanSquaredR .exact a b m ↔ m = (List.zipWith (fun (x y : ℝ) => (x - y) ^ 2) a b).sum / a.length := by
  have hz : List.zipWith (fun (x y : ℝ) => (x - y) ^ 2) a b ≠ [] := by
    intro h
    have := congrArg List.length h
    rw [List.length_zipWith, ← hl, min_self, List.length_nil] at this
    exact hne (List.length_eq_zero_iff.1 this)
  constructor
  · rintro ⟨s, h1, rfl⟩
    rw [sumsTo_exact h1]
    rfl
  · intro h
    obtain ⟨s, hs⟩ := sumsTo_exists .exact hz
    refine ⟨s, hs, ?_⟩
    rw [h, sumsTo_exact hs]
    rfl

/-! ### Labels -/

/-- The literals that `normalization` is compared with. -/
def minToZeroLit : PyStr := ⟨minToZeroS, true⟩
def absoluteMaxLit : PyStr := ⟨absoluteMaxS, true⟩

theorem normalizeValue_min (R : Rounding) (lo hi x : ℝ) : normalizeValue R minToZeroLit lo hi x = R.div (R.fl (x - lo)) (R.fl (hi - lo)) := by
  unfold normalizeValue
  rw [if_pos (by decide)]

theorem renormalizeValue_min (R : Rounding) (lo hi y : ℝ) : renormalizeValue R minToZeroLit lo hi y = R.fl (R.fl (y * R.fl (hi - lo)) + lo) := by
  unfold renormalizeValue
  rw [if_pos (by decide)]

theorem normalizeValue_abs (R : Rounding) (lo hi x : ℝ) : normalizeValue R absoluteMaxLit lo hi x = R.div x |hi| := by
  unfold normalizeValue
  rw [if_neg (by decide), if_pos (by decide)]

theorem renormalizeValue_abs (R : Rounding) (lo hi y : ℝ) : renormalizeValue R absoluteMaxLit lo hi y = R.fl (y * |hi|) := by
  unfold renormalizeValue
  rw [if_neg (by decide), if_pos (by decide)]

theorem div_some (R : Rounding) {b : ℝ} (h : b ≠ 0) (a : ℝ) : R.div a b = some (R.fl (a / b)) := by
  unfold Rounding.div fdiv
  rw [if_neg h]
  rfl

/-- C120: with any rounding, labels within their range are normalized to numbers between 0 and 1, in their order, and the limits to
exactly 0 and 1. -/
theorem C120_normalized_labels (R : Rounding) (lo hi : ℝ) (h : lo < hi) :
    ∃ f : ℝ → ℝ, (∀ x, normalizeValue R minToZeroLit lo hi x = some (f x)) ∧ f lo = 0 ∧ f hi = 1 ∧ Monotone f ∧
      ∀ x, lo ≤ x → x ≤ hi → 0 ≤ f x ∧ f x ≤ 1 := by
  have hw : 0 < R.fl (hi - lo) := fl_pos R (by linarith)
  refine ⟨fun x => R.fl (R.fl (x - lo) / R.fl (hi - lo)), fun x => ?_, ?_, ?_, ?_, ?_⟩
  · rw [normalizeValue_min, div_some R hw.ne']
  · simp only [sub_self, fl_zero, zero_div]
  · simp only [div_self hw.ne', R.one]
  · intro x y hxy
    exact R.mono (div_le_div_of_nonneg_right (R.mono (by linarith)) hw.le)
  · intro x h1 h2
    refine fl_unit R (div_nonneg (fl_nonneg R (by linarith)) hw.le) ?_
    rw [div_le_one hw]
    exact R.mono (by linarith)

/-- C120 for `absolute_max`: labels whose magnitude is at most that of the upper limit are normalized to numbers between -1 and 1. -/
theorem C120_normalized_labels_abs (R : Rounding) (lo hi : ℝ) (h : hi ≠ 0) :
    ∃ f : ℝ → ℝ, (∀ x, normalizeValue R absoluteMaxLit lo hi x = some (f x)) ∧ f |hi| = 1 ∧ Monotone f ∧
      ∀ x, |x| ≤ |hi| → -1 ≤ f x ∧ f x ≤ 1 := by
  have hw : 0 < |hi| := abs_pos.2 h
  refine ⟨fun x => R.fl (x / |hi|), fun x => ?_, ?_, ?_, ?_⟩
  · rw [normalizeValue_abs, div_some R hw.ne']
  · simp only [div_self hw.ne', R.one]
  · intro x y hxy
    exact R.mono (div_le_div_of_nonneg_right hxy hw.le)
  · intro x hx
    rw [abs_le] at hx
    have h1 : -1 ≤ x / |hi| := by rw [le_div_iff₀ hw]; linarith
    have h2 : x / |hi| ≤ 1 := by rw [div_le_one hw]; exact hx.2
    refine ⟨?_, ?_⟩
    · have := R.mono h1
      rwa [R.odd, R.one] at this
    · have := R.mono h2
      rwa [R.one] at this

/-- A number is shifted, divided, multiplied and shifted back. -/
theorem shift_round_trip (R : Rounding) {w : ℝ} (hw : w ≠ 0) (x m : ℝ) :
    |R.fl (R.fl (R.fl (R.fl (x - m) / w) * w) + m) - x| ≤ (1 + R.u) * ((1 + R.u) ^ 3 - 1) * |x - m| + R.u * |x| := by
  have n1 : Near R 1 (x - m) (R.fl (x - m)) := near_fl (near_rfl _)
  have n2 : Near R 2 ((x - m) * w⁻¹) (R.fl (R.fl (x - m) / w)) := by
    rw [div_eq_mul_inv]
    exact near_fl (near_scale w⁻¹ n1)
  have n3 : Near R 3 (x - m) (R.fl (R.fl (R.fl (x - m) / w) * w)) := by
    have := near_fl (near_scale w n2)
    rwa [mul_assoc, inv_mul_cancel₀ hw, mul_one] at this
  set p := R.fl (R.fl (R.fl (x - m) / w) * w) with hp
  have e1 := R.err (p + m)
  have e2 : |p + m - x| ≤ ((1 + R.u) ^ 3 - 1) * |x - m| := by
    have : p + m - x = p - (x - m) := by ring
    rw [this]
    exact n3
  have e3 : |p + m| ≤ |p + m - x| + |x| := by simpa using abs_add_le (p + m - x) x
  have e4 : |R.fl (p + m) - x| ≤ |R.fl (p + m) - (p + m)| + |p + m - x| := by simpa using abs_add_le (R.fl (p + m) - (p + m)) (p + m - x)
  have e5 := mul_le_mul_of_nonneg_left e3 (u_nonneg R)
  have e6 := mul_le_mul_of_nonneg_left e2 (u_nonneg R)
  nlinarith

/-- C120: labels that are normalized and restored differ from the original ones by the rounding of four operations; the width of the
range does not matter. -/
theorem C120_labels_round_trip (R : Rounding) (lo hi : ℝ) (h : lo < hi) (x : ℝ) :
    ∃ y, normalizeValue R minToZeroLit lo hi x = some y ∧
      |renormalizeValue R minToZeroLit lo hi y - x| ≤ (1 + R.u) * ((1 + R.u) ^ 3 - 1) * |x - lo| + R.u * |x| := by
  have hw : 0 < R.fl (hi - lo) := fl_pos R (by linarith)
  refine ⟨_, by rw [normalizeValue_min, div_some R hw.ne'], ?_⟩
  rw [renormalizeValue_min]
  exact shift_round_trip R hw.ne' x lo

/-- C120 for `absolute_max`. -/
theorem C120_labels_round_trip_abs (R : Rounding) (lo hi : ℝ) (h : hi ≠ 0) (x : ℝ) :
    ∃ y, normalizeValue R absoluteMaxLit lo hi x = some y ∧ |renormalizeValue R absoluteMaxLit lo hi y - x| ≤ ((1 + R.u) ^ 2 - 1) * |x| := by
  have hw : |hi| ≠ 0 := abs_ne_zero.2 h
  refine ⟨_, by rw [normalizeValue_abs, div_some R hw], ?_⟩
  rw [renormalizeValue_abs]
  have n1 : Near R 1 (x * |hi|⁻¹) (R.fl (x / |hi|)) := by
    rw [div_eq_mul_inv]
    exact near_fl (near_rfl _)
  have n2 := near_fl (near_scale |hi| n1)
  rwa [mul_assoc, inv_mul_cancel₀ hw, mul_one] at n2

/-- C120: predictions between 0 and 1 are restored to labels that are not below their range and exceed it by rounding errors at most. -/
theorem C120_restored (R : Rounding) (lo hi : ℝ) (h : lo < hi) (hlo : R.fl lo = lo) (y : ℝ) (h0 : 0 ≤ y) (h1 : y ≤ 1) :
    lo ≤ renormalizeValue R minToZeroLit lo hi y ∧
      renormalizeValue R minToZeroLit lo hi y ≤ hi + (1 + R.u) * R.u * (hi - lo) + R.u * |hi| := by
  rw [renormalizeValue_min]
  have hw : 0 < R.fl (hi - lo) := fl_pos R (by linarith)
  have hp0 : 0 ≤ R.fl (y * R.fl (hi - lo)) := fl_nonneg R (mul_nonneg h0 hw.le)
  have hp1 : R.fl (y * R.fl (hi - lo)) ≤ R.fl (hi - lo) := by
    rw [← R.idem (hi - lo)]
    refine R.mono ?_
    rw [R.idem]
    exact mul_le_of_le_one_left hw.le h1
  constructor
  · calc lo = R.fl lo := hlo.symm
      _ ≤ _ := R.mono (by linarith)
  · have e1 : R.fl (R.fl (y * R.fl (hi - lo)) + lo) ≤ R.fl (R.fl (hi - lo) + lo) := R.mono (by linarith)
    have e2 := R.err (R.fl (hi - lo) + lo)
    have e3 := R.err (hi - lo)
    rw [abs_of_pos (by linarith : 0 < hi - lo)] at e3
    have e4 : |R.fl (hi - lo) + lo| ≤ R.u * (hi - lo) + |hi| := by
      have : R.fl (hi - lo) + lo = (R.fl (hi - lo) - (hi - lo)) + hi := by ring
      rw [this]
      exact (abs_add_le _ _).trans (by linarith)
    have e5 := mul_le_mul_of_nonneg_left e4 (u_nonneg R)
    have e6 := (abs_le.1 e2).2
    have e7 := (abs_le.1 e3).2
    nlinarith

theorem rint_of {x : ℝ} {n : ℤ} (h : |x - n| < 1 / 2) : FitResult.rint x = n := by
  have h1 := rint_dist x
  have : |((FitResult.rint x - n : ℤ) : ℝ)| < 1 := by
    push_cast
    have e : (FitResult.rint x : ℝ) - n = (FitResult.rint x - x) + (x - n) := by ring
    rw [e]
    exact (abs_add_le _ _).trans_lt (by linarith)
  rw [← Int.cast_abs] at this
  have h2 : |FitResult.rint x - n| < 1 := by exact_mod_cast this
  have := Int.abs_lt_one_iff.1 h2
  omega

/-- The excess in `C120_restored` occurs, for every number of digits: a network output of 1 is restored to a label above the upper limit
of the range, although both limits are numbers of the arithmetic. -/
theorem C120_above (p : Nat) (hp : 3 ≤ p) : ∃ lo hi : ℝ, lo < hi ∧ roundBin p lo = lo ∧ roundBin p hi = hi ∧
    hi < renormalizeValue (binary p (by omega)) minToZeroLit lo hi 1 := by
  have h8 : (8 : ℝ) ≤ 2 ^ p := by
    calc (8 : ℝ) = 2 ^ 3 := by norm_num
      _ ≤ 2 ^ p := pow_le_pow_right₀ (by norm_num) hp
  have hz8 : (8 : ℤ) ≤ 2 ^ p := by exact_mod_cast h8
  obtain ⟨k, rfl⟩ : ∃ k, p = k + 1 := ⟨p - 1, by omega⟩
  have e2 : (2 : ℝ) ^ (k + 1) = 2 * 2 ^ k := by rw [pow_succ]; ring
  have ez : (2 : ℝ) ^ ((k : ℤ) + 1) = 2 * 2 ^ k := by
    rw [zpow_add₀ (by norm_num), zpow_natCast, zpow_one]; ring
  refine ⟨-(5 / 2), 2 ^ (k + 1) - 1, by linarith, ?_, ?_, ?_⟩
  · refine roundBin_exact (by omega) (k := -5) (e := -1) ?_ ?_
    · rw [show |(-5 : ℤ)| = 5 from rfl]; omega
    · rw [zpow_neg_one]; norm_num
  · refine roundBin_exact (by omega) (k := 2 ^ (k + 1) - 1) (e := 0) ?_ (by push_cast; ring)
    rw [abs_of_nonneg (by omega)]; omega
  rw [renormalizeValue_min, one_mul, Rounding.idem]
  show _ < roundBin (k + 1) (roundBin (k + 1) (2 ^ (k + 1) - 1 - -(5 / 2)) + -(5 / 2))
  have a1 : roundBin (k + 1) (2 ^ (k + 1) - 1 - -(5 / 2)) = 2 ^ (k + 1) + 2 := by
    have hu : ulp (k + 1) ((2 : ℝ) ^ (k + 1) - 1 - -(5 / 2)) = 2 := by
      rw [ulp_of (e := (k : ℤ) + 1)]
      · rw [show (k : ℤ) + 1 - ((k + 1 : ℕ) : ℤ) + 1 = 1 by push_cast; ring, zpow_one]
      · rw [ez, abs_of_pos (by linarith)]; linarith
      · rw [zpow_add₀ (by norm_num), ez, zpow_one, abs_of_pos (by linarith)]; linarith
    unfold roundBin
    rw [hu, rint_of (n := 2 ^ k + 1)]
    · push_cast; rw [e2]; ring
    · push_cast
      rw [e2, abs_lt]
      constructor <;> linarith
  rw [a1]
  have hu : ulp (k + 1) ((2 : ℝ) ^ (k + 1) + 2 + -(5 / 2)) = 1 := by
    rw [ulp_of (e := (k : ℤ))]
    · rw [show (k : ℤ) - ((k + 1 : ℕ) : ℤ) + 1 = 0 by push_cast; ring, zpow_zero]
    · rw [zpow_natCast, abs_of_pos (by linarith)]; linarith
    · rw [ez, abs_of_pos (by linarith)]; linarith
  unfold roundBin
  rw [hu, div_one, mul_one]
  have hf : ⌊(2 : ℝ) ^ (k + 1) + 2 + -(5 / 2)⌋ = 2 ^ (k + 1) - 1 := by
    rw [Int.floor_eq_iff]
    push_cast
    constructor <;> linarith
  have hr : FitResult.rint ((2 : ℝ) ^ (k + 1) + 2 + -(5 / 2)) = 2 ^ (k + 1) := by
    unfold FitResult.rint
    rw [hf]
    push_cast
    rw [if_neg (by linarith), if_neg (by linarith), if_neg]
    · ring
    · rw [Int.even_sub_one, not_not, pow_succ]
      exact ⟨2 ^ k, by ring⟩
  rw [hr]
  push_cast
  linarith

/-! ### Standardization -/

/-- C120: data that are standardized with stored statistics and reverted differ from the original ones by the rounding of four
operations. -/
theorem C120_standardized (R : Rounding) (m sd : List ℝ) (rows : List (List ℝ)) (hl : sd.length = m.length) (h0 : (0 : ℝ) ∉ sd)
    (hr : ∀ r ∈ rows, r.length = m.length) :
    ∃ y z, standardizeRows R m sd rows = .ok y ∧ revertRows R m sd y = .ok z ∧ z.length = rows.length ∧
      ∀ (i : Nat) (r : List ℝ), rows[i]? = some r → ∃ r', z[i]? = some r' ∧ r'.length = r.length ∧
        ∀ (j : Nat) (x μ : ℝ), r[j]? = some x → m[j]? = some μ →
          ∃ x', r'[j]? = some x' ∧ |x' - x| ≤ (1 + R.u) * ((1 + R.u) ^ 3 - 1) * |x - μ| + R.u * |x| := by
  have step : ∀ (op : ℝ → ℝ → ℝ) (v : List ℝ) (g : List (List ℝ)), v.length = m.length → (∀ r ∈ g, r.length = m.length) →
      bcastRows op g v = .ok (g.map fun (r : List ℝ) => List.zipWith op r v) := by
    intro op v g hv hg
    refine mapM_eq_ok_map fun r hr => ?_
    unfold bcast
    rw [if_pos (by rw [hg r hr, hv])]
  have len : ∀ (op : ℝ → ℝ → ℝ) (v : List ℝ) (g : List (List ℝ)), v.length = m.length → (∀ r ∈ g, r.length = m.length) →
      ∀ r ∈ g.map fun (r : List ℝ) => List.zipWith op r v, r.length = m.length := by
    intro op v g hv hg r hr
    obtain ⟨r, h, rfl⟩ := List.mem_map.1 hr
    rw [List.length_zipWith, hv, hg r h, min_self]
  have l1 := len (fun (a b : ℝ) => R.fl (a - b)) m rows rfl hr
  have l2 := len (fun (a b : ℝ) => R.fl (a / b)) sd _ hl l1
  have l3 := len (fun (a b : ℝ) => R.fl (a * b)) sd _ hl l2
  have s1 := step (fun (a b : ℝ) => R.fl (a - b)) m rows rfl hr
  have s2 := step (fun (a b : ℝ) => R.fl (a / b)) sd _ hl l1
  have s3 := step (fun (a b : ℝ) => R.fl (a * b)) sd _ hl l2
  have s4 := step (fun (a b : ℝ) => R.fl (a + b)) m _ rfl l3
  have t1 : ∀ {x y : List (List ℝ)}, bcastRows (fun (a b : ℝ) => R.fl (a - b)) rows m = .ok x →
      bcastRows (fun (a b : ℝ) => R.fl (a / b)) x sd = .ok y → standardizeRows R m sd rows = .ok y := by
    intro x y h1 h2
    unfold standardizeRows
    rw [h1, bind_ok, h2]
  have t2 : ∀ {w x y : List (List ℝ)}, bcastRows (fun (a b : ℝ) => R.fl (a * b)) w sd = .ok x →
      bcastRows (fun (a b : ℝ) => R.fl (a + b)) x m = .ok y → revertRows R m sd w = .ok y := by
    intro w x y h1 h2
    unfold revertRows
    rw [h1, bind_ok, h2]
  refine ⟨_, _, t1 s1 s2, t2 s3 s4, by simp, ?_⟩
  · intro i r hi
    have hrl : r.length = m.length := hr r (List.mem_of_getElem? hi)
    simp only [List.getElem?_map, hi, Option.map_some]
    refine ⟨_, rfl, ?_, ?_⟩
    · simp [hrl, hl]
    · intro j x μ hx hμ
      have hj : j < sd.length := by
        rw [hl]
        exact (List.getElem?_eq_some_iff.1 hμ).1
      refine ⟨R.fl (R.fl (R.fl (R.fl (x - μ) / sd[j]) * sd[j]) + μ), ?_, ?_⟩
      · simp only [List.getElem?_zipWith, hx, hμ, List.getElem?_eq_getElem hj]
      · exact shift_round_trip R (fun e => h0 (by rw [← e]; exact List.getElem_mem hj)) x μ

/-! ### Normalized curves -/

/-- C120: with any rounding, a curve that is normalized to its maximum has no value above 1, takes exactly 1 where the measured curve
has its maximum, and keeps the order of its values. -/
theorem C120_normalized_max (R : Rounding) (l : List ℝ) (m : ℝ) (hm : m ∈ l) (hmax : ∀ v ∈ l, v ≤ m) (h0 : 0 < m) :
    ∃ f : ℝ → ℝ, normalizeToMaxR R l = .ok (l.map f) ∧ f m = 1 ∧ Monotone f ∧ (∀ v ∈ l, f v ≤ 1) ∧ ∀ v, (0 < f v ↔ 0 < v) := by
  refine ⟨fun v => R.fl (v / m), ?_, ?_, ?_, ?_, ?_⟩
  · unfold normalizeToMaxR
    rw [npMax_eq hm hmax, bind_ok]
    exact finite_map_some l _ _ fun v _ => div_some R h0.ne' v
  · simp only [div_self h0.ne', R.one]
  · intro x y h
    exact R.mono (div_le_div_of_nonneg_right h h0.le)
  · intro v hv
    rw [← R.one]
    refine R.mono ?_
    rw [div_le_one h0]
    exact hmax v hv
  · intro v
    refine ⟨fun h => ?_, fun h => fl_pos R (div_pos h h0)⟩
    by_contra hv
    have : v / m ≤ 0 := div_nonpos_of_nonpos_of_nonneg (not_lt.1 hv) h0.le
    have := R.mono this
    rw [fl_zero] at this
    linarith

/-- C120: a curve that is normalized to its first value starts with exactly 1. -/
theorem C120_normalized_first (R : Rounding) (a : ℝ) (l : List ℝ) (h : a ≠ 0) :
    ∃ f : ℝ → ℝ, normalizeToFirstR R (a :: l) = .ok (1 :: l.map f) ∧ ∀ v, |f v - v / a| ≤ R.u * |v / a| := by
  refine ⟨fun v => R.fl (v / a), ?_, fun v => R.err _⟩
  unfold normalizeToFirstR
  have : getItem (a :: l) 0 = .ok a := rfl
  rw [this, bind_ok, finite_map_some (a :: l) _ (fun v => R.fl (v / a)) fun v _ => div_some R h v, List.map_cons, div_self h, R.one]

/-! ### Sampling -/

/-- C120: folding a draw that is not further outside than a bit less than the width of the range brings it into the range, with any
rounding for which the limits are exact. -/
theorem C120_fold (R : Rounding) (mn mx v : ℝ) (hmn : R.fl mn = mn) (hmx : R.fl mx = mx)
    (h1 : (mn - v) * (2 * (1 + R.u) ^ 2 - 1) ≤ mx - mn) (h2 : (v - mx) * (2 * (1 + R.u) ^ 2 - 1) ≤ mx - mn) :
    mn ≤ foldValueR R mn mx v ∧ foldValueR R mn mx v ≤ mx := by
  have key : ∀ d : ℝ, 0 < d → d ≤ R.fl (2 * R.fl d) ∧ R.fl (2 * R.fl d) ≤ 2 * (1 + R.u) ^ 2 * d := by
    intro d hd
    have n1 : Near R 1 (d * 2) (R.fl d * 2) := near_scale 2 (near_fl (near_rfl d))
    have n2 := near_fl n1
    have s2 := near_size n2
    rw [abs_of_pos (by linarith : 0 < d * 2), mul_comm (R.fl d)] at s2
    have e1 := (abs_le.1 (R.err d)).1
    rw [abs_of_pos hd] at e1
    have hsm := R.small
    refine ⟨?_, (le_abs_self _).trans (s2.trans (by ring_nf; rfl))⟩
    have e2 := (abs_le.1 (R.err (2 * R.fl d))).1
    have hp := fl_pos R hd
    rw [abs_of_pos (by linarith)] at e2
    have hu := u_nonneg R
    have a1 : 3 / 4 * d ≤ R.fl d := by nlinarith
    nlinarith
  unfold foldValueR
  split_ifs with c1 c2
  · obtain ⟨k1, k2⟩ := key (mn - v) (by linarith)
    refine ⟨?_, ?_⟩
    · refine hmn.symm.le.trans (R.mono ?_)
      linarith
    · refine (R.mono ?_).trans hmx.le
      nlinarith
  · obtain ⟨k1, k2⟩ := key (v - mx) (by linarith)
    have e : R.fl (2 * R.fl (mx - v)) = -R.fl (2 * R.fl (v - mx)) := by
      have : mx - v = -(v - mx) := by ring
      rw [this, R.odd, mul_neg, R.odd]
    rw [e]
    refine ⟨?_, ?_⟩
    · refine hmn.symm.le.trans (R.mono ?_)
      nlinarith
    · refine (R.mono ?_).trans hmx.le
      linarith
  · exact ⟨not_lt.1 c1, not_lt.1 c2⟩

theorem v_nonneg (L : Libm) : 0 ≤ L.v := by
  have := L.pw_err 0
  rw [Real.rpow_zero, mul_one] at this
  exact (abs_nonneg _).trans this

/-- The power of a number close to the logarithm of `r` is close to `r`. -/
theorem pw_bounds (L : Libm) {r y : ℝ} (hr : 0 < r) {ε : ℝ} :
    (y ≤ Real.logb 10 r + ε → L.pw y ≤ (1 + L.v) * 10 ^ ε * r) ∧
    (L.v ≤ 1 → Real.logb 10 r - ε ≤ y → (1 - L.v) * 10 ^ (-ε) * r ≤ L.pw y) := by
  have e10 : (10 : ℝ) ^ Real.logb 10 r = r := Real.rpow_logb (by norm_num) (by norm_num) hr
  have he := abs_le.1 (L.pw_err y)
  have hv := v_nonneg L
  refine ⟨fun h => ?_, fun h1 h => ?_⟩
  · have : (10 : ℝ) ^ y ≤ 10 ^ ε * r := by
      calc (10 : ℝ) ^ y ≤ 10 ^ (Real.logb 10 r + ε) := Real.rpow_le_rpow_of_exponent_le (by norm_num) h
        _ = 10 ^ ε * r := by rw [Real.rpow_add (by norm_num), e10, mul_comm]
    nlinarith [he.2]
  · have : 10 ^ (-ε) * r ≤ (10 : ℝ) ^ y := by
      calc 10 ^ (-ε) * r = (10 : ℝ) ^ (Real.logb 10 r - ε) := by rw [sub_eq_add_neg, Real.rpow_add (by norm_num), e10, mul_comm]
        _ ≤ 10 ^ y := Real.rpow_le_rpow_of_exponent_le (by norm_num) h
    nlinarith [he.1]

/-- C120: values drawn on a logarithmic scale leave their range by errors of the logarithm and the power at most. -/
theorem C120_log_draws (L : Libm) (hv : L.v ≤ 1) (mn mx y : ℝ) (hmn : 0 < mn) (hmx : 0 < mx) (h1 : (logLimits L mn mx).1 ≤ y)
    (h2 : y ≤ (logLimits L mn mx).2) :
    (1 - L.v) * 10 ^ (-(L.v * |Real.logb 10 mn|)) * mn ≤ L.pw y ∧ L.pw y ≤ (1 + L.v) * 10 ^ (L.v * |Real.logb 10 mx|) * mx := by
  have a := (abs_le.1 (L.lg_err mn)).1
  have b := (abs_le.1 (L.lg_err mx)).2
  simp only [logLimits] at h1 h2
  exact ⟨(pw_bounds L hmn).2 hv (by linarith), (pw_bounds L hmx).1 (by linarith)⟩

/-- The logarithm and the power of binary numbers with three digits, both rounded correctly. -/
noncomputable def libm3 : Libm where
  lg x := roundBin 3 (Real.logb 10 x)
  pw y := roundBin 3 (10 ^ y)
  v := (1 / 2) ^ 3
  lg_err x := roundBin_err (by norm_num) _
  pw_err y := by
    have h := roundBin_err (p := 3) (by norm_num) ((10 : ℝ) ^ y)
    rwa [abs_of_pos (by positivity : (0 : ℝ) < 10 ^ y)] at h

/-- The excess in `C120_log_draws` occurs, even with correctly rounded functions: with three digits, 5 is an exact upper limit, and the
upper limit of the draws belongs to 6. -/
theorem C120_log_above : roundBin 3 5 = 5 ∧ (logLimits libm3 1 5).1 ≤ (logLimits libm3 1 5).2 ∧ libm3.pw (logLimits libm3 1 5).2 = 6 := by
  have hl : (11 / 16 : ℝ) < Real.logb 10 5 ∧ Real.logb 10 5 < 13 / 16 := by
    constructor
    · rw [Real.lt_logb_iff_rpow_lt (by norm_num) (by norm_num)]
      refine lt_of_pow_lt_pow_left₀ 16 (by norm_num) ?_
      rw [← Real.rpow_natCast, ← Real.rpow_mul (by norm_num)]
      norm_num
    · rw [Real.logb_lt_iff_lt_rpow (by norm_num) (by norm_num)]
      refine lt_of_pow_lt_pow_left₀ 16 (by positivity) ?_
      rw [← Real.rpow_natCast ((10 : ℝ) ^ _), ← Real.rpow_mul (by norm_num)]
      norm_num
  have h5 : roundBin 3 (Real.logb 10 5) = 3 / 4 := by
    have hu : ulp 3 (Real.logb 10 5) = 1 / 8 := by
      rw [ulp_of (e := -1)]
      · norm_num
      · rw [abs_of_pos (by linarith)]; norm_num; linarith
      · rw [abs_of_pos (by linarith)]; norm_num; linarith
    unfold roundBin
    rw [hu, rint_of (n := 6)]
    · norm_num
    · rw [abs_lt]; push_cast; constructor <;> linarith
  have hp : (11 / 2 : ℝ) < 10 ^ (3 / 4 : ℝ) ∧ (10 : ℝ) ^ (3 / 4 : ℝ) < 13 / 2 := by
    constructor
    · refine lt_of_pow_lt_pow_left₀ 4 (by positivity) ?_
      rw [← Real.rpow_natCast ((10 : ℝ) ^ _), ← Real.rpow_mul (by norm_num)]
      norm_num
    · refine lt_of_pow_lt_pow_left₀ 4 (by norm_num) ?_
      rw [← Real.rpow_natCast ((10 : ℝ) ^ _), ← Real.rpow_mul (by norm_num)]
      norm_num
  have h6 : roundBin 3 ((10 : ℝ) ^ (3 / 4 : ℝ)) = 6 := by
    have hu : ulp 3 ((10 : ℝ) ^ (3 / 4 : ℝ)) = 1 := by
      rw [ulp_of (e := 2)]
      · norm_num
      · rw [abs_of_pos (by linarith)]; norm_num; linarith
      · rw [abs_of_pos (by linarith)]; norm_num; linarith
    unfold roundBin
    rw [hu, rint_of (n := 6)]
    · norm_num
    · rw [abs_lt]; push_cast; constructor <;> linarith
  refine ⟨roundBin_exact (by norm_num) (k := 5) (e := 0) (by norm_num) (by norm_num), ?_, ?_⟩
  · show roundBin 3 (Real.logb 10 1) ≤ roundBin 3 (Real.logb 10 5)
    rw [h5, Real.logb_one, roundBin_zero]
    norm_num
  · show roundBin 3 ((10 : ℝ) ^ (roundBin 3 (Real.logb 10 5))) = 6
    rw [h5, h6]

/-! ### Interpolation -/

theorem npInterp1R_node (R : Rounding) {q f : List ℝ} (hq : q.Pairwise (· < ·)) {i : Nat} (h : i < q.length) : npInterp1R R q f q[i] = f.getD i 0 := by
  obtain ⟨h1, h2⟩ := takeWhile_le hq q[i]
  unfold npInterp1R
  generalize (q.takeWhile fun (p : ℝ) => decide (p ≤ q[i])).length = j at h1 h2
  have a := (h2 i h).2 le_rfl
  have b : j = i + 1 := by
    by_contra hne
    have hlt : i + 1 < j := by omega
    have := (h2 (i + 1) (by omega)).1 hlt
    exact absurd this (not_le.2 (List.pairwise_iff_getElem.1 hq _ _ _ _ (by omega)))
  subst b
  simp only [Nat.add_sub_cancel]
  rw [if_neg (by omega), getD_lt h, if_pos (rfl : q[i] = q[i]), ite_self]

/-- C120: with any rounding, a curve that is interpolated at its own q values is the original one up to the errors of the logarithm
and the power; the interpolation itself adds none. -/
theorem C120_interpolated (R : Rounding) (L : Libm) (q r : List ℝ) (hq : q.Pairwise (· < ·)) (hl : r.length = q.length) (hne : q ≠ [])
    (hpos : ∀ v ∈ r, 0 < v) :
    ∃ z, interpReflectivityR R L q q r = .ok z ∧ z.length = r.length ∧
      ∀ (i : Nat) (x x' : ℝ), r[i]? = some x → z[i]? = some x' → |x' - x| ≤ ((1 + L.v) * 10 ^ (L.v * |Real.logb 10 x|) - 1) * x := by
  refine ⟨q.map fun (x : ℝ) => L.pw (npInterp1R R q (r.map L.lg) x), ?_, by rw [List.length_map, hl], ?_⟩
  · unfold interpReflectivityR
    rw [finite_map_some r _ L.lg fun v hv => if_pos (hpos v hv), bind_ok, if_neg (by simp [hl, hne])]
    rfl
  · intro i x x' hx hx'
    obtain ⟨hi, rfl⟩ := List.getElem?_eq_some_iff.1 hx
    have hiq : i < q.length := by omega
    rw [List.getElem?_map, List.getElem?_eq_getElem hiq, Option.map_some, npInterp1R_node R hq hiq,
      getD_lt (by rw [List.length_map]; exact hi), List.getElem_map, Option.some.injEq] at hx'
    subst hx'
    have h0 := hpos _ (List.getElem_mem hi)
    have hlg := abs_le.1 (L.lg_err r[i])
    have hv := v_nonneg L
    set ε := L.v * |Real.logb 10 r[i]| with hε
    have hε0 : 0 ≤ ε := by positivity
    have h1 := (pw_bounds L h0 (y := L.lg r[i]) (ε := ε)).1 (by linarith)
    set t := (10 : ℝ) ^ ε with ht
    have ht1 : 1 ≤ t := Real.one_le_rpow (by norm_num) hε0
    have e10 : (10 : ℝ) ^ Real.logb 10 r[i] = r[i] := Real.rpow_logb (by norm_num) (by norm_num) h0
    have h2 : r[i] ≤ t * 10 ^ L.lg r[i] := by
      rw [ht, ← Real.rpow_add (by norm_num)]
      conv_lhs => rw [← e10]
      exact Real.rpow_le_rpow_of_exponent_le (by norm_num) (by linarith)
    have h3 : (10 : ℝ) ^ L.lg r[i] ≤ t * r[i] := by
      conv_rhs => rw [← e10]
      rw [ht, ← Real.rpow_add (by norm_num)]
      exact Real.rpow_le_rpow_of_exponent_le (by norm_num) (by linarith)
    have h4 := abs_le.1 (L.pw_err (L.lg r[i]))
    set P := (10 : ℝ) ^ L.lg r[i] with hP
    have hP0 : 0 < P := by positivity
    rw [abs_le]
    refine ⟨?_, by linarith⟩
    -- `P ≥ x / t ≥ (2 - t) x`
    have h5 : (2 - t) * r[i] ≤ P := by
      have : t * ((2 - t) * r[i]) ≤ t * P := by
        refine le_trans ?_ h2
        nlinarith [sq_nonneg (t - 1)]
      exact le_of_mul_le_mul_left this (by linarith)
    nlinarith [mul_le_mul_of_nonneg_left h3 hv]

/-! ### Errors of curves -/

theorem squares_near (R : Rounding) : ∀ {a b : List ℝ}, a.length = b.length →
    List.Forall₂ (Near R 3) (List.zipWith (fun (x y : ℝ) => (x - y) ^ 2) a b) (List.zipWith (fun (x y : ℝ) => R.fl (R.fl (x - y) ^ 2)) a b)
  | [], [], _ => .nil
  | x :: a, y :: b, h => by
    refine .cons ?_ (squares_near R (by simpa using h))
    have n1 : Near R 1 (x - y) (R.fl (x - y)) := near_fl (near_rfl _)
    have := near_fl (near_mul n1 n1)
    rwa [← sq, ← sq] at this

/-- C120: the mean squared error of two curves with `n` points has a relative error of `n + 3` roundings at most, in whatever order
the squares are added. It is never negative, and zero only for equal curves. -/
theorem C120_mse (R : Rounding) (a b : List ℝ) (m : ℝ) (hl : a.length = b.length) (h : MeanSquaredR R a b m) :
    |m - (List.zipWith (fun (x y : ℝ) => (x - y) ^ 2) a b).sum / a.length| ≤
      ((1 + R.u) ^ (a.length + 3) - 1) * ((List.zipWith (fun (x y : ℝ) => (x - y) ^ 2) a b).sum / a.length) ∧
    0 ≤ m ∧ (m = 0 ↔ a = b) := by
  obtain ⟨s, hs, rfl⟩ := h
  have hne := List.length_pos_iff.2 (sumsTo_ne hs)
  have hlen : (List.zipWith (fun (x y : ℝ) => R.fl (R.fl (x - y) ^ 2)) a b).length = a.length := by
    rw [List.length_zipWith, ← hl, min_self]
  rw [hlen] at hne
  have hn : (0 : ℝ) < a.length := by exact_mod_cast hne
  have h0 : ∀ x ∈ List.zipWith (fun (x y : ℝ) => (x - y) ^ 2) a b, 0 ≤ x := by
    intro x hx
    obtain ⟨i, hi, rfl⟩ := List.getElem_of_mem hx
    rw [List.getElem_zipWith]
    exact sq_nonneg _
  have h1 : ∀ x ∈ List.zipWith (fun (x y : ℝ) => R.fl (R.fl (x - y) ^ 2)) a b, 0 ≤ x := by
    intro x hx
    obtain ⟨i, hi, rfl⟩ := List.getElem_of_mem hx
    rw [List.getElem_zipWith]
    exact fl_nonneg R (sq_nonneg _)
  refine ⟨?_, fl_nonneg R (div_nonneg (sumsTo_zero hs h1).1 hn.le), ?_⟩
  · have n1 := sumsTo_near hs (squares_near R hl) h0
    have n2 := near_fl (near_scale (a.length : ℝ)⁻¹ n1)
    rw [← div_eq_mul_inv, ← div_eq_mul_inv] at n2
    have n3 := near_mono (k := a.length + 3) (by rw [hlen]; omega) n2
    unfold Near at n3
    rwa [abs_of_nonneg (div_nonneg (List.sum_nonneg h0) hn.le)] at n3
  · rw [fl_eq_zero, div_eq_zero_iff, or_iff_left hn.ne', (sumsTo_zero hs h1).2]
    constructor
    · intro hz
      refine List.ext_getElem hl fun i hi hi' => ?_
      have := hz _ (List.getElem_mem (n := i) (by rw [hlen]; exact hi))
      rw [List.getElem_zipWith, fl_eq_zero, sq_eq_zero_iff, fl_eq_zero] at this
      linarith
    · rintro rfl x hx
      obtain ⟨i, hi, rfl⟩ := List.getElem_of_mem hx
      rw [List.getElem_zipWith, sub_self, fl_zero, sq, mul_zero, fl_zero]

/-- C120: the variant with the smallest computed error is the best one up to rounding: its exact error exceeds that of every other
variant by the relative rounding error at most. -/
theorem C120_selected (R : Rounding) (a b c : List ℝ) (m m' : ℝ) (hb : a.length = b.length) (hc : a.length = c.length)
    (hm : MeanSquaredR R a b m) (hm' : MeanSquaredR R a c m') (h : m ≤ m') :
    (2 - (1 + R.u) ^ (a.length + 3)) * ((List.zipWith (fun (x y : ℝ) => (x - y) ^ 2) a b).sum / a.length) ≤
      (1 + R.u) ^ (a.length + 3) * ((List.zipWith (fun (x y : ℝ) => (x - y) ^ 2) a c).sum / a.length) := by
  have h1 := (abs_le.1 (C120_mse R a b m hb hm).1).1
  have h2 := (abs_le.1 (C120_mse R a c m' hc hm').1).2
  nlinarith

/-! ### The hypotheses hold for double precision -/

/-- `float64`. -/
noncomputable def float64 : Rounding := binary 53 (by norm_num)

example : float64.u = (1 / 2) ^ 53 := rfl

/-- A third is not a binary number: the rounding is not trivial. -/
example : float64.fl (1 / 3) ≠ 1 / 3 := by
  intro h
  have h' : (FitResult.rint (1 / 3 / ulp 53 (1 / 3)) : ℝ) * ulp 53 (1 / 3) = 1 / 3 := h
  have hu : ulp 53 (1 / 3) = 1 / 2 ^ 54 := by
    rw [ulp_of (e := -2)]
    · norm_num
    · rw [abs_of_pos (by norm_num)]; norm_num
    · rw [abs_of_pos (by norm_num)]; norm_num
  rw [hu] at h'
  have h2 : ((3 * FitResult.rint (1 / 3 / (1 / 2 ^ 54) : ℝ) : ℤ) : ℝ) = ((2 ^ 54 : ℤ) : ℝ) := by
    push_cast
    linarith
  have h3 := Int.cast_injective h2
  omega

/-- Curves of any length have a computed error. -/
example (a b : List ℝ) (hl : a.length = b.length) (hne : a ≠ []) : ∃ m, MeanSquaredR float64 a b m := by
  obtain ⟨s, hs⟩ := sumsTo_exists float64 (l := List.zipWith (fun (x y : ℝ) => float64.fl (float64.fl (x - y) ^ 2)) a b) (by
    intro h
    have := congrArg List.length h
    rw [List.length_zipWith, ← hl, min_self, List.length_nil] at this
    exact hne (List.length_eq_zero_iff.1 this))
  exact ⟨_, s, hs, rfl⟩

/-- Labels of a thickness between 20 and 1000 Å. -/
example : ∃ y, normalizeValue float64 minToZeroLit 20 1000 123.4 = some y ∧ |renormalizeValue float64 minToZeroLit 20 1000 y - 123.4| ≤ 1 / 10 ^ 12 := by
  obtain ⟨y, h1, h2⟩ := C120_labels_round_trip float64 20 1000 (by norm_num) 123.4
  refine ⟨y, h1, h2.trans ?_⟩
  show (1 + (1 / 2) ^ 53) * ((1 + (1 / 2) ^ 53) ^ 3 - 1) * |(123.4 : ℝ) - 20| + (1 / 2) ^ 53 * |(123.4 : ℝ)| ≤ _
  rw [abs_of_pos (by norm_num), abs_of_pos (by norm_num)]
  norm_num

end Verif.Props
