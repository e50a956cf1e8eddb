import Verif.Model.Noise
import Verif.Lemmas.Rand
import Mathlib.Data.List.Range
import Mathlib.Data.List.Count

/-!
# C26, C27, C31: batches and the training/validation split
-/

namespace Verif.Props
open Verif.Py Verif.Model
variable {G : Type} {rng : NoiseRng G}

/-! ### The index array -/

/-- The data are those of the construction and the index array is a permutation. -/
structure GenInv (refl labels : List (List ℝ)) (width batch : Nat) (s : Gen) : Prop where
  reflEq : s.refl = refl
  labelsEq : s.labels = labels
  widthEq : s.width = width
  batchEq : s.batch = batch
  perm : s.indexes.Perm (List.range refl.length)

theorem doShuffle_inv (ok : rng.Ok) {refl labels : List (List ℝ)} {width batch : Nat} {s s' : Gen} {g g' : G}
    (hi : GenInv refl labels width batch s) (h : s.doShuffle rng g = .ok (s', g')) :
    GenInv refl labels width batch s' := by
  unfold Gen.doShuffle at h
  split_ifs at h
  · cases h
    exact ⟨hi.reflEq, hi.labelsEq, hi.widthEq, hi.batchEq, (ok.shuffleIdx_perm _ _).trans hi.perm⟩
  · cases h; exact hi

/-- A generator that was constructed and went through any number of epochs. -/
def Reached (rng : NoiseRng G) (refl labels : List (List ℝ)) (width batch : Nat) (shuffle : Bool) (s : Gen) : Prop :=
  ∃ g0 s0 g1, Gen.init rng refl width labels batch shuffle g0 = .ok (s0, g1) ∧ Gen.Epochs rng s0 s

theorem epochs_inv (ok : rng.Ok) {refl labels : List (List ℝ)} {width batch : Nat} {s s' : Gen}
    (hi : GenInv refl labels width batch s) (h : Gen.Epochs rng s s') : GenInv refl labels width batch s' := by
  induction h with
  | none => exact hi
  | next _ _ _ _ _ h _ ih => exact ih (doShuffle_inv ok hi h)

theorem reached_inv (ok : rng.Ok) {refl labels : List (List ℝ)} {width batch : Nat} {shuffle : Bool} {s : Gen}
    (h : Reached rng refl labels width batch shuffle s) :
    GenInv refl labels width batch s ∧ batch ≤ refl.length := by
  obtain ⟨g0, s0, g1, h1, h2⟩ := h
  unfold Gen.init at h1
  split_ifs at h1 with hb
  · exact (Rand.fail_ok.1 h1).elim
  · exact ⟨epochs_inv ok (doShuffle_inv ok ⟨rfl, rfl, rfl, rfl, List.Perm.refl _⟩ h1) h2, by omega⟩

theorem batchIndexes_eq (s : Gen) (i : Nat) :
    s.batchIndexes i = (s.indexes.take ((i + 1) * s.batch)).drop (i * s.batch) := by
  unfold Gen.batchIndexes slice sliceBound
  simp only [Int.natCast_nonneg, if_true, Int.toNat_natCast]
  have e1 : (s.indexes.take (min ((i + 1) * s.batch) s.indexes.length)) = s.indexes.take ((i + 1) * s.batch) := by
    rw [← List.take_take, List.take_length]
  rw [e1]
  by_cases h : i * s.batch ≤ s.indexes.length
  · rw [min_eq_left h]
  · rw [min_eq_right (by omega), List.drop_eq_nil_of_le, List.drop_eq_nil_of_le]
    · rw [List.length_take]; omega
    · rw [List.length_take]; exact min_le_right _ _

theorem flatMap_batches (l : List Nat) (b k : Nat) :
    (List.range k).flatMap (fun i => (l.take ((i + 1) * b)).drop (i * b)) = l.take (k * b) := by
  induction k with
  | zero => simp
  | succ k ih =>
    rw [List.range_succ, List.flatMap_append, ih]
    simp only [List.flatMap_cons, List.flatMap_nil, List.append_nil]
    have : l.take (k * b) = (l.take ((k + 1) * b)).take (k * b) := by
      rw [List.take_take, min_eq_left]
      exact Nat.mul_le_mul_right _ (by omega)
    rw [this, List.take_append_drop]

/-- C26: after the construction and any number of epochs with any shuffles, every one of the
`len(generator)` batches has exactly `batch_size` sample numbers, all of them belong to the data, none
occurs twice in the epoch, and exactly `n mod batch_size` samples are left out. -/
theorem C26_epoch (ok : rng.Ok) (refl labels : List (List ℝ)) (width batch : Nat) (shuffle : Bool) (s : Gen)
    (h : Reached rng refl labels width batch shuffle s) (hb : 1 ≤ batch) :
    s.len = refl.length / batch ∧
    (∀ i < s.len, (s.batchIndexes i).length = batch) ∧
    ((List.range s.len).flatMap s.batchIndexes).Nodup ∧
    (∀ j ∈ (List.range s.len).flatMap s.batchIndexes, j < refl.length) ∧
    ((List.range refl.length).filter
      (fun j => decide (j ∉ (List.range s.len).flatMap s.batchIndexes))).length = refl.length % batch := by
  obtain ⟨hi, hle⟩ := reached_inv ok h
  have hlen : s.len = refl.length / batch := by unfold Gen.len; rw [hi.reflEq, hi.batchEq]
  have hil : s.indexes.length = refl.length := by rw [hi.perm.length_eq, List.length_range]
  have hseen : (List.range s.len).flatMap s.batchIndexes = s.indexes.take (s.len * batch) := by
    rw [← flatMap_batches s.indexes batch s.len]
    congr 1
    funext i
    rw [batchIndexes_eq, hi.batchEq]
  have hmul : s.len * batch ≤ refl.length := by rw [hlen]; exact Nat.div_mul_le_self _ _
  have hnd : s.indexes.Nodup := hi.perm.nodup_iff.2 List.nodup_range
  refine ⟨hlen, ?_, ?_, ?_, ?_⟩
  · intro i hi'
    rw [batchIndexes_eq, hi.batchEq, List.length_drop, List.length_take, hil]
    have : (i + 1) * batch ≤ s.len * batch := Nat.mul_le_mul_right _ hi'
    rw [min_eq_left (by omega), Nat.add_mul, one_mul]
    omega
  · rw [hseen]; exact hnd.sublist (List.take_sublist _ _)
  · intro j hj
    rw [hseen] at hj
    exact List.mem_range.1 (hi.perm.mem_iff.1 (List.mem_of_mem_take hj))
  · rw [hseen]
    have hp : ((List.range refl.length).filter fun j => decide (j ∉ s.indexes.take (s.len * batch))).Perm
        (s.indexes.filter fun j => decide (j ∉ s.indexes.take (s.len * batch))) := (hi.perm.filter _).symm
    rw [hp.length_eq]
    have : s.indexes.filter (fun j => decide (j ∉ s.indexes.take (s.len * batch))) =
        s.indexes.drop (s.len * batch) := by
      generalize hk : s.len * batch = k
      have hnd' : (s.indexes.take k ++ s.indexes.drop k).Nodup := by rw [List.take_append_drop]; exact hnd
      conv_lhs => rw [← List.take_append_drop k s.indexes]
      rw [List.filter_append]
      have e1 : (s.indexes.take k).filter
          (fun j => decide (j ∉ (s.indexes.take k ++ s.indexes.drop k).take k)) = [] := by
        rw [List.filter_eq_nil_iff]
        intro a ha
        rw [List.take_append_drop]
        simpa using ha
      have e2 : (s.indexes.drop k).filter
          (fun j => decide (j ∉ (s.indexes.take k ++ s.indexes.drop k).take k)) = s.indexes.drop k := by
        rw [List.filter_eq_self]
        intro a ha
        rw [List.take_append_drop]
        simp only [decide_eq_true_eq]
        intro hm
        exact (List.disjoint_of_nodup_append hnd') hm ha
      rw [e1, e2, List.nil_append]
    rw [this, List.length_drop, hil, hlen]
    have := Nat.div_add_mod refl.length batch
    rw [mul_comm] at this
    omega

/-- The constructor accepts every batch size up to the number of curves and rejects larger ones. -/
theorem C26_init (refl labels : List (List ℝ)) (width batch : Nat) (shuffle : Bool) (g : G) :
    (batch ≤ refl.length ↔ ∃ s g', Gen.init rng refl width labels batch shuffle g = .ok (s, g')) ∧
    (refl.length < batch → Gen.init rng refl width labels batch shuffle g = .error .valueError) := by
  unfold Gen.init
  refine ⟨⟨fun h => ?_, fun ⟨s, g', h⟩ => ?_⟩, fun h => by rw [if_pos h]; rfl⟩
  · rw [if_neg (by omega)]
    unfold Gen.doShuffle
    simp only
    by_cases hs : shuffle = true
    · rw [if_pos hs]; exact ⟨_, _, rfl⟩
    · rw [if_neg hs]; exact ⟨_, _, rfl⟩
  · by_contra hc
    rw [if_pos (by omega)] at h
    exact Rand.fail_ok.1 h

/-! ### Pairing of inputs and labels -/

theorem takeRows_ok {rows : List (List ℝ)} {idx : List Nat} (h : ∀ j ∈ idx, j < rows.length) :
    ∃ r, takeRows rows idx = .ok r ∧ List.Forall₂ (fun j x => rows[j]? = some x) idx r := by
  induction idx with
  | nil => exact ⟨[], rfl, List.Forall₂.nil⟩
  | cons j idx ih =>
    obtain ⟨r, hr, hf⟩ := ih fun j hj => h j (by simp [hj])
    have hj := h j (by simp)
    refine ⟨rows[j] :: r, ?_, List.Forall₂.cons (by simp [hj]) hf⟩
    unfold takeRows at hr ⊢
    rw [mapM_cons, hr]
    have : Py.getItem rows (j : Int) = .ok rows[j] := by
      simp [Py.getItem, normIdx, hj]
    rw [this]
    rfl

theorem batchIndexes_lt (ok : rng.Ok) {refl labels : List (List ℝ)} {width batch : Nat} {shuffle : Bool} {s : Gen}
    (h : Reached rng refl labels width batch shuffle s) (i : Nat) :
    (∀ j ∈ s.batchIndexes i, j < refl.length) ∧ (s.batchIndexes i).Nodup := by
  obtain ⟨hi, -⟩ := reached_inv ok h
  rw [batchIndexes_eq]
  constructor
  · intro j hj
    exact List.mem_range.1 (hi.perm.mem_iff.1 (List.mem_of_mem_take (List.mem_of_mem_drop hj)))
  · exact (hi.perm.nodup_iff.2 List.nodup_range).sublist ((List.drop_sublist _ _).trans (List.take_sublist _ _))

/-- C27 for the plain generator: in every batch, the input rows and the label rows stem from the same
distinct training samples, in the same order. -/
theorem C27_plain (ok : rng.Ok) (refl labels : List (List ℝ)) (hl : labels.length = refl.length)
    (width batch : Nat) (shuffle : Bool) (s : Gen) (h : Reached rng refl labels width batch shuffle s) (i : Nat) :
    ∃ x y, s.getItem [] i = .ok (x, y) ∧ ∃ samples : List Nat, samples.Nodup ∧
      List.Forall₂ (fun j r => refl[j]? = some r) samples x ∧
      List.Forall₂ (fun j r => labels[j]? = some r) samples y := by
  obtain ⟨hi, -⟩ := reached_inv ok h
  obtain ⟨hlt, hnd⟩ := batchIndexes_lt ok h i
  obtain ⟨x, hx, fx⟩ := takeRows_ok (rows := refl) hlt
  obtain ⟨y, hy, fy⟩ := takeRows_ok (rows := labels) (fun j hj => by rw [hl]; exact hlt j hj)
  refine ⟨x, y, ?_, _, hnd, fx, fy⟩
  unfold Gen.getItem
  rw [hi.reflEq, hi.labelsEq, hx, hy]
  rfl

/-! ### Training and validation data -/

theorem nTrain_bounds {v : ℝ} (h0 : 0 ≤ v) (h1 : v ≤ 1) (n : Nat) :
    0 ≤ nTrain v n ∧ nTrain v n ≤ n := by
  have hx : 0 ≤ (1 - v) * (n : ℝ) := mul_nonneg (by linarith) (Nat.cast_nonneg _)
  unfold nTrain
  simp only [if_pos hx]
  refine ⟨Int.floor_nonneg.2 hx, ?_⟩
  have : (⌊(1 - v) * (n : ℝ)⌋ : ℝ) ≤ (n : ℝ) := by
    refine (Int.floor_le _).trans ?_
    nlinarith [Nat.cast_nonneg (α := ℝ) n]
  exact_mod_cast this

theorem trainSplit_eq {α : Type} {v : ℝ} (h0 : 0 ≤ v) (h1 : v ≤ 1) (l : List α) :
    trainSplit v l.length l = (l.take (nTrain v l.length).toNat, l.drop (nTrain v l.length).toNat) := by
  obtain ⟨hb0, hb1⟩ := nTrain_bounds h0 h1 l.length
  unfold trainSplit slice sliceBound
  simp only [if_pos hb0, List.take_length, List.drop_zero]
  have : (nTrain v l.length).toNat ≤ l.length := by omega
  rw [min_eq_left this]

/-- C31: for every split fraction in `[0, 1]`, curves and labels are cut at the same place into the
first part (training) and the rest (validation); the parts together are the data in the original order,
every sample is in exactly one part, and the pairs of curve and label stay together. -/
theorem C31_split {α β : Type} (v : ℝ) (h0 : 0 ≤ v) (h1 : v ≤ 1) (curves : List α) (labels : List β)
    (hl : curves.length = labels.length) :
    let c := trainSplit v labels.length curves
    let p := trainSplit v labels.length labels
    c.1 ++ c.2 = curves ∧ p.1 ++ p.2 = labels ∧ c.1.length = p.1.length ∧ c.2.length = p.2.length ∧
    c.1.zip p.1 ++ c.2.zip p.2 = curves.zip labels ∧
    (c.1.length : ℝ) ≤ (1 - v) * labels.length ∧ (1 - v) * labels.length < c.1.length + 1 := by
  have ec := trainSplit_eq h0 h1 curves
  have ep := trainSplit_eq h0 h1 labels
  obtain ⟨hb0, hb1⟩ := nTrain_bounds h0 h1 labels.length
  rw [hl] at ec
  simp only [ec, ep]
  have hk : (nTrain v labels.length).toNat ≤ labels.length := by omega
  have hx : 0 ≤ (1 - v) * (labels.length : ℝ) := mul_nonneg (by linarith) (Nat.cast_nonneg _)
  have hcast : ((nTrain v labels.length).toNat : ℝ) = (nTrain v labels.length : ℝ) := by
    have : ((nTrain v labels.length).toNat : Int) = nTrain v labels.length := Int.toNat_of_nonneg hb0
    exact_mod_cast congrArg (Int.cast : Int → ℝ) this
  have hlen : (curves.take (nTrain v labels.length).toNat).length = (nTrain v labels.length).toNat := by
    rw [List.length_take, hl]; omega
  refine ⟨List.take_append_drop _ _, List.take_append_drop _ _, by simp [hl], by simp [hl], ?_, ?_, ?_⟩
  · rw [← List.zip_append (by simp [hl]), List.take_append_drop, List.take_append_drop]
  · rw [hlen, hcast]
    unfold nTrain
    simp only [if_pos hx]
    exact Int.floor_le _
  · rw [hlen, hcast]
    unfold nTrain
    simp only [if_pos hx]
    exact Int.lt_floor_add_one _

/-- A concrete split: 10 samples, a fifth for validation. -/
example : trainSplit (1 / 5 : ℝ) 10 (List.range 10) = ([0, 1, 2, 3, 4, 5, 6, 7], [8, 9]) := by
  have : nTrain (1 / 5 : ℝ) 10 = 8 := by
    unfold nTrain
    norm_num
  unfold trainSplit
  rw [this]
  rfl

end Verif.Props
