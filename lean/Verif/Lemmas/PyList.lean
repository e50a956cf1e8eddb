import Verif.Py.Basic

/-! # Facts about the Python list primitives -/

namespace Verif.Py
variable {α : Type}

theorem normIdx_nat {n k : Nat} (h : k < n) : normIdx n (k : Int) = some k := by
  simp [normIdx, h]

theorem normIdx_neg {n k : Nat} (h0 : 0 < k) (h : k ≤ n) : normIdx n (-(k : Int)) = some (n - k) := by
  unfold normIdx
  have h1 : ¬ (0 : Int) ≤ -(k : Int) := by omega
  have h2 : (0 : Int) ≤ -(k : Int) + n := by omega
  rw [if_neg h1, if_pos h2]
  congr 1
  omega

theorem normIdx_lt {n : Nat} {i : Int} {k : Nat} (h : normIdx n i = some k) : k < n := by
  unfold normIdx at h
  split at h
  · split at h
    · simp only [Option.some.injEq] at h; omega
    · simp at h
  · split at h
    · simp only [Option.some.injEq] at h; omega
    · simp at h

/-- An index is valid iff `-n ≤ i < n`. -/
theorem normIdx_isSome {n : Nat} {i : Int} : (normIdx n i).isSome ↔ -(n : Int) ≤ i ∧ i < n := by
  unfold normIdx
  split
  · split
    · simp; omega
    · simp; omega
  · split
    · simp; omega
    · simp; omega

theorem normIdx_eq_some_iff {n : Nat} {i : Int} {k : Nat} :
    normIdx n i = some k ↔ k < n ∧ (i = k ∨ i + n = k) := by
  unfold normIdx
  split
  · split
    · simp only [Option.some.injEq]; omega
    · simp only [reduceCtorEq, false_iff]; omega
  · split
    · simp only [Option.some.injEq]; omega
    · simp only [reduceCtorEq, false_iff]; omega

theorem getItem_eq_ok_iff {l : List α} {i : Int} {a : α} :
    getItem l i = .ok a ↔ ∃ k, normIdx l.length i = some k ∧ l[k]? = some a := by
  unfold getItem
  cases h : normIdx l.length i with
  | none => simp
  | some k =>
    have hk := normIdx_lt h
    simp [List.getElem?_eq_getElem hk]

theorem getItem_error_iff {l : List α} {i : Int} :
    getItem l i = .error .indexError ↔ ¬ (-(l.length : Int) ≤ i ∧ i < l.length) := by
  rw [← normIdx_isSome]
  unfold getItem
  cases h : normIdx l.length i with
  | none => simp
  | some k =>
    have hk := normIdx_lt h
    simp [List.getElem?_eq_getElem hk]

theorem getItem_error {l : List α} {i : Int} {e : PyErr} (h : getItem l i = .error e) :
    e = .indexError := by
  unfold getItem at h
  split at h
  · split at h <;> simp_all
  · simp_all

theorem insertPos_le' (n : Nat) (i : Int) : insertPos n i ≤ n := by
  unfold insertPos; split <;> omega

theorem insert_length (l : List α) (i : Int) (a : α) : (insertAt l i a).length = l.length + 1 := by
  have := insertPos_le' l.length i
  simp [insertAt]; omega

theorem insert_perm (l : List α) (i : Int) (a : α) : (insertAt l i a).Perm (a :: l) := by
  unfold insertAt
  refine List.perm_middle.trans ?_
  rw [List.take_append_drop]

theorem insert_getElem?_lt (l : List α) (i : Int) (a : α) {k : Nat}
    (h : k < insertPos l.length i) : (insertAt l i a)[k]? = l[k]? := by
  have := insertPos_le' l.length i
  unfold insertAt
  rw [List.getElem?_append_left (by simp; omega), List.getElem?_take, if_pos h]

theorem insert_getElem?_eq (l : List α) (i : Int) (a : α) :
    (insertAt l i a)[insertPos l.length i]? = some a := by
  have := insertPos_le' l.length i
  unfold insertAt
  rw [List.getElem?_append_right (by simp [Nat.min_eq_left this])]
  simp [List.length_take, Nat.min_eq_left this]

theorem insert_getElem?_gt (l : List α) (i : Int) (a : α) {k : Nat}
    (h : insertPos l.length i ≤ k) : (insertAt l i a)[k + 1]? = l[k]? := by
  have := insertPos_le' l.length i
  unfold insertAt
  rw [List.getElem?_append_right (by simp; omega)]
  simp only [List.length_take, Nat.min_eq_left this]
  have : k + 1 - insertPos l.length i = (k - insertPos l.length i) + 1 := by omega
  rw [this, List.getElem?_cons_succ, List.getElem?_drop]
  congr 1; omega

theorem insert_eraseIdx (l : List α) (i : Int) (a : α) :
    (insertAt l i a).eraseIdx (insertPos l.length i) = l := by
  have := insertPos_le' l.length i
  unfold insertAt
  rw [List.eraseIdx_append_of_length_le (by simp [Nat.min_eq_left this])]
  simp [Nat.min_eq_left this]

theorem getItem_nat {l : List α} {k : Nat} (h : k < l.length) : getItem l (k : Int) = .ok l[k] := by
  rw [getItem_eq_ok_iff]
  exact ⟨k, normIdx_nat h, List.getElem?_eq_getElem h⟩

theorem getItem_mem {l : List α} {i : Int} {a : α} (h : getItem l i = .ok a) : a ∈ l := by
  obtain ⟨k, _, h⟩ := getItem_eq_ok_iff.1 h
  exact List.mem_of_getElem? h

end Verif.Py
