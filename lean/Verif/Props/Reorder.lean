import Verif.Model.Multilayer
import Verif.Lemmas.PyList

/-!
# C01 – C04: re-ordering the layers of a sample
-/

set_option linter.unusedSectionVars false

namespace Verif.Props
open Verif.Py Verif.Model
variable {α : Type}

/-- Specification: `l'` is `l` with the element at position `i` taken out and put back at
position `j`. -/
def IsMove (l l' : List α) (i j : Nat) : Prop :=
  l'[j]? = l[i]? ∧ l'.eraseIdx j = l.eraseIdx i

/-- Specification: position meant by `list.insert(k)`: negative positions count from the end,
everything is clamped to `0..n`. -/
def clampPos (n : Nat) (k : Int) : Int := max 0 (min n (if k < 0 then n + k else k))

/-! ## C04 -/

theorem insertPos_spec (n : Nat) (k : Int) : (insertPos n k : Int) = clampPos n k := by
  unfold insertPos clampPos; split <;> split <;> omega

/-- C04: `add_layer` appends for `'next'`, inserts with Python's clamped `insert` semantics for an
integer position, keeps the relative order of the other layers, and rejects non-layers (`none`) and
other kinds of positions without touching the sample. -/
theorem C04_add_layer (l : List α) (a : α) (k : Int) :
    addLayerChecked l (some a) .next = (.ok (), l ++ [a]) ∧
    (∃ l' p, addLayerChecked l (some a) (.int k) = (.ok (), l') ∧
      ((p : Nat) : Int) = clampPos l.length k ∧
      l'[p]? = some a ∧ l'.eraseIdx p = l ∧ l'.length = l.length + 1) ∧
    (∀ ix, addLayerChecked l (none : Option α) ix = (.error .valueError, l)) ∧
    (∀ x, addLayerChecked l x .other = (.error .valueError, l)) := by
  refine ⟨rfl, ⟨insertAt l k a, insertPos l.length k, rfl, insertPos_spec _ _, ?_, ?_, ?_⟩,
    fun _ => rfl, fun x => by cases x <;> rfl⟩
  · exact insert_getElem?_eq l k a
  · exact insert_eraseIdx l k a
  · exact insert_length l k a

example : addLayer [1, 2, 3] 9 (.int (-1)) = .ok [1, 2, 9, 3] := by rfl

/-! ## C01 -/

section
variable [DecidableEq α]

theorem erase_of_not_mem_take {l : List α} {i : Nat} (hi : i < l.length)
    (h : l[i] ∉ l.take i) : l.erase l[i] = l.eraseIdx i := by
  have hl : l = l.take i ++ l[i] :: l.drop (i + 1) := by simp
  rw [List.eraseIdx_eq_take_drop_succ]
  generalize l[i] = x at *
  generalize hA : l.take i = A at *
  generalize hB : l.drop (i + 1) = B at *
  rw [hl, List.erase_append_right _ h, List.erase_cons_head]

theorem move_up {l : List α} {i j : Nat} (hij : i < j) (hj : j < l.length) :
    moveLayer l i j = (.ok (), (insertAt l ((j : Int) + 1) (l[i]'(by omega))).erase (l[i]'(by omega))) := by
  have hi : i < l.length := by omega
  have hp : insertPos l.length ((j : Int) + 1) = j + 1 := by unfold insertPos; split <;> omega
  have hg : getItem (insertAt l ((j : Int) + 1) l[i]) (i : Int) = .ok l[i] := by
    rw [getItem_eq_ok_iff]
    refine ⟨i, normIdx_nat (by rw [insert_length]; omega), ?_⟩
    rw [insert_getElem?_lt _ _ _ (by omega), List.getElem?_eq_getElem hi]
  have hm : l[i] ∈ insertAt l ((j : Int) + 1) l[i] := getItem_mem hg
  unfold moveLayer
  rw [if_pos (by omega), getItem_nat hi]
  simp only [hg, remove, if_pos hm]

/-- C01 (general form): it is enough that the moved object does not also occur below its position. -/
theorem C01_move_layer_first (l : List α) (i j : Nat) (hi : i < l.length) (hj : j < l.length)
    (h : l[i] ∉ l.take i) :
    (moveLayer l i j).1 = .ok () ∧ IsMove l (moveLayer l i j).2 i j := by
  rcases Nat.lt_trichotomy i j with hij | hij | hij
  · rw [move_up hij hj]
    refine ⟨rfl, ?_⟩
    have hp : insertPos l.length ((j : Int) + 1) = j + 1 := by unfold insertPos; split <;> omega
    have key : (insertAt l ((j : Int) + 1) l[i]).erase l[i] =
        (insertAt l ((j : Int) + 1) l[i]).eraseIdx i := by
      have h1 : i < (insertAt l ((j : Int) + 1) l[i]).length := by rw [insert_length]; omega
      have h2 : (insertAt l ((j : Int) + 1) l[i])[i] = l[i] := by
        have := insert_getElem?_lt l ((j : Int) + 1) l[i] (k := i) (by omega)
        rw [List.getElem?_eq_getElem h1, List.getElem?_eq_getElem hi] at this
        simpa using this
      have h3 : (insertAt l ((j : Int) + 1) l[i]).take i = l.take i := by
        unfold insertAt
        rw [hp, List.take_append_of_le_length (by simp; omega), List.take_take]
        congr 1; omega
      have h4 := erase_of_not_mem_take h1 (by rw [h2, h3]; exact h)
      rwa [h2] at h4
    constructor
    · rw [key, List.getElem?_eraseIdx, if_neg (by omega)]
      have := insert_getElem?_eq l ((j : Int) + 1) l[i]
      rw [hp] at this
      rw [this, List.getElem?_eq_getElem hi]
    · rw [key]
      apply List.ext_getElem?
      intro k
      simp only [List.getElem?_eraseIdx]
      split_ifs with h1 h2 h3 h3
      all_goals first
        | omega
        | (rw [insert_getElem?_lt _ _ _ (by omega)])
        | (rw [insert_getElem?_gt _ _ _ (by omega)])
  · subst hij
    simp [moveLayer, IsMove]
  · have hm : l[i] ∈ l := List.getElem_mem hi
    have hrun : moveLayer l i j = (.ok (), insertAt (l.eraseIdx i) (j : Int) l[i]) := by
      unfold moveLayer
      rw [if_neg (by omega), if_pos (by omega), getItem_nat hi]
      simp only [remove, if_pos hm, erase_of_not_mem_take hi h]
    rw [hrun]
    refine ⟨rfl, ?_⟩
    have hl : (l.eraseIdx i).length = l.length - 1 := List.length_eraseIdx_of_lt hi
    have hp : insertPos (l.eraseIdx i).length (j : Int) = j := by
      unfold insertPos; rw [hl]; split <;> omega
    constructor
    · have := insert_getElem?_eq (l.eraseIdx i) (j : Int) l[i]
      rw [hp] at this
      rw [this, List.getElem?_eq_getElem hi]
    · have := insert_eraseIdx (l.eraseIdx i) (j : Int) l[i]
      rw [hp] at this
      exact this

/-- C01: for distinct layer objects `move_layer(i, j)` takes the layer out of position `i` and puts it
at position `j`; the other layers keep their relative order. -/
theorem C01_move_layer (l : List α) (hl : l.Nodup) (i j : Nat) (hi : i < l.length) (hj : j < l.length) :
    (moveLayer l i j).1 = .ok () ∧ IsMove l (moveLayer l i j).2 i j := by
  refine C01_move_layer_first l i j hi hj ?_
  intro hmem
  rw [List.mem_take_iff_getElem] at hmem
  obtain ⟨k, hk, hke⟩ := hmem
  have := (List.Nodup.getElem_inj_iff hl).1 hke
  omega

/-- `IsMove` determines the result. -/
theorem IsMove.unique {l l₁ l₂ : List α} {i j : Nat} (hi : i < l.length) (h₁ : IsMove l l₁ i j)
    (h₂ : IsMove l l₂ i j) : l₁ = l₂ := by
  have hj : ∀ l' : List α, IsMove l l' i j → j < l'.length := by
    intro l' h
    have := h.1
    rw [List.getElem?_eq_getElem hi] at this
    exact (List.getElem?_eq_some_iff.1 this).1
  have hj1 := hj _ h₁
  have hj2 := hj _ h₂
  have e1 : l₁[j] = l[i] := by
    have := h₁.1; rw [List.getElem?_eq_getElem hi, List.getElem?_eq_getElem hj1] at this; simpa using this
  have e2 : l₂[j] = l[i] := by
    have := h₂.1; rw [List.getElem?_eq_getElem hi, List.getElem?_eq_getElem hj2] at this; simpa using this
  rw [← List.insertIdx_eraseIdx_getElem hj1, ← List.insertIdx_eraseIdx_getElem hj2, e1, e2, h₁.2, h₂.2]

example : moveLayer ["a", "b", "c", "d"] 1 3 = (.ok (), ["a", "c", "d", "b"]) := by decide
example : ["a", "b", "c", "d"].Nodup := by decide

/-! ## C02 -/

/-- The layer that `move_layer` removes again in the branch `from < to`. -/
theorem move_up_perm_iff (l : List α) (i j : Int) (hij : i < j) {f : Nat}
    (hf : normIdx l.length i = some f) :
    (moveLayer l i j).2.Perm l ↔
      ¬ (i < 0 ∧ f + 1 < insertPos l.length (j + 1) ∧ l[f]? ≠ l[f + 1]?) := by
  have hfl := normIdx_lt hf
  have hx : getItem l i = .ok l[f] := by
    rw [getItem_eq_ok_iff]; exact ⟨f, hf, List.getElem?_eq_getElem hfl⟩
  set x := l[f] with hxdef
  set l1 := insertAt l (j + 1) x with hl1
  have hlen : l1.length = l.length + 1 := insert_length _ _ _
  obtain ⟨g, hg, hgval⟩ : ∃ g, normIdx l1.length i = some g ∧
      ((0 ≤ i → g = f) ∧ (i < 0 → g = f + 1)) := by
    have := (normIdx_eq_some_iff.1 hf)
    rcases lt_or_ge i 0 with h | h
    · refine ⟨f + 1, ?_, ?_⟩
      · rw [normIdx_eq_some_iff, hlen]; omega
      · omega
    · refine ⟨f, ?_, ?_⟩
      · rw [normIdx_eq_some_iff, hlen]; omega
      · omega
  have hgl : g < l1.length := normIdx_lt hg
  have hy : getItem l1 i = .ok l1[g] := by
    rw [getItem_eq_ok_iff]; exact ⟨g, hg, List.getElem?_eq_getElem hgl⟩
  have hmem : l1[g] ∈ l1 := List.getElem_mem hgl
  have hrun : (moveLayer l i j).2 = l1.erase l1[g] := by
    unfold moveLayer
    rw [if_pos hij, hx]
    simp only [← hl1, hy, remove, if_pos hmem]
  rw [hrun]
  have hperm : l1.Perm (x :: l) := insert_perm _ _ _
  have step1 : (l1.erase l1[g]).Perm l ↔ l1[g] = x := by
    constructor
    · intro h
      by_contra hne
      have h1 := h.count_eq x
      rw [List.count_erase_of_ne (Ne.symm hne), hperm.count_eq, List.count_cons_self] at h1
      omega
    · intro h
      rw [h]
      have := hperm.erase x
      rwa [List.erase_cons_head] at this
  rw [step1]
  have hq : l1[g] = x ↔ l1[g]? = l[f]? := by
    rw [List.getElem?_eq_getElem hgl, List.getElem?_eq_getElem hfl]; simp [hxdef]
  rw [hq]
  rcases lt_or_ge i 0 with h | h
  · have hgf := hgval.2 h
    subst hgf
    rcases lt_trichotomy (f + 1) (insertPos l.length (j + 1)) with h1 | h1 | h1
    · rw [hl1, insert_getElem?_lt _ _ _ h1]
      simp only [h, h1, true_and, not_not, ne_eq]
      exact eq_comm
    · rw [hl1, h1, insert_getElem?_eq, List.getElem?_eq_getElem hfl]
      simp [hxdef]
    · rw [hl1, insert_getElem?_gt _ _ _ (by omega)]
      simp; omega
  · have hgf := hgval.1 h
    subst hgf
    have hgi := normIdx_eq_some_iff.1 hf
    have h1 : g < insertPos l.length (j + 1) := by unfold insertPos; split <;> omega
    rw [hl1, insert_getElem?_lt _ _ _ h1]
    simp; omega

theorem move_error (l : List α) (i j : Int) (e : PyErr) (h : (moveLayer l i j).1 = .error e) :
    (moveLayer l i j).2 = l ∧ e = .indexError := by
  unfold moveLayer at h ⊢
  split_ifs at h ⊢ with h1 h2
  · cases hx : getItem l i with
    | error e' =>
      simp only [hx] at h ⊢
      refine ⟨trivial, ?_⟩
      have := getItem_error hx
      simp_all
    | ok x =>
      exfalso
      simp only [hx] at h
      obtain ⟨f, hf, hfx⟩ := getItem_eq_ok_iff.1 hx
      have hsome : (normIdx (insertAt l (j + 1) x).length i).isSome := by
        rw [normIdx_isSome, insert_length]
        have : (normIdx l.length i).isSome := by rw [hf]; rfl
        rw [normIdx_isSome] at this
        omega
      obtain ⟨g, hg⟩ := Option.isSome_iff_exists.1 hsome
      have hy : getItem (insertAt l (j + 1) x) i = .ok ((insertAt l (j + 1) x)[g]'(normIdx_lt hg)) := by
        rw [getItem_eq_ok_iff]; exact ⟨g, hg, List.getElem?_eq_getElem _⟩
      simp [hy, remove, List.getElem_mem] at h
  · cases hx : getItem l i with
    | error e' =>
      simp only [hx] at h ⊢
      refine ⟨trivial, ?_⟩
      have := getItem_error hx
      simp_all
    | ok x =>
      have := getItem_mem hx
      simp [hx, remove, this] at h

/-- C02, exact criterion for one `move_layer` call with arbitrary integer indices: the layers are
preserved unless the source index is negative, the target lies above the source, and the layer
directly above the source is a different object. -/
theorem C02_move_preserves_iff (l : List α) (i j : Int) :
    (moveLayer l i j).2.Perm l ↔
      ¬ (i < 0 ∧ i < j ∧ ∃ f, normIdx l.length i = some f ∧
          f + 1 < insertPos l.length (j + 1) ∧ l[f]? ≠ l[f + 1]?) := by
  rcases lt_trichotomy i j with hij | hij | hij
  · cases hf : normIdx l.length i with
    | none =>
      have hx : getItem l i = .error .indexError := by
        rw [getItem_error_iff, ← normIdx_isSome, hf]; simp
      simp [moveLayer, hij, hx]
    | some f =>
      rw [move_up_perm_iff l i j hij hf]
      simp [hij]
  · subst hij
    simp [moveLayer]
  · have h1 : ¬ i < j := by omega
    simp only [h1, false_and, and_false, not_false_iff, iff_true]
    unfold moveLayer
    rw [if_neg h1, if_pos hij]
    cases hx : getItem l i with
    | error e => simp
    | ok x =>
      have hm := getItem_mem hx
      simp only [remove, if_pos hm]
      exact (insert_perm _ _ _).trans (List.perm_cons_erase hm).symm

theorem swap_result (l : List α) (i j : Int) {a b : Nat} (ha : normIdx l.length i = some a)
    (hb : normIdx l.length j = some b) :
    swapLayers l i j = (.ok (), (l.set b (l[a]'(normIdx_lt ha))).set a (l[b]'(normIdx_lt hb))) := by
  have h1 : getItem l j = .ok (l[b]'(normIdx_lt hb)) := by
    rw [getItem_eq_ok_iff]; exact ⟨b, hb, List.getElem?_eq_getElem _⟩
  have h2 : getItem l i = .ok (l[a]'(normIdx_lt ha)) := by
    rw [getItem_eq_ok_iff]; exact ⟨a, ha, List.getElem?_eq_getElem _⟩
  simp [swapLayers, h1, h2, setItem, ha, hb]

omit [DecidableEq α] in
theorem set_set_perm (l : List α) {a b : Nat} (ha : a < l.length) (hb : b < l.length) :
    ((l.set b l[a]).set a l[b]).Perm l := by
  classical
  rw [List.perm_iff_count]
  intro x
  have hb' : b < l.length := hb
  rw [List.count_set (by simpa using ha), List.count_set hb]
  have e : (l.set b l[a])[a]'(by simpa using ha) = l[a] := by
    rw [List.getElem_set]; split <;> simp
  rw [e]
  have c1 : x = l[b] → 0 < l.count x := fun h => List.count_pos_iff.2 (h ▸ List.getElem_mem hb)
  have c2 : x = l[a] → 0 < l.count x := fun h => List.count_pos_iff.2 (h ▸ List.getElem_mem ha)
  simp only [beq_iff_eq]
  split_ifs with h1 h2 h3 <;> simp_all

theorem swap_perm (l : List α) (i j : Int) : (swapLayers l i j).2.Perm l := by
  cases hb : normIdx l.length j with
  | none =>
    have hx : getItem l j = .error .indexError := by
      rw [getItem_error_iff, ← normIdx_isSome, hb]; simp
    simp [swapLayers, hx]
  | some b =>
    cases ha : normIdx l.length i with
    | none =>
      have hx : getItem l i = .error .indexError := by
        rw [getItem_error_iff, ← normIdx_isSome, ha]; simp
      have h1 : getItem l j = .ok (l[b]'(normIdx_lt hb)) := by
        rw [getItem_eq_ok_iff]; exact ⟨b, hb, List.getElem?_eq_getElem _⟩
      simp [swapLayers, hx, h1]
    | some a =>
      rw [swap_result l i j ha hb]
      exact set_set_perm l _ _

/-- A call with which layers cannot get lost: any swap, and any move except one with a negative
source index below its target. -/
def Reorder.Safe : Reorder → Prop
  | .swap _ _ => True
  | .move i j => 0 ≤ i ∨ j ≤ i

/-- C02 (partial): every finite history of safe re-ordering calls preserves the layers with their
multiplicities. Missing for the full claim: moves with a negative source index, for which the claim
is false (`C02_reorder_loses_layer`). -/
theorem C02_reorder_preserves_partial (l : List α) (h : List Reorder) (hs : ∀ c ∈ h, Reorder.Safe c) :
    (h.foldl Reorder.run l).Perm l := by
  induction h generalizing l with
  | nil => exact List.Perm.refl _
  | cons c h ih =>
    refine (ih _ (fun c hc => hs c (List.mem_cons_of_mem _ hc))).trans ?_
    have hc := hs c List.mem_cons_self
    cases c with
    | swap i j => exact swap_perm l i j
    | move i j =>
      simp only [Reorder.Safe] at hc
      refine (C02_move_preserves_iff l i j).2 ?_
      omega

/-- The full claim C02 does not hold for the code: moving layer `-3` of three to position 1 loses
the second layer and duplicates the first. -/
theorem C02_reorder_loses_layer :
    ∃ (l : List Nat) (h : List Reorder), l.Nodup ∧ ¬ (h.foldl Reorder.run l).Perm l :=
  ⟨[0, 1, 2], [.move (-3) 1], by decide, by decide⟩

example : ([.move 0 2, .swap (-1) 1, .move 2 (-5)] : List Reorder).foldl Reorder.run
    ["a", "b", "c"] = ["c", "b", "a"] := by decide

/-! ## C03 -/

/-- C03: `swap_layers` exchanges exactly the two addressed layers. -/
theorem C03_swap_exchanges (l : List α) (i j : Int) {a b : Nat} (ha : normIdx l.length i = some a)
    (hb : normIdx l.length j = some b) :
    (swapLayers l i j).1 = .ok () ∧
    (swapLayers l i j).2[a]? = l[b]? ∧ (swapLayers l i j).2[b]? = l[a]? ∧
    (swapLayers l i j).2.length = l.length ∧
    ∀ k, k ≠ a → k ≠ b → (swapLayers l i j).2[k]? = l[k]? := by
  rw [swap_result l i j ha hb]
  have hal := normIdx_lt ha
  have hbl := normIdx_lt hb
  refine ⟨rfl, ?_, ?_, by simp, ?_⟩
  · rw [List.getElem?_set_self (by simpa using hal), List.getElem?_eq_getElem hbl]
  · by_cases h : a = b
    · subst h
      rw [List.getElem?_set_self (by simpa using hal), List.getElem?_eq_getElem hal]
    · rw [List.getElem?_set_ne h, List.getElem?_set_self hbl, List.getElem?_eq_getElem hal]
  · intro k h1 h2
    rw [List.getElem?_set_ne (Ne.symm h1), List.getElem?_set_ne (Ne.symm h2)]

/-- C03: swapping twice restores the sample, for all integer indices (also invalid ones). -/
theorem C03_swap_involutive (l : List α) (i j : Int) :
    (swapLayers (swapLayers l i j).2 i j).2 = l := by
  by_cases hi : (normIdx l.length i).isSome ∧ (normIdx l.length j).isSome
  · obtain ⟨a, ha⟩ := Option.isSome_iff_exists.1 hi.1
    obtain ⟨b, hb⟩ := Option.isSome_iff_exists.1 hi.2
    obtain ⟨_, h1, h2, h3, h4⟩ := C03_swap_exchanges l i j ha hb
    set l' := (swapLayers l i j).2
    obtain ⟨_, g1, g2, _, g4⟩ := C03_swap_exchanges l' i j (a := a) (b := b) (by rw [h3]; exact ha)
      (by rw [h3]; exact hb)
    apply List.ext_getElem?
    intro k
    by_cases ka : k = a
    · subst ka; rw [g1, h2]
    · by_cases kb : k = b
      · subst kb; rw [g2, h1]
      · rw [g4 k ka kb, h4 k ka kb]
  · have : (swapLayers l i j).2 = l := by
      have hbad : normIdx l.length j = none ∨ normIdx l.length i = none := by
        by_contra hcon
        simp only [not_or, ← ne_eq, Option.ne_none_iff_isSome] at hcon
        exact hi ⟨hcon.2, hcon.1⟩
      unfold swapLayers
      cases hj : getItem l j with
      | error e => rfl
      | ok y =>
        cases hi' : getItem l i with
        | error e => rfl
        | ok x =>
          obtain ⟨k, hk, _⟩ := getItem_eq_ok_iff.1 hj
          obtain ⟨k', hk', _⟩ := getItem_eq_ok_iff.1 hi'
          rcases hbad with h | h <;> simp_all
    rw [this, this]

/-- C03: a swap raises exactly for an out-of-range index, with `IndexError`, and then the sample is
untouched. -/
theorem C03_swap_atomic (l : List α) (i j : Int) :
    (((swapLayers l i j).1 = .error .indexError ∧ (swapLayers l i j).2 = l) ↔
      ¬ ((-(l.length : Int) ≤ i ∧ i < l.length) ∧ (-(l.length : Int) ≤ j ∧ j < l.length))) ∧
    ((swapLayers l i j).1 = .ok () ↔
      ((-(l.length : Int) ≤ i ∧ i < l.length) ∧ (-(l.length : Int) ≤ j ∧ j < l.length))) := by
  simp only [← normIdx_isSome]
  cases hb : normIdx l.length j with
  | none =>
    have hx : getItem l j = .error .indexError := by
      rw [getItem_error_iff, ← normIdx_isSome, hb]; simp
    simp [swapLayers, hx]
  | some b =>
    cases ha : normIdx l.length i with
    | none =>
      have hx : getItem l i = .error .indexError := by
        rw [getItem_error_iff, ← normIdx_isSome, ha]; simp
      have h1 : getItem l j = .ok (l[b]'(normIdx_lt hb)) := by
        rw [getItem_eq_ok_iff]; exact ⟨b, hb, List.getElem?_eq_getElem _⟩
      simp [swapLayers, hx, h1]
    | some a =>
      rw [swap_result l i j ha hb]
      simp

/-- C03: whenever `move_layer` raises, it raises `IndexError` and the sample is untouched. -/
theorem C03_move_atomic (l : List α) (i j : Int) (e : PyErr) (h : (moveLayer l i j).1 = .error e) :
    (moveLayer l i j).2 = l ∧ e = .indexError ∧ ¬ (-(l.length : Int) ≤ i ∧ i < l.length) := by
  refine ⟨(move_error l i j e h).1, (move_error l i j e h).2, ?_⟩
  intro hi
  rw [← normIdx_isSome] at hi
  obtain ⟨f, hf⟩ := Option.isSome_iff_exists.1 hi
  have hx : getItem l i = .ok (l[f]'(normIdx_lt hf)) := by
    rw [getItem_eq_ok_iff]; exact ⟨f, hf, List.getElem?_eq_getElem _⟩
  have hm := getItem_mem hx
  unfold moveLayer at h
  split_ifs at h
  · have hsome : (normIdx (insertAt l (j + 1) (l[f]'(normIdx_lt hf))).length i).isSome := by
      rw [normIdx_isSome, insert_length]
      rw [normIdx_isSome] at hi
      omega
    obtain ⟨g, hg⟩ := Option.isSome_iff_exists.1 hsome
    have hy : getItem (insertAt l (j + 1) (l[f]'(normIdx_lt hf))) i =
        .ok ((insertAt l (j + 1) (l[f]'(normIdx_lt hf)))[g]'(normIdx_lt hg)) := by
      rw [getItem_eq_ok_iff]; exact ⟨g, hg, List.getElem?_eq_getElem _⟩
    simp [hx, hy, remove, List.getElem_mem] at h
  · simp [hx, remove, hm] at h

example : (moveLayer ["a", "b"] 5 0).1 = .error .indexError ∧ normIdx 3 (-1) = some 2 := by decide

end

end Verif.Props
