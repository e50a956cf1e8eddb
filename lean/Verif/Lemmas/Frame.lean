import Verif.Py.Frame
import Verif.Lemmas.Except
import Verif.Props.LabelTable

/-! # Columns of frames -/

namespace Verif.Props
open Verif.Py
variable {V P : Type}

theorem get_ok_of_mem {f : Frame V} {k : Str} (h : k ∈ f.columns) : ∃ c, f.get k = .ok c := by
  induction f with
  | nil => simp [Frame.columns] at h
  | cons a f ih =>
    rw [get_cons]
    by_cases hk : a.1 = k
    · exact ⟨_, if_pos hk⟩
    · rw [if_neg hk]
      simp only [Frame.columns, List.map_cons, List.mem_cons] at h
      exact ih (h.resolve_left (Ne.symm hk))

theorem mem_of_get {f : Frame V} {k : Str} {c : List V} (h : f.get k = .ok c) : (k, c) ∈ f := by
  induction f with
  | nil => simp [Frame.get] at h
  | cons a f ih =>
    rw [get_cons] at h
    by_cases hk : a.1 = k
    · rw [if_pos hk] at h
      cases h; subst hk; simp
    · rw [if_neg hk] at h
      exact List.mem_cons_of_mem _ (ih h)

theorem get_of_mem {f : Frame V} {k : Str} {c : List V} (hn : f.columns.Nodup) (h : (k, c) ∈ f) :
    f.get k = .ok c := by
  induction f with
  | nil => simp at h
  | cons a f ih =>
    rw [get_cons]
    simp only [Frame.columns, List.map_cons, List.nodup_cons] at hn
    rcases List.mem_cons.1 h with rfl | h
    · rw [if_pos rfl]
    · rw [if_neg, ih hn.2 h]
      rintro rfl
      exact hn.1 (List.mem_map.2 ⟨_, h, rfl⟩)

/-- Frames with the same distinct column names and the same columns are equal. -/
theorem frame_ext {f g : Frame V} (hc : f.columns = g.columns) (hn : f.columns.Nodup)
    (h : ∀ k ∈ f.columns, f.get k = g.get k) : f = g := by
  induction f generalizing g with
  | nil =>
    cases g with
    | nil => rfl
    | cons b g => simp [Frame.columns] at hc
  | cons a f ih =>
    cases g with
    | nil => simp [Frame.columns] at hc
    | cons b g =>
      simp only [Frame.columns, List.map_cons, List.cons.injEq] at hc
      simp only [Frame.columns, List.map_cons, List.nodup_cons] at hn
      have h0 := h a.1 (by simp [Frame.columns])
      rw [get_cons, get_cons, if_pos rfl, if_pos hc.1.symm] at h0
      have hab : a = b := Prod.ext hc.1 (by simpa using h0)
      subst hab
      rw [ih hc.2 hn.2]
      intro k hk
      have := h k (by
        simp only [Frame.columns, List.map_cons, List.mem_cons]
        exact Or.inr hk)
      rw [get_cons, get_cons, if_neg, if_neg] at this
      · exact this
      all_goals (rintro rfl; exact hn.1 hk)

theorem columns_set_of_mem {f : Frame V} {k : Str} {col : List V} (h : k ∈ f.columns) :
    (f.set k col).columns = f.columns := by
  unfold Frame.set
  rw [if_pos h]
  unfold Frame.columns
  rw [List.map_map]
  refine List.map_congr_left fun a _ => ?_
  by_cases ha : a.1 = k <;> simp [ha]

/-- Replacing the columns of distinct names one after the other. -/
theorem foldlM_update {nm : P → Str} {upd : P → List V → List V} {ps : List P} {f : Frame V}
    (hn : (ps.map nm).Nodup) (hm : ∀ p ∈ ps, nm p ∈ f.columns) :
    ∃ f', ps.foldlM (fun f p => do let col ← f.get (nm p); return f.set (nm p) (upd p col)) f
        = (.ok f' : Res (Frame V)) ∧ f'.columns = f.columns ∧
      (∀ p ∈ ps, ∀ col, f.get (nm p) = .ok col → f'.get (nm p) = .ok (upd p col)) ∧
      ∀ k, k ∉ ps.map nm → f'.get k = f.get k := by
  induction ps generalizing f with
  | nil => exact ⟨f, rfl, rfl, by simp, by simp⟩
  | cons p ps ih =>
    rw [List.map_cons, List.nodup_cons] at hn
    obtain ⟨col, hcol⟩ := get_ok_of_mem (hm p (by simp))
    have hcs : (f.set (nm p) (upd p col)).columns = f.columns := columns_set_of_mem (hm p (by simp))
    obtain ⟨f', h1, h2, h3, h4⟩ := ih (f := f.set (nm p) (upd p col)) hn.2
      (fun q hq => by rw [hcs]; exact hm q (by simp [hq]))
    refine ⟨f', ?_, h2.trans hcs, ?_, ?_⟩
    · rw [List.foldlM_cons, hcol]
      exact h1
    · intro q hq c hc
      rcases List.mem_cons.1 hq with rfl | hq
      · rw [h4 _ hn.1, get_set, if_pos rfl]
        rw [hcol] at hc; cases hc; rfl
      · refine h3 q hq c ?_
        rw [get_set, if_neg, hc]
        intro he
        exact hn.1 (he ▸ List.mem_map.2 ⟨q, hq, rfl⟩)
    · intro k hk
      rw [List.map_cons, List.mem_cons, not_or] at hk
      rw [h4 k hk.2, get_set, if_neg hk.1]

theorem get_filter {f : Frame V} {q : Str → Bool} {k : Str} (hk : q k = true) :
    Frame.get (f.filter fun c => q c.1) k = f.get k := by
  induction f with
  | nil => rfl
  | cons a f ih =>
    rw [List.filter_cons, get_cons]
    by_cases ha : a.1 = k
    · rw [if_pos ha, if_pos (by rw [ha]; exact hk), get_cons, if_pos ha]
    · rw [if_neg ha]
      split_ifs with hq
      · rw [get_cons, if_neg ha, ih]
      · exact ih

theorem columns_filter {f : Frame V} {q : Str → Bool} :
    Frame.columns (f.filter fun c => q c.1) = f.columns.filter q := by
  induction f with
  | nil => rfl
  | cons a f ih =>
    unfold Frame.columns at ih ⊢
    rw [List.filter_cons, List.map_cons, List.filter_cons]
    split_ifs <;> simp [ih]

theorem select_ok {f : Frame V} {names : List Str} (h : ∀ k ∈ names, ∃ c, f.get k = .ok c) :
    ∃ r, f.select names = .ok r := by
  refine ⟨names.map fun k => (k, match f.get k with | .ok c => c | .error _ => []), ?_⟩
  unfold Frame.select
  refine mapM_eq_ok_map fun k hk => ?_
  obtain ⟨col, hc⟩ := h k hk
  rw [hc]; rfl

/-- Setting the columns of distinct names to fixed values one after the other. -/
theorem foldl_set_get {nm : P → Str} {val : P → List V} {ps : List P} {f : Frame V}
    (hn : (ps.map nm).Nodup) :
    (∀ p ∈ ps, (ps.foldl (fun f p => f.set (nm p) (val p)) f).get (nm p) = .ok (val p)) ∧
    ∀ k, k ∉ ps.map nm → (ps.foldl (fun f p => f.set (nm p) (val p)) f).get k = f.get k := by
  induction ps generalizing f with
  | nil => exact ⟨by simp, by simp⟩
  | cons p ps ih =>
    rw [List.map_cons, List.nodup_cons] at hn
    obtain ⟨h1, h2⟩ := ih (f := f.set (nm p) (val p)) hn.2
    rw [List.foldl_cons]
    constructor
    · intro q hq
      rcases List.mem_cons.1 hq with rfl | hq
      · rw [h2 _ hn.1, get_set, if_pos rfl]
      · exact h1 q hq
    · intro k hk
      rw [List.map_cons, List.mem_cons, not_or] at hk
      rw [h2 k hk.2, get_set, if_neg hk.1]

end Verif.Props
