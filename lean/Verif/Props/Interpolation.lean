import Verif.Model.Scans
import Verif.Lemmas.Except

/-!
# C42, C43: interpolation on the logarithmic scale
-/

namespace Verif.Props
open Verif.Py Verif.Model

/-! ### Finite arrays -/

theorem finite_eq {α : Type} {l : List (Option α)} {r : List α} : finite l = .ok r ↔ l = r.map some := by
  unfold finite
  induction l generalizing r with
  | nil =>
    rw [List.mapM_nil]
    cases r <;> simp [pure, Except.pure]
  | cons o l ih =>
    rw [mapM_cons]
    cases o with
    | none => cases r <;> simp [bind, Except.bind]
    | some a =>
      simp only [bind_ok]
      constructor
      · intro h
        rw [bind_eq_ok] at h
        obtain ⟨r', h1, h2⟩ := h
        cases h2
        rw [ih.1 h1]
        rfl
      · intro h
        cases r with
        | nil => simp at h
        | cons b r =>
          simp only [List.map_cons, List.cons.injEq, Option.some.injEq] at h
          rw [ih.2 h.2, h.1]
          rfl

theorem finite_map_some {α β : Type} (l : List α) (f : α → Option β) (g : α → β) (h : ∀ a ∈ l, f a = some (g a)) :
    finite (l.map f) = .ok (l.map g) := by
  rw [finite_eq, List.map_map]
  exact List.map_congr_left fun a ha => h a ha

/-! ### The position in the grid -/

theorem takeWhile_le {q : List ℝ} (hq : q.Pairwise (· < ·)) (x : ℝ) :
    let j := (q.takeWhile fun (p : ℝ) => decide (p ≤ x)).length
    j ≤ q.length ∧ (∀ i (h : i < q.length), i < j ↔ q[i] ≤ x) := by
  induction q with
  | nil => simp
  | cons a q ih =>
    rw [List.pairwise_cons] at hq
    obtain ⟨h1, h2⟩ := ih hq.2
    by_cases ha : a ≤ x
    · simp only [List.takeWhile_cons, ha, decide_true, if_true, List.length_cons]
      refine ⟨by simpa using h1, fun i hi => ?_⟩
      cases i with
      | zero => simpa using ha
      | succ i =>
        have := h2 i (by simpa using hi)
        simp only [List.getElem_cons_succ, ← this]
        simp
    · simp only [List.takeWhile_cons, ha, decide_false, Bool.false_eq_true, if_false, List.length_nil]
      refine ⟨by simp, fun i hi => ?_⟩
      simp only [not_lt_zero, false_iff, not_le]
      cases i with
      | zero => simpa using ha
      | succ i =>
        have := hq.1 _ (List.getElem_mem (by simpa using hi : i < q.length))
        simp only [List.getElem_cons_succ]
        linarith

theorem getD_lt {α : Type} {l : List α} {i : Nat} (h : i < l.length) (d : α) : l.getD i d = l[i] := by
  simp [h]

/-- The interpolation by the position of `x` in the grid. -/
theorem npInterp1_spec {q f : List ℝ} (hq : q.Pairwise (· < ·)) (hne : q ≠ []) (x : ℝ) :
    ((∀ p ∈ q, x < p) → npInterp1 q f x = f.getD 0 0) ∧
    ((∀ p ∈ q, p ≤ x) → npInterp1 q f x = f.getD (q.length - 1) 0) ∧
    (∀ i (h : i + 1 < q.length), q[i] ≤ x → x < q[i + 1] →
      npInterp1 q f x = f.getD i 0 + (x - q[i]) / (q[i + 1] - q[i]) * (f.getD (i + 1) 0 - f.getD i 0)) := by
  obtain ⟨h1, h2⟩ := takeWhile_le hq x
  unfold npInterp1
  generalize (q.takeWhile fun (p : ℝ) => decide (p ≤ x)).length = j at h1 h2
  have hpos : 0 < q.length := List.length_pos_iff.2 hne
  simp only
  refine ⟨fun h => ?_, fun h => ?_, fun i hi ha hb => ?_⟩
  · have : j = 0 := by
      by_contra hj
      have := (h2 0 hpos).1 (by omega)
      exact absurd (h _ (List.getElem_mem hpos)) (not_lt.2 this)
    rw [if_pos this]
  · have : j = q.length := by
      have := (h2 (q.length - 1) (by omega)).2 (h _ (List.getElem_mem _))
      omega
    rw [if_neg (by omega), if_pos this, this]
  · have e1 : i < j := (h2 i (by omega)).2 ha
    have e2 : ¬(i + 1 < j) := fun h => absurd ((h2 (i + 1) hi).1 h) (not_le.2 hb)
    have e3 : j = i + 1 := by omega
    subst e3
    rw [if_neg (by omega), if_neg (by omega), Nat.add_sub_cancel, getD_lt (show i < q.length by omega),
      getD_lt hi]
    have hlt : q[i] < q[i + 1] := List.pairwise_iff_getElem.1 hq _ _ _ _ (by omega)
    have : q[i + 1] - q[i] ≠ 0 := (sub_pos.2 hlt).ne'
    split_ifs with he
    · rw [he]; simp
    · field_simp
      ring

/-- C42: for every increasing grid with as many positive values there is one curve `f` that the interpolation
evaluates, whatever the targets. It takes the measured values at the measured points, continues the first and the
last value outside of the grid, is the weighted geometric mean between neighbours, and so lies between them. -/
theorem C42_interpolation (q r : List ℝ) (hq : q.Pairwise (· < ·)) (hl : r.length = q.length) (hne : q ≠ [])
    (hpos : ∀ v ∈ r, 0 < v) :
    ∃ f : ℝ → ℝ, (∀ x, interpReflectivity x q r = .ok (x.map f)) ∧
      (∀ x, 0 < f x) ∧
      (∀ i (h : i < q.length) (h' : i < r.length), f q[i] = r[i]) ∧
      (∀ x (h' : 0 < r.length), (∀ p ∈ q, x ≤ p) → f x = r[0]) ∧
      (∀ x (h' : r.length - 1 < r.length), (∀ p ∈ q, p ≤ x) → f x = r[r.length - 1]) ∧
      (∀ x i (h : i + 1 < q.length) (h' : i + 1 < r.length), q[i] ≤ x → x ≤ q[i + 1] →
        f x = r[i] ^ ((q[i + 1] - x) / (q[i + 1] - q[i])) * r[i + 1] ^ ((x - q[i]) / (q[i + 1] - q[i])) ∧
        min r[i] r[i + 1] ≤ f x ∧ f x ≤ max r[i] r[i + 1]) := by
  set l := r.map (Real.logb 10) with hl'
  have hll : l.length = q.length := by simp [hl', hl]
  have e10 : ∀ v : ℝ, 0 < v → (10 : ℝ) ^ Real.logb 10 v = v := fun v hv =>
    Real.rpow_logb (by norm_num) (by norm_num) hv
  have hd : ∀ i (h : i < r.length), l.getD i 0 = Real.logb 10 r[i] := by
    intro i h
    rw [getD_lt (by rw [hll]; omega)]
    simp [hl']
  have hr : ∀ i (h : i < r.length), 0 < r[i] := fun i h => hpos _ (List.getElem_mem h)
  have hmid : ∀ x i (h : i + 1 < q.length) (h' : i + 1 < r.length), q[i] ≤ x → x < q[i + 1] →
      (10 : ℝ) ^ npInterp1 q l x =
        r[i] ^ ((q[i + 1] - x) / (q[i + 1] - q[i])) * r[i + 1] ^ ((x - q[i]) / (q[i + 1] - q[i])) := by
    intro x i h h' ha hb
    rw [(npInterp1_spec hq hne x).2.2 i h ha hb, hd i (by omega), hd (i + 1) h']
    have hlt : 0 < q[i + 1] - q[i] := by linarith
    have key : Real.logb 10 r[i] + (x - q[i]) / (q[i + 1] - q[i]) * (Real.logb 10 r[i + 1] - Real.logb 10 r[i]) =
        Real.logb 10 r[i] * ((q[i + 1] - x) / (q[i + 1] - q[i])) +
          Real.logb 10 r[i + 1] * ((x - q[i]) / (q[i + 1] - q[i])) := by
      field_simp
      ring
    rw [key, Real.rpow_add (by norm_num), Real.rpow_mul (by norm_num), Real.rpow_mul (by norm_num),
      e10 _ (hr _ _), e10 _ (hr _ _)]
  have hend : ∀ x (h' : r.length - 1 < r.length), (∀ p ∈ q, p ≤ x) → (10 : ℝ) ^ npInterp1 q l x = r[r.length - 1] := by
    intro x h' h
    rw [(npInterp1_spec hq hne x).2.1 h, ← hl, hd _ h', e10 _ (hr _ _)]
  have hle : ∀ i j (hi : i < q.length) (hj : j < q.length), i ≤ j → q[i] ≤ q[j] := by
    intro i j hi hj hij
    rcases hij.eq_or_lt with rfl | hij
    · exact le_refl _
    · exact (List.pairwise_iff_getElem.1 hq _ _ _ _ hij).le
  have hat : ∀ i (h : i < q.length) (h' : i < r.length), (10 : ℝ) ^ npInterp1 q l q[i] = r[i] := by
    intro i h h'
    by_cases hi : i + 1 < q.length
    · rw [hmid q[i] i hi (by omega) (le_refl _) (List.pairwise_iff_getElem.1 hq _ _ _ _ (by omega)), sub_self, zero_div,
        div_self (sub_pos.2 (List.pairwise_iff_getElem.1 hq _ _ _ _ (by omega))).ne', Real.rpow_one, Real.rpow_zero, mul_one]
    · have : i = r.length - 1 := by omega
      subst this
      refine hend _ h' fun p hp => ?_
      obtain ⟨j, hj, rfl⟩ := List.getElem_of_mem hp
      exact hle _ _ _ _ (by omega)
  refine ⟨fun x => (10 : ℝ) ^ npInterp1 q l x, fun x => ?_, fun x => by positivity, hat, fun x h' h => ?_, hend,
    fun x i h h' ha hb => ?_⟩
  · unfold interpReflectivity npInterp
    rw [finite_map_some r _ (Real.logb 10) fun v hv => if_pos (hpos v hv)]
    simp only [bind_ok, ← hl']
    rw [if_neg (by push Not; exact ⟨hll, hne⟩)]
    simp [bind_ok, pure, Except.pure]
  · by_cases hx : x = q[0]'(by omega)
    · subst hx
      exact hat 0 (by omega) h'
    · have h2 : ∀ p ∈ q, x < p := by
        have hx0 : x < q[0]'(by omega) := lt_of_le_of_ne (h _ (List.getElem_mem _)) hx
        intro p hp
        obtain ⟨j, hj, rfl⟩ := List.getElem_of_mem hp
        exact hx0.trans_le (hle 0 j _ _ (by omega))
      show (10 : ℝ) ^ npInterp1 q l x = _
      rw [(npInterp1_spec hq hne x).1 h2, hd 0 h', e10 _ (hr _ _)]
  · have hlt : q[i] < q[i + 1] := List.pairwise_iff_getElem.1 hq _ _ _ _ (by omega)
    have hval : (10 : ℝ) ^ npInterp1 q l x =
        r[i] ^ ((q[i + 1] - x) / (q[i + 1] - q[i])) * r[i + 1] ^ ((x - q[i]) / (q[i + 1] - q[i])) := by
      rcases hb.eq_or_lt with hb | hb
      · rw [hb, hat (i + 1) h h', sub_self, zero_div, div_self (sub_pos.2 hlt).ne', Real.rpow_one, Real.rpow_zero,
          one_mul]
      · exact hmid x i h h' ha hb
    refine ⟨hval, ?_⟩
    show min r[i] r[i + 1] ≤ (10 : ℝ) ^ npInterp1 q l x ∧ (10 : ℝ) ^ npInterp1 q l x ≤ max r[i] r[i + 1]
    rw [hval]
    have hs : (q[i + 1] - x) / (q[i + 1] - q[i]) + (x - q[i]) / (q[i + 1] - q[i]) = 1 := by
      have := (sub_pos.2 hlt).ne'
      field_simp
      ring
    have ha0 : 0 ≤ (q[i + 1] - x) / (q[i + 1] - q[i]) := div_nonneg (by linarith) (by linarith)
    have hb0 : 0 ≤ (x - q[i]) / (q[i + 1] - q[i]) := div_nonneg (by linarith) (by linarith)
    generalize (q[i + 1] - x) / (q[i + 1] - q[i]) = a at *
    generalize (x - q[i]) / (q[i + 1] - q[i]) = b at *
    have p1 := hr i (by omega)
    have p2 := hr (i + 1) h'
    have pm : 0 < min r[i] r[i + 1] := lt_min p1 p2
    have pM : 0 < max r[i] r[i + 1] := lt_max_of_lt_left p1
    constructor
    · calc min r[i] r[i + 1] = min r[i] r[i + 1] ^ a * min r[i] r[i + 1] ^ b := by
            rw [← Real.rpow_add pm, hs, Real.rpow_one]
        _ ≤ _ := mul_le_mul (Real.rpow_le_rpow pm.le (min_le_left _ _) ha0)
            (Real.rpow_le_rpow pm.le (min_le_right _ _) hb0) (by positivity) (by positivity)
    · calc _ ≤ max r[i] r[i + 1] ^ a * max r[i] r[i + 1] ^ b := mul_le_mul (Real.rpow_le_rpow p1.le (le_max_left _ _) ha0)
            (Real.rpow_le_rpow p2.le (le_max_right _ _) hb0) (by positivity) (by positivity)
        _ = max r[i] r[i + 1] := by rw [← Real.rpow_add pM, hs, Real.rpow_one]

/-- C42: different lengths and an empty grid are rejected. -/
theorem C42_errors (x q r : List ℝ) (hpos : ∀ v ∈ r, 0 < v) (h : r.length ≠ q.length ∨ q = []) :
    interpReflectivity x q r = .error .valueError := by
  unfold interpReflectivity npInterp
  rw [finite_map_some r _ (Real.logb 10) fun v hv => if_pos (hpos v hv)]
  simp only [bind_ok, List.length_map]
  rw [if_pos h]
  rfl

/-- The hypotheses of C42 hold for a grid of three points. -/
example : ([0.01, 0.02, 0.04] : List ℝ).Pairwise (· < ·) ∧ ∀ v ∈ ([1, 0.5, 0.001] : List ℝ), 0 < v := by
  norm_num

theorem npInterp1_shift (q f : List ℝ) (s x : ℝ) :
    npInterp1 (q.map fun (p : ℝ) => p + s) f x = npInterp1 q f (x - s) := by
  have h1 : ((q.map fun (p : ℝ) => p + s).takeWhile fun (p : ℝ) => decide (p ≤ x)).length =
      (q.takeWhile fun (p : ℝ) => decide (p ≤ x - s)).length := by
    induction q with
    | nil => rfl
    | cons a q ih =>
      have : (a + s ≤ x) ↔ (a ≤ x - s) := le_sub_iff_add_le.symm
      simp only [List.map_cons, List.takeWhile_cons, this]
      split_ifs
      · simp [ih]
      · rfl
  have h2 : (q.takeWhile fun (p : ℝ) => decide (p ≤ x - s)).length ≤ q.length :=
    (List.takeWhile_prefix _).length_le
  unfold npInterp1
  simp only [h1, List.length_map]
  generalize (q.takeWhile fun (p : ℝ) => decide (p ≤ x - s)).length = j at h2
  have h3 : ∀ i, i < q.length → (q.map fun (p : ℝ) => p + s).getD i 0 = q.getD i 0 + s := by
    intro i hi
    rw [getD_lt (by simpa using hi), getD_lt hi]
    simp
  by_cases hj0 : j = 0
  · simp [hj0]
  · rw [if_neg hj0, if_neg hj0]
    by_cases hj1 : j = q.length
    · rw [if_pos hj1, if_pos hj1]
    · rw [if_neg hj1, if_neg hj1, h3 (j - 1) (by omega), h3 j (by omega)]
      simp only [eq_sub_iff_add_eq]
      split_ifs
      · rfl
      · congr 2
        · congr 1; ring
        · ring

/-- C43: shifting the grid is the same as shifting the targets back, for every grid, curve, shift and target
(including the rejected ones). -/
theorem C43_shift (x q r : List ℝ) (s : ℝ) :
    interpReflectivity x (q.map fun (p : ℝ) => p + s) r = interpReflectivity (x.map fun (y : ℝ) => y - s) q r := by
  unfold interpReflectivity npInterp
  cases finite (r.map fun (r : ℝ) => if 0 < r then some (Real.logb 10 r) else none) with
  | error e => rfl
  | ok l =>
    simp only [bind_ok, List.length_map, List.map_eq_nil_iff]
    split_ifs
    · rfl
    · simp only [bind_ok, List.map_map]
      congr 2
      ext y
      simp [npInterp1_shift]

theorem npInterp1_add (q f : List ℝ) (hl : f.length = q.length) (hne : q ≠ []) (c x : ℝ) :
    npInterp1 q (f.map fun (v : ℝ) => c + v) x = c + npInterp1 q f x := by
  have h2 : (q.takeWhile fun (p : ℝ) => decide (p ≤ x)).length ≤ q.length := (List.takeWhile_prefix _).length_le
  have hpos : 0 < q.length := List.length_pos_iff.2 hne
  unfold npInterp1
  simp only
  generalize (q.takeWhile fun (p : ℝ) => decide (p ≤ x)).length = j at h2
  have h3 : ∀ i, i < q.length → (f.map fun (v : ℝ) => c + v).getD i 0 = c + f.getD i 0 := by
    intro i hi
    rw [getD_lt (by rw [List.length_map, hl]; exact hi), getD_lt (by rw [hl]; exact hi)]
    simp
  by_cases hj0 : j = 0
  · rw [if_pos hj0, if_pos hj0, h3 0 hpos]
  · rw [if_neg hj0, if_neg hj0]
    by_cases hj1 : j = q.length
    · rw [if_pos hj1, if_pos hj1, h3 _ (by omega)]
    · rw [if_neg hj1, if_neg hj1, h3 (j - 1) (by omega), h3 j (by omega)]
      split_ifs
      · rfl
      · ring

/-- C43: scaling a positive curve scales the interpolation. -/
theorem C43_scale (x q r : List ℝ) (c : ℝ) (hc : 0 < c) (hpos : ∀ v ∈ r, 0 < v) :
    interpReflectivity x q (r.map fun (v : ℝ) => c * v) =
      (interpReflectivity x q r).map (fun (y : List ℝ) => y.map fun (v : ℝ) => c * v) := by
  by_cases hb : r.length ≠ q.length ∨ q = []
  · rw [C42_errors x q r hpos hb, C42_errors x q _ ?_ (by simpa using hb)]
    · rfl
    · intro v hv
      obtain ⟨w, hw, rfl⟩ := List.mem_map.1 hv
      exact mul_pos hc (hpos w hw)
  · have hb' := hb
    push Not at hb'
    unfold interpReflectivity npInterp
    rw [finite_map_some r _ (Real.logb 10) fun v hv => if_pos (hpos v hv), List.map_map,
      finite_map_some r _ (fun v => Real.logb 10 c + Real.logb 10 v)]
    · simp only [bind_ok, List.length_map]
      rw [if_neg hb, if_neg hb]
      simp only [bind_ok, Except.map, pure, Except.pure, Except.ok.injEq, List.map_map]
      refine List.map_congr_left fun y _ => ?_
      have : r.map (fun v => Real.logb 10 c + Real.logb 10 v) = (r.map (Real.logb 10)).map fun (v : ℝ) => Real.logb 10 c + v := by
        simp
      simp only [Function.comp_apply]
      rw [this, npInterp1_add q _ (by simpa using hb'.1) hb'.2, Real.rpow_add (by norm_num),
        Real.rpow_logb (by norm_num) (by norm_num) hc]
    · intro v hv
      simp only [Function.comp_apply]
      rw [if_pos (mul_pos hc (hpos v hv)), Real.logb_mul hc.ne' (hpos v hv).ne']

end Verif.Props
