import Verif.Model.Loaders
import Verif.Lemmas.Except
import Verif.Lemmas.PyList
import Verif.Props.Scans
import Verif.Props.SpecFile

/-!
# C54 to C57: loading scans from SPEC files
-/

namespace Verif.Props
open Verif.Py Verif.Model

/-! ### C55: trimming -/

theorem slice_back {α : Type} (l : List α) {n : Int} (hn : 0 < n) :
    slice l none (some (-n)) = l.take (l.length - n.toNat) := by
  unfold slice sliceBound
  simp only
  rw [if_neg (by omega), List.drop_zero]
  congr 1
  omega

theorem slice_front {α : Type} (l : List α) {n : Int} (hn : 0 ≤ n) :
    slice l (some n) none = l.drop n.toNat := by
  unfold slice sliceBound
  simp only
  rw [if_pos hn, List.take_length]
  rcases le_total n.toNat l.length with h | h
  · rw [Nat.min_eq_left h]
  · rw [Nat.min_eq_right h, List.drop_length, List.drop_eq_nil_of_le h]

/-- C55 for positive `trim_back`: exactly the first `f` and the last `b` points are removed, from the
angles and the intensities alike; `None` removes nothing. -/
theorem C55_trim_partial (angle intensity : List ℝ) (f b : Int) (hf : 0 ≤ f) (hb : 0 < b) :
    trim angle intensity (some f) (some b) =
      ((angle.take (angle.length - b.toNat)).drop f.toNat, (intensity.take (intensity.length - b.toNat)).drop f.toNat) ∧
    trim angle intensity (some f) none = (angle.drop f.toNat, intensity.drop f.toNat) ∧
    trim angle intensity none (some b) =
      (angle.take (angle.length - b.toNat), intensity.take (intensity.length - b.toNat)) ∧
    trim angle intensity none none = (angle, intensity) := by
  unfold trim trimFront trimBack
  simp only [slice_back _ hb, slice_front _ hf, and_self]

/-- C55 is false for `trim_back=0`: the slice `[:-0]` is empty and all points are removed. -/
theorem C55_trim_back_zero (angle intensity : List ℝ) (front : Option Int) :
    trim angle intensity front (some 0) = ([], []) := by
  have h : ∀ l : List ℝ, slice l none (some (-0)) = [] := by
    intro l
    simp [slice, sliceBound]
  cases front with
  | none => unfold trim trimBack; simp only [h]
  | some f =>
    unfold trim trimBack trimFront
    simp only [h]
    simp [slice, sliceBound]

example : trim [1, 2, 3, 4] [5, 6, 7, 8] (some 1) (some 2) = ([2], [6]) := by
  rw [(C55_trim_partial [1, 2, 3, 4] [5, 6, 7, 8] 1 2 (by norm_num) (by norm_num)).1]
  rfl

/-! ### C56: discontinuities -/

/-- The intended result of joining the curve `I` at repeated angles: the first point is kept, points at
the same angle get the same intensity, all other consecutive ratios are unchanged. -/
structure Joined (angle I J : List ℝ) : Prop where
  length : J.length = I.length
  first : J.getD 0 0 = I.getD 0 0
  same : ∀ k, k + 1 < I.length → angle.getD (k + 1) 0 = angle.getD k 0 → J.getD (k + 1) 0 = J.getD k 0
  other : ∀ k, k + 1 < I.length → angle.getD (k + 1) 0 ≠ angle.getD k 0 →
    J.getD (k + 1) 0 / J.getD k 0 = I.getD (k + 1) 0 / I.getD k 0

theorem getItem_getD0 {l : List ℝ} {k : Nat} (h : k < l.length) : getItem l (k : Int) = .ok (l.getD k 0) := by
  rw [getItem_nat h, getD_lt h]

/-- The loop invariant after `m` rounds. -/
structure JoinInv (angle I J : List ℝ) (m : Nat) : Prop where
  length : J.length = I.length
  first : J.getD 0 0 = I.getD 0 0
  nz : ∀ k, k < I.length → J.getD k 0 ≠ 0
  same : ∀ k, k < m → k + 1 < I.length → angle.getD (k + 1) 0 = angle.getD k 0 → J.getD (k + 1) 0 = J.getD k 0
  other : ∀ k, k + 1 < I.length → (m ≤ k ∨ angle.getD (k + 1) 0 ≠ angle.getD k 0) →
    J.getD (k + 1) 0 * I.getD k 0 = J.getD k 0 * I.getD (k + 1) 0

theorem scaled_getD {J : List ℝ} {m : Nat} {f : ℝ} (hm : m ≤ J.length) (k : Nat) :
    (J.take m ++ (J.drop m).map fun (z : ℝ) => z * f).getD k 0 =
      if k < m then J.getD k 0 else J.getD k 0 * f := by
  rw [List.getD_eq_getElem?_getD, List.getD_eq_getElem?_getD]
  split_ifs with h
  · rw [List.getElem?_append_left (by rw [List.length_take]; omega), List.getElem?_take_of_lt h]
  · rw [List.getElem?_append_right (by rw [List.length_take]; omega), List.length_take, Nat.min_eq_left hm,
      List.getElem?_map, List.getElem?_drop, show m + (k - m) = k by omega]
    cases J[k]? with
    | none => simp
    | some x => simp

theorem disc_step {angle I J : List ℝ} {m : Nat} (ha : angle.length = I.length) (hm : m + 1 < I.length)
    (h : JoinInv angle I J m) : ∃ J', discStep angle J m = .ok J' ∧ JoinInv angle I J' (m + 1) := by
  unfold discStep
  rw [getItem_getD0 (by omega), bind_ok, getItem_getD0 (by omega), bind_ok]
  by_cases he : angle.getD (m + 1) 0 = angle.getD m 0
  · rw [if_pos (sub_eq_zero.2 he), getItem_getD0 (by rw [h.length]; omega), bind_ok,
      getItem_getD0 (by rw [h.length]; omega), bind_ok, fdiv, if_neg (h.nz _ hm)]
    simp only
    refine ⟨_, rfl, ⟨?_, ?_, ?_, ?_, ?_⟩⟩
    · have := h.length
      simp only [List.length_append, List.length_take, List.length_map, List.length_drop]; omega
    · rw [scaled_getD (by rw [h.length]; omega), if_pos (by omega), h.first]
    · intro k hk
      rw [scaled_getD (by rw [h.length]; omega)]
      split_ifs
      · exact h.nz k hk
      · exact mul_ne_zero (h.nz k hk) (div_ne_zero (h.nz m (by omega)) (h.nz _ hm))
    · intro k hk hk1 hke
      rw [scaled_getD (by rw [h.length]; omega), scaled_getD (by rw [h.length]; omega)]
      rcases Nat.lt_succ_iff_lt_or_eq.1 hk with hlt | rfl
      · rw [if_pos (by omega), if_pos (by omega)]; exact h.same k hlt hk1 hke
      · rw [if_neg (by omega), if_pos (by omega)]
        have := h.nz (k + 1) hm
        field_simp
    · intro k hk1 hor
      rw [scaled_getD (by rw [h.length]; omega), scaled_getD (by rw [h.length]; omega)]
      rcases Nat.lt_trichotomy k m with hlt | rfl | hgt
      · rw [if_pos (by omega), if_pos (by omega)]
        refine h.other k hk1 (Or.inr ?_)
        rcases hor with h1 | h1
        · omega
        · exact h1
      · rcases hor with h1 | h1
        · omega
        · exact absurd he h1
      · rw [if_neg (by omega), if_neg (by omega)]
        have := h.other k hk1 (Or.inl (by omega))
        linear_combination (J.getD m 0 / J.getD (m + 1) 0) * this
  · rw [if_neg (fun h0 => he (sub_eq_zero.1 h0))]
    refine ⟨J, rfl, h.length, h.first, h.nz, ?_, ?_⟩
    · intro k hk hk1 hke
      rcases Nat.lt_succ_iff_lt_or_eq.1 hk with hlt | rfl
      · exact h.same k hlt hk1 hke
      · exact absurd hke he
    · intro k hk1 hor
      refine h.other k hk1 ?_
      rcases hor with h1 | h1
      · exact Or.inl (by omega)
      · exact Or.inr h1

theorem disc_loop {angle I : List ℝ} (ha : angle.length = I.length) (hI : ∀ k, k < I.length → I.getD k 0 ≠ 0)
    (m : Nat) (hm : m ≤ I.length - 1) :
    ∃ J, (List.range m).foldlM (discStep angle) I = .ok J ∧ JoinInv angle I J m := by
  induction m with
  | zero => exact ⟨I, rfl, rfl, rfl, hI, fun k hk => by omega, fun k _ _ => mul_comm _ _⟩
  | succ m ih =>
    obtain ⟨J, h1, h2⟩ := ih (by omega)
    obtain ⟨J', h3, h4⟩ := disc_step ha (by omega) h2
    refine ⟨J', ?_, h4⟩
    rw [List.range_succ, List.foldlM_append, h1, bind_ok, List.foldlM_cons, h3]
    rfl

theorem Joined.nz {angle I J : List ℝ} (h : Joined angle I J) (hI : ∀ k, k < I.length → I.getD k 0 ≠ 0) (k : Nat)
    (hk : k < I.length) : J.getD k 0 ≠ 0 := by
  induction k with
  | zero => rw [h.first]; exact hI 0 hk
  | succ k ih =>
    by_cases he : angle.getD (k + 1) 0 = angle.getD k 0
    · rw [h.same k hk he]; exact ih (by omega)
    · have h1 := h.other k hk he
      intro h0
      rw [h0, zero_div] at h1
      exact div_ne_zero (hI _ hk) (hI k (by omega)) h1.symm

theorem Joined.unique {angle I J K : List ℝ} (hI : ∀ k, k < I.length → I.getD k 0 ≠ 0) (h : Joined angle I J)
    (h' : Joined angle I K) : J = K := by
  have key : ∀ k, k < I.length → J.getD k 0 = K.getD k 0 := by
    intro k
    induction k with
    | zero => intro _; rw [h.first, h'.first]
    | succ k ih =>
      intro hk
      have hJ := h.nz hI k (by omega)
      have hK := h'.nz hI k (by omega)
      by_cases he : angle.getD (k + 1) 0 = angle.getD k 0
      · rw [h.same k hk he, h'.same k hk he, ih (by omega)]
      · have h1 := h.other k hk he
        have h2 := h'.other k hk he
        rw [← h2, ih (by omega), div_left_inj' hK] at h1
        exact h1
  refine List.ext_getElem (h.length.trans h'.length.symm) fun k h1 h2 => ?_
  rw [← getD_lt (d := 0) h1, ← getD_lt (d := 0) h2]
  exact key k (by rw [← h.length]; exact h1)

/-- C56: for a curve without zeros the correction joins the curve at repeated angles and changes
nothing else; the result is the only curve with this property, correcting it again changes nothing,
and positive curves stay positive. -/
theorem C56_joined (angle I : List ℝ) (ha : angle.length = I.length) (hI : ∀ x ∈ I, x ≠ 0) :
    ∃ J, correctDiscontinuities I angle = .ok J ∧ Joined angle I J ∧ (∀ K, Joined angle I K → K = J) ∧
      correctDiscontinuities J angle = .ok J ∧ ((∀ x ∈ I, 0 < x) → ∀ x ∈ J, 0 < x) := by
  have nz : ∀ {L : List ℝ}, (∀ x ∈ L, x ≠ 0) → ∀ k, k < L.length → L.getD k 0 ≠ 0 := by
    intro L hL k hk
    rw [getD_lt hk]
    exact hL _ (List.getElem_mem hk)
  have main : ∀ L : List ℝ, angle.length = L.length → (∀ k, k < L.length → L.getD k 0 ≠ 0) →
      ∃ J, correctDiscontinuities L angle = .ok J ∧ Joined angle L J ∧ ∀ k, k < L.length → J.getD k 0 ≠ 0 := by
    intro L hL hz
    obtain ⟨J, h1, h2⟩ := disc_loop hL hz (L.length - 1) (le_refl _)
    refine ⟨J, ?_, ⟨h2.length, h2.first, fun k hk he => h2.same k (by omega) hk he, fun k hk he => ?_⟩, h2.nz⟩
    · unfold correctDiscontinuities; rw [hL]; exact h1
    · have := h2.other k hk (Or.inr he)
      rw [div_eq_div_iff (h2.nz k (by omega)) (hz k (by omega))]
      linarith
  obtain ⟨J, h1, h2, h3⟩ := main I ha (nz hI)
  refine ⟨J, h1, h2, fun K hK => hK.unique (nz hI) h2, ?_, fun hpos x hx => ?_⟩
  · obtain ⟨J', g1, g2, -⟩ := main J (by rw [h2.length, ha]) (by rw [h2.length]; exact h3)
    have hJ : Joined angle J J := ⟨rfl, rfl, fun k hk => h2.same k (by rw [← h2.length]; exact hk), fun k _ _ => rfl⟩
    rw [g1, g2.unique (by rw [h2.length]; exact h3) hJ]
  · have hp : ∀ k, k < I.length → 0 < J.getD k 0 := by
      have hIp : ∀ k, k < I.length → 0 < I.getD k 0 := fun k hk => by
        rw [getD_lt hk]; exact hpos _ (List.getElem_mem hk)
      intro k
      induction k with
      | zero => intro hk; rw [h2.first]; exact hIp 0 hk
      | succ k ih =>
        intro hk
        have h0 := ih (by omega)
        by_cases he : angle.getD (k + 1) 0 = angle.getD k 0
        · rw [h2.same k hk he]; exact h0
        · have h4 := h2.other k hk he
          rw [div_eq_iff h0.ne'] at h4
          rw [h4]
          exact mul_pos (div_pos (hIp _ hk) (hIp k (by omega))) h0
    obtain ⟨k, hk, rfl⟩ := List.getElem_of_mem hx
    rw [← getD_lt (d := 0) hk]
    exact hp k (by rw [← h2.length]; exact hk)

theorem pos_of_sq_mul {a b : ℝ} (ha : a ≠ 0) (h : 0 < a ^ 2 * b) : 0 < b :=
  (pos_iff_pos_of_mul_pos h).1 (sq_pos_of_ne_zero ha)

theorem pos_of_mul_sq {a b : ℝ} (ha : a ≠ 0) (h : 0 < b * a ^ 2) : 0 < b :=
  (pos_iff_pos_of_mul_pos h).2 (sq_pos_of_ne_zero ha)

/-- C56, signs: they are preserved exactly if the curve does not change its sign between two points at
the same angle. -/
theorem C56_sign_iff_partial (angle I J : List ℝ) (ha : angle.length = I.length) (hI : ∀ x ∈ I, x ≠ 0)
    (hJ : correctDiscontinuities I angle = .ok J) :
    (∀ k, k < I.length → 0 < J.getD k 0 * I.getD k 0) ↔
      ∀ k, k + 1 < I.length → angle.getD (k + 1) 0 = angle.getD k 0 → 0 < I.getD k 0 * I.getD (k + 1) 0 := by
  obtain ⟨J', h1, h2, -⟩ := C56_joined angle I ha hI
  rw [hJ] at h1
  cases h1
  have nz : ∀ k, k < I.length → I.getD k 0 ≠ 0 := by
    intro k hk
    rw [getD_lt hk]
    exact hI _ (List.getElem_mem hk)
  constructor
  · intro h k hk he
    have h3 := h k (by omega)
    have h4 := h (k + 1) hk
    rw [h2.same k hk he] at h4
    have h5 := mul_pos h3 h4
    have h6 : J.getD k 0 * I.getD k 0 * (J.getD k 0 * I.getD (k + 1) 0) =
        (J.getD k 0) ^ 2 * (I.getD k 0 * I.getD (k + 1) 0) := by ring
    rw [h6] at h5
    exact pos_of_sq_mul (h2.nz nz k (by omega)) h5
  · intro h k
    induction k with
    | zero => intro hk; rw [h2.first]; exact mul_self_pos.2 (nz 0 hk)
    | succ k ih =>
      intro hk
      have h0 := ih (by omega)
      have hJk := h2.nz nz k (by omega)
      by_cases he : angle.getD (k + 1) 0 = angle.getD k 0
      · rw [h2.same k hk he]
        have h3 := h k hk he
        have h5 := mul_pos h0 h3
        have h6 : J.getD k 0 * I.getD k 0 * (I.getD k 0 * I.getD (k + 1) 0) =
            (I.getD k 0) ^ 2 * (J.getD k 0 * I.getD (k + 1) 0) := by ring
        rw [h6] at h5
        exact pos_of_sq_mul (nz k (by omega)) h5
      · have h4 := h2.other k hk he
        rw [div_eq_div_iff hJk (nz k (by omega))] at h4
        have h7 : J.getD (k + 1) 0 * I.getD (k + 1) 0 * (I.getD k 0) ^ 2 =
            (I.getD (k + 1) 0) ^ 2 * (J.getD k 0 * I.getD k 0) := by
          have : J.getD (k + 1) 0 * I.getD k 0 = I.getD (k + 1) 0 * J.getD k 0 := h4
          calc _ = (J.getD (k + 1) 0 * I.getD k 0) * (I.getD (k + 1) 0 * I.getD k 0) := by ring
            _ = _ := by rw [this]; ring
        have h8 : 0 < J.getD (k + 1) 0 * I.getD (k + 1) 0 * (I.getD k 0) ^ 2 := by
          rw [h7]
          exact mul_pos (sq_pos_of_ne_zero (nz _ hk)) h0
        exact pos_of_mul_sq (nz k (by omega)) h8

/-! ### C54: loading several scans -/

theorem loadScans_error {α β : Type} {load : α → Res β} {n : α} {ns : List α} {e : PyErr} (h : load n = .error e)
    (he : e ≠ .notReflectivityScan) : loadScans load (n :: ns) = .error e := by
  unfold loadScans
  rw [h]
  cases e <;> first | rfl | exact absurd rfl he

theorem loadScans_skip {α β : Type} {load : α → Res β} {n : α} {ns : List α}
    (h : load n = .error .notReflectivityScan) : loadScans load (n :: ns) = loadScans load ns := by
  rw [loadScans, h]

theorem loadScans_ok {α β : Type} {load : α → Res β} {n : α} {ns : List α} {s : β}
    (h : load n = .ok s) : loadScans load (n :: ns) = (do return s :: (← loadScans load ns)) := by
  rw [loadScans, h]

/-- C54: `load_scans` succeeds exactly if every requested number either loads or is not a
reflectivity scan, and then returns the loaded scans in request order. -/
theorem C54_order {α β : Type} (load : α → Res β) (ns : List α) (r : List β) :
    loadScans load ns = .ok r ↔
      (∀ n ∈ ns, (∃ s, load n = .ok s) ∨ load n = .error .notReflectivityScan) ∧
      r = ns.filterMap fun n => (load n).toOption := by
  induction ns generalizing r with
  | nil => simp [loadScans, eq_comm]
  | cons n ns ih =>
    rcases hn : load n with e | s
    · by_cases he : e = .notReflectivityScan
      · subst he
        rw [loadScans_skip hn]
        simp only [ih, List.mem_cons, forall_eq_or_imp, hn, List.filterMap_cons, Except.toOption]
        simp
      · have h1 : ¬ (∃ s, load n = .ok s) ∧ load n ≠ .error .notReflectivityScan := by
          rw [hn]; exact ⟨by simp, by simpa using he⟩
        rw [loadScans_error hn he]
        constructor
        · intro h; cases h
        · intro h
          rcases h.1 n (List.mem_cons_self ..) with h3 | h3
          · exact absurd h3 h1.1
          · exact absurd h3 h1.2
    · rw [loadScans_ok hn]
      simp only [bind_eq_ok, ih, List.mem_cons, forall_eq_or_imp, hn, List.filterMap_cons, Except.toOption]
      constructor
      · rintro ⟨l, ⟨h1, rfl⟩, h2⟩
        cases h2
        exact ⟨⟨Or.inl ⟨s, rfl⟩, h1⟩, rfl⟩
      · rintro ⟨⟨-, h1⟩, rfl⟩
        exact ⟨_, ⟨h1, rfl⟩, rfl⟩

/-- C54: the call fails exactly with the first error that does not say "not a reflectivity scan". -/
theorem C54_abort {α β : Type} (load : α → Res β) (ns : List α) (e : PyErr) :
    loadScans load ns = .error e ↔ ∃ pre n post, ns = pre ++ n :: post ∧
      (∀ m ∈ pre, (∃ s, load m = .ok s) ∨ load m = .error .notReflectivityScan) ∧
      load n = .error e ∧ e ≠ .notReflectivityScan := by
  induction ns with
  | nil => simp [loadScans]
  | cons n ns ih =>
    have skip : ((∃ s, load n = .ok s) ∨ load n = .error .notReflectivityScan) →
        ((∃ pre m post, ns = pre ++ m :: post ∧
          (∀ m ∈ pre, (∃ s, load m = .ok s) ∨ load m = .error .notReflectivityScan) ∧
          load m = .error e ∧ e ≠ .notReflectivityScan) ↔
        ∃ pre m post, n :: ns = pre ++ m :: post ∧
          (∀ m ∈ pre, (∃ s, load m = .ok s) ∨ load m = .error .notReflectivityScan) ∧
          load m = .error e ∧ e ≠ .notReflectivityScan) := by
      intro hn
      constructor
      · rintro ⟨pre, m, post, rfl, h1, h2⟩
        refine ⟨n :: pre, m, post, rfl, ?_, h2⟩
        intro x hx
        rcases List.mem_cons.1 hx with rfl | hx
        · exact hn
        · exact h1 x hx
      · rintro ⟨pre, m, post, h0, h1, h2, h3⟩
        cases pre with
        | nil =>
          simp only [List.nil_append, List.cons.injEq] at h0
          obtain ⟨rfl, -⟩ := h0
          rcases hn with ⟨s, hs⟩ | hn
          · rw [hs] at h2; cases h2
          · rw [hn] at h2; cases h2; exact absurd rfl h3
        | cons x pre =>
          simp only [List.cons_append, List.cons.injEq] at h0
          obtain ⟨rfl, rfl⟩ := h0
          exact ⟨pre, m, post, rfl, fun y hy => h1 y (List.mem_cons_of_mem _ hy), h2, h3⟩
    rcases hn : load n with e' | s
    · by_cases he : e' = .notReflectivityScan
      · subst he
        rw [loadScans_skip hn, ← skip (Or.inr hn), ← ih]
      · rw [loadScans_error hn he]
        constructor
        · intro h
          cases h
          exact ⟨[], n, ns, rfl, by simp, hn, he⟩
        · rintro ⟨pre, m, post, h0, h1, h3, h4⟩
          cases pre with
          | nil =>
            simp only [List.nil_append, List.cons.injEq] at h0
            obtain ⟨rfl, -⟩ := h0
            rw [hn] at h3; cases h3; rfl
          | cons x pre =>
            simp only [List.cons_append, List.cons.injEq] at h0
            obtain ⟨rfl, rfl⟩ := h0
            rcases h1 n (List.mem_cons_self ..) with ⟨s, hs⟩ | h5
            · rw [hn] at hs; cases hs
            · rw [hn] at h5; cases h5; exact absurd rfl he
    · rw [loadScans_ok hn, ← skip (Or.inl ⟨s, hn⟩), ← ih]
      cases loadScans load ns with
      | error e' => rfl
      | ok l => simp

/-- A computation that does not report "not a reflectivity scan". -/
def NoNR {α : Type} (x : Res α) : Prop := x ≠ .error .notReflectivityScan

theorem NoNR.ok {α : Type} (a : α) : NoNR (.ok a : Res α) := by intro h; cases h

theorem NoNR.bind {α β : Type} {x : Res α} {f : α → Res β} (hx : NoNR x) (hf : ∀ a, NoNR (f a)) : NoNR (x >>= f) := by
  cases x with
  | error e => intro h; rw [bind_error] at h; cases h; exact hx rfl
  | ok a => exact hf a

theorem NoNR.getItem {α : Type} (l : List α) (i : Int) : NoNR (getItem l i) := by
  unfold Py.getItem
  split
  · split
    · exact NoNR.ok _
    · intro h; cases h
  · intro h; cases h

theorem NoNR.mapM {α β : Type} {f : α → Res β} (hf : ∀ a, NoNR (f a)) (l : List α) : NoNR (l.mapM f) := by
  induction l with
  | nil => exact NoNR.ok _
  | cons a l ih =>
    rw [mapM_cons]
    exact NoNR.bind (hf a) fun _ => NoNR.bind ih fun _ => NoNR.ok _

theorem NoNR.foldlM {α β : Type} {f : β → α → Res β} (hf : ∀ b a, NoNR (f b a)) (l : List α) (b : β) :
    NoNR (l.foldlM f b) := by
  induction l generalizing b with
  | nil => exact NoNR.ok _
  | cons a l ih =>
    rw [List.foldlM_cons]
    exact NoNR.bind (hf b a) fun _ => ih _

theorem NoNR.ew {α β γ : Type} (f : α → β → γ) (a : List α) (b : List β) : NoNR (ew f a b) := by
  unfold Model.ew
  split
  · exact NoNR.ok _
  · split
    · exact NoNR.ok _
    · exact NoNR.ok _
    · intro h; cases h

theorem NoNR.finite {α : Type} (l : List (Option α)) : NoNR (finite l) := by
  refine NoNR.mapM (fun o => ?_) l
  cases o with
  | none => intro h; cases h
  | some a => exact NoNR.ok _

theorem NoNR.column {F : Type} (t : NumTable F) (c : Str) : NoNR (t.column c) := by
  unfold NumTable.column
  split
  · intro h; cases h
  · exact NoNR.mapM (fun r => NoNR.getItem r _) _

theorem NoNR.disc (i a : List ℝ) : NoNR (correctDiscontinuities i a) := by
  refine NoNR.foldlM (fun b k => ?_) _ _
  unfold discStep
  refine NoNR.bind (NoNR.getItem _ _) fun _ => NoNR.bind (NoNR.getItem _ _) fun _ => ?_
  split
  · refine NoNR.bind (NoNR.getItem _ _) fun _ => NoNR.bind (NoNR.getItem _ _) fun _ => ?_
    split
    · intro h; cases h
    · exact NoNR.ok _
  · exact NoNR.ok _

theorem NoNR.intensity (s : SpecLoader) (t : NumTable ℝ) (a : List ℝ) : NoNR (s.intensity t a) := by
  unfold SpecLoader.intensity
  refine NoNR.bind (NoNR.column _ _) fun _ => NoNR.bind ?_ fun _ => ?_
  · unfold SpecLoader.attenuate
    split
    · exact NoNR.ok _
    · exact NoNR.bind (NoNR.column _ _) fun _ => NoNR.bind (NoNR.ew _ _ _) fun _ => NoNR.disc _ _
  · unfold SpecLoader.divide
    split
    · exact NoNR.ok _
    · exact NoNR.bind (NoNR.column _ _) fun _ => NoNR.bind (NoNR.ew _ _ _) fun _ => NoNR.finite _

theorem NoNR.index (idx : ScanIndex) (n : Int) : NoNR (idx.get n) := by
  unfold ScanIndex.get
  split
  · exact NoNR.ok _
  · intro h; cases h

theorem NoNR.extract {F : Type} (pf : Str → Option F) (p : SpecParser) (n : Int) : NoNR (p.extractScan pf n) := by
  have hh : NoNR (p.headerLine n) := by
    unfold SpecParser.headerLine
    refine NoNR.bind (NoNR.index _ _) fun _ => ?_
    split
    · exact NoNR.ok _
    · intro h; cases h
  unfold SpecParser.extractScan
  refine NoNR.bind ?_ fun _ => NoNR.bind ?_ fun _ => ?_
  · exact NoNR.bind hh fun _ => NoNR.bind (NoNR.getItem _ _) fun _ => NoNR.ok _
  · refine NoNR.bind hh fun _ => ?_
    unfold floatArray
    split
    · exact NoNR.ok _
    · split
      · refine NoNR.mapM (fun row => NoNR.mapM (fun tok => ?_) _) _
        split
        · exact NoNR.ok _
        · intro h; cases h
      · intro h; cases h
  · unfold dataFrame
    split
    · split
      · exact NoNR.ok _
      · intro h; cases h
    · split
      · exact NoNR.ok _
      · intro h; cases h

/-- C54 for SPEC files: which scans are skipped. A scan is skipped exactly if the table cannot be
extracted (missing number, missing column header, malformed table) or an angle column is missing. -/
theorem C54_spec_skipped_iff (pf : Str → Option ℝ) (s : SpecLoader) (n : Int) (front back : Option Int) :
    s.loadScan pf n front back = .error .notReflectivityScan ↔
      s.parser.extractScan pf n = .error .keyError ∨ s.parser.extractScan pf n = .error .valueError ∨
      ∃ t, s.parser.extractScan pf n = .ok t ∧ ∃ c ∈ s.angleColumns, c ∉ t.columns := by
  have hx := NoNR.extract pf s.parser n
  unfold SpecLoader.loadScan
  rcases he : s.parser.extractScan pf n with e | t
  · rw [he] at hx
    cases e <;> simp at hx ⊢
    exact absurd rfl hx
  · simp only [reduceCtorEq, false_or, Except.ok.injEq, exists_eq_left']
    have hc : containsCounters s.angleColumns t.columns = true ↔ ∀ c ∈ s.angleColumns, c ∈ t.columns := by
      unfold containsCounters; simp
    by_cases h : containsCounters s.angleColumns t.columns = true
    · rw [if_pos h]
      constructor
      · intro h1
        refine absurd h1 ?_
        refine NoNR.bind (NoNR.index _ _) fun e => NoNR.bind ?_ fun _ =>
          NoNR.bind (NoNR.mapM (fun c => NoNR.column _ _) _) fun _ => NoNR.bind (NoNR.intensity _ _ _) fun _ => NoNR.ok _
        unfold ScanEntry.timeOf
        split
        · exact NoNR.ok _
        · intro h; cases h
      · rintro ⟨c, hc1, hc2⟩
        exact absurd (hc.1 h c hc1) hc2
    · rw [if_neg h]
      refine ⟨fun _ => ?_, fun _ => rfl⟩
      by_contra hcon
      push Not at hcon
      exact h (hc.2 hcon)

/-! ### C57: the content of a loaded scan -/

/-- The entry of a table in row `k` and column `c`. -/
def cell (t : NumTable ℝ) (k : Nat) (c : Str) : ℝ := (t.rows.getD k []).getD (t.columns.idxOf c) 0

/-- The factor by which point `k` of the curve `P` is rescaled to join the curve at repeated angles. -/
noncomputable def joinFactor (angle P : Nat → ℝ) (k : Nat) : ℝ :=
  ∏ j ∈ Finset.range k, if angle (j + 1) = angle j then P j / P (j + 1) else 1

theorem disc_closed {angle I J : List ℝ} (ha : angle.length = I.length) (m : Nat) (hm : m ≤ I.length - 1)
    (h : (List.range m).foldlM (discStep angle) I = .ok J) :
    J.length = I.length ∧ ∀ k, k < I.length →
      J.getD k 0 = I.getD k 0 * joinFactor (fun j => angle.getD j 0) (fun j => I.getD j 0) (min k m) := by
  induction m generalizing J with
  | zero => cases h; simp [joinFactor]
  | succ m ih =>
    rw [List.range_succ, List.foldlM_append] at h
    obtain ⟨L, h1, h2⟩ := bind_eq_ok.1 h
    obtain ⟨hl, hv⟩ := ih (by omega) h1
    rw [List.foldlM_cons] at h2
    obtain ⟨J', h2, h3⟩ := bind_eq_ok.1 h2
    cases h3
    unfold discStep at h2
    rw [getItem_getD0 (by omega), bind_ok, getItem_getD0 (by omega), bind_ok] at h2
    have hsplit : ∀ k, m < k → joinFactor (fun j => angle.getD j 0) (fun j => I.getD j 0) (min k (m + 1)) =
        joinFactor (fun j => angle.getD j 0) (fun j => I.getD j 0) m *
          if angle.getD (m + 1) 0 = angle.getD m 0 then I.getD m 0 / I.getD (m + 1) 0 else 1 := by
      intro k hk
      rw [show min k (m + 1) = m + 1 by omega]
      unfold joinFactor
      rw [Finset.prod_range_succ]
    by_cases he : angle.getD (m + 1) 0 = angle.getD m 0
    · rw [if_pos (sub_eq_zero.2 he), getItem_getD0 (by omega), bind_ok, getItem_getD0 (by omega), bind_ok, fdiv] at h2
      by_cases hz : L.getD (m + 1) 0 = 0
      · rw [if_pos hz] at h2; cases h2
      · rw [if_neg hz] at h2
        cases h2
        refine ⟨by simp only [List.length_append, List.length_take, List.length_map, List.length_drop]; omega, ?_⟩
        intro k hk
        rw [scaled_getD (by omega)]
        rcases Nat.lt_or_ge k (m + 1) with hlt | hge
        · rw [if_pos hlt, hv k hk, show min k m = k by omega, show min k (m + 1) = k by omega]
        · rw [if_neg (by omega), hv k hk, show min k m = m by omega, hsplit k hge, if_pos he]
          have h5 := hv m (by omega)
          have h6 := hv (m + 1) (by omega)
          rw [show min m m = m by omega] at h5
          rw [show min (m + 1) m = m by omega] at h6
          rw [h6] at hz
          rw [h5, h6]
          have h7 : joinFactor (fun j => angle.getD j 0) (fun j => I.getD j 0) m ≠ 0 := fun h0 => hz (by rw [h0, mul_zero])
          have h8 : I.getD (m + 1) 0 ≠ 0 := fun h0 => hz (by rw [h0, zero_mul])
          field_simp
    · rw [if_neg (fun h0 => he (sub_eq_zero.1 h0))] at h2
      cases h2
      refine ⟨hl, fun k hk => ?_⟩
      rw [hv k hk]
      rcases Nat.lt_or_ge k (m + 1) with hlt | hge
      · rw [show min k m = k by omega, show min k (m + 1) = k by omega]
      · rw [show min k m = m by omega, hsplit k hge, if_neg he, mul_one]

theorem rows_of_extract {pf : Str → Option ℝ} {p : SpecParser} {n : Int} {t : NumTable ℝ}
    (h : p.extractScan pf n = .ok t) : ∀ r ∈ t.rows, r.length = t.columns.length := by
  unfold SpecParser.extractScan at h
  obtain ⟨names, -, h⟩ := bind_eq_ok.1 h
  obtain ⟨data, hd, h⟩ := bind_eq_ok.1 h
  unfold SpecParser.scanData at hd
  obtain ⟨i, -, hd⟩ := bind_eq_ok.1 hd
  have hrect : ∀ r ∈ data, ∀ r' ∈ data, r.length = r'.length := by
    unfold floatArray at hd
    split at hd
    · cases hd; simp
    · rename_i row rows heq
      split at hd
      · rename_i hall
        have hf := mapM_ok_iff.1 hd
        have key : ∀ (f : Str → Res ℝ) (a : List (List Str)) (b : List (List ℝ)), (∀ s ∈ a, s.length = row.length) →
            List.Forall₂ (fun (x : List Str) y => x.mapM f = .ok y) a b →
            ∀ r ∈ b, r.length = row.length := by
          intro f a b ha hab
          induction hab with
          | nil => simp
          | cons h1 _ ih =>
            intro r hr
            rcases List.mem_cons.1 hr with rfl | hr
            · rw [← (mapM_ok_iff.1 h1).length_eq]
              exact ha _ (List.mem_cons_self ..)
            · exact ih (fun s hs => ha s (List.mem_cons_of_mem _ hs)) r hr
        intro r hr r' hr'
        rw [key _ _ _ hall hf r hr, key _ _ _ hall hf r' hr']
      · cases hd
  unfold dataFrame at h
  split at h
  · split at h
    · cases h; simp
    · cases h
  · rename_i r0 rs _
    split at h
    · rename_i hl
      cases h
      intro r hr
      rw [← hl]
      exact hrect r hr r0 (List.mem_cons_self ..)
    · cases h

theorem column_cell {t : NumTable ℝ} (hr : ∀ r ∈ t.rows, r.length = t.columns.length) {c : Str} {l : List ℝ}
    (h : t.column c = .ok l) : l = (List.range t.rows.length).map fun k => cell t k c := by
  unfold NumTable.column at h
  split at h
  · cases h
  · rename_i j hj
    obtain ⟨hjl, hjc, -⟩ := List.findIdx?_eq_some_iff_getElem.1 hj
    have hidx : t.columns.idxOf c = j := by
      have : t.columns.findIdx? (fun x => x = c) = some j := hj
      rw [List.idxOf]
      rw [List.findIdx?_eq_some_iff_findIdx_eq] at this
      have h2 := this.2
      rw [← h2]
      congr 1
      funext x
      exact beq_eq_decide x c
    have h3 := mapM_ok_iff.1 h
    refine List.ext_getElem (by rw [List.length_map, List.length_range]; exact h3.length_eq.symm) fun k h1 h2 => ?_
    rw [List.getElem_map, List.getElem_range]
    have hk : k < t.rows.length := by rw [h3.length_eq]; exact h1
    have h4 : getItem t.rows[k] (j : Int) = .ok l[k] := (List.forall₂_iff_get.1 h3).2 k hk h1
    have hjr : j < (t.rows[k]).length := by rw [hr _ (List.getElem_mem hk)]; exact hjl
    rw [getItem_getD0 hjr] at h4
    have h5 := Except.ok.inj h4
    rw [← h5]
    unfold cell
    rw [getD_lt hk, hidx]

theorem zipWith_rangeMap {n : Nat} (f : ℝ → ℝ → ℝ) (a b : Nat → ℝ) :
    List.zipWith f ((List.range n).map a) ((List.range n).map b) = (List.range n).map fun k => f (a k) (b k) := by
  rw [List.zipWith_map, List.zipWith_self]

theorem sumAbs_cell (t : NumTable ℝ) (n : Nat) {cs : List Str} (hne : cs ≠ []) :
    sumAbs (cs.map fun c => (List.range n).map fun k => cell t k c) =
      (List.range n).map fun k => (cs.map fun c => |cell t k c|).sum := by
  cases cs with
  | nil => exact absurd rfl hne
  | cons c cs =>
    unfold sumAbs
    simp only [List.map_cons]
    have key : ∀ (cs : List Str) (g : Nat → ℝ),
        (cs.map fun c => (List.range n).map fun k => cell t k c).foldl
          (fun acc d => List.zipWith (fun (x y : ℝ) => x + |y|) acc d) ((List.range n).map g) =
        (List.range n).map fun k => g k + (cs.map fun c => |cell t k c|).sum := by
      intro cs
      induction cs with
      | nil => intro g; simp
      | cons c cs ih =>
        intro g
        rw [List.map_cons, List.foldl_cons, zipWith_rangeMap, ih]
        refine List.map_congr_left fun k _ => ?_
        rw [List.map_cons, List.sum_cons, add_assoc]
    rw [List.map_map]
    rw [show ((fun (x : ℝ) => |x|) ∘ fun k => cell t k c) = fun k => |cell t k c| from rfl, key]
    refine List.map_congr_left fun k _ => ?_
    rw [List.sum_cons]

theorem getD_rangeMap {n k : Nat} (f : Nat → ℝ) (hk : k < n) : ((List.range n).map f).getD k 0 = f k := by
  rw [getD_lt (by simpa using hk), List.getElem_map, List.getElem_range]

theorem trim_lengths (a i : List ℝ) (front back : Option Int) (h : a.length = i.length) :
    (trim a i front back).1.length = (trim a i front back).2.length := by
  have hs : ∀ (l m : List ℝ) (lo hi : Option Int), l.length = m.length → (slice l lo hi).length = (slice m lo hi).length := by
    intro l m lo hi hlm
    unfold slice
    rw [List.length_drop, List.length_drop, List.length_take, List.length_take, hlm]
  unfold trim trimFront trimBack
  cases front <;> cases back <;> simp only
  · exact h
  · exact hs _ _ _ _ h
  · exact hs _ _ _ _ h
  · exact hs _ _ _ _ (hs _ _ _ _ h)


/-- The points kept by the two trims. -/
theorem trim_points (N : Nat) (A I : Nat → ℝ) (front back : Option Int) (hf : ∀ f, front = some f → 0 ≤ f)
    (hb : ∀ b, back = some b → 0 < b) :
    trim ((List.range N).map A) ((List.range N).map I) front back =
      ((List.range (N - (back.getD 0).toNat - (front.getD 0).toNat)).map fun k => A (k + (front.getD 0).toNat),
       (List.range (N - (back.getD 0).toNat - (front.getD 0).toNat)).map fun k => I (k + (front.getD 0).toNat)) := by
  have key : ∀ (g : Nat → ℝ) (f b : Nat), (((List.range N).map g).take (N - b)).drop f =
      (List.range (N - b - f)).map fun k => g (k + f) := by
    intro g f b
    refine List.ext_getElem ?_ fun k h1 h2 => ?_
    · simp
    · simp [Nat.add_comm]
  have key1 : ∀ (g : Nat → ℝ) (f : Nat), ((List.range N).map g).drop f = (List.range (N - f)).map fun k => g (k + f) := by
    intro g f
    have := key g f 0
    rwa [Nat.sub_zero, List.take_of_length_le (by simp)] at this
  have key2 : ∀ (g : Nat → ℝ) (b : Nat), ((List.range N).map g).take (N - b) = (List.range (N - b)).map g := by
    intro g b
    have := key g 0 b
    simpa using this
  cases front with
  | none =>
    cases back with
    | none => simp [trim]
    | some b =>
      rw [(C55_trim_partial _ _ 0 b le_rfl (hb b rfl)).2.2.1]
      simp only [List.length_map, List.length_range, key2]
      simp
  | some f =>
    cases back with
    | none =>
      rw [(C55_trim_partial _ _ f 1 (hf f rfl) one_pos).2.1]
      simp only [key1]
      simp
    | some b =>
      rw [(C55_trim_partial _ _ f b (hf f rfl) (hb b rfl)).1]
      simp only [List.length_map, List.length_range, key]
      simp

/-- The data of a SPEC scan that `load_scan` should deliver, point by point, before trimming:
`N` rows, the angle `A k`, the intensity `I k`. -/
structure SpecScanData (s : SpecLoader) (t : NumTable ℝ) (A I : Nat → ℝ) : Prop where
  angle : ∀ k, k < t.rows.length → A k = (s.angleColumns.map fun c => |cell t k c|).sum
  intensity : ∀ k, k < t.rows.length → I k =
    (match s.attenuatorColumn with
      | none => cell t k s.intensityColumn
      | some a => cell t k s.intensityColumn * cell t k a *
        joinFactor A (fun j => cell t j s.intensityColumn * cell t j a) k) /
    (match s.divisionColumn with
      | none => 1
      | some d => cell t k d)
  divisor : ∀ d, s.divisionColumn = some d → ∀ k, k < t.rows.length → cell t k d ≠ 0

theorem joinFactor_congr {A A' P P' : Nat → ℝ} {k : Nat} (hA : ∀ j, j ≤ k → A j = A' j) (hP : ∀ j, j ≤ k → P j = P' j) :
    joinFactor A P k = joinFactor A' P' k := by
  unfold joinFactor
  refine Finset.prod_congr rfl fun j hj => ?_
  have := Finset.mem_range.1 hj
  rw [hA _ (by omega), hA _ (by omega), hP _ (by omega), hP _ (by omega)]

theorem intensity_cell {s : SpecLoader} {t : NumTable ℝ} (hr : ∀ r ∈ t.rows, r.length = t.columns.length)
    {A : Nat → ℝ} (hA : ∀ k, k < t.rows.length → A k = (s.angleColumns.map fun c => |cell t k c|).sum) {i : List ℝ}
    (h : s.intensity t ((List.range t.rows.length).map A) = .ok i) :
    ∃ I : Nat → ℝ, i = (List.range t.rows.length).map I ∧ SpecScanData s t A I := by
  unfold SpecLoader.intensity at h
  obtain ⟨i0, h0, h⟩ := bind_eq_ok.1 h
  obtain ⟨i1, h1, h⟩ := bind_eq_ok.1 h
  have e0 := column_cell hr h0
  -- the attenuated curve
  have e1 : i1 = (List.range t.rows.length).map fun k => match s.attenuatorColumn with
      | none => cell t k s.intensityColumn
      | some a => cell t k s.intensityColumn * cell t k a *
        joinFactor A (fun j => cell t j s.intensityColumn * cell t j a) k := by
    unfold SpecLoader.attenuate at h1
    cases ha : s.attenuatorColumn with
    | none => rw [ha] at h1; cases h1; rw [e0]
    | some a =>
      rw [ha] at h1
      simp only at h1 ⊢
      obtain ⟨att, h2, h1⟩ := bind_eq_ok.1 h1
      obtain ⟨p, h3, h1⟩ := bind_eq_ok.1 h1
      have e2 := column_cell hr h2
      unfold applyAttenuation ew at h3
      rw [e0, e2, if_pos (by simp), zipWith_rangeMap] at h3
      cases h3
      unfold correctDiscontinuities at h1
      obtain ⟨g1, g2⟩ := disc_closed (by simp) _ (by simp) h1
      rw [List.length_map, List.length_range] at g1
      refine List.ext_getElem (by rw [g1]; simp) fun k k1 k2 => ?_
      have hk : k < t.rows.length := by rw [← g1]; exact k1
      rw [← getD_lt (d := 0) k1, g2 k (by simpa using hk), getD_rangeMap _ hk, List.getElem_map, List.getElem_range,
        List.length_map, List.length_range, show min k (t.rows.length - 1) = k by omega]
      congr 1
      exact joinFactor_congr (fun j hj => getD_rangeMap _ (by omega)) fun j hj => getD_rangeMap _ (by omega)
  refine ⟨fun k => (match s.attenuatorColumn with
      | none => cell t k s.intensityColumn
      | some a => cell t k s.intensityColumn * cell t k a *
        joinFactor A (fun j => cell t j s.intensityColumn * cell t j a) k) /
    (match s.divisionColumn with
      | none => 1
      | some d => cell t k d), ?_, hA, fun k hk => rfl, ?_⟩
  · unfold SpecLoader.divide at h
    cases hd : s.divisionColumn with
    | none =>
      rw [hd] at h
      cases h
      simp only [div_one]
      exact e1
    | some d =>
      rw [hd] at h
      simp only at h ⊢
      obtain ⟨dv, h2, h⟩ := bind_eq_ok.1 h
      obtain ⟨q, h3, h⟩ := bind_eq_ok.1 h
      have e2 := column_cell hr h2
      unfold ew at h3
      rw [e1, e2, if_pos (by simp), List.zipWith_map, List.zipWith_self] at h3
      cases h3
      have h4 := finite_eq.1 h
      have hl : i.length = t.rows.length := by have := congrArg List.length h4; simpa using this.symm
      refine List.ext_getElem (by rw [hl]; simp) fun k k1 k2 => ?_
      have hk : k < t.rows.length := by rw [← hl]; exact k1
      have h5 := congrArg (fun l => l[k]?) h4
      simp only [List.getElem?_map, List.getElem?_range hk, Option.map_some, List.getElem?_eq_getElem k1, Option.some.injEq] at h5
      rw [List.getElem_map, List.getElem_range]
      unfold fdiv at h5
      split at h5
      · cases h5
      · exact (Option.some.inj h5).symm
  · intro d hd k hk
    unfold SpecLoader.divide at h
    rw [hd] at h
    simp only at h
    obtain ⟨dv, h2, h⟩ := bind_eq_ok.1 h
    obtain ⟨q, h3, h⟩ := bind_eq_ok.1 h
    have e2 := column_cell hr h2
    unfold ew at h3
    rw [e1, e2, if_pos (by simp), List.zipWith_map, List.zipWith_self] at h3
    cases h3
    have h4 := finite_eq.1 h
    have hl : i.length = t.rows.length := by have := congrArg List.length h4; simpa using this.symm
    have h5 := congrArg (fun l => l[k]?) h4
    simp only [List.getElem?_map, List.getElem?_range hk, Option.map_some,
      List.getElem?_eq_getElem (show k < i.length by omega), Option.some.injEq] at h5
    unfold fdiv at h5
    split at h5
    · cases h5
    · assumption

theorem columns_cell {t : NumTable ℝ} (hr : ∀ r ∈ t.rows, r.length = t.columns.length) {cs : List Str}
    {cols : List (List ℝ)} (h : cs.mapM t.column = .ok cols) :
    cols = cs.map fun c => (List.range t.rows.length).map fun k => cell t k c := by
  have hf := mapM_ok_iff.1 h
  clear h
  induction hf with
  | nil => rfl
  | cons h1 _ ih => rw [List.map_cons, column_cell hr h1, ih]

/-- C57: the content of every loaded SPEC scan. -/
theorem C57_loaded_scan (pf : Str → Option ℝ) (s : SpecLoader) (n : Int) (front back : Option Int) (sc : Scan)
    (hne : s.angleColumns ≠ []) (h : s.loadScan pf n front back = .ok sc) :
    sc.angle.length = sc.raw.length ∧
    ∃ t A I, s.parser.extractScan pf n = .ok t ∧ SpecScanData s t A I ∧
      ((∀ f, front = some f → 0 ≤ f) → (∀ b, back = some b → 0 < b) →
        sc.angle.length = t.rows.length - (back.getD 0).toNat - (front.getD 0).toNat ∧
        ∀ k, k < sc.angle.length →
          sc.angle.getD k 0 = (if A (k + (front.getD 0).toNat) = 0 then 1e-6 else A (k + (front.getD 0).toNat)) ∧
          sc.raw.getD k 0 = I (k + (front.getD 0).toNat)) ∧
      sc.number = n ∧ sc.wavelength = s.wavelength ∧ sc.beamWidth = s.beamWidth ∧ sc.sampleLength = s.sampleLength ∧
      sc.beamShape = s.beamShape ∧ sc.normalizeTo = s.normalizeTo := by
  unfold SpecLoader.loadScan at h
  split at h
  · cases h
  · cases h
  · cases h
  · rename_i t ht
    split at h
    · obtain ⟨e, -, h⟩ := bind_eq_ok.1 h
      obtain ⟨time, -, h⟩ := bind_eq_ok.1 h
      obtain ⟨cols, hc, h⟩ := bind_eq_ok.1 h
      obtain ⟨i, hi, h⟩ := bind_eq_ok.1 h
      have hr := rows_of_extract ht
      have hcols := columns_cell hr hc
      rw [hcols, sumAbs_cell t _ hne] at hi h
      obtain ⟨I, rfl, hI⟩ := intensity_cell hr (fun k _ => rfl) hi
      simp only at h
      generalize htr : trim ((List.range t.rows.length).map fun k => (s.angleColumns.map fun c => |cell t k c|).sum)
        ((List.range t.rows.length).map I) front back = tr at h
      have hsc := Except.ok.inj h
      subst hsc
      refine ⟨?_, t, _, I, ht, hI, ?_, rfl, rfl, rfl, rfl, rfl, rfl⟩
      · unfold Scan.mk' replaceZeros
        simp only [List.length_map]
        rw [← htr]
        exact trim_lengths _ _ _ _ (by simp)
      · intro hf hb
        rw [trim_points _ _ _ _ _ hf hb] at htr
        subst htr
        unfold Scan.mk' replaceZeros
        simp only [List.length_map, List.length_range, List.map_map]
        refine ⟨trivial, fun k hk => ⟨?_, ?_⟩⟩
        · exact getD_rangeMap _ hk
        · exact getD_rangeMap _ hk
    · cases h

/-! ### Concrete cases -/

/-- A float parser that knows the integers. -/
noncomputable def intTokens (s : Str) : Option ℝ := (parseInt s).map fun (z : Int) => (z : ℝ)

/-- A parsed file with one scan of two angle columns. -/
def exampleParser : SpecParser :=
  ⟨["#S 1 a2scan".toList, "#D Mon".toList, "#L om  tth  det  att".toList, "1 -2 7 2".toList, "0 0 5 1".toList, []],
    [(1, ⟨0, 5, "a2scan".toList, some "Mon".toList, some 2⟩)]⟩

/-- Loader settings for the example. -/
def exampleLoader : SpecLoader :=
  ⟨exampleParser, ["om".toList, "tth".toList], "det".toList, 1, none, none, none, none, some "att".toList, none⟩

/-- The table of the example. -/
noncomputable def exampleTable : NumTable ℝ :=
  ⟨["om".toList, "tth".toList, "det".toList, "att".toList],
    [[((1 : Int) : ℝ), ((-2 : Int) : ℝ), ((7 : Int) : ℝ), ((2 : Int) : ℝ)],
     [((0 : Int) : ℝ), ((0 : Int) : ℝ), ((5 : Int) : ℝ), ((1 : Int) : ℝ)]]⟩

theorem example_extract : exampleParser.extractScan intTokens 1 = .ok exampleTable := rfl

/-- The hypotheses of `C57_loaded_scan` are met by a scan with an attenuator. -/
example : exampleLoader.angleColumns ≠ [] ∧ ∃ sc, exampleLoader.loadScan intTokens 1 none none = .ok sc := by
  refine ⟨by simp [exampleLoader], ?_⟩
  have hc : containsCounters exampleLoader.angleColumns exampleTable.columns = true := by
    decide
  have hx : exampleLoader.parser.extractScan intTokens 1 = exampleParser.extractScan intTokens 1 := rfl
  unfold SpecLoader.loadScan
  rw [hx, example_extract]
  simp only
  rw [if_pos hc]
  have h1 : exampleLoader.parser.index.get 1 = .ok ⟨0, 5, "a2scan".toList, some "Mon".toList, some 2⟩ := rfl
  have h2 : exampleLoader.angleColumns.mapM exampleTable.column =
      .ok [[((1 : Int) : ℝ), ((0 : Int) : ℝ)], [((-2 : Int) : ℝ), ((0 : Int) : ℝ)]] := rfl
  have h3 : exampleLoader.intensity exampleTable (sumAbs [[((1 : Int) : ℝ), ((0 : Int) : ℝ)], [((-2 : Int) : ℝ), ((0 : Int) : ℝ)]]) =
      .ok [7 * 2, 5 * 1] := by
    have g1 : exampleTable.column exampleLoader.intensityColumn = .ok [((7 : Int) : ℝ), ((5 : Int) : ℝ)] := rfl
    have g2 : exampleTable.column "att".toList = .ok [((2 : Int) : ℝ), ((1 : Int) : ℝ)] := rfl
    unfold SpecLoader.intensity
    rw [g1, bind_ok]
    have g3 : exampleLoader.attenuate exampleTable
        (sumAbs [[((1 : Int) : ℝ), ((0 : Int) : ℝ)], [((-2 : Int) : ℝ), ((0 : Int) : ℝ)]])
        [((7 : Int) : ℝ), ((5 : Int) : ℝ)] = .ok [7 * 2, 5 * 1] := by
      show (exampleTable.column "att".toList >>= _) = _
      rw [g2, bind_ok]
      simp [applyAttenuation, ew, correctDiscontinuities, sumAbs, discStep, List.range_succ, getItem, normIdx]
      norm_num
      rfl
    rw [g3, bind_ok]
    rfl
  rw [h1, bind_ok]
  show ∃ sc, ((.ok "Mon".toList : Res Str) >>= fun time => (exampleLoader.angleColumns.mapM exampleTable.column) >>= _) = _
  rw [bind_ok, h2, bind_ok, h3, bind_ok]
  exact ⟨_, rfl⟩

/-- A scan with a row of three values below two column names. -/
def corruptParser : SpecParser :=
  ⟨["#S 1 a2scan".toList, "#D Mon".toList, "#L om  det".toList, "1 2".toList, "1 2 3".toList, []],
    [(1, ⟨0, 5, "a2scan".toList, some "Mon".toList, some 2⟩)]⟩

/-- C54 is false for corrupt tables of existing reflectivity scans: they are silently omitted instead
of aborting the call. -/
theorem C54_corrupt_table_skipped (pf : Str → Option ℝ) :
    ∃ s : SpecLoader, (∃ e, s.parser.index.get 1 = .ok e) ∧
      (∃ names, s.parser.columnNames 1 = .ok names ∧ ∀ c ∈ s.angleColumns, c ∈ names) ∧
      loadScans (fun n => s.loadScan pf n none none) [1] = .ok [] := by
  refine ⟨⟨corruptParser, ["om".toList], "det".toList, 1, none, none, none, none, none, none⟩,
    ⟨_, rfl⟩, ⟨["om".toList, "det".toList], rfl, by simp⟩, ?_⟩
  refine loadScans_skip ?_
  rw [C54_spec_skipped_iff]
  exact Or.inr (Or.inl rfl)

/-- C54 is false for existing scans without a `#D` line: instead of being loaded or skipped they abort
the call with a `KeyError`. -/
theorem C54_missing_time_aborts : ∃ s : SpecLoader, ∃ t, s.parser.extractScan intTokens 1 = .ok t ∧
    (∀ c ∈ s.angleColumns, c ∈ t.columns) ∧
    loadScans (fun n => s.loadScan intTokens n none none) [1] = .error .keyError := by
  refine ⟨⟨⟨["#S 1 a2scan".toList, "#L om  det".toList, "1 2".toList, []],
    [(1, ⟨0, 3, "a2scan".toList, none, some 1⟩)]⟩, ["om".toList], "det".toList, 1, none, none, none, none, none, none⟩,
    ⟨["om".toList, "det".toList], [[((1 : Int) : ℝ), ((2 : Int) : ℝ)]]⟩, rfl, by simp, ?_⟩
  exact loadScans_error rfl (by decide)

/-- Without angle columns the angles are empty although the scan has intensities. -/
theorem C57_no_angle_columns : ∃ s : SpecLoader, ∃ sc, s.loadScan intTokens 1 none none = .ok sc ∧
    sc.angle = [] ∧ sc.raw ≠ [] := by
  refine ⟨⟨exampleParser, [], "det".toList, 1, none, none, none, none, none, none⟩, _, rfl, rfl, ?_⟩
  exact List.cons_ne_nil _ _

end Verif.Props
