import Verif.Model.Rescaler
import Verif.Props.Scans
import Verif.Props.P08

/-!
# C76
-/

namespace Verif.Props
open Verif.Py Verif.Model

/-- `sin (t / 2)` for a scattering angle in degrees is positive between 0 and 180 degrees. -/
theorem sin_half_pos {t : ℝ} (h0 : 0 < t) (h1 : t ≤ 180) : 0 < Real.sin (t / 2 * Real.pi / 180) := by
  have hp := Real.pi_pos
  refine Real.sin_pos_of_pos_of_lt_pi (by positivity) ?_
  have : t / 2 * Real.pi / 180 ≤ 180 / 2 * Real.pi / 180 := by
    have := mul_le_mul_of_nonneg_right h1 hp.le
    nlinarith
  linarith

/-- The effect of the beam spill-over at one point: below the angle at which the beam covers the sample
the intensity is reduced to the fraction `sin(t/2)/ratio` that hits the sample. -/
noncomputable def spill (ratio t : ℝ) : ℝ :=
  open Classical in
  if ratio ≤ 1 ∧ t < 2 * Real.arcsin ratio / Real.pi * 180 then Real.sin (t / 2 * Real.pi / 180) / ratio else 1

theorem spill_pos {ratio t : ℝ} (hr : 0 < ratio) (h0 : 0 < t) (h1 : t ≤ 180) : 0 < spill ratio t := by
  unfold spill
  split
  · exact div_pos (sin_half_pos h0 h1) hr
  · exact one_pos

theorem belowMax_iff {ratio t : ℝ} (hr : 0 < ratio) :
    belowMax ratio (some t) = true ↔ ratio ≤ 1 ∧ t < 2 * Real.arcsin ratio / Real.pi * 180 := by
  unfold belowMax npArcsin
  by_cases h : ratio ≤ 1
  · rw [if_pos ⟨by linarith, h⟩]
    simp [h]
  · rw [if_neg (fun h' => h h'.2)]
    simp [h]

theorem applyPoint_spill {ratio t : ℝ} (hr : 0 < ratio) (i : ℝ) : applyPoint ratio i (some t) = some (i * spill ratio t) := by
  unfold applyPoint spill
  by_cases h : ratio ≤ 1 ∧ t < 2 * Real.arcsin ratio / Real.pi * 180
  · rw [if_pos ((belowMax_iff hr).2 h), if_pos h, fdiv, if_neg hr.ne', Option.getD_some, mul_div_assoc]
  · rw [if_neg (fun hb => h ((belowMax_iff hr).1 hb)), if_neg h, mul_one]

theorem correctPoint_spill {ratio t : ℝ} (hr : 0 < ratio) (h0 : 0 < t) (h1 : t ≤ 180) (i : ℝ) :
    correctPoint ratio i (some t) = some (i / spill ratio t) := by
  unfold correctPoint spill
  by_cases h : ratio ≤ 1 ∧ t < 2 * Real.arcsin ratio / Real.pi * 180
  · have hs := sin_half_pos h0 h1
    rw [if_pos ((belowMax_iff hr).2 h), if_pos h, fdiv, Option.getD_some, if_neg hs.ne', Option.map_some]
    congr 1
    field_simp
  · rw [if_neg (fun hb => h ((belowMax_iff hr).1 hb)), if_neg h, div_one]

theorem masked_map {f : ℝ → Option ℝ → Option ℝ} {g : ℝ → ℝ → ℝ} {i angle : List ℝ} (hl : i.length = angle.length)
    (h : ∀ t ∈ angle, ∀ x, f x (some t) = some (g x t)) :
    (do
      let r ← masked f i (angle.map fun (a : ℝ) => some a)
      finite r) = .ok (List.zipWith g i angle) := by
  unfold masked
  rw [if_pos (by simpa using hl), bind_ok, List.zipWith_map_right, finite_eq]
  clear hl
  induction angle generalizing i with
  | nil => simp
  | cons t angle ih =>
    cases i with
    | nil => rfl
    | cons x i =>
      simp only [List.zipWith_cons_cons, List.map_cons]
      rw [h t (List.mem_cons_self ..), ih fun s hs => h s (List.mem_cons_of_mem _ hs)]

theorem apply_eq {i angle : List ℝ} {ratio : ℝ} (hl : i.length = angle.length) (hr : 0 < ratio) :
    rescalerApply i (angle.map fun (a : ℝ) => some a) ratio = .ok (List.zipWith (fun x t => x * spill ratio t) i angle) :=
  masked_map hl fun _ _ x => applyPoint_spill hr x

theorem correct_eq {i angle : List ℝ} {ratio : ℝ} (hl : i.length = angle.length) (hr : 0 < ratio)
    (ha : ∀ t ∈ angle, 0 < t ∧ t ≤ 180) :
    rescalerCorrect i (angle.map fun (a : ℝ) => some a) ratio = .ok (List.zipWith (fun x t => x / spill ratio t) i angle) :=
  masked_map hl fun t ht x => correctPoint_spill hr (ha t ht).1 (ha t ht).2 x

theorem zipWith_zipWith_same {f : ℝ → ℝ → ℝ} {g : ℝ → ℝ → ℝ} (i angle : List ℝ) :
    List.zipWith f (List.zipWith g i angle) angle = List.zipWith (fun x t => f (g x t) t) i angle := by
  induction i generalizing angle with
  | nil => rfl
  | cons x i ih =>
    cases angle with
    | nil => rfl
    | cons t angle => simp only [List.zipWith_cons_cons, ih]

theorem zipWith_id {f : ℝ → ℝ → ℝ} {i angle : List ℝ} (hl : i.length = angle.length) (h : ∀ t ∈ angle, ∀ x, f x t = x) :
    List.zipWith f i angle = i := by
  induction i generalizing angle with
  | nil => rfl
  | cons x i ih =>
    cases angle with
    | nil => cases hl
    | cons t angle =>
      rw [List.zipWith_cons_cons, h t (List.mem_cons_self ..), ih (by simpa using hl) fun s hs => h s (List.mem_cons_of_mem _ hs)]

/-- C76: `correct_footprint` undoes `apply_footprint`. -/
theorem C76_inverse (i angle : List ℝ) (ratio : ℝ) (hl : i.length = angle.length) (hr : 0 < ratio)
    (ha : ∀ t ∈ angle, 0 < t ∧ t ≤ 180) :
    ∃ f, rescalerApply i (angle.map fun (a : ℝ) => some a) ratio = .ok f ∧
      rescalerCorrect f (angle.map fun (a : ℝ) => some a) ratio = .ok i := by
  refine ⟨_, apply_eq hl hr, ?_⟩
  rw [correct_eq (by rw [List.length_zipWith, hl]; simp) hr ha, zipWith_zipWith_same]
  congr 1
  refine zipWith_id hl fun t ht x => ?_
  have := spill_pos hr (ha t ht).1 (ha t ht).2
  field_simp

theorem zipWith_pos {f : ℝ → ℝ → ℝ} {i angle : List ℝ} (hi : ∀ x ∈ i, 0 < x) (h : ∀ t ∈ angle, ∀ x, 0 < x → 0 < f x t) :
    ∀ y ∈ List.zipWith f i angle, 0 < y := by
  induction i generalizing angle with
  | nil => intro y hy; cases hy
  | cons x i ih =>
    cases angle with
    | nil => intro y hy; cases hy
    | cons t angle =>
      intro y hy
      rw [List.zipWith_cons_cons] at hy
      rcases List.mem_cons.1 hy with rfl | hy
      · exact h t (List.mem_cons_self ..) x (hi x (List.mem_cons_self ..))
      · exact ih (fun z hz => hi z (List.mem_cons_of_mem _ hz)) (fun s hs => h s (List.mem_cons_of_mem _ hs)) y hy

/-- `m` is the largest entry of `l`. -/
def IsLargest (l : List ℝ) (m : ℝ) : Prop := m ∈ l ∧ ∀ v ∈ l, v ≤ m

theorem normalize_eq {r o : List ℝ} {m n : ℝ} (hm : IsLargest r m) (hn : IsLargest o n) (hp : 0 < m) :
    rescalerNormalize r o = .ok (r.map fun x => x / m * n) := by
  unfold rescalerNormalize
  rw [npMax_eq hm.1 hm.2, bind_ok, npMax_eq hn.1 hn.2, bind_ok,
    finite_map_some r _ (fun x => x / m) (fun x _ => by unfold fdiv; rw [if_neg hp.ne']), bind_ok]
  show Except.ok _ = _
  rw [List.map_map]
  rfl

theorem exists_largest {l : List ℝ} (h : l ≠ []) : ∃ m, IsLargest l m := by
  obtain ⟨m, -, h1, h2⟩ := npMax_spec h
  exact ⟨m, h1, h2⟩

theorem largest_unique {l : List ℝ} {m n : ℝ} (h1 : IsLargest l m) (h2 : IsLargest l n) : m = n :=
  le_antisymm (h2.2 m h1.1) (h1.2 n h2.1)

/-- The result of `_swap_footprints` and its maximum. -/
theorem swap_eq {i angle : List ℝ} {r n : ℝ} (hne : i ≠ []) (hi : ∀ x ∈ i, 0 < x) (hl : i.length = angle.length)
    (ha : ∀ t ∈ angle, 0 < t ∧ t ≤ 180) (hr : 0 < r) (hn : 0 < n) :
    ∃ m M, 0 < m ∧ IsLargest (List.zipWith (fun x t => x * spill r t / spill n t) i angle) m ∧ IsLargest i M ∧
      swapFootprints i (angle.map fun (a : ℝ) => some a) r n =
        .ok ((List.zipWith (fun x t => x * spill r t / spill n t) i angle).map fun x => x / m * M) := by
  have hpos := zipWith_pos (f := fun x t => x * spill r t / spill n t) hi (angle := angle) fun t ht x hx =>
    div_pos (mul_pos hx (spill_pos hr (ha t ht).1 (ha t ht).2)) (spill_pos hn (ha t ht).1 (ha t ht).2)
  have hne' : List.zipWith (fun x t => x * spill r t / spill n t) i angle ≠ [] := by
    intro h
    have := congrArg List.length h
    rw [List.length_zipWith, List.length_nil, hl, Nat.min_self, ← hl] at this
    exact hne (List.length_eq_zero_iff.1 this)
  obtain ⟨m, hm⟩ := exists_largest hne'
  obtain ⟨M, hM⟩ := exists_largest hne
  refine ⟨m, M, hpos m hm.1, hm, hM, ?_⟩
  unfold swapFootprints
  rw [apply_eq hl hr, bind_ok, correct_eq (by rw [List.length_zipWith, hl]; simp) hn ha, bind_ok, zipWith_zipWith_same]
  exact normalize_eq hm hM (hpos m hm.1)

theorem round_eq {s : Rescaler} {i c : List ℝ} {k : Nat} (hk : k < s.errors.length)
    (h : swapFootprints i s.theta s.trueRatio (s.trueRatio * s.errors[k]) = .ok c) :
    s.round i k = .ok (c, s.trueRatio * s.errors[k]) := by
  unfold Rescaler.round
  rw [List.getElem?_eq_getElem hk]
  simp only
  rw [h]
  rfl

/-- C76: whichever error factors are chosen, every rescaled curve has the maximum of the original curve
and as many points. -/
theorem C76_max (s : Rescaler) (angle : List ℝ) (draw : Nat → Nat) (ht : s.theta = angle.map fun (a : ℝ) => some a)
    (ha : ∀ t ∈ angle, 0 < t ∧ t ≤ 180) (hr : 0 < s.trueRatio) (he : ∀ e ∈ s.errors, 0 < e)
    (hi : ∀ i ∈ s.reflectivity, i ≠ [] ∧ i.length = angle.length ∧ ∀ x ∈ i, 0 < x)
    (hd : ∀ k, draw k < s.errors.length) :
    ∃ curves ratios, s.rescaled draw = .ok (curves, ratios) ∧
      List.Forall₂ (fun i c => c.length = i.length ∧ ∀ m, IsLargest i m → IsLargest c m) s.reflectivity curves := by
  have key : ∀ (l : List (List ℝ)) (k : Nat), (∀ i ∈ l, i ≠ [] ∧ i.length = angle.length ∧ ∀ x ∈ i, 0 < x) →
      ∃ r, (l.zipIdx k).mapM (fun (p : List ℝ × Nat) => s.round p.1 (draw p.2)) = .ok r ∧
        List.Forall₂ (fun i c => c.length = i.length ∧ ∀ m, IsLargest i m → IsLargest c m) l (r.map Prod.fst) := by
    intro l
    induction l with
    | nil => intro k _; exact ⟨[], rfl, List.Forall₂.nil⟩
    | cons i l ih =>
      intro k hl
      obtain ⟨h1, h2, h3⟩ := hl i (List.mem_cons_self ..)
      have hk := hd k
      have hep : 0 < s.errors[draw k] := he _ (List.getElem_mem _)
      obtain ⟨m, M, hm0, hm, hM, hsw⟩ := swap_eq h1 h3 h2 ha hr (mul_pos hr hep)
      obtain ⟨r, hr1, hr2⟩ := ih (k + 1) fun j hj => hl j (List.mem_cons_of_mem _ hj)
      have hround := round_eq hk (ht ▸ hsw)
      refine ⟨((List.zipWith (fun x t => x * spill s.trueRatio t / spill (s.trueRatio * s.errors[draw k]) t) i angle).map
        fun x => x / m * M, s.trueRatio * s.errors[draw k]) :: r, ?_, List.Forall₂.cons ⟨?_, ?_⟩ hr2⟩
      · rw [List.zipIdx_cons, mapM_cons]
        simp only
        rw [hround, bind_ok, hr1]
        rfl
      · simp [h2]
      · intro M' hM'
        have hMM := largest_unique hM hM'
        subst hMM
        have hMp : 0 < M := h3 M hM.1
        constructor
        · refine List.mem_map.2 ⟨m, hm.1, ?_⟩
          field_simp
        · intro v hv
          obtain ⟨x, hx, rfl⟩ := List.mem_map.1 hv
          have hxm := hm.2 x hx
          have : x / m ≤ 1 := by rw [div_le_one hm0]; exact hxm
          nlinarith
  obtain ⟨r, h1, h2⟩ := key s.reflectivity 0 hi
  refine ⟨r.map Prod.fst, r.map Prod.snd, ?_, h2⟩
  unfold Rescaler.rescaled
  rw [h1, bind_ok]
  rfl

/-- C76: with the error factor one only, the curves are returned unchanged. -/
theorem C76_identity (s : Rescaler) (angle : List ℝ) (draw : Nat → Nat) (ht : s.theta = angle.map fun (a : ℝ) => some a)
    (ha : ∀ t ∈ angle, 0 < t ∧ t ≤ 180) (hr : 0 < s.trueRatio) (he : ∀ e ∈ s.errors, e = 1)
    (hi : ∀ i ∈ s.reflectivity, i ≠ [] ∧ i.length = angle.length ∧ ∀ x ∈ i, 0 < x)
    (hd : ∀ k, draw k < s.errors.length) :
    s.rescaled draw = .ok (s.reflectivity, s.reflectivity.map fun _ => s.trueRatio) := by
  have key : ∀ (l : List (List ℝ)) (k : Nat), (∀ i ∈ l, i ≠ [] ∧ i.length = angle.length ∧ ∀ x ∈ i, 0 < x) →
      (l.zipIdx k).mapM (fun (p : List ℝ × Nat) => s.round p.1 (draw p.2)) = .ok (l.map fun i => (i, s.trueRatio)) := by
    intro l
    induction l with
    | nil => intro k _; rfl
    | cons i l ih =>
      intro k hl
      obtain ⟨h1, h2, h3⟩ := hl i (List.mem_cons_self ..)
      have hk := hd k
      have hep : s.errors[draw k] = 1 := he _ (List.getElem_mem _)
      obtain ⟨m, M, hm0, hm, hM, hsw⟩ := swap_eq h1 h3 h2 ha hr hr
      have hz : List.zipWith (fun x t => x * spill s.trueRatio t / spill s.trueRatio t) i angle = i :=
        zipWith_id h2 fun t ht x => by
          have := spill_pos hr (ha t ht).1 (ha t ht).2
          field_simp
      rw [hz] at hm hsw
      have hmM := largest_unique hm hM
      subst hmM
      have hid : (i.map fun x => x / m * m) = i := by
        conv_rhs => rw [← List.map_id i]
        refine List.map_congr_left fun x _ => ?_
        simp only [id]
        field_simp
      rw [hid] at hsw
      rw [List.zipIdx_cons, mapM_cons, ih (k + 1) fun j hj => hl j (List.mem_cons_of_mem _ hj)]
      have hround := round_eq (s := s) (i := i) (c := i) hk (by rw [hep, mul_one, ht]; exact hsw)
      rw [hep, mul_one] at hround
      simp only
      rw [hround]
      rfl
  unfold Rescaler.rescaled
  rw [key s.reflectivity 0 hi, bind_ok]
  show Except.ok (_, _) = _
  rw [List.map_map, List.map_map]
  have : s.reflectivity.map (Prod.fst ∘ fun i => (i, s.trueRatio)) = s.reflectivity := List.map_id _
  rw [this]
  rfl

/-- C76: the constructor accepts exactly an angle list, or q values together with a wavelength. -/
theorem C76_constructor (reflectivity : List (List ℝ)) (trueRatio : ℝ) (errors : List ℝ) (q : Option (List ℝ))
    (wavelength : Option ℝ) (theta : Option (List ℝ)) :
    ((∃ s, Rescaler.init reflectivity trueRatio errors q wavelength theta = .ok s) ↔
      (q = none ∧ theta ≠ none) ∨ (q ≠ none ∧ wavelength ≠ none ∧ theta = none)) ∧
    ∀ s, Rescaler.init reflectivity trueRatio errors q wavelength theta = .ok s →
      s.reflectivity = reflectivity ∧ s.trueRatio = trueRatio ∧ s.errors = errors ∧
      (∀ t, theta = some t → s.theta = t.map fun (a : ℝ) => some a) ∧
      (∀ q' w, q = some q' → wavelength = some w → s.theta = qToAngle q' w) := by
  unfold Rescaler.init
  cases q <;> cases theta <;> cases wavelength <;> simp [eq_comm]

/-- With q values the angles are those whose momentum transfer is `q`, so that the rescaler works on the
same angles as if these were given. -/
theorem C76_angles (reflectivity : List (List ℝ)) (trueRatio : ℝ) (errors q : List ℝ) (w : ℝ) (hw : 0 < w)
    (hq : ∀ x ∈ q, 0 < x ∧ x * w ≤ 4 * Real.pi) :
    ∃ angle : List ℝ, Rescaler.init reflectivity trueRatio errors (some q) (some w) none =
        .ok ⟨reflectivity, trueRatio, errors, angle.map fun (a : ℝ) => some a⟩ ∧
      (∀ t ∈ angle, 0 < t ∧ t ≤ 180) ∧
      angle.map (fun (t : ℝ) => 4 * Real.pi / w * Real.sin (t / 2 * Real.pi / 180)) = q := by
  have hp := Real.pi_pos
  refine ⟨q.map fun x => 2 * Real.arcsin (x * w / (4 * Real.pi)) / Real.pi * 180, ?_, ?_, ?_⟩
  · unfold Rescaler.init qToAngle
    simp only
    congr 2
    rw [List.map_map]
    refine List.map_congr_left fun x hx => ?_
    have h1 : x * w / (4 * Real.pi) ≤ 1 := by rw [div_le_one (by positivity)]; exact (hq x hx).2
    have h2 : 0 < x * w / (4 * Real.pi) := div_pos (mul_pos (hq x hx).1 hw) (by positivity)
    unfold npArcsin
    rw [if_pos ⟨by linarith, h1⟩]
    rfl
  · intro t ht
    obtain ⟨x, hx, rfl⟩ := List.mem_map.1 ht
    have h1 : x * w / (4 * Real.pi) ≤ 1 := by rw [div_le_one (by positivity)]; exact (hq x hx).2
    have h2 : 0 < x * w / (4 * Real.pi) := div_pos (mul_pos (hq x hx).1 hw) (by positivity)
    have h3 := Real.arcsin_pos.2 h2
    have h4 := Real.arcsin_le_pi_div_two (x * w / (4 * Real.pi))
    constructor
    · positivity
    · have : 2 * Real.arcsin (x * w / (4 * Real.pi)) / Real.pi ≤ 1 := by
        rw [div_le_one hp]; linarith
      linarith
  · rw [List.map_map]
    conv_rhs => rw [← List.map_id q]
    refine List.map_congr_left fun x hx => ?_
    have h1 : x * w / (4 * Real.pi) ≤ 1 := by rw [div_le_one (by positivity)]; exact (hq x hx).2
    have h2 : 0 < x * w / (4 * Real.pi) := div_pos (mul_pos (hq x hx).1 hw) (by positivity)
    simp only [Function.comp, id]
    rw [show 2 * Real.arcsin (x * w / (4 * Real.pi)) / Real.pi * 180 / 2 * Real.pi / 180 = Real.arcsin (x * w / (4 * Real.pi)) by
      field_simp, Real.sin_arcsin (by linarith) h1]
    field_simp

/-- The hypotheses of `C76_identity` are met by a curve of two points at 1 and 2 degrees. -/
example : ∃ s : Rescaler, ∃ angle : List ℝ, s.reflectivity ≠ [] ∧ s.theta = angle.map (fun (a : ℝ) => some a) ∧
    (∀ t ∈ angle, 0 < t ∧ t ≤ 180) ∧ 0 < s.trueRatio ∧ (∀ e ∈ s.errors, e = 1) ∧
    (∀ i ∈ s.reflectivity, i ≠ [] ∧ i.length = angle.length ∧ ∀ x ∈ i, 0 < x) ∧ ∀ k, (fun _ : Nat => 0) k < s.errors.length :=
  ⟨⟨[[1, 0.5]], 0.02, [1], [some 1, some 2]⟩, [1, 2], by simp, rfl, by
    intro t ht
    simp only [List.mem_cons, List.not_mem_nil, or_false] at ht
    rcases ht with rfl | rfl <;> norm_num, by norm_num, by simp, by
    intro i hi
    rw [List.mem_singleton.1 hi]
    refine ⟨by simp, rfl, ?_⟩
    intro x hx
    simp only [List.mem_cons, List.not_mem_nil, or_false] at hx
    rcases hx with rfl | rfl <;> norm_num, fun _ => Nat.one_pos⟩

end Verif.Props
