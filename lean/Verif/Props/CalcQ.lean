import Verif.Props.Combine
import Verif.Props.Footprint

/-!
# C88, C89: the momentum transfer of a scan and the export of intensities
-/

namespace Verif.Props
open Verif.Py Verif.Model

/-- The hypotheses of `C87_combined` are met by a scan of two images with attenuations 1 and 3. -/
example : ∃ p : Part, p.Ok "p100k".toList 2 2 2 ∧ p.roi = [0, 0, 1, 2] ∧
    [{ exampleP08 with doublesRemoved := true }].mapM P08Scan.removeDouble = .ok ([p].map Part.scan) := by
  refine ⟨⟨{ exampleP08 with doublesRemoved := true }, [0, 0, 1, 2], fun k => if k = 0 then 1 else 3,
    [[[1, 2], [3, 4]], [[5, 6], [7, 8]]]⟩, ⟨by simp, ?_, rfl, ?_⟩, rfl, rfl⟩
  · rcases exampleP08_atten with h | h
    · exact absurd (show attenKey ∈ exampleP08.data.map Prod.fst by decide) h.1
    · exact h.2
  · refine ⟨rfl, fun i hi => ?_⟩
    simp only [List.mem_cons, List.not_mem_nil, or_false] at hi
    rcases hi with rfl | rfl <;> exact ⟨rfl, by intro row hr; simp only [List.mem_cons, List.not_mem_nil, or_false] at hr; rcases hr with rfl | rfl <;> rfl⟩

/-! ### `calc_q` -/

/-- `col` is the column under the first motor with the given name. -/
def FirstColumn (s : P08Scan) (name : Str) (col : List (Option ℝ)) : Prop :=
  ∃ i : Nat, s.motorNames[i]? = some name ∧ (∀ j < i, s.motorNames[j]? ≠ some name) ∧ s.motors[i]? = some col

/-- The momentum transfer in a scan with photon energy `e` (in eV) at the scattering angle `x` (in degrees). -/
noncomputable def momentum (e : ℝ) (x : Option ℝ) : Option ℝ :=
  x.map fun (x : ℝ) => 4 * Real.pi * e / 12380 * Real.sin (x / 2 * Real.pi / 180)

theorem findIdx_first {l : List Str} {n : Str} {i : Nat} (h1 : l[i]? = some n) (h2 : ∀ j < i, l[j]? ≠ some n) :
    l.findIdx (· = n) = i := by
  obtain ⟨hi, he⟩ := List.getElem?_eq_some_iff.1 h1
  rw [List.findIdx_eq hi]
  refine ⟨by simpa using he, fun j hj => ?_⟩
  have := h2 j hj
  rw [List.getElem?_eq_getElem (by omega)] at this
  simpa using this

theorem qOfAngle_eq {e : ℝ} (he : e ≠ 0) : qOfAngle (12380 / e) = momentum e := by
  funext x
  cases x with
  | none => rfl
  | some x =>
    unfold qOfAngle momentum
    simp only [Option.map_some]
    congr 2
    field_simp
    ring

theorem calcQ_ok {s : P08Scan} {e : ℝ} {tt : List (Option ℝ)} (he : dictGet s.positions energyKey = .ok (some e)) (h0 : e ≠ 0)
    (hom : omKey ∈ s.motorNames) (htt : FirstColumn s ttKey tt) :
    s.calcQ = .ok { s with motorNames := s.motorNames ++ [qKey], motors := s.motors ++ [tt.map (momentum e)] } := by
  obtain ⟨i, h1, h2, h3⟩ := htt
  unfold P08Scan.calcQ
  rw [he, bind_ok]
  simp only
  rw [if_neg h0, if_pos ⟨List.mem_of_getElem? h1, hom⟩]
  obtain ⟨hi, hc⟩ := List.getElem?_eq_some_iff.1 h3
  have hg : getItem s.motors (ttIndex s.motorNames) = .ok tt := by
    unfold ttIndex
    rw [findIdx_first h1 h2, getItem_nat hi, hc]
  rw [hg, bind_ok, qOfAngle_eq h0]
  rfl

/-- C88: for a scan of `tt` and `om` the call adds a column `q` that holds the momentum transfer of every
point, and changes nothing else. -/
theorem C88_momentum (s : P08Scan) (e : ℝ) (tt : List (Option ℝ)) (he : dictGet s.positions energyKey = .ok (some e)) (h0 : e ≠ 0)
    (hom : omKey ∈ s.motorNames) (htt : FirstColumn s ttKey tt) :
    ∃ q, s.calcQ = .ok { s with motorNames := s.motorNames ++ [qKey], motors := s.motors ++ [q] } ∧ q.length = tt.length ∧
      ∀ k : Nat, q[k]? = tt[k]?.map (momentum e) :=
  ⟨_, calcQ_ok he h0 hom htt, List.length_map _, fun _ => List.getElem?_map ..⟩

/-- A scan of `om` and `tt` with two points, the second doubled. -/
noncomputable def exampleQ : P08Scan where
  cmd := []
  motorNames := [omKey, ttKey]
  motors := [[some 1, some 2, some 2], [some 2, some 4, some 4]]
  positions := [(energyKey, some 18000)]
  data := [(attenKey, [some 1, some 3, some 3])]
  imageData := []

theorem exampleQ_tt : FirstColumn exampleQ ttKey [some 2, some 4, some 4] :=
  ⟨1, rfl, by intro j hj; obtain rfl : j = 0 := by omega
              show some omKey ≠ some ttKey
              decide, rfl⟩

/-- The hypotheses of `C88_momentum` are met. -/
example : dictGet exampleQ.positions energyKey = .ok (some 18000) ∧ (18000 : ℝ) ≠ 0 ∧ omKey ∈ exampleQ.motorNames ∧
    FirstColumn exampleQ ttKey [some 2, some 4, some 4] :=
  ⟨rfl, by norm_num, by decide, exampleQ_tt⟩

/-- C88: without the motors `tt` and `om` the scan stays as it is. -/
theorem C88_other (s : P08Scan) (e : ℝ) (he : dictGet s.positions energyKey = .ok (some e)) (h0 : e ≠ 0)
    (h : ttKey ∉ s.motorNames ∨ omKey ∉ s.motorNames) : s.calcQ = .ok s := by
  unfold P08Scan.calcQ
  rw [he, bind_ok]
  simp only
  rw [if_neg h0, if_neg (by tauto)]

/-- C88: the momentum transfer is the one of `angle_to_q` with the wavelength 12380 eV Å / E, which the
loader uses. -/
theorem C88_loader (s : P08Scan) (e : ℝ) (angle : List ℝ) (he : dictGet s.positions energyKey = .ok (some e)) (h0 : e ≠ 0)
    (hom : omKey ∈ s.motorNames) (htt : FirstColumn s ttKey (angle.map some)) :
    ∃ r q, s.calcQ = .ok r ∧ angleToQ angle (12380 / e) = .ok q ∧ r.motors = s.motors ++ [q.map some] := by
  refine ⟨_, _, calcQ_ok he h0 hom htt, by unfold angleToQ; rw [if_neg (by positivity)], ?_⟩
  simp only [List.map_map]
  congr 2
  refine List.map_congr_left fun x _ => ?_
  simp only [Function.comp, momentum, Option.map_some]
  congr 2
  field_simp

/-- C88 is false for the wavelength that `energy_to_wavelength` gives: the constants differ, so no
non-zero momentum transfer agrees. -/
theorem C88_other_constant (s : P08Scan) (e x v : ℝ) (he : dictGet s.positions energyKey = .ok (some e)) (h0 : e ≠ 0)
    (hom : omKey ∈ s.motorNames) (htt : FirstColumn s ttKey [some x]) (r : P08Scan) (hr : s.calcQ = .ok r)
    (hv : r.motors = s.motors ++ [[some v]]) (hne : v ≠ 0) :
    ∀ l q, energyToWavelength e = .ok l → angleToQ [x] l = .ok q → q ≠ [v] := by
  rw [calcQ_ok he h0 hom htt] at hr
  cases hr
  have hv := List.append_cancel_left hv
  simp only [List.map_cons, List.map_nil, momentum, Option.map_some, List.cons.injEq, and_true, Option.some.injEq] at hv
  intro l q hl hq
  unfold energyToWavelength at hl
  rw [if_neg h0] at hl
  cases hl
  unfold angleToQ at hq
  rw [if_neg (by positivity)] at hq
  cases hq
  intro h
  simp only [List.map_cons, List.map_nil, List.cons.injEq, and_true] at h
  have h1 : 4 * Real.pi / (1.2398 / e * 1e4) * Real.sin (x / 2 * Real.pi / 180) = v * (12380 / 12398) := by
    rw [← hv]
    field_simp
    norm_num
    try ring
  rw [h1] at h
  have : v * (12380 / 12398 - 1) = 0 := by linarith
  rcases mul_eq_zero.1 this with h | h
  · exact hne h
  · norm_num at h

/-- C88 is false for repeated calls: every further call adds a further column `q`. -/
theorem C88_twice (s : P08Scan) (e : ℝ) (tt : List (Option ℝ)) (he : dictGet s.positions energyKey = .ok (some e)) (h0 : e ≠ 0)
    (hom : omKey ∈ s.motorNames) (htt : FirstColumn s ttKey tt) :
    ∃ r, (s.calcQ >>= P08Scan.calcQ) = .ok r ∧ r.motorNames.count qKey = s.motorNames.count qKey + 2 := by
  rw [calcQ_ok he h0 hom htt, bind_ok]
  obtain ⟨i, h1, h2, h3⟩ := htt
  have hi : i < s.motorNames.length := (List.getElem?_eq_some_iff.1 h1).1
  have hi' : i < s.motors.length := (List.getElem?_eq_some_iff.1 h3).1
  refine ⟨_, calcQ_ok (tt := tt) he h0 (List.mem_append_left _ hom) ⟨i, ?_, ?_, ?_⟩, ?_⟩
  · rw [List.getElem?_append_left hi]; exact h1
  · intro j hj
    rw [List.getElem?_append_left (by omega)]; exact h2 j hj
  · rw [List.getElem?_append_left hi']; exact h3
  · simp only [List.count_append]
    rw [show List.count qKey [qKey] = 1 by decide]

theorem npDelete_map {α β : Type} (f : α → β) (l : List α) (idxes : List Nat) :
    npDelete (l.map f) idxes = (npDelete l idxes).map (List.map f) := by
  unfold npDelete
  rw [List.length_map]
  split
  · change _ = Except.ok _
    congr 1
    rw [List.zipIdx_map, List.filter_map, List.map_map, List.map_map]
    rfl
  · rfl

/-- C88: it makes no difference whether the momentum transfer is computed before or after the doubled
points are removed. -/
theorem C88_remove_double (s : P08Scan) (e : ℝ) (tt : List (Option ℝ)) (he : dictGet s.positions energyKey = .ok (some e)) (h0 : e ≠ 0)
    (hom : omKey ∈ s.motorNames) (htt : FirstColumn s ttKey tt) (hd : s.doublesRemoved = false) (r : P08Scan) :
    (s.calcQ >>= P08Scan.removeDouble) = .ok r ↔ (s.removeDouble >>= P08Scan.calcQ) = .ok r := by
  rw [calcQ_ok he h0 hom htt, bind_ok]
  obtain ⟨i, h1, h2, h3⟩ := htt
  have hi' : i < s.motors.length := (List.getElem?_eq_some_iff.1 h3).1
  rw [removeDouble_fresh hd]
  rw [removeDouble_fresh (s := { s with motorNames := s.motorNames ++ [qKey], motors := s.motors ++ [tt.map (momentum e)] }) hd]
  simp only
  obtain ⟨pos, rest, hmot⟩ : ∃ pos rest, s.motors = pos :: rest :=
    List.exists_cons_of_ne_nil (by intro h; rw [h] at hi'; simp at hi')
  have hg1 : getItem s.motors 0 = .ok pos := by rw [hmot]; rfl
  have hg2 : getItem (s.motors ++ [tt.map (momentum e)]) 0 = .ok pos := by rw [hmot]; rfl
  rw [hg1, hg2, bind_ok, bind_ok]
  cases hdata : s.data.mapM (fun (p : Str × List (Option ℝ)) => (do return (p.1, ← npDelete p.2 (removed pos)) : Res _)) with
  | error e => exact ⟨fun h => (by cases h), fun h => (by cases h)⟩
  | ok data =>
    simp only [bind_ok]
    rw [List.mapM_append]
    cases hm : s.motors.mapM (fun (m : List (Option ℝ)) => npDelete m (removed pos)) with
    | error e => exact ⟨fun h => (by cases h), fun h => (by cases h)⟩
    | ok motors =>
      simp only [bind_ok, mapM_cons, mapM_ok_nil, npDelete_map]
      have hf := mapM_ok_iff.1 hm
      have hlen : motors.length = s.motors.length := hf.length_eq.symm
      have hdel : npDelete tt (removed pos) = .ok motors[i] := by
        have := (List.forall₂_iff_get.1 hf).2 i hi' (by rw [hlen]; exact hi')
        simp only [List.get_eq_getElem] at this
        rw [(List.getElem?_eq_some_iff.1 h3).2] at this
        exact this
      rw [hdel]
      simp only [Except.map, bind_ok, pure_bind]
      cases himg : s.imageData.mapM (fun (p : Str × Stack) => (do return (p.1, ← p.2.delete (removed pos)) : Res _)) with
      | error e => exact ⟨fun h => (by cases h), fun h => (by cases h)⟩
      | ok imgs =>
        simp only [bind_ok, pure_bind]
        rw [calcQ_ok (s := { s with data := data, motors := motors, imageData := imgs, removeIdxes := some (removed pos), doublesRemoved := true })
          (tt := motors[i]) he h0 hom ⟨i, h1, h2, by simp only [List.getElem?_eq_getElem (show i < motors.length by rw [hlen]; exact hi')]⟩]
        exact Iff.rfl

/-! ### `export2ascii` -/

theorem dictGet_forall₂ {β γ : Type} {R : Str × β → Str × γ → Prop} {l : List (Str × β)} {r : List (Str × γ)}
    (h : List.Forall₂ (fun p q => q.1 = p.1 ∧ R p q) l r) {k : Str} {v : β} (hv : dictGet l k = .ok v) :
    ∃ u, dictGet r k = .ok u ∧ R (k, v) (k, u) := by
  induction h with
  | nil => cases hv
  | @cons p q l r hpq _ ih =>
    obtain ⟨k1, v1⟩ := p
    obtain ⟨k2, u2⟩ := q
    obtain ⟨rfl, hR⟩ := hpq
    rw [dictGet] at hv ⊢
    split at hv
    · rename_i hk
      subst hk
      cases hv
      exact ⟨u2, if_pos rfl, hR⟩
    · rename_i hk
      rw [if_neg hk]
      exact ih hv

theorem roiOf_spec {s : P08Scan} {det key : Str} {roi : List Int} {N : Nat} {a : Nat → ℝ} {st : Stack} (hkey : allKey ≠ key)
    (hlen : 4 ≤ roi.length) (ha : AttenAt s N a) (hs : ∀ p ∈ s.imageData, Stack.count p.2 = N) (hst : dictGet s.imageData det = .ok st) :
    ∃ col, roiOf s det key roi = .ok col ∧ col.length = N ∧
      ∀ k < N, col.getD k 0 = Stack.sums st (fun img => InRegion img roi) (fun img => InLineRegion img roi) k * a k := by
  obtain ⟨r, h1, h2⟩ := C75_sums s [(key, roi)] N a (by simp) (by simpa using hkey) (by simpa using hlen) ha hs
  obtain ⟨d, h3, h4⟩ := dictGet_forall₂ h2 hst
  obtain ⟨col, h5, h6, h7⟩ := h4.2.2 key roi (by simp)
  refine ⟨col, ?_, h6, h7⟩
  unfold roiOf
  rw [h1, bind_ok, h3, bind_ok, h5]

/-- The sum over a background region, zero without one. -/
noncomputable def backgroundSum (st : Stack) (bck : Option (List Int)) (k : Nat) : ℝ :=
  match bck with
  | none => 0
  | some b => Stack.sums st (fun img => InRegion img b) (fun img => InLineRegion img b) k

/-- The column for x: the one of the given motor, or the first. -/
def ExportColumn (s : P08Scan) (xcol : Option Str) (col : List (Option ℝ)) : Prop :=
  match xcol with
  | none => s.motors.head? = some col
  | some n => FirstColumn s n col

/-- C89: `export2ascii` writes one line for every point: the position of the chosen motor and the sum over
the region minus the sum over the background region, times the attenuation of the point. -/
theorem C89_rows (s : P08Scan) (det : Str) (roi : List Int) (xcol : Option Str) (bck : Option (List Int)) (N : Nat) (a : Nat → ℝ)
    (st : Stack) (col : List (Option ℝ)) (hroi : 4 ≤ roi.length) (hbck : ∀ b, bck = some b → 4 ≤ b.length) (ha : AttenAt s N a)
    (hs : ∀ p ∈ s.imageData, Stack.count p.2 = N) (hst : dictGet s.imageData det = .ok st)
    (hcol : ExportColumn s xcol col) (hn : col.length = N) (hnames : s.motorNames.length = s.motors.length) :
    ∃ rows, exportRows s det roi xcol bck = .ok rows ∧ rows.length = N ∧ ∀ k < N, ∃ x, col[k]? = some x ∧
      rows[k]? = some (x, (Stack.sums st (fun img => InRegion img roi) (fun img => InLineRegion img roi) k - backgroundSum st bck k) * a k) := by
  obtain ⟨c1, h1, h2, h3⟩ := roiOf_spec (s := s) (det := det) (key := fitRoi) (by decide) hroi ha hs hst
  have hb : ∃ c2, subtractBackground s det c1 bck = .ok c2 ∧ c2.length = N ∧ ∀ k < N, c2.getD k 0 =
      (Stack.sums st (fun img => InRegion img roi) (fun img => InLineRegion img roi) k - backgroundSum st bck k) * a k := by
    cases bck with
    | none =>
      refine ⟨c1, rfl, h2, fun k hk => ?_⟩
      rw [h3 k hk, backgroundSum, sub_zero]
    | some b =>
      obtain ⟨c2, g1, g2, g3⟩ := roiOf_spec (s := s) (det := det) (key := bckInt) (by decide) (hbck b rfl) ha hs hst
      refine ⟨List.zipWith (fun (x y : ℝ) => x - y) c1 c2, ?_, ?_, fun k hk => ?_⟩
      · unfold subtractBackground ew
        simp only
        rw [g1, bind_ok, if_pos (by omega)]
      · rw [List.length_zipWith, h2, g2, Nat.min_self]
      · rw [getD_lt (by rw [List.length_zipWith, h2, g2, Nat.min_self]; exact hk), List.getElem_zipWith]
        have e1 := h3 k hk
        have e2 := g3 k hk
        rw [getD_lt (by omega)] at e1 e2
        rw [e1, e2, backgroundSum]
        ring
  obtain ⟨c2, g1, g2, g3⟩ := hb
  obtain ⟨i, hi, hc⟩ : ∃ i : Nat, xColumn s.motorNames xcol = i ∧ s.motors[i]? = some col := by
    cases xcol with
    | none =>
      refine ⟨0, rfl, ?_⟩
      rw [← List.head?_eq_getElem?]
      exact hcol
    | some n =>
      obtain ⟨i, q1, q2, q3⟩ := hcol
      refine ⟨i, ?_, q3⟩
      unfold xColumn
      simp only
      rw [if_pos (List.mem_of_getElem? q1), findIdx_first q1 q2]
  obtain ⟨hi1, hi2⟩ := List.getElem?_eq_some_iff.1 hc
  refine ⟨col.zip c2, ?_, by rw [List.length_zip, hn, g2, Nat.min_self], fun k hk => ⟨col[k]'(by omega), List.getElem?_eq_getElem _, ?_⟩⟩
  · unfold exportRows
    rw [h1, bind_ok, g1, bind_ok, hi, getItem_nat hi1, bind_ok, getItem_nat (by omega), bind_ok, hi2]
    rfl
  · rw [List.getElem?_eq_getElem (by rw [List.length_zip, hn, g2, Nat.min_self]; exact hk), List.getElem_zip]
    have := g3 k hk
    rw [getD_lt (by omega)] at this
    rw [this]

/-- The hypotheses of `C89_rows` are met by the scan of two images with motor `tt` and a background region. -/
example : ∃ (s : P08Scan) (st : Stack) (a : Nat → ℝ) (col : List (Option ℝ)), AttenAt s 2 a ∧ a 1 = 3 ∧
    (∀ p ∈ s.imageData, Stack.count p.2 = 2) ∧ dictGet s.imageData "p100k".toList = .ok st ∧
    ExportColumn s (some ttKey) col ∧ col.length = 2 ∧ s.motorNames.length = s.motors.length := by
  refine ⟨{ exampleP08 with motorNames := [ttKey], motors := [[some 1, some 2]] }, _, fun k => if k = 0 then 1 else 3, [some 1, some 2],
    exampleP08_atten, by simp, ?_, rfl, ⟨0, rfl, by simp, rfl⟩, rfl, rfl⟩
  intro p hp
  rw [List.mem_singleton.1 hp]
  rfl

/-- C89 is false for a motor that is not part of the scan: the first motor is written instead. -/
theorem C89_unknown_motor (s : P08Scan) (det : Str) (roi : List Int) (n : Str) (bck : Option (List Int)) (h : n ∉ s.motorNames) :
    exportRows s det roi (some n) bck = exportRows s det roi none bck := by
  unfold exportRows xColumn
  simp only [if_neg h]

end Verif.Props
