import Verif.Model.Peaks
import Verif.Spec.Peaks
import Verif.Lemmas.Except
import Verif.Lemmas.PyList
import Verif.Props.CurveFitter
import Mathlib.MeasureTheory.Integral.Bochner.Basic

/-!
# C90: peak functions
-/

namespace Verif.Props
open Verif.Py Verif.Model Verif.Spec MeasureTheory

theorem gaussPeak_eq {s : ℝ} (hs : s ≠ 0) (m i x : ℝ) :
    gaussPeak s m i x = i / Real.sqrt (2 * Real.pi * s ^ 2) * Real.exp (-0.5 * ((x - m) / s) ^ 2) := by
  unfold gaussPeak ProbabilityTheory.gaussianPDFReal
  rw [Real.coe_toNNReal _ (by positivity), ← mul_assoc, ← div_eq_mul_inv]
  congr 2
  field_simp
  ring

theorem gaussAt_eq (s m i b x : ℝ) : gaussAt [s, m, i, b] x = .ok (if s = 0 then none else some (gaussPeak s m i x + b)) := by
  show Except.ok _ = _
  by_cases h : s = 0
  · simp [h]
  · rw [if_neg h, gaussPeak_eq h, if_neg h]

theorem gaussPeak_max {s : ℝ} (hs : s ≠ 0) {i : ℝ} (hi : 0 ≤ i) (m x : ℝ) : gaussPeak s m i x ≤ gaussPeak s m i m := by
  rw [gaussPeak_eq hs, gaussPeak_eq hs]
  refine mul_le_mul_of_nonneg_left (Real.exp_le_exp.2 ?_) (by positivity)
  have : 0 ≤ ((x - m) / s) ^ 2 := by positivity
  simp
  linarith

/-- C90, `_gauss`: for a width that is not zero the function is the background plus a peak with the given area, symmetric
around the given position, with its maximum there, and half of its height at the distance `sigma * sqrt (2 log 2)`. For the width
zero no value is finite. -/
theorem C90_gauss (s m i b : ℝ) :
    (s ≠ 0 → ∃ f : ℝ → ℝ, (∀ x, gaussAt [s, m, i, b] x = .ok (some (f x))) ∧
      (∀ x, f x = gaussPeak s m i x + b) ∧
      (∫ x, (f x - b)) = i ∧ (∀ t, f (m + t) = f (m - t)) ∧ (0 ≤ i → ∀ x, f x ≤ f m) ∧ (0 < i → ∀ x, x ≠ m → f x < f m) ∧
      f (m + s * Real.sqrt (2 * Real.log 2)) - b = (f m - b) / 2) ∧
    (s = 0 → ∀ x, gaussAt [s, m, i, b] x = .ok none) := by
  constructor
  · intro hs
    refine ⟨fun x => gaussPeak s m i x + b, fun x => by rw [gaussAt_eq, if_neg hs], fun _ => rfl, ?_, ?_, ?_, ?_, ?_⟩
    · simp only [add_sub_cancel_right]
      unfold gaussPeak
      rw [integral_const_mul, ProbabilityTheory.integral_gaussianPDFReal_eq_one, mul_one]
      intro h
      have : s ^ 2 ≤ 0 := Real.toNNReal_eq_zero.1 h
      exact hs (by nlinarith [sq_nonneg s, pow_eq_zero_iff (two_ne_zero) |>.1 (le_antisymm this (sq_nonneg s))])
    · intro t
      show gaussPeak s m i (m + t) + b = gaussPeak s m i (m - t) + b
      rw [gaussPeak_eq hs, gaussPeak_eq hs]
      congr 4
      ring
    · intro hi x
      exact add_le_add_left (gaussPeak_max hs hi m x) b
    · intro hi x hx
      refine add_lt_add_left ?_ b
      rw [gaussPeak_eq hs, gaussPeak_eq hs]
      refine mul_lt_mul_of_pos_left (Real.exp_lt_exp.2 ?_) (by positivity)
      have h1 : (x - m) / s ≠ 0 := div_ne_zero (sub_ne_zero.2 hx) hs
      have : 0 < ((x - m) / s) ^ 2 := by positivity
      simp
      linarith
    · show gaussPeak s m i (m + s * Real.sqrt (2 * Real.log 2)) + b - b = (gaussPeak s m i m + b - b) / 2
      rw [gaussPeak_eq hs, gaussPeak_eq hs]
      have h0 : 0 ≤ 2 * Real.log 2 := by positivity
      have h1 : -0.5 * ((m + s * Real.sqrt (2 * Real.log 2) - m) / s) ^ 2 = - Real.log 2 := by
        rw [add_sub_cancel_left, mul_div_cancel_left₀ _ hs, Real.sq_sqrt h0]
        ring
      have h2 : -0.5 * ((m - m) / s) ^ 2 = 0 := by simp
      rw [h1, h2, Real.exp_neg, Real.exp_log two_pos, Real.exp_zero]
      ring
  · intro hs x
    rw [gaussAt_eq, if_pos hs]

theorem lorentzAt_eq (w g i b x : ℝ) : lorentzAt [w, g, i, b] x =
    .ok (if (x ^ 2 - w ^ 2) ^ 2 + (g * w) ^ 2 = 0 then none else some (lorentzPeak w g i x + b)) := by
  have h : lorentzAt [w, g, i, b] x = .ok (if (x ^ 2 - w ^ 2) ^ 2 + g ^ 2 * w ^ 2 = 0 then none
    else some (i * 1 / ((x ^ 2 - w ^ 2) ^ 2 + g ^ 2 * w ^ 2) + b)) := rfl
  rw [h, ← mul_pow, mul_one]
  rfl

theorem lorentz_pos {w g : ℝ} (h : g * w ≠ 0) (x : ℝ) : 0 < (x ^ 2 - w ^ 2) ^ 2 + (g * w) ^ 2 := by positivity

theorem lorentzPeak_max {w g : ℝ} (h : g * w ≠ 0) {i : ℝ} (hi : 0 ≤ i) (x : ℝ) : lorentzPeak w g i x ≤ lorentzPeak w g i w := by
  unfold lorentzPeak
  refine div_le_div_of_nonneg_left hi (lorentz_pos h w) ?_
  have : 0 ≤ (x ^ 2 - w ^ 2) ^ 2 := by positivity
  simp
  linarith

/-- C90, `_lorentzian`: if position and width are not zero, the function is the background plus a resonance curve, whose height is
`intensity / (gamma * omega_0)^2`, whose maxima are exactly the two positions `omega_0` and `- omega_0`, and which has half of its
height where `x^2` differs by `gamma * omega_0` from `omega_0^2`. -/
theorem C90_lorentz (w g i b : ℝ) (h : g * w ≠ 0) :
    ∃ f : ℝ → ℝ, (∀ x, lorentzAt [w, g, i, b] x = .ok (some (f x))) ∧ f w = i / (g * w) ^ 2 + b ∧
      (∀ x, f x = lorentzPeak w g i x + b) ∧
      (0 ≤ i → ∀ x, f x ≤ f w) ∧ (0 < i → ∀ x, f x = f w ↔ x = w ∨ x = -w) ∧
      (∀ x, x ^ 2 = w ^ 2 + g * w ∨ x ^ 2 = w ^ 2 - g * w → f x - b = (f w - b) / 2) := by
  refine ⟨fun x => lorentzPeak w g i x + b, fun x => by rw [lorentzAt_eq, if_neg (lorentz_pos h x).ne'], ?_, fun _ => rfl, ?_, ?_, ?_⟩
  · simp [lorentzPeak]
  · intro hi x
    exact add_le_add_left (lorentzPeak_max h hi x) b
  · intro hi x
    have h1 := lorentz_pos h x
    have h2 := lorentz_pos h w
    constructor
    · intro e
      have e1 : i / ((x ^ 2 - w ^ 2) ^ 2 + (g * w) ^ 2) = i / ((w ^ 2 - w ^ 2) ^ 2 + (g * w) ^ 2) := add_right_cancel e
      have e2 : (x ^ 2 - w ^ 2) ^ 2 + (g * w) ^ 2 = (w ^ 2 - w ^ 2) ^ 2 + (g * w) ^ 2 := by
        rw [div_eq_div_iff h1.ne' h2.ne'] at e1
        exact (mul_left_cancel₀ hi.ne' e1).symm
      have e3 : x ^ 2 - w ^ 2 = 0 := by
        have : (x ^ 2 - w ^ 2) ^ 2 = 0 := by simpa using e2
        exact pow_eq_zero_iff two_ne_zero |>.1 this
      exact sq_eq_sq_iff_eq_or_eq_neg.1 (sub_eq_zero.1 e3)
    · rintro (rfl | rfl)
      · rfl
      · simp [lorentzPeak]
  · intro x hx
    have h2 : (x ^ 2 - w ^ 2) ^ 2 = (g * w) ^ 2 := by
      rcases hx with hx | hx <;> rw [hx] <;> ring
    simp only [lorentzPeak, add_sub_cancel_right, h2, sub_self]
    have : (g * w) ^ 2 ≠ 0 := by positivity
    field_simp
    norm_num

/-- C90: a Lorentz peak at the position zero has no finite value there, and its width has no effect. -/
theorem C90_lorentz_zero (g i b : ℝ) : lorentzAt [0, g, i, b] 0 = .ok none ∧
    ∀ g' x, lorentzAt [0, g, i, b] x = lorentzAt [0, g', i, b] x := by
  refine ⟨by rw [lorentzAt_eq]; simp, fun g' x => ?_⟩
  rw [lorentzAt_eq, lorentzAt_eq]
  simp [lorentzPeak]

theorem voigtAt_eq (v : Voigt) (b x : ℝ) (h1 : v.gaussWidth ≠ 0) (h2 : v.lorentzWidth * v.pos ≠ 0) :
    voigtAt [v.pos, v.gaussInt, v.gaussWidth, v.lorentzInt, v.lorentzWidth, b] x = .ok (some (v.at x + b)) := by
  have h : voigtAt [v.pos, v.gaussInt, v.gaussWidth, v.lorentzInt, v.lorentzWidth, b] x = (do
    let g ← gaussAt [v.gaussWidth, v.pos, v.gaussInt, 0] x
    let l ← lorentzAt [v.pos, v.lorentzWidth, v.lorentzInt, 0] x
    let b ← getItem [v.pos, v.gaussInt, v.gaussWidth, v.lorentzInt, v.lorentzWidth, b] 5
    return oadd (oadd g l) (some b)) := rfl
  rw [h, gaussAt_eq, lorentzAt_eq, if_neg h1, if_neg (lorentz_pos h2 x).ne', add_zero, add_zero]
  rfl

/-- C90, `_pseudo_voigt`: the sum of both peaks and the background, with its maximum at the position. -/
theorem C90_voigt (v : Voigt) (b : ℝ) (h1 : v.gaussWidth ≠ 0) (h2 : v.lorentzWidth * v.pos ≠ 0) :
    (∀ x, voigtAt [v.pos, v.gaussInt, v.gaussWidth, v.lorentzInt, v.lorentzWidth, b] x = .ok (some (v.at x + b))) ∧
    (0 ≤ v.gaussInt → 0 ≤ v.lorentzInt → ∀ x, v.at x ≤ v.at v.pos) := by
  refine ⟨fun x => voigtAt_eq v b x h1 h2, fun a1 a2 x => ?_⟩
  exact add_le_add (gaussPeak_max h1 a1 _ _) (lorentzPeak_max h2 a2 _)

/-! ### Several peaks -/

theorem addPeaks_sum (f : List ℝ → ℝ → Res (Option ℝ)) (w : Nat) (p : List ℝ) (x : ℝ) (n : Nat) (g : Nat → ℝ)
    (h : ∀ k < n, f (slice p (some (k * w : Nat)) (some (k * w + w : Nat)) ++ [0]) x = .ok (some (g k))) :
    addPeaks f w p x (List.range n) = .ok (some (∑ k ∈ Finset.range n, g k)) := by
  induction n with
  | zero => rfl
  | succ n ih =>
    have ih := ih fun k hk => h k (by omega)
    unfold addPeaks at ih ⊢
    rw [List.range_succ, List.foldlM_append, ih, bind_ok, List.foldlM_cons, h n (by omega)]
    simp only [bind_ok, Finset.sum_range_succ]
    rfl

theorem flatten_block {α : Type} (w : Nat) (ls : List (List α)) (hl : ∀ l ∈ ls, l.length = w) (tail : List α) (k : Nat) (l : List α)
    (hk : ls[k]? = some l) : ((ls.flatten ++ tail).take (k * w + w)).drop (k * w) = l := by
  induction ls generalizing k with
  | nil => simp at hk
  | cons a ls ih =>
    have ha : a.length = w := hl a (by simp)
    cases k with
    | zero =>
      simp only [List.getElem?_cons_zero, Option.some.injEq] at hk
      subst hk
      simp [← ha, List.append_assoc]
    | succ k =>
      rw [List.getElem?_cons_succ] at hk
      have := ih (fun l hl' => hl l (by simp [hl'])) k hk
      rw [List.flatten_cons, List.append_assoc]
      have e1 : (k + 1) * w + w = w + (k * w + w) := by ring
      have e2 : (k + 1) * w = w + k * w := by ring
      rw [e1, e2, ← ha, List.take_append, ha]
      rw [List.take_of_length_le (by omega), show w + (k * w + w) - w = k * w + w by omega, ← ha, List.drop_append, List.drop_of_length_le (by omega)]
      simp only [List.nil_append, Nat.add_sub_cancel_left]
      rw [ha]
      exact this

theorem getItem_last {α : Type} (l : List α) (b : α) : getItem (l ++ [b]) (-1) = .ok b := by
  unfold getItem normIdx
  simp

theorem flatten_length_const {α : Type} (w : Nat) (ls : List (List α)) (hl : ∀ l ∈ ls, l.length = w) : ls.flatten.length = ls.length * w := by
  induction ls with
  | nil => simp
  | cons a ls ih =>
    rw [List.flatten_cons, List.length_append, ih fun l h => hl l (by simp [h]), hl a (by simp), List.length_cons]
    ring

theorem slice_block {α : Type} (w : Nat) (ls : List (List α)) (hl : ∀ l ∈ ls, l.length = w) (tail : List α) (k : Nat) (l : List α)
    (hk : ls[k]? = some l) : slice (ls.flatten ++ tail) (some (k * w : Nat)) (some (k * w + w : Nat)) = l := by
  rw [slice_nat', flatten_block w ls hl tail k l hk]

theorem list_sum_getD (l : List ℝ) : ∑ k ∈ Finset.range l.length, l.getD k 0 = l.sum := by
  induction l with
  | nil => rfl
  | cons a l ih =>
    rw [List.length_cons, Finset.sum_range_succ', List.sum_cons, ← ih, add_comm]
    simp

/-- The sum over blocks of parameters. -/
theorem addPeaks_blocks {α : Type} (f : List ℝ → ℝ → Res (Option ℝ)) (w : Nat) (ps : List α) (enc : α → List ℝ)
    (hw : ∀ a, (enc a).length = w) (b x : ℝ) (v : α → ℝ) (h : ∀ a ∈ ps, f (enc a ++ [0]) x = .ok (some (v a))) (hw1 : 1 < w) :
    addPeaks f w ((ps.map enc).flatten ++ [b]) x (List.range (((ps.map enc).flatten ++ [b]).length / w)) =
      .ok (some ((ps.map v).sum)) := by
  have hl : ∀ l ∈ ps.map enc, l.length = w := by
    intro l hl
    obtain ⟨a, -, rfl⟩ := List.mem_map.1 hl
    exact hw a
  have hlen : ((ps.map enc).flatten ++ [b]).length / w = ps.length := by
    rw [List.length_append, flatten_length_const w _ hl, List.length_map, List.length_singleton, Nat.add_comm,
      Nat.add_mul_div_right _ _ (by omega), Nat.div_eq_of_lt hw1, Nat.zero_add]
  rw [hlen, addPeaks_sum f w _ x ps.length (fun k => (ps.map v).getD k 0)]
  · rw [← List.length_map (f := v), list_sum_getD]
  · intro k hk
    rw [slice_block w _ hl [b] k (enc ps[k]) (by simp [hk]), h _ (List.getElem_mem hk)]
    simp [List.getD_eq_getElem?_getD, hk]

/-- The sum of Gauss peaks. -/
noncomputable def gaussSum (ps : List (ℝ × ℝ × ℝ)) (x : ℝ) : ℝ := (ps.map fun (p : ℝ × ℝ × ℝ) => gaussPeak p.1 p.2.1 p.2.2 x).sum

theorem gaussPeak_integrable (s m i : ℝ) : Integrable (gaussPeak s m i) := by
  unfold gaussPeak
  exact (ProbabilityTheory.integrable_gaussianPDFReal _ _).const_mul _

theorem gaussSum_area (ps : List (ℝ × ℝ × ℝ)) (hs : ∀ p ∈ ps, p.1 ≠ 0) :
    Integrable (gaussSum ps) ∧ ∫ x, gaussSum ps x = (ps.map fun (p : ℝ × ℝ × ℝ) => p.2.2).sum := by
  induction ps with
  | nil =>
    have : gaussSum [] = fun _ => 0 := rfl
    rw [this]
    exact ⟨integrable_zero _ _ _, by simp⟩
  | cons p ps ih =>
    obtain ⟨h1, h2⟩ := ih fun q hq => hs q (by simp [hq])
    have e : gaussSum (p :: ps) = fun x => gaussPeak p.1 p.2.1 p.2.2 x + gaussSum ps x := rfl
    refine ⟨by rw [e]; exact (gaussPeak_integrable _ _ _).add h1, ?_⟩
    rw [e, integral_add (gaussPeak_integrable _ _ _) h1, h2, List.map_cons, List.sum_cons]
    obtain ⟨f, -, f2, f3, -⟩ := (C90_gauss p.1 p.2.1 p.2.2 0).1 (hs p (by simp))
    congr 1
    refine Eq.trans ?_ f3
    refine integral_congr_ae (Filter.Eventually.of_forall fun x => ?_)
    simp only [f2, add_zero, sub_zero]

/-- C90, `_multi_gauss` with three parameters for every peak and one background: the function is the background plus the sum of
the peaks, the area above the background is the sum of the areas, the order of the peaks does not matter, and the curves drawn for
the single peaks add up to it. -/
theorem C90_multi_gauss (ps : List (ℝ × ℝ × ℝ)) (b : ℝ) (hs : ∀ p ∈ ps, p.1 ≠ 0) :
    (∀ x, multiGaussAt (gaussParams ps b) x = .ok (some (gaussSum ps x + b))) ∧
    (∫ x, (gaussSum ps x + b - b)) = (ps.map fun (p : ℝ × ℝ × ℝ) => p.2.2).sum ∧
    (∀ qs, qs.Perm ps → ∀ x, multiGaussAt (gaussParams qs b) x = multiGaussAt (gaussParams ps b) x) ∧
    (∀ x (k : Nat) p, ps[k]? = some p → singleGaussAt (gaussParams ps b) k x = .ok (some (gaussPeak p.1 p.2.1 p.2.2 x + b))) := by
  have key : ∀ ps : List (ℝ × ℝ × ℝ), (∀ p ∈ ps, p.1 ≠ 0) → ∀ x, multiGaussAt (gaussParams ps b) x = .ok (some (gaussSum ps x + b)) := by
    intro ps hs x
    unfold multiGaussAt gaussParams
    rw [addPeaks_blocks gaussAt 3 ps _ (fun _ => rfl) b x (fun (p : ℝ × ℝ × ℝ) => gaussPeak p.1 p.2.1 p.2.2 x) (by
      intro p hp
      show gaussAt [p.1, p.2.1, p.2.2, 0] x = _
      rw [gaussAt_eq, if_neg (hs p hp), add_zero]) (by norm_num), bind_ok, getItem_last]
    rfl
  refine ⟨key ps hs, ?_, ?_, ?_⟩
  · simp only [add_sub_cancel_right]
    exact (gaussSum_area ps hs).2
  · intro qs hq x
    rw [key ps hs, key qs fun p hp => hs p (hq.mem_iff.1 hp)]
    unfold gaussSum
    rw [(hq.map _).sum_eq]
  · intro x k p hk
    unfold singleGaussAt gaussParams
    rw [getItem_last, bind_ok, slice_block 3 _ (by
      intro l hl
      obtain ⟨a, -, rfl⟩ := List.mem_map.1 hl
      rfl) [b] k [p.1, p.2.1, p.2.2] (by simp [hk])]
    show gaussAt [p.1, p.2.1, p.2.2, b] x = _
    rw [gaussAt_eq, if_neg (hs p (List.mem_of_getElem? hk))]

/-- C90, `_multi_voigt`. -/
theorem C90_multi_voigt (ps : List Voigt) (b : ℝ) (hs : ∀ v ∈ ps, v.gaussWidth ≠ 0 ∧ v.lorentzWidth * v.pos ≠ 0) (x : ℝ) :
    multiVoigtAt (voigtParams ps b) x = .ok (some ((ps.map fun (v : Voigt) => v.at x).sum + b)) := by
  unfold multiVoigtAt voigtParams
  rw [addPeaks_blocks voigtAt 5 ps _ (fun _ => rfl) b x (fun (v : Voigt) => v.at x) (by
    intro v hv
    have := voigtAt_eq v 0 x (hs v hv).1 (hs v hv).2
    rwa [add_zero] at this) (by norm_num), bind_ok, getItem_last]
  rfl

/-- C90, `_gauss_lorentzian`: the sum of both peaks and the background; every other number of parameters is rejected. -/
theorem C90_gauss_lorentzian (w g i s m j b : ℝ) (h1 : g * w ≠ 0) (h2 : s ≠ 0) :
    (∀ x, gaussLorentzAt [w, g, i, s, m, j, b] x = .ok (some (lorentzPeak w g i x + gaussPeak s m j x + b))) ∧
    (∀ p x, p.length ≠ 7 → gaussLorentzAt p x = .error .runtimeError) := by
  refine ⟨fun x => ?_, fun p x hp => if_pos hp⟩
  have h : gaussLorentzAt [w, g, i, s, m, j, b] x = (do
    let l ← lorentzAt [w, g, i, 0] x
    let g ← gaussAt [s, m, j, 0] x
    return oadd (oadd (oadd (some 0) l) g) (some b)) := rfl
  rw [h, lorentzAt_eq, gaussAt_eq, if_neg h2, if_neg (lorentz_pos h1 x).ne', add_zero, add_zero, bind_ok, bind_ok]
  show Except.ok (some (0 + lorentzPeak w g i x + gaussPeak s m j x + b)) = _
  rw [zero_add]

/-! ### Start parameters -/

/-- C90, start of `simpleFit` and `multiFit`: if every Gauss peak has three parameters, the fit starts with the sum of the peaks of
type gauss plus the background of the last entry of any type; the names are those of the Gauss peaks in the same order. -/
theorem C90_start (peaks : List (Str × Peak)) (last : Str × Peak) (b : ℝ) (hl : peaks.getLast? = some last) (hb : last.2.params[3]? = some b)
    (h3 : ∀ k ∈ peaks, k.2.type = gaussType → 3 ≤ k.2.params.length) :
    gaussStart peaks = .ok (gaussParams ((peaks.filter fun (k : Str × Peak) => k.2.type = gaussType).map fun (k : Str × Peak) =>
        (k.2.params.getD 0 0, k.2.params.getD 1 0, k.2.params.getD 2 0)) b,
      (peaks.filter fun (k : Str × Peak) => k.2.type = gaussType).map Prod.fst) := by
  unfold gaussStart
  rw [hl]
  simp only
  have hg : getItem last.2.params 3 = .ok b := by
    obtain ⟨hlt, he⟩ := List.getElem?_eq_some_iff.1 hb
    rw [← he]
    exact getItem_nat hlt
  rw [hg, bind_ok]
  unfold gaussParams
  rw [List.map_map]
  have : (peaks.filter fun (k : Str × Peak) => k.2.type = gaussType).map (fun (k : Str × Peak) => slice k.2.params (some 0) (some 3)) =
      (peaks.filter fun (k : Str × Peak) => k.2.type = gaussType).map ((fun (p : ℝ × ℝ × ℝ) => [p.1, p.2.1, p.2.2]) ∘ fun (k : Str × Peak) =>
        (k.2.params.getD 0 0, k.2.params.getD 1 0, k.2.params.getD 2 0)) := by
    refine List.map_congr_left fun k hk => ?_
    obtain ⟨hk1, hk2⟩ := List.mem_filter.1 hk
    have := h3 k hk1 (by simpa using hk2)
    have e := slice_nat' k.2.params 0 3
    rw [show slice k.2.params (some 0) (some 3) = List.drop 0 (List.take 3 k.2.params) from e]
    simp only [Function.comp_apply]
    generalize k.2.params = ps at this ⊢
    match ps, this with
    | a :: b :: c :: r, _ => rfl
  rw [this]
  rfl

/-- C90: an entry that is not a Gauss peak contributes nothing, except that its background is used if it is the last one; without
entries the call fails. -/
theorem C90_start_empty : gaussStart [] = .error .unboundLocalError := rfl

/-- C90, start of `gaussLorentzianFit` with one peak of each type, in any order: the parameters of both peaks and the background of
the Lorentz peak. -/
theorem C90_gauss_lorentz_start (a c : Str) (s m j b w g i b' : ℝ) :
    gaussLorentzStart [(a, ⟨gaussType, [s, m, j, b]⟩), (c, ⟨lorentzType, [w, g, i, b']⟩)] = .ok [w, g, i, s, m, j, b'] ∧
    gaussLorentzStart [(c, ⟨lorentzType, [w, g, i, b']⟩), (a, ⟨gaussType, [s, m, j, b]⟩)] = .ok [w, g, i, s, m, j, b'] ∧
    gaussLorentzStart [(a, ⟨gaussType, [s, m, j, b]⟩), (c, ⟨gaussType, [w, g, i, b']⟩)] = .error .runtimeError :=
  ⟨rfl, rfl, rfl⟩

/-- C90 is false for two Lorentz peaks: they are not rejected although only one is allowed, the first one is lost, and the start
curve has no finite value. -/
theorem C90_two_lorentz (a c : Str) (w g i b w' g' i' b' x : ℝ) :
    gaussLorentzStart [(a, ⟨lorentzType, [w, g, i, b]⟩), (c, ⟨lorentzType, [w', g', i', b']⟩)] = .ok [w', g', i', 0, 0, 0, b'] ∧
    gaussLorentzAt [w', g', i', 0, 0, 0, b'] x = .ok none := by
  refine ⟨rfl, ?_⟩
  have h : gaussLorentzAt [w', g', i', 0, 0, 0, b'] x = (do
    let l ← lorentzAt [w', g', i', 0] x
    let g ← gaussAt [0, 0, 0, 0] x
    return oadd (oadd (oadd (some 0) l) g) (some b')) := rfl
  rw [h, lorentzAt_eq, gaussAt_eq, if_pos rfl, bind_ok, bind_ok]
  show Except.ok (oadd (oadd _ none) (some b')) = _
  split_ifs <;> rfl

/-- C90 is false without a background parameter: the last area is used twice. -/
theorem C90_no_background (s m i x : ℝ) (hs : s ≠ 0) : multiGaussAt [s, m, i] x = .ok (some (gaussPeak s m i x + i)) := by
  have h : multiGaussAt [s, m, i] x = (do
    let r ← addPeaks gaussAt 3 [s, m, i] x (List.range 1)
    return oadd r (some i)) := by
    have e : getItem [s, m, i] (-1) = .ok i := rfl
    unfold multiGaussAt
    rw [e, show [s, m, i].length / 3 = 1 by norm_num]
    simp only [bind_ok]
  rw [h, addPeaks_sum gaussAt 3 _ x 1 (fun _ => gaussPeak s m i x) (by
    intro k hk
    obtain rfl : k = 0 := by omega
    show gaussAt [s, m, i, 0] x = _
    rw [gaussAt_eq, if_neg hs, add_zero]), bind_ok]
  simp only [Finset.sum_range_one]
  rfl

/-- Two peaks that meet the hypotheses of `C90_multi_gauss`. -/
example : (∫ x, (gaussSum [(1, 0, 2), (-2, 5, 3)] x + 7 - 7)) = 5 := by
  rw [(C90_multi_gauss [(1, 0, 2), (-2, 5, 3)] 7 (by
    intro p hp
    simp only [List.mem_cons, List.not_mem_nil, or_false] at hp
    rcases hp with rfl | rfl <;> norm_num)).2.1]
  norm_num

/-- The hypotheses of `C90_start` hold for a Gauss peak and a background entry. -/
example : gaussStart [("a".toList, ⟨gaussType, [1, 2, 3, 4]⟩), ("bg".toList, ⟨"none".toList, [0, 0, 0, 9]⟩)] =
    .ok ([1, 2, 3, 9], ["a".toList]) :=
  C90_start [("a".toList, ⟨gaussType, [1, 2, 3, 4]⟩), ("bg".toList, ⟨"none".toList, [0, 0, 0, 9]⟩)] _ 9 rfl rfl (by
    intro k hk _
    simp only [List.mem_cons, List.not_mem_nil, or_false] at hk
    rcases hk with rfl | rfl <;> decide)

end Verif.Props
