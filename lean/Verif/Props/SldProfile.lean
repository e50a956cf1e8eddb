import Verif.Model.SldProfile
import Verif.Spec.SldProfile
import Verif.Lemmas.Except
import Verif.Props.Simulate
import Mathlib.Analysis.SpecialFunctions.Gaussian.GaussianIntegral
import Mathlib.MeasureTheory.Integral.IntegralEqImproper
import Mathlib.Probability.CDF

/-!
# C41: the scattering length density profile
-/

namespace Verif.Props
open Verif.Py Verif.Model Verif.Spec MeasureTheory ProbabilityTheory

/-! ### The error function and the normal distribution -/

theorem phi_eq (x : ℝ) : Phi x = ∫ t in Set.Iic x, gaussianPDFReal 0 1 t := by
  unfold Phi
  rw [Measure.real, gaussianReal_apply_eq_integral 0 one_ne_zero, ENNReal.toReal_ofReal]
  exact integral_nonneg fun t => gaussianPDFReal_nonneg 0 1 t

theorem phi_zero : Phi 0 = 1 / 2 := by
  have h1 : (gaussianReal 0 1).map (fun x => -x) = gaussianReal 0 1 := by
    rw [gaussianReal_map_neg]; simp
  have h2 : (gaussianReal 0 1).real (Set.Iic 0) = (gaussianReal 0 1).real (Set.Ici 0) := by
    conv_lhs => rw [← h1]
    rw [map_measureReal_apply measurable_neg measurableSet_Iic]
    congr 1
    ext x
    simp
  have : NullSingletonClass (gaussianReal 0 1) := nullSingletonClass_gaussianReal one_ne_zero
  have h3 : (gaussianReal 0 1).real (Set.Ici 0) = (gaussianReal 0 1).real (Set.Ioi 0) := by
    unfold Measure.real
    rw [measure_congr Ioi_ae_eq_Ici]
  have h4 : (gaussianReal 0 1).real (Set.Iic 0) + (gaussianReal 0 1).real (Set.Ioi 0) = 1 := by
    rw [← Set.compl_Iic, probReal_compl_eq_one_sub measurableSet_Iic]
    ring
  unfold Phi
  linarith

theorem phi_erf (x : ℝ) : (erf (x / Real.sqrt 2) + 1) / 2 = Phi x := by
  have hint : Integrable (gaussianPDFReal 0 1) := integrable_gaussianPDFReal 0 1
  have h1 : Phi x - Phi 0 = ∫ t in (0 : ℝ)..x, gaussianPDFReal 0 1 t := by
    rw [phi_eq, phi_eq]
    exact intervalIntegral.integral_Iic_sub_Iic hint.integrableOn hint.integrableOn
  have h2 : (∫ t in (0 : ℝ)..x, gaussianPDFReal 0 1 t) =
      (Real.sqrt (2 * Real.pi))⁻¹ * (Real.sqrt 2 * ∫ t in (0 : ℝ)..(x / Real.sqrt 2), Real.exp (-t ^ 2)) := by
    have hs : Real.sqrt 2 ≠ 0 := by simp
    have := intervalIntegral.integral_comp_div (a := 0) (b := x) (fun t => Real.exp (-t ^ 2)) hs
    rw [zero_div, smul_eq_mul] at this
    rw [← this, ← intervalIntegral.integral_const_mul]
    congr 1
    ext t
    rw [gaussianPDFReal]
    simp only [NNReal.coe_one, mul_one, sub_zero]
    congr 2
    rw [div_pow, Real.sq_sqrt (by norm_num)]
    ring
  rw [phi_zero, h2] at h1
  unfold erf
  have h3 : Real.sqrt (2 * Real.pi) = Real.sqrt 2 * Real.sqrt Real.pi := Real.sqrt_mul (by norm_num) _
  have h4 : Real.sqrt 2 ≠ 0 := by simp
  have h5 : Real.sqrt Real.pi ≠ 0 := Real.sqrt_ne_zero'.2 Real.pi_pos
  rw [h3] at h1
  have h6 : Phi x = 1 / 2 + (Real.sqrt 2 * Real.sqrt Real.pi)⁻¹ *
      (Real.sqrt 2 * ∫ t in (0 : ℝ)..(x / Real.sqrt 2), Real.exp (-t ^ 2)) := by linarith
  rw [h6]
  field_simp
  ring

theorem phi_nonneg (x : ℝ) : 0 ≤ Phi x := measureReal_nonneg

theorem phi_le_one (x : ℝ) : Phi x ≤ 1 := measureReal_le_one

theorem phi_mono {x y : ℝ} (h : x ≤ y) : Phi x ≤ Phi y := measureReal_mono (Set.Iic_subset_Iic.2 h)

/-- One smoothed step is the density step times the normal distribution function. -/
theorem smoothStep_eq (z c l r : ℝ) {σ : ℝ} (h : 0 < σ) :
    smoothStep z c σ l r = some ((r - l) * Phi ((z - c) / σ)) := by
  unfold smoothStep erfQuot
  have hs : Real.sqrt 2 ≠ 0 := by simp
  rw [if_pos (mul_ne_zero h.ne' hs), ← phi_erf, div_div]
  simp only [Option.map_some, Option.some.injEq]
  split_ifs with hlr
  · rw [abs_of_pos (by linarith)]; ring
  · rw [abs_of_nonpos (by linarith)]; ring

/-- Without roughness the step is sharp. -/
theorem smoothStep_sharp (z c l r : ℝ) :
    smoothStep z c 0 l r = if z = c then none else some (if c < z then r - l else 0) := by
  unfold smoothStep erfQuot
  simp only [zero_mul, ne_eq, not_true_eq_false, if_false, sub_eq_zero, sub_pos]
  by_cases h1 : z = c
  · simp [h1]
  · by_cases h2 : c < z <;> by_cases h3 : l > r <;> simp only [h1, h2, h3, if_true, if_false, Option.map_some, Option.some.injEq]
    · rw [abs_of_pos (by linarith)]; ring
    · rw [abs_of_nonpos (by linarith)]; ring
    · ring
    · ring

/-! ### The loop over the interfaces -/

/-- The values used for interface `i`. -/
def ifAt (cumul rough sld : List ℝ) (i : Nat) : ℝ × ℝ × ℝ × ℝ :=
  (cumul.getD i 0, rough.getD i 0, sld.getD i 0, sld.getD (i + 1) 0)

theorem getItem_lt {l : List ℝ} {i : Nat} (h : i < l.length) : getItem l (i : Int) = .ok (l.getD i 0) := by
  unfold getItem normIdx
  simp [h]

theorem loop_eq (height cumul rough sld : List ℝ) (s0 : ℝ) (n : Nat) (h1 : n ≤ cumul.length) (h2 : n ≤ rough.length)
    (h3 : n + 1 ≤ sld.length) (hpos : ∀ r ∈ rough, 0 < r) :
    (List.range n).foldlM (fun (profile : List (Option ℝ)) (i : Nat) => (do
      let center ← getItem cumul (i : Int)
      let width ← getItem rough (i : Int)
      let l ← getItem sld (i : Int)
      let r ← getItem sld ((i : Int) + 1)
      let segment := height.map fun (z : ℝ) => smoothStep z center width l r
      return List.zipWith addNan profile segment : Res (List (Option ℝ)))) (height.map fun _ => some s0) =
    .ok (height.map fun z => some (profileAt s0 ((List.range n).map (ifAt cumul rough sld)) z)) := by
  induction n with
  | zero => simp [profileAt]; rfl
  | succ n ih =>
    rw [List.range_succ, List.foldlM_append, ih (by omega) (by omega) (by omega)]
    simp only [bind_ok, List.foldlM_cons, List.foldlM_nil]
    rw [getItem_lt (by omega), getItem_lt (by omega), getItem_lt (by omega)]
    have e : ((n : Int) + 1) = ((n + 1 : Nat) : Int) := by push_cast; rfl
    rw [e, getItem_lt (by omega)]
    have hr : 0 < rough.getD n 0 := by
      have hn : n < rough.length := by omega
      have e : rough.getD n 0 = rough[n] := by simp [hn]
      rw [e]
      exact hpos _ (List.getElem_mem _)
    simp only [bind_ok, smoothStep_eq _ _ _ _ hr]
    show Except.ok _ = Except.ok _
    congr 1
    rw [List.zipWith_map]
    clear ih
    induction height with
    | nil => rfl
    | cons z zs ih =>
      simp only [List.zipWith_cons_cons, List.map_cons, List.cons.injEq]
      refine ⟨?_, ih⟩
      simp only [addNan, profileAt, List.map_append, List.map_cons, List.map_nil, List.sum_append, List.sum_singleton]
      show some _ = some _
      congr 1
      rw [add_assoc]
      rfl

theorem cumulative_length (a : ℝ) (l : List ℝ) : (cumulative a l).length = l.length + 1 := by
  induction l generalizing a with
  | nil => rfl
  | cons d l ih => simp [cumulative, ih]

theorem ifAt_eq (z σ below amb : ℝ) (ls : List (ℝ × ℝ × ℝ)) :
    (List.range (ls.length + 1)).map (ifAt (cumulative z (ls.map (·.1))) (σ :: ls.map (·.2.2))
      (below :: ls.map (·.2.1) ++ [amb])) = interfacesOf z σ below amb ls := by
  induction ls generalizing z σ below with
  | nil => rfl
  | cons a ls ih =>
    obtain ⟨d, ρ, σ'⟩ := a
    rw [List.length_cons, List.range_succ_eq_map, List.map_cons, List.map_map, interfacesOf, ← ih]
    rfl

/-- C41: the number of layers must be consistent. -/
theorem C41_lengths (t : List ℝ) (s : List ℂ) (r : List ℝ) (sub amb : ℂ)
    (h : ¬(t.length = s.length ∧ s.length + 1 = r.length)) : makeSldProfile t s r sub amb = .error .valueError := by
  unfold makeSldProfile
  rw [if_pos]
  intro hc
  exact h ⟨by exact_mod_cast hc.1, by omega⟩

/-- Consistent arguments are exactly those of a list of layers `(thickness, density, upper roughness)`. -/
theorem consistent_iff (t : List ℝ) (s : List ℂ) (r : List ℝ) :
    (t.length = s.length ∧ s.length + 1 = r.length) ↔ ∃ (σ : ℝ) (ls : List (ℝ × ℂ × ℝ)),
      t = ls.map (·.1) ∧ s = ls.map (·.2.1) ∧ r = σ :: ls.map (·.2.2) := by
  constructor
  · rintro ⟨h1, h2⟩
    cases r with
    | nil => simp at h2
    | cons σ r =>
      refine ⟨σ, t.zip (s.zip r), ?_⟩
      have h3 : s.length = r.length := by simpa using h2
      have e1 : (t.zip (s.zip r)).map Prod.fst = t := List.map_fst_zip (by simp; omega)
      have e2 : (t.zip (s.zip r)).map Prod.snd = s.zip r := List.map_snd_zip (by simp; omega)
      refine ⟨e1.symm, ?_, ?_⟩
      · have : (t.zip (s.zip r)).map (·.2.1) = ((t.zip (s.zip r)).map Prod.snd).map Prod.fst := by
          rw [List.map_map]; rfl
        rw [this, e2, List.map_fst_zip h3.le]
      · have : (t.zip (s.zip r)).map (·.2.2) = ((t.zip (s.zip r)).map Prod.snd).map Prod.snd := by
          rw [List.map_map]; rfl
        rw [this, e2, List.map_snd_zip h3.ge]
  · rintro ⟨σ, ls, rfl, rfl, rfl⟩
    simp

/-- C41: for every number of layers, all thicknesses and densities and all non-zero roughnesses, the profile is
computed at the heights from three roughnesses and 10 Å below the substrate to three roughnesses and 10 Å above the
top, and its value at a height is the density of the substrate plus the sum over the interfaces of the density
step times the normal distribution function (of the real parts; thicknesses and roughnesses count with their
absolute value). -/
theorem C41_profile (σ : ℝ) (ls : List (ℝ × ℂ × ℝ)) (sub amb : ℂ) (hσ : σ ≠ 0) (hr : ∀ l ∈ ls, l.2.2 ≠ 0) :
    ∃ heights : List ℝ,
      makeSldProfile (ls.map (·.1)) (ls.map (·.2.1)) (σ :: ls.map (·.2.2)) sub amb =
        .ok (heights, heights.map fun z => some (profileAt sub.re (interfacesOf 0 |σ| sub.re amb.re
          (ls.map fun l => (|l.1|, l.2.1.re, |l.2.2|))) z)) ∧
      heights = arange (-(10 + 3 * |σ|)) ((ls.map fun l => |l.1|).sum +
        (10 + 3 * |(σ :: ls.map (·.2.2)).getLast (by simp)|)) := by
  refine ⟨_, ?_, rfl⟩
  unfold makeSldProfile
  rw [if_neg (by simp)]
  have g0 : getItem ((σ :: ls.map (·.2.2)).map fun (x : ℝ) => |x|) 0 = .ok |σ| := rfl
  have gl : getItem ((σ :: ls.map (·.2.2)).map fun (x : ℝ) => |x|) (-1) =
      .ok |(σ :: ls.map (·.2.2)).getLast (by simp)| := by
    have : ∀ l : List ℝ, (h : l ≠ []) → getItem (l.map fun (x : ℝ) => |x|) (-1) = .ok |l.getLast h| := by
      intro l h
      rcases List.eq_nil_or_concat l with rfl | ⟨l', a, rfl⟩
      · exact (h rfl).elim
      · unfold getItem normIdx
        simp
    exact this _ _
  have gs : getItem ((sub :: ls.map (·.2.1) ++ [amb]).map fun (z : ℂ) => z.re) 0 = .ok sub.re := rfl
  simp only [g0, gl, gs, bind_ok]
  rw [loop_eq]
  · simp only [bind_ok]
    show Except.ok _ = Except.ok _
    have e1 : (List.map (fun (x : ℝ) => |x|) (ls.map (·.1))) = (ls.map fun l => (|l.1|, l.2.1.re, |l.2.2|)).map (·.1) := by
      simp [Function.comp_def]
    have e2 : (List.map (fun (x : ℝ) => |x|) (σ :: ls.map (·.2.2))) =
        |σ| :: (ls.map fun l => (|l.1|, l.2.1.re, |l.2.2|)).map (·.2.2) := by
      simp [Function.comp_def]
    have e3 : (List.map (fun (z : ℂ) => z.re) (sub :: ls.map (·.2.1) ++ [amb])) =
        sub.re :: (ls.map fun l => (|l.1|, l.2.1.re, |l.2.2|)).map (·.2.1) ++ [amb.re] := by
      simp [Function.comp_def]
    have e4 : (List.map (fun (x : ℝ) => |x|) (σ :: ls.map (·.2.2))).length =
        (ls.map fun l => (|l.1|, l.2.1.re, |l.2.2|)).length + 1 := by simp
    rw [e4, e3, e2, e1, ifAt_eq]
    have e5 : ((ls.map fun l => (|l.1|, l.2.1.re, |l.2.2|)).map (·.1)).sum = (ls.map fun l => |l.1|).sum := by
      rw [List.map_map]; rfl
    rw [e5]
  · simp [cumulative_length]
  · simp
  · simp
  · intro r hr'
    simp only [List.map_cons, List.map_map, List.mem_cons, List.mem_map] at hr'
    rcases hr' with rfl | ⟨l, hl, rfl⟩
    · exact abs_pos.2 hσ
    · exact abs_pos.2 (hr l hl)

/-- C41: the heights increase in steps of 0.1 Å from the lower to the upper end. -/
theorem C41_heights (a b : ℝ) :
    (∀ z ∈ arange a b, a ≤ z ∧ z < b) ∧ (∀ z, a ≤ z → z < b → ∃ h ∈ arange a b, h ≤ z ∧ z < h + 0.1) ∧
    (arange a b).Pairwise (· < ·) := by
  unfold arange
  refine ⟨fun z hz => ?_, fun z h1 h2 => ?_, ?_⟩
  · obtain ⟨i, hi, rfl⟩ := List.mem_map.1 hz
    have hi := List.mem_range.1 hi
    have hi' : (i : ℤ) < ⌈(b - a) / 0.1⌉ := by omega
    have := Int.lt_ceil.1 hi'
    rw [lt_div_iff₀ (by norm_num)] at this
    push_cast at this
    constructor
    · have : (0 : ℝ) ≤ i * 0.1 := by positivity
      linarith
    · linarith
  · have hn : (0 : ℝ) ≤ (z - a) / 0.1 := div_nonneg (by linarith) (by norm_num)
    refine ⟨a + (⌊(z - a) / 0.1⌋₊ : ℕ) * 0.1, List.mem_map.2 ⟨⌊(z - a) / 0.1⌋₊, List.mem_range.2 ?_, rfl⟩, ?_, ?_⟩
    · have h3 : ((⌊(z - a) / 0.1⌋₊ : ℕ) : ℝ) < (b - a) / 0.1 :=
        (Nat.floor_le hn).trans_lt (div_lt_div_of_pos_right (by linarith) (by norm_num))
      have h4 : ((⌊(z - a) / 0.1⌋₊ : ℕ) : ℤ) < ⌈(b - a) / 0.1⌉ := Int.lt_ceil.2 (by exact_mod_cast h3)
      omega
    · have := Nat.floor_le hn
      rw [le_div_iff₀ (by norm_num)] at this
      linarith
    · have := Nat.lt_floor_add_one ((z - a) / 0.1)
      rw [div_lt_iff₀ (by norm_num)] at this
      linarith
  · rw [List.pairwise_map]
    refine List.pairwise_lt_range.imp fun h => ?_
    have : ((_ : ℕ) : ℝ) < ((_ : ℕ) : ℝ) := Nat.cast_lt.2 h
    linarith

/-! ### Monotone profiles -/

theorem interfacesOf_steps {R : ℝ → ℝ → Prop} (z σ below amb : ℝ) (ls : List (ℝ × ℝ × ℝ))
    (h : List.IsChain R (below :: ls.map (·.2.1) ++ [amb])) :
    ∀ i ∈ interfacesOf z σ below amb ls, R i.2.2.1 i.2.2.2 := by
  induction ls generalizing z σ below with
  | nil =>
    intro i hi
    simp only [interfacesOf, List.mem_singleton] at hi
    subst hi
    simpa using h
  | cons a ls ih =>
    obtain ⟨d, ρ, σ'⟩ := a
    simp only [List.map_cons, List.cons_append, List.isChain_cons_cons] at h
    intro i hi
    simp only [interfacesOf, List.mem_cons] at hi
    rcases hi with rfl | hi
    · exact h.1
    · exact ih _ _ _ h.2 i hi

theorem interfacesOf_sum (z σ below amb : ℝ) (ls : List (ℝ × ℝ × ℝ)) :
    ((interfacesOf z σ below amb ls).map fun i => i.2.2.2 - i.2.2.1).sum = amb - below := by
  induction ls generalizing z σ below with
  | nil => simp [interfacesOf]
  | cons a ls ih =>
    obtain ⟨d, ρ, σ'⟩ := a
    simp only [interfacesOf, List.map_cons, List.sum_cons, ih]
    ring

theorem interfacesOf_rough (z σ below amb : ℝ) (ls : List (ℝ × ℝ × ℝ)) (h0 : 0 < σ) (h : ∀ l ∈ ls, 0 < l.2.2) :
    ∀ i ∈ interfacesOf z σ below amb ls, 0 < i.2.1 := by
  induction ls generalizing z σ below with
  | nil =>
    intro i hi
    simp only [interfacesOf, List.mem_singleton] at hi
    subst hi
    exact h0
  | cons a ls ih =>
    obtain ⟨d, ρ, σ'⟩ := a
    intro i hi
    simp only [interfacesOf, List.mem_cons] at hi
    rcases hi with rfl | hi
    · exact h0
    · exact ih _ _ _ (h (d, ρ, σ') (by simp)) (fun l hl => h l (by simp [hl])) i hi

theorem sum_le_of {α : Type} {l : List α} {f g : α → ℝ} (h : ∀ a ∈ l, f a ≤ g a) : (l.map f).sum ≤ (l.map g).sum :=
  List.sum_le_sum h

/-- C41: densities that increase from the substrate to the ambient medium give a profile that increases with the
height and stays between the two. -/
theorem C41_monotone (σ sub amb : ℝ) (ls : List (ℝ × ℝ × ℝ)) (h0 : 0 < σ) (h : ∀ l ∈ ls, 0 < l.2.2)
    (hm : List.IsChain (· ≤ ·) (sub :: ls.map (·.2.1) ++ [amb])) :
    Monotone (profileAt sub (interfacesOf 0 σ sub amb ls)) ∧
    ∀ z, sub ≤ profileAt sub (interfacesOf 0 σ sub amb ls) z ∧ profileAt sub (interfacesOf 0 σ sub amb ls) z ≤ amb := by
  have hs := interfacesOf_steps 0 σ sub amb ls hm
  have hr := interfacesOf_rough 0 σ sub amb ls h0 h
  have ht := interfacesOf_sum 0 σ sub amb ls
  refine ⟨fun x y hxy => ?_, fun z => ⟨?_, ?_⟩⟩
  · unfold profileAt
    refine add_le_add_right (sum_le_of fun i hi => ?_) _
    exact mul_le_mul_of_nonneg_left (phi_mono (div_le_div_of_nonneg_right (by linarith) (hr i hi).le))
      (sub_nonneg.2 (hs i hi))
  · unfold profileAt
    have : 0 ≤ ((interfacesOf 0 σ sub amb ls).map fun i => (i.2.2.2 - i.2.2.1) * Phi ((z - i.1) / i.2.1)).sum := by
      refine List.sum_nonneg fun x hx => ?_
      obtain ⟨i, hi, rfl⟩ := List.mem_map.1 hx
      exact mul_nonneg (sub_nonneg.2 (hs i hi)) (phi_nonneg _)
    linarith
  · unfold profileAt
    have := sum_le_of (l := interfacesOf 0 σ sub amb ls)
      (f := fun i => (i.2.2.2 - i.2.2.1) * Phi ((z - i.1) / i.2.1)) (g := fun i => i.2.2.2 - i.2.2.1) fun i hi =>
        mul_le_of_le_one_right (sub_nonneg.2 (hs i hi)) (phi_le_one _)
    linarith

/-- C41: the same for decreasing densities. -/
theorem C41_antitone (σ sub amb : ℝ) (ls : List (ℝ × ℝ × ℝ)) (h0 : 0 < σ) (h : ∀ l ∈ ls, 0 < l.2.2)
    (hm : List.IsChain (· ≥ ·) (sub :: ls.map (·.2.1) ++ [amb])) :
    Antitone (profileAt sub (interfacesOf 0 σ sub amb ls)) ∧
    ∀ z, amb ≤ profileAt sub (interfacesOf 0 σ sub amb ls) z ∧ profileAt sub (interfacesOf 0 σ sub amb ls) z ≤ sub := by
  have hs := interfacesOf_steps 0 σ sub amb ls hm
  have hr := interfacesOf_rough 0 σ sub amb ls h0 h
  have ht := interfacesOf_sum 0 σ sub amb ls
  refine ⟨fun x y hxy => ?_, fun z => ⟨?_, ?_⟩⟩
  · unfold profileAt
    refine add_le_add_right (sum_le_of fun i hi => ?_) _
    exact mul_le_mul_of_nonpos_left (phi_mono (div_le_div_of_nonneg_right (by linarith) (hr i hi).le))
      (sub_nonpos.2 (hs i hi))
  · unfold profileAt
    have := sum_le_of (l := interfacesOf 0 σ sub amb ls)
      (g := fun i => (i.2.2.2 - i.2.2.1) * Phi ((z - i.1) / i.2.1)) (f := fun i => i.2.2.2 - i.2.2.1) fun i hi => by
        have h1 := phi_le_one ((z - i.1) / i.2.1)
        have h2 : i.2.2.2 - i.2.2.1 ≤ 0 := sub_nonpos.2 (hs i hi)
        nlinarith
    linarith
  · unfold profileAt
    have : ((interfacesOf 0 σ sub amb ls).map fun i => (i.2.2.2 - i.2.2.1) * Phi ((z - i.1) / i.2.1)).sum ≤ 0 := by
      have := sum_le_of (l := interfacesOf 0 σ sub amb ls)
        (f := fun i => (i.2.2.2 - i.2.2.1) * Phi ((z - i.1) / i.2.1)) (g := fun _ => (0 : ℝ)) fun i hi => ?_
      · simpa using this
      exact mul_nonpos_of_nonpos_of_nonneg (sub_nonpos.2 (hs i hi)) (phi_nonneg _)
    linarith

/-- C41: far below the sample the profile approaches the density of the substrate, far above the one of the
ambient medium, for all densities. -/
theorem C41_limits (σ sub amb : ℝ) (ls : List (ℝ × ℝ × ℝ)) (h0 : 0 < σ) (h : ∀ l ∈ ls, 0 < l.2.2) :
    Filter.Tendsto (profileAt sub (interfacesOf 0 σ sub amb ls)) Filter.atBot (nhds sub) ∧
    Filter.Tendsto (profileAt sub (interfacesOf 0 σ sub amb ls)) Filter.atTop (nhds amb) := by
  have hr := interfacesOf_rough 0 σ sub amb ls h0 h
  have ht := interfacesOf_sum 0 σ sub amb ls
  have hphi : Phi = fun x => cdf (gaussianReal 0 1) x := by
    ext x
    rw [cdf_eq_real]
    rfl
  have key : ∀ (l : List (ℝ × ℝ × ℝ × ℝ)) (F : Filter ℝ) (v : ℝ), (∀ i ∈ l, Filter.Tendsto (fun z => Phi ((z - i.1) / i.2.1)) F (nhds v)) →
      Filter.Tendsto (fun z => (l.map fun i => (i.2.2.2 - i.2.2.1) * Phi ((z - i.1) / i.2.1)).sum) F
        (nhds (v * (l.map fun i => i.2.2.2 - i.2.2.1).sum)) := by
    intro l F v hl
    induction l with
    | nil => simpa using tendsto_const_nhds
    | cons a l ih =>
      simp only [List.map_cons, List.sum_cons, mul_add]
      refine Filter.Tendsto.add ?_ (ih fun i hi => hl i (by simp [hi]))
      rw [mul_comm v]
      exact (hl a (by simp)).const_mul _
  constructor
  · have := key (interfacesOf 0 σ sub amb ls) Filter.atBot 0 fun i hi => by
      rw [hphi]
      refine (tendsto_cdf_atBot _).comp ?_
      refine Filter.Tendsto.atBot_div_const (hr i hi) ?_
      exact Filter.tendsto_atBot_add_const_right _ (-i.1) Filter.tendsto_id
    have := this.const_add sub
    rw [zero_mul, add_zero] at this
    exact this
  · have := key (interfacesOf 0 σ sub amb ls) Filter.atTop 1 fun i hi => by
      rw [hphi]
      refine (tendsto_cdf_atTop _).comp ?_
      refine Filter.Tendsto.atTop_div_const (hr i hi) ?_
      exact Filter.tendsto_atTop_add_const_right _ (-i.1) Filter.tendsto_id
    have := this.const_add sub
    rw [ht, one_mul, add_sub_cancel] at this
    exact this

/-- C41: for a table of labels of a sample with at least one layer, one profile is computed per row, from the
thicknesses, roughnesses and densities of this row: the first density belongs to the substrate, the last one to the
ambient medium and the others to the layers. -/
theorem C41_table (smp : SampleV ℝ) (hs : SampleRegular smp) (names : List Str)
    (hn : smp.labelNames = .ok names) (hk : KeywordFree (partNames smp)) (hl : 0 < smp.layers.length) (tab : SimTable)
    (t r : Nat → List ℝ) (s : Nat → List ℂ) (ht : IsTable names smp.layers.length tab t r s)
    (sub amb : Nat → ℂ) (film : Nat → List ℂ) (hsld : ∀ i < tab.nrows, s i = sub i :: film i ++ [amb i]) :
    simulateSldProfiles tab = (List.range tab.nrows).mapM fun i => makeSldProfile (t i) (film i) (r i) (sub i) (amb i) := by
  obtain ⟨e1, e2, e3⟩ := arrays_eq smp hs names hn hk hl tab t r s ht
  unfold simulateSldProfiles
  simp only [e1, e2, e3]
  refine mapM_congr fun i hi => ?_
  have hi := List.mem_range.1 hi
  have g : ∀ {α : Type} (f : Nat → α), getItem ((List.range tab.nrows).map f) (i : Int) = .ok (f i) := fun f =>
    getItem_rangeMap hi
  simp only [LabelArr.row, g, bind_ok]
  rw [hsld i hi]
  have h0 : getItem (sub i :: film i ++ [amb i]) 0 = .ok (sub i) := rfl
  have h1 : getItem (sub i :: film i ++ [amb i]) (-1) = .ok (amb i) := by
    unfold getItem normIdx
    have : (0 : Int) ≤ ((film i).length : Int) + 1 := by omega
    simp [this]
  have h2 : slice (sub i :: film i ++ [amb i]) (some 1) (some (-1)) = film i := by
    unfold slice
    have : ((-1 : Int) + ((film i).length + 1 + 1 : Nat)).toNat = (film i).length + 1 := by omega
    simp only [List.cons_append, List.length_cons, List.length_append, List.length_nil, zero_add, sliceBound]
    rw [if_pos (by norm_num), if_neg (by norm_num), this]
    simp
  rw [h0, h1, h2]
  rfl

/-- C41: every profile of such a table succeeds: the lengths are consistent. -/
theorem C41_table_lengths {names : List Str} {n : Nat} {tab : SimTable} {t r : Nat → List ℝ} {s : Nat → List ℂ}
    (ht : IsTable names n tab t r s) {i : Nat} (hi : i < tab.nrows) {sub amb : ℂ} {film : List ℂ}
    (hsld : s i = sub :: film ++ [amb]) : (t i).length = film.length ∧ film.length + 1 = (r i).length := by
  have h1 := ht.thickness i hi
  have h2 := ht.roughness i hi
  have h3 := ht.sld i hi
  rw [hsld] at h3
  simp at h3
  omega

/-- The hypotheses hold for a film with two layers. -/
example : (0 : ℝ) < 3 ∧ (∀ l ∈ [((100 : ℝ), (10 : ℝ), (5 : ℝ)), (50, 4, 2)], 0 < l.2.2) ∧
    List.IsChain (· ≥ ·) ((20 : ℝ) :: [((100 : ℝ), (10 : ℝ), (5 : ℝ)), (50, 4, 2)].map (·.2.1) ++ [0]) := by
  norm_num

end Verif.Props
