import Verif.Model.Scans
import Verif.Spec.Footprint
import Verif.Props.Interpolation
import Verif.Props.SldProfile

/-!
# C44, C45, C80: conversions and the footprint correction
-/

namespace Verif.Props
open Verif.Py Verif.Model Verif.Spec MeasureTheory ProbabilityTheory

/-! ### C44: angles and momentum transfers -/

theorem half_mem {a : ℝ} (h : a ∈ Set.Icc (-180 : ℝ) 180) : a / 2 * Real.pi / 180 ∈ Set.Icc (-(Real.pi / 2)) (Real.pi / 2) := by
  have := Real.pi_pos
  constructor
  · have h1 := h.1
    rw [le_div_iff₀ (by norm_num)]
    nlinarith
  · have h2 := h.2
    rw [div_le_iff₀ (by norm_num)]
    nlinarith

/-- C44: angles between -180° and 180° survive the conversion to `q` and back. -/
theorem C44_angle (angle : List ℝ) (lam : ℝ) (hl : lam ≠ 0) (h : ∀ a ∈ angle, a ∈ Set.Icc (-180 : ℝ) 180) :
    ∃ q, angleToQ angle lam = .ok q ∧ qToAngle q lam = angle.map some := by
  refine ⟨_, by rw [angleToQ, if_neg hl], ?_⟩
  unfold qToAngle
  rw [List.map_map]
  refine List.map_congr_left fun a ha => ?_
  have hp := Real.pi_ne_zero
  have e : 4 * Real.pi / lam * Real.sin (a / 2 * Real.pi / 180) * lam / (4 * Real.pi) =
      Real.sin (a / 2 * Real.pi / 180) := by field_simp
  simp only [Function.comp_apply, e]
  unfold npArcsin
  rw [if_pos ⟨Real.neg_one_le_sin _, Real.sin_le_one _⟩, Real.arcsin_sin (half_mem (h a ha)).1 (half_mem (h a ha)).2]
  simp only [Option.map_some, Option.some.injEq]
  field_simp

/-- C44: the momentum transfers that exist at this wavelength survive the conversion to angles and back; for the
others the conversion gives NaN. -/
theorem C44_q (q : List ℝ) (lam : ℝ) (hl : 0 < lam) :
    ((∀ x ∈ q, |x| ≤ 4 * Real.pi / lam) →
      ∃ angle, qToAngle q lam = angle.map some ∧ (∀ a ∈ angle, a ∈ Set.Icc (-180 : ℝ) 180) ∧
        angleToQ angle lam = .ok q) ∧
    (∀ x, 4 * Real.pi / lam < |x| → qToAngle [x] lam = [none]) := by
  have hp := Real.pi_pos
  have hiff : ∀ x : ℝ, (-1 ≤ x * lam / (4 * Real.pi) ∧ x * lam / (4 * Real.pi) ≤ 1) ↔ |x| ≤ 4 * Real.pi / lam := by
    intro x
    rw [abs_le, le_div_iff₀ (by positivity), div_le_iff₀ (by positivity), le_div_iff₀ hl, ← neg_div, div_le_iff₀ hl]
    constructor <;> rintro ⟨h1, h2⟩ <;> constructor <;> linarith
  refine ⟨fun h => ?_, fun x hx => ?_⟩
  · refine ⟨q.map fun x => 2 * Real.arcsin (x * lam / (4 * Real.pi)) / Real.pi * 180, ?_, ?_, ?_⟩
    · unfold qToAngle
      rw [List.map_map]
      refine List.map_congr_left fun x hx => ?_
      unfold npArcsin
      rw [if_pos ((hiff x).2 (h x hx))]
      rfl
    · intro a ha
      obtain ⟨x, -, rfl⟩ := List.mem_map.1 ha
      have h1 := Real.arcsin_le_pi_div_two (x * lam / (4 * Real.pi))
      have h2 := Real.neg_pi_div_two_le_arcsin (x * lam / (4 * Real.pi))
      constructor
      · rw [div_mul_eq_mul_div, le_div_iff₀ hp]; linarith
      · rw [div_mul_eq_mul_div, div_le_iff₀ hp]; linarith
    · rw [angleToQ, if_neg hl.ne', List.map_map]
      congr 1
      conv_rhs => rw [← List.map_id q]
      refine List.map_congr_left fun x hx => ?_
      have e : 2 * Real.arcsin (x * lam / (4 * Real.pi)) / Real.pi * 180 / 2 * Real.pi / 180 =
          Real.arcsin (x * lam / (4 * Real.pi)) := by field_simp
      have := (hiff x).2 (h x hx)
      simp only [Function.comp_apply, e, Real.sin_arcsin this.1 this.2, id]
      field_simp
  · unfold qToAngle npArcsin
    simp only [List.map_cons, List.map_nil]
    rw [if_neg fun hc => absurd ((hiff x).1 hc) (not_le.2 hx)]
    rfl

/-- C44: `q` increases strictly with the angle up to 180°. -/
theorem C44_monotone (lam : ℝ) (hl : 0 < lam) : ∃ f : ℝ → ℝ, (∀ angle, angleToQ angle lam = .ok (angle.map f)) ∧
    StrictMonoOn f (Set.Icc (-180) 180) := by
  refine ⟨_, fun angle => by rw [angleToQ, if_neg hl.ne'], fun a ha b hb hab => ?_⟩
  have hp := Real.pi_pos
  refine mul_lt_mul_of_pos_left (Real.strictMonoOn_sin (half_mem ha) (half_mem hb) ?_) (by positivity)
  refine div_lt_div_of_pos_right (mul_lt_mul_of_pos_right ?_ hp) (by norm_num)
  linarith

/-- C44: energy and wavelength are converted by the same involution. -/
theorem C44_energy (e : ℝ) (he : e ≠ 0) : ∃ w, energyToWavelength e = .ok w ∧ w ≠ 0 ∧ wavelengthToEnergy w = .ok e ∧
    ∃ w', wavelengthToEnergy e = .ok w' ∧ w' ≠ 0 ∧ energyToWavelength w' = .ok e := by
  have h : (1.2398 / e * 1e4 : ℝ) ≠ 0 := by positivity
  have h2 : (1.2398 / (1.2398 / e * 1e4) * 1e4 : ℝ) = e := by field_simp
  refine ⟨_, by rw [energyToWavelength, if_neg he], h, by rw [wavelengthToEnergy, if_neg h, h2], _,
    by rw [wavelengthToEnergy, if_neg he], h, by rw [energyToWavelength, if_neg h, h2]⟩

/-- C44: zero is rejected. -/
theorem C44_zero (a : List ℝ) : angleToQ a 0 = .error .zeroDivision ∧ energyToWavelength 0 = .error .zeroDivision ∧
    wavelengthToEnergy 0 = .error .zeroDivision := by
  simp [angleToQ, energyToWavelength, wavelengthToEnergy]

/-! ### The error function -/

theorem erf_zero : erf 0 = 0 := by simp [erf]

theorem erf_strictMono : StrictMono erf := by
  intro x y hxy
  unfold erf
  have hc : Continuous fun t : ℝ => Real.exp (-t ^ 2) := by fun_prop
  have h1 := intervalIntegral.integral_add_adjacent_intervals (hc.intervalIntegrable 0 x) (hc.intervalIntegrable x y)
    (μ := volume)
  have h2 : 0 < ∫ t in x..y, Real.exp (-t ^ 2) :=
    intervalIntegral.intervalIntegral_pos_of_pos (hc.intervalIntegrable x y) (fun t => Real.exp_pos _) hxy
  have h3 : 0 < 2 / Real.sqrt Real.pi := div_pos two_pos (Real.sqrt_pos.2 Real.pi_pos)
  rw [← h1, mul_add]
  have := mul_pos h3 h2
  linarith

theorem erf_pos {x : ℝ} (h : 0 < x) : 0 < erf x := by
  have := erf_strictMono h
  rwa [erf_zero] at this

theorem erf_le_one (x : ℝ) : erf x ≤ 1 := by
  have := phi_erf (x * Real.sqrt 2)
  have h2 := phi_le_one (x * Real.sqrt 2)
  rw [mul_div_assoc, div_self (by simp), mul_one] at this
  linarith

/-! ### C45: the correction factors -/

/-- The sine of half the angle. -/
noncomputable def hs (a : ℝ) : ℝ := Real.sin (a / 2 * Real.pi / 180)

theorem hs_pos {a : ℝ} (h : a ∈ Set.Ioc (0 : ℝ) 180) : 0 < hs a := by
  have hp := Real.pi_pos
  refine Real.sin_pos_of_pos_of_lt_pi ?_ ?_
  · have := h.1
    positivity
  · have := (half_mem ⟨by linarith [h.1], h.2⟩).2
    linarith

theorem hs_lt {a b : ℝ} (ha : a ∈ Set.Ioc (0 : ℝ) 180) (hb : b ∈ Set.Ioc (0 : ℝ) 180) (h : a < b) : hs a < hs b := by
  refine Real.strictMonoOn_sin (half_mem ⟨by linarith [ha.1], ha.2⟩) (half_mem ⟨by linarith [hb.1], hb.2⟩) ?_
  have hp := Real.pi_pos
  refine div_lt_div_of_pos_right (mul_lt_mul_of_pos_right ?_ hp) (by norm_num)
  linarith

theorem box_limit {a x : ℝ} (ha : a ∈ Set.Ioc (0 : ℝ) 180) (hx : x ∈ Set.Icc (-1 : ℝ) 1) :
    a < 2 * Real.arcsin x / Real.pi * 180 ↔ hs a < x := by
  unfold hs
  rw [← Real.lt_arcsin_iff_sin_lt (half_mem ⟨by linarith [ha.1], ha.2⟩) hx]
  have hp := Real.pi_pos
  rw [div_mul_eq_mul_div, lt_div_iff₀ hp, div_lt_iff₀ (by norm_num)]
  constructor <;> intro h <;> linarith

/-- The factors that the code computes, for valid arguments. -/
noncomputable def factor (shape : Str) (w L a : ℝ) : ℝ :=
  if shape = gaussS then 1 / erf (Real.sqrt (Real.log 2) * (L * hs a) / w) else max 1 (w / (L * hs a))

theorem getFactors_eq {shape : Str} (hsh : shape = gaussS ∨ shape = boxS) {w L : ℝ} (hw : 0 < w) (hL : w ≤ L)
    {angle : List ℝ} (ha : ∀ a ∈ angle, a ∈ Set.Ioc (0 : ℝ) 180) :
    getFactors angle w L shape = .ok (angle.map (factor shape w L)) := by
  have hL0 : 0 < L := hw.trans_le hL
  have hr : ∀ a ∈ angle, beamFootprintRatio a w L = some (w / (L * hs a)) := by
    intro a h
    unfold beamFootprintRatio fdiv
    rw [if_neg (show Real.sin (a / 2 * Real.pi / 180) ≠ 0 from (hs_pos (ha a h)).ne'), div_div]
    rfl
  unfold getFactors
  by_cases hg : shape = gaussS
  · rw [if_pos hg]
    unfold gaussianFactors
    rw [if_neg hL0.ne']
    refine finite_map_some _ _ _ fun a h => ?_
    have hp := hs_pos (ha a h)
    have h0 : w / (L * hs a) ≠ 0 := by positivity
    rw [hr a h]
    simp only [Option.map_some, gaussFactor, factor]
    rw [if_neg h0, if_pos hg, div_div_eq_mul_div]
  · have hb : shape = boxS := hsh.resolve_left hg
    rw [if_neg hg, if_pos hb]
    unfold boxFactors
    rw [if_neg hL0.ne']
    have hmem : w / L ∈ Set.Icc (-1 : ℝ) 1 := ⟨by linarith [div_pos hw hL0], (div_le_one hL0).2 hL⟩
    have he : npArcsin (w / L) = some (Real.arcsin (w / L)) := if_pos hmem
    simp only [he, Option.map_some]
    refine finite_map_some _ _ _ fun a h => ?_
    have hp := hs_pos (ha a h)
    simp only [factor]
    rw [if_neg hg]
    have hlim := box_limit (ha a h) hmem
    by_cases hlt : hs a < w / L
    · rw [if_pos (hlim.2 hlt), hr a h, max_eq_right]
      rw [le_div_iff₀ (mul_pos hL0 hp)]
      rw [lt_div_iff₀ hL0] at hlt
      linarith
    · rw [if_neg fun hc => hlt (hlim.1 hc), max_eq_left]
      rw [div_le_iff₀ (mul_pos hL0 hp)]
      rw [not_lt, div_le_iff₀ hL0] at hlt
      linarith

theorem sqrt_log_two_pos : 0 < Real.sqrt (Real.log 2) := Real.sqrt_pos.2 (Real.log_pos (by norm_num))

theorem factor_ge_one {shape : Str} {w L a : ℝ} (hw : 0 < w) (hL : w ≤ L) (ha : a ∈ Set.Ioc (0 : ℝ) 180) :
    1 ≤ factor shape w L a := by
  have hL0 : 0 < L := hw.trans_le hL
  have hp := hs_pos ha
  unfold factor
  split_ifs
  · have : 0 < erf (Real.sqrt (Real.log 2) * (L * hs a) / w) := erf_pos (by have := sqrt_log_two_pos; positivity)
    rw [le_div_iff₀ this, one_mul]
    exact erf_le_one _
  · exact le_max_left _ _

/-- C45: the correction factors depend on the angle only, are at least one and never increase with the angle; for
the normal distribution they decrease strictly. For the box profile the factor is exactly one where the beam is
smaller than the sample seen along it, and the ratio of the two elsewhere. -/
theorem C45_factors (shape : Str) (hsh : shape = "gauss".toList ∨ shape = "box".toList) (w L : ℝ) (hw : 0 < w) (hL : w ≤ L) :
    ∃ F : ℝ → ℝ, (∀ angle : List ℝ, (∀ a ∈ angle, a ∈ Set.Ioc (0 : ℝ) 180) →
        getFactors angle w L shape = .ok (angle.map F)) ∧
      (∀ a ∈ Set.Ioc (0 : ℝ) 180, 1 ≤ F a) ∧
      AntitoneOn F (Set.Ioc 0 180) ∧
      (shape = "gauss".toList → StrictAntiOn F (Set.Ioc 0 180)) ∧
      (shape = "box".toList → ∀ a ∈ Set.Ioc (0 : ℝ) 180,
        (2 * Real.arcsin (w / L) / Real.pi * 180 ≤ a → F a = 1) ∧
        (a ≤ 2 * Real.arcsin (w / L) / Real.pi * 180 → F a = w / projected L a)) := by
  have hL0 : 0 < L := hw.trans_le hL
  have hmem : w / L ∈ Set.Icc (-1 : ℝ) 1 := ⟨by linarith [div_pos hw hL0], (div_le_one hL0).2 hL⟩
  have hgauss : shape = gaussS → StrictAntiOn (factor shape w L) (Set.Ioc 0 180) := by
    intro hg a ha b hb hab
    unfold factor
    rw [if_pos hg, if_pos hg]
    have hp := hs_pos ha
    have hs0 := sqrt_log_two_pos
    refine one_div_lt_one_div_of_lt (erf_pos (by positivity)) (erf_strictMono ?_)
    refine div_lt_div_of_pos_right ?_ hw
    exact mul_lt_mul_of_pos_left (mul_lt_mul_of_pos_left (hs_lt ha hb hab) hL0) hs0
  refine ⟨factor shape w L, fun angle ha => getFactors_eq hsh hw hL ha, fun a ha => factor_ge_one hw hL ha, ?_, hgauss, ?_⟩
  · by_cases hg : shape = gaussS
    · exact (hgauss hg).antitoneOn
    · intro a ha b hb hab
      unfold factor
      rw [if_neg hg, if_neg hg]
      refine max_le_max_left _ (div_le_div_of_nonneg_left hw.le (mul_pos hL0 (hs_pos ha)) ?_)
      refine mul_le_mul_of_nonneg_left ?_ hL0.le
      rcases hab.eq_or_lt with rfl | h
      · exact le_refl _
      · exact (hs_lt ha hb h).le
  · intro hb a ha
    have hg : shape ≠ gaussS := by
      rw [hb]
      decide
    have hp := hs_pos ha
    have hlim := box_limit ha hmem
    unfold factor
    rw [if_neg hg]
    constructor
    · intro h
      have : ¬ hs a < w / L := fun hc => absurd (hlim.2 hc) (not_lt.2 h)
      rw [max_eq_left]
      rw [div_le_iff₀ (mul_pos hL0 hp)]
      rw [not_lt, div_le_iff₀ hL0] at this
      linarith
    · intro h
      show _ = w / (L * hs a)
      rw [max_eq_right]
      have : hs a ≤ w / L := by
        rcases h.eq_or_lt with h | h
        · have e : a / 2 * Real.pi / 180 = Real.arcsin (w / L) := by
            rw [h]
            have := Real.pi_ne_zero
            field_simp
          unfold hs
          rw [e, Real.sin_arcsin hmem.1 hmem.2]
        · exact (hlim.1 h).le
      rw [le_div_iff₀ (mul_pos hL0 hp)]
      rw [le_div_iff₀ hL0] at this
      linarith

theorem zipWith_map_right' {α β γ δ : Type} (f : α → γ → δ) (g : β → γ) (a : List α) (b : List β) :
    List.zipWith f a (b.map g) = List.zipWith (fun x y => f x (g y)) a b := by
  rw [List.zipWith_map_right]

/-- C45: removing and applying the correction undo each other. -/
theorem C45_inverse (shape : Str) (hsh : shape = "gauss".toList ∨ shape = "box".toList) (w L : ℝ) (hw : 0 < w)
    (hL : w ≤ L) (intensity angle : List ℝ) (hlen : intensity.length = angle.length)
    (ha : ∀ a ∈ angle, a ∈ Set.Ioc (0 : ℝ) 180) :
    (∃ c, applyFootprint intensity angle w L shape = .ok c ∧ c.length = intensity.length ∧
      removeFootprint c angle w L shape = .ok intensity) ∧
    (∃ c, removeFootprint intensity angle w L shape = .ok c ∧ c.length = intensity.length ∧
      applyFootprint c angle w L shape = .ok intensity) := by
  have hF := getFactors_eq hsh hw hL ha
  have h0 : ∀ a ∈ angle, factor shape w L a ≠ 0 := fun a h => by
    have := factor_ge_one (shape := shape) hw hL (ha a h)
    linarith
  have hap : ∀ i : List ℝ, i.length = angle.length → applyFootprint i angle w L shape =
      .ok (List.zipWith (fun i a => i * factor shape w L a) i angle) := by
    intro i hi
    unfold applyFootprint ew
    rw [hF]
    simp only [bind_ok, List.length_map]
    rw [if_pos hi, List.zipWith_map_right]
  have hrm : ∀ i : List ℝ, i.length = angle.length → removeFootprint i angle w L shape =
      .ok (List.zipWith (fun i a => i / factor shape w L a) i angle) := by
    intro i hi
    unfold removeFootprint ew
    rw [hF]
    simp only [bind_ok, List.length_map]
    rw [if_pos hi, List.zipWith_map_right]
    simp only [bind_ok]
    rw [finite_eq]
    clear hap hlen hF ha
    induction i generalizing angle with
    | nil => simp
    | cons x i ih =>
      cases angle with
      | nil => simp
      | cons a angle =>
        simp only [List.zipWith_cons_cons, List.map_cons, List.cons.injEq]
        exact ⟨if_neg (h0 a (by simp)), ih angle (fun b hb => h0 b (by simp [hb])) (by simpa using hi)⟩
  have hround : ∀ f : ℝ → ℝ → ℝ, ∀ g : ℝ → ℝ → ℝ, (∀ a ∈ angle, ∀ x, g (f x a) a = x) → ∀ i : List ℝ,
      i.length = angle.length → List.zipWith g (List.zipWith f i angle) angle = i := by
    intro f g hfg i hi
    clear hap hrm hF h0 ha hlen
    induction i generalizing angle with
    | nil => simp
    | cons x i ih =>
      cases angle with
      | nil => simp at hi
      | cons a angle =>
        simp only [List.zipWith_cons_cons, List.cons.injEq]
        exact ⟨hfg a (by simp) x, ih angle (fun b hb => hfg b (by simp [hb])) (by simpa using hi)⟩
  constructor
  · refine ⟨_, hap _ hlen, by simp [hlen], ?_⟩
    rw [hrm _ (by simp [hlen]), hround _ _ (fun a h x => ?_) _ hlen]
    have := h0 a h
    field_simp
  · refine ⟨_, hrm _ hlen, by simp [hlen], ?_⟩
    rw [hap _ (by simp [hlen]), hround _ _ (fun a h x => ?_) _ hlen]
    have := h0 a h
    field_simp

/-- The hypotheses of C45 hold for a beam of 0.2 mm on a sample of 10 mm. -/
example : (0 : ℝ) < 0.2 ∧ (0.2 : ℝ) ≤ 10 ∧ ∀ a ∈ ([0.1, 1, 180] : List ℝ), a ∈ Set.Ioc (0 : ℝ) 180 := by
  norm_num

/-! ### C80: the factors are the reciprocal of the part of the beam on the sample -/

theorem gaussFraction_eq {v : NNReal} (hv : v ≠ 0) {p : ℝ} (hp : 0 ≤ p) :
    gaussFraction v p = erf (p / 2 / Real.sqrt (2 * v)) := by
  have hv0 : (0 : ℝ) < v := lt_of_le_of_ne v.2 (fun h => hv (by exact_mod_cast h.symm))
  unfold gaussFraction
  rw [Measure.real, gaussianReal_apply_eq_integral 0 hv, ENNReal.toReal_ofReal
    (integral_nonneg fun t => gaussianPDFReal_nonneg 0 v t), integral_Icc_eq_integral_Ioc,
    ← intervalIntegral.integral_of_le (by linarith)]
  have hi : ∀ a b, IntervalIntegrable (gaussianPDFReal 0 v) volume a b := fun a b =>
    (integrable_gaussianPDFReal 0 v).intervalIntegrable
  rw [← intervalIntegral.integral_add_adjacent_intervals (hi _ 0) (hi 0 _)]
  have hsym : (∫ t in (-(p / 2))..0, gaussianPDFReal 0 v t) = ∫ t in (0 : ℝ)..(p / 2), gaussianPDFReal 0 v t := by
    have := intervalIntegral.integral_comp_neg (a := 0) (b := p / 2) (gaussianPDFReal 0 v)
    rw [neg_zero] at this
    rw [← this]
    congr 1
    ext t
    simp [gaussianPDFReal]
  rw [hsym]
  have hs : Real.sqrt (2 * v) ≠ 0 := (Real.sqrt_pos.2 (by positivity)).ne'
  have h2 : (∫ t in (0 : ℝ)..(p / 2), gaussianPDFReal 0 v t) =
      (Real.sqrt (2 * Real.pi * v))⁻¹ * (Real.sqrt (2 * v) * ∫ t in (0 : ℝ)..(p / 2 / Real.sqrt (2 * v)), Real.exp (-t ^ 2)) := by
    have := intervalIntegral.integral_comp_div (a := 0) (b := p / 2) (fun t => Real.exp (-t ^ 2)) hs
    rw [zero_div, smul_eq_mul] at this
    rw [← this, ← intervalIntegral.integral_const_mul]
    congr 1
    ext t
    rw [gaussianPDFReal]
    simp only [sub_zero]
    congr 2
    rw [div_pow, Real.sq_sqrt (by positivity)]
    ring
  rw [h2]
  unfold erf
  have h3 : Real.sqrt (2 * Real.pi * v) = Real.sqrt (2 * v) * Real.sqrt Real.pi := by
    rw [← Real.sqrt_mul (by positivity)]
    congr 1
    ring
  have h5 : Real.sqrt Real.pi ≠ 0 := Real.sqrt_ne_zero'.2 Real.pi_pos
  rw [h3]
  field_simp
  ring

theorem fwhm_eq {v : NNReal} {w : ℝ} (h : IsFWHM v w) (hv : v ≠ 0) : w / 2 = Real.sqrt (Real.log 2) * Real.sqrt (2 * v) := by
  have hv0 : (0 : ℝ) < v := lt_of_le_of_ne v.2 (fun h => hv (by exact_mod_cast h.symm))
  obtain ⟨hw, h⟩ := h
  rw [gaussianPDFReal, gaussianPDFReal] at h
  have hc : (Real.sqrt (2 * Real.pi * v))⁻¹ ≠ 0 := inv_ne_zero (Real.sqrt_pos.2 (by have := Real.pi_pos; positivity)).ne'
  simp only [sub_zero, ne_eq, OfNat.ofNat_ne_zero, not_false_eq_true, zero_pow, neg_zero, zero_div, Real.exp_zero,
    mul_one] at h
  have h1 : Real.exp (-(w / 2) ^ 2 / (2 * v)) = 1 / 2 := by
    have : (Real.sqrt (2 * Real.pi * v))⁻¹ * Real.exp (-(w / 2) ^ 2 / (2 * v)) =
        (Real.sqrt (2 * Real.pi * v))⁻¹ * (1 / 2) := by rw [h]; ring
    exact mul_left_cancel₀ hc this
  have h2 := congrArg Real.log h1
  rw [Real.log_exp, one_div, Real.log_inv] at h2
  have h3 : (w / 2) ^ 2 = Real.log 2 * (2 * v) := by
    field_simp at h2
    field_simp
    linarith
  rw [← Real.sqrt_mul (Real.log_nonneg (by norm_num)), ← h3, Real.sqrt_sq (by positivity)]

/-- C80: for a beam with the profile of a normal distribution and the given full width at half maximum, the
corrected intensity is the measured one divided by the part of the beam that hits the sample. -/
theorem C80_gauss (v : NNReal) (hv : v ≠ 0) (w L : ℝ) (h : IsFWHM v w) (hL : w ≤ L) (intensity angle : List ℝ)
    (hlen : intensity.length = angle.length) (ha : ∀ a ∈ angle, a ∈ Set.Ioc (0 : ℝ) 180) :
    applyFootprint intensity angle w L "gauss".toList =
      .ok (List.zipWith (fun i a => i / gaussFraction v (projected L a)) intensity angle) := by
  have hL0 : 0 < L := h.1.trans_le hL
  have hv0 : (0 : ℝ) < v := lt_of_le_of_ne v.2 (fun h => hv (by exact_mod_cast h.symm))
  show applyFootprint intensity angle w L gaussS = _
  unfold applyFootprint ew
  rw [getFactors_eq (.inl rfl) h.1 hL ha]
  simp only [bind_ok, List.length_map]
  rw [if_pos hlen, List.zipWith_map_right]
  congr 1
  clear hlen
  induction intensity generalizing angle with
  | nil => simp
  | cons x i ih =>
    cases angle with
    | nil => simp
    | cons a angle =>
      simp only [List.zipWith_cons_cons, List.cons.injEq]
      refine ⟨?_, ih angle fun b hb => ha b (by simp [hb])⟩
      have hp := hs_pos (ha a (by simp))
      rw [gaussFraction_eq hv (show 0 ≤ projected L a from (mul_pos hL0 hp).le)]
      unfold factor
      rw [if_pos rfl, mul_one_div]
      congr 2
      show _ = L * hs a / 2 / _
      have hw : w = 2 * (Real.sqrt (Real.log 2) * Real.sqrt (2 * v)) := by
        have := fwhm_eq h hv
        linarith
      rw [hw]
      have h1 := sqrt_log_two_pos.ne'
      have h2 : Real.sqrt (2 * v) ≠ 0 := (Real.sqrt_pos.2 (by positivity)).ne'
      field_simp

theorem boxFraction_eq {w p : ℝ} (hw : 0 < w) (hp : 0 < p) : boxFraction w p = min w p / w := by
  unfold boxFraction
  rw [Set.Icc_inter_Icc, Measure.real, Real.volume_Icc, ENNReal.toReal_ofReal]
  · congr 1
    rw [max_neg_neg, sub_neg_eq_add, min_div_div_right (by norm_num : (0 : ℝ) ≤ 2)]
    ring
  · rw [max_neg_neg, sub_neg_eq_add, min_div_div_right (by norm_num : (0 : ℝ) ≤ 2)]
    have := lt_min hw hp
    positivity

/-- C80: the same for a beam of constant intensity and the given width. -/
theorem C80_box (w L : ℝ) (hw : 0 < w) (hL : w ≤ L) (intensity angle : List ℝ)
    (hlen : intensity.length = angle.length) (ha : ∀ a ∈ angle, a ∈ Set.Ioc (0 : ℝ) 180) :
    applyFootprint intensity angle w L "box".toList =
      .ok (List.zipWith (fun i a => i / boxFraction w (projected L a)) intensity angle) := by
  have hL0 : 0 < L := hw.trans_le hL
  show applyFootprint intensity angle w L boxS = _
  unfold applyFootprint ew
  rw [getFactors_eq (.inr rfl) hw hL ha]
  simp only [bind_ok, List.length_map]
  rw [if_pos hlen, List.zipWith_map_right]
  congr 1
  clear hlen
  induction intensity generalizing angle with
  | nil => simp
  | cons x i ih =>
    cases angle with
    | nil => simp
    | cons a angle =>
      simp only [List.zipWith_cons_cons, List.cons.injEq]
      refine ⟨?_, ih angle fun b hb => ha b (by simp [hb])⟩
      have hp : 0 < projected L a := mul_pos hL0 (hs_pos (ha a (by simp)))
      rw [boxFraction_eq hw hp]
      unfold factor
      rw [if_neg (by decide)]
      show x * max 1 (w / projected L a) = _
      rcases le_total w (projected L a) with h | h
      · rw [min_eq_left h, max_eq_left ((div_le_one hp).2 h), div_self hw.ne']
        ring
      · rw [min_eq_right h, max_eq_right ((one_le_div hp).2 h)]
        field_simp

/-- A variance with the full width at half maximum 0.2. -/
example : IsFWHM (Real.toNNReal (0.01 / (2 * Real.log 2))) 0.2 := by
  have h := Real.log_pos (show (1 : ℝ) < 2 by norm_num)
  refine ⟨by norm_num, ?_⟩
  unfold gaussianPDFReal
  rw [Real.coe_toNNReal _ (div_nonneg (by norm_num) (mul_pos two_pos h).le)]
  have e : -(0.2 / 2 - 0 : ℝ) ^ 2 / (2 * (0.01 / (2 * Real.log 2))) = -Real.log 2 := by
    have := h.ne'
    field_simp
    norm_num
  rw [e, Real.exp_neg, Real.exp_log (by norm_num), sub_zero, zero_pow two_ne_zero, neg_zero, zero_div, Real.exp_zero]
  ring

end Verif.Props
