import Verif.Props.Chance
import Verif.Lemmas.Moments
import Mathlib.Analysis.Real.Pi.Bounds

/-!
# C123: mean and spread of noisy curves
-/

namespace Verif.Props
open Verif.Py Verif.Model Verif.Spec Verif.Lemmas MeasureTheory ProbabilityTheory

variable {Ω : Type} [MeasurableSpace Ω] {P : Measure Ω}

/-! ### Rows of random numbers -/

omit [MeasurableSpace Ω] in
theorem mapM_rows {row : List ℝ → Rand (Ω × ℕ) (List ℝ)} {out : ℕ → Ω → List ℝ → List ℝ} {w : ℕ} {rows : List (List ℝ)}
    (h : ∀ v ∈ rows, ∀ ω k, row v (ω, k) = .ok (out k ω v, (ω, k + w))) (ω : Ω) (k : ℕ) :
    rows.mapM row (ω, k) = .ok (rows.mapIdx fun (r : ℕ) v => out (k + r * w) ω v, (ω, k + rows.length * w)) := by
  induction rows generalizing k with
  | nil => simp only [List.mapM_nil, List.mapIdx_nil, List.length_nil, zero_mul, add_zero]; rfl
  | cons v rows ih =>
    rw [List.mapM_cons, Rand.bind_ok]
    refine ⟨_, _, h v List.mem_cons_self ω k, ?_⟩
    rw [Rand.bind_ok]
    refine ⟨_, _, ih (fun v hv => h v (List.mem_cons_of_mem _ hv)) (k + w), ?_⟩
    rw [Rand.pure_ok, List.mapIdx_cons, List.length_cons]
    simp only [zero_mul, add_zero, Prod.mk.injEq, List.cons.injEq, true_and]
    refine ⟨?_, by ring⟩
    congr 1
    funext r v
    congr 1
    ring

theorem position_injective (w k : ℕ) : Function.Injective fun (p : ℕ × Fin w) => k + p.1 * w + (p.2 : ℕ) := by
  rintro ⟨a, b⟩ ⟨a', b'⟩ h
  simp only at h
  have h2 : a * w + (b : ℕ) = a' * w + (b' : ℕ) := by omega
  have hw : 0 < w := lt_of_le_of_lt (Nat.zero_le _) b.2
  have hd := congrArg (· / w) h2
  have hm := congrArg (· % w) h2
  simp only [Nat.mul_add_mod', Nat.mod_eq_of_lt b.2, Nat.mod_eq_of_lt b'.2] at hm
  simp only [Nat.mul_comm _ w, Nat.mul_add_div hw, Nat.div_eq_of_lt b.2, Nat.div_eq_of_lt b'.2, add_zero] at hd
  exact Prod.ext hd (Fin.ext hm)

/-! ### Uniform noise and scaling -/

theorem zipWith_range {v : List ℝ} (f : ℕ → ℝ) : List.zipWith (· * ·) v ((List.range v.length).map f) = v.mapIdx fun (j : ℕ) (x : ℝ) => x * f j := by
  apply List.ext_getElem
  · simp
  · intro i h1 h2
    simp

theorem uniform_run (C : Chance Ω P) (lo hi : ℝ) (w : ℕ) (rows : List (List ℝ)) (hw : ∀ v ∈ rows, v.length = w) (k : ℕ) (ω : Ω) :
    applyUniformNoise C.rng (.d2 w rows) lo hi (ω, k) =
      .ok (.d2 w (rows.mapIdx fun (r : ℕ) v => v.mapIdx fun (j : ℕ) (x : ℝ) => x * (lo + (hi - lo) * C.u (k + r * w + j) ω)),
        (ω, k + rows.length * w)) := by
  unfold applyUniformNoise
  simp only
  rw [Rand.bind_ok]
  refine ⟨_, _, mapM_rows (out := fun k ω v => v.mapIdx fun (j : ℕ) (x : ℝ) => x * (lo + (hi - lo) * C.u (k + j) ω)) (w := w) ?_ ω k, ?_⟩
  · intro v hv ω k
    rw [Rand.bind_ok]
    refine ⟨_, _, by rw [drawUniform, if_neg (by omega)], ?_⟩
    rw [Rand.pure_ok]
    simp only [Chance.rng, Int.toNat_natCast]
    rw [zipWith_range fun i => lo + (hi - lo) * C.u (k + i) ω, hw v hv]
  · rfl

/-- C123: `apply_uniform_noise` multiplies every point with its own factor. The factors are independent and uniformly distributed, so
that the mean of a noisy point is the clean point times the middle of the range: noise with a range around 1 leaves the mean as it
is. -/
theorem C123_uniform (C : Chance Ω P) (lo hi : ℝ) (h : lo < hi) (w : ℕ) (rows : List (List ℝ)) (hw : ∀ v ∈ rows, v.length = w) (k : ℕ) :
    ∃ f : ℕ → ℕ → Ω → ℝ, (∀ ω, applyUniformNoise C.rng (.d2 w rows) lo hi (ω, k) =
        .ok (.d2 w (rows.mapIdx fun (r : ℕ) v => v.mapIdx fun (j : ℕ) (x : ℝ) => x * f r j ω), (ω, k + rows.length * w))) ∧
      (∀ r j, UniformBetween P (f r j) lo hi) ∧ iIndepFun (fun (p : ℕ × Fin w) => f p.1 p.2) P ∧
      ∀ r j x, ∫ ω, x * f r j ω ∂P = x * ((lo + hi) / 2) := by
  refine ⟨fun r j ω => lo + (hi - lo) * C.u (k + r * w + j) ω, fun ω => ?_, fun r j => uniform_of_u C _ h, ?_, fun r j x => ?_⟩
  · exact uniform_run C lo hi w rows hw k ω
  · exact (C.u_indep.precomp (position_injective w k)).comp (fun _ y => lo + (hi - lo) * y) fun _ => by fun_prop
  · rw [integral_const_mul, integral_affine_u]

/-- C123: the same for a single curve. -/
theorem C123_uniform_curve (C : Chance Ω P) (lo hi : ℝ) (h : lo < hi) (v : List ℝ) (k : ℕ) :
    ∃ f : ℕ → Ω → ℝ, (∀ ω, applyUniformNoise C.rng (.d1 v) lo hi (ω, k) =
        .ok (.d1 (v.mapIdx fun (j : ℕ) (x : ℝ) => x * f j ω), (ω, k + v.length))) ∧
      (∀ j, UniformBetween P (f j) lo hi) ∧ iIndepFun f P ∧ ∀ j x, ∫ ω, x * f j ω ∂P = x * ((lo + hi) / 2) := by
  refine ⟨fun j ω => lo + (hi - lo) * C.u (k + j) ω, fun ω => ?_, fun j => uniform_of_u C _ h, ?_, fun j x => ?_⟩
  · unfold applyUniformNoise
    simp only
    rw [Rand.bind_ok]
    refine ⟨_, _, by rw [drawUniform, if_neg (by omega)], ?_⟩
    rw [Rand.pure_ok]
    simp only [Chance.rng, Int.toNat_natCast]
    rw [zipWith_range fun i => lo + (hi - lo) * C.u (k + i) ω]
  · exact (C.u_indep.precomp fun a b hab => Nat.add_left_cancel hab).comp (fun _ y => lo + (hi - lo) * y) fun _ => by fun_prop
  · rw [integral_const_mul, integral_affine_u]

theorem zipWith_scale {rows : List (List ℝ)} (f : ℕ → ℝ) :
    List.zipWith (fun (v : List ℝ) (s : ℝ) => v.map (· * s)) rows ((List.range rows.length).map f) =
      rows.mapIdx fun (r : ℕ) (v : List ℝ) => v.map fun (x : ℝ) => x * f r := by
  apply List.ext_getElem
  · simp
  · intro i h1 h2
    simp

theorem scaling_run (C : Chance Ω P) (lo hi : ℝ) (w : ℕ) (rows : List (List ℝ)) (hr : rows.length ≠ 1) (k : ℕ) (ω : Ω) :
    applyScalingFactor C.rng (.d2 w rows) lo hi (ω, k) =
      .ok (.d2 w (rows.mapIdx fun (r : ℕ) (v : List ℝ) => v.map fun (x : ℝ) => x * (lo + (hi - lo) * C.u (k + r) ω)), (ω, k + rows.length)) := by
  unfold applyScalingFactor
  rw [Rand.bind_ok]
  refine ⟨(w, rows), (ω, k), rfl, ?_⟩
  simp only
  rw [Rand.bind_ok]
  refine ⟨_, _, by rw [drawUniform, if_neg (by omega)], ?_⟩
  simp only [Chance.rng, Int.toNat_natCast]
  rw [zipWith_scale fun i => lo + (hi - lo) * C.u (k + i) ω]
  have hl : (rows.mapIdx fun (r : ℕ) (v : List ℝ) => v.map fun (x : ℝ) => x * (lo + (hi - lo) * C.u (k + r) ω)).length ≠ 1 := by
    rwa [List.length_mapIdx]
  generalize (rows.mapIdx fun (r : ℕ) (v : List ℝ) => v.map fun (x : ℝ) => x * (lo + (hi - lo) * C.u (k + r) ω)) = l at hl
  match l, hl with
  | [], _ => rfl
  | [_], h => exact absurd rfl h
  | _ :: _ :: _, _ => rfl

/-- C123: `apply_scaling_factor` multiplies every curve with one factor; the factors of different curves are independent and uniformly
distributed (at least two curves: the shape for one curve is C28). -/
theorem C123_scaling (C : Chance Ω P) (lo hi : ℝ) (h : lo < hi) (w : ℕ) (rows : List (List ℝ)) (hr : rows.length ≠ 1) (k : ℕ) :
    ∃ f : ℕ → Ω → ℝ, (∀ ω, applyScalingFactor C.rng (.d2 w rows) lo hi (ω, k) =
        .ok (.d2 w (rows.mapIdx fun (r : ℕ) (v : List ℝ) => v.map fun (x : ℝ) => x * f r ω), (ω, k + rows.length))) ∧
      (∀ r, UniformBetween P (f r) lo hi) ∧ iIndepFun f P ∧ ∀ r x, ∫ ω, x * f r ω ∂P = x * ((lo + hi) / 2) := by
  refine ⟨fun r ω => lo + (hi - lo) * C.u (k + r) ω, fun ω => ?_, fun r => uniform_of_u C _ h, ?_, fun r x => ?_⟩
  · exact scaling_run C lo hi w rows hr k ω
  · exact (C.u_indep.precomp (g := fun r => k + r) fun a b hab => Nat.add_left_cancel hab).comp (fun _ y => lo + (hi - lo) * y) fun _ => by fun_prop
  · rw [integral_const_mul, integral_affine_u]

/-- C123: the noise with which the trainer standardizes (uniform noise, then scaling, both between 0.9 and 1.1) leaves the mean of every
point as it is. -/
theorem C123_trainer (C : Chance Ω P) (lo hi lo' hi' : ℝ) (w : ℕ) (rows : List (List ℝ))
    (hw : ∀ v ∈ rows, v.length = w) (hr : rows.length ≠ 1) (k : ℕ) :
    ∃ e : ℕ → ℕ → ℝ → Ω → ℝ, (∀ ω, (do
        let a ← applyUniformNoise C.rng (.d2 w rows) lo hi
        applyScalingFactor C.rng a lo' hi' : Rand (Ω × ℕ) NArr) (ω, k) =
          .ok (.d2 w (rows.mapIdx fun (r : ℕ) v => v.mapIdx fun (j : ℕ) (x : ℝ) => e r j x ω), (ω, k + rows.length * w + rows.length))) ∧
      ∀ r j x, r < rows.length → j < w → ∫ ω, e r j x ω ∂P = x * ((lo + hi) / 2) * ((lo' + hi') / 2) := by
  refine ⟨fun r j x ω => x * (lo + (hi - lo) * C.u (k + r * w + j) ω) * (lo' + (hi' - lo') * C.u (k + rows.length * w + r) ω), fun ω => ?_,
    fun r j x hr hj => ?_⟩
  · rw [Rand.bind_ok]
    refine ⟨_, _, uniform_run C lo hi w rows hw k ω, ?_⟩
    rw [scaling_run C lo' hi' w _ (by rwa [List.length_mapIdx])]
    rw [List.length_mapIdx, List.mapIdx_mapIdx]
    have e : ∀ (r : ℕ) (v : List ℝ), List.map (fun (x : ℝ) => x * (lo' + (hi' - lo') * C.u (k + rows.length * w + r) ω))
        (v.mapIdx fun (j : ℕ) (x : ℝ) => x * (lo + (hi - lo) * C.u (k + r * w + j) ω)) =
          v.mapIdx fun (j : ℕ) (x : ℝ) => x * (lo + (hi - lo) * C.u (k + r * w + j) ω) * (lo' + (hi' - lo') * C.u (k + rows.length * w + r) ω) := by
      intro r v
      apply List.ext_getElem <;> simp
    simp only [Function.comp_def, e]
  · have hne : k + r * w + j ≠ k + rows.length * w + r := by
      have : (r + 1) * w ≤ rows.length * w := Nat.mul_le_mul_right w hr
      have : (r + 1) * w = r * w + w := by ring
      omega
    have hi1 := (C.u_indep.indepFun hne).comp (φ := fun y => x * (lo + (hi - lo) * y)) (ψ := fun y => lo' + (hi' - lo') * y) (by fun_prop) (by fun_prop)
    have := hi1.integral_mul_eq_mul_integral
      (((C.u_measurable _).const_mul _ |>.const_add _ |>.const_mul _).aestronglyMeasurable) (((C.u_measurable _).const_mul _ |>.const_add _).aestronglyMeasurable)
    refine Eq.trans this ?_
    simp only [Function.comp_def]
    rw [integral_const_mul, integral_affine_u, integral_affine_u]

/-! ### Shot noise -/

/-- A point with normally distributed noise of standard deviation `sqrt(x * c)`. -/
noncomputable def shotValue (C : Chance Ω P) (k : ℕ) (c x : ℝ) (ω : Ω) : ℝ := x + Real.sqrt (x * c) * C.z k ω

theorem shotValue_integrable (C : Chance Ω P) (k : ℕ) (c x : ℝ) : Integrable (shotValue C k c x) P := by
  have := chance_prob C
  exact (integrable_const x).add ((z_integrable C k).const_mul _)

theorem integral_z (C : Chance Ω P) (k : ℕ) : ∫ ω, C.z k ω ∂P = 0 := by
  have h : ∫ ω, C.z k ω ∂P = ∫ x, x ∂(P.map (C.z k)) := (integral_map (C.z_measurable k).aemeasurable measurable_id.aestronglyMeasurable).symm
  rw [h, C.z_law, integral_id_gaussianReal]

theorem integral_shotValue (C : Chance Ω P) (k : ℕ) (c x : ℝ) : ∫ ω, shotValue C k c x ω ∂P = x := by
  have := chance_prob C
  unfold shotValue
  rw [integral_add (integrable_const x) ((z_integrable C k).const_mul _), integral_const_mul, integral_z]
  simp

theorem shotValue_law (C : Chance Ω P) (k : ℕ) (c x : ℝ) : P.map (shotValue C k c x) = gaussianReal x (x * c).toNNReal := by
  have e : shotValue C k c x = (fun y => x + y) ∘ (fun y => Real.sqrt (x * c) * y) ∘ C.z k := rfl
  rw [e, ← Measure.map_map (by fun_prop) ((measurable_const_mul _).comp (C.z_measurable k)), ← Measure.map_map (by fun_prop) (C.z_measurable k), C.z_law,
    gaussianReal_map_const_mul, gaussianReal_map_const_add]
  simp only [mul_zero, zero_add, mul_one]
  congr 1
  apply NNReal.eq
  simp only [NNReal.coe_mk]
  rcases le_total 0 (x * c) with h | h
  · rw [Real.sq_sqrt h, Real.coe_toNNReal _ h]
  · rw [Real.sqrt_eq_zero_of_nonpos h, Real.toNNReal_of_nonpos h]
    simp

theorem integral_z_pos (C : Chance Ω P) (k : ℕ) : ∫ ω, max (C.z k ω) 0 ∂P = (Real.sqrt (2 * Real.pi))⁻¹ := by
  have h : ∫ ω, max (C.z k ω) 0 ∂P = ∫ x, max x 0 ∂(P.map (C.z k)) :=
    (integral_map (C.z_measurable k).aemeasurable (measurable_id.max measurable_const).aestronglyMeasurable).symm
  rw [h, C.z_law, gaussian_posPart]

theorem integral_z_neg (C : Chance Ω P) (k : ℕ) : ∫ ω, max (-C.z k ω) 0 ∂P = (Real.sqrt (2 * Real.pi))⁻¹ := by
  have h : ∀ ω, max (-C.z k ω) 0 = max (C.z k ω) 0 - C.z k ω := by
    intro ω
    rcases le_total 0 (C.z k ω) with h | h
    · rw [max_eq_left h, max_eq_right (by linarith)]; ring
    · rw [max_eq_right h, max_eq_left (by linarith)]; ring
  have hi : Integrable (fun ω => max (C.z k ω) 0) P := by
    have := chance_prob C
    exact (z_integrable C k).sup (integrable_const 0)
  simp only [h]
  rw [integral_sub hi (z_integrable C k), integral_z, integral_z_pos, sub_zero]

theorem clip_integrable (C : Chance Ω P) (k : ℕ) (c x ε : ℝ) : Integrable (fun ω => max (shotValue C k c x ω) ε) P := by
  have := chance_prob C
  exact (shotValue_integrable C k c x).sup (integrable_const ε)

theorem clip_mean_ge (C : Chance Ω P) (k : ℕ) (c x ε : ℝ) : x ≤ ∫ ω, max (shotValue C k c x ω) ε ∂P := by
  conv_lhs => rw [← integral_shotValue C k c x]
  exact integral_mono (shotValue_integrable C k c x) (clip_integrable C k c x ε) fun ω => le_max_left _ _

theorem clip_mean_sqrt (C : Chance Ω P) (k : ℕ) (c x ε : ℝ) (hx : 0 ≤ x) (hε : 0 ≤ ε) :
    Real.sqrt (x * c) * (Real.sqrt (2 * Real.pi))⁻¹ ≤ ∫ ω, max (shotValue C k c x ω) ε ∂P := by
  have := chance_prob C
  rw [← integral_z_pos C k, ← integral_const_mul]
  refine integral_mono (((z_integrable C k).sup (integrable_const 0)).const_mul _) (clip_integrable C k c x ε) fun ω => ?_
  simp only [shotValue]
  rcases le_total 0 (C.z k ω) with h | h
  · rw [max_eq_left h]
    exact le_trans (by linarith) (le_max_left _ _)
  · rw [max_eq_right h, mul_zero]
    exact le_trans hε (le_max_right _ _)

theorem clip_mean_le (C : Chance Ω P) (k : ℕ) (c x ε : ℝ) (hx : 0 ≤ x) (hε : 0 ≤ ε) :
    ∫ ω, max (shotValue C k c x ω) ε ∂P ≤ x + ε + Real.sqrt (x * c) * (Real.sqrt (2 * Real.pi))⁻¹ := by
  have := chance_prob C
  have hn : Integrable (fun ω => max (-C.z k ω) 0) P := (z_integrable C k).neg.sup (integrable_const 0)
  have hb : ∫ ω, max (shotValue C k c x ω) ε ∂P ≤ ∫ ω, (shotValue C k c x ω + ε + Real.sqrt (x * c) * max (-C.z k ω) 0) ∂P := by
    refine integral_mono (clip_integrable C k c x ε) (((shotValue_integrable C k c x).add (integrable_const ε)).add (hn.const_mul _)) fun ω => ?_
    simp only [shotValue]
    have hs := Real.sqrt_nonneg (x * c)
    have h1 := le_max_right (-C.z k ω) 0
    have h2 := le_max_left (-C.z k ω) 0
    apply max_le
    · nlinarith
    · nlinarith
  refine hb.trans (le_of_eq ?_)
  have hse : Integrable (fun ω => shotValue C k c x ω + ε) P := (shotValue_integrable C k c x).add (integrable_const ε)
  rw [integral_add hse (hn.const_mul _), integral_add (shotValue_integrable C k c x) (integrable_const ε),
    integral_const_mul, integral_z_neg, integral_shotValue]
  simp

theorem clip_mean_gt (C : Chance Ω P) (k : ℕ) (c x ε : ℝ) (hxc : 0 < x * c) : x < ∫ ω, max (shotValue C k c x ω) ε ∂P := by
  have hp := chance_prob C
  have hd : Integrable (fun ω => max (shotValue C k c x ω) ε - shotValue C k c x ω) P := (clip_integrable C k c x ε).sub (shotValue_integrable C k c x)
  have hpos : 0 < ∫ ω, (max (shotValue C k c x ω) ε - shotValue C k c x ω) ∂P := by
    rw [integral_pos_iff_support_of_nonneg (fun ω => sub_nonneg.2 (le_max_left _ _)) hd]
    have hm : Measurable (shotValue C k c x) := (C.z_measurable k).const_mul _ |>.const_add _
    have hsup : shotValue C k c x ⁻¹' Set.Iio ε ⊆ Function.support fun ω => max (shotValue C k c x ω) ε - shotValue C k c x ω := by
      intro ω hω
      have hω' : shotValue C k c x ω < ε := hω
      rw [Function.mem_support, max_eq_right hω'.le]
      exact (sub_pos.2 hω').ne'
    refine lt_of_lt_of_le ?_ (measure_mono hsup)
    rw [← Measure.map_apply hm measurableSet_Iio, shotValue_law, pos_iff_ne_zero]
    intro h0
    have hv : (x * c).toNNReal ≠ 0 := (Real.toNNReal_pos.2 hxc).ne'
    have := gaussianReal_absolutelyContinuous' x hv h0
    rw [Real.volume_Iio] at this
    exact absurd this (by simp)
  rw [integral_sub (clip_integrable C k c x ε) (shotValue_integrable C k c x), integral_shotValue] at hpos
  linarith

theorem shotRow_run (C : Chance Ω P) (c : ℝ) (hc : 0 ≤ c) (v : List ℝ) (hv : ∀ x ∈ v, 0 ≤ x) (ω : Ω) (k : ℕ) :
    shotRow C.rng c v (ω, k) = .ok (v.mapIdx fun (j : ℕ) (x : ℝ) => max (shotValue C (k + j) c x ω) (1e-16), (ω, k + v.length)) := by
  unfold shotRow
  rw [if_neg (by push Not; exact fun x hx => mul_nonneg (hv x hx) hc)]
  simp only [Chance.rng, List.length_map, Except.ok.injEq, Prod.mk.injEq, and_true]
  apply List.ext_getElem
  · simp
  · intro i h1 h2
    simp [shotValue]

omit [MeasurableSpace Ω] in
/-- The structure of `apply_shot_noise` and `apply_poisson_noise` for a batch with one noise level. -/
theorem level_run {row : ℝ → List ℝ → Rand (Ω × ℕ) (List ℝ)} (rng : NoiseRng (Ω × ℕ)) {out : ℕ → Ω → List ℝ → List ℝ} {w : ℕ} {c : ℝ} {rows : List (List ℝ)}
    (hne : rows ≠ []) (h : ∀ v ∈ rows, ∀ ω k, row c v (ω, k) = .ok (out k ω v, (ω, k + w))) (ω : Ω) (k : ℕ) :
    applyLevelNoise row rng (.d2 w rows) (.num c) (ω, k) =
      .ok ((.d2 w (rows.mapIdx fun (r : ℕ) v => out (k + r * w) ω v), List.replicate rows.length c), (ω, k + rows.length * w)) := by
  match rows, hne, h with
  | [v], _, h =>
    simp only [applyLevelNoise, drawSpreads]
    rw [Rand.bind_ok]
    refine ⟨_, _, rfl, ?_⟩
    rw [Rand.bind_ok]
    refine ⟨c, (ω, k), rfl, ?_⟩
    rw [Rand.bind_ok]
    refine ⟨_, _, h v List.mem_cons_self ω k, ?_⟩
    rw [Rand.pure_ok]
    simp
  | v :: v' :: rows, _, h =>
    simp only [applyLevelNoise, drawSpreads]
    rw [Rand.bind_ok]
    refine ⟨_, _, rfl, ?_⟩
    rw [Rand.bind_ok]
    have hz : ((v :: v' :: rows).zip (List.replicate (v :: v' :: rows).length c)).mapM (fun p => row p.2 p.1) =
        (v :: v' :: rows).mapM (row c) := by
      generalize v :: v' :: rows = l
      induction l with
      | nil => rfl
      | cons a l ih =>
        rw [List.length_cons, List.replicate_succ, List.zip_cons_cons, List.mapM_cons, List.mapM_cons, ih]
    rw [hz]
    refine ⟨_, _, mapM_rows h ω k, ?_⟩
    rw [Rand.pure_ok]
    simp [npArrayOfRows]

/-- C123: what `apply_shot_noise` returns. Every point is the maximum of `1e-16` and a number that is normally distributed around the
clean point with the documented standard deviation `sqrt(x * c)`, independently for different points. Because negative numbers are
replaced, the mean of a noisy point is larger than the clean point whenever there is noise, at least `sqrt(x * c / (2 π))`, and at most
by that number (and `1e-16`) larger than the clean point. -/
theorem C123_shot (C : Chance Ω P) (c : ℝ) (hc : 0 ≤ c) (w : ℕ) (rows : List (List ℝ)) (hne : rows ≠ []) (hw : ∀ v ∈ rows, v.length = w)
    (hx : ∀ v ∈ rows, ∀ x ∈ v, 0 ≤ x) (k : ℕ) :
    ∃ y : ℕ → ℕ → ℝ → Ω → ℝ, (∀ ω, applyShotNoise C.rng (.d2 w rows) (.num c) (ω, k) =
        .ok ((.d2 w (rows.mapIdx fun (r : ℕ) v => v.mapIdx fun (j : ℕ) (x : ℝ) => max (y r j x ω) (1e-16)), List.replicate rows.length c),
          (ω, k + rows.length * w))) ∧
      (∀ r j x, P.map (y r j x) = gaussianReal x (x * c).toNNReal) ∧ (∀ x : ℕ × Fin w → ℝ, iIndepFun (fun p => y p.1 p.2 (x p)) P) ∧
      ∀ r j x, 0 ≤ x →
        max x (Real.sqrt (x * c) * (Real.sqrt (2 * Real.pi))⁻¹) ≤ ∫ ω, max (y r j x ω) (1e-16) ∂P ∧
        ∫ ω, max (y r j x ω) (1e-16) ∂P ≤ x + 1e-16 + Real.sqrt (x * c) * (Real.sqrt (2 * Real.pi))⁻¹ ∧
        (0 < x * c → x < ∫ ω, max (y r j x ω) (1e-16) ∂P) := by
  refine ⟨fun r j x => shotValue C (k + r * w + j) c x, fun ω => ?_, fun r j x => shotValue_law C _ c x, fun x => ?_, fun r j x h0 => ⟨max_le ?_ ?_, ?_, ?_⟩⟩
  · exact level_run C.rng (out := fun k ω v => v.mapIdx fun (j : ℕ) (x : ℝ) => max (shotValue C (k + j) c x ω) (1e-16)) hne
      (fun v hv ω k => by rw [shotRow_run C c hc v (hx v hv), hw v hv]) ω k
  · exact (C.z_indep.precomp (position_injective w k)).comp (fun p y => x p + Real.sqrt (x p * c) * y) fun _ => by fun_prop
  · exact clip_mean_ge C _ c x _
  · exact clip_mean_sqrt C _ c x _ h0 (by norm_num)
  · exact clip_mean_le C _ c x _ h0 (by norm_num)
  · exact clip_mean_gt C _ c x _

/-- Points far below the noise level are raised by any factor: at `c / 1000` the mean is more than 12 times the clean point. -/
theorem C123_shot_raised (C : Chance Ω P) (c : ℝ) (hc : 0 < c) (k : ℕ) :
    12 * (c / 1000) < ∫ ω, max (c / 1000 + Real.sqrt (c / 1000 * c) * C.z k ω) (1e-16) ∂P := by
  have h := clip_mean_sqrt C k c (c / 1000) (1e-16) (by positivity) (by norm_num)
  refine lt_of_lt_of_le ?_ h
  have h1 : Real.sqrt (c / 1000 * c) = c / Real.sqrt 1000 := by
    rw [show c / 1000 * c = c ^ 2 / 1000 by ring, Real.sqrt_div (by positivity), Real.sqrt_sq hc.le]
  rw [h1]
  have h2 : Real.sqrt 1000 * Real.sqrt (2 * Real.pi) < 1000 / 12 := by
    rw [← Real.sqrt_mul (by norm_num)]
    rw [Real.sqrt_lt' (by norm_num)]
    nlinarith [Real.pi_lt_d2]
  have h3 : 0 < Real.sqrt 1000 * Real.sqrt (2 * Real.pi) := by positivity
  rw [div_mul_eq_mul_div, ← div_eq_mul_inv, div_div]
  rw [lt_div_iff₀ (by rw [mul_comm]; exact h3)]
  rw [mul_comm (Real.sqrt (2 * Real.pi))]
  nlinarith

/-! ### Poisson noise -/

theorem pois_integral (C : Chance Ω P) (k : ℕ) (r : NNReal) (g : ℕ → ℝ) {s : ℝ}
    (h : HasSum (fun n : ℕ => Real.exp (-r) * r ^ n / (n.factorial : ℝ) * g n) s) : ∫ ω, g (C.pois k r ω) ∂P = s := by
  have e : ∫ ω, g (C.pois k r ω) ∂P = ∫ n, g n ∂(P.map (C.pois k r)) :=
    (integral_map (C.pois_measurable k r).aemeasurable (measurable_from_top (f := g)).aestronglyMeasurable).symm
  rw [e, C.pois_law, integral_poissonMeasure]
  simp only [smul_eq_mul]
  exact h.tsum_eq

theorem max_count {c ε : ℝ} (hc : 0 < c) (hε : 0 ≤ ε) (hce : c * ε ≤ 1) (n : ℕ) : max ((n : ℝ) / c) ε = (n : ℝ) / c + if n = 0 then ε else 0 := by
  split_ifs with h
  · subst h
    simp [hε]
  · rw [add_zero, max_eq_left]
    rw [le_div_iff₀ hc, mul_comm]
    refine hce.trans ?_
    exact_mod_cast Nat.one_le_iff_ne_zero.2 h

theorem poisson_mean (C : Chance Ω P) (k : ℕ) {c ε x : ℝ} (hc : 0 < c) (hε : 0 ≤ ε) (hce : c * ε ≤ 1) (hx : 0 ≤ x) :
    ∫ ω, max ((C.pois k (x * c).toNNReal ω : ℝ) / c) ε ∂P = x + Real.exp (-(x * c)) * ε := by
  have hr : ((x * c).toNNReal : ℝ) = x * c := Real.coe_toNNReal _ (mul_nonneg hx hc.le)
  refine pois_integral C k _ (fun n => max ((n : ℝ) / c) ε) ?_
  have h1 := (poisson_first_moment (x * c).toNNReal).div_const c
  rw [hr, mul_div_cancel_right₀ _ hc.ne'] at h1
  have h2 := hasSum_ite_eq (0 : ℕ) (Real.exp (-(x * c)) * ε)
  have h3 := h1.add h2
  refine h3.congr_fun ?_
  intro n
  rw [max_count hc hε hce, hr]
  split_ifs with h
  · subst h; simp
  · simp; ring

theorem poisson_spread (C : Chance Ω P) (k : ℕ) {c ε x : ℝ} (hc : 0 < c) (hε : 0 ≤ ε) (hce : c * ε ≤ 1) (hx : 0 ≤ x) :
    ∫ ω, (max ((C.pois k (x * c).toNNReal ω : ℝ) / c) ε - x) ^ 2 ∂P = x / c + Real.exp (-(x * c)) * (ε ^ 2 - 2 * ε * x) := by
  have hr : ((x * c).toNNReal : ℝ) = x * c := Real.coe_toNNReal _ (mul_nonneg hx hc.le)
  refine pois_integral C k _ (fun n => (max ((n : ℝ) / c) ε - x) ^ 2) ?_
  have m2 := (poisson_second_moment (x * c).toNNReal).div_const (c ^ 2)
  have m1 := (poisson_first_moment (x * c).toNNReal).mul_left (2 * x / c)
  have m0 := (poisson_zero_moment (x * c).toNNReal).mul_left (x ^ 2)
  have h2 := hasSum_ite_eq (0 : ℕ) (Real.exp (-(x * c)) * (ε ^ 2 - 2 * ε * x))
  have h3 := ((m2.sub m1).add m0).add h2
  rw [hr] at h3
  have e : (((x * c) ^ 2 + x * c) / c ^ 2 - 2 * x / c * (x * c) + x ^ 2 * 1 + Real.exp (-(x * c)) * (ε ^ 2 - 2 * ε * x)) =
      x / c + Real.exp (-(x * c)) * (ε ^ 2 - 2 * ε * x) := by
    field_simp
    ring
  rw [e] at h3
  refine h3.congr_fun ?_
  intro n
  rw [max_count hc hε hce, hr]
  split_ifs with h
  · subst h; simp; ring
  · simp only [add_zero]
    field_simp
    ring

theorem poissonRow_run (C : Chance Ω P) (c : ℝ) (hc : 0 < c) (v : List ℝ) (hv : ∀ x ∈ v, 0 ≤ x) (ω : Ω) (k : ℕ) :
    poissonRow C.rng c v (ω, k) =
      .ok (v.mapIdx fun (j : ℕ) (x : ℝ) => max ((C.pois (k + j) (x * c).toNNReal ω : ℝ) / c) (1e-16), (ω, k + v.length)) := by
  unfold poissonRow
  rw [if_neg (by push Not; exact fun x hx => mul_nonneg (hv x hx) hc.le), if_neg hc.ne']
  simp only [Chance.rng, List.length_map, Except.ok.injEq, Prod.mk.injEq, and_true]
  apply List.ext_getElem
  · simp
  · intro i h1 h2
    simp

/-- C123: what `apply_poisson_noise` returns. Every point is the maximum of `1e-16` and a number of counts divided by `c`; the counts have
the Poisson distribution with mean `x * c`. The mean of a noisy point is the clean point plus `1e-16` times the probability of no count,
and its mean square deviation from the clean point is `x / c` up to the effect of the replaced zeros. (`c` is the intensity of the
direct beam in counts, at most `1e16`.) -/
theorem C123_poisson (C : Chance Ω P) (c : ℝ) (hc : 0 < c) (hc' : c ≤ 1e16) (w : ℕ) (rows : List (List ℝ)) (hne : rows ≠ [])
    (hw : ∀ v ∈ rows, v.length = w) (hx : ∀ v ∈ rows, ∀ x ∈ v, 0 ≤ x) (k : ℕ) :
    ∃ y : ℕ → ℕ → ℝ → Ω → ℕ, (∀ ω, applyPoissonNoise C.rng (.d2 w rows) (.num c) (ω, k) =
        .ok ((.d2 w (rows.mapIdx fun (r : ℕ) v => v.mapIdx fun (j : ℕ) (x : ℝ) => max ((y r j x ω : ℝ) / c) (1e-16)), List.replicate rows.length c),
          (ω, k + rows.length * w))) ∧
      (∀ r j x, P.map (y r j x) = poissonMeasure (x * c).toNNReal) ∧
      (∀ x : ℕ × Fin w → ℝ, iIndepFun (fun p ω => (y p.1 p.2 (x p) ω : ℝ)) P) ∧
      ∀ r j x, 0 ≤ x →
        ∫ ω, max ((y r j x ω : ℝ) / c) (1e-16) ∂P = x + Real.exp (-(x * c)) * 1e-16 ∧
        ∫ ω, (max ((y r j x ω : ℝ) / c) (1e-16) - x) ^ 2 ∂P = x / c + Real.exp (-(x * c)) * (1e-16 ^ 2 - 2 * 1e-16 * x) := by
  have hce : c * 1e-16 ≤ 1 := by norm_num at hc' ⊢; linarith
  refine ⟨fun r j x => C.pois (k + r * w + j) (x * c).toNNReal, fun ω => ?_, fun r j x => C.pois_law _ _, fun x => ?_, fun r j x h0 =>
    ⟨poisson_mean C _ hc (by norm_num) hce h0, poisson_spread C _ hc (by norm_num) hce h0⟩⟩
  · exact level_run C.rng (out := fun k ω v => v.mapIdx fun (j : ℕ) (x : ℝ) => max ((C.pois (k + j) (x * c).toNNReal ω : ℝ) / c) (1e-16)) hne
      (fun v hv ω k => by rw [poissonRow_run C c hc v (hx v hv), hw v hv]) ω k
  · exact C.indep.precomp (g := fun (p : ℕ × Fin w) => ChanceIdx.pois (k + p.1 * w + p.2) (x p * c).toNNReal) fun p q h => by
      injection h with h1 h2
      exact position_injective w k h1

/-- The documented standard deviation of `apply_poisson_noise`, `sqrt(x * c)`, is that of another noise: for every rate of at least 2
the mean square deviation is smaller than half of `x * c`. -/
theorem C123_poisson_documented (C : Chance Ω P) (k : ℕ) {c x : ℝ} (hc : 2 ≤ c) (hc' : c ≤ 1e16) (hx : 1e-16 ≤ x) :
    ∫ ω, (max ((C.pois k (x * c).toNNReal ω : ℝ) / c) (1e-16) - x) ^ 2 ∂P < x * c / 2 := by
  have h0 : 0 < c := by linarith
  have hx0 : 0 < x := lt_of_lt_of_le (by norm_num) hx
  rw [poisson_spread C k h0 (by norm_num) (by norm_num at hc' ⊢; linarith) hx0.le]
  have h1 : x / c ≤ x / 2 := div_le_div_of_nonneg_left hx0.le (by norm_num) hc
  have h2 : Real.exp (-(x * c)) * (1e-16 ^ 2 - 2 * 1e-16 * x) ≤ 0 := by
    apply mul_nonpos_of_nonneg_of_nonpos (Real.exp_pos _).le
    nlinarith
  nlinarith

/-- There are such random numbers. -/
example : ∃ (Ω : Type) (_ : MeasurableSpace Ω) (P : Measure Ω), Nonempty (Chance Ω P) := ⟨_, _, _, ⟨Chance.product⟩⟩

/-- Clean curves that meet the hypotheses of the theorems on noise. -/
example : (∀ v ∈ [[(1 : ℝ), 0.5], [1, 0]], v.length = 2) ∧ (∀ v ∈ [[(1 : ℝ), 0.5], [1, 0]], ∀ x ∈ v, (0 : ℝ) ≤ x) ∧
    [[(1 : ℝ), 0.5], [1, 0]].length ≠ 1 := by
  refine ⟨by simp, ?_, by simp⟩
  intro v hv x hx
  simp only [List.mem_cons, List.not_mem_nil, or_false] at hv
  rcases hv with rfl | rfl <;> simp only [List.mem_cons, List.not_mem_nil, or_false] at hx <;> rcases hx with rfl | rfl <;> norm_num

end Verif.Props
