import Verif.Props.Film
import Verif.Spec.Kinematic

/-!
# C137: the tail of the curve
-/

namespace Verif.Props
open Verif.Py Verif.Model Verif.Spec Verif.Lemmas Complex Filter Topology

/-! ### The curve at large momentum transfers -/

/-- The recursion behind `stepTransform`. -/
noncomputable def tailSum : ℂ → List Slab → ℝ → ℂ
  | _, [], _ => 0
  | ρ, s :: rest, q => 4 * (Real.pi : ℂ) * (s.sld - ρ) + cexp (-(I * (q * s.thickness : ℝ))) * tailSum s.sld rest q

theorem tailSum_steps (l : List Slab) (ρ : ℂ) (z q : ℝ) :
    ((interfaceSteps ρ z l).map fun (p : ℂ × ℝ) => 4 * (Real.pi : ℂ) * p.1 * cexp (-(I * (q * p.2 : ℝ)))).sum = cexp (-(I * (q * z : ℝ))) * tailSum ρ l q := by
  induction l generalizing ρ z with
  | nil => simp [interfaceSteps, tailSum]
  | cons s rest ih =>
    simp only [interfaceSteps, tailSum, List.map_cons, List.sum_cons]
    have : cexp (-(I * ((q * (z + s.thickness) : ℝ) : ℂ))) = cexp (-(I * ((q * z : ℝ) : ℂ))) * cexp (-(I * ((q * s.thickness : ℝ) : ℂ))) := by
      rw [← Complex.exp_add]
      congr 1
      push_cast
      ring
    rw [ih, this]
    ring

theorem stepTransform_eq (l : List Slab) (q : ℝ) : stepTransform l q = tailSum 0 l q := by
  unfold stepTransform
  rw [tailSum_steps]
  simp

theorem norm_phase (x : ℝ) : ‖cexp (-(I * (x : ℝ)))‖ = 1 := by
  rw [Complex.norm_exp]
  simp

theorem tailSum_bounded (l : List Slab) (ρ : ℂ) : ∃ c, ∀ q, ‖tailSum ρ l q‖ ≤ c := by
  induction l generalizing ρ with
  | nil => exact ⟨0, fun q => by simp [tailSum]⟩
  | cons s rest ih =>
    obtain ⟨c, hc⟩ := ih s.sld
    refine ⟨‖4 * (Real.pi : ℂ) * (s.sld - ρ)‖ + c, fun q => ?_⟩
    simp only [tailSum]
    refine (norm_add_le _ _).trans (add_le_add le_rfl ?_)
    rw [norm_mul, norm_phase, one_mul]
    exact hc q

/-- A bounded function times a function that tends to zero. -/
theorem tendsto_bdd_mul {f g : ℝ → ℂ} {c : ℝ} (hf : Tendsto f atTop (𝓝 0)) (hg : ∀ q, ‖g q‖ ≤ c) : Tendsto (fun q => f q * g q) atTop (𝓝 0) := by
  have d := (tendsto_zero_iff_norm_tendsto_zero.1 hf).mul_const c
  rw [zero_mul] at d
  refine squeeze_zero_norm (fun q => ?_) d
  rw [norm_mul]
  exact mul_le_mul_of_nonneg_left (hg q) (norm_nonneg _)

theorem inv_sq_tendsto : Tendsto (fun q : ℝ => ((q : ℂ) ^ 2)⁻¹) atTop (𝓝 0) := by
  have := (Complex.continuous_ofReal.tendsto 0).comp ((tendsto_pow_atTop two_ne_zero).inv_tendsto_atTop (𝕜 := ℝ))
  simpa [Function.comp_def] using this

/-- Parratt's recursion for sharp interfaces at large momentum transfers. -/
theorem parratt_tail (l : List Slab) (hp : ∀ s ∈ l, 0 ≤ s.sld.im) (hr : ∀ s ∈ l, s.roughness = 0) (ρ : ℂ) (hρ : 0 ≤ ρ.im) :
    ∃ x : ℝ → ℂ, (∀ᶠ q in atTop, parratt (codeWave q) (codeWave q ρ) l = some (x q)) ∧
      Tendsto (fun q : ℝ => (q : ℂ) ^ 2 * x q - tailSum ρ l q) atTop (𝓝 0) := by
  induction l generalizing ρ with
  | nil => exact ⟨fun _ => 0, Eventually.of_forall fun q => rfl, by simp [tailSum]⟩
  | cons s rest ih =>
    have hs := hp s (by simp)
    obtain ⟨x, hx, tx⟩ := ih (fun t ht => hp t (by simp [ht])) (fun t ht => hr t (by simp [ht])) s.sld hs
    obtain ⟨c, hc⟩ := tailSum_bounded rest s.sld
    let E : ℝ → ℂ := fun q => cexp (-(I * (q * s.thickness : ℝ)))
    let g : ℝ → ℂ := fun q => cexp (-(2 * I * (codeWave q s.sld - (q : ℂ) / 2) * s.thickness))
    have nE : ∀ q, ‖E q‖ ≤ 1 := fun q => (norm_phase _).le
    have tg : Tendsto g atTop (𝓝 1) := by
      have := (((wave_diff_tendsto hs).const_mul (2 * I)).mul_const (s.thickness : ℂ)).neg
      rw [mul_zero, zero_mul, neg_zero] at this
      have := (Complex.continuous_exp.tendsto 0).comp this
      rwa [Complex.exp_zero] at this
    have hz : ∀ q : ℝ, cexp (-(2 * I * codeWave q s.sld * s.thickness)) = g q * E q := by
      intro q
      simp only [g, E]
      rw [← Complex.exp_add]
      congr 1
      push_cast
      ring
    let r : ℝ → ℂ := fun q => (codeWave q ρ - codeWave q s.sld) / (codeWave q ρ + codeWave q s.sld)
    let y : ℝ → ℂ := fun q => x q * (g q * E q)
    let a : ℂ := 4 * (Real.pi : ℂ) * (s.sld - ρ)
    have tr : Tendsto (fun q : ℝ => (q : ℂ) ^ 2 * r q) atTop (𝓝 a) := fresnel_tendsto hρ hs
    have ty : Tendsto (fun q : ℝ => (q : ℂ) ^ 2 * y q - E q * tailSum s.sld rest q) atTop (𝓝 0) := by
      have u1 := tendsto_bdd_mul (f := fun q => ((q : ℂ) ^ 2 * x q - tailSum s.sld rest q) * g q) (by simpa using tx.mul tg) nE
      have u2 := tendsto_bdd_mul (tendsto_bdd_mul (f := fun q => g q - 1) (by simpa using tg.sub_const 1) hc) nE
      have := u1.add u2
      rw [add_zero] at this
      refine this.congr fun q => ?_
      simp only [y]
      ring
    have zero_of : ∀ {f F : ℝ → ℂ} {c : ℝ}, (∀ q, ‖F q‖ ≤ c) → Tendsto (fun q : ℝ => (q : ℂ) ^ 2 * f q - F q) atTop (𝓝 0) → Tendsto f atTop (𝓝 0) := by
      intro f F c hF hf
      have := (hf.mul inv_sq_tendsto).add (tendsto_bdd_mul inv_sq_tendsto hF)
      rw [mul_zero, add_zero] at this
      refine this.congr' ?_
      filter_upwards [eventually_gt_atTop 0] with q hq
      have : (q : ℂ) ≠ 0 := by exact_mod_cast hq.ne'
      field_simp
      ring
    have r0 : Tendsto r atTop (𝓝 0) := zero_of (F := fun _ => a) (fun _ => le_rfl) (by simpa using tr.sub_const a)
    have nEF : ∀ q, ‖E q * tailSum s.sld rest q‖ ≤ c := fun q => by
      rw [norm_mul, norm_phase, one_mul]
      exact hc q
    have y0 : Tendsto y atTop (𝓝 0) := zero_of nEF ty
    have tw : Tendsto (fun q => 1 + r q * y q) atTop (𝓝 1) := by simpa using (r0.mul y0).const_add 1
    have ti : Tendsto (fun q => (1 + r q * y q)⁻¹) atTop (𝓝 1) := by simpa using tw.inv₀ one_ne_zero
    refine ⟨fun q => (r q + y q) / (1 + r q * y q), ?_, ?_⟩
    · filter_upwards [hx, tw.eventually_ne one_ne_zero] with q h1 h2
      have ef : fresnel (codeWave q ρ) (codeWave q s.sld) s.roughness = r q := by
        unfold fresnel
        rw [hr s (by simp)]
        simp [r]
      have h3 : 1 + r q * (x q * (g q * E q)) ≠ 0 := h2
      simp only [parratt]
      rw [h1, Option.bind_some, ef, hz q, if_neg h3]
    · let L : ℝ → ℂ := fun q => a + E q * tailSum s.sld rest q
      have nL : ∀ q, ‖L q‖ ≤ ‖a‖ + c := fun q => (norm_add_le _ _).trans (add_le_add le_rfl (nEF q))
      have tn : Tendsto (fun q : ℝ => (q : ℂ) ^ 2 * r q - a + ((q : ℂ) ^ 2 * y q - E q * tailSum s.sld rest q)) atTop (𝓝 0) := by
        simpa using (tr.sub_const a).add ty
      have u := (tn.mul ti).add (tendsto_bdd_mul (f := fun q => (1 + r q * y q)⁻¹ - 1) (by simpa using ti.sub_const 1) nL)
      rw [zero_mul, add_zero] at u
      refine u.congr fun q => ?_
      simp only [tailSum]
      change _ = (q : ℂ) ^ 2 * ((r q + y q) / (1 + r q * y q)) - (a + E q * tailSum s.sld rest q)
      simp only [L]
      rw [div_eq_mul_inv]
      ring

/-- **C137** (tail of the curve): the reflectivity of a stack with sharp interfaces is defined at every momentum transfer and approaches the squared modulus
of the Fourier transform of the density steps, divided by the fourth power of the momentum transfer. -/
theorem C137_tail (t r : List ℝ) (s : List ℂ) (h1 : t.length + 1 = r.length) (h2 : r.length = s.length) (hp : ∀ ρ ∈ s, 0 ≤ ρ.im) (hr : ∀ x ∈ r, x = 0)
    (ht : ∀ d ∈ t, 0 ≤ d) :
    ∃ R : ℝ → ℝ, (∀ q, multilayerReflectivity [q] t r s 0 = .ok [some (R q)]) ∧
      Tendsto (fun q => q ^ 4 * R q - ‖stepTransform (slabs t r s) q‖ ^ 2) atTop (𝓝 0) := by
  have ex := fun q => C113_sharp q t r s hp hr ht (codeWave q) (fun ρ h => (codeWave_isWave q h).1)
  choose x hx using ex
  refine ⟨fun q => min (‖x q‖ ^ 2) 1, fun q => C113_parratt q t r s h1 h2 hp (codeWave q) (fun ρ h => (codeWave_isWave q h).1) (x q) (hx q), ?_⟩
  obtain ⟨x', hx', tx⟩ := parratt_tail (slabs t r s) (fun u hu => slabs_physical hp u hu) (fun u hu => hr _ (slabs_mem hu).2.1) 0 (by simp)
  obtain ⟨c, hc⟩ := tailSum_bounded (slabs t r s) 0
  have e : ∀ᶠ q in atTop, x' q = x q := by
    filter_upwards [hx'] with q hq
    have := hx q
    rw [hq] at this
    exact Option.some.inj this
  have x0 : Tendsto x' atTop (𝓝 0) := by
    have := (tx.mul inv_sq_tendsto).add (tendsto_bdd_mul inv_sq_tendsto hc)
    rw [mul_zero, add_zero] at this
    refine this.congr' ?_
    filter_upwards [eventually_gt_atTop 0] with q hq
    have : (q : ℂ) ≠ 0 := by exact_mod_cast hq.ne'
    field_simp
    ring
  have small : ∀ᶠ q in atTop, ‖x' q‖ ^ 2 ≤ 1 := by
    filter_upwards [(tendsto_zero_iff_norm_tendsto_zero.1 x0).eventually (gt_mem_nhds one_pos)] with q hq
    exact pow_le_one₀ (norm_nonneg _) hq.le
  refine (normSq_tendsto hc tx).congr' ?_
  filter_upwards [e, small] with q h3 h4
  rw [← h3, min_eq_left h4, stepTransform_eq, norm_mul, norm_pow, Complex.norm_real, Real.norm_eq_abs, sq_abs]
  ring

/-! ### Sums of oscillations -/

/-- A sum of oscillations with different frequencies tends to zero only if all amplitudes are zero. -/
theorem exp_sum_zero (S : Finset ℝ) : ∀ c : ℝ → ℂ, Tendsto (fun q : ℝ => ∑ l ∈ S, c l * cexp (I * (l * q : ℝ))) atTop (𝓝 0) → ∀ l ∈ S, c l = 0 := by
  classical
  induction S using Finset.induction_on with
  | empty => intro c _ l hl; simp at hl
  | insert m S hm ih =>
    intro c h
    have shift : ∀ t : ℝ, Tendsto (fun q : ℝ => q + t) atTop atTop := fun t => tendsto_atTop_add_const_right _ _ tendsto_id
    have others : ∀ l ∈ S, c l = 0 := by
      intro l hl
      have hne : l - m ≠ 0 := sub_ne_zero.2 fun e => hm (e ▸ hl)
      let t : ℝ := Real.pi / (l - m)
      have d := (h.comp (shift t)).sub (h.const_mul (cexp (I * (m * t : ℝ))))
      rw [mul_zero, sub_zero] at d
      have := ih (fun k => c k * (cexp (I * (k * t : ℝ)) - cexp (I * (m * t : ℝ)))) (d.congr fun q => ?_) l hl
      · rcases mul_eq_zero.1 this with h0 | h0
        · exact h0
        · exfalso
          have e : cexp (I * (l * t : ℝ)) = cexp (I * (m * t : ℝ)) * (-1) := by
            rw [← Complex.exp_pi_mul_I, ← Complex.exp_add]
            congr 1
            have : l * t = m * t + Real.pi := by
              simp only [t]
              field_simp
              ring
            rw [this]
            push_cast
            ring
          rw [e] at h0
          exact Complex.exp_ne_zero (I * (m * t : ℝ)) (by linear_combination (-1 / 2 : ℂ) * h0)
      · simp only [Function.comp_apply]
        rw [Finset.sum_insert hm, Finset.sum_insert hm, mul_add (cexp _) (c m * _), Finset.mul_sum, add_sub_add_comm, ← Finset.sum_sub_distrib]
        have sp : ∀ k : ℝ, cexp (I * (k * (q + t) : ℝ)) = cexp (I * (k * t : ℝ)) * cexp (I * (k * q : ℝ)) := by
          intro k
          rw [← Complex.exp_add]
          congr 1
          push_cast
          ring
        have z : c m * cexp (I * (m * (q + t) : ℝ)) - cexp (I * (m * t : ℝ)) * (c m * cexp (I * (m * q : ℝ))) = 0 := by
          rw [sp]
          ring
        rw [z, zero_add]
        refine Finset.sum_congr rfl fun k _ => ?_
        rw [sp]
        ring
    intro l hl
    rcases Finset.mem_insert.1 hl with rfl | hl
    · have h1 : Tendsto (fun q : ℝ => ‖c l‖) atTop (𝓝 0) := by
        refine (tendsto_zero_iff_norm_tendsto_zero.1 h).congr fun q => ?_
        rw [Finset.sum_insert hm, Finset.sum_eq_zero (fun k hk => by rw [others k hk, zero_mul]), add_zero, norm_mul, Complex.norm_exp]
        simp
      exact norm_eq_zero.1 (tendsto_nhds_unique tendsto_const_nhds h1)
    · exact others l hl

/-- The same for a family in which frequencies may occur several times: the amplitudes of every frequency add up to zero. -/
theorem exp_family_fiber {ι : Type} [Fintype ι] (b : ι → ℂ) (w : ι → ℝ) (h : Tendsto (fun q : ℝ => ∑ i, b i * cexp (I * (w i * q : ℝ))) atTop (𝓝 0))
    (l₀ : ℝ) [DecidablePred fun i => w i = l₀] : ∑ i ∈ Finset.univ.filter (fun i => w i = l₀), b i = 0 := by
  classical
  by_cases hm : l₀ ∈ Finset.univ.image w
  · have := exp_sum_zero (Finset.univ.image w) (fun l => ∑ i ∈ Finset.univ.filter (fun i => w i = l), b i) (h.congr fun q => ?_) l₀ hm
    · rw [← this]
      congr 1
      ext i
      simp
    · rw [← Finset.sum_fiberwise_of_maps_to (fun i _ => Finset.mem_image_of_mem w (Finset.mem_univ i))]
      refine Finset.sum_congr rfl fun l _ => ?_
      rw [Finset.sum_mul]
      refine Finset.sum_congr rfl fun i hi => ?_
      rw [(Finset.mem_filter.1 hi).2]
  · refine Finset.sum_eq_zero fun i hi => ?_
    exact absurd (Finset.mem_image.2 ⟨i, Finset.mem_univ i, (Finset.mem_filter.1 hi).2⟩) hm

theorem exp_family_zero {ι : Type} [Fintype ι] (b : ι → ℂ) (w : ι → ℝ) (h : Tendsto (fun q : ℝ => ∑ i, b i * cexp (I * (w i * q : ℝ))) atTop (𝓝 0))
    (i₀ : ι) (honly : ∀ i, w i = w i₀ → i = i₀) : b i₀ = 0 := by
  classical
  have := exp_family_fiber b w h (w i₀)
  have e : Finset.univ.filter (fun i => w i = w i₀) = {i₀} := by
    ext i
    simp only [Finset.mem_filter, Finset.mem_univ, true_and, Finset.mem_singleton]
    exact ⟨honly i, fun h => h ▸ rfl⟩
  rwa [e, Finset.sum_singleton] at this

theorem normSq_sum {κ : Type} [Fintype κ] (a : κ → ℂ) (z : κ → ℝ) (q : ℝ) : ((‖∑ j, a j * cexp (-(I * (q * z j : ℝ)))‖ ^ 2 : ℝ) : ℂ) =
    ∑ p : κ × κ, a p.1 * starRingEnd ℂ (a p.2) * cexp (I * ((z p.2 - z p.1) * q : ℝ)) := by
  rw [← Complex.normSq_eq_norm_sq, ← Complex.mul_conj, map_sum, Finset.sum_mul_sum, ← Finset.sum_product']
  refine Finset.sum_congr rfl fun p _ => ?_
  rw [map_mul, ← Complex.exp_conj, mul_mul_mul_comm, ← Complex.exp_add]
  congr 2
  simp only [map_neg, map_mul, Complex.conj_I, Complex.conj_ofReal]
  push_cast
  ring

/-- If the squared moduli of two sums of oscillations agree in the limit, the differences of their extreme frequencies agree. -/
theorem span_le {κ κ' : Type} [Fintype κ] [Fintype κ'] (a : κ → ℂ) (z : κ → ℝ) (a' : κ' → ℂ) (z' : κ' → ℝ) (i₀ i₁ : κ) (w : ℝ)
    (h0 : ∀ j, j ≠ i₀ → z i₀ < z j) (h1 : ∀ j, j ≠ i₁ → z j < z i₁) (hw : ∀ j k, z' j - z' k ≤ w) (n0 : a i₀ ≠ 0) (n1 : a i₁ ≠ 0)
    (h : Tendsto (fun q : ℝ => ‖∑ j, a j * cexp (-(I * (q * z j : ℝ)))‖ ^ 2 - ‖∑ j, a' j * cexp (-(I * (q * z' j : ℝ)))‖ ^ 2) atTop (𝓝 0)) :
    z i₁ - z i₀ ≤ w := by
  by_contra hlt
  push Not at hlt
  have g0 : ∀ j, z i₀ ≤ z j := fun j => (eq_or_ne j i₀).elim (fun e => e ▸ le_rfl) fun e => (h0 j e).le
  have g1 : ∀ j, z j ≤ z i₁ := fun j => (eq_or_ne j i₁).elim (fun e => e ▸ le_rfl) fun e => (h1 j e).le
  have hc := (Complex.continuous_ofReal.tendsto 0).comp h
  rw [Complex.ofReal_zero] at hc
  have := exp_family_zero (ι := (κ × κ) ⊕ (κ' × κ'))
    (Sum.elim (fun p => a p.1 * starRingEnd ℂ (a p.2)) (fun p => -(a' p.1 * starRingEnd ℂ (a' p.2))))
    (Sum.elim (fun p => z p.2 - z p.1) (fun p => z' p.2 - z' p.1)) (hc.congr fun q => ?_) (Sum.inl (i₀, i₁)) ?_
  · simp only [Sum.elim_inl] at this
    rcases mul_eq_zero.1 this with h2 | h2
    · exact n0 h2
    · exact n1 ((map_eq_zero _).1 h2)
  · simp only [Function.comp_apply]
    rw [Complex.ofReal_sub, normSq_sum, normSq_sum, Fintype.sum_sum_type, sub_eq_add_neg, ← Finset.sum_neg_distrib]
    simp only [Sum.elim_inl, Sum.elim_inr, neg_mul]
  · rintro (⟨j, k⟩ | ⟨j, k⟩) e
    · simp only [Sum.elim_inl] at e
      have e0 : j = i₀ := by
        by_contra hj
        linarith [h0 j hj, g1 k]
      have e1 : k = i₁ := by
        by_contra hk
        linarith [h1 k hk, g0 j]
      rw [e0, e1]
    · simp only [Sum.elim_inl, Sum.elim_inr] at e
      linarith [hw k j]

/-! ### Depths of the interfaces -/

theorem steps_append (m : List Slab) (x b : Slab) (ρ : ℂ) (z : ℝ) : interfaceSteps ρ z (m ++ [b] ++ [x]) =
    interfaceSteps ρ z (m ++ [b]) ++ [(x.sld - b.sld, z + ((m ++ [b]).map Slab.thickness).sum)] := by
  induction m generalizing ρ z with
  | nil => simp [interfaceSteps]
  | cons a m ih =>
    simp only [List.cons_append, interfaceSteps, List.map_cons, List.sum_cons]
    rw [ih, add_assoc]

theorem steps_depth (m : List Slab) (h : ∀ x ∈ m, 0 ≤ x.thickness) (ρ : ℂ) (z : ℝ) :
    ∀ p ∈ interfaceSteps ρ z m, z ≤ p.2 ∧ p.2 ≤ z + ((m.dropLast).map Slab.thickness).sum := by
  induction m generalizing ρ z with
  | nil => intro p hp; simp [interfaceSteps] at hp
  | cons a m ih =>
    intro p hp
    have pos : 0 ≤ ((a :: m).dropLast.map Slab.thickness).sum := by
      refine List.sum_nonneg fun t ht => ?_
      obtain ⟨x, hx, rfl⟩ := List.mem_map.1 ht
      exact h x (List.mem_of_mem_dropLast hx)
    rcases List.mem_cons.1 hp with rfl | hp
    · exact ⟨le_rfl, by simpa using pos⟩
    · obtain ⟨h1, h2⟩ := ih (fun x hx => h x (by simp [hx])) _ _ p hp
      have ha := h a (by simp)
      refine ⟨by linarith, ?_⟩
      cases m with
      | nil => simp [interfaceSteps] at hp
      | cons b m =>
        rw [List.dropLast_cons_cons, List.map_cons, List.sum_cons]
        linarith

theorem stepTransform_sum (l : List Slab) (q : ℝ) : stepTransform l q =
    ∑ i : Fin (interfaceSteps 0 0 l).length, 4 * (Real.pi : ℂ) * ((interfaceSteps 0 0 l).get i).1 * cexp (-(I * (q * ((interfaceSteps 0 0 l).get i).2 : ℝ))) := by
  unfold stepTransform
  rw [← Fin.sum_univ_fun_getElem]
  rfl

/-- If the tails of the curves of two stacks agree, no stack with contrast at the top and at the bottom is thicker than the other stack. -/
theorem stack_span_le {m m₁ m₂ m' : List Slab} {a b x x' : Slab} (e1 : m = a :: m₁) (e2 : m = m₂ ++ [b]) (ht : ∀ y ∈ m, 0 ≤ y.thickness)
    (ht' : ∀ y ∈ m', 0 ≤ y.thickness) (ha : 0 < a.thickness) (hb : 0 < b.thickness) (na : a.sld ≠ 0) (nb : x.sld ≠ b.sld)
    (h : Tendsto (fun q : ℝ => ‖stepTransform (m ++ [x]) q‖ ^ 2 - ‖stepTransform (m' ++ [x']) q‖ ^ 2) atTop (𝓝 0)) :
    (m.map Slab.thickness).sum ≤ (m'.map Slab.thickness).sum := by
  have pi0 : (4 * (Real.pi : ℂ)) ≠ 0 := mul_ne_zero (by norm_num) (by exact_mod_cast Real.pi_ne_zero)
  have f1 : interfaceSteps 0 0 (m ++ [x]) = (a.sld - 0, 0) :: interfaceSteps a.sld (0 + a.thickness) (m₁ ++ [x]) := by rw [e1]; rfl
  have f2 : interfaceSteps 0 0 (m ++ [x]) = interfaceSteps 0 0 m ++ [(x.sld - b.sld, 0 + (m.map Slab.thickness).sum)] := by
    rw [e2]
    exact steps_append m₂ x b 0 0
  have d1 : ∀ p ∈ interfaceSteps a.sld (0 + a.thickness) (m₁ ++ [x]), 0 < p.2 := by
    intro p hp
    have hp' : p ∈ interfaceSteps a.sld (0 + a.thickness) (m₁ ++ [⟨x.roughness, x.sld, 0⟩]) := by
      have aux : ∀ (k : List Slab) (ρ : ℂ) (z : ℝ), interfaceSteps ρ z (k ++ [⟨x.roughness, x.sld, 0⟩]) = interfaceSteps ρ z (k ++ [x]) := by
        intro k
        induction k with
        | nil => intro ρ z; rfl
        | cons c k ih => intro ρ z; simp only [List.cons_append, interfaceSteps]; rw [ih]
      rw [aux]
      exact hp
    have := (steps_depth _ (fun y hy => ?_) _ _ p hp').1
    · linarith
    · rcases List.mem_append.1 hy with hy | hy
      · exact ht y (by rw [e1]; simp [hy])
      · rw [List.mem_singleton.1 hy]
  have d2 : ∀ p ∈ interfaceSteps 0 0 m, p.2 < (m.map Slab.thickness).sum := by
    intro p hp
    have := (steps_depth m ht _ _ p hp).2
    rw [e2, List.dropLast_concat] at this
    rw [e2, List.map_append, List.sum_append]
    simp only [List.map_cons, List.map_nil, List.sum_cons, List.sum_nil]
    linarith
  have d3 : ∀ p ∈ interfaceSteps 0 0 (m' ++ [x']), 0 ≤ p.2 ∧ p.2 ≤ (m'.map Slab.thickness).sum := by
    intro p hp
    have aux : ∀ (k : List Slab) (ρ : ℂ) (z : ℝ), interfaceSteps ρ z (k ++ [⟨x'.roughness, x'.sld, 0⟩]) = interfaceSteps ρ z (k ++ [x']) := by
      intro k
      induction k with
      | nil => intro ρ z; rfl
      | cons c k ih => intro ρ z; simp only [List.cons_append, interfaceSteps]; rw [ih]
    rw [← aux] at hp
    have := steps_depth _ (fun y hy => ?_) _ _ p hp
    · rwa [List.dropLast_concat, zero_add] at this
    · rcases List.mem_append.1 hy with hy | hy
      · exact ht' y hy
      · rw [List.mem_singleton.1 hy]
  simp only [stepTransform_sum] at h
  set L := interfaceSteps 0 0 (m ++ [x]) with hL
  set L' := interfaceSteps 0 0 (m' ++ [x']) with hL'
  have len : L.length = (interfaceSteps 0 0 m).length + 1 := by rw [f2]; simp
  have len1 : L.length = (interfaceSteps a.sld (0 + a.thickness) (m₁ ++ [x])).length + 1 := by rw [f1]; simp
  have pos : 0 < L.length := by omega
  have g0 : L.get ⟨0, pos⟩ = (a.sld - 0, 0) := by
    rw [List.get_eq_getElem]
    simp only [f1, List.getElem_cons_zero]
  have g1 : L.get ⟨L.length - 1, by omega⟩ = (x.sld - b.sld, 0 + (m.map Slab.thickness).sum) := by
    rw [List.get_eq_getElem]
    simp only [f2]
    rw [List.getElem_append_right (by simp)]
    simp
  have := span_le (fun i => 4 * (Real.pi : ℂ) * (L.get i).1) (fun i => (L.get i).2) (fun i => 4 * (Real.pi : ℂ) * (L'.get i).1) (fun i => (L'.get i).2)
    ⟨0, pos⟩ ⟨L.length - 1, by omega⟩ ((m'.map Slab.thickness).sum) ?_ ?_ ?_ ?_ ?_ h
  · rw [g0, g1] at this
    simpa using this
  · intro j hj
    rw [g0]
    obtain ⟨j, hj'⟩ := j
    cases j with
    | zero => exact absurd rfl hj
    | succ j =>
      have : L[j + 1] = (interfaceSteps a.sld (0 + a.thickness) (m₁ ++ [x]))[j]'(by omega) := by
        simp only [f1, List.getElem_cons_succ]
      rw [List.get_eq_getElem, this]
      exact d1 _ (List.getElem_mem _)
  · intro j hj
    rw [g1, zero_add]
    obtain ⟨j, hj'⟩ := j
    have hlt : j < (interfaceSteps 0 0 m).length := by
      by_contra hc
      refine hj (Fin.ext ?_)
      simp only
      omega
    have : L[j] = (interfaceSteps 0 0 m)[j] := by
      simp only [f2]
      rw [List.getElem_append_left hlt]
    rw [List.get_eq_getElem, this]
    exact d2 _ (List.getElem_mem _)
  · intro j k
    have h1 := d3 _ (List.get_mem L' j)
    have h2 := d3 _ (List.get_mem L' k)
    linarith [h1.2, h2.1]
  · simp only [g0, sub_zero]
    exact mul_ne_zero pi0 na
  · simp only [g1]
    exact mul_ne_zero pi0 (sub_ne_zero.2 nb)

/-! ### Samples with sharp interfaces -/

/-- A sample with sharp interfaces below vacuum, without gain. -/
structure SharpSample (s : SampleV ℝ) : Prop where
  ambient : ∃ nm, s.ambient.sld = some (.const (.real 0) nm)
  rough : ∀ l ∈ s.substrate :: s.layers, ∃ nm, l.roughness = some (.const (.real 0) nm)
  absorption : ∀ l ∈ s.substrate :: s.layers, ∀ p, l.sld = some p → 0 ≤ p.min.im ∧ 0 ≤ p.max.im

/-- A sample with sharp interfaces below vacuum, whose uppermost and lowest layers are not empty; the uppermost layer has a density, and no density of the
lowest layer is a density of the substrate. -/
structure SharpStack (s : SampleV ℝ) (bottom top : LayerV ℝ) : Prop extends SharpSample s where
  lowest : ∃ rest, s.layers = bottom :: rest
  uppermost : ∃ rest, s.layers = rest ++ [top]
  thick : ∀ l ∈ [bottom, top], ∀ p, l.thickness = some p → 0 < p.min.re
  topContrast : ∀ p, top.sld = some p → ∀ z, InRange p z → ¬ (z.re = 0 ∧ z.im = 0)
  bottomContrast : ∀ p p', bottom.sld = some p → s.substrate.sld = some p' → ∀ z z', InRange p z → InRange p' z' → ¬ (z'.re = z.re ∧ z'.im = z.im)

theorem slabs_map (layers : List (LayerV ℝ)) (sub : LayerV ℝ) (d r : LayerV ℝ → ℝ) (ρ : LayerV ℝ → ℂ) :
    slabs (layers.map d) ((sub :: layers).map r) ((sub :: layers).map ρ) = (layers.map fun l => (⟨r l, ρ l, d l⟩ : Slab)).reverse ++ [⟨r sub, ρ sub, 0⟩] := by
  unfold slabs
  rw [List.map_cons, List.map_cons, List.zip_cons_cons, List.zipWith_cons_cons, List.reverse_cons]
  congr 2
  induction layers with
  | nil => rfl
  | cons l layers ih => simp [ih]

/-- The points of the curve of a sample with sharp interfaces. -/
theorem stack_points {s : SampleV ℝ} (hs : SampleRegular s) (hl : ∀ l ∈ s.structure_, LayerDrawable l) (h : SharpSample s)
    {y : Str → Num ℝ} (hy : RowWithin s y) :
    ∃ R : ℝ → ℝ, (∀ u, curveFor s [u] (pairs y) = .ok [some (R (u * 1e10))]) ∧
      Tendsto (fun q => q ^ 4 * R q - ‖stepTransform
        ((s.layers.map fun l => (⟨0, siDensity (y (l.name ++ "_sld".toList)), (y (l.name ++ "_thickness".toList)).re * 1e-10⟩ : Slab)).reverse ++
          [⟨0, siDensity (y (s.substrate.name ++ "_sld".toList)), 0⟩]) q‖ ^ 2) atTop (𝓝 0) ∧
      ∀ l ∈ s.layers, ∃ p, l.thickness = some p ∧ 0 ≤ p.min.re ∧ p.min.re ≤ (y (l.name ++ "_thickness".toList)).re := by
  obtain ⟨nm, hamb⟩ := h.ambient
  obtain ⟨-, im⟩ := within_physical hs hamb h.absorption hy
  have rough : ∀ l ∈ s.substrate :: s.layers, (y (l.name ++ "_roughness".toList)).re = 0 := by
    intro l hm
    obtain ⟨n1, r1⟩ := h.rough l hm
    have : y (l.name ++ "_roughness".toList) = .real 0 := hy.roughness l hm _ r1
    rw [this]
    rfl
  have thick : ∀ l ∈ s.layers, ∃ p, l.thickness = some p ∧ 0 ≤ p.min.re ∧ p.min.re ≤ (y (l.name ++ "_thickness".toList)).re := by
    intro l hm
    obtain ⟨p, hp, -, hp0⟩ := (hs.layers l hm).thickness
    obtain ⟨a, b, h1, h2, h3⟩ := (hl l (by simp [SampleV.structure_, hm])).thickness p hp
    have hr := (inRange_box (hy.thickness l hm p hp)).1
    refine ⟨p, hp, ?_, ?_⟩
    · rw [h1] at hp0 ⊢
      simpa [Num.ltZero, Num.re] using hp0
    · rw [h1, h2] at hr
      rw [h1]
      exact (le_min le_rfl h3).trans hr.1
  obtain ⟨R, hR, tR⟩ := C137_tail (s.layers.map fun (l : LayerV ℝ) => (y (l.name ++ "_thickness".toList)).re * 1e-10)
    ((s.substrate :: s.layers).map fun (l : LayerV ℝ) => (0 : ℝ))
    ((s.substrate :: s.layers).map fun (l : LayerV ℝ) => siDensity (y (l.name ++ "_sld".toList))) (by simp) (by simp) (by
      intro ρ hρ
      obtain ⟨l, hm, rfl⟩ := List.mem_map.1 hρ
      exact siDensity_im (im l hm)) (by
      intro x hx
      obtain ⟨l, -, rfl⟩ := List.mem_map.1 hx
      rfl) (by
      intro d hd
      obtain ⟨l, hm, rfl⟩ := List.mem_map.1 hd
      obtain ⟨p, -, h1, h2⟩ := thick l hm
      have := h1.trans h2
      positivity)
  rw [slabs_map] at tR
  refine ⟨R, fun u => ?_, tR, thick⟩
  rw [curveFor_points hamb [u] hy]
  have := hR (u * 1e10)
  rw [multilayer_eq _ _ _ _ (by simp) (by simp)] at this
  have e : ((s.substrate :: s.layers).map fun (l : LayerV ℝ) => (y (l.name ++ "_roughness".toList)).re * (1e-10 : ℝ)) =
      (s.substrate :: s.layers).map fun (l : LayerV ℝ) => (0 : ℝ) := List.map_congr_left fun l hm => by rw [rough l hm, zero_mul]
  rw [e]
  exact this

/-- The same with the contrasts. -/
theorem stack_curve {s : SampleV ℝ} {bottom top : LayerV ℝ} (hs : SampleRegular s) (hl : ∀ l ∈ s.structure_, LayerDrawable l) (h : SharpStack s bottom top)
    {y : Str → Num ℝ} (hy : RowWithin s y) :
    ∃ R : ℝ → ℝ, (∀ u, curveFor s [u] (pairs y) = .ok [some (R (u * 1e10))]) ∧
      Tendsto (fun q => q ^ 4 * R q - ‖stepTransform
        ((s.layers.map fun l => (⟨0, siDensity (y (l.name ++ "_sld".toList)), (y (l.name ++ "_thickness".toList)).re * 1e-10⟩ : Slab)).reverse ++
          [⟨0, siDensity (y (s.substrate.name ++ "_sld".toList)), 0⟩]) q‖ ^ 2) atTop (𝓝 0) ∧
      (∀ l ∈ s.layers, 0 ≤ (y (l.name ++ "_thickness".toList)).re) ∧ (∀ l ∈ [bottom, top], 0 < (y (l.name ++ "_thickness".toList)).re) ∧
      siDensity (y (top.name ++ "_sld".toList)) ≠ 0 ∧ siDensity (y (s.substrate.name ++ "_sld".toList)) ≠ siDensity (y (bottom.name ++ "_sld".toList)) := by
  obtain ⟨R, hR, tR, thick⟩ := stack_points hs hl h.toSharpSample hy
  obtain ⟨r1, hbot⟩ := h.lowest
  obtain ⟨r2, htop⟩ := h.uppermost
  have mb : bottom ∈ s.layers := by rw [hbot]; simp
  have mt : top ∈ s.layers := by rw [htop]; simp
  have inj0 : ∀ v : Num ℝ, siDensity v = 0 → v.re = 0 ∧ v.im = 0 := by
    intro v e0
    refine siDensity_inj (w := .real 0) (e0.trans ?_)
    unfold siDensity
    rw [show (⟨(Num.real (0 : ℝ)).re, (Num.real (0 : ℝ)).im⟩ : ℂ) = 0 from rfl, zero_mul]
  refine ⟨R, hR, tR, ?_, ?_, ?_, ?_⟩
  · intro l hm
    obtain ⟨p, -, h1, h2⟩ := thick l hm
    exact h1.trans h2
  · intro l hm
    have hm' : l ∈ s.layers := by
      rcases List.mem_cons.1 hm with rfl | hm
      · exact mb
      · rw [List.mem_singleton.1 hm]; exact mt
    obtain ⟨p, hp, -, h2⟩ := thick l hm'
    exact (h.thick l hm p hp).trans_le h2
  · obtain ⟨p, hp, -⟩ := (hs.layers top mt).sld
    exact fun e => h.topContrast p hp _ (hy.sld top (by simp [mt]) _ hp) (inj0 _ e)
  · obtain ⟨p, hp, -⟩ := (hs.layers bottom mb).sld
    obtain ⟨p', hp', -⟩ := hs.substrate.sld
    exact fun e => h.bottomContrast p p' hp hp' _ _ (hy.sld bottom (by simp [mb]) _ hp) (hy.sld s.substrate (by simp) _ hp') (siDensity_inj e)

/-- **C137** (the curve determines the total thickness): for a sample with any number of layers with sharp interfaces, the points of the curve at large
momentum transfers determine the total thickness of the layers, even if all thicknesses and densities are unknown. -/
theorem C137_total (s : SampleV ℝ) (bottom top : LayerV ℝ) (hs : SampleRegular s) (hl : ∀ l ∈ s.structure_, LayerDrawable l) (h : SharpStack s bottom top)
    (U : ℝ) (y y' : Str → Num ℝ) (hy : RowWithin s y) (hy' : RowWithin s y') (e : ∀ u ≥ U, curveFor s [u] (pairs y) = curveFor s [u] (pairs y')) :
    (s.layers.map fun (l : LayerV ℝ) => (y (l.name ++ "_thickness".toList)).re).sum =
      (s.layers.map fun (l : LayerV ℝ) => (y' (l.name ++ "_thickness".toList)).re).sum := by
  have half : ∀ y y', RowWithin s y → RowWithin s y' → (∀ u ≥ U, curveFor s [u] (pairs y) = curveFor s [u] (pairs y')) →
      (s.layers.map fun (l : LayerV ℝ) => (y (l.name ++ "_thickness".toList)).re).sum ≤
        (s.layers.map fun (l : LayerV ℝ) => (y' (l.name ++ "_thickness".toList)).re).sum := by
    intro y y' hy hy' e
    obtain ⟨R, hR, tR, p1, p2, c1, c2⟩ := stack_curve hs hl h hy
    obtain ⟨R', hR', tR', p1', -, -, -⟩ := stack_curve hs hl h hy'
    obtain ⟨r1, hbot⟩ := h.lowest
    obtain ⟨r2, htop⟩ := h.uppermost
    have d := tR'.sub tR
    rw [sub_zero] at d
    have sums : ∀ z : Str → Num ℝ, (((s.layers.map fun l => (⟨0, siDensity (z (l.name ++ "_sld".toList)), (z (l.name ++ "_thickness".toList)).re * 1e-10⟩ :
        Slab)).reverse).map Slab.thickness).sum = (s.layers.map fun (l : LayerV ℝ) => (z (l.name ++ "_thickness".toList)).re).sum * 1e-10 := by
      intro z
      rw [List.map_reverse, List.sum_reverse, List.map_map, ← List.sum_map_mul_right]
      rfl
    have := stack_span_le (m := (s.layers.map fun l => (⟨0, siDensity (y (l.name ++ "_sld".toList)), (y (l.name ++ "_thickness".toList)).re * 1e-10⟩ : Slab)).reverse)
      (m' := (s.layers.map fun l => (⟨0, siDensity (y' (l.name ++ "_sld".toList)), (y' (l.name ++ "_thickness".toList)).re * 1e-10⟩ : Slab)).reverse)
      (x := ⟨0, siDensity (y (s.substrate.name ++ "_sld".toList)), 0⟩) (x' := ⟨0, siDensity (y' (s.substrate.name ++ "_sld".toList)), 0⟩)
      (a := ⟨0, siDensity (y (top.name ++ "_sld".toList)), (y (top.name ++ "_thickness".toList)).re * 1e-10⟩)
      (b := ⟨0, siDensity (y (bottom.name ++ "_sld".toList)), (y (bottom.name ++ "_thickness".toList)).re * 1e-10⟩)
      (by rw [htop, List.map_append, List.reverse_append]; rfl) (by rw [hbot, List.map_cons, List.reverse_cons]) ?_ ?_ ?_ ?_ c1 c2 (d.congr' ?_)
    · rw [sums, sums] at this
      exact le_of_mul_le_mul_right this (by norm_num)
    · intro w hw
      obtain ⟨l, hm, rfl⟩ := List.mem_map.1 (List.mem_reverse.1 hw)
      have := p1 l hm
      simp only
      positivity
    · intro w hw
      obtain ⟨l, hm, rfl⟩ := List.mem_map.1 (List.mem_reverse.1 hw)
      have := p1' l hm
      simp only
      positivity
    · have := p2 top (by simp)
      simp only
      positivity
    · have := p2 bottom (by simp)
      simp only
      positivity
    · filter_upwards [eventually_ge_atTop (U * 1e10)] with q hq
      have hu : U ≤ q * 1e-10 := by nlinarith
      have e0 := e _ hu
      rw [hR, hR', show q * 1e-10 * 1e10 = q by ring] at e0
      rw [Option.some.inj (List.cons.inj (Except.ok.inj e0)).1]
      ring
  exact le_antisymm (half y y' hy hy' e) (half y' y hy' hy fun u hu => (e u hu).symm)

/-- **C137** (the total thickness can be learned): for such a sample, every tolerance and every lower limit for the momentum transfers there are finitely many
momentum transfers above the limit, a continuous function of the curve at these momentum transfers and a size of measurement errors, such that the function
gives the total thickness of every admissible sample up to the tolerance from every measured curve with such errors. -/
theorem C137_learnable (s : SampleV ℝ) (bottom top : LayerV ℝ) (hs : SampleRegular s) (hn : (partNames s).Nodup) (hl : ∀ l ∈ s.structure_, LayerDrawable l)
    (h : SharpStack s bottom top) (U ε : ℝ) (hε : 0 < ε) :
    ∃ q : List ℝ, (∀ u ∈ q, U ≤ u) ∧ ∃ N : (Fin q.length → ℝ) → ℝ, Continuous N ∧ ∃ δ > 0, ∀ y, RowWithin s y →
      (∃ v : Fin q.length → ℝ, curveFor s q (pairs y) = .ok (List.ofFn fun j => some (v j))) ∧
      ∀ v w : Fin q.length → ℝ, curveFor s q (pairs y) = .ok (List.ofFn fun j => some (v j)) → (∀ j, |w j - v j| < δ) →
        |N w - (s.layers.map fun (l : LayerV ℝ) => (y (l.name ++ "_thickness".toList)).re).sum| < ε := by
  obtain ⟨nm, hamb⟩ := h.ambient
  have := finite_points s hs hn hl nm hamb h.absorption (fun u y hy => by
      obtain ⟨R, hR, -⟩ := stack_curve hs hl h hy
      exact ⟨_, hR u⟩) (Set.Ici U) (s.layers.map fun (l : LayerV ℝ) => l.name ++ "_thickness".toList) (by
      intro key hk
      obtain ⟨l, hm, rfl⟩ := List.mem_map.1 hk
      exact mem_labels.1 l hm) (by
      intro y y' hy hy' e
      rw [List.map_map, List.map_map]
      exact C137_total s bottom top hs hl h U y y' hy hy' e) ε hε
  simp only [List.map_map] at this
  exact this

/-- Two layers of unknown thickness and density on a substrate. -/
noncomputable def exampleBilayer : SampleV ℝ where
  substrate := ⟨.substrate, "Si".toList, none, some (.const (.real 0) (some "roughness".toList)), some (.const (.real 20) (some "sld".toList))⟩
  ambient := ⟨.ambient, "air".toList, none, none, some (.const (.real 0) (some "sld".toList))⟩
  layers := [⟨.layer, "film".toList, some (.range (.real 20) (.real 1000) (some "thickness".toList)), some (.const (.real 0) (some "roughness".toList)),
    some (.range (.real 5) (.real 15) (some "sld".toList))⟩,
    ⟨.layer, "cap".toList, some (.range (.real 10) (.real 50) (some "thickness".toList)), some (.const (.real 0) (some "roughness".toList)),
    some (.range (.real 5) (.real 40) (some "sld".toList))⟩]

/-- The hypotheses of C137 hold for it. -/
theorem exampleBilayer_sharp : ∃ bottom top, SampleRegular exampleBilayer ∧ (partNames exampleBilayer).Nodup ∧
    (∀ l ∈ exampleBilayer.structure_, LayerDrawable l) ∧ SharpStack exampleBilayer bottom top := by
  refine ⟨_, _, ?_, ?_, ?_, ⟨⟨⟨_, rfl⟩, ?_, ?_⟩, ⟨_, rfl⟩, ⟨[_], rfl⟩, ?_, ?_, ?_⟩⟩
  · refine ⟨⟨rfl, rfl, ⟨_, rfl, ⟨rfl, trivial⟩, ?_⟩, ⟨_, rfl, rfl, trivial⟩⟩, ⟨rfl, rfl, rfl, ⟨_, rfl, rfl, trivial⟩⟩, ?_⟩
    · simp only [Param.min, Num.ltZero]; norm_num
    · intro l hl
      rw [show exampleBilayer.layers = [_, _] from rfl] at hl
      simp only [List.mem_cons, List.not_mem_nil, or_false] at hl
      rcases hl with rfl | rfl
      all_goals
        refine ⟨Or.inl rfl, ⟨_, rfl, ⟨rfl, ?_⟩, ?_⟩, ⟨_, rfl, ⟨rfl, trivial⟩, ?_⟩, ⟨_, rfl, rfl, ?_⟩⟩
        · simp only [ParamValid, Num.ge]; norm_num
        · simp only [Param.min, Num.ltZero]; norm_num
        · simp only [Param.min, Num.ltZero]; norm_num
        · simp only [ParamValid, Num.ge]; norm_num
  · simp only [partNames, exampleBilayer]; decide
  · intro l hl
    simp only [SampleV.structure_, exampleBilayer, List.cons_append, List.nil_append, List.mem_cons, List.not_mem_nil, or_false] at hl
    rcases hl with rfl | rfl | rfl | rfl
    · refine ⟨?_, by simp, ?_⟩ <;> rintro p ⟨⟩
      · trivial
      · exact ⟨0, 0, rfl, rfl, le_rfl⟩
    · refine ⟨?_, ?_, ?_⟩ <;> rintro p ⟨⟩
      · exact ⟨show (5 : ℝ) ≤ 15 by norm_num, le_refl (0 : ℝ), Or.inl ⟨_, _, rfl, rfl⟩⟩
      · exact ⟨20, 1000, rfl, rfl, by norm_num⟩
      · exact ⟨0, 0, rfl, rfl, le_rfl⟩
    · refine ⟨?_, ?_, ?_⟩ <;> rintro p ⟨⟩
      · exact ⟨show (5 : ℝ) ≤ 40 by norm_num, le_refl (0 : ℝ), Or.inl ⟨_, _, rfl, rfl⟩⟩
      · exact ⟨10, 50, rfl, rfl, by norm_num⟩
      · exact ⟨0, 0, rfl, rfl, le_rfl⟩
    · refine ⟨?_, by simp, by simp⟩
      rintro p ⟨⟩
      trivial
  · intro l hl
    simp only [exampleBilayer, List.mem_cons, List.not_mem_nil, or_false] at hl
    rcases hl with rfl | rfl | rfl <;> exact ⟨_, rfl⟩
  · intro l hl
    simp only [exampleBilayer, List.mem_cons, List.not_mem_nil, or_false] at hl
    rcases hl with rfl | rfl | rfl <;> rintro p ⟨⟩ <;> exact ⟨le_refl (0 : ℝ), le_refl (0 : ℝ)⟩
  · intro l hl
    simp only [List.mem_cons, List.not_mem_nil, or_false] at hl
    rcases hl with rfl | rfl <;> rintro p ⟨⟩
    · exact show (0 : ℝ) < 20 by norm_num
    · exact show (0 : ℝ) < 10 by norm_num
  · rintro p ⟨⟩ z ⟨x, rfl, h1, h2⟩ ⟨h3, -⟩
    have : x = 0 := h3
    linarith
  · rintro p p' ⟨⟩ ⟨⟩ z z' ⟨x, rfl, h1, h2⟩ hz' ⟨h3, -⟩
    cases hz'
    have : (20 : ℝ) = x := h3
    linarith

/-- Not vacuous: the total thickness can be learned up to 1 Å from finitely many points at momentum transfers above 0.01/Å. -/
example : ∃ q : List ℝ, (∀ u ∈ q, 0.01 ≤ u) ∧ ∃ N : (Fin q.length → ℝ) → ℝ, Continuous N ∧ ∃ δ > 0, ∀ y, RowWithin exampleBilayer y →
      (∃ v : Fin q.length → ℝ, curveFor exampleBilayer q (pairs y) = .ok (List.ofFn fun j => some (v j))) ∧
      ∀ v w : Fin q.length → ℝ, curveFor exampleBilayer q (pairs y) = .ok (List.ofFn fun j => some (v j)) → (∀ j, |w j - v j| < δ) →
        |N w - (exampleBilayer.layers.map fun (l : LayerV ℝ) => (y (l.name ++ "_thickness".toList)).re).sum| < 1 := by
  obtain ⟨bottom, top, h1, h2, h3, h4⟩ := exampleBilayer_sharp
  exact C137_learnable exampleBilayer bottom top h1 h2 h3 h4 0.01 1 one_pos

end Verif.Props
