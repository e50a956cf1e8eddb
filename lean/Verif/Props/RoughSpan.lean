import Verif.Props.LeastRough
import Verif.Props.Mirror

/-!
# Property C154: the tail of the curve determines the distance between the outermost of the smoothest interfaces
-/

namespace Verif.Props
open Verif.Py Verif.Model Verif.Spec Complex Filter Topology

/-- The curve over the tail of the smallest roughness approaches the squared modulus of the sum over the smoothest interfaces. -/
theorem rough_limit (t r : List ℝ) (s : List ℂ) (h1 : t.length + 1 = r.length) (h2 : r.length = s.length) (hp : ∀ ρ ∈ s, 0 ≤ ρ.im) (σ : ℝ)
    (hs : ∀ p ∈ roughSteps 0 (slabs t r s), p.1 = 0 ∨ |σ| ≤ |p.2|) :
    ∃ R : ℝ → ℝ, (∀ᶠ q in atTop, multilayerReflectivity [q] t r s 0 = .ok [some (R q)]) ∧
      Tendsto (fun q => R q / gaussTail σ q - ‖roughSum σ 0 (slabs t r s) q‖ ^ 2) atTop (𝓝 0) := by
  obtain ⟨wave, hw⟩ := wave_exists
  obtain ⟨h0, hn⟩ := stack_tendsto hw (slabs t r s) (slabs_physical hp) (ρ := 0) (by simp)
  obtain ⟨z, s1, s2⟩ := stack_sum hw σ (slabs t r s) (slabs_physical hp) (ρ := 0) (by simp) hs
  obtain ⟨B, hB⟩ := roughSum_bounded σ (slabs t r s) 0
  have h0' := tendsto_zero_iff_norm_tendsto_zero.1 h0
  refine ⟨fun q => ‖stackMatrix (wave q) (wave q 0) (slabs t r s) 0 1 / stackMatrix (wave q) (wave q 0) (slabs t r s) 1 1‖ ^ 2, ?_, ?_⟩
  · filter_upwards [hn.eventually_const_le (show (1 / 2 : ℝ) < 1 by norm_num), h0'.eventually_le_const (show (0 : ℝ) < 1 / 2 by norm_num)] with q n1 m1
    have npos : 0 < ‖stackMatrix (wave q) (wave q 0) (slabs t r s) 1 1‖ := by linarith
    rw [C35_transfer [q] t r s h1 h2 hp wave hw]
    show Except.ok [intensity _] = _
    unfold intensity
    rw [if_neg (norm_pos_iff.1 npos), min_eq_left (pow_le_one₀ (norm_nonneg _) (by rw [norm_div, div_le_one npos]; linarith))]
  · have i2 := s2.inv₀ one_ne_zero
    have i3 := i2.sub_const 1
    rw [inv_one, sub_self] at i3
    have u1 := s1.mul i2
    rw [zero_mul] at u1
    have u := u1.add (tendsto_bdd_mul i3 hB)
    rw [add_zero] at u
    have key : Tendsto (fun q : ℝ => stackMatrix (wave q) (wave q 0) (slabs t r s) 0 1 * way z q / (gaussAmp σ q : ℂ) *
        (stackMatrix (wave q) (wave q 0) (slabs t r s) 1 1 * way z q)⁻¹ - roughSum σ 0 (slabs t r s) q) atTop (𝓝 0) :=
      u.congr fun q => by ring
    refine (normSq_tendsto hB key).congr' ?_
    filter_upwards [eventually_gt_atTop 0] with q q0
    have g := gaussAmp_pos σ q0
    rw [norm_mul, norm_div, norm_mul, norm_inv, norm_mul, norm_way, mul_one, mul_one, Complex.norm_real, Real.norm_eq_abs, abs_of_pos g, norm_div, ← gaussAmp_sq]
    congr 1
    field_simp

/-- The smoothest interfaces are the ones with a weight. -/
theorem smoothDepths_iff (σ : ℝ) (l : List Slab) (ρ : ℂ) (z x : ℝ) :
    x ∈ smoothDepths σ (roughDepths ρ z l) ↔ ∃ p ∈ roughTerms σ ρ z l, p.1 ≠ 0 ∧ p.2 = x := by
  induction l generalizing ρ z with
  | nil => simp [smoothDepths, roughDepths, roughTerms]
  | cons a l ih =>
    have ih := ih a.sld (z + a.thickness)
    simp only [smoothDepths, Set.mem_ofPred_eq] at ih ⊢
    simp only [roughDepths, roughTerms, List.mem_cons, exists_eq_or_imp, ih]
    refine or_congr_left ?_
    unfold roughWeight
    split_ifs with h
    · constructor
      · rintro ⟨h1, -, h3⟩
        exact ⟨mul_ne_zero (mul_ne_zero (mul_ne_zero (by norm_num) (by exact_mod_cast Real.pi_ne_zero)) h1) (Complex.exp_ne_zero _), h3⟩
      · rintro ⟨h1, h3⟩
        exact ⟨fun e => h1 (by rw [e]; simp), h, h3⟩
    · simp [h]

theorem sum_nonzero {κ : Type} [Fintype κ] (a : κ → ℂ) (f : κ → ℂ) [DecidablePred fun i => a i ≠ 0] :
    ∑ i, a i * f i = ∑ i : {i // a i ≠ 0}, a i * f i := by
  rw [← Fintype.sum_subtype_add_sum_subtype (fun i => a i ≠ 0) (fun i => a i * f i)]
  have : ∑ i : {i // ¬ a i ≠ 0}, a i * f i = 0 := Finset.sum_eq_zero fun i _ => by rw [not_not.1 i.2, zero_mul]
  rw [this, add_zero]

theorem roughSum_terms (σ : ℝ) (l : List Slab) (ρ : ℂ) (q : ℝ) : roughSum σ ρ l q =
    ∑ i : Fin (roughTerms σ ρ 0 l).length, ((roughTerms σ ρ 0 l).get i).1 * cexp (-(I * (q * ((roughTerms σ ρ 0 l).get i).2 : ℝ))) := by
  have := roughTerms_sum σ l ρ 0 q
  rw [← Fin.sum_univ_fun_getElem] at this
  simp only [mul_zero, Complex.ofReal_zero, neg_zero, Complex.exp_zero, one_mul] at this
  rw [← this]
  refine Finset.sum_congr rfl fun i _ => ?_
  show _ = _
  simp only [List.get_eq_getElem]
  congr 2
  push_cast
  ring

theorem rough_span_le {σ σ' : ℝ} {l l' : List Slab} (hd : ∀ x ∈ l.dropLast, 0 < x.thickness) {a b a' b' : ℝ}
    (ha : IsLeast (smoothDepths σ (roughDepths 0 0 l)) a) (hb : IsGreatest (smoothDepths σ (roughDepths 0 0 l)) b)
    (ha' : IsLeast (smoothDepths σ' (roughDepths 0 0 l')) a') (hb' : IsGreatest (smoothDepths σ' (roughDepths 0 0 l')) b')
    (h : Tendsto (fun q : ℝ => ‖roughSum σ 0 l q‖ ^ 2 - ‖roughSum σ' 0 l' q‖ ^ 2) atTop (𝓝 0)) : b - a ≤ b' - a' := by
  classical
  obtain ⟨p, hp, np, rfl⟩ := (smoothDepths_iff σ l 0 0 a).1 ha.1
  obtain ⟨p₁, hp₁, np₁, rfl⟩ := (smoothDepths_iff σ l 0 0 b).1 hb.1
  obtain ⟨i, rfl⟩ := List.mem_iff_get.1 hp
  obtain ⟨j, rfl⟩ := List.mem_iff_get.1 hp₁
  have pw := List.pairwise_iff_getElem.1 (roughTerms_depth σ l hd 0 0).1
  have inj : ∀ i j : Fin (roughTerms σ 0 0 l).length, ((roughTerms σ 0 0 l).get i).2 = ((roughTerms σ 0 0 l).get j).2 → i = j := by
    intro i j e
    by_contra hne
    rcases lt_or_gt_of_ne (fun e => hne (Fin.ext e) : (i : ℕ) ≠ j) with hlt | hlt
    · have := pw i j (by simp) (by simp) hlt
      simp only [List.getElem_map] at this
      exact absurd e this.ne
    · have := pw j i (by simp) (by simp) hlt
      simp only [List.getElem_map] at this
      exact absurd e this.ne'
  simp only [roughSum_terms] at h
  rw [show (fun q : ℝ => _ - _) = _ from funext fun q => by
    rw [sum_nonzero (fun i => ((roughTerms σ 0 0 l).get i).1), sum_nonzero (fun i => ((roughTerms σ' 0 0 l').get i).1)]] at h
  refine span_le (κ := {i // ((roughTerms σ 0 0 l).get i).1 ≠ 0}) (κ' := {i // ((roughTerms σ' 0 0 l').get i).1 ≠ 0})
    (fun i => ((roughTerms σ 0 0 l).get i.1).1) (fun i => ((roughTerms σ 0 0 l).get i.1).2)
    (fun i => ((roughTerms σ' 0 0 l').get i.1).1) (fun i => ((roughTerms σ' 0 0 l').get i.1).2) ⟨i, np⟩ ⟨j, np₁⟩ (b' - a') ?_ ?_ ?_ np np₁ h
  · intro k hk
    refine lt_of_le_of_ne (ha.2 ((smoothDepths_iff σ l 0 0 _).2 ⟨_, List.get_mem _ k.1, k.2, rfl⟩)) fun e => hk (Subtype.ext (inj _ _ e).symm)
  · intro k hk
    refine lt_of_le_of_ne (hb.2 ((smoothDepths_iff σ l 0 0 _).2 ⟨_, List.get_mem _ k.1, k.2, rfl⟩)) fun e => hk (Subtype.ext (inj _ _ e))
  · intro j k
    have h1 := hb'.2 ((smoothDepths_iff σ' l' 0 0 _).2 ⟨_, List.get_mem _ j.1, j.2, rfl⟩)
    have h2 := ha'.2 ((smoothDepths_iff σ' l' 0 0 _).2 ⟨_, List.get_mem _ k.1, k.2, rfl⟩)
    exact sub_le_sub h1 h2

/-- Stacks of layers of positive thickness with the same curve beyond some momentum transfer have the same smallest roughness, and the sums over their smoothest
interfaces have the same modulus in the limit. -/
theorem rough_agree (t r t' r' : List ℝ) (s s' : List ℂ) (h1 : t.length + 1 = r.length) (h2 : r.length = s.length) (hp : ∀ ρ ∈ s, 0 ≤ ρ.im)
    (ht : ∀ d ∈ t, 0 < d) (h1' : t'.length + 1 = r'.length) (h2' : r'.length = s'.length) (hp' : ∀ ρ ∈ s', 0 ≤ ρ.im) (ht' : ∀ d ∈ t', 0 < d) (σ σ' : ℝ)
    (hs : LeastRough σ (roughSteps 0 (slabs t r s))) (hs' : LeastRough σ' (roughSteps 0 (slabs t' r' s'))) (U : ℝ)
    (h : ∀ q ≥ U, multilayerReflectivity [q] t r s 0 = multilayerReflectivity [q] t' r' s' 0) :
    |σ| = |σ'| ∧ Tendsto (fun q : ℝ => ‖roughSum σ 0 (slabs t r s) q‖ ^ 2 - ‖roughSum σ' 0 (slabs t' r' s') q‖ ^ 2) atTop (𝓝 0) := by
  have eσ := C153_determined t r t' r' s s' h1 h2 hp ht h1' h2' hp' ht' σ σ' hs hs' U h
  have eg : ∀ q, gaussTail σ q = gaussTail σ' q := by
    intro q
    unfold gaussTail
    rw [mul_pow, mul_pow, (sq_eq_sq_iff_abs_eq_abs _ _).2 eσ]
  obtain ⟨R, hR, lim⟩ := rough_limit t r s h1 h2 hp σ hs.2
  obtain ⟨R', hR', lim'⟩ := rough_limit t' r' s' h1' h2' hp' σ' hs'.2
  have same : ∀ᶠ q in atTop, R q = R' q := by
    filter_upwards [hR, hR', eventually_ge_atTop U] with q e e' hq
    have := h q hq
    rw [e, e'] at this
    simpa using this
  refine ⟨eσ, ?_⟩
  have := lim'.sub lim
  rw [sub_self] at this
  refine this.congr' ?_
  filter_upwards [same] with q e
  rw [e, eg q]
  ring

/-- **C154**: stacks of layers of positive thickness with the same curve beyond some momentum transfer have the same distance between the uppermost and the
lowest of their smoothest interfaces. -/
theorem C154_span (t r t' r' : List ℝ) (s s' : List ℂ) (h1 : t.length + 1 = r.length) (h2 : r.length = s.length) (hp : ∀ ρ ∈ s, 0 ≤ ρ.im)
    (ht : ∀ d ∈ t, 0 < d) (h1' : t'.length + 1 = r'.length) (h2' : r'.length = s'.length) (hp' : ∀ ρ ∈ s', 0 ≤ ρ.im) (ht' : ∀ d ∈ t', 0 < d) (σ σ' : ℝ)
    (hs : LeastRough σ (roughSteps 0 (slabs t r s))) (hs' : LeastRough σ' (roughSteps 0 (slabs t' r' s'))) (a b a' b' : ℝ)
    (ha : IsLeast (smoothDepths σ (roughDepths 0 0 (slabs t r s))) a) (hb : IsGreatest (smoothDepths σ (roughDepths 0 0 (slabs t r s))) b)
    (ha' : IsLeast (smoothDepths σ' (roughDepths 0 0 (slabs t' r' s'))) a') (hb' : IsGreatest (smoothDepths σ' (roughDepths 0 0 (slabs t' r' s'))) b') (U : ℝ)
    (h : ∀ q ≥ U, multilayerReflectivity [q] t r s 0 = multilayerReflectivity [q] t' r' s' 0) : b - a = b' - a' := by
  obtain ⟨-, l1⟩ := rough_agree t r t' r' s s' h1 h2 hp ht h1' h2' hp' ht' σ σ' hs hs' U h
  have l2 : Tendsto (fun q : ℝ => ‖roughSum σ' 0 (slabs t' r' s') q‖ ^ 2 - ‖roughSum σ 0 (slabs t r s) q‖ ^ 2) atTop (𝓝 0) := by
    have := l1.neg
    rw [neg_zero] at this
    exact this.congr fun q => by ring
  exact le_antisymm (rough_span_le (slabs_positive h1 h2 ht) ha hb ha' hb' l1) (rough_span_le (slabs_positive h1' h2' ht') ha' hb' ha hb l2)

/-! ### Samples -/

/-- **C154** (samples): labels of layers of positive thickness with the same simulated curve beyond some momentum transfer have the same distance between the
uppermost and the lowest of their smoothest interfaces. -/
theorem C154_sample {s s' : SampleV ℝ} (hs : SampleRegular s) (hv : BelowVacuum s) (hs' : SampleRegular s') (hv' : BelowVacuum s') {y y' : Str → Num ℝ}
    (hy : RowWithin s y) (hy' : RowWithin s' y') (ht : ∀ l ∈ s.layers, 0 < (y (l.name ++ "_thickness".toList)).re)
    (ht' : ∀ l ∈ s'.layers, 0 < (y' (l.name ++ "_thickness".toList)).re) (σ σ' : ℝ) (h : LeastRough σ (roughSteps 0 (labelStack s y)))
    (h' : LeastRough σ' (roughSteps 0 (labelStack s' y'))) (a b a' b' : ℝ)
    (ha : IsLeast (smoothDepths σ (roughDepths 0 0 (labelStack s y))) a) (hb : IsGreatest (smoothDepths σ (roughDepths 0 0 (labelStack s y))) b)
    (ha' : IsLeast (smoothDepths σ' (roughDepths 0 0 (labelStack s' y'))) a') (hb' : IsGreatest (smoothDepths σ' (roughDepths 0 0 (labelStack s' y'))) b') (U : ℝ)
    (e : ∀ u ≥ U, curveFor s [u] (pairs y) = curveFor s' [u] (pairs y')) : b - a = b' - a' := by
  obtain ⟨nm, hamb⟩ := hv.ambient
  obtain ⟨nm', hamb'⟩ := hv'.ambient
  obtain ⟨-, im⟩ := within_physical hs hamb hv.absorption hy
  obtain ⟨-, im'⟩ := within_physical hs' hamb' hv'.absorption hy'
  refine C154_span (s.layers.map fun (l : LayerV ℝ) => (y (l.name ++ "_thickness".toList)).re * 1e-10)
    ((s.substrate :: s.layers).map fun (l : LayerV ℝ) => (y (l.name ++ "_roughness".toList)).re * (1e-10 : ℝ))
    (s'.layers.map fun (l : LayerV ℝ) => (y' (l.name ++ "_thickness".toList)).re * 1e-10)
    ((s'.substrate :: s'.layers).map fun (l : LayerV ℝ) => (y' (l.name ++ "_roughness".toList)).re * (1e-10 : ℝ))
    ((s.substrate :: s.layers).map fun (l : LayerV ℝ) => siDensity (y (l.name ++ "_sld".toList)))
    ((s'.substrate :: s'.layers).map fun (l : LayerV ℝ) => siDensity (y' (l.name ++ "_sld".toList))) (by simp) (by simp) ?_ ?_ (by simp) (by simp) ?_ ?_ σ σ'
    (by rw [slabs_map]; exact h) (by rw [slabs_map]; exact h') a b a' b' (by rw [slabs_map]; exact ha) (by rw [slabs_map]; exact hb)
    (by rw [slabs_map]; exact ha') (by rw [slabs_map]; exact hb') (U * 1e10) fun q hq => ?_
  · intro ρ hρ
    obtain ⟨l, hm, rfl⟩ := List.mem_map.1 hρ
    exact siDensity_im (im l hm)
  · intro d hd
    obtain ⟨l, hm, rfl⟩ := List.mem_map.1 hd
    exact mul_pos (ht l hm) (by norm_num)
  · intro ρ hρ
    obtain ⟨l, hm, rfl⟩ := List.mem_map.1 hρ
    exact siDensity_im (im' l hm)
  · intro d hd
    obtain ⟨l, hm, rfl⟩ := List.mem_map.1 hd
    exact mul_pos (ht' l hm) (by norm_num)
  · have := e (q * 1e-10) (by linarith)
    rw [curveFor_points hamb [q * 1e-10] hy, curveFor_points hamb' [q * 1e-10] hy'] at this
    rw [multilayer_eq _ _ _ _ (by simp) (by simp), multilayer_eq _ _ _ _ (by simp) (by simp)]
    simp only [List.map_cons, List.map_nil, show q * 1e-10 * 1e10 = q by ring] at this ⊢
    exact this

/-- The smoothest interfaces of a film with the same roughness at both interfaces. -/
theorem film_depths (σ τ d : ℝ) (ρ ρ' : ℂ) (x : ℝ) (e : |τ| = |σ|) (hd : 0 < d) (h0 : ρ ≠ 0) (h1 : ρ' ≠ ρ) :
    LeastRough σ (roughSteps 0 [⟨σ, ρ, d⟩, ⟨τ, ρ', x⟩]) ∧ IsLeast (smoothDepths σ (roughDepths 0 0 [⟨σ, ρ, d⟩, ⟨τ, ρ', x⟩])) 0 ∧
    IsGreatest (smoothDepths σ (roughDepths 0 0 [⟨σ, ρ, d⟩, ⟨τ, ρ', x⟩])) d := by
  have h0' : ρ - 0 ≠ 0 := by rwa [sub_zero]
  have h1' : ρ' - ρ ≠ 0 := sub_ne_zero.2 h1
  refine ⟨⟨⟨(ρ - 0, σ), by simp [roughSteps], h0', rfl⟩, fun p hp => ?_⟩, ⟨⟨(ρ - 0, σ, 0), by simp [roughDepths], h0', rfl, rfl⟩, ?_⟩,
    ⟨⟨(ρ' - ρ, τ, 0 + d), by simp [roughDepths], h1', e, by simp⟩, ?_⟩⟩
  · simp only [roughSteps, List.mem_cons, List.not_mem_nil, or_false] at hp
    rcases hp with rfl | rfl
    · exact .inr le_rfl
    · exact .inr e.ge
  · rintro z ⟨p, hp, -, -, rfl⟩
    simp only [roughDepths, List.mem_cons, List.not_mem_nil, or_false] at hp
    rcases hp with rfl | rfl
    · exact le_rfl
    · show 0 ≤ 0 + d
      linarith
  · rintro z ⟨p, hp, -, -, rfl⟩
    simp only [roughDepths, List.mem_cons, List.not_mem_nil, or_false] at hp
    rcases hp with rfl | rfl
    · exact hd.le
    · show 0 + d ≤ d
      linarith

/-- **C154** (films): films with the same roughness at both interfaces and contrast at both; if the simulated curves agree beyond some momentum transfer, the
films have the same thickness, whatever their densities and roughnesses are. -/
theorem C154_film {s s' : SampleV ℝ} (hs : SampleRegular s) (hv : BelowVacuum s) (hs' : SampleRegular s') (hv' : BelowVacuum s') {f f' : LayerV ℝ}
    (hf : s.layers = [f]) (hf' : s'.layers = [f']) {y y' : Str → Num ℝ} (hy : RowWithin s y) (hy' : RowWithin s' y')
    (ht : 0 < (y (f.name ++ "_thickness".toList)).re) (ht' : 0 < (y' (f'.name ++ "_thickness".toList)).re)
    (hr : (y (s.substrate.name ++ "_roughness".toList)).re = (y (f.name ++ "_roughness".toList)).re)
    (hr' : (y' (s'.substrate.name ++ "_roughness".toList)).re = (y' (f'.name ++ "_roughness".toList)).re)
    (c0 : siDensity (y (f.name ++ "_sld".toList)) ≠ 0) (c1 : siDensity (y (s.substrate.name ++ "_sld".toList)) ≠ siDensity (y (f.name ++ "_sld".toList)))
    (c0' : siDensity (y' (f'.name ++ "_sld".toList)) ≠ 0) (c1' : siDensity (y' (s'.substrate.name ++ "_sld".toList)) ≠ siDensity (y' (f'.name ++ "_sld".toList)))
    (U : ℝ) (e : ∀ u ≥ U, curveFor s [u] (pairs y) = curveFor s' [u] (pairs y')) :
    (y (f.name ++ "_thickness".toList)).re = (y' (f'.name ++ "_thickness".toList)).re := by
  have el : labelStack s y = [⟨(y (f.name ++ "_roughness".toList)).re * 1e-10, siDensity (y (f.name ++ "_sld".toList)), (y (f.name ++ "_thickness".toList)).re * 1e-10⟩,
      ⟨(y (s.substrate.name ++ "_roughness".toList)).re * 1e-10, siDensity (y (s.substrate.name ++ "_sld".toList)), 0⟩] := by
    unfold labelStack
    rw [hf]
    rfl
  have el' : labelStack s' y' = [⟨(y' (f'.name ++ "_roughness".toList)).re * 1e-10, siDensity (y' (f'.name ++ "_sld".toList)),
      (y' (f'.name ++ "_thickness".toList)).re * 1e-10⟩,
      ⟨(y' (s'.substrate.name ++ "_roughness".toList)).re * 1e-10, siDensity (y' (s'.substrate.name ++ "_sld".toList)), 0⟩] := by
    unfold labelStack
    rw [hf']
    rfl
  obtain ⟨l, a, b⟩ := film_depths ((y (f.name ++ "_roughness".toList)).re * 1e-10) ((y (s.substrate.name ++ "_roughness".toList)).re * 1e-10)
    ((y (f.name ++ "_thickness".toList)).re * 1e-10) _ _ 0 (by rw [hr]) (mul_pos ht (by norm_num)) c0 c1
  obtain ⟨l', a', b'⟩ := film_depths ((y' (f'.name ++ "_roughness".toList)).re * 1e-10) ((y' (s'.substrate.name ++ "_roughness".toList)).re * 1e-10)
    ((y' (f'.name ++ "_thickness".toList)).re * 1e-10) _ _ 0 (by rw [hr']) (mul_pos ht' (by norm_num)) c0' c1'
  rw [← el] at l a b
  rw [← el'] at l' a' b'
  have := C154_sample hs hv hs' hv' hy hy' (by rw [hf]; simpa using ht) (by rw [hf']; simpa using ht') _ _ l l' _ _ _ _ a b a' b' U e
  linarith

/-- Not vacuous: a film with the roughness 2 at both interfaces. -/
example (d : ℝ) (hd : 0 < d) (U : ℝ) (h : ∀ q ≥ U, multilayerReflectivity [q] [d] [2, 2] [2, 1] 0 = multilayerReflectivity [q] [50] [2, 2] [2, 1] 0) : d = 50 := by
  have e : ∀ d : ℝ, slabs [d] [2, 2] [2, 1] = [⟨2, 1, d⟩, ⟨2, 2, 0⟩] := fun d => by simp [slabs]
  obtain ⟨l, a, b⟩ := film_depths 2 2 d 1 2 0 rfl hd (by norm_num) (by norm_num)
  obtain ⟨l', a', b'⟩ := film_depths 2 2 50 1 2 0 rfl (by norm_num) (by norm_num) (by norm_num)
  have := C154_span [d] [2, 2] [50] [2, 2] [2, 1] [2, 1] rfl rfl (by simp) (by simpa using hd) rfl rfl (by simp) (by simp) 2 2 (by rw [e]; exact l)
    (by rw [e]; exact l') 0 d 0 50 (by rw [e]; exact a) (by rw [e]; exact b) (by rw [e]; exact a') (by rw [e]; exact b') U h
  linarith

/-- Not vacuous: labels of a film on a substrate. -/
example (y : Str → Num ℝ) (hy : RowWithin exampleThinFilm y) (U : ℝ)
    (e : ∀ u ≥ U, curveFor exampleThinFilm [u] (pairs y) = curveFor exampleThinFilm [u] (pairs (thinLabels 8))) :
    (y ("film".toList ++ "_thickness".toList)).re = 100 := by
  obtain ⟨hs, -, hsh⟩ := exampleThinFilm_ok
  have hv : BelowVacuum exampleThinFilm := ⟨hsh.ambient, hsh.absorption⟩
  obtain ⟨e1, e2, e3, -, e5, e6⟩ := thinLabels_values 8
  have contrast : ∀ x : ℝ, 5 ≤ x → x ≤ 15 → siDensity (.real x) ≠ 0 ∧ siDensity (.real 20) ≠ siDensity (.real x) := by
    intro x h1 h2
    unfold siDensity
    constructor <;> intro h <;> have := congrArg Complex.re h <;> norm_num [Num.re, Num.im, Complex.mul_re] at this <;> linarith
  have film : exampleThinFilm.layers = [exampleThinFilm.layers.head (by simp [exampleThinFilm])] := rfl
  obtain ⟨x, hx, x1, x2⟩ : ∃ x : ℝ, y ("film".toList ++ "_sld".toList) = .real x ∧ 5 ≤ x ∧ x ≤ 15 :=
    hy.sld (exampleThinFilm.layers.head (by simp [exampleThinFilm])) (by simp [exampleThinFilm]) _ rfl
  obtain ⟨d, hd, d1, -⟩ : ∃ d : ℝ, y ("film".toList ++ "_thickness".toList) = .real d ∧ 20 ≤ d ∧ d ≤ 1000 :=
    hy.thickness (exampleThinFilm.layers.head (by simp [exampleThinFilm])) (by simp [exampleThinFilm]) _ rfl
  have s1 : y ("Si".toList ++ "_sld".toList) = .real 20 := hy.sld exampleThinFilm.substrate (by simp) _ rfl
  have r1 : y ("Si".toList ++ "_roughness".toList) = .real 0 := hy.roughness exampleThinFilm.substrate (by simp) _ rfl
  have r2 : y ("film".toList ++ "_roughness".toList) = .real 0 :=
    hy.roughness (exampleThinFilm.layers.head (by simp [exampleThinFilm])) (by simp [exampleThinFilm]) _ rfl
  have := C154_film hs hv hs hv film film hy (thinLabels_within (x := 8) (by norm_num) (by norm_num))
    (by show 0 < (y ("film".toList ++ "_thickness".toList)).re; rw [hd]; exact lt_of_lt_of_le (by norm_num) d1)
    (by show 0 < (thinLabels 8 ("film".toList ++ "_thickness".toList)).re; rw [e1]; norm_num [Num.re])
    (by show (y ("Si".toList ++ "_roughness".toList)).re = (y ("film".toList ++ "_roughness".toList)).re; rw [r1, r2])
    (by show (thinLabels 8 ("Si".toList ++ "_roughness".toList)).re = (thinLabels 8 ("film".toList ++ "_roughness".toList)).re; rw [e5, e6])
    (by show siDensity (y ("film".toList ++ "_sld".toList)) ≠ 0; rw [hx]; exact (contrast x x1 x2).1)
    (by show siDensity (y ("Si".toList ++ "_sld".toList)) ≠ siDensity (y ("film".toList ++ "_sld".toList)); rw [hx, s1]; exact (contrast x x1 x2).2)
    (by show siDensity (thinLabels 8 ("film".toList ++ "_sld".toList)) ≠ 0; rw [e2]; exact (contrast 8 (by norm_num) (by norm_num)).1)
    (by show siDensity (thinLabels 8 ("Si".toList ++ "_sld".toList)) ≠ siDensity (thinLabels 8 ("film".toList ++ "_sld".toList)); rw [e2, e3]
        exact (contrast 8 (by norm_num) (by norm_num)).2) U e
  have h : (y ("film".toList ++ "_thickness".toList)).re = (thinLabels 8 ("film".toList ++ "_thickness".toList)).re := this
  rw [h, e1]
  rfl

end Verif.Props
