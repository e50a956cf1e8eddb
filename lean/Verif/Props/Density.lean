import Verif.Props.Kinematic

/-!
# Property C138: the tail of the curve determines the sum of the squared density steps

The squared modulus of a sum of oscillations has a constant part: the sum of the squared amplitudes, if no two interfaces lie at the same depth.
The constant part of `q⁴ R(q)` is therefore fixed by the curve, and with it the density of a film on a known substrate.
-/

namespace Verif.Props
open Verif.Py Verif.Model Verif.Spec Verif.Lemmas Complex Filter Topology

/-- If the squared moduli of two sums of oscillations with different frequencies agree in the limit, the sums of the squared amplitudes agree. -/
theorem power_eq {κ κ' : Type} [Fintype κ] [Fintype κ'] (a : κ → ℂ) (z : κ → ℝ) (a' : κ' → ℂ) (z' : κ' → ℝ)
    (hz : Function.Injective z) (hz' : Function.Injective z')
    (h : Tendsto (fun q : ℝ => ‖∑ j, a j * cexp (-(I * (q * z j : ℝ)))‖ ^ 2 - ‖∑ j, a' j * cexp (-(I * (q * z' j : ℝ)))‖ ^ 2) atTop (𝓝 0)) :
    ∑ j, ‖a j‖ ^ 2 = ∑ j, ‖a' j‖ ^ 2 := by
  classical
  have hc := (Complex.continuous_ofReal.tendsto 0).comp h
  rw [Complex.ofReal_zero] at hc
  have := exp_family_fiber (ι := (κ × κ) ⊕ (κ' × κ'))
    (Sum.elim (fun p => a p.1 * starRingEnd ℂ (a p.2)) (fun p => -(a' p.1 * starRingEnd ℂ (a' p.2))))
    (Sum.elim (fun p => z p.2 - z p.1) (fun p => z' p.2 - z' p.1)) (hc.congr fun q => ?_) 0
  · rw [Finset.sum_filter, Fintype.sum_sum_type] at this
    simp only [Sum.elim_inl, Sum.elim_inr, sub_eq_zero] at this
    rw [Fintype.sum_prod_type, Fintype.sum_prod_type] at this
    have d : ∀ {κ : Type} [Fintype κ] [DecidableEq κ] (a : κ → ℂ) (z : κ → ℝ), Function.Injective z → ∀ c : κ → κ → ℂ,
        ∑ x, ∑ y, (if z y = z x then c x y else 0) = ∑ x, c x x := by
      intro κ _ _ a z hz c
      refine Finset.sum_congr rfl fun x _ => ?_
      rw [Finset.sum_eq_single x]
      · rw [if_pos rfl]
      · intro y _ hy
        exact if_neg fun e => hy (hz e)
      · intro hx
        exact absurd (Finset.mem_univ x) hx
    rw [d a z hz (fun x y => a x * starRingEnd ℂ (a y)), d a' z' hz' (fun x y => -(a' x * starRingEnd ℂ (a' y)))] at this
    simp only [Complex.mul_conj, Complex.normSq_eq_norm_sq, Finset.sum_neg_distrib] at this
    have h2 : ((∑ j, ‖a j‖ ^ 2 : ℝ) : ℂ) = ((∑ j, ‖a' j‖ ^ 2 : ℝ) : ℂ) := by
      push_cast
      push_cast at this
      linear_combination this
    exact_mod_cast h2
  · simp only [Function.comp_apply]
    rw [Complex.ofReal_sub, normSq_sum, normSq_sum, Fintype.sum_sum_type, sub_eq_add_neg, ← Finset.sum_neg_distrib]
    simp only [Sum.elim_inl, Sum.elim_inr, neg_mul]

/-- The depths of the interfaces increase. -/
theorem steps_pairwise (m : List Slab) (x : Slab) (h : ∀ y ∈ m, 0 < y.thickness) (ρ : ℂ) (z : ℝ) :
    (interfaceSteps ρ z (m ++ [x])).Pairwise (fun p p' => p.2 < p'.2) ∧ ∀ p ∈ interfaceSteps ρ z (m ++ [x]), z ≤ p.2 := by
  induction m generalizing ρ z with
  | nil => simp [interfaceSteps]
  | cons a m ih =>
    obtain ⟨h1, h2⟩ := ih (fun y hy => h y (by simp [hy])) a.sld (z + a.thickness)
    have ha := h a (by simp)
    rw [List.cons_append, interfaceSteps]
    refine ⟨List.pairwise_cons.2 ⟨fun p hp => ?_, h1⟩, fun p hp => ?_⟩
    · have := h2 p hp
      simp only
      linarith
    · rcases List.mem_cons.1 hp with rfl | hp
      · exact le_rfl
      · linarith [h2 p hp]

theorem steps_power (l : List Slab) (ρ : ℂ) (z : ℝ) :
    ((interfaceSteps ρ z l).map fun (p : ℂ × ℝ) => ‖p.1‖ ^ 2).sum = stepPower ρ (l.map Slab.sld) := by
  induction l generalizing ρ z with
  | nil => rfl
  | cons a l ih => rw [interfaceSteps, List.map_cons, List.sum_cons, ih, List.map_cons, stepPower]

theorem stepPower_scale (c : ℂ) (l : List ℂ) (ρ : ℂ) : stepPower (ρ * c) (l.map fun x => x * c) = stepPower ρ l * ‖c‖ ^ 2 := by
  induction l generalizing ρ with
  | nil => simp [stepPower]
  | cons a l ih =>
    rw [List.map_cons, stepPower, stepPower, ih, ← sub_mul, norm_mul, mul_pow]
    ring

/-- If the tails of the curves of two stacks of layers that are not empty agree, the sums of the squared density steps agree. -/
theorem stack_power {m m' : List Slab} {x x' : Slab} (ht : ∀ y ∈ m, 0 < y.thickness) (ht' : ∀ y ∈ m', 0 < y.thickness)
    (h : Tendsto (fun q : ℝ => ‖stepTransform (m ++ [x]) q‖ ^ 2 - ‖stepTransform (m' ++ [x']) q‖ ^ 2) atTop (𝓝 0)) :
    stepPower 0 ((m ++ [x]).map Slab.sld) = stepPower 0 ((m' ++ [x']).map Slab.sld) := by
  have inj : ∀ (m : List Slab) (x : Slab), (∀ y ∈ m, 0 < y.thickness) →
      Function.Injective fun i : Fin (interfaceSteps 0 0 (m ++ [x])).length => ((interfaceSteps 0 0 (m ++ [x])).get i).2 := by
    intro m x ht i j e
    have hp := List.pairwise_iff_get.1 (steps_pairwise m x ht 0 0).1
    simp only at e
    rcases lt_trichotomy i j with hlt | heq | hlt
    · exact absurd e (hp i j hlt).ne
    · exact heq
    · exact absurd e (hp j i hlt).ne'
  simp only [stepTransform_sum] at h
  have := power_eq _ _ _ _ (inj m x ht) (inj m' x' ht') h
  simp only [norm_mul, mul_pow, ← Finset.mul_sum] at this
  have pi0 : (‖(4 : ℂ)‖ ^ 2 * ‖(Real.pi : ℂ)‖ ^ 2) ≠ 0 := by
    have : (Real.pi : ℂ) ≠ 0 := by exact_mod_cast Real.pi_ne_zero
    have := norm_pos_iff.2 this
    have h4 : (0 : ℝ) < ‖(4 : ℂ)‖ := norm_pos_iff.2 (by norm_num)
    positivity
  have := mul_left_cancel₀ pi0 this
  rw [← steps_power _ _ 0, ← steps_power _ _ 0, ← Fin.sum_univ_fun_getElem, ← Fin.sum_univ_fun_getElem]
  exact this

theorem slabs_density (layers : List (LayerV ℝ)) (sub : LayerV ℝ) (ρ : LayerV ℝ → Num ℝ) (d : LayerV ℝ → ℝ) :
    ((layers.map fun l => (⟨0, siDensity (ρ l), d l⟩ : Slab)).reverse ++ [(⟨0, siDensity (ρ sub), 0⟩ : Slab)]).map Slab.sld =
      ((sub :: layers).reverse.map fun l => (⟨(ρ l).re, (ρ l).im⟩ : ℂ)).map fun x => x * 1e14 := by
  simp only [List.map_append, List.map_reverse, List.map_map, List.reverse_cons, List.map_cons, List.map_nil, siDensity]
  rfl

/-- **C138** (the curve determines the sum of the squared density steps): let the interfaces of a sample below vacuum be sharp, let no layer be empty and
nothing have gain. Two admissible sets of labels with the same curve at all momentum transfers above some limit have the same sum of the squared density
steps over all interfaces, whatever the thicknesses. -/
theorem C138_steps (s : SampleV ℝ) (hs : SampleRegular s) (hl : ∀ l ∈ s.structure_, LayerDrawable l) (h : SharpSample s)
    (ht : ∀ l ∈ s.layers, ∀ p, l.thickness = some p → 0 < p.min.re) (U : ℝ) (y y' : Str → Num ℝ) (hy : RowWithin s y) (hy' : RowWithin s y')
    (e : ∀ u ≥ U, curveFor s [u] (pairs y) = curveFor s [u] (pairs y')) :
    stepPower 0 ((s.substrate :: s.layers).reverse.map fun l => (⟨(y (l.name ++ "_sld".toList)).re, (y (l.name ++ "_sld".toList)).im⟩ : ℂ)) =
      stepPower 0 ((s.substrate :: s.layers).reverse.map fun l => (⟨(y' (l.name ++ "_sld".toList)).re, (y' (l.name ++ "_sld".toList)).im⟩ : ℂ)) := by
  obtain ⟨R, hR, tR, p1⟩ := stack_points hs hl h hy
  obtain ⟨R', hR', tR', p1'⟩ := stack_points hs hl h hy'
  have d := tR'.sub tR
  rw [sub_zero] at d
  have := stack_power (m := (s.layers.map fun l => (⟨0, siDensity (y (l.name ++ "_sld".toList)), (y (l.name ++ "_thickness".toList)).re * 1e-10⟩ : Slab)).reverse)
    (m' := (s.layers.map fun l => (⟨0, siDensity (y' (l.name ++ "_sld".toList)), (y' (l.name ++ "_thickness".toList)).re * 1e-10⟩ : Slab)).reverse)
    (x := ⟨0, siDensity (y (s.substrate.name ++ "_sld".toList)), 0⟩) (x' := ⟨0, siDensity (y' (s.substrate.name ++ "_sld".toList)), 0⟩) ?_ ?_ (d.congr' ?_)
  · rw [slabs_density _ _ (fun l => y (l.name ++ "_sld".toList)), slabs_density _ _ (fun l => y' (l.name ++ "_sld".toList))] at this
    have scale := fun l : List ℂ => stepPower_scale (1e14 : ℂ) l 0
    simp only [zero_mul] at scale
    rw [scale, scale] at this
    refine mul_right_cancel₀ (pow_ne_zero 2 (norm_ne_zero_iff.2 ?_)) this
    norm_num
  · intro w hw
    obtain ⟨l, hm, rfl⟩ := List.mem_map.1 (List.mem_reverse.1 hw)
    obtain ⟨p, hp, -, h2⟩ := p1 l hm
    have := (ht l hm p hp).trans_le h2
    simp only
    positivity
  · intro w hw
    obtain ⟨l, hm, rfl⟩ := List.mem_map.1 (List.mem_reverse.1 hw)
    obtain ⟨p, hp, -, h2⟩ := p1' l hm
    have := (ht l hm p hp).trans_le h2
    simp only
    positivity
  · filter_upwards [eventually_ge_atTop (U * 1e10)] with q hq
    have hu : U ≤ q * 1e-10 := by nlinarith
    have e0 := e _ hu
    rw [hR, hR', show q * 1e-10 * 1e10 = q by ring] at e0
    rw [Option.some.inj (List.cons.inj (Except.ok.inj e0)).1]
    ring

/-- A film of real density on a substrate of known real density: the densities of the film lie on one side of half the density of the substrate. -/
structure KnownSubstrate (s : SampleV ℝ) (l : LayerV ℝ) (lo hi ρ : ℝ) : Prop where
  layers : s.layers = [l]
  film : ∃ nm, l.sld = some (.range (.real lo) (.real hi) nm)
  substrate : ∃ nm, s.substrate.sld = some (.const (.real ρ) nm)
  side : ρ / 2 ≤ lo ∨ hi ≤ ρ / 2

/-- **C138** (the curve determines the density of a film): let a film of real density on a substrate of known density have sharp interfaces, let it not be
empty, and let its densities lie on one side of half the density of the substrate. Two admissible sets of labels with the same curve at all momentum
transfers above some limit have the same density of the film. -/
theorem C138_film (s : SampleV ℝ) (l : LayerV ℝ) (lo hi ρ : ℝ) (hs : SampleRegular s) (hl : ∀ l ∈ s.structure_, LayerDrawable l) (h : SharpSample s)
    (hk : KnownSubstrate s l lo hi ρ) (ht : ∀ p, l.thickness = some p → 0 < p.min.re) (U : ℝ) (y y' : Str → Num ℝ) (hy : RowWithin s y)
    (hy' : RowWithin s y') (e : ∀ u ≥ U, curveFor s [u] (pairs y) = curveFor s [u] (pairs y')) :
    y (l.name ++ "_sld".toList) = y' (l.name ++ "_sld".toList) := by
  have key := C138_steps s hs hl h (by rw [hk.layers]; simpa using ht) U y y' hy hy' e
  obtain ⟨n1, f1⟩ := hk.film
  obtain ⟨n2, f2⟩ := hk.substrate
  obtain ⟨x, hx, a1, a2⟩ := hy.sld l (by simp [hk.layers]) _ f1
  obtain ⟨x', hx', b1, b2⟩ := hy'.sld l (by simp [hk.layers]) _ f1
  have s1 : y (s.substrate.name ++ "_sld".toList) = .real ρ := hy.sld s.substrate (by simp) _ f2
  have s2 : y' (s.substrate.name ++ "_sld".toList) = .real ρ := hy'.sld s.substrate (by simp) _ f2
  rw [hk.layers] at key
  simp only [List.reverse_cons, List.reverse_nil, List.nil_append, List.cons_append, List.map_cons, List.map_nil, stepPower, hx, hx', s1, s2] at key
  have c : ∀ t : ℝ, (⟨(Num.real t).re, (Num.real t).im⟩ : ℂ) = (t : ℂ) := fun t => rfl
  have n : ∀ t : ℝ, ‖(t : ℂ)‖ ^ 2 = t ^ 2 := fun t => by rw [Complex.norm_real, Real.norm_eq_abs, sq_abs]
  simp only [c, sub_zero, n, add_zero, ← Complex.ofReal_sub] at key
  rw [hx, hx']
  congr 1
  have f : (x - x') * (x + x' - ρ) = 0 := by linarith
  rcases mul_eq_zero.1 f with f | f
  · linarith
  · rcases hk.side with g | g <;> linarith

/-- **C138** (the density of a film can be learned): for such a sample, every tolerance and every lower limit for the momentum transfers there are finitely
many momentum transfers above the limit, a continuous function of the curve at these momentum transfers and a size of measurement errors, such that the
function gives the density of the film of every admissible sample up to the tolerance from every measured curve with such errors. -/
theorem C138_learnable (s : SampleV ℝ) (l : LayerV ℝ) (lo hi ρ : ℝ) (hs : SampleRegular s) (hn : (partNames s).Nodup) (hl : ∀ l ∈ s.structure_, LayerDrawable l)
    (h : SharpSample s) (hk : KnownSubstrate s l lo hi ρ) (ht : ∀ p, l.thickness = some p → 0 < p.min.re) (U ε : ℝ) (hε : 0 < ε) :
    ∃ q : List ℝ, (∀ u ∈ q, U ≤ u) ∧ ∃ N : (Fin q.length → ℝ) → ℝ, Continuous N ∧ ∃ δ > 0, ∀ y, RowWithin s y →
      (∃ v : Fin q.length → ℝ, curveFor s q (pairs y) = .ok (List.ofFn fun j => some (v j))) ∧
      ∀ v w : Fin q.length → ℝ, curveFor s q (pairs y) = .ok (List.ofFn fun j => some (v j)) → (∀ j, |w j - v j| < δ) →
        |N w - (y (l.name ++ "_sld".toList)).re| < ε := by
  obtain ⟨nm, hamb⟩ := h.ambient
  refine C136_finite s hs hn hl nm hamb h.absorption (fun u y hy => ?_) (Set.Ici U) _ (mem_labels.2.2 l ?_)
    (fun y y' hy hy' e => by rw [C138_film s l lo hi ρ hs hl h hk ht U y y' hy hy' e]) ε hε
  · obtain ⟨R, hR, -⟩ := stack_points hs hl h hy
    exact ⟨_, hR u⟩
  · simp [hk.layers]

/-- A film of unknown thickness and density on silicon. -/
noncomputable def exampleDenseFilm : SampleV ℝ where
  substrate := ⟨.substrate, "Si".toList, none, some (.const (.real 0) (some "roughness".toList)), some (.const (.real 20) (some "sld".toList))⟩
  ambient := ⟨.ambient, "air".toList, none, none, some (.const (.real 0) (some "sld".toList))⟩
  layers := [⟨.layer, "film".toList, some (.range (.real 20) (.real 1000) (some "thickness".toList)), some (.const (.real 0) (some "roughness".toList)),
    some (.range (.real 10) (.real 30) (some "sld".toList))⟩]

/-- The hypotheses of C138 hold for it, although its density may be that of the substrate: the density can be learned up to `0.1` from finitely many points at momentum transfers above 0.01/Å. -/
example : ∃ q : List ℝ, (∀ u ∈ q, 0.01 ≤ u) ∧ ∃ N : (Fin q.length → ℝ) → ℝ, Continuous N ∧ ∃ δ > 0, ∀ y, RowWithin exampleDenseFilm y →
      (∃ v : Fin q.length → ℝ, curveFor exampleDenseFilm q (pairs y) = .ok (List.ofFn fun j => some (v j))) ∧
      ∀ v w : Fin q.length → ℝ, curveFor exampleDenseFilm q (pairs y) = .ok (List.ofFn fun j => some (v j)) → (∀ j, |w j - v j| < δ) →
        |N w - (y ("film".toList ++ "_sld".toList)).re| < 0.1 := by
  refine C138_learnable exampleDenseFilm _ 10 30 20 ?_ ?_ ?_ ⟨⟨_, rfl⟩, ?_, ?_⟩ ⟨rfl, ⟨_, rfl⟩, ⟨_, rfl⟩, Or.inl (by norm_num)⟩ ?_ 0.01 0.1 (by norm_num)
  · refine ⟨⟨rfl, rfl, ⟨_, rfl, ⟨rfl, trivial⟩, ?_⟩, ⟨_, rfl, rfl, trivial⟩⟩, ⟨rfl, rfl, rfl, ⟨_, rfl, rfl, trivial⟩⟩, ?_⟩
    · simp only [Param.min, Num.ltZero]; norm_num
    · intro l hl
      rw [show exampleDenseFilm.layers = [_] from rfl, List.mem_singleton] at hl
      subst hl
      refine ⟨Or.inl rfl, ⟨_, rfl, ⟨rfl, ?_⟩, ?_⟩, ⟨_, rfl, ⟨rfl, trivial⟩, ?_⟩, ⟨_, rfl, rfl, ?_⟩⟩
      · simp only [ParamValid, Num.ge]; norm_num
      · simp only [Param.min, Num.ltZero]; norm_num
      · simp only [Param.min, Num.ltZero]; norm_num
      · simp only [ParamValid, Num.ge]; norm_num
  · simp only [partNames, exampleDenseFilm]; decide
  · intro l hl
    simp only [SampleV.structure_, exampleDenseFilm, List.cons_append, List.nil_append, List.mem_cons, List.not_mem_nil, or_false] at hl
    rcases hl with rfl | rfl | rfl
    · refine ⟨?_, by simp, ?_⟩ <;> rintro p ⟨⟩
      · trivial
      · exact ⟨0, 0, rfl, rfl, le_rfl⟩
    · refine ⟨?_, ?_, ?_⟩ <;> rintro p ⟨⟩
      · exact ⟨show (10 : ℝ) ≤ 30 by norm_num, le_refl (0 : ℝ), Or.inl ⟨_, _, rfl, rfl⟩⟩
      · exact ⟨20, 1000, rfl, rfl, by norm_num⟩
      · exact ⟨0, 0, rfl, rfl, le_rfl⟩
    · refine ⟨?_, by simp, by simp⟩
      rintro p ⟨⟩
      trivial
  · intro l hl
    simp only [exampleDenseFilm, List.mem_cons, List.not_mem_nil, or_false] at hl
    rcases hl with rfl | rfl <;> exact ⟨_, rfl⟩
  · intro l hl
    simp only [exampleDenseFilm, List.mem_cons, List.not_mem_nil, or_false] at hl
    rcases hl with rfl | rfl <;> rintro p ⟨⟩ <;> exact ⟨le_refl (0 : ℝ), le_refl (0 : ℝ)⟩
  · rintro p ⟨⟩
    exact show (0 : ℝ) < 20 by norm_num

end Verif.Props
