import Verif.Props.Falling
import Verif.Props.Kinematic
import Mathlib.Topology.MetricSpace.Sequences

/-!
# C148: a layer with contrast on both sides makes the curve rise again and again

`C146` says that the curve of a bare substrate falls above the critical edge. Here the converse: the curve of every stack with sharp interfaces whose
uppermost layer differs from vacuum and whose lowest layer differs from the substrate rises somewhere beyond every momentum transfer (Kiessig fringes).
-/

namespace Verif.Props
open Verif.Py Verif.Model Verif.Spec Verif.Lemmas Complex Filter Topology

/-! ### Sums of oscillations return -/

/-- Finitely many oscillations are all close to their start again at arbitrarily late integer times. -/
theorem phases_return {κ : Type} [Fintype κ] (z : κ → ℝ) (N : ℕ) {ε : ℝ} (hε : 0 < ε) :
    ∃ n : ℕ, N < n ∧ ∀ j, ‖cexp (-(I * ((n : ℝ) * z j : ℝ))) - 1‖ < ε := by
  let u : ℕ → κ → ℂ := fun n j => cexp (-(I * ((n : ℝ) * z j : ℝ)))
  have one : ∀ n j, ‖u n j‖ = 1 := by
    intro n j
    have : -(I * ((n : ℝ) * z j : ℝ)) = ((-((n : ℝ) * z j) : ℝ) : ℂ) * I := by push_cast; ring
    simp only [u, this, Complex.norm_exp_ofReal_mul_I]
  have hu : ∀ n, u n ∈ Metric.closedBall (0 : κ → ℂ) 1 := by
    intro n
    rw [mem_closedBall_zero_iff, pi_norm_le_iff_of_nonneg zero_le_one]
    exact fun j => (one n j).le
  obtain ⟨a, -, φ, hφ, ha⟩ := tendsto_subseq_of_bounded Metric.isBounded_closedBall hu
  obtain ⟨M, hM⟩ := Metric.cauchySeq_iff'.1 ha.cauchySeq ε hε
  have hgt : φ M + N < φ (φ M + N + 1 + M) := by
    have := hφ.id_le (φ M + N + 1 + M)
    simp only [id] at this
    omega
  refine ⟨φ (φ M + N + 1 + M) - φ M, by omega, fun j => ?_⟩
  have h1 := hM (φ M + N + 1 + M) (by omega)
  rw [dist_eq_norm] at h1
  have h2 := (norm_le_pi_norm _ j).trans_lt h1
  simp only [Function.comp_apply, Pi.sub_apply] at h2
  have e : u (φ (φ M + N + 1 + M)) j = u (φ M) j * cexp (-(I * (((φ (φ M + N + 1 + M) - φ M : ℕ) : ℝ) * z j : ℝ))) := by
    simp only [u]
    rw [← Complex.exp_add, Nat.cast_sub (by omega)]
    congr 1
    push_cast
    ring
  rw [e, ← mul_sub_one, norm_mul, one, one_mul] at h2
  exact h2

/-- The transform of the density steps comes back to all its values at arbitrarily late times, the same for all values. -/
theorem transform_returns (l : List Slab) (N : ℕ) {ε : ℝ} (hε : 0 < ε) :
    ∃ n : ℕ, N < n ∧ ∀ q : ℝ, |‖stepTransform l (q + n)‖ ^ 2 - ‖stepTransform l q‖ ^ 2| < ε := by
  set L := interfaceSteps 0 0 l with hL
  set A : ℝ := ∑ i : Fin L.length, ‖4 * (Real.pi : ℂ) * (L.get i).1‖ with hA
  have A0 : 0 ≤ A := Finset.sum_nonneg fun _ _ => norm_nonneg _
  have unit : ∀ q x : ℝ, ‖cexp (-(I * (q * x : ℝ)))‖ = 1 := by
    intro q x
    have : -(I * (q * x : ℝ)) = ((-(q * x) : ℝ) : ℂ) * I := by push_cast; ring
    rw [this, Complex.norm_exp_ofReal_mul_I]
  have bound : ∀ q, ‖stepTransform l q‖ ≤ A := by
    intro q
    rw [stepTransform_sum]
    refine (norm_sum_le _ _).trans (Finset.sum_le_sum fun i _ => ?_)
    rw [norm_mul, unit, mul_one]
  have hδ : 0 < ε / (2 * (A + 1) * (A + 1)) := by positivity
  obtain ⟨n, hn, h⟩ := phases_return (fun i : Fin L.length => (L.get i).2) N hδ
  refine ⟨n, hn, fun q => ?_⟩
  have diff : ‖stepTransform l (q + n) - stepTransform l q‖ ≤ A * (ε / (2 * (A + 1) * (A + 1))) := by
    generalize ε / (2 * (A + 1) * (A + 1)) = c at h
    rw [stepTransform_sum, stepTransform_sum, ← Finset.sum_sub_distrib, hA, Finset.sum_mul]
    refine (norm_sum_le _ _).trans (Finset.sum_le_sum fun i _ => ?_)
    have e : cexp (-(I * ((q + n) * (L.get i).2 : ℝ))) = cexp (-(I * (q * (L.get i).2 : ℝ))) * cexp (-(I * ((n : ℝ) * (L.get i).2 : ℝ))) := by
      rw [← Complex.exp_add]
      congr 1
      push_cast
      ring
    change ‖4 * (Real.pi : ℂ) * (L.get i).1 * cexp (-(I * ((q + n) * (L.get i).2 : ℝ))) - 4 * (Real.pi : ℂ) * (L.get i).1 * cexp (-(I * (q * (L.get i).2 : ℝ)))‖ ≤ _
    rw [e, ← mul_sub, ← mul_sub_one, norm_mul, norm_mul _ (cexp _ - 1), unit, one_mul]
    exact mul_le_mul_of_nonneg_left (h i).le (norm_nonneg _)
  have b1 := bound (q + n)
  have b2 := bound q
  have d := (abs_norm_sub_norm_le (stepTransform l (q + n)) (stepTransform l q)).trans diff
  have key : A * (ε / (2 * (A + 1) * (A + 1))) * (2 * A) < ε := by
    have : A * (ε / (2 * (A + 1) * (A + 1))) * (2 * A) = ε * (A * A / ((A + 1) * (A + 1))) := by
      field_simp
    rw [this]
    have : A * A / ((A + 1) * (A + 1)) < 1 := by
      rw [div_lt_one (by positivity)]
      nlinarith
    nlinarith
  have f : ‖stepTransform l (q + n)‖ ^ 2 - ‖stepTransform l q‖ ^ 2 =
      (‖stepTransform l (q + n)‖ - ‖stepTransform l q‖) * (‖stepTransform l (q + n)‖ + ‖stepTransform l q‖) := by ring
  rw [f, abs_mul, abs_of_nonneg (a := ‖stepTransform l (q + n)‖ + ‖stepTransform l q‖) (by positivity)]
  refine lt_of_le_of_lt ?_ key
  exact mul_le_mul d (by linarith) (by positivity) (by positivity)

/-- A curve whose tail follows a transform that is not constant rises beyond every momentum transfer. -/
theorem rises_of_tail {R : ℝ → ℝ} {l : List Slab} (h : Tendsto (fun q => q ^ 4 * R q - ‖stepTransform l q‖ ^ 2) atTop (𝓝 0))
    {a b : ℝ} (hab : ‖stepTransform l a‖ ^ 2 < ‖stepTransform l b‖ ^ 2) (Q : ℝ) : ∃ q₁ q₂, Q < q₁ ∧ q₁ < q₂ ∧ R q₁ < R q₂ := by
  set g : ℝ → ℝ := fun q => ‖stepTransform l q‖ ^ 2 with hg
  set δ := g b - g a with hδ
  have δ0 : 0 < δ := sub_pos.2 hab
  obtain ⟨K, hK⟩ := exists_nat_gt (a - b)
  obtain ⟨m, hm, rm⟩ := transform_returns l K (show 0 < δ / 8 by positivity)
  have hm' : (K : ℝ) < m := by exact_mod_cast hm
  obtain ⟨T, hT⟩ := eventually_atTop.1 ((Metric.tendsto_nhds.1 h) (δ / 8) (by positivity))
  obtain ⟨N, hN⟩ := exists_nat_gt (max (max T Q) 1 + |a|)
  -- the two points: `a + n` and `b + m + n`, at a fixed distance
  by_contra hcon
  push Not at hcon
  have ratio : Tendsto (fun x : ℝ => (x / (x + (b + m - a))) ^ 4) atTop (𝓝 1) := by
    have h1 : Tendsto (fun x : ℝ => 1 - (b + m - a) / (x + (b + m - a))) atTop (𝓝 (1 - 0)) :=
      tendsto_const_nhds.sub (tendsto_const_nhds.div_atTop (tendsto_atTop_add_const_right _ _ tendsto_id))
    have h2 := h1.pow 4
    rw [sub_zero, one_pow] at h2
    refine h2.congr' ?_
    filter_upwards [eventually_gt_atTop 0] with x hx
    have : x + (b + m - a) ≠ 0 := by linarith
    congr 1
    field_simp
    ring
  have G : ∀ c, Tendsto (fun x : ℝ => (x / (x + (b + m - a))) ^ 4 * c) atTop (𝓝 (1 * c)) := fun c => ratio.mul_const c
  obtain ⟨T', hT'⟩ := eventually_atTop.1 ((Metric.tendsto_nhds.1 (G (g b - δ / 2))) (δ / 8) (by positivity))
  obtain ⟨N', hN'⟩ := exists_nat_gt (T' + |a|)
  obtain ⟨n, hn, rn⟩ := transform_returns l (max N N') (show 0 < δ / 8 by positivity)
  have n1 : (N : ℝ) < n := by exact_mod_cast (le_max_left _ _).trans_lt hn
  have n2 : (N' : ℝ) < n := by exact_mod_cast (le_max_right _ _).trans_lt hn
  have aa := neg_abs_le a
  have l1 := le_max_left (max T Q) 1
  have l2 := le_max_right (max T Q) 1
  have l3 := le_max_left T Q
  have l4 := le_max_right T Q
  set x := a + n with hx
  have hxy : b + m + n = x + (b + m - a) := by rw [hx]; ring
  have le := hcon x (x + (b + m - a)) (by linarith) (by linarith)
  have e1 := hT x (by linarith)
  have e2 := hT (x + (b + m - a)) (by linarith)
  have e3 := hT' x (by linarith)
  have r1 := rn a
  have r2 := rm b
  have r3 := rn (b + m)
  rw [hxy] at r3
  rw [Real.dist_eq, sub_zero] at e1 e2
  rw [Real.dist_eq, one_mul] at e3
  change |g x - g a| < _ at r1
  change |g (b + m) - g b| < _ at r2
  change |g (x + (b + m - a)) - g (b + m)| < _ at r3
  change |x ^ 4 * R x - g x| < _ at e1
  change |(x + (b + m - a)) ^ 4 * R (x + (b + m - a)) - g (x + (b + m - a))| < _ at e2
  rw [abs_lt] at e1 e2 e3 r1 r2 r3
  have x0 : 0 < x := by linarith
  have y0 : 0 < x + (b + m - a) := by linarith
  -- from the larger point to the smaller one
  have big : g b - δ / 2 < (x + (b + m - a)) ^ 4 * R (x + (b + m - a)) := by linarith [e2.1, r3.1, r2.1]
  have c1 : (x / (x + (b + m - a))) ^ 4 * ((x + (b + m - a)) ^ 4 * R (x + (b + m - a))) = x ^ 4 * R (x + (b + m - a)) := by
    field_simp
  have c2 := mul_lt_mul_of_pos_left big (show 0 < (x / (x + (b + m - a))) ^ 4 by positivity)
  have c3 := mul_le_mul_of_nonneg_left le (show 0 ≤ x ^ 4 by positivity)
  rw [c1] at c2
  linarith [e3.1, e1.2, r1.2]

/-- A stack with contrast at the top and at the bottom has a transform that is not constant. -/
theorem transform_varies {m m₁ m₂ : List Slab} {a b x : Slab} (e1 : m = a :: m₁) (e2 : m = m₂ ++ [b]) (ht : ∀ y ∈ m, 0 ≤ y.thickness)
    (ha : 0 < a.thickness) (hb : 0 < b.thickness) (na : a.sld ≠ 0) (nb : x.sld ≠ b.sld) :
    ∃ q q' : ℝ, ‖stepTransform (m ++ [x]) q‖ ^ 2 < ‖stepTransform (m ++ [x]) q'‖ ^ 2 := by
  by_contra hcon
  push Not at hcon
  have pi0 : (4 * (Real.pi : ℂ)) ≠ 0 := mul_ne_zero (by norm_num) (by exact_mod_cast Real.pi_ne_zero)
  have := stack_span_le (m' := []) (x' := ⟨0, stepTransform (m ++ [x]) 0 / (4 * Real.pi), 0⟩) e1 e2 ht (by simp) ha hb na nb ?_
  · rw [e1, List.map_cons, List.sum_cons] at this
    have : 0 ≤ (m₁.map Slab.thickness).sum := by
      refine List.sum_nonneg fun t h => ?_
      obtain ⟨y, hy, rfl⟩ := List.mem_map.1 h
      exact ht y (by rw [e1]; simp [hy])
    simp only [List.map_nil, List.sum_nil] at *
    linarith
  · refine tendsto_const_nhds.congr fun q => ?_
    have e : stepTransform ([] ++ [(⟨0, stepTransform (m ++ [x]) 0 / (4 * Real.pi), 0⟩ : Slab)]) q = stepTransform (m ++ [x]) 0 := by
      simp only [stepTransform, List.nil_append, interfaceSteps, List.map_cons, List.map_nil, List.sum_cons, List.sum_nil]
      simp [mul_div_cancel₀ _ pi0]
    rw [e, eq_comm, sub_eq_zero]
    exact le_antisymm (hcon 0 q) (hcon q 0)

/-! ### Curves -/

theorem slabs_list (layers : List Slab) (sub : Slab) :
    slabs (layers.map Slab.thickness) ((sub :: layers).map Slab.roughness) ((sub :: layers).map Slab.sld) =
      layers.reverse ++ [⟨sub.roughness, sub.sld, 0⟩] := by
  unfold slabs
  rw [List.map_cons, List.map_cons, List.zip_cons_cons, List.zipWith_cons_cons, List.reverse_cons]
  congr 2
  induction layers with
  | nil => rfl
  | cons l layers ih => simp [ih]

/-- **C148**: the layers of a stack with sharp interfaces are listed from the substrate to the top, none has negative thickness or gain. If the lowest and
the uppermost layer are not empty, the uppermost has a density and the lowest not the density of the substrate, the curve rises somewhere beyond every
momentum transfer. -/
theorem C148_rises (sub bottom top : Slab) (layers rest rest' : List Slab) (e1 : layers = bottom :: rest) (e2 : layers = rest' ++ [top])
    (hr : ∀ l ∈ sub :: layers, l.roughness = 0) (hp : ∀ l ∈ sub :: layers, 0 ≤ l.sld.im) (ht : ∀ l ∈ layers, 0 ≤ l.thickness)
    (h1 : 0 < bottom.thickness) (h2 : 0 < top.thickness) (n1 : top.sld ≠ 0) (n2 : sub.sld ≠ bottom.sld) (Q : ℝ) :
    ∃ q₁ q₂ u v, Q < q₁ ∧ q₁ < q₂ ∧ u < v ∧
      multilayerReflectivity [q₁, q₂] (layers.map Slab.thickness) ((sub :: layers).map Slab.roughness) ((sub :: layers).map Slab.sld) 0 = .ok [some u, some v] := by
  obtain ⟨R, hR, tR⟩ := C137_tail (layers.map Slab.thickness) ((sub :: layers).map Slab.roughness) ((sub :: layers).map Slab.sld) (by simp) (by simp)
    (by simpa using hp) (by simpa using hr) (by simpa using ht)
  rw [slabs_list] at tR
  obtain ⟨a, b, hab⟩ := transform_varies (m := layers.reverse) (m₁ := rest'.reverse) (m₂ := rest.reverse) (a := top) (b := bottom)
    (x := ⟨sub.roughness, sub.sld, 0⟩) (by rw [e2]; simp) (by rw [e1]; simp) (by simpa using ht) h2 h1 n1 n2
  obtain ⟨q₁, q₂, g1, g2, g3⟩ := rises_of_tail tR hab Q
  refine ⟨q₁, q₂, R q₁, R q₂, g1, g2, g3, ?_⟩
  have k1 := hR q₁
  have k2 := hR q₂
  rw [multilayer_eq _ _ _ _ (by simp) (by simp)] at k1 k2 ⊢
  simp only [List.map_cons, List.map_nil, Except.ok.injEq, List.cons.injEq, and_true] at k1 k2 ⊢
  exact ⟨k1, k2⟩

/-- **C148** (labels): every label of a sample whose ranges guarantee such contrasts gives a curve that rises somewhere beyond every momentum transfer. -/
theorem C148_sample {s : SampleV ℝ} {bottom top : LayerV ℝ} (hs : SampleRegular s) (hl : ∀ l ∈ s.structure_, LayerDrawable l)
    (h : SharpStack s bottom top) {y : Str → Num ℝ} (hy : RowWithin s y) (Q : ℝ) :
    ∃ q₁ q₂ u v, Q < q₁ ∧ q₁ < q₂ ∧ u < v ∧ curveFor s [q₁] (pairs y) = .ok [some u] ∧ curveFor s [q₂] (pairs y) = .ok [some v] := by
  obtain ⟨R, hR, tR, p1, p2, c1, c2⟩ := stack_curve hs hl h hy
  obtain ⟨r1, hbot⟩ := h.lowest
  obtain ⟨r2, htop⟩ := h.uppermost
  obtain ⟨a, b, hab⟩ := transform_varies
    (m := (s.layers.map fun l => (⟨0, siDensity (y (l.name ++ "_sld".toList)), (y (l.name ++ "_thickness".toList)).re * 1e-10⟩ : Slab)).reverse)
    (x := ⟨0, siDensity (y (s.substrate.name ++ "_sld".toList)), 0⟩)
    (a := ⟨0, siDensity (y (top.name ++ "_sld".toList)), (y (top.name ++ "_thickness".toList)).re * 1e-10⟩)
    (b := ⟨0, siDensity (y (bottom.name ++ "_sld".toList)), (y (bottom.name ++ "_thickness".toList)).re * 1e-10⟩)
    (by rw [htop, List.map_append, List.reverse_append]; rfl) (by rw [hbot, List.map_cons, List.reverse_cons]) (by
      intro w hw
      obtain ⟨l, hm, rfl⟩ := List.mem_map.1 (List.mem_reverse.1 hw)
      have := p1 l hm
      simp only
      positivity) (by
      have := p2 top (by simp)
      simp only
      positivity) (by
      have := p2 bottom (by simp)
      simp only
      positivity) c1 c2
  obtain ⟨q₁, q₂, g1, g2, g3⟩ := rises_of_tail tR hab (Q * 1e10)
  have back : ∀ q : ℝ, q * 1e-10 * 1e10 = q := fun q => by ring
  refine ⟨q₁ * 1e-10, q₂ * 1e-10, R q₁, R q₂, by nlinarith, by nlinarith, g3, ?_, ?_⟩
  · rw [hR, back]
  · rw [hR, back]

/-- **C148** (a layer can be told from none): no label of such a sample has the curve of a bare substrate, of any positive density and any roughness: beyond
every momentum transfer there is one where the two curves differ. -/
theorem C148_layered {s s' : SampleV ℝ} {bottom top : LayerV ℝ} (hs : SampleRegular s) (hl : ∀ l ∈ s.structure_, LayerDrawable l)
    (h : SharpStack s bottom top) {y y' : Str → Num ℝ} (hy : RowWithin s y) (nm : Option Str) (hamb : s'.ambient.sld = some (.const (.real 0) nm))
    (hlay : s'.layers = []) (hy' : RowWithin s' y') (ρ : ℝ) (hρ : y' (s'.substrate.name ++ "_sld".toList) = .real ρ) (h0 : 0 < ρ) (Q : ℝ) :
    ∃ q > Q, curveFor s [q] (pairs y) ≠ curveFor s' [q] (pairs y') := by
  by_contra hcon
  push Not at hcon
  -- a momentum transfer above the critical edge
  obtain ⟨q₁, q₂, u, v, g1, g2, g3, k1, k2⟩ := C148_sample hs hl h hy (max Q (max 1 ρ))
  have b1 := (le_max_left Q (max 1 ρ)).trans_lt g1
  have b2 := ((le_max_left 1 ρ).trans (le_max_right Q _)).trans_lt g1
  have b3 := ((le_max_right 1 ρ).trans (le_max_right Q _)).trans_lt g1
  rw [hcon q₁ b1] at k1
  rw [hcon q₂ (b1.trans g2)] at k2
  have edge : ∀ x, max 1 ρ < x → AboveEdge ρ x := by
    intro x hx
    obtain ⟨x1, x2⟩ := max_lt_iff.1 hx
    unfold AboveEdge
    have hpi := Real.pi_le_four
    have : 16 * Real.pi * (ρ * 1e-6 + 1e-50) ≤ 64 * (ρ * 1e-6 + 1e-50) := mul_le_mul_of_nonneg_right (by linarith) (by positivity)
    nlinarith
  obtain ⟨c, e, hc, hp⟩ := C146_sample s' nm hamb hlay [q₁, q₂] y' hy' ρ hρ h0 (by
    intro x hx
    simp only [List.mem_cons, List.not_mem_nil, or_false] at hx
    rcases hx with rfl | rfl
    · exact ⟨by linarith, edge _ (max_lt b2 b3)⟩
    · exact ⟨by linarith, edge _ (max_lt (b2.trans g2) (b3.trans g2))⟩) (by simpa using g2)
  match c, hc with
  | [u', v'], _ =>
    rw [substrate_curve hamb hlay _ hy' hρ] at e k1 k2
    simp only [List.map_cons, List.map_nil, Except.ok.injEq, List.cons.injEq, and_true] at e k1 k2
    have e1 := Option.some.inj (e.1.symm.trans k1)
    have e2 := Option.some.inj (e.2.symm.trans k2)
    simp only [List.pairwise_cons, List.mem_singleton, forall_eq] at hp
    linarith [hp.1]

/-- Not vacuous: a gold film (`1.2·10¹⁶ / m²`, 20 nm) on silicon (`2·10¹⁵ / m²`). -/
example (Q : ℝ) : ∃ q₁ q₂ u v, Q < q₁ ∧ q₁ < q₂ ∧ u < v ∧
    multilayerReflectivity [q₁, q₂] [2e-8] [0, 0] [2e15, 1.2e16] 0 = .ok [some u, some v] := by
  have := C148_rises ⟨0, 2e15, 0⟩ ⟨0, 1.2e16, 2e-8⟩ ⟨0, 1.2e16, 2e-8⟩ [⟨0, 1.2e16, 2e-8⟩] [] [] rfl rfl (by simp) (by
    intro l hl
    simp only [List.mem_cons, List.not_mem_nil, or_false] at hl
    rcases hl with rfl | rfl <;> norm_num) (by simp; norm_num) (by norm_num) (by norm_num) (by norm_num) (by norm_num) Q
  simpa using this

/-- Not vacuous: every label of the two layers of `C137` has a curve that rises beyond every momentum transfer. -/
example (y : Str → Num ℝ) (hy : RowWithin exampleBilayer y) (Q : ℝ) : ∃ q₁ q₂ u v, Q < q₁ ∧ q₁ < q₂ ∧ u < v ∧
    curveFor exampleBilayer [q₁] (pairs y) = .ok [some u] ∧ curveFor exampleBilayer [q₂] (pairs y) = .ok [some v] := by
  obtain ⟨bottom, top, h1, -, h3, h4⟩ := exampleBilayer_sharp
  exact C148_sample h1 h3 h4 hy Q

end Verif.Props
