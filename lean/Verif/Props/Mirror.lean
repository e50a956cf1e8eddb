import Verif.Props.Fringes

/-!
# C150: the tail of the curve cannot tell a stack from its mirror image

`C138` determines the density of a film from the tail of the curve only if all admissible densities lie on one side of half the density of the substrate.
Here the reason: upside down, with every density replaced by its difference from the substrate, a stack has the same density steps at mirrored depths.
-/

namespace Verif.Props
open Verif.Py Verif.Model Verif.Spec Verif.Lemmas Complex Filter Topology

/-- A layer of the mirror image of a stack on a substrate of density `ρ`. -/
def mirrored (ρ : ℂ) (l : Slab) : Slab := ⟨l.roughness, ρ - l.sld, l.thickness⟩

/-- The interfaces of the mirror image are those of the stack in reverse order, at mirrored depths. -/
theorem mirror_steps (x sub : Slab) (m : List Slab) (ρ : ℂ) (z : ℝ) (hx : x.sld = sub.sld - ρ) :
    interfaceSteps 0 0 ((m.map (mirrored sub.sld)).reverse ++ [x]) =
      ((interfaceSteps ρ z (m ++ [sub])).map fun p => (p.1, (m.map Slab.thickness).sum + z - p.2)).reverse := by
  induction m generalizing x ρ z with
  | nil => simp [interfaceSteps, hx]
  | cons a m ih =>
    rw [List.map_cons, List.reverse_cons, steps_append, ih (mirrored sub.sld a) a.sld (z + a.thickness) rfl, List.cons_append, interfaceSteps, List.map_cons,
      List.reverse_cons]
    congr 1
    · congr 2
      funext p
      simp only [List.map_cons, List.sum_cons, Prod.mk.injEq, true_and]
      ring
    · have e : (((m.map (mirrored sub.sld)).reverse ++ [mirrored sub.sld a]).map Slab.thickness).sum = ((a :: m).map Slab.thickness).sum := by
        rw [List.map_append, List.sum_append, List.map_reverse, List.sum_reverse, List.map_map, List.map_cons, List.sum_cons, add_comm]
        congr 1
        simp [mirrored]
      rw [e, hx]
      simp [mirrored]

theorem steps_real (m : List Slab) (h : ∀ l ∈ m, l.sld.im = 0) (ρ : ℂ) (hρ : ρ.im = 0) (z : ℝ) : ∀ p ∈ interfaceSteps ρ z m, starRingEnd ℂ p.1 = p.1 := by
  induction m generalizing ρ z with
  | nil => intro p hp; simp [interfaceSteps] at hp
  | cons a m ih =>
    intro p hp
    rcases List.mem_cons.1 hp with rfl | hp
    · rw [Complex.conj_eq_iff_im]
      simp [hρ, h a (by simp)]
    · exact ih (fun l hl => h l (by simp [hl])) _ (h a (by simp)) _ p hp

/-- The transforms of the density steps of a stack and of its mirror image have the same modulus. -/
theorem mirror_norm (m : List Slab) (x sub : Slab) (hx : x.sld = sub.sld) (h : ∀ l ∈ sub :: m, l.sld.im = 0) (q : ℝ) :
    ‖stepTransform ((m.map (mirrored sub.sld)).reverse ++ [x]) q‖ = ‖stepTransform (m ++ [sub]) q‖ := by
  have key : stepTransform ((m.map (mirrored sub.sld)).reverse ++ [x]) q =
      cexp (-(I * (q * (m.map Slab.thickness).sum : ℝ))) * starRingEnd ℂ (stepTransform (m ++ [sub]) q) := by
    unfold stepTransform
    rw [mirror_steps x sub m 0 0 (by rw [hx, sub_zero]), List.map_reverse, List.sum_reverse, List.map_map, map_list_sum, List.map_map, ← List.sum_map_mul_left]
    refine congrArg List.sum (List.map_congr_left fun p hp => ?_)
    have hr := steps_real (m ++ [sub]) (fun l hl => h l (by simpa [or_comm] using hl)) 0 rfl 0 p hp
    simp only [Function.comp_apply, map_mul, hr, ← Complex.exp_conj, map_neg, Complex.conj_I, Complex.conj_ofReal]
    rw [show starRingEnd ℂ (4 : ℂ) = 4 from Complex.conj_ofNat 4]
    rw [mul_left_comm, ← Complex.exp_add]
    congr 2
    push_cast
    ring
  rw [key, norm_mul, RCLike.norm_conj]
  have : -(I * (q * (m.map Slab.thickness).sum : ℝ)) = ((-(q * (m.map Slab.thickness).sum) : ℝ) : ℂ) * I := by push_cast; ring
  rw [this, Complex.norm_exp_ofReal_mul_I, one_mul]

/-- **C150** (stacks): a stack of layers of real densities with sharp interfaces and its mirror image on the same substrate have the same curve in the limit of
large momentum transfers: the difference vanishes faster than the curves. -/
theorem C150_mirror (sub : Slab) (layers : List Slab) (hr : ∀ l ∈ sub :: layers, l.roughness = 0) (hp : ∀ l ∈ sub :: layers, l.sld.im = 0)
    (ht : ∀ l ∈ layers, 0 ≤ l.thickness) :
    ∃ R R' : ℝ → ℝ,
      (∀ q, multilayerReflectivity [q] (layers.map Slab.thickness) ((sub :: layers).map Slab.roughness) ((sub :: layers).map Slab.sld) 0 = .ok [some (R q)]) ∧
      (∀ q, multilayerReflectivity [q] (layers.reverse.map Slab.thickness) ((sub :: layers.reverse).map Slab.roughness)
        (sub.sld :: layers.reverse.map fun l => sub.sld - l.sld) 0 = .ok [some (R' q)]) ∧
      Tendsto (fun q => q ^ 4 * (R q - R' q)) atTop (𝓝 0) := by
  obtain ⟨R, hR, tR⟩ := C137_tail (layers.map Slab.thickness) ((sub :: layers).map Slab.roughness) ((sub :: layers).map Slab.sld) (by simp) (by simp)
    (by intro ρ hρ; obtain ⟨l, hl, rfl⟩ := List.mem_map.1 hρ; exact (hp l hl).ge) (by simpa using hr) (by simpa using ht)
  have hm : ∀ l ∈ sub :: (layers.reverse.map (mirrored sub.sld)), l.sld.im = 0 := by
    intro l hl
    rcases List.mem_cons.1 hl with rfl | hl
    · exact hp _ (by simp)
    · obtain ⟨l', hl', rfl⟩ := List.mem_map.1 hl
      simp [mirrored, hp sub (by simp), hp l' (by simp [List.mem_reverse.1 hl'])]
  obtain ⟨R', hR', tR'⟩ := C137_tail ((layers.reverse.map (mirrored sub.sld)).map Slab.thickness) ((sub :: layers.reverse.map (mirrored sub.sld)).map Slab.roughness)
    ((sub :: layers.reverse.map (mirrored sub.sld)).map Slab.sld) (by simp) (by simp)
    (by intro ρ hρ; obtain ⟨l, hl, rfl⟩ := List.mem_map.1 hρ; exact (hm l hl).ge)
    (by
      intro x hx
      obtain ⟨l, hl, rfl⟩ := List.mem_map.1 hx
      rcases List.mem_cons.1 hl with rfl | hl
      · exact hr _ (by simp)
      · obtain ⟨l', hl', rfl⟩ := List.mem_map.1 hl
        exact hr l' (by simp [List.mem_reverse.1 hl']))
    (by
      intro x hx
      obtain ⟨l, hl, rfl⟩ := List.mem_map.1 hx
      obtain ⟨l', hl', rfl⟩ := List.mem_map.1 hl
      exact ht l' (List.mem_reverse.1 hl'))
  rw [slabs_list] at tR tR'
  refine ⟨R, R', hR, fun q => ?_, ?_⟩
  · rw [← hR']
    simp only [List.map_cons, List.map_map]
    rfl
  · have := tR.sub tR'
    rw [sub_zero] at this
    refine this.congr fun q => ?_
    have e := mirror_norm layers.reverse ⟨sub.roughness, sub.sld, 0⟩ ⟨sub.roughness, sub.sld, 0⟩ rfl (by
      intro l hl
      rcases List.mem_cons.1 hl with rfl | hl
      · exact hp sub (by simp)
      · exact hp l (by simp [List.mem_reverse.1 hl])) q
    rw [← e]
    ring

/-! ### One film -/

/-- The two interfaces of a film never cancel if their steps have different sizes. -/
theorem film_lower (a b : ℂ) (d q : ℝ) : 4 * Real.pi * |‖a‖ - ‖b - a‖| ≤ ‖stepTransform ([⟨0, a, d⟩] ++ [⟨0, b, 0⟩]) q‖ := by
  have e : stepTransform ([⟨0, a, d⟩] ++ [⟨0, b, 0⟩]) q = 4 * (Real.pi : ℂ) * (a - -((b - a) * cexp (-(I * (q * d : ℝ))))) := by
    simp only [stepTransform, List.cons_append, List.nil_append, interfaceSteps, List.map_cons, List.map_nil, List.sum_cons, List.sum_nil, sub_zero, zero_add,
      mul_zero, Complex.ofReal_zero, neg_zero, Complex.exp_zero]
    ring
  have u : ‖cexp (-(I * (q * d : ℝ)))‖ = 1 := by
    have : -(I * (q * d : ℝ)) = ((-(q * d) : ℝ) : ℂ) * I := by push_cast; ring
    rw [this, Complex.norm_exp_ofReal_mul_I]
  have h4 : ‖(4 * (Real.pi : ℂ))‖ = 4 * Real.pi := by
    rw [norm_mul, Complex.norm_real, Real.norm_of_nonneg Real.pi_pos.le]
    norm_num
  rw [e, norm_mul, h4]
  refine mul_le_mul_of_nonneg_left ?_ (by positivity)
  have := abs_norm_sub_norm_le a (-((b - a) * cexp (-(I * (q * d : ℝ)))))
  rwa [norm_neg, norm_mul, u, mul_one] at this

/-- Two curves with the same tail, bounded from below, approach each other on a logarithmic scale. -/
theorem tails_log {R R' g : ℝ → ℝ} {c : ℝ} (hc : 0 < c) (hg : ∀ q, c ≤ g q) (h : Tendsto (fun q => q ^ 4 * R q - g q) atTop (𝓝 0))
    (h' : Tendsto (fun q => q ^ 4 * R' q - g q) atTop (𝓝 0)) :
    (∀ᶠ q in atTop, 0 < R q ∧ 0 < R' q) ∧ Tendsto (fun q => Real.logb 10 (R q) - Real.logb 10 (R' q)) atTop (𝓝 0) := by
  have one : ∀ {R : ℝ → ℝ}, Tendsto (fun q => q ^ 4 * R q - g q) atTop (𝓝 0) →
      (∀ᶠ q in atTop, 0 < R q) ∧ Tendsto (fun q => Real.logb 10 (q ^ 4 * R q / g q)) atTop (𝓝 0) := by
    intro R h
    have t : Tendsto (fun q => q ^ 4 * R q / g q) atTop (𝓝 1) := by
      have z : Tendsto (fun q => q ^ 4 * R q / g q - 1) atTop (𝓝 0) := by
        have b := h.abs.div_const c
        rw [abs_zero, zero_div] at b
        refine squeeze_zero_norm (fun q => ?_) b
        have p : 0 < g q := hc.trans_le (hg q)
        rw [div_sub_one p.ne', Real.norm_eq_abs, abs_div, abs_of_pos p]
        exact div_le_div_of_nonneg_left (abs_nonneg _) hc (hg q)
      simpa using z.add_const 1
    refine ⟨?_, ?_⟩
    · filter_upwards [t.eventually (lt_mem_nhds zero_lt_one), eventually_gt_atTop 0] with q hq h0
      have p : 0 < g q := hc.trans_le (hg q)
      have : 0 < q ^ 4 * R q := by
        have := mul_pos hq p
        rwa [div_mul_cancel₀ _ p.ne'] at this
      exact pos_of_mul_pos_right this (by positivity)
    · have := (Real.continuousAt_log one_ne_zero).tendsto.comp t
      rw [Real.log_one] at this
      have := this.div_const (Real.log 10)
      rw [zero_div] at this
      exact this
  obtain ⟨p, t⟩ := one h
  obtain ⟨p', t'⟩ := one h'
  refine ⟨p.and p', ?_⟩
  have := t.sub t'
  rw [sub_zero] at this
  refine this.congr' ?_
  filter_upwards [p, p', eventually_gt_atTop 0] with q h1 h2 h0
  have pg : 0 < g q := hc.trans_le (hg q)
  have q4 : 0 < q ^ 4 := by positivity
  rw [Real.logb_div (by positivity) pg.ne', Real.logb_div (by positivity) pg.ne', Real.logb_mul q4.ne' h1.ne', Real.logb_mul q4.ne' h2.ne']
  ring

/-- Two sets of labels of a sample with one film: they differ in the density of the film only, and the densities add up to that of the substrate. -/
structure MirrorFilms (s : SampleV ℝ) (l : LayerV ℝ) (ρ ρs : ℝ) (y y' : Str → Num ℝ) : Prop where
  layers : s.layers = [l]
  within : RowWithin s y
  within' : RowWithin s y'
  film : y (l.name ++ "_sld".toList) = .real ρ
  film' : y' (l.name ++ "_sld".toList) = .real (ρs - ρ)
  substrate : y (s.substrate.name ++ "_sld".toList) = .real ρs
  substrate' : y' (s.substrate.name ++ "_sld".toList) = .real ρs
  thickness : y' (l.name ++ "_thickness".toList) = y (l.name ++ "_thickness".toList)

theorem siDensity_real (x : ℝ) : siDensity (.real x) = ((x * 1e14 : ℝ) : ℂ) := by
  unfold siDensity
  show ((x : ℂ)) * 1e14 = _
  push_cast
  norm_num

/-- **C150** (films): the curves of two such sets of labels approach each other on the logarithmic scale: for every tolerance there is a momentum transfer beyond
which the two curves agree. -/
theorem C150_film {s : SampleV ℝ} {l : LayerV ℝ} {ρ ρs : ℝ} {y y' : Str → Num ℝ} (hs : SampleRegular s) (hl : ∀ l ∈ s.structure_, LayerDrawable l)
    (h : SharpSample s) (hm : MirrorFilms s l ρ ρs y y') (hne : ρ ≠ ρs - ρ) (ε : ℝ) (hε : 0 < ε) (hρs : ρs ≠ 0) :
    ∃ U, ∀ u ≥ U, ∃ v v', curveFor s [u] (pairs y) = .ok [some v] ∧ curveFor s [u] (pairs y') = .ok [some v'] ∧ 0 < v ∧ 0 < v' ∧
      |Real.logb 10 v - Real.logb 10 v'| < ε := by
  obtain ⟨R, hR, tR, -⟩ := stack_points hs hl h hm.within
  obtain ⟨R', hR', tR', -⟩ := stack_points hs hl h hm.within'
  rw [hm.layers, hm.substrate] at tR
  rw [hm.layers, hm.substrate'] at tR'
  simp only [List.map_cons, List.map_nil, List.reverse_singleton, hm.film, hm.film', hm.thickness, siDensity_real] at tR tR'
  set d := (y (l.name ++ "_thickness".toList)).re * 1e-10 with hd
  set a : ℝ := ρ * 1e14 with ha
  set b : ℝ := ρs * 1e14 with hb
  have eq : ∀ q, ‖stepTransform ([⟨0, (((ρs - ρ) * 1e14 : ℝ) : ℂ), d⟩] ++ [⟨0, (b : ℂ), 0⟩]) q‖ = ‖stepTransform ([⟨0, (a : ℂ), d⟩] ++ [⟨0, (b : ℂ), 0⟩]) q‖ := by
    intro q
    have := mirror_norm [⟨0, (a : ℂ), d⟩] ⟨0, (b : ℂ), 0⟩ ⟨0, (b : ℂ), 0⟩ rfl (by simp) q
    rw [← this]
    simp only [mirrored, List.map_cons, List.map_nil, List.reverse_singleton]
    rw [ha, hb, ← Complex.ofReal_sub, ← sub_mul]
  have low : 0 < 4 * Real.pi * |‖(a : ℂ)‖ - ‖(b : ℂ) - a‖| := by
    refine mul_pos (by positivity) (abs_pos.2 fun e => ?_)
    rw [← Complex.ofReal_sub, Complex.norm_real, Complex.norm_real, sub_eq_zero, Real.norm_eq_abs, Real.norm_eq_abs, abs_eq_abs, ha, hb] at e
    rcases e with e | e
    · exact hne (by linarith)
    · exact hρs (by linarith)
  simp only [eq] at tR'
  obtain ⟨p, t⟩ := tails_log (pow_pos low 2) (fun q => pow_le_pow_left₀ low.le (film_lower (a : ℂ) (b : ℂ) d q) 2) tR tR'
  obtain ⟨Q, hQ⟩ := eventually_atTop.1 (p.and ((Metric.tendsto_nhds.1 t) ε hε))
  refine ⟨Q * 1e-10, fun u hu => ⟨_, _, hR u, hR' u, ?_⟩⟩
  obtain ⟨⟨p1, p2⟩, p3⟩ := hQ (u * 1e10) (by nlinarith)
  rw [Real.dist_eq, sub_zero] at p3
  exact ⟨p1, p2, p3⟩

theorem pair_lists {P : ℝ → ℝ → Prop} {f f' : ℝ → Option ℝ} (q : List ℝ) (h : ∀ u ∈ q, ∃ v v', f u = some v ∧ f' u = some v' ∧ P v v') :
    ∃ c c' : List ℝ, q.map f = c.map some ∧ q.map f' = c'.map some ∧ List.Forall₂ P c c' := by
  induction q with
  | nil => exact ⟨[], [], rfl, rfl, .nil⟩
  | cons u q ih =>
    obtain ⟨c, c', h1, h2, h3⟩ := ih fun u hu => h u (List.mem_cons_of_mem _ hu)
    obtain ⟨v, v', e1, e2, e3⟩ := h u (by simp)
    exact ⟨v :: c, v' :: c', by simp [h1, e1], by simp [h2, e2], .cons e3 h3⟩

/-- **C150** (what cannot be learned): for every size of measurement errors on the logarithmic scale there is a momentum transfer beyond which measured curves cannot
tell the two densities apart: whatever points are used, the two curves agree up to errors of this size, and every function of the curve misses one of the two
densities by at least half their difference. -/
theorem C150_blind {s : SampleV ℝ} {l : LayerV ℝ} {ρ ρs : ℝ} {y y' : Str → Num ℝ} (hs : SampleRegular s) (hl : ∀ l ∈ s.structure_, LayerDrawable l)
    (h : SharpSample s) (hm : MirrorFilms s l ρ ρs y y') (hne : ρ ≠ ρs - ρ) (hρs : ρs ≠ 0) (ε : ℝ) (hε : 0 < ε) :
    ∃ U, ∀ q : List ℝ, (∀ u ∈ q, U ≤ u) → ∃ c c' : List ℝ, curveFor s q (pairs y) = .ok (c.map some) ∧ curveFor s q (pairs y') = .ok (c'.map some) ∧
      List.Forall₂ (fun v v' => 0 < v ∧ 0 < v' ∧ |Real.logb 10 v - Real.logb 10 v'| < ε) c c' ∧
      ∀ N : List ℝ → ℝ, |ρ - (ρs - ρ)| / 2 ≤ |N c - ρ| ∨ |ρ - (ρs - ρ)| / 2 ≤ |N c - (ρs - ρ)| := by
  obtain ⟨U, hU⟩ := C150_film hs hl h hm hne ε hε hρs
  obtain ⟨nm, hamb⟩ := h.ambient
  refine ⟨U, fun q hq => ?_⟩
  rw [curveFor_points hamb q hm.within, curveFor_points hamb q hm.within']
  have := pair_lists (P := fun v v' => 0 < v ∧ 0 < v' ∧ |Real.logb 10 v - Real.logb 10 v'| < ε) q (fun u hu => by
    obtain ⟨v, v', e1, e2, e3⟩ := hU u (hq u hu)
    rw [curveFor_points hamb [u] hm.within] at e1
    rw [curveFor_points hamb [u] hm.within'] at e2
    simp only [List.map_cons, List.map_nil, Except.ok.injEq, List.cons.injEq, and_true] at e1 e2
    exact ⟨v, v', e1, e2, e3⟩)
  obtain ⟨c, c', h1, h2, h3⟩ := this
  refine ⟨c, c', congrArg Except.ok h1, congrArg Except.ok h2, h3, fun N => ?_⟩
  by_contra hcon
  push Not at hcon
  have t := abs_sub_le ρ (N c) (ρs - ρ)
  rw [abs_sub_comm ρ (N c)] at t
  linarith [hcon.1, hcon.2]

/-! ### A film of density 8 or 12 on a substrate of density 20 -/

/-- Labels of `exampleThinFilm`: density `x`, thickness 100 Å. -/
noncomputable def thinLabels (x : ℝ) (k : Str) : Num ℝ :=
  if k = "film_thickness".toList then .real 100
  else if k = "film_sld".toList then .real x
  else if k = "Si_sld".toList then .real 20
  else .real 0

theorem thinLabels_values (x : ℝ) :
    thinLabels x ("film".toList ++ "_thickness".toList) = .real 100 ∧ thinLabels x ("film".toList ++ "_sld".toList) = .real x ∧
    thinLabels x ("Si".toList ++ "_sld".toList) = .real 20 ∧ thinLabels x ("air".toList ++ "_sld".toList) = .real 0 ∧
    thinLabels x ("Si".toList ++ "_roughness".toList) = .real 0 ∧ thinLabels x ("film".toList ++ "_roughness".toList) = .real 0 := by
  unfold thinLabels
  refine ⟨?_, ?_, ?_, ?_, ?_, ?_⟩
  · rw [if_pos (by decide)]
  · rw [if_neg (by decide), if_pos (by decide)]
  · rw [if_neg (by decide), if_neg (by decide), if_pos (by decide)]
  all_goals rw [if_neg (by decide), if_neg (by decide), if_neg (by decide)]

theorem thinLabels_within {x : ℝ} (h1 : 5 ≤ x) (h2 : x ≤ 15) : RowWithin exampleThinFilm (thinLabels x) := by
  obtain ⟨e1, e2, e3, e4, e5, e6⟩ := thinLabels_values x
  refine ⟨?_, ?_, ?_, ?_⟩ <;> intro l hl p hp <;>
    simp only [exampleThinFilm, List.cons_append, List.nil_append, List.mem_cons, List.not_mem_nil, or_false] at hl
  · rcases hl with rfl | rfl | rfl <;> cases hp
    · exact e3
    · exact ⟨_, e2, h1, h2⟩
    · exact e4
  · rcases hl with rfl | rfl <;> cases hp
    · exact e5
    · exact e6
  · subst hl; cases hp
    exact ⟨_, e1, by norm_num, by norm_num⟩
  · subst hl; cases hp
    exact ⟨0, _, _, rfl, e1, e6, le_max_left _ _⟩

theorem exampleThinFilm_ok : SampleRegular exampleThinFilm ∧ (∀ l ∈ exampleThinFilm.structure_, LayerDrawable l) ∧ SharpSample exampleThinFilm := by
  refine ⟨?_, ?_, ⟨⟨_, rfl⟩, ?_, ?_⟩⟩
  · refine ⟨⟨rfl, rfl, ⟨_, rfl, ⟨rfl, trivial⟩, ?_⟩, ⟨_, rfl, rfl, trivial⟩⟩, ⟨rfl, rfl, rfl, ⟨_, rfl, rfl, trivial⟩⟩, ?_⟩
    · simp only [Param.min, Num.ltZero]; norm_num
    · intro l hl
      rw [show exampleThinFilm.layers = [_] from rfl, List.mem_singleton] at hl
      subst hl
      refine ⟨Or.inl rfl, ⟨_, rfl, ⟨rfl, ?_⟩, ?_⟩, ⟨_, rfl, ⟨rfl, trivial⟩, ?_⟩, ⟨_, rfl, rfl, ?_⟩⟩
      · simp only [ParamValid, Num.ge]; norm_num
      · simp only [Param.min, Num.ltZero]; norm_num
      · simp only [Param.min, Num.ltZero]; norm_num
      · simp only [ParamValid, Num.ge]; norm_num
  · intro l hl
    simp only [SampleV.structure_, exampleThinFilm, List.cons_append, List.nil_append, List.mem_cons, List.not_mem_nil, or_false] at hl
    rcases hl with rfl | rfl | rfl
    · refine ⟨?_, by simp, ?_⟩ <;> rintro p ⟨⟩
      · trivial
      · exact ⟨0, 0, rfl, rfl, le_rfl⟩
    · refine ⟨?_, ?_, ?_⟩ <;> rintro p ⟨⟩
      · exact ⟨show (5 : ℝ) ≤ 15 by norm_num, le_refl (0 : ℝ), Or.inl ⟨_, _, rfl, rfl⟩⟩
      · exact ⟨20, 1000, rfl, rfl, by norm_num⟩
      · exact ⟨0, 0, rfl, rfl, le_rfl⟩
    · refine ⟨?_, by simp, by simp⟩
      rintro p ⟨⟩
      trivial
  · intro l hl
    simp only [exampleThinFilm, List.mem_cons, List.not_mem_nil, or_false] at hl
    rcases hl with rfl | rfl <;> exact ⟨_, rfl⟩
  · intro l hl
    simp only [exampleThinFilm, List.mem_cons, List.not_mem_nil, or_false] at hl
    rcases hl with rfl | rfl <;> rintro p ⟨⟩ <;> exact ⟨le_refl (0 : ℝ), le_refl (0 : ℝ)⟩

/-- Not vacuous: beyond some momentum transfer no prediction from curves with errors of one percent on the logarithmic scale tells the densities 8 and 12 apart. -/
example : ∃ U, ∀ q : List ℝ, (∀ u ∈ q, U ≤ u) → ∃ c c' : List ℝ, curveFor exampleThinFilm q (pairs (thinLabels 8)) = .ok (c.map some) ∧
    curveFor exampleThinFilm q (pairs (thinLabels (20 - 8))) = .ok (c'.map some) ∧
      List.Forall₂ (fun v v' => 0 < v ∧ 0 < v' ∧ |Real.logb 10 v - Real.logb 10 v'| < 0.01) c c' ∧
      ∀ N : List ℝ → ℝ, |8 - (20 - 8)| / 2 ≤ |N c - 8| ∨ |8 - (20 - 8)| / 2 ≤ |N c - (20 - 8)| := by
  obtain ⟨h1, h2, h3⟩ := exampleThinFilm_ok
  obtain ⟨a1, a2, a3, -⟩ := thinLabels_values 8
  obtain ⟨b1, b2, b3, -⟩ := thinLabels_values (20 - 8)
  exact C150_blind h1 h2 h3 ⟨rfl, thinLabels_within (by norm_num) (by norm_num), thinLabels_within (by norm_num) (by norm_num), a2, b2, a3, b3, b1.trans a1.symm⟩
    (by norm_num) (by norm_num) 0.01 (by norm_num)

end Verif.Props
