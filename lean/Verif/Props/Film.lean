import Verif.Props.Identify
import Verif.Props.Parratt
import Mathlib.Analysis.Convex.PartitionOfUnity

/-!
# C136: the thickness of a film
-/

namespace Verif.Props
open Verif.Py Verif.Model Verif.Spec Verif.Lemmas Complex Filter Topology MeasureTheory ProbabilityTheory

/-! ### From complete curves to finitely many points -/

/-- The curve of admissible labels, point by point. -/
theorem curveFor_points {s : SampleV ℝ} {nm : Option Str} (hamb : s.ambient.sld = some (.const (.real 0) nm)) (q : List ℝ)
    {y : Str → Num ℝ} (hy : RowWithin s y) :
    curveFor s q (pairs y) = .ok (q.map fun (u : ℝ) => codePoint
      (s.layers.map fun (l : LayerV ℝ) => (y (l.name ++ "_thickness".toList)).re * 1e-10)
      ((s.substrate :: s.layers).map fun (l : LayerV ℝ) => (y (l.name ++ "_roughness".toList)).re * 1e-10)
      ((s.substrate :: s.layers).map fun (l : LayerV ℝ) =>
        (⟨(y (l.name ++ "_sld".toList)).re, (y (l.name ++ "_sld".toList)).im⟩ : ℂ) * 1e14) (u * 1e10)) := by
  have ea : y (s.ambient.name ++ "_sld".toList) = .real 0 := hy.sld s.ambient (by simp) _ hamb
  unfold curveFor pairs
  rw [ea]
  have z0 : (⟨(Num.real (0 : ℝ)).re, (Num.real (0 : ℝ)).im⟩ : ℂ) * 1e14 = 0 := by
    rw [show (⟨(Num.real (0 : ℝ)).re, (Num.real (0 : ℝ)).im⟩ : ℂ) = 0 from rfl, zero_mul]
  rw [z0, multilayer_eq _ _ _ _ (by simp) (by simp), List.map_map]
  rfl

/-- If every point of a curve exists, the curve exists. -/
theorem curve_of_points {s : SampleV ℝ} {nm : Option Str} (hamb : s.ambient.sld = some (.const (.real 0) nm)) (q : List ℝ)
    {y : Str → Num ℝ} (hy : RowWithin s y) {f : ℝ → ℝ} (h : ∀ u ∈ q, curveFor s [u] (pairs y) = .ok [some (f u)]) :
    curveFor s q (pairs y) = .ok (List.ofFn fun j : Fin q.length => some (f (q.get j))) := by
  rw [curveFor_points hamb q hy]
  congr 1
  apply List.ext_getElem (by simp)
  intro j h1 h2
  have hj : j < q.length := by simpa using h1
  have := h q[j] (List.getElem_mem hj)
  rw [curveFor_points hamb [q[j]] hy] at this
  simp only [List.getElem_map, List.getElem_ofFn]
  exact (List.cons.inj (Except.ok.inj this)).1

/-- Finitely many points are enough for a sum of labels. -/
theorem finite_points_on (s : SampleV ℝ) (hs : SampleRegular s) (hn : (partNames s).Nodup) (hl : ∀ l ∈ s.structure_, LayerDrawable l) (nm : Option Str)
    (hamb : s.ambient.sld = some (.const (.real 0) nm)) (habs : ∀ l ∈ s.substrate :: s.layers, ∀ p, l.sld = some p → 0 ≤ p.min.im ∧ 0 ≤ p.max.im)
    (Q : Set ℝ) (hnum : ∀ u ∈ Q, ∀ y, RowWithin s y → ∃ v, curveFor s [u] (pairs y) = .ok [some v]) (keys : List Str)
    (hkey : ∀ key ∈ keys, key ∈ expectedLabels s.substrate.name (s.layers.map (·.name)) s.ambient.name)
    (hdet : ∀ y y', RowWithin s y → RowWithin s y' → (∀ u ∈ Q, curveFor s [u] (pairs y) = curveFor s [u] (pairs y')) →
      (keys.map fun (key : Str) => (y key).re).sum = (keys.map fun (key : Str) => (y' key).re).sum)
    (ε : ℝ) (hε : 0 < ε) :
    ∃ q : List ℝ, (∀ u ∈ q, u ∈ Q) ∧ ∃ N : (Fin q.length → ℝ) → ℝ, Continuous N ∧ ∃ δ > 0, ∀ y, RowWithin s y →
      (∃ v : Fin q.length → ℝ, curveFor s q (pairs y) = .ok (List.ofFn fun j => some (v j))) ∧
      ∀ v w : Fin q.length → ℝ, curveFor s q (pairs y) = .ok (List.ofFn fun j => some (v j)) → (∀ j, |w j - v j| < δ) →
        |N w - (keys.map fun (key : Str) => (y key).re).sum| < ε := by
  have hK := admissible_compact s hs
  have fam := fun u : Q => curve_map s hs hn hl nm hamb habs [u.1] (fun y hy => by
    obtain ⟨v, hv⟩ := hnum u.1 u.2 y hy
    exact ⟨fun _ => v, by rw [hv]; rfl⟩)
  set labels := expectedLabels s.substrate.name (s.layers.map (·.name)) s.ambient.name with hlabels
  set K : Set (LabelSpace labels) := {x | Admissible s (atLabel x)} with hKdef
  have : CompactSpace K := isCompact_iff_compactSpace.1 hK
  have at_mem : ∀ (x : LabelSpace labels) (k : Str) (hk : k ∈ labels), atLabel x k = x ⟨k, hk⟩ := fun x k hk => dif_pos hk
  have lift : ∀ x : K, ∃ y, RowWithin s y ∧ ∀ k ∈ labels, pairs y k = atLabel x.1 k := fun x => admissible_lift hs hn hl x.2
  choose F cF hF using fam
  let f : ℝ → K → ℝ := fun u x => open Classical in if hu : u ∈ Q then F ⟨u, hu⟩ x 0 else 0
  have fQ : ∀ u (hu : u ∈ Q), f u = fun x => F ⟨u, hu⟩ x 0 := fun u hu => funext fun x => dif_pos hu
  have cf : ∀ u, Continuous (f u) := by
    intro u
    by_cases hu : u ∈ Q
    · rw [fQ u hu]
      exact (continuous_apply 0).comp (cF ⟨u, hu⟩)
    · rw [show f u = fun _ => 0 from funext fun x => dif_neg hu]
      exact continuous_const
  have hf : ∀ u ∈ Q, ∀ x : K, curveFor s [u] (atLabel x.1) = .ok [some (f u x)] := fun u hu x => by
    rw [fQ u hu]
    exact (hF ⟨u, hu⟩ x).trans rfl
  let lab : K → ℝ := fun x => (keys.map fun (key : Str) => (atLabel x.1 key).1).sum
  have clab : Continuous lab := by
    refine continuous_list_sum _ fun key hk => ?_
    have : (fun x : K => (atLabel x.1 key).1) = fun x : K => (x.1 ⟨key, hkey key hk⟩).1 := funext fun x => by rw [at_mem x.1 key (hkey key hk)]
    rw [this]
    exact continuous_fst.comp ((continuous_apply _).comp continuous_subtype_val)
  -- the points of a row
  have point : ∀ y, RowWithin s y → ∃ x : K, lab x = (keys.map fun (key : Str) => (y key).re).sum ∧ ∀ u ∈ Q, curveFor s [u] (pairs y) = .ok [some (f u x)] := by
    intro y hy
    have e : ∀ k ∈ labels, pairs y k = atLabel (fun k : {k : Str // k ∈ labels} => pairs y k.1) k := fun k hk =>
      (show atLabel (fun k : {k : Str // k ∈ labels} => pairs y k.1) k = _ from dif_pos hk).symm
    refine ⟨⟨fun k => pairs y k.1, (row_admissible hy).congr e⟩, ?_, fun u hu => ?_⟩
    · refine congrArg List.sum (List.map_congr_left fun key hk => ?_)
      exact congrArg Prod.fst (e key (hkey key hk)).symm
    rw [curveFor_congr s [u] e]
    exact hf u hu ⟨fun k => pairs y k.1, (row_admissible hy).congr e⟩
  have inj : ∀ x x' : K, (∀ u ∈ Q, f u x = f u x') → lab x = lab x' := by
    intro x x' h
    obtain ⟨y, hy, e⟩ := lift x
    obtain ⟨y', hy', e'⟩ := lift x'
    have h1 := hdet y y' hy hy' fun u hu => by
      rw [curveFor_congr s [u] e, curveFor_congr s [u] e', hf u hu, hf u hu, h u hu]
    have e1 : ∀ z : K, ∀ y, (∀ k ∈ labels, pairs y k = atLabel z.1 k) → lab z = (keys.map fun (key : Str) => (y key).re).sum := fun z y e =>
      congrArg List.sum (List.map_congr_left fun key hk => congrArg Prod.fst (e key (hkey key hk)).symm)
    rw [e1 x y e, e1 x' y' e', h1]
  -- finitely many momentum transfers separate labels that differ by more than half the tolerance
  let far : Set (K × K) := {p | ε / 2 ≤ |lab p.1 - lab p.2|}
  have cfar : IsClosed far := isClosed_le continuous_const ((clab.comp continuous_fst).sub (clab.comp continuous_snd)).abs
  have kfar : IsCompact far := cfar.isCompact
  obtain ⟨t, ht⟩ := kfar.elim_finite_subcover (fun u : Q => {p : K × K | f u p.1 ≠ f u p.2})
    (fun u => isOpen_ne_fun ((cf u).comp continuous_fst) ((cf u).comp continuous_snd)) (by
      intro p hp
      by_contra hc
      have : ∀ u ∈ Q, f u p.1 = f u p.2 := by
        intro u hu
        by_contra hne
        exact hc (Set.mem_iUnion.2 ⟨⟨u, hu⟩, hne⟩)
      have h0 : ε / 2 ≤ |lab p.1 - lab p.2| := hp
      rw [inj _ _ this, sub_self, abs_zero] at h0
      linarith)
  let q : List ℝ := t.toList.map (·.1)
  have qQ : ∀ u ∈ q, u ∈ Q := by
    intro u hu
    obtain ⟨u', -, rfl⟩ := List.mem_map.1 hu
    exact u'.2
  refine ⟨q, qQ, ?_⟩
  let G : K → Fin q.length → ℝ := fun x j => f (q.get j) x
  have cG : Continuous G := continuous_pi fun j => cf _
  have sep : ∀ p ∈ far, 0 < dist (G p.1) (G p.2) := by
    intro p hp
    obtain ⟨u, hu, hne⟩ := Set.mem_iUnion₂.1 (ht hp)
    refine dist_pos.2 fun e => hne ?_
    obtain ⟨j, hj⟩ := List.get_of_mem (show u.1 ∈ q from List.mem_map.2 ⟨u, Finset.mem_toList.2 hu, rfl⟩)
    have := congrFun e j
    simp only [G] at this
    rwa [hj] at this
  have unif : ∃ η > 0, ∀ x x' : K, dist (G x) (G x') < η → |lab x - lab x'| < ε / 2 := by
    rcases far.eq_empty_or_nonempty with h | h
    · refine ⟨1, one_pos, fun x x' _ => ?_⟩
      by_contra hc
      exact (h ▸ (show (x, x') ∈ far from not_lt.1 hc) : (x, x') ∈ (∅ : Set (K × K)))
    · obtain ⟨p, hp, hmin⟩ := kfar.exists_isMinOn h (((cG.comp continuous_fst).dist (cG.comp continuous_snd)).continuousOn)
      refine ⟨dist (G p.1) (G p.2), sep p hp, fun x x' hd => ?_⟩
      by_contra hc
      have := hmin (show (x, x') ∈ far from not_lt.1 hc)
      exact absurd hd (not_lt.2 this)
  obtain ⟨η, hη, hun⟩ := unif
  obtain ⟨N, hN⟩ := exists_continuous_forall_mem_convex_of_local_const (X := Fin q.length → ℝ) (E := ℝ)
    (t := fun w => {r | ∀ x : K, dist (G x) w < η / 4 → |r - lab x| < ε}) (by
      intro w a ha b hb α β hα hβ hαβ x hx
      have h1 := ha x hx
      have h2 := hb x hx
      rw [abs_lt] at h1 h2 ⊢
      simp only [smul_eq_mul]
      have e : α * a + β * b - lab x = α * (a - lab x) + β * (b - lab x) := by
        linear_combination lab x * hαβ
      rw [e]
      rcases hα.eq_or_lt with rfl | hα
      · have : β = 1 := by linarith
        subst this
        constructor <;> linarith
      · have u1 := mul_lt_mul_of_pos_left h1.1 hα
        have u2 := mul_lt_mul_of_pos_left h1.2 hα
        have u3 := mul_le_mul_of_nonneg_left h2.1.le hβ
        have u4 := mul_le_mul_of_nonneg_left h2.2.le hβ
        have e1 : α * ε + β * ε = ε := by rw [← add_mul, hαβ, one_mul]
        constructor <;> linarith) (by
      intro w
      by_cases h : ∃ x₀ : K, dist (G x₀) w < η / 3
      · obtain ⟨x₀, h0⟩ := h
        refine ⟨lab x₀, ?_⟩
        filter_upwards [Metric.ball_mem_nhds w (show 0 < η / 12 by linarith)] with w' hw' x hx
        have hw' : dist w' w < η / 12 := hw'
        have h1 : dist (G x₀) (G x) < η := by
          have t1 := dist_triangle (G x₀) w (G x)
          have t2 := dist_triangle w w' (G x)
          rw [dist_comm w w'] at t2
          rw [dist_comm w' (G x)] at t2
          linarith
        linarith [hun x₀ x h1]
      · refine ⟨0, ?_⟩
        filter_upwards [Metric.ball_mem_nhds w (show 0 < η / 12 by linarith)] with w' hw' x hx
        have hw' : dist w' w < η / 12 := hw'
        exfalso
        refine h ⟨x, ?_⟩
        have t1 := dist_triangle (G x) w' w
        linarith)
  refine ⟨N, N.continuous, η / 4, by linarith, fun y hy => ?_⟩
  obtain ⟨x, hx, hp⟩ := point y hy
  have hcurve := curve_of_points hamb q hy (fun u hu => hp u (qQ u hu))
  refine ⟨⟨_, hcurve⟩, fun v w hv hw => ?_⟩
  have e : G x = v := by
    have := List.ofFn_injective (Except.ok.inj (hcurve.symm.trans hv))
    exact funext fun j => Option.some.inj (congrFun this j)
  rw [← hx]
  refine hN w x ?_
  rw [e, dist_comm, dist_pi_lt_iff (by linarith)]
  exact fun j => by rw [Real.dist_eq]; exact hw j

theorem finite_points (s : SampleV ℝ) (hs : SampleRegular s) (hn : (partNames s).Nodup) (hl : ∀ l ∈ s.structure_, LayerDrawable l) (nm : Option Str)
    (hamb : s.ambient.sld = some (.const (.real 0) nm)) (habs : ∀ l ∈ s.substrate :: s.layers, ∀ p, l.sld = some p → 0 ≤ p.min.im ∧ 0 ≤ p.max.im)
    (hnum : ∀ u y, RowWithin s y → ∃ v, curveFor s [u] (pairs y) = .ok [some v]) (Q : Set ℝ) (keys : List Str)
    (hkey : ∀ key ∈ keys, key ∈ expectedLabels s.substrate.name (s.layers.map (·.name)) s.ambient.name)
    (hdet : ∀ y y', RowWithin s y → RowWithin s y' → (∀ u ∈ Q, curveFor s [u] (pairs y) = curveFor s [u] (pairs y')) →
      (keys.map fun (key : Str) => (y key).re).sum = (keys.map fun (key : Str) => (y' key).re).sum)
    (ε : ℝ) (hε : 0 < ε) :
    ∃ q : List ℝ, (∀ u ∈ q, u ∈ Q) ∧ ∃ N : (Fin q.length → ℝ) → ℝ, Continuous N ∧ ∃ δ > 0, ∀ y, RowWithin s y →
      (∃ v : Fin q.length → ℝ, curveFor s q (pairs y) = .ok (List.ofFn fun j => some (v j))) ∧
      ∀ v w : Fin q.length → ℝ, curveFor s q (pairs y) = .ok (List.ofFn fun j => some (v j)) → (∀ j, |w j - v j| < δ) →
        |N w - (keys.map fun (key : Str) => (y key).re).sum| < ε :=
  finite_points_on s hs hn hl nm hamb habs Q (fun u _ => hnum u) keys hkey hdet ε hε

/-- **C136** (finitely many points): let every point of the curve of every admissible set of labels exist, and let the points at all momentum transfers
in a set together determine a label. Then for every tolerance finitely many of these momentum transfers are enough to learn the label: there is a
continuous function of the curve at these momentum transfers, and a size of measurement errors, such that the function gives the label of every
admissible sample up to the tolerance from every measured curve with such errors. -/
theorem C136_finite (s : SampleV ℝ) (hs : SampleRegular s) (hn : (partNames s).Nodup) (hl : ∀ l ∈ s.structure_, LayerDrawable l) (nm : Option Str)
    (hamb : s.ambient.sld = some (.const (.real 0) nm)) (habs : ∀ l ∈ s.substrate :: s.layers, ∀ p, l.sld = some p → 0 ≤ p.min.im ∧ 0 ≤ p.max.im)
    (hnum : ∀ u y, RowWithin s y → ∃ v, curveFor s [u] (pairs y) = .ok [some v]) (Q : Set ℝ) (key : Str)
    (hkey : key ∈ expectedLabels s.substrate.name (s.layers.map (·.name)) s.ambient.name)
    (hdet : ∀ y y', RowWithin s y → RowWithin s y' → (∀ u ∈ Q, curveFor s [u] (pairs y) = curveFor s [u] (pairs y')) → (y key).re = (y' key).re)
    (ε : ℝ) (hε : 0 < ε) :
    ∃ q : List ℝ, (∀ u ∈ q, u ∈ Q) ∧ ∃ N : (Fin q.length → ℝ) → ℝ, Continuous N ∧ ∃ δ > 0, ∀ y, RowWithin s y →
      (∃ v : Fin q.length → ℝ, curveFor s q (pairs y) = .ok (List.ofFn fun j => some (v j))) ∧
      ∀ v w : Fin q.length → ℝ, curveFor s q (pairs y) = .ok (List.ofFn fun j => some (v j)) → (∀ j, |w j - v j| < δ) → |N w - (y key).re| < ε := by
  have := finite_points s hs hn hl nm hamb habs hnum Q [key] (by simpa using hkey) (by simpa using hdet) ε hε
  simpa using this

/-! ### Oscillations -/

/-- If two oscillations differ by a constant in the limit, they have the same frequency. -/
theorem same_frequency {α p r p' r' d d' : ℝ} (hd : 0 ≤ d) (hd' : 0 ≤ d') (hp : p ≠ 0 ∨ r ≠ 0) (hp' : p' ≠ 0 ∨ r' ≠ 0)
    (h : Tendsto (fun x : ℝ => α + (p * Real.cos (x * d) + r * Real.sin (x * d)) - (p' * Real.cos (x * d') + r' * Real.sin (x * d'))) atTop (𝓝 0)) :
    d = d' := by
  by_contra hne
  -- an oscillation with a limit has frequency zero
  have flat : ∀ (p r d κ : ℝ), 0 ≤ d → (p ≠ 0 ∨ r ≠ 0) → Tendsto (fun x : ℝ => p * Real.cos (x * d) + r * Real.sin (x * d)) atTop (𝓝 κ) → d = 0 := by
    intro p r d κ hd hp hκ
    by_contra h0
    have hd : 0 < d := lt_of_le_of_ne hd (Ne.symm h0)
    have seq : ∀ x₀ : ℝ, Tendsto (fun n : ℕ => x₀ + n * (2 * Real.pi / d)) atTop atTop := fun x₀ =>
      tendsto_atTop_add_const_left _ _ (Tendsto.atTop_mul_const (by have := Real.pi_pos; positivity) tendsto_natCast_atTop_atTop)
    have val : ∀ x₀ : ℝ, p * Real.cos (x₀ * d) + r * Real.sin (x₀ * d) = κ := by
      intro x₀
      refine tendsto_nhds_unique (tendsto_const_nhds.congr fun n => ?_) (hκ.comp (seq x₀))
      simp only [Function.comp_apply]
      have e : (x₀ + n * (2 * Real.pi / d)) * d = x₀ * d + n * (2 * Real.pi) := by field_simp
      rw [e, Real.cos_add_nat_mul_two_pi, Real.sin_add_nat_mul_two_pi]
    have v0 := val 0
    have v1 := val (Real.pi / d)
    have v2 := val (Real.pi / 2 / d)
    rw [div_mul_cancel₀ _ hd.ne'] at v1 v2
    simp at v0 v1 v2
    rcases hp with hp | hp
    · exact hp (by linarith)
    · exact hp (by linarith)
  -- the second difference removes one of the oscillations
  have osc : ∀ (p r d x h : ℝ), (p * Real.cos ((x + h) * d) + r * Real.sin ((x + h) * d)) + (p * Real.cos ((x - h) * d) + r * Real.sin ((x - h) * d)) =
      2 * Real.cos (h * d) * (p * Real.cos (x * d) + r * Real.sin (x * d)) := by
    intro p r d x h
    rw [add_mul, sub_mul, Real.cos_add, Real.cos_sub, Real.sin_add, Real.sin_sub]
    ring
  have hsum : 0 < d + d' := by
    rcases hd.eq_or_lt with rfl | h1
    · rcases hd'.eq_or_lt with rfl | h2
      · exact absurd rfl hne
      · linarith
    · linarith
  let t := Real.pi / (d + d')
  have hcos : Real.cos (t * d) ≠ Real.cos (t * d') := by
    intro e
    have in1 : ∀ z, 0 ≤ z → z ≤ d + d' → t * z ∈ Set.Icc 0 Real.pi := by
      intro z h0 h1
      refine ⟨by have := Real.pi_pos; positivity, ?_⟩
      have : t * (d + d') = Real.pi := div_mul_cancel₀ _ hsum.ne'
      rw [← this]
      exact mul_le_mul_of_nonneg_left h1 (by have := Real.pi_pos; positivity)
    have := Real.injOn_cos (in1 d hd (by linarith)) (in1 d' hd' (by linarith)) e
    exact hne (mul_left_cancel₀ (by have := Real.pi_pos; positivity) this)
  have shift : ∀ c : ℝ, Tendsto (fun x : ℝ => x + c) atTop atTop := fun c => tendsto_atTop_add_const_right _ _ tendsto_id
  have lim : ∀ c : ℝ, Tendsto (fun x : ℝ => 2 * α * (1 - Real.cos (t * c)) +
      2 * (Real.cos (t * d) - Real.cos (t * c)) * (p * Real.cos (x * d) + r * Real.sin (x * d)) -
      2 * (Real.cos (t * d') - Real.cos (t * c)) * (p' * Real.cos (x * d') + r' * Real.sin (x * d'))) atTop (𝓝 0) := by
    intro c
    have h1 := ((h.comp (shift t)).add (h.comp (shift (-t)))).sub (h.const_mul (2 * Real.cos (t * c)))
    rw [add_zero, mul_zero, sub_zero] at h1
    refine h1.congr fun x => ?_
    simp only [Function.comp_apply, ← sub_eq_add_neg]
    have o1 := osc p r d x t
    have o2 := osc p' r' d' x t
    linear_combination o1 - o2
  have l1 := lim d
  have l2 := lim d'
  simp only [sub_self, mul_zero, zero_mul, add_zero, sub_zero] at l1 l2
  have f1 : d' = 0 := by
    refine flat p' r' d' (2 * α * (1 - Real.cos (t * d)) / (2 * (Real.cos (t * d') - Real.cos (t * d)))) hd' hp' ?_
    have hc : 2 * (Real.cos (t * d') - Real.cos (t * d)) ≠ 0 := mul_ne_zero two_ne_zero (sub_ne_zero.2 (Ne.symm hcos))
    have := ((tendsto_const_nhds (x := 2 * α * (1 - Real.cos (t * d)))).sub l1).div_const (2 * (Real.cos (t * d') - Real.cos (t * d)))
    rw [sub_zero] at this
    refine this.congr fun x => ?_
    field_simp
    ring
  have f2 : d = 0 := by
    refine flat p r d (-(2 * α * (1 - Real.cos (t * d'))) / (2 * (Real.cos (t * d) - Real.cos (t * d')))) hd hp ?_
    have hc : 2 * (Real.cos (t * d) - Real.cos (t * d')) ≠ 0 := mul_ne_zero two_ne_zero (sub_ne_zero.2 hcos)
    have := (l2.sub (tendsto_const_nhds (x := 2 * α * (1 - Real.cos (t * d'))))).div_const (2 * (Real.cos (t * d) - Real.cos (t * d')))
    rw [zero_sub] at this
    refine this.congr fun x => ?_
    field_simp
    ring
  exact hne (f2.trans f1.symm)

/-! ### A film at large momentum transfers -/

theorem wave_diff_tendsto {ρ : ℂ} (h : 0 ≤ ρ.im) : Tendsto (fun q : ℝ => codeWave q ρ - (q : ℂ) / 2) atTop (𝓝 0) := by
  set A : ℂ := 4 * (Real.pi : ℂ) * (ρ + ((10 ^ (-30 : ℤ) : ℝ) : ℂ) * I) with hA
  have bound : ∀ᶠ q : ℝ in atTop, ‖codeWave q ρ - (q : ℂ) / 2‖ ≤ 2 * ‖A‖ / q := by
    filter_upwards [eventually_gt_atTop 0] with q hq
    obtain ⟨w1, w2⟩ := (codeWave_isWave q h).1
    have e : (codeWave q ρ - (q : ℂ) / 2) * (codeWave q ρ + (q : ℂ) / 2) = -A := by
      rw [show (codeWave q ρ - (q : ℂ) / 2) * (codeWave q ρ + (q : ℂ) / 2) = codeWave q ρ ^ 2 - (q : ℂ) ^ 2 / 4 by ring, w1]
      ring
    have n : q / 2 ≤ ‖codeWave q ρ + (q : ℂ) / 2‖ := by
      refine le_trans ?_ (Complex.re_le_norm _)
      rw [Complex.add_re, show (q : ℂ) / 2 = ((q / 2 : ℝ) : ℂ) by push_cast; ring, Complex.ofReal_re]
      linarith
    have e' := congrArg norm e
    rw [norm_mul, norm_neg] at e'
    rw [le_div_iff₀ hq]
    nlinarith [norm_nonneg (codeWave q ρ - (q : ℂ) / 2), mul_le_mul_of_nonneg_left n (norm_nonneg (codeWave q ρ - (q : ℂ) / 2))]
  refine squeeze_zero_norm' bound ?_
  exact tendsto_const_nhds.div_atTop tendsto_id

theorem wave_sum_tendsto {ρ ρ' : ℂ} (h : 0 ≤ ρ.im) (h' : 0 ≤ ρ'.im) : Tendsto (fun q : ℝ => (codeWave q ρ + codeWave q ρ') / (q : ℂ)) atTop (𝓝 1) := by
  have inv : Tendsto (fun q : ℝ => ((q : ℂ))⁻¹) atTop (𝓝 0) := by
    have := (Complex.continuous_ofReal.tendsto 0).comp tendsto_inv_atTop_zero
    simpa [Function.comp_def] using this
  have t := ((((wave_diff_tendsto h).add (wave_diff_tendsto h')).mul inv).add (tendsto_const_nhds (x := (1 : ℂ))))
  simp only [add_zero, zero_mul, mul_zero, zero_add] at t
  refine t.congr' ?_
  filter_upwards [eventually_gt_atTop 0] with q hq
  have : (q : ℂ) ≠ 0 := by exact_mod_cast hq.ne'
  field_simp
  ring

/-- The Fresnel coefficient of a sharp interface at large momentum transfers. -/
theorem fresnel_tendsto {ρ ρ' : ℂ} (h : 0 ≤ ρ.im) (h' : 0 ≤ ρ'.im) :
    Tendsto (fun q : ℝ => (q : ℂ) ^ 2 * ((codeWave q ρ - codeWave q ρ') / (codeWave q ρ + codeWave q ρ'))) atTop (𝓝 (4 * (Real.pi : ℂ) * (ρ' - ρ))) := by
  have t := ((wave_sum_tendsto h h').pow 2).inv₀ (by simp)
  have t := t.const_mul (4 * (Real.pi : ℂ) * (ρ' - ρ))
  simp only [one_pow, inv_one, mul_one] at t
  refine t.congr' ?_
  filter_upwards [eventually_gt_atTop 0] with q hq
  have hq0 : (q : ℂ) ≠ 0 := by exact_mod_cast hq.ne'
  obtain ⟨w1, w2⟩ := (codeWave_isWave q h).1
  obtain ⟨v1, v2⟩ := (codeWave_isWave q h').1
  have hs := wave_add_ne_zero w2 v2
  have e : (codeWave q ρ - codeWave q ρ') * (codeWave q ρ + codeWave q ρ') = 4 * (Real.pi : ℂ) * (ρ' - ρ) := by
    rw [show (codeWave q ρ - codeWave q ρ') * (codeWave q ρ + codeWave q ρ') = codeWave q ρ ^ 2 - codeWave q ρ' ^ 2 by ring, w1, v1]
    ring
  rw [← e]
  field_simp

/-- The ratio of the reflected to the incoming wave above a film with sharp interfaces. -/
noncomputable def filmRatio (ρ₁ ρ₂ : ℂ) (d q : ℝ) : ℂ :=
  ((codeWave q 0 - codeWave q ρ₁) / (codeWave q 0 + codeWave q ρ₁) +
    (codeWave q ρ₁ - codeWave q ρ₂) / (codeWave q ρ₁ + codeWave q ρ₂) * cexp (-(2 * I * codeWave q ρ₁ * d))) /
  (1 + (codeWave q 0 - codeWave q ρ₁) / (codeWave q 0 + codeWave q ρ₁) *
    ((codeWave q ρ₁ - codeWave q ρ₂) / (codeWave q ρ₁ + codeWave q ρ₂) * cexp (-(2 * I * codeWave q ρ₁ * d))))

theorem codePoint_film (ρ₁ ρ₂ : ℂ) (h₁ : 0 ≤ ρ₁.im) (h₂ : 0 ≤ ρ₂.im) (d q : ℝ) (hd : 0 ≤ d) :
    codePoint [d] [0, 0] [ρ₂, ρ₁] q = some (min (‖filmRatio ρ₁ ρ₂ d q‖ ^ 2) 1) := by
  have hp : ∀ ρ ∈ [ρ₂, ρ₁], 0 ≤ ρ.im := by simp [h₁, h₂]
  obtain ⟨x, hx⟩ := C113_sharp q [d] [0, 0] [ρ₂, ρ₁] hp (by simp) (by simpa using hd) (codeWave q) (fun ρ h => (codeWave_isWave q h).1)
  have h := C113_parratt q [d] [0, 0] [ρ₂, ρ₁] rfl rfl hp (codeWave q) (fun ρ h => (codeWave_isWave q h).1) x hx
  rw [multilayer_eq _ _ _ _ rfl rfl, List.map_singleton] at h
  rw [(List.cons.inj (Except.ok.inj h)).1]
  have e : slabs [d] [0, 0] [ρ₂, ρ₁] = [⟨0, ρ₁, d⟩, ⟨0, ρ₂, 0⟩] := rfl
  rw [e] at hx
  simp only [parratt, Option.bind_some, zero_mul, mul_zero, add_zero, one_ne_zero, if_false, div_one, fresnel] at hx
  have ite_some : ∀ (c : Prop) [Decidable c] (a : ℂ), (if c then none else some a) = some x → a = x := by
    intro c _ a h
    split_ifs at h
    exact Option.some.inj h
  rw [← ite_some _ _ hx]
  unfold filmRatio
  simp

theorem film_tendsto {ρ₁ ρ₂ : ℂ} (h₁ : 0 ≤ ρ₁.im) (h₂ : 0 ≤ ρ₂.im) (d : ℝ) :
    Tendsto (fun q : ℝ => (q : ℂ) ^ 2 * filmRatio ρ₁ ρ₂ d q - (4 * (Real.pi : ℂ) * ρ₁ + 4 * (Real.pi : ℂ) * (ρ₂ - ρ₁) * cexp (-(I * (q * d : ℝ))))) atTop (𝓝 0) ∧
    Tendsto (fun q : ℝ => filmRatio ρ₁ ρ₂ d q) atTop (𝓝 0) := by
  let E : ℝ → ℂ := fun q => cexp (-(I * (q * d : ℝ)))
  have nE : ∀ q, ‖E q‖ = 1 := by
    intro q
    simp only [E]
    rw [Complex.norm_exp]
    simp
  have mulE : ∀ {f : ℝ → ℂ}, Tendsto f atTop (𝓝 0) → Tendsto (fun q => f q * E q) atTop (𝓝 0) := by
    intro f hf
    rw [tendsto_zero_iff_norm_tendsto_zero] at hf ⊢
    refine hf.congr fun q => ?_
    rw [norm_mul, nE, mul_one]
  have inv : Tendsto (fun q : ℝ => ((q : ℂ) ^ 2)⁻¹) atTop (𝓝 0) := by
    have := (Complex.continuous_ofReal.tendsto 0).comp ((tendsto_pow_atTop two_ne_zero).inv_tendsto_atTop (𝕜 := ℝ))
    simpa [Function.comp_def] using this
  let A : ℝ → ℂ := fun q => (codeWave q 0 - codeWave q ρ₁) / (codeWave q 0 + codeWave q ρ₁)
  let B : ℝ → ℂ := fun q => (codeWave q ρ₁ - codeWave q ρ₂) / (codeWave q ρ₁ + codeWave q ρ₂)
  let g : ℝ → ℂ := fun q => cexp (-(2 * I * (codeWave q ρ₁ - (q : ℂ) / 2) * d))
  have tA : Tendsto (fun q : ℝ => (q : ℂ) ^ 2 * A q) atTop (𝓝 (4 * (Real.pi : ℂ) * ρ₁)) := by
    have := fresnel_tendsto (ρ := 0) (ρ' := ρ₁) (by simp) h₁
    rwa [sub_zero] at this
  have tB : Tendsto (fun q : ℝ => (q : ℂ) ^ 2 * B q) atTop (𝓝 (4 * (Real.pi : ℂ) * (ρ₂ - ρ₁))) := fresnel_tendsto h₁ h₂
  have tg : Tendsto g atTop (𝓝 1) := by
    have := (((wave_diff_tendsto h₁).const_mul (2 * I)).mul_const (d : ℂ)).neg
    rw [mul_zero, zero_mul, neg_zero] at this
    have := (Complex.continuous_exp.tendsto 0).comp this
    rwa [Complex.exp_zero] at this
  have zero_of : ∀ {f : ℝ → ℂ} {c : ℂ}, Tendsto (fun q : ℝ => (q : ℂ) ^ 2 * f q) atTop (𝓝 c) → Tendsto f atTop (𝓝 0) := by
    intro f c hf
    have := hf.mul inv
    rw [mul_zero] at this
    refine this.congr' ?_
    filter_upwards [eventually_gt_atTop 0] with q hq
    have : (q : ℂ) ≠ 0 := by exact_mod_cast hq.ne'
    field_simp
  have A0 := zero_of tA
  have B0 := zero_of tB
  have hz : ∀ q : ℝ, cexp (-(2 * I * codeWave q ρ₁ * d)) = g q * E q := by
    intro q
    simp only [g, E]
    rw [← Complex.exp_add]
    congr 1
    push_cast
    ring
  have tBz : Tendsto (fun q => B q * g q * E q) atTop (𝓝 0) := mulE (by simpa using B0.mul tg)
  have tw : Tendsto (fun q => A q * (B q * g q * E q)) atTop (𝓝 0) := by simpa using A0.mul tBz
  have t1w : Tendsto (fun q => 1 + A q * (B q * g q * E q)) atTop (𝓝 1) := by simpa using tw.const_add 1
  have hr : ∀ q, filmRatio ρ₁ ρ₂ d q = (A q + B q * g q * E q) / (1 + A q * (B q * g q * E q)) := by
    intro q
    unfold filmRatio
    rw [hz q, ← mul_assoc (B q) (g q)]
  have hne : ∀ᶠ q in atTop, 1 + A q * (B q * g q * E q) ≠ 0 := t1w.eventually_ne one_ne_zero
  constructor
  · let n : ℝ → ℂ := fun q => (q : ℂ) ^ 2 * A q + (q : ℂ) ^ 2 * B q * g q * E q
    have tn : Tendsto (fun q => n q - (4 * (Real.pi : ℂ) * ρ₁ + 4 * (Real.pi : ℂ) * (ρ₂ - ρ₁) * E q)) atTop (𝓝 0) := by
      have u1 := tA.sub_const (4 * (Real.pi : ℂ) * ρ₁)
      have u2 := (tB.mul tg).sub_const (4 * (Real.pi : ℂ) * (ρ₂ - ρ₁))
      rw [mul_one] at u2
      rw [sub_self] at u1 u2
      have := u1.add (mulE u2)
      rw [add_zero] at this
      refine this.congr fun q => ?_
      simp only [n]
      ring
    have tv : Tendsto (fun q => A q * (B q * g q * E q) / (1 + A q * (B q * g q * E q))) atTop (𝓝 0) := by
      have := tw.div t1w one_ne_zero
      rw [zero_div] at this
      exact this
    have tv1 := tv.mul_const (4 * (Real.pi : ℂ) * ρ₁)
    have tv2 := tv.mul_const (4 * (Real.pi : ℂ) * (ρ₂ - ρ₁))
    rw [zero_mul] at tv1 tv2
    have u3 := tn.sub ((tv.mul tn).add (tv1.add (mulE tv2)))
    rw [mul_zero, add_zero, add_zero, sub_zero] at u3
    refine u3.congr' ?_
    filter_upwards [hne] with q hq
    rw [hr q]
    simp only [n]
    change _ = (q : ℂ) ^ 2 * ((A q + B q * g q * E q) / (1 + A q * (B q * g q * E q))) - (4 * (Real.pi : ℂ) * ρ₁ + 4 * (Real.pi : ℂ) * (ρ₂ - ρ₁) * E q)
    rw [show (q : ℂ) ^ 2 * B q * g q * E q = (q : ℂ) ^ 2 * (B q * g q * E q) by ring]
    generalize B q * g q * E q = b at hq ⊢
    generalize A q = a at hq ⊢
    generalize E q = e
    rw [show a * b = 1 + a * b - 1 by ring]
    generalize 1 + a * b = w at hq ⊢
    rw [show 1 + (w - 1) = w by ring]
    have e1 : (w - 1) / w = 1 - w⁻¹ := by field_simp
    rw [e1, div_eq_mul_inv]
    ring
  · have := (A0.add tBz).div t1w one_ne_zero
    rw [add_zero, zero_div] at this
    exact this.congr fun q => (hr q).symm

theorem normSq_tendsto {x y : ℝ → ℂ} {c : ℝ} (hy : ∀ q, ‖y q‖ ≤ c) (h : Tendsto (fun q => x q - y q) atTop (𝓝 0)) :
    Tendsto (fun q => ‖x q‖ ^ 2 - ‖y q‖ ^ 2) atTop (𝓝 0) := by
  have d : Tendsto (fun q => ‖x q‖ - ‖y q‖) atTop (𝓝 0) :=
    squeeze_zero_norm (fun q => by rw [Real.norm_eq_abs]; exact abs_norm_sub_norm_le _ _) (tendsto_zero_iff_norm_tendsto_zero.1 h)
  have m : Tendsto (fun q => ‖y q‖ * (‖x q‖ - ‖y q‖)) atTop (𝓝 0) := by
    have d' := (tendsto_zero_iff_norm_tendsto_zero.1 d).const_mul c
    rw [mul_zero] at d'
    refine squeeze_zero_norm (fun q => ?_) d'
    rw [norm_mul, norm_norm]
    exact mul_le_mul_of_nonneg_right (hy q) (norm_nonneg _)
  have := (d.pow 2).add (m.const_mul 2)
  rw [zero_pow two_ne_zero, mul_zero, add_zero] at this
  refine this.congr fun q => ?_
  ring

theorem norm_wave_sum (a b : ℂ) (t : ℝ) : ‖a + b * cexp (-(I * (t : ℝ)))‖ ^ 2 =
    ‖a‖ ^ 2 + ‖b‖ ^ 2 + (2 * (starRingEnd ℂ a * b).re * Real.cos t + 2 * (starRingEnd ℂ a * b).im * Real.sin t) := by
  have e : cexp (-(I * (t : ℝ))) = (Real.cos t : ℂ) - (Real.sin t : ℂ) * I := by
    rw [show -(I * (t : ℂ)) = ((-t : ℝ) : ℂ) * I by push_cast; ring, Complex.exp_mul_I, ← Complex.ofReal_cos, ← Complex.ofReal_sin, Real.cos_neg, Real.sin_neg]
    push_cast
    ring
  rw [e, ← Complex.normSq_eq_norm_sq, ← Complex.normSq_eq_norm_sq, ← Complex.normSq_eq_norm_sq, Complex.normSq_apply, Complex.normSq_apply, Complex.normSq_apply]
  simp only [Complex.add_re, Complex.add_im, Complex.mul_re, Complex.mul_im, Complex.sub_re, Complex.sub_im, Complex.ofReal_re, Complex.ofReal_im, Complex.I_re,
    Complex.I_im, Complex.conj_re, Complex.conj_im, mul_zero, mul_one, zero_mul, sub_zero, add_zero, zero_add, zero_sub]
  linear_combination (b.re ^ 2 + b.im ^ 2) * Real.sin_sq_add_cos_sq t

/-- The thickness of a film follows from its reflectivity at large momentum transfers. -/
theorem film_thickness {ρ₁ ρ₂ ρ₁' ρ₂' : ℂ} {d d' : ℝ} (h₁ : 0 ≤ ρ₁.im) (h₂ : 0 ≤ ρ₂.im) (h₁' : 0 ≤ ρ₁'.im) (h₂' : 0 ≤ ρ₂'.im) (hd : 0 ≤ d) (hd' : 0 ≤ d')
    (n1 : ρ₁ ≠ 0) (n2 : ρ₂ ≠ ρ₁) (n1' : ρ₁' ≠ 0) (n2' : ρ₂' ≠ ρ₁') (U : ℝ)
    (h : ∀ q ≥ U, codePoint [d] [0, 0] [ρ₂, ρ₁] q = codePoint [d'] [0, 0] [ρ₂', ρ₁'] q) : d = d' := by
  obtain ⟨t1, t2⟩ := film_tendsto h₁ h₂ d
  obtain ⟨t1', t2'⟩ := film_tendsto h₁' h₂' d'
  have small : ∀ {f : ℝ → ℂ}, Tendsto f atTop (𝓝 0) → ∀ᶠ q in atTop, ‖f q‖ ^ 2 ≤ 1 := by
    intro f hf
    filter_upwards [(tendsto_zero_iff_norm_tendsto_zero.1 hf).eventually (gt_mem_nhds one_pos)] with q hq
    exact pow_le_one₀ (norm_nonneg _) hq.le
  have same : ∀ᶠ q in atTop, ‖filmRatio ρ₁ ρ₂ d q‖ ^ 2 = ‖filmRatio ρ₁' ρ₂' d' q‖ ^ 2 := by
    filter_upwards [small t2, small t2', eventually_ge_atTop U] with q s1 s2 hq
    have e := h q hq
    rw [codePoint_film _ _ h₁ h₂ _ _ hd, codePoint_film _ _ h₁' h₂' _ _ hd', min_eq_left s1, min_eq_left s2] at e
    exact Option.some.inj e
  have bound : ∀ (a b : ℂ) (t : ℝ), ‖a + b * cexp (-(I * (t : ℝ)))‖ ≤ ‖a‖ + ‖b‖ := by
    intro a b t
    refine (norm_add_le _ _).trans (add_le_add_right (le_of_eq ?_) _)
    rw [norm_mul, Complex.norm_exp]
    simp
  have l1 := normSq_tendsto (fun q => bound _ _ (q * d)) t1
  have l2 := normSq_tendsto (fun q => bound _ _ (q * d')) t1'
  have l := l2.sub l1
  rw [sub_zero] at l
  have pi0 : (4 * (Real.pi : ℂ)) ≠ 0 := mul_ne_zero (by norm_num) (by exact_mod_cast Real.pi_ne_zero)
  have nz : ∀ {a b : ℂ}, a ≠ 0 → b ≠ 0 → (2 * (starRingEnd ℂ a * b).re ≠ 0 ∨ 2 * (starRingEnd ℂ a * b).im ≠ 0) := by
    intro a b ha hb
    by_contra hc
    push Not at hc
    have : starRingEnd ℂ a * b = 0 := Complex.ext (by simpa using hc.1) (by simpa using hc.2)
    rcases mul_eq_zero.1 this with h0 | h0
    · exact ha ((map_eq_zero _).1 h0)
    · exact hb h0
  refine same_frequency (α := ‖4 * (Real.pi : ℂ) * ρ₁‖ ^ 2 + ‖4 * (Real.pi : ℂ) * (ρ₂ - ρ₁)‖ ^ 2 - (‖4 * (Real.pi : ℂ) * ρ₁'‖ ^ 2 + ‖4 * (Real.pi : ℂ) * (ρ₂' - ρ₁')‖ ^ 2))
    hd hd' (nz (mul_ne_zero pi0 n1) (mul_ne_zero pi0 (sub_ne_zero.2 n2))) (nz (mul_ne_zero pi0 n1') (mul_ne_zero pi0 (sub_ne_zero.2 n2'))) ?_
  refine l.congr' ?_
  filter_upwards [same] with q hq
  rw [norm_mul, norm_mul, mul_pow, mul_pow, hq, norm_wave_sum, norm_wave_sum]
  ring

/-! ### Samples with one film -/

/-- A sample with one film between vacuum and substrate and with sharp interfaces. -/
structure SharpFilm (s : SampleV ℝ) (l : LayerV ℝ) (p₁ p₂ : Param ℝ) : Prop where
  layers : s.layers = [l]
  ambient : ∃ nm, s.ambient.sld = some (.const (.real 0) nm)
  rough : ∃ nm, l.roughness = some (.const (.real 0) nm)
  rough' : ∃ nm, s.substrate.roughness = some (.const (.real 0) nm)
  film : l.sld = some p₁
  substrate : s.substrate.sld = some p₂
  absorption : 0 ≤ p₁.min.im ∧ 0 ≤ p₁.max.im ∧ 0 ≤ p₂.min.im ∧ 0 ≤ p₂.max.im

/-- The film has a density, and no density of the film is a density of the substrate. -/
structure Contrast (p₁ p₂ : Param ℝ) : Prop where
  film : ∀ z, InRange p₁ z → ¬ (z.re = 0 ∧ z.im = 0)
  substrate : ∀ z z', InRange p₁ z → InRange p₂ z' → ¬ (z'.re = z.re ∧ z'.im = z.im)

theorem SharpFilm.habs {s : SampleV ℝ} {l : LayerV ℝ} {p₁ p₂ : Param ℝ} (h : SharpFilm s l p₁ p₂) :
    ∀ l ∈ s.substrate :: s.layers, ∀ p, l.sld = some p → 0 ≤ p.min.im ∧ 0 ≤ p.max.im := by
  intro l' hm p hp
  rw [h.layers] at hm
  obtain ⟨a1, a2, a3, a4⟩ := h.absorption
  rcases List.mem_cons.1 hm with rfl | hm
  · rw [h.substrate] at hp
    cases hp
    exact ⟨a3, a4⟩
  · rw [List.mem_singleton] at hm
    subst hm
    rw [h.film] at hp
    cases hp
    exact ⟨a1, a2⟩

/-- The density of a label in SI units. -/
noncomputable def siDensity (v : Num ℝ) : ℂ := (⟨v.re, v.im⟩ : ℂ) * 1e14

theorem siDensity_im {v : Num ℝ} (h : 0 ≤ v.im) : 0 ≤ (siDensity v).im := by
  have : (siDensity v).im = v.im * 1e14 := by
    unfold siDensity
    rw [show (1e14 : ℂ) = ((1e14 : ℝ) : ℂ) by norm_num, Complex.im_mul_ofReal]
  rw [this]
  positivity

theorem siDensity_inj {v w : Num ℝ} (h : siDensity v = siDensity w) : v.re = w.re ∧ v.im = w.im := by
  have := mul_right_cancel₀ (by norm_num) h
  exact ⟨congrArg Complex.re this, congrArg Complex.im this⟩

/-- The points of the curve of such a sample. -/
theorem film_curve {s : SampleV ℝ} {l : LayerV ℝ} {p₁ p₂ : Param ℝ} (hs : SampleRegular s) (hl : ∀ l ∈ s.structure_, LayerDrawable l)
    (h : SharpFilm s l p₁ p₂) (q : List ℝ) {y : Str → Num ℝ} (hy : RowWithin s y) :
    curveFor s q (pairs y) = .ok (q.map fun (u : ℝ) => codePoint [(y (l.name ++ "_thickness".toList)).re * 1e-10] [0, 0]
      [siDensity (y (s.substrate.name ++ "_sld".toList)), siDensity (y (l.name ++ "_sld".toList))] (u * 1e10)) ∧
    0 ≤ (y (l.name ++ "_thickness".toList)).re * 1e-10 ∧
    0 ≤ (siDensity (y (s.substrate.name ++ "_sld".toList))).im ∧ 0 ≤ (siDensity (y (l.name ++ "_sld".toList))).im := by
  obtain ⟨nm, hamb⟩ := h.ambient
  obtain ⟨n1, r1⟩ := h.rough
  obtain ⟨n2, r2⟩ := h.rough'
  have ml : l ∈ s.layers := by rw [h.layers]; exact List.mem_singleton_self l
  have e1 : y (l.name ++ "_roughness".toList) = .real 0 := hy.roughness l (List.mem_cons_of_mem _ ml) _ r1
  have e2 : y (s.substrate.name ++ "_roughness".toList) = .real 0 := hy.roughness s.substrate List.mem_cons_self _ r2
  obtain ⟨-, im⟩ := within_physical hs hamb h.habs hy
  refine ⟨?_, ?_, siDensity_im (im _ List.mem_cons_self), siDensity_im (im l (List.mem_cons_of_mem _ ml))⟩
  · rw [curveFor_points hamb q hy]
    have z : (Num.real (0 : ℝ)).re * (1e-10 : ℝ) = 0 := by rw [show (Num.real (0 : ℝ)).re = 0 from rfl, zero_mul]
    rw [h.layers]
    simp only [List.map_cons, List.map_nil]
    rw [e1, e2, z]
    rfl
  · obtain ⟨p, hp, -, hp0⟩ := (hs.layers l ml).thickness
    obtain ⟨a, b, h1, h2, h3⟩ := (hl l (by simp [SampleV.structure_, ml])).thickness p hp
    have ha : 0 ≤ a := by
      rw [h1] at hp0
      simpa [Num.ltZero] using hp0
    have hr := (inRange_box (hy.thickness l ml p hp)).1
    rw [h1, h2] at hr
    have : 0 ≤ (y (l.name ++ "_thickness".toList)).re := ha.trans ((le_min le_rfl h3).trans hr.1)
    positivity

/-- **C136** (the whole curve determines the thickness): for a film with sharp interfaces, whose density is different from zero and from the density of
the substrate, the points of the curve at large momentum transfers determine the thickness, even if both densities are unknown. -/
theorem C136_film (s : SampleV ℝ) (l : LayerV ℝ) (p₁ p₂ : Param ℝ) (hs : SampleRegular s) (hl : ∀ l ∈ s.structure_, LayerDrawable l)
    (h : SharpFilm s l p₁ p₂) (hc : Contrast p₁ p₂) (U : ℝ) (y y' : Str → Num ℝ) (hy : RowWithin s y) (hy' : RowWithin s y')
    (e : ∀ u ≥ U, curveFor s [u] (pairs y) = curveFor s [u] (pairs y')) :
    (y (l.name ++ "_thickness".toList)).re = (y' (l.name ++ "_thickness".toList)).re := by
  have ml : l ∈ s.layers := by rw [h.layers]; exact List.mem_singleton_self l
  have F := fun u => film_curve hs hl h [u] hy
  have F' := fun u => film_curve hs hl h [u] hy'
  obtain ⟨-, d0, i2, i1⟩ := F 0
  obtain ⟨-, d0', i2', i1'⟩ := F' 0
  have m1 : l ∈ s.substrate :: s.layers ++ [s.ambient] := List.mem_append_left _ (List.mem_cons_of_mem _ ml)
  have m2 : s.substrate ∈ s.substrate :: s.layers ++ [s.ambient] := List.mem_append_left _ List.mem_cons_self
  have contrast : ∀ z, RowWithin s z → siDensity (z (l.name ++ "_sld".toList)) ≠ 0 ∧
      siDensity (z (s.substrate.name ++ "_sld".toList)) ≠ siDensity (z (l.name ++ "_sld".toList)) := by
    intro z hz
    have w1 := hz.sld l m1 _ h.film
    have w2 := hz.sld s.substrate m2 _ h.substrate
    refine ⟨fun e0 => hc.film _ w1 ?_, fun e0 => hc.substrate _ _ w1 w2 (siDensity_inj e0)⟩
    refine siDensity_inj (w := .real 0) (e0.trans ?_)
    unfold siDensity
    rw [show (⟨(Num.real (0 : ℝ)).re, (Num.real (0 : ℝ)).im⟩ : ℂ) = 0 from rfl, zero_mul]
  have := film_thickness i1 i2 i1' i2' d0 d0' (contrast y hy).1 (contrast y hy).2 (contrast y' hy').1 (contrast y' hy').2 (U * 1e10) fun q hq => by
    have hu : U ≤ q * 1e-10 := by nlinarith
    have e0 := e (q * 1e-10) hu
    rw [(F _).1, (F' _).1] at e0
    have e0 := (List.cons.inj (Except.ok.inj e0)).1
    beta_reduce at e0
    rwa [show q * 1e-10 * 1e10 = q by ring] at e0
  exact mul_right_cancel₀ (by norm_num) this

/-- **C136** (the thickness can be learned): for such a sample, every tolerance and every lower limit for the momentum transfers there are finitely many
momentum transfers above the limit, a continuous function of the curve at these momentum transfers and a size of measurement errors, such that the function
gives the thickness of every admissible sample up to the tolerance from every measured curve with such errors. -/
theorem C136_thickness (s : SampleV ℝ) (l : LayerV ℝ) (p₁ p₂ : Param ℝ) (hs : SampleRegular s) (hn : (partNames s).Nodup)
    (hl : ∀ l ∈ s.structure_, LayerDrawable l) (h : SharpFilm s l p₁ p₂) (hc : Contrast p₁ p₂) (U ε : ℝ) (hε : 0 < ε) :
    ∃ q : List ℝ, (∀ u ∈ q, U ≤ u) ∧ ∃ N : (Fin q.length → ℝ) → ℝ, Continuous N ∧ ∃ δ > 0, ∀ y, RowWithin s y →
      (∃ v : Fin q.length → ℝ, curveFor s q (pairs y) = .ok (List.ofFn fun j => some (v j))) ∧
      ∀ v w : Fin q.length → ℝ, curveFor s q (pairs y) = .ok (List.ofFn fun j => some (v j)) → (∀ j, |w j - v j| < δ) →
        |N w - (y (l.name ++ "_thickness".toList)).re| < ε := by
  obtain ⟨nm, hamb⟩ := h.ambient
  have ml : l ∈ s.layers := by rw [h.layers]; exact List.mem_singleton_self l
  refine C136_finite s hs hn hl nm hamb h.habs (fun u y hy => ?_) (Set.Ici U) _ (mem_labels.1 l ml)
    (fun y y' hy hy' e => C136_film s l p₁ p₂ hs hl h hc U y y' hy hy' e) ε hε
  obtain ⟨e, d0, i2, i1⟩ := film_curve hs hl h [u] hy
  rw [e, List.map_singleton, codePoint_film _ _ i1 i2 _ _ d0]
  exact ⟨_, rfl⟩

/-- **C136** (no contrast): if film and substrate have the same density, samples that differ only in the thickness of the film have the same curve: no
momentum transfers are enough to tell the thickness. -/
theorem C136_invisible (s : SampleV ℝ) (l : LayerV ℝ) (p₁ p₂ : Param ℝ) (hs : SampleRegular s) (hl : ∀ l ∈ s.structure_, LayerDrawable l)
    (h : SharpFilm s l p₁ p₂) (q : List ℝ) (y y' : Str → Num ℝ) (hy : RowWithin s y) (hy' : RowWithin s y')
    (same : ∀ z ∈ [y, y'], z (s.substrate.name ++ "_sld".toList) = z (l.name ++ "_sld".toList))
    (e : y (l.name ++ "_sld".toList) = y' (l.name ++ "_sld".toList)) : curveFor s q (pairs y) = curveFor s q (pairs y') := by
  obtain ⟨f, d0, i2, i1⟩ := film_curve hs hl h q hy
  obtain ⟨f', d0', i2', i1'⟩ := film_curve hs hl h q hy'
  rw [f, f']
  congr 1
  refine List.map_congr_left fun u _ => ?_
  rw [codePoint_film _ _ i1 i2 _ _ d0, codePoint_film _ _ i1' i2' _ _ d0']
  unfold filmRatio
  rw [same y (by simp), same y' (by simp), e]
  simp

/-- A film of unknown thickness and density on a substrate. -/
noncomputable def exampleThinFilm : SampleV ℝ where
  substrate := ⟨.substrate, "Si".toList, none, some (.const (.real 0) (some "roughness".toList)), some (.const (.real 20) (some "sld".toList))⟩
  ambient := ⟨.ambient, "air".toList, none, none, some (.const (.real 0) (some "sld".toList))⟩
  layers := [⟨.layer, "film".toList, some (.range (.real 20) (.real 1000) (some "thickness".toList)), some (.const (.real 0) (some "roughness".toList)),
    some (.range (.real 5) (.real 15) (some "sld".toList))⟩]

/-- The hypotheses of C136 hold for it: its thickness can be learned up to 1 Å from finitely many points at momentum transfers above 0.01/Å. -/
example : ∃ q : List ℝ, (∀ u ∈ q, 0.01 ≤ u) ∧ ∃ N : (Fin q.length → ℝ) → ℝ, Continuous N ∧ ∃ δ > 0, ∀ y, RowWithin exampleThinFilm y →
      (∃ v : Fin q.length → ℝ, curveFor exampleThinFilm q (pairs y) = .ok (List.ofFn fun j => some (v j))) ∧
      ∀ v w : Fin q.length → ℝ, curveFor exampleThinFilm q (pairs y) = .ok (List.ofFn fun j => some (v j)) → (∀ j, |w j - v j| < δ) →
        |N w - (y ("film".toList ++ "_thickness".toList)).re| < 1 := by
  refine C136_thickness exampleThinFilm _ (.range (.real 5) (.real 15) (some "sld".toList)) (.const (.real 20) (some "sld".toList)) ?_ ?_ ?_
    ⟨rfl, ⟨_, rfl⟩, ⟨_, rfl⟩, ⟨_, rfl⟩, rfl, rfl, le_refl (0 : ℝ), le_refl (0 : ℝ), le_refl (0 : ℝ), le_refl (0 : ℝ)⟩ ⟨?_, ?_⟩ 0.01 1 one_pos
  · refine ⟨⟨rfl, rfl, ⟨_, rfl, ⟨rfl, trivial⟩, ?_⟩, ⟨_, rfl, rfl, trivial⟩⟩, ⟨rfl, rfl, rfl, ⟨_, rfl, rfl, trivial⟩⟩, ?_⟩
    · simp only [Param.min, Num.ltZero]; norm_num
    · intro l hl
      rw [show exampleThinFilm.layers = [_] from rfl, List.mem_singleton] at hl
      subst hl
      refine ⟨Or.inl rfl, ⟨_, rfl, ⟨rfl, ?_⟩, ?_⟩, ⟨_, rfl, ⟨rfl, trivial⟩, ?_⟩, ⟨_, rfl, rfl, ?_⟩⟩
      · simp only [ParamValid, Num.ge]; norm_num
      · simp only [Param.min, Num.ltZero]; norm_num
      · simp only [Param.min, Num.ltZero]; norm_num
      · simp only [ParamValid, Num.ge]; norm_num
  · simp only [partNames, exampleThinFilm]; decide
  · intro l hl
    simp only [SampleV.structure_, exampleThinFilm, List.cons_append, List.nil_append, List.mem_cons, List.not_mem_nil, or_false] at hl
    rcases hl with rfl | rfl | rfl
    · refine ⟨?_, by simp, ?_⟩ <;> rintro p ⟨⟩
      · trivial
      · exact ⟨0, 0, rfl, rfl, le_rfl⟩
    · refine ⟨?_, ?_, ?_⟩ <;> rintro p ⟨⟩
      · exact ⟨show (5 : ℝ) ≤ 15 by norm_num, le_refl (0 : ℝ), Or.inl ⟨_, _, rfl, rfl⟩⟩
      · exact ⟨20, 1000, rfl, rfl, by norm_num⟩
      · exact ⟨0, 0, rfl, rfl, le_rfl⟩
    · refine ⟨?_, by simp, by simp⟩
      rintro p ⟨⟩
      trivial
  · rintro z ⟨x, rfl, h1, h2⟩ ⟨h3, -⟩
    have : x = 0 := h3
    linarith
  · rintro z z' ⟨x, rfl, h1, h2⟩ hz' ⟨h3, -⟩
    cases hz'
    have : (20 : ℝ) = x := h3
    linarith

end Verif.Props
