import Verif.Props.Learnable

/-!
# C134: enough random training data
-/

namespace Verif.Props
open Verif.Py Verif.Model Verif.Spec Verif.Lemmas Complex Filter Topology MeasureTheory ProbabilityTheory

/-- Among the rows of a table of `n` labels, row `i` has the curve that is nearest to `w`: its largest deviation from `w` is not larger than that of the curve of
any other row. -/
def NearestRow (s : SampleV ℝ) (q : List ℝ) (n : ℕ) (f : Frame (Num ℝ)) (w : Fin q.length → ℝ) (i : Fin n) : Prop :=
  ∃ u : Fin q.length → ℝ, curveFor s q (rowOf f i) = .ok (List.ofFn fun j => some (u j)) ∧
    ∀ (i' : Fin n) (u' : Fin q.length → ℝ), curveFor s q (rowOf f i') = .ok (List.ofFn fun j => some (u' j)) → dist u w ≤ dist u' w

/-- Close admissible labels have close curves, with the same bound for all. -/
theorem curve_uniform (s : SampleV ℝ) (hs : SampleRegular s) (hn : (partNames s).Nodup) (hl : ∀ l ∈ s.structure_, LayerDrawable l) (nm : Option Str)
    (hamb : s.ambient.sld = some (.const (.real 0) nm)) (habs : ∀ l ∈ s.substrate :: s.layers, ∀ p, l.sld = some p → 0 ≤ p.min.im ∧ 0 ≤ p.max.im)
    (q : List ℝ) (hnum : ∀ y, RowWithin s y → ∃ v : Fin q.length → ℝ, curveFor s q (pairs y) = .ok (List.ofFn fun j => some (v j))) (η : ℝ) (hη : 0 < η) :
    ∃ ρ > 0, ∀ y y', RowWithin s y → RowWithin s y' →
      (∀ k ∈ expectedLabels s.substrate.name (s.layers.map (·.name)) s.ambient.name, |(y k).re - (y' k).re| < ρ ∧ |(y k).im - (y' k).im| < ρ) →
      ∀ v v' : Fin q.length → ℝ, curveFor s q (pairs y) = .ok (List.ofFn fun j => some (v j)) →
        curveFor s q (pairs y') = .ok (List.ofFn fun j => some (v' j)) → dist v v' < η := by
  have hK := admissible_compact s hs
  have fam := curve_map s hs hn hl nm hamb habs q hnum
  set labels := expectedLabels s.substrate.name (s.layers.map (·.name)) s.ambient.name with hlabels
  set K : Set (LabelSpace labels) := {x | Admissible s (atLabel x)} with hKdef
  have : CompactSpace K := isCompact_iff_compactSpace.1 hK
  obtain ⟨F, cF, hF⟩ := fam
  obtain ⟨ρ, hρ, h⟩ := Metric.uniformContinuous_iff.1 (CompactSpace.uniformContinuous_of_continuous cF) η hη
  have point : ∀ y, RowWithin s y → ∃ x : K, (∀ k, x.1 k = pairs y k.1) ∧
      ∀ v : Fin q.length → ℝ, curveFor s q (pairs y) = .ok (List.ofFn fun j => some (v j)) → F x = v := by
    intro y hy
    have e : ∀ k ∈ labels, pairs y k = atLabel (fun k : {k : Str // k ∈ labels} => pairs y k.1) k := fun k hk =>
      (show atLabel (fun k : {k : Str // k ∈ labels} => pairs y k.1) k = _ from dif_pos hk).symm
    refine ⟨⟨fun k => pairs y k.1, (row_admissible hy).congr e⟩, fun k => rfl, fun v hv => ?_⟩
    have h := hF ⟨fun k => pairs y k.1, (row_admissible hy).congr e⟩
    rw [← curveFor_congr s q e, hv] at h
    have := List.ofFn_injective (Except.ok.inj h)
    exact (funext fun j => Option.some.inj (congrFun this j)).symm
  refine ⟨ρ, hρ, fun y y' hy hy' hc v v' hv hv' => ?_⟩
  obtain ⟨x, hx, hxv⟩ := point y hy
  obtain ⟨x', hx', hxv'⟩ := point y' hy'
  rw [← hxv v hv, ← hxv' v' hv']
  refine h ?_
  show dist x.1 x'.1 < ρ
  rw [dist_pi_lt_iff hρ]
  intro k
  rw [hx, hx', Prod.dist_eq, max_lt_iff, Real.dist_eq, Real.dist_eq]
  exact hc k.1 k.2

/-- Finitely many admissible sets of labels come close to all of them. -/
theorem finite_net (s : SampleV ℝ) (hs : SampleRegular s) (hn : (partNames s).Nodup) (hl : ∀ l ∈ s.structure_, LayerDrawable l) (ρ : ℝ) (hρ : 0 < ρ) :
    ∃ Y : List (Str → Num ℝ), (∀ y ∈ Y, RowWithin s y) ∧ ∀ y, RowWithin s y → ∃ y' ∈ Y,
      ∀ k ∈ expectedLabels s.substrate.name (s.layers.map (·.name)) s.ambient.name, |(y k).re - (y' k).re| < ρ ∧ |(y k).im - (y' k).im| < ρ := by
  have hK := admissible_compact s hs
  have lift : ∀ x : LabelSpace (expectedLabels s.substrate.name (s.layers.map (·.name)) s.ambient.name), Admissible s (atLabel x) → ∃ y, RowWithin s y ∧
      ∀ k ∈ expectedLabels s.substrate.name (s.layers.map (·.name)) s.ambient.name, pairs y k = atLabel x k := fun x hx => admissible_lift hs hn hl hx
  set labels := expectedLabels s.substrate.name (s.layers.map (·.name)) s.ambient.name with hlabels
  set K : Set (LabelSpace labels) := {x | Admissible s (atLabel x)} with hKdef
  obtain ⟨t, htK, hfin, hcov⟩ := hK.finite_cover_balls hρ
  classical
  choose Z hZ using fun x : K => lift x.1 x.2
  refine ⟨hfin.toFinset.toList.filterMap fun x => if h : x ∈ K then some (Z ⟨x, h⟩) else none, ?_, fun y hy => ?_⟩
  · intro y hy
    obtain ⟨x, -, hx⟩ := List.mem_filterMap.1 hy
    split_ifs at hx with h
    cases hx
    exact (hZ ⟨x, h⟩).1
  · have e : ∀ k ∈ labels, pairs y k = atLabel (fun k : {k : Str // k ∈ labels} => pairs y k.1) k := fun k hk =>
      (show atLabel (fun k : {k : Str // k ∈ labels} => pairs y k.1) k = _ from dif_pos hk).symm
    obtain ⟨x, hx, hd⟩ := Set.mem_iUnion₂.1 (hcov (show (fun k : {k : Str // k ∈ labels} => pairs y k.1) ∈ K from (row_admissible hy).congr e))
    refine ⟨Z ⟨x, htK hx⟩, List.mem_filterMap.2 ⟨x, by simpa using hx, by rw [dif_pos (htK hx)]⟩, fun k hk => ?_⟩
    have h1 := (dist_pi_lt_iff hρ).1 (Metric.mem_ball.1 hd) ⟨k, hk⟩
    rw [Prod.dist_eq, max_lt_iff, Real.dist_eq, Real.dist_eq] at h1
    have h2 : pairs (Z ⟨x, htK hx⟩) k = x ⟨k, hk⟩ := ((hZ ⟨x, htK hx⟩).2 k hk).trans (dif_pos hk)
    rw [← h2] at h1
    exact h1

/-- **C134** (enough random training data): let all admissible labels have a curve, and let the curves determine a label. For every tolerance there is a size of
measurement errors such that the following fails with a probability of at most `m (1 - p) ^ n`: for every admissible set of labels, and every measured curve
that deviates from its curve by less than this size, all training samples whose curve is nearest to the measured one have the label up to the tolerance. Here
`n` is the number of random training samples; the numbers `m` and `p > 0` do not depend on it. -/
theorem C134_lookup (s : SampleV ℝ) (hs : SampleRegular s) (hn : (partNames s).Nodup) (d : DistArgs)
    (hl : ∀ l ∈ s.structure_, LayerDrawable l ∧ LayerKindOk d.kind l) (nm : Option Str) (hamb : s.ambient.sld = some (.const (.real 0) nm))
    (habs : ∀ l ∈ s.substrate :: s.layers, ∀ p, l.sld = some p → 0 ≤ p.min.im ∧ 0 ≤ p.max.im)
    (q : List ℝ) (hnum : ∀ y, RowWithin s y → ∃ v : Fin q.length → ℝ, curveFor s q (pairs y) = .ok (List.ofFn fun j => some (v j))) (key : Str)
    (hkey : key ∈ expectedLabels s.substrate.name (s.layers.map (·.name)) s.ambient.name) (hdet : Determined s q key) (ε : ℝ) (hε : 0 < ε) :
    ∃ (δ : ℝ) (m : ℕ) (p : ENNReal), 0 < δ ∧ 0 < p ∧
      ∀ (Ω : Type) [MeasurableSpace Ω] (P : Measure Ω) (C : Chance Ω P) (n : ℕ) (k : ℕ) (T : Ω → Frame (Num ℝ)), 0 < n →
      (∀ ω, ∃ g', generateRandomLabels C.rng.toRng s n d (ω, k) = .ok (T ω, g')) →
      P {ω | ∃ (y : Str → Num ℝ) (v w : Fin q.length → ℝ) (i : Fin n), RowWithin s y ∧ curveFor s q (pairs y) = .ok (List.ofFn fun j => some (v j)) ∧
        (∀ j, |w j - v j| < δ) ∧ NearestRow s q n (T ω) w i ∧ ε ≤ |(rowOf (T ω) i key).1 - (y key).re|} ≤ m * (1 - p) ^ n := by
  have hl1 : ∀ l ∈ s.structure_, LayerDrawable l := fun l hm => (hl l hm).1
  obtain ⟨N, -, hN, hstab⟩ := C132_learnable s hs hn hl1 nm hamb habs q hnum key hkey hdet
  obtain ⟨δ₀, hδ₀, hδ⟩ := hstab ε hε
  obtain ⟨ρ, hρ, huni⟩ := curve_uniform s hs hn hl1 nm hamb habs q hnum (δ₀ / 2) (by linarith)
  obtain ⟨Y, hY, hnet⟩ := finite_net s hs hn hl1 (ρ / 2) (by linarith)
  have dense : ∃ p : ENNReal, 0 < p ∧ ∀ y ∈ Y, ∀ (Ω : Type) [MeasurableSpace Ω] (P : Measure Ω) (C : Chance Ω P) (n : ℕ) (k : ℕ) (T : Ω → Frame (Num ℝ)), 0 < n →
      (∀ ω, ∃ g', generateRandomLabels C.rng.toRng s n d (ω, k) = .ok (T ω, g')) →
      P {ω | ∀ i : Fin n, ¬ RowNear (T ω) i (expectedLabels s.substrate.name (s.layers.map (·.name)) s.ambient.name) y (ρ / 2)} ≤ (1 - p) ^ n := by
    clear hnet
    induction Y with
    | nil => exact ⟨1, one_pos, fun y hy => absurd hy List.not_mem_nil⟩
    | cons y₀ Y ih =>
      obtain ⟨p, hp, h⟩ := ih fun y hy => hY y (List.mem_cons_of_mem _ hy)
      obtain ⟨p₀, hp₀, h₀⟩ := C129_dense s hs hn d hl y₀ (hY y₀ (by simp)) (ρ / 2) (by linarith)
      refine ⟨min p₀ p, lt_min hp₀ hp, fun y hy Ω _ P C n k T hpos hT => ?_⟩
      rcases List.mem_cons.1 hy with rfl | hy
      · exact (h₀ Ω P C n k T hpos hT).trans (pow_le_pow_left' (tsub_le_tsub_left (min_le_left _ _) _) n)
      · exact (h y hy Ω P C n k T hpos hT).trans (pow_le_pow_left' (tsub_le_tsub_left (min_le_right _ _) _) n)
  obtain ⟨p, hp, hdense⟩ := dense
  refine ⟨δ₀ / 4, Y.length, p, by linarith, hp, fun Ω _ P C n k T hpos hT => ?_⟩
  have tame : Tame C.rng.toRng d := by
    intro hk
    obtain ⟨p, hp, -⟩ := hs.substrate.sld
    rcases (hl s.substrate (by simp [SampleV.structure_])).2.sld p hp with h | ⟨h, -⟩ <;> rw [hk] at h <;> cases h
  have row : ∀ ω (i : Fin n), ∃ y, RowWithin s y ∧ rowOf (T ω) i = pairs y := by
    intro ω i
    obtain ⟨g', hg⟩ := hT ω
    obtain ⟨y, hy, e⟩ := row_within hs (within_of_tame C.rng_ok.toOk hs hn hl1 tame hg) i
    exact ⟨y, hy, funext e⟩
  have hsub : {ω | ∃ (y : Str → Num ℝ) (v w : Fin q.length → ℝ) (i : Fin n), RowWithin s y ∧ curveFor s q (pairs y) = .ok (List.ofFn fun j => some (v j)) ∧
        (∀ j, |w j - v j| < δ₀ / 4) ∧ NearestRow s q n (T ω) w i ∧ ε ≤ |(rowOf (T ω) i key).1 - (y key).re|} ⊆
      ⋃ a : Fin Y.length, {ω | ∀ i : Fin n, ¬ RowNear (T ω) i (expectedLabels s.substrate.name (s.layers.map (·.name)) s.ambient.name) (Y.get a) (ρ / 2)} := by
    rintro ω ⟨y, v, w, i, hy, hv, hw, ⟨u, hu, hnear⟩, hfar⟩
    obtain ⟨y₀, hy₀, hclose⟩ := hnet y hy
    obtain ⟨a, rfl⟩ := List.get_of_mem hy₀
    refine Set.mem_iUnion.2 ⟨a, fun i' hi' => ?_⟩
    obtain ⟨r, hr, er⟩ := row ω i'
    obtain ⟨z, hz, ez⟩ := row ω i
    obtain ⟨u', hu'⟩ := hnum r hr
    have d1 : dist u' v < δ₀ / 2 := by
      refine huni r y hr hy (fun k hk => ?_) u' v hu' hv
      have h1 := hi' k hk
      have h2 := hclose k hk
      rw [er] at h1
      unfold pairs at h1
      rw [abs_lt, abs_lt] at h1 h2
      obtain ⟨⟨a1, a2⟩, a3, a4⟩ := h1
      obtain ⟨⟨b1, b2⟩, b3, b4⟩ := h2
      simp only at a1 a2 a3 a4
      rw [abs_lt, abs_lt]
      exact ⟨⟨by linarith, by linarith⟩, by linarith, by linarith⟩
    have d2 : dist w v < δ₀ / 4 := by
      rw [dist_pi_lt_iff (by linarith)]
      exact fun j => by rw [Real.dist_eq]; exact hw j
    have d3 : dist u w ≤ dist u' w := hnear i' u' (by rw [er]; exact hu')
    have d4 : dist u v < δ₀ := by
      have t1 := dist_triangle u w v
      have t2 := dist_triangle u' v w
      rw [dist_comm v w] at t2
      linarith
    have h := hδ y hy v u hv fun j => by
      rw [← Real.dist_eq]
      exact (dist_le_pi_dist u v j).trans_lt d4
    rw [ez] at hu hfar
    rw [hN z hz u hu] at h
    exact absurd hfar (not_le.2 h)
  refine (measure_mono hsub).trans ((measure_iUnion_fintype_le _ _).trans ((Finset.sum_le_sum fun a _ =>
    hdense (Y.get a) (List.get_mem Y a) Ω P C n k T hpos hT).trans ?_))
  rw [Finset.sum_const, Finset.card_univ, Fintype.card_fin, nsmul_eq_mul]

/-- **C134** (the nearest sample exists): for every measured curve there is a training sample whose curve is nearest. -/
theorem C134_exists {Ω : Type} [MeasurableSpace Ω] {P : Measure Ω} (C : Chance Ω P) (s : SampleV ℝ) (hs : SampleRegular s) (hn : (partNames s).Nodup)
    (d : DistArgs) (hl : ∀ l ∈ s.structure_, LayerDrawable l ∧ LayerKindOk d.kind l) (q : List ℝ)
    (hnum : ∀ y, RowWithin s y → ∃ v : Fin q.length → ℝ, curveFor s q (pairs y) = .ok (List.ofFn fun j => some (v j)))
    (n k : ℕ) (hpos : 0 < n) (T : Frame (Num ℝ)) (ω : Ω) (hT : ∃ g', generateRandomLabels C.rng.toRng s n d (ω, k) = .ok (T, g'))
    (w : Fin q.length → ℝ) : ∃ i : Fin n, NearestRow s q n T w i := by
  have tame : Tame C.rng.toRng d := by
    intro hk
    obtain ⟨p, hp, -⟩ := hs.substrate.sld
    rcases (hl s.substrate (by simp [SampleV.structure_])).2.sld p hp with h | ⟨h, -⟩ <;> rw [hk] at h <;> cases h
  have row : ∀ i : Fin n, ∃ u : Fin q.length → ℝ, curveFor s q (rowOf T i) = .ok (List.ofFn fun j => some (u j)) := by
    intro i
    obtain ⟨g', hg⟩ := hT
    obtain ⟨y, hy, e⟩ := row_within hs (within_of_tame C.rng_ok.toOk hs hn (fun l hm => (hl l hm).1) tame hg) i
    rw [show rowOf T i = pairs y from funext e]
    exact hnum y hy
  choose u hu using row
  have : Nonempty (Fin n) := ⟨⟨0, hpos⟩⟩
  obtain ⟨i, hi⟩ := Finite.exists_min fun i => dist (u i) w
  refine ⟨i, u i, hu i, fun i' u' hu' => ?_⟩
  have e := List.ofFn_injective (Except.ok.inj ((hu i').symm.trans hu'))
  rw [← show u i' = u' from funext fun j => Option.some.inj (congrFun e j)]
  exact hi i'

/-- **C134** (in the limit): the probability that looking up the nearest training sample fails somewhere tends to zero with the number of training samples. -/
theorem C134_limit (s : SampleV ℝ) (hs : SampleRegular s) (hn : (partNames s).Nodup) (d : DistArgs)
    (hl : ∀ l ∈ s.structure_, LayerDrawable l ∧ LayerKindOk d.kind l) (nm : Option Str) (hamb : s.ambient.sld = some (.const (.real 0) nm))
    (habs : ∀ l ∈ s.substrate :: s.layers, ∀ p, l.sld = some p → 0 ≤ p.min.im ∧ 0 ≤ p.max.im)
    (q : List ℝ) (hnum : ∀ y, RowWithin s y → ∃ v : Fin q.length → ℝ, curveFor s q (pairs y) = .ok (List.ofFn fun j => some (v j))) (key : Str)
    (hkey : key ∈ expectedLabels s.substrate.name (s.layers.map (·.name)) s.ambient.name) (hdet : Determined s q key) (ε : ℝ) (hε : 0 < ε)
    {Ω : Type} [MeasurableSpace Ω] {P : Measure Ω} (C : Chance Ω P) (k : ℕ) (T : ℕ → Ω → Frame (Num ℝ))
    (hT : ∀ n : ℕ, 0 < n → ∀ ω, ∃ g', generateRandomLabels C.rng.toRng s n d (ω, k) = .ok (T n ω, g')) :
    ∃ δ > 0, Tendsto (fun n => P {ω | ∃ (y : Str → Num ℝ) (v w : Fin q.length → ℝ) (i : Fin n), RowWithin s y ∧
      curveFor s q (pairs y) = .ok (List.ofFn fun j => some (v j)) ∧ (∀ j, |w j - v j| < δ) ∧ NearestRow s q n (T n ω) w i ∧
      ε ≤ |(rowOf (T n ω) i key).1 - (y key).re|}) atTop (𝓝 0) := by
  obtain ⟨δ, m, p, hδ, hp, h⟩ := C134_lookup s hs hn d hl nm hamb habs q hnum key hkey hdet ε hε
  refine ⟨δ, hδ, tendsto_of_tendsto_of_tendsto_of_le_of_le' tendsto_const_nhds (h := fun n => m * (1 - p) ^ n) ?_ (.of_forall fun _ => zero_le) ?_⟩
  · have h1 : (1 - p : ENNReal) < 1 := ENNReal.sub_lt_self ENNReal.one_ne_top one_ne_zero hp.ne'
    have h2 := ENNReal.Tendsto.const_mul (ENNReal.tendsto_pow_atTop_nhds_zero_of_lt_one h1) (Or.inr (ENNReal.natCast_ne_top m))
    rwa [mul_zero] at h2
  · filter_upwards [eventually_gt_atTop 0] with n hpos
    exact h Ω P C n k (T n) hpos (hT n hpos)

/-- **C134** (only then): if the curves do not determine the label, no amount of training data helps: there is a tolerance such that every table fails, even
for measurements without errors. -/
theorem C134_only_then (s : SampleV ℝ) (hs : SampleRegular s) (hn : (partNames s).Nodup) (d : DistArgs)
    (hl : ∀ l ∈ s.structure_, LayerDrawable l ∧ LayerKindOk d.kind l)
    (q : List ℝ) (hnum : ∀ y, RowWithin s y → ∃ v : Fin q.length → ℝ, curveFor s q (pairs y) = .ok (List.ofFn fun j => some (v j))) (key : Str)
    (hdet : ¬ Determined s q key) :
    ∃ ε > 0, ∀ (Ω : Type) [MeasurableSpace Ω] (P : Measure Ω) (C : Chance Ω P) (n : ℕ) (k : ℕ) (T : Frame (Num ℝ)) (ω : Ω), 0 < n →
      (∃ g', generateRandomLabels C.rng.toRng s n d (ω, k) = .ok (T, g')) →
      ∃ (y : Str → Num ℝ) (v : Fin q.length → ℝ) (i : Fin n), RowWithin s y ∧ curveFor s q (pairs y) = .ok (List.ofFn fun j => some (v j)) ∧
        NearestRow s q n T v i ∧ ε ≤ |(rowOf T i key).1 - (y key).re| := by
  unfold Determined at hdet
  push Not at hdet
  obtain ⟨y, y', hy, hy', e, hne⟩ := hdet
  refine ⟨|(y key).re - (y' key).re| / 2, half_pos (abs_pos.2 (sub_ne_zero.2 hne)), fun Ω _ P C n k T ω hpos hT => ?_⟩
  obtain ⟨v, hv⟩ := hnum y hy
  obtain ⟨i, hi⟩ := C134_exists C s hs hn d hl q hnum n k hpos T ω hT v
  rcases le_or_gt (|(y key).re - (y' key).re| / 2) |(rowOf T i key).1 - (y key).re| with h | h
  · exact ⟨y, v, i, hy, hv, hi, h⟩
  · refine ⟨y', v, i, hy', e ▸ hv, hi, ?_⟩
    have := abs_sub_le (y key).re (rowOf T i key).1 (y' key).re
    rw [abs_sub_comm (y key).re (rowOf T i key).1] at this
    linarith

/-- The hypotheses of C134 hold for a substrate with an unknown roughness. -/
example : ∃ δ > 0, ∃ T : ℕ → (ChanceIdx → ℝ) → Frame (Num ℝ),
    (∀ n : ℕ, 0 < n → ∀ ω, ∃ g', generateRandomLabels Chance.product.rng.toRng exampleSubstrate n ⟨.uniform, none, none⟩ (ω, 0) = .ok (T n ω, g')) ∧
    Tendsto (fun n => Measure.infinitePi ChanceIdx.law {ω | ∃ (y : Str → Num ℝ) (v w : Fin 2 → ℝ) (i : Fin n), RowWithin exampleSubstrate y ∧
      curveFor exampleSubstrate [0.1, 0.2] (pairs y) = .ok (List.ofFn fun j => some (v j)) ∧ (∀ j, |w j - v j| < δ) ∧
      NearestRow exampleSubstrate [0.1, 0.2] n (T n ω) w i ∧
      1 ≤ |(rowOf (T n ω) i ("Si".toList ++ "_roughness".toList)).1 - (y ("Si".toList ++ "_roughness".toList)).re|}) atTop (𝓝 0) := by
  have H : ∀ l ∈ exampleSubstrate.structure_, LayerDrawable l ∧ LayerKindOk .uniform l := fun l hl =>
    ⟨exampleSubstrate_drawable l hl, fun _ _ => Or.inl rfl, fun _ _ => Or.inl rfl, fun _ _ => Or.inl rfl⟩
  have hnd : (partNames exampleSubstrate).Nodup := by simp only [partNames, exampleSubstrate]; decide
  have tables : ∀ n : ℕ, ∃ T : (ChanceIdx → ℝ) → Frame (Num ℝ), 0 < n → ∀ ω, ∃ g',
      generateRandomLabels Chance.product.rng.toRng exampleSubstrate n ⟨.uniform, none, none⟩ (ω, 0) = .ok (T ω, g') := by
    intro n
    by_cases hpos : 0 < n
    · obtain ⟨T, hT, -⟩ := C124_rows Chance.product exampleSubstrate exampleSubstrate_regular hnd ⟨.uniform, none, none⟩ H n hpos 0
      exact ⟨T, fun _ => hT⟩
    · obtain ⟨T, -, -⟩ := C124_rows Chance.product exampleSubstrate exampleSubstrate_regular hnd ⟨.uniform, none, none⟩ H 1 one_pos 0
      exact ⟨T, fun h => absurd h hpos⟩
  choose T hT using tables
  obtain ⟨h1, h2⟩ := C132_substrate exampleSubstrate exampleSubstrate_regular exampleSubstrate_drawable (some "sld".toList) (some "sld".toList) rfl rfl
    20 rfl (by norm_num) [0.1, 0.2]
  obtain ⟨δ, hδ, h⟩ := C134_limit exampleSubstrate exampleSubstrate_regular hnd ⟨.uniform, none, none⟩ H (some "sld".toList) rfl (by
      intro l hl p hp
      simp only [exampleSubstrate, List.mem_cons, List.not_mem_nil, or_false] at hl
      subst hl
      cases hp
      exact ⟨le_refl _, le_refl _⟩)
    [0.1, 0.2] h1 _ (mem_labels.2.1 exampleSubstrate.substrate (by simp)) (h2 0.2 (by simp) (by norm_num) (by nlinarith [Real.pi_le_four])) 1 one_pos
    Chance.product 0 T hT
  exact ⟨δ, hδ, T, hT, h⟩

end Verif.Props
