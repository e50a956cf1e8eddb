import Verif.Props.Ambiguity
import Mathlib.Probability.Moments.SubGaussian

/-!
# C131: the error rate on a test set is the error rate on new samples
-/

namespace Verif.Props
open Verif.Py Verif.Model Verif.Spec Verif.Lemmas MeasureTheory ProbabilityTheory

/-! ### Hoeffding's inequality -/

/-- The mean of `n` independent values in `[0, 1]` is close to their expectation. -/
theorem hoeffding_pi {R : Type} [MeasurableSpace R] (μ : Measure R) [IsProbabilityMeasure μ] (n : ℕ) (hn : 0 < n) (f : R → ℝ) (hf : Measurable f)
    (h01 : ∀ r, f r ∈ Set.Icc (0 : ℝ) 1) (t : ℝ) (ht : 0 ≤ t) :
    (Measure.pi fun _ : Fin n => μ) {r | t ≤ |(∑ i, f (r i)) / n - ∫ x, f x ∂μ|} ≤ ENNReal.ofReal (2 * Real.exp (-2 * n * t ^ 2)) := by
  have hn' : (0 : ℝ) < n := by exact_mod_cast hn
  set I := ∫ x, f x ∂μ with hI
  set ν := Measure.pi fun _ : Fin n => μ with hν
  have law : ∀ i : Fin n, ν.map (fun r => r i) = μ := fun i => by
    rw [hν]
    exact (measurePreserving_eval (fun _ : Fin n => μ) i).map_eq
  have int : ∀ i : Fin n, ∫ r, f (r i) ∂ν = I := by
    intro i
    rw [hI, ← law i, integral_map (measurable_pi_apply i).aemeasurable (hf.aestronglyMeasurable)]
  have sub : ∀ i : Fin n, HasSubgaussianMGF (fun r : Fin n → R => f (r i) - I) ((‖(1 : ℝ) - 0‖₊ / 2) ^ 2) ν := by
    intro i
    have := hasSubgaussianMGF_of_mem_Icc (μ := ν) (X := fun r : Fin n → R => f (r i)) (a := 0) (b := 1) (hf.comp (measurable_pi_apply i)).aemeasurable
      (Filter.Eventually.of_forall fun r => h01 (r i))
    rwa [int i] at this
  have ind : iIndepFun (fun (i : Fin n) (r : Fin n → R) => f (r i) - I) ν := by
    rw [hν]
    exact iIndepFun_pi (X := fun _ : Fin n => fun x => f x - I) fun _ => (hf.sub_const I).aemeasurable
  have ind' : iIndepFun (fun (i : Fin n) (r : Fin n → R) => -(f (r i) - I)) ν := by
    rw [hν]
    exact iIndepFun_pi (X := fun _ : Fin n => fun x => -(f x - I)) fun _ => (hf.sub_const I).neg.aemeasurable
  have c : ∑ i ∈ (Finset.univ : Finset (Fin n)), (((‖(1 : ℝ) - 0‖₊ / 2) ^ 2 : NNReal) : ℝ) = n / 4 := by
    rw [Finset.sum_const, Finset.card_univ, Fintype.card_fin]
    simp
    ring
  have e : -(n * t) ^ 2 / (2 * (n / 4 : ℝ)) = -2 * n * t ^ 2 := by
    field_simp
    ring
  have up := HasSubgaussianMGF.measure_sum_ge_le_of_iIndepFun ind (s := Finset.univ) (fun i _ => sub i) (ε := n * t) (by positivity)
  have lo := HasSubgaussianMGF.measure_sum_ge_le_of_iIndepFun ind' (s := Finset.univ) (fun i _ => (sub i).neg) (ε := n * t) (by positivity)
  rw [NNReal.coe_sum, c, e] at up lo
  have hset : {r : Fin n → R | t ≤ |(∑ i, f (r i)) / n - I|} ⊆
      {r | n * t ≤ ∑ i, (f (r i) - I)} ∪ {r | n * t ≤ ∑ i, -(f (r i) - I)} := by
    intro r hr
    have hr : t ≤ |(∑ i, f (r i)) / n - I| := hr
    have e1 : ∑ i, (f (r i) - I) = n * ((∑ i, f (r i)) / n - I) := by
      rw [Finset.sum_sub_distrib, Finset.sum_const, Finset.card_univ, Fintype.card_fin]
      field_simp
      simp
    rcases le_abs.1 hr with h | h
    · left
      show n * t ≤ ∑ i, (f (r i) - I)
      rw [e1]
      exact mul_le_mul_of_nonneg_left h hn'.le
    · right
      show n * t ≤ ∑ i, -(f (r i) - I)
      rw [Finset.sum_neg_distrib, e1, ← mul_neg]
      exact mul_le_mul_of_nonneg_left h hn'.le
  have hp : ∀ s : Set (Fin n → R), ν.real s ≤ Real.exp (-2 * n * t ^ 2) → ν s ≤ ENNReal.ofReal (Real.exp (-2 * n * t ^ 2)) := by
    intro s hs
    rw [← ENNReal.ofReal_toReal (measure_ne_top ν s)]
    exact ENNReal.ofReal_le_ofReal hs
  calc ν {r | t ≤ |(∑ i, f (r i)) / n - I|} ≤ ν {r | n * t ≤ ∑ i, (f (r i) - I)} + ν {r | n * t ≤ ∑ i, -(f (r i) - I)} :=
        (measure_mono hset).trans (measure_union_le _ _)
    _ ≤ ENNReal.ofReal (Real.exp (-2 * n * t ^ 2)) + ENNReal.ofReal (Real.exp (-2 * n * t ^ 2)) := add_le_add (hp _ up) (hp _ lo)
    _ = ENNReal.ofReal (2 * Real.exp (-2 * n * t ^ 2)) := by
      rw [← ENNReal.ofReal_add (Real.exp_pos _).le (Real.exp_pos _).le, two_mul]

variable {Ω : Type} [MeasurableSpace Ω] {P : Measure Ω}

/-- What is unlikely for every fixed value of a variable is unlikely for an independent random value. -/
theorem indep_bound [IsProbabilityMeasure P] {S R : Type} [MeasurableSpace S] [MeasurableSpace R] {Y : Ω → S} {X : Ω → R} (hY : Measurable Y) (hX : Measurable X)
    (ind : IndepFun Y X P) {A : Set S} (hA : MeasurableSet A) {B : Set (S × R)} (hB : MeasurableSet B) {b : ENNReal}
    (hb : ∀ y, (P.map X) {r | (y, r) ∈ B} ≤ b) : P {ω | Y ω ∈ A ∧ (Y ω, X ω) ∈ B} ≤ P (Y ⁻¹' A) * b := by
  have law := (indepFun_iff_map_prod_eq_prod_map_map hY.aemeasurable hX.aemeasurable).1 ind
  have := Measure.isProbabilityMeasure_map (μ := P) hX.aemeasurable
  have mAB : MeasurableSet ((Prod.fst ⁻¹' A) ∩ B) := (measurable_fst hA).inter hB
  have e : P {ω | Y ω ∈ A ∧ (Y ω, X ω) ∈ B} = (P.map fun ω => (Y ω, X ω)) ((Prod.fst ⁻¹' A) ∩ B) := by
    rw [Measure.map_apply (hY.prodMk hX) mAB]
    rfl
  rw [e, law, Measure.prod_apply mAB, ← Measure.map_apply hY hA, mul_comm, ← setLIntegral_const, ← lintegral_indicator hA]
  refine lintegral_mono fun y => ?_
  by_cases hy : y ∈ A
  · rw [Set.indicator_of_mem hy]
    refine (measure_mono ?_).trans (hb y)
    exact fun r hr => hr.2
  · rw [Set.indicator_of_notMem hy]
    have : Prod.mk y ⁻¹' ((Prod.fst ⁻¹' A) ∩ B) = ∅ := by
      ext r
      simp [hy]
    rw [this, measure_empty]

/-! ### Tables as functions of the numbers from a position on -/

theorem rows_stream (C : Chance Ω P) (s : SampleV ℝ) (hs : SampleRegular s) (hn : (partNames s).Nodup) (d : DistArgs)
    (hl : ∀ l ∈ s.structure_, LayerDrawable l ∧ LayerKindOk d.kind l) (n : ℕ) (hpos : 0 < n) :
    ∃ (Ψ : Stream → Fin n → Row) (N : Stream → ℕ), Measurable Ψ ∧ Measurable N ∧
      (∀ st st', (∀ j < N st, st' j = st j) → N st' = N st ∧ Ψ st' = Ψ st) ∧
      ∀ ω k f g', generateRandomLabels C.rng.toRng s n d (ω, k) = .ok (f, g') →
        g' = (ω, k + N (Chance.stream C (ω, k))) ∧ ∀ i : Fin n, rowOf f i = Ψ (Chance.stream C (ω, k)) i := by
  obtain ⟨A, -, dA⟩ := loop_draws C n (fun l hm => ⟨(hl l hm).1, (hl l hm).2, sample_parts hs l hm⟩) 0
  obtain ⟨W, N, mW, mN, -, loc, hW⟩ := (dA Unit fun _ => []).stream C
  have rw' : RowWise n fun w => tableLoop d.kind n w 0 [] s.structure_ :=
    tableLoop_rowWise d.kind n s.structure_ 0 (F := fun _ => []) fun k => Or.inl fun _ => rfl
  have hrun : ∀ ω k f g', generateRandomLabels C.rng.toRng s n d (ω, k) = .ok (f, g') →
      (∀ k' ∈ expectedLabels s.substrate.name (s.layers.map (·.name)) s.ambient.name,
        f.get k' = (tableLoop d.kind n (W (Chance.stream C (ω, k))) 0 [] s.structure_).get k') ∧
      f.columns = expectedLabels s.substrate.name (s.layers.map (·.name)) s.ambient.name ∧ g' = (ω, k + N (Chance.stream C (ω, k))) := by
    intro ω k f g' h
    obtain ⟨f', hf, hc, hr⟩ := labels_run hs hpos hn (hW ω k)
    rw [h] at hr
    have e : f = f' := congrArg Prod.fst (Except.ok.inj hr)
    have e' : g' = (ω, k + N (Chance.stream C (ω, k))) := congrArg Prod.snd (Except.ok.inj hr)
    rw [e]
    exact ⟨hf, hc, e'⟩
  have hφ : ∀ label : Str, ∃ ψ : (ℕ × Part → ℝ) → ℝ × ℝ, Measurable ψ ∧
      (∀ st st', (∀ j < N st, st' j = st j) → ∀ i : Fin n, ψ (fun c => W st' (c.1, i, c.2)) = ψ fun c => W st (c.1, i, c.2)) ∧ ∀ ω k f g',
      generateRandomLabels C.rng.toRng s n d (ω, k) = .ok (f, g') → ∀ i : Fin n,
      rowOf f i label = ψ fun c => W (Chance.stream C (ω, k)) (c.1, i, c.2) := by
    intro label
    by_cases hm : label ∈ expectedLabels s.substrate.name (s.layers.map (·.name)) s.ambient.name
    · rcases rw' label with h | ⟨φ, h1, h2, h3⟩
      · refine ⟨fun _ => (0, 0), measurable_const, fun _ _ _ _ => rfl, fun ω k f g' hg i => ?_⟩
        unfold rowOf
        rw [(hrun ω k f g' hg).1 label hm, h]
      · refine ⟨fun v => ((φ v).re, (φ v).im), h1.prodMk h2, fun st st' hst i => ?_, fun ω k f g' hg i => ?_⟩
        · have e := congrArg (fun F : Frame (Num ℝ) => F.get label) (loc st st' hst).2
          simp only [h3] at e
          have := List.map_inj_left.1 (Except.ok.inj e) i (List.mem_range.2 i.2)
          simp only [this]
        · unfold rowOf
          rw [(hrun ω k f g' hg).1 label hm, h3]
          simp only [List.getD_eq_getElem?_getD, List.getElem?_map, List.getElem?_range i.2, Option.map_some, Option.getD_some]
    · refine ⟨fun _ => (0, 0), measurable_const, fun _ _ _ _ => rfl, fun ω k f g' hg i => ?_⟩
      unfold rowOf
      rw [get_of_not_mem (by rw [(hrun ω k f g' hg).2.1]; exact hm)]
  choose ψ hψ1 hψ3 hψ2 using hφ
  refine ⟨fun st i label => ψ label fun c => W st (c.1, i, c.2), N, ?_, mN, fun st st' hst => ⟨(loc st st' hst).1, ?_⟩,
    fun ω k f g' hg => ⟨(hrun ω k f g' hg).2.2, fun i => funext fun label => hψ2 label ω k f g' hg i⟩⟩
  · refine measurable_pi_iff.2 fun i => measurable_pi_iff.2 fun label => (hψ1 label).comp (measurable_pi_iff.2 fun c => ?_)
    exact (measurable_pi_apply _).comp mW
  · funext i label
    exact hψ3 label st st' hst i

/-- The rows of a table are independent samples of one distribution, which does not depend on the position. -/
theorem rows_law (C : Chance Ω P) (s : SampleV ℝ) (hs : SampleRegular s) (hn : (partNames s).Nodup) (d : DistArgs)
    (hl : ∀ l ∈ s.structure_, LayerDrawable l ∧ LayerKindOk d.kind l) (n : ℕ) (hpos : 0 < n) :
    ∃ (Ψ : Stream → Fin n → Row) (μ : Measure Row), Measurable Ψ ∧ IsProbabilityMeasure μ ∧
      (∀ ω k f g', generateRandomLabels C.rng.toRng s n d (ω, k) = .ok (f, g') → ∀ i : Fin n, rowOf f i = Ψ (Chance.stream C (ω, k)) i) ∧
      (∀ k, P.map (fun ω => Ψ (Chance.stream C (ω, k))) = Measure.pi fun _ : Fin n => μ) ∧
      ∀ k (i : Fin n), P.map (fun ω => Ψ (Chance.stream C (ω, k)) i) = μ := by
  have := chance_prob C
  obtain ⟨Ψ, N, mΨ, -, -, hΨ'⟩ := rows_stream C s hs hn d hl n hpos
  have hΨ := fun ω k f g' hg => (hΨ' ω k f g' hg).2
  obtain ⟨T, hT, ind, same⟩ := C124_rows C s hs hn d hl n hpos 0
  have hrow : ∀ ω (i : Fin n), rowOf (T ω) i = Ψ (Chance.stream C (ω, 0)) i := fun ω i => by
    obtain ⟨g', hg⟩ := hT ω
    exact hΨ ω 0 _ g' hg i
  simp only [hrow] at ind same
  have mk : ∀ k, Measurable fun ω => Ψ (Chance.stream C (ω, k)) := fun k => mΨ.comp (Chance.stream_measurable C k)
  have mi : ∀ k (i : Fin n), Measurable fun ω => Ψ (Chance.stream C (ω, k)) i := fun k i => (measurable_pi_apply i).comp (mk k)
  have hk : ∀ k, P.map (fun ω => Ψ (Chance.stream C (ω, k))) = (iid ℕ).map Ψ := fun k => by
    rw [← Chance.stream_law C k, Measure.map_map mΨ (Chance.stream_measurable C k)]
    rfl
  have hki : ∀ k (i : Fin n), P.map (fun ω => Ψ (Chance.stream C (ω, k)) i) = ((iid ℕ).map Ψ).map fun r => r i := fun k i => by
    rw [← hk k, Measure.map_map (measurable_pi_apply i) (mk k)]
    rfl
  have hμ : ∀ k (i : Fin n), P.map (fun ω => Ψ (Chance.stream C (ω, k)) i) = P.map fun ω => Ψ (Chance.stream C (ω, 0)) ⟨0, hpos⟩ := fun k i => by
    rw [hki k i, ← hki 0 i]
    exact same i ⟨0, hpos⟩
  refine ⟨Ψ, P.map fun ω => Ψ (Chance.stream C (ω, 0)) ⟨0, hpos⟩, mΨ, Measure.isProbabilityMeasure_map (mi 0 _).aemeasurable, hΨ, fun k => ?_, hμ⟩
  have h0 := (iIndepFun_iff_map_fun_eq_pi_map fun i => (mi 0 i).aemeasurable).1 ind
  rw [hk k, ← hk 0]
  refine h0.trans ?_
  congr 1
  funext i
  exact hμ 0 i

/-! ### Numbers drawn before -/

/-- The random number with a given index. -/
def Chance.value (C : Chance Ω P) (i : ChanceIdx) (ω : Ω) : ℝ :=
  match i with
  | .u k => C.u k ω
  | .z k => C.z k ω
  | .s k => C.s k ω
  | .pois k r => (C.pois k r ω : ℝ)

/-- The position of a number in the sequence. -/
def position : ChanceIdx → ℕ
  | .u k => k
  | .z k => k
  | .s k => k
  | .pois k _ => k

/-- What is known after `k` random numbers. -/
@[instance_reducible]
def Chance.past (C : Chance Ω P) (k : ℕ) : MeasurableSpace Ω :=
  ⨆ i ∈ {i | position i < k}, MeasurableSpace.comap (Chance.value C i) inferInstance

/-- **C131** (past and future): whatever is determined by the first `k` random numbers is independent of the uniform numbers that follow. -/
theorem C131_past (C : Chance Ω P) (k : ℕ) {S : Type} [MeasurableSpace S] (Y : Ω → S) (hY : @Measurable Ω S (Chance.past C k) _ Y) :
    Measurable Y ∧ IndepFun Y (fun ω => Chance.stream C (ω, k)) P := by
  have hle : ∀ i, MeasurableSpace.comap (Chance.value C i) inferInstance ≤ (inferInstance : MeasurableSpace Ω) := by
    intro i
    rw [← measurable_iff_comap_le]
    cases i with
    | u k => exact C.u_measurable k
    | z k => exact C.z_measurable k
    | s k => exact C.s_measurable k
    | pois k r => exact (measurable_from_top (f := fun n : ℕ => (n : ℝ))).comp (C.pois_measurable k r)
  have hpast : Chance.past C k ≤ (inferInstance : MeasurableSpace Ω) := iSup₂_le fun i _ => hle i
  refine ⟨hY.mono hpast le_rfl, ?_⟩
  have hind : iIndep (fun i => MeasurableSpace.comap (Chance.value C i) inferInstance) P := C.indep
  have h := indep_iSup_of_disjoint hle hind (S := {i | position i < k}) (T := {i | k ≤ position i})
    (Set.disjoint_left.2 fun i h1 h2 => absurd (show position i < k from h1) (not_lt.2 h2))
  rw [IndepFun_iff_Indep]
  refine indep_of_indep_of_le_left (indep_of_indep_of_le_right h ?_) hY.comap_le
  rw [← measurable_iff_comap_le]
  refine @measurable_pi_lambda _ _ _ (⨆ i ∈ {i | k ≤ position i}, MeasurableSpace.comap (Chance.value C i) inferInstance) _ _ fun j => ?_
  have hm : @Measurable Ω ℝ (MeasurableSpace.comap (Chance.value C (.u (k + j))) inferInstance) _ (Chance.value C (.u (k + j))) := comap_measurable _
  exact hm.mono (le_iSup₂_of_le (f := fun i (_ : i ∈ {i | k ≤ position i}) => MeasurableSpace.comap (Chance.value C i) inferInstance)
    (ChanceIdx.u (k + j)) (by simp [position]) le_rfl) le_rfl

/-! ### Test sets -/

/-- The mean loss of a table of `n` rows. -/
noncomputable def meanLoss (n : ℕ) (f : Frame (Num ℝ)) (loss : Row → ℝ) : ℝ := (∑ i : Fin n, loss (rowOf f i)) / n

/-- The general form: the position of the test set, and an event that is known before. -/
theorem test_bound (C : Chance Ω P) (s : SampleV ℝ) (hs : SampleRegular s) (hn : (partNames s).Nodup) (d : DistArgs)
    (hl : ∀ l ∈ s.structure_, LayerDrawable l ∧ LayerKindOk d.kind l) (n : ℕ) (hpos : 0 < n) :
    ∃ μ : Measure Row, IsProbabilityMeasure μ ∧
      (∀ (k : ℕ) (T : Ω → Frame (Num ℝ)), (∀ ω, ∃ g', generateRandomLabels C.rng.toRng s n d (ω, k) = .ok (T ω, g')) →
        ∀ i : Fin n, Measurable (fun ω => rowOf (T ω) i) ∧ P.map (fun ω => rowOf (T ω) i) = μ) ∧
      ∀ (k : ℕ) (S : Type) [MeasurableSpace S] (Y : Ω → S) (_ : Measurable Y) (_ : IndepFun Y (fun ω => Chance.stream C (ω, k)) P) (A : Set S)
        (_ : MeasurableSet A) (loss : S → Row → ℝ) (_ : Measurable fun p : S × Row => loss p.1 p.2) (_ : ∀ y r, loss y r ∈ Set.Icc (0 : ℝ) 1) (t : ℝ),
        0 ≤ t → P {ω | Y ω ∈ A ∧ ∃ f g', generateRandomLabels C.rng.toRng s n d (ω, k) = .ok (f, g') ∧
          t ≤ |meanLoss n f (loss (Y ω)) - ∫ r, loss (Y ω) r ∂μ|} ≤ P (Y ⁻¹' A) * ENNReal.ofReal (2 * Real.exp (-2 * n * t ^ 2)) := by
  have := chance_prob C
  obtain ⟨Ψ, μ, mΨ, hμ, hΨ, lawΨ, lawi⟩ := rows_law C s hs hn d hl n hpos
  have mk : ∀ k, Measurable fun ω => Ψ (Chance.stream C (ω, k)) := fun k => mΨ.comp (Chance.stream_measurable C k)
  refine ⟨μ, hμ, fun k T hT i => ?_, fun k S _ Y mY ind A hA loss mloss h01 t ht => ?_⟩
  · have e : (fun ω => rowOf (T ω) i) = fun ω => Ψ (Chance.stream C (ω, k)) i := by
      funext ω
      obtain ⟨g', hg⟩ := hT ω
      exact hΨ ω k _ g' hg i
    rw [e]
    exact ⟨(measurable_pi_apply i).comp (mk k), lawi k i⟩
  · have mi : Measurable fun y => ∫ r, loss y r ∂μ := (mloss.stronglyMeasurable.integral_prod_right (ν := μ)).measurable
    have ms : Measurable fun p : S × (Fin n → Row) => ∑ i, loss p.1 (p.2 i) :=
      Finset.measurable_sum _ fun i _ => mloss.comp (measurable_fst.prodMk ((measurable_pi_apply i).comp measurable_snd))
    let B : Set (S × (Fin n → Row)) := {p | t ≤ |(∑ i, loss p.1 (p.2 i)) / n - ∫ r, loss p.1 r ∂μ|}
    have mB : MeasurableSet B := by
      have m1 : Measurable fun p : S × (Fin n → Row) => |(∑ i, loss p.1 (p.2 i)) / n - ∫ r, loss p.1 r ∂μ| :=
        ((ms.div_const _).sub (mi.comp measurable_fst)).abs
      exact measurableSet_le measurable_const m1
    have hb : ∀ y, (P.map fun ω => Ψ (Chance.stream C (ω, k))) {r | (y, r) ∈ B} ≤ ENNReal.ofReal (2 * Real.exp (-2 * n * t ^ 2)) := by
      intro y
      rw [lawΨ k]
      exact hoeffding_pi μ n hpos (loss y) (mloss.comp (measurable_const.prodMk measurable_id)) (h01 y) t ht
    have indX : IndepFun Y (fun ω => Ψ (Chance.stream C (ω, k))) P := ind.comp measurable_id mΨ
    refine (measure_mono fun ω hω => ?_).trans (indep_bound mY (mk k) indX hA mB hb)
    obtain ⟨h1, f, g', hg, h2⟩ := hω
    refine ⟨h1, ?_⟩
    unfold meanLoss at h2
    simp only [hΨ ω k f g' hg] at h2
    exact h2

/-- **C131** (losses on test sets): let a rule depend only on random numbers that are independent of the test set. The mean of a loss between 0 and
1 over a test set of `n` samples then differs from the mean for new samples by `t` or more with a probability of at most `2 exp(-2 n t²)`. -/
theorem C131_loss (C : Chance Ω P) (s : SampleV ℝ) (hs : SampleRegular s) (hn : (partNames s).Nodup) (d : DistArgs)
    (hl : ∀ l ∈ s.structure_, LayerDrawable l ∧ LayerKindOk d.kind l) (n : ℕ) (hpos : 0 < n) (k : ℕ) (T : Ω → Frame (Num ℝ))
    (hT : ∀ ω, ∃ g', generateRandomLabels C.rng.toRng s n d (ω, k) = .ok (T ω, g')) (S : Type) [MeasurableSpace S] (Y : Ω → S) (hY : Measurable Y)
    (hind : IndepFun Y (fun ω => Chance.stream C (ω, k)) P) (loss : S → Row → ℝ) (hloss : Measurable fun p : S × Row => loss p.1 p.2)
    (h01 : ∀ y r, loss y r ∈ Set.Icc (0 : ℝ) 1) (k' : ℕ) (T' : Ω → Frame (Num ℝ))
    (hT' : ∀ ω, ∃ g', generateRandomLabels C.rng.toRng s n d (ω, k') = .ok (T' ω, g')) (i' : Fin n) (t : ℝ) (ht : 0 ≤ t) :
    P {ω | t ≤ |meanLoss n (T ω) (loss (Y ω)) - ∫ ω', loss (Y ω) (rowOf (T' ω') i') ∂P|} ≤ ENNReal.ofReal (2 * Real.exp (-2 * n * t ^ 2)) := by
  have := chance_prob C
  obtain ⟨μ, hμ, hrow, hb⟩ := test_bound C s hs hn d hl n hpos
  have h := hb k S Y hY hind Set.univ MeasurableSet.univ loss hloss h01 t ht
  rw [Set.preimage_univ, measure_univ, one_mul] at h
  refine (measure_mono fun ω hω => ?_).trans h
  obtain ⟨g', hg⟩ := hT ω
  refine ⟨trivial, T ω, g', hg, ?_⟩
  obtain ⟨hm, hlaw⟩ := hrow k' T' hT' i'
  have e : ∫ r, loss (Y ω) r ∂μ = ∫ ω', loss (Y ω) (rowOf (T' ω') i') ∂P := by
    rw [← hlaw, integral_map hm.aemeasurable]
    exact (hloss.comp (measurable_const.prodMk measurable_id)).aestronglyMeasurable
  rw [e]
  exact hω

/-- **C131** (test sets after training): the same for a rule that was fixed by the random numbers drawn before the test set, whose number may itself be
random: training data, noise of the batches, and earlier test sets. -/
theorem C131_stop (C : Chance Ω P) (s : SampleV ℝ) (hs : SampleRegular s) (hn : (partNames s).Nodup) (d : DistArgs)
    (hl : ∀ l ∈ s.structure_, LayerDrawable l ∧ LayerKindOk d.kind l) (n : ℕ) (hpos : 0 < n) (κ : Ω → ℕ)
    (hκ : ∀ k, MeasurableSet[Chance.past C k] {ω | κ ω = k}) (T : Ω → Frame (Num ℝ))
    (hT : ∀ ω, ∃ g', generateRandomLabels C.rng.toRng s n d (ω, κ ω) = .ok (T ω, g')) (S : Type) [MeasurableSpace S] (Y : Ω → S)
    (hY : ∀ k, ∃ Y' : Ω → S, Measurable[Chance.past C k] Y' ∧ ∀ ω, κ ω = k → Y ω = Y' ω) (loss : S → Row → ℝ)
    (hloss : Measurable fun p : S × Row => loss p.1 p.2) (h01 : ∀ y r, loss y r ∈ Set.Icc (0 : ℝ) 1) (k' : ℕ) (T' : Ω → Frame (Num ℝ))
    (hT' : ∀ ω, ∃ g', generateRandomLabels C.rng.toRng s n d (ω, k') = .ok (T' ω, g')) (i' : Fin n) (t : ℝ) (ht : 0 ≤ t) :
    P {ω | t ≤ |meanLoss n (T ω) (loss (Y ω)) - ∫ ω', loss (Y ω) (rowOf (T' ω') i') ∂P|} ≤ ENNReal.ofReal (2 * Real.exp (-2 * n * t ^ 2)) := by
  have := chance_prob C
  obtain ⟨μ, hμ, hrow, hb⟩ := test_bound C s hs hn d hl n hpos
  obtain ⟨hm, hlaw⟩ := hrow k' T' hT' i'
  have e : ∀ y, ∫ r, loss y r ∂μ = ∫ ω', loss y (rowOf (T' ω') i') ∂P := fun y => by
    rw [← hlaw, integral_map hm.aemeasurable]
    exact (hloss.comp (measurable_const.prodMk measurable_id)).aestronglyMeasurable
  set b := ENNReal.ofReal (2 * Real.exp (-2 * n * t ^ 2)) with hbdef
  have mκ : ∀ k, MeasurableSet {ω | κ ω = k} := fun k => by
    have := (C131_past C k (fun ω => κ ω = k) (measurable_to_prop (by simpa [Set.preimage] using hκ k))).1
    exact measurableSet_setOfPred.2 this
  have one : ∀ k, P {ω | κ ω = k ∧ t ≤ |meanLoss n (T ω) (loss (Y ω)) - ∫ ω', loss (Y ω) (rowOf (T' ω') i') ∂P|} ≤ P {ω | κ ω = k} * b := by
    intro k
    obtain ⟨Y', hY', hYY'⟩ := hY k
    have hp : Measurable[Chance.past C k] fun ω => κ ω = k := measurable_to_prop (by simpa [Set.preimage] using hκ k)
    obtain ⟨m1, m2⟩ := C131_past C k (fun ω => (Y' ω, κ ω = k)) (hY'.prodMk hp)
    have h := hb k (S × Prop) (fun ω => (Y' ω, κ ω = k)) m1 m2 {p | p.2} (measurableSet_setOfPred.2 measurable_snd) (fun p => loss p.1)
      (hloss.comp ((measurable_fst.comp measurable_fst).prodMk measurable_snd)) (fun p => h01 p.1) t ht
    refine (measure_mono fun ω hω => ?_).trans h
    obtain ⟨h1, h2⟩ := hω
    obtain ⟨g', hg⟩ := hT ω
    rw [h1] at hg
    refine ⟨h1, T ω, g', hg, ?_⟩
    rw [e, ← hYY' ω h1]
    exact h2
  have hsub : {ω | t ≤ |meanLoss n (T ω) (loss (Y ω)) - ∫ ω', loss (Y ω) (rowOf (T' ω') i') ∂P|} ⊆
      ⋃ k, {ω | κ ω = k ∧ t ≤ |meanLoss n (T ω) (loss (Y ω)) - ∫ ω', loss (Y ω) (rowOf (T' ω') i') ∂P|} := fun ω hω =>
    Set.mem_iUnion.2 ⟨κ ω, rfl, hω⟩
  refine (measure_mono hsub).trans ((measure_iUnion_le _).trans ((ENNReal.tsum_le_tsum one).trans ?_))
  rw [ENNReal.tsum_mul_right, ← measure_iUnion (fun i j hij => Set.disjoint_left.2 fun ω h1 h2 => hij (h1.symm.trans h2)) mκ]
  calc P (⋃ k, {ω | κ ω = k}) * b ≤ 1 * b := mul_le_mul_left prob_le_one b
    _ = b := one_mul b

/-! ### Predictions of labels from curves -/

/-- A prediction of a label from the simulated curve is off by more than `tol`, or the curve is not a number somewhere. -/
def Misses (s : SampleV ℝ) (q : List ℝ) (key : Str) (tol : ℝ) (N : (Fin q.length → ℝ) → ℝ) (r : Row) : Prop :=
  ¬ ∃ v : Fin q.length → ℝ, curveFor s q r = .ok (List.ofFn fun j => some (v j)) ∧ |N v - (r key).1| ≤ tol

/-- Curves are measurable functions of the labels. -/
theorem curve_measurable (s : SampleV ℝ) (q : List ℝ) :
    ∃ (D : Set Row) (V : Row → Fin q.length → ℝ), MeasurableSet D ∧ Measurable V ∧
      ∀ r : Row, r (s.ambient.name ++ "_sld".toList) = (0, 0) → (∀ l ∈ s.substrate :: s.layers, 0 ≤ (r (l.name ++ "_sld".toList)).2) →
        ∀ v : Fin q.length → ℝ, curveFor s q r = .ok (List.ofFn fun j => some (v j)) ↔ r ∈ D ∧ v = V r := by
  have fam := curve_family s q
  set labels := expectedLabels s.substrate.name (s.layers.map (·.name)) s.ambient.name with hlabels
  obtain ⟨t, r, ρ, hl1, hl2, ct, cr, cs, pos, hval⟩ := fam
  let M : ℝ → LabelSpace labels → Matrix (Fin 2) (Fin 2) ℂ := fun u x =>
    stackMatrix (codeWave u) (codeWave u 0) (slabs (at_ t x) (at_ r x) (at_ ρ x))
  have cM : ∀ u, Continuous (M u) := fun u => familyMatrix_continuous (q := fun _ => u) continuous_const t r ρ ct cr cs pos
  have hpt : ∀ u x, codePoint (at_ t x) (at_ r x) (at_ ρ x) u = intensity (M u x) := fun u x =>
    codePoint_eq _ _ _ (by intro z hz; obtain ⟨f, hf, rfl⟩ := List.mem_map.1 hz; exact pos f hf x) u (codeWave u) fun z h =>
      (codeWave_isWave u h).1
  have mx : Measurable fun (y : Row) (k : {k : Str // k ∈ labels}) => y k.1 := measurable_pi_iff.2 fun k => measurable_pi_apply _
  have m01 : ∀ u, Measurable fun x => M u x 0 1 := fun u => ((cM u).matrix_elem 0 1).measurable
  have m11 : ∀ u, Measurable fun x => M u x 1 1 := fun u => ((cM u).matrix_elem 1 1).measurable
  refine ⟨{y | ∀ j : Fin q.length, M (q.get j * 1e10) (fun k => y k.1) 1 1 ≠ 0},
    fun y j => min (‖M (q.get j * 1e10) (fun k => y k.1) 0 1 / M (q.get j * 1e10) (fun k => y k.1) 1 1‖ ^ 2) 1, ?_, ?_, ?_⟩
  · simp only [Set.ofPred_forall]
    refine MeasurableSet.iInter fun j => ?_
    exact ((measurableSet_singleton (0 : ℂ)).preimage ((m11 _).comp mx)).compl
  · refine measurable_pi_iff.2 fun j => ?_
    exact (((((m01 _).comp mx).div ((m11 _).comp mx)).norm).pow_const 2).min measurable_const
  · intro y ha hp v
    rw [hval y ha hp]
    simp only [hpt]
    constructor
    · intro h
      have h := Except.ok.inj h
      have hj : ∀ j : Fin q.length, intensity (M (q.get j * 1e10) fun k => y k.1) = some (v j) := by
        intro j
        have := congrArg (fun l => l[(j : ℕ)]?) h
        simpa using this
      have hj' : ∀ j : Fin q.length, M (q.get j * 1e10) (fun k => y k.1) 1 1 ≠ 0 ∧
          v j = min (‖M (q.get j * 1e10) (fun k => y k.1) 0 1 / M (q.get j * 1e10) (fun k => y k.1) 1 1‖ ^ 2) 1 := by
        intro j
        have := hj j
        unfold intensity at this
        split_ifs at this with hne
        exact ⟨hne, (Option.some.inj this).symm⟩
      exact ⟨fun j => (hj' j).1, funext fun j => (hj' j).2⟩
    · rintro ⟨h, rfl⟩
      congr 1
      apply List.ext_getElem (by simp)
      intro j h1 h2
      have hj := h ⟨j, by simpa using h1⟩
      simp only [List.getElem_map, List.getElem_ofFn]
      unfold intensity
      rw [if_neg]
      · rfl
      · simpa using hj

/-- **C131** (error rates on test sets): let a prediction of a label from curves be fixed by the random numbers drawn before the test set. The fraction
of the `n` test samples for which it is off by more than `tol` differs from the probability of this for a new sample by `t` or more with a probability of
at most `2 exp(-2 n t²)`. -/
theorem C131_misses (C : Chance Ω P) (s : SampleV ℝ) (hs : SampleRegular s) (hn : (partNames s).Nodup) (d : DistArgs)
    (hl : ∀ l ∈ s.structure_, LayerDrawable l ∧ LayerKindOk d.kind l) (nm : Option Str) (hamb : s.ambient.sld = some (.const (.real 0) nm))
    (habs : ∀ l ∈ s.substrate :: s.layers, ∀ p, l.sld = some p → 0 ≤ p.min.im ∧ 0 ≤ p.max.im) (n : ℕ) (hpos : 0 < n) (κ : Ω → ℕ)
    (hκ : ∀ k, MeasurableSet[Chance.past C k] {ω | κ ω = k}) (T : Ω → Frame (Num ℝ))
    (hT : ∀ ω, ∃ g', generateRandomLabels C.rng.toRng s n d (ω, κ ω) = .ok (T ω, g')) (S : Type) [MeasurableSpace S] (Y : Ω → S)
    (hY : ∀ k, ∃ Y' : Ω → S, Measurable[Chance.past C k] Y' ∧ ∀ ω, κ ω = k → Y ω = Y' ω) (q : List ℝ) (N : S → (Fin q.length → ℝ) → ℝ)
    (hN : Measurable fun p : S × (Fin q.length → ℝ) => N p.1 p.2) (key : Str) (tol : ℝ) (k' : ℕ) (T' : Ω → Frame (Num ℝ))
    (hT' : ∀ ω, ∃ g', generateRandomLabels C.rng.toRng s n d (ω, k') = .ok (T' ω, g')) (i' : Fin n) (t : ℝ) (ht : 0 ≤ t) :
    P {ω | t ≤ |(Set.ncard {i : Fin n | Misses s q key tol (N (Y ω)) (rowOf (T ω) i)} : ℝ) / n -
      P.real {ω' | Misses s q key tol (N (Y ω)) (rowOf (T' ω') i')}|} ≤ ENNReal.ofReal (2 * Real.exp (-2 * n * t ^ 2)) := by
  classical
  have := chance_prob C
  obtain ⟨D, V, mD, mV, hcurve⟩ := curve_measurable s q
  let A : Set (S × Row) := {p | ¬ (p.2 ∈ D ∧ |N p.1 (V p.2) - (p.2 key).1| ≤ tol)}
  have mA : MeasurableSet A := by
    have m1 : Measurable fun p : S × Row => |N p.1 (V p.2) - (p.2 key).1| :=
      ((hN.comp (measurable_fst.prodMk (mV.comp measurable_snd))).sub ((measurable_pi_apply key).comp measurable_snd).fst).abs
    exact ((measurable_snd mD).inter (measurableSet_le m1 measurable_const)).compl
  have hmiss : ∀ k f g', generateRandomLabels C.rng.toRng s n d k = .ok (f, g') → ∀ (i : Fin n) (y : S),
      Misses s q key tol (N y) (rowOf f i) ↔ (y, rowOf f i) ∈ A := by
    intro k f g' hg i y
    obtain ⟨ra, rp⟩ := row_physical C s hs hn d hl nm hamb habs n k f g' hg i
    refine not_congr ⟨?_, ?_⟩
    · rintro ⟨v, h1, h2⟩
      obtain ⟨h3, rfl⟩ := (hcurve _ ra rp v).1 h1
      exact ⟨h3, h2⟩
    · rintro ⟨h3, h2⟩
      exact ⟨V _, (hcurve _ ra rp _).2 ⟨h3, rfl⟩, h2⟩
  have h := C131_stop C s hs hn d hl n hpos κ hκ T hT S Y hY (fun y r => A.indicator (fun _ => (1 : ℝ)) (y, r)) (measurable_const.indicator mA)
    (fun y r => by
      by_cases hr : (y, r) ∈ A
      · rw [Set.indicator_of_mem hr]; exact ⟨zero_le_one, le_rfl⟩
      · rw [Set.indicator_of_notMem hr]; exact ⟨le_rfl, zero_le_one⟩) k' T' hT' i' t ht
  refine le_of_eq_of_le ?_ h
  congr 1
  ext ω
  obtain ⟨g', hg⟩ := hT ω
  have e1 : meanLoss n (T ω) (fun r => A.indicator (fun _ => (1 : ℝ)) (Y ω, r)) =
      (Set.ncard {i : Fin n | Misses s q key tol (N (Y ω)) (rowOf (T ω) i)} : ℝ) / n := by
    unfold meanLoss
    congr 1
    simp only [hmiss _ _ _ hg]
    rw [Set.ncard_eq_toFinset_card', Set.toFinset_ofPred, Finset.card_filter, Nat.cast_sum]
    refine Finset.sum_congr rfl fun i _ => ?_
    by_cases hr : (Y ω, rowOf (T ω) i) ∈ A
    · rw [Set.indicator_of_mem hr, if_pos hr, Nat.cast_one]
    · rw [Set.indicator_of_notMem hr, if_neg hr, Nat.cast_zero]
  have e2 : ∫ ω', A.indicator (fun _ => (1 : ℝ)) (Y ω, rowOf (T' ω') i') ∂P = P.real {ω' | Misses s q key tol (N (Y ω)) (rowOf (T' ω') i')} := by
    obtain ⟨μ, -, hrow, -⟩ := test_bound C s hs hn d hl n hpos
    have m := (hrow k' T' hT' i').1
    have mset : MeasurableSet {ω' | (Y ω, rowOf (T' ω') i') ∈ A} := (measurable_const.prodMk m) mA
    have e : {ω' | Misses s q key tol (N (Y ω)) (rowOf (T' ω') i')} = {ω' | (Y ω, rowOf (T' ω') i') ∈ A} := by
      ext ω'
      obtain ⟨g'', hg''⟩ := hT' ω'
      exact hmiss _ _ _ hg'' i' (Y ω)
    rw [e, ← integral_indicator_one mset]
    rfl
  simp only [Set.mem_ofPred_eq]
  rw [e1, e2]

/-- **C131** (choosing among predictions): let `M` predictions be fixed before the test set. All their error rates on the test set are then within `t` of
the probabilities for a new sample, with a probability of at least `1 - 2 M exp(-2 n t²)`. This includes the one that does best on the test set. -/
theorem C131_select (C : Chance Ω P) (s : SampleV ℝ) (hs : SampleRegular s) (hn : (partNames s).Nodup) (d : DistArgs)
    (hl : ∀ l ∈ s.structure_, LayerDrawable l ∧ LayerKindOk d.kind l) (nm : Option Str) (hamb : s.ambient.sld = some (.const (.real 0) nm))
    (habs : ∀ l ∈ s.substrate :: s.layers, ∀ p, l.sld = some p → 0 ≤ p.min.im ∧ 0 ≤ p.max.im) (n : ℕ) (hpos : 0 < n) (κ : Ω → ℕ)
    (hκ : ∀ k, MeasurableSet[Chance.past C k] {ω | κ ω = k}) (T : Ω → Frame (Num ℝ))
    (hT : ∀ ω, ∃ g', generateRandomLabels C.rng.toRng s n d (ω, κ ω) = .ok (T ω, g')) (S : Type) [MeasurableSpace S] (Y : Ω → S)
    (hY : ∀ k, ∃ Y' : Ω → S, Measurable[Chance.past C k] Y' ∧ ∀ ω, κ ω = k → Y ω = Y' ω) (q : List ℝ) (M : ℕ)
    (N : Fin M → S → (Fin q.length → ℝ) → ℝ) (hN : ∀ m, Measurable fun p : S × (Fin q.length → ℝ) => N m p.1 p.2) (key : Str) (tol : ℝ) (k' : ℕ)
    (T' : Ω → Frame (Num ℝ)) (hT' : ∀ ω, ∃ g', generateRandomLabels C.rng.toRng s n d (ω, k') = .ok (T' ω, g')) (i' : Fin n) (t : ℝ) (ht : 0 ≤ t) :
    P {ω | ∃ m, t ≤ |(Set.ncard {i : Fin n | Misses s q key tol (N m (Y ω)) (rowOf (T ω) i)} : ℝ) / n -
      P.real {ω' | Misses s q key tol (N m (Y ω)) (rowOf (T' ω') i')}|} ≤ M * ENNReal.ofReal (2 * Real.exp (-2 * n * t ^ 2)) := by
  have e : {ω | ∃ m, t ≤ |(Set.ncard {i : Fin n | Misses s q key tol (N m (Y ω)) (rowOf (T ω) i)} : ℝ) / n -
      P.real {ω' | Misses s q key tol (N m (Y ω)) (rowOf (T' ω') i')}|} =
      ⋃ m, {ω | t ≤ |(Set.ncard {i : Fin n | Misses s q key tol (N m (Y ω)) (rowOf (T ω) i)} : ℝ) / n -
        P.real {ω' | Misses s q key tol (N m (Y ω)) (rowOf (T' ω') i')}|} := by
    ext ω
    simp only [Set.mem_iUnion, Set.mem_ofPred_eq]
  rw [e]
  refine (measure_iUnion_fintype_le _ _).trans ((Finset.sum_le_sum fun m _ =>
    C131_misses C s hs hn d hl nm hamb habs n hpos κ hκ T hT S Y hY q (N m) (hN m) key tol k' T' hT' i' t ht).trans ?_)
  rw [Finset.sum_const, Finset.card_univ, Fintype.card_fin, nsmul_eq_mul]

/-! ### Training and test data of the same generator -/

/-- **C131** (training data): the number of random numbers that a table takes, and its rows, are known after these numbers. -/
theorem C131_known (C : Chance Ω P) (s : SampleV ℝ) (hs : SampleRegular s) (hn : (partNames s).Nodup) (d : DistArgs)
    (hl : ∀ l ∈ s.structure_, LayerDrawable l ∧ LayerKindOk d.kind l) (n : ℕ) (hpos : 0 < n) (k : ℕ) (T : Ω → Frame (Num ℝ)) (κ : Ω → ℕ)
    (hT : ∀ ω, generateRandomLabels C.rng.toRng s n d (ω, k) = .ok (T ω, (ω, κ ω))) :
    (∀ k', MeasurableSet[Chance.past C k'] {ω | κ ω = k'}) ∧
    ∀ k', ∃ Y' : Ω → Fin n → Row, Measurable[Chance.past C k'] Y' ∧ ∀ ω, κ ω = k' → (fun i : Fin n => rowOf (T ω) i) = Y' ω := by
  obtain ⟨Ψ, N, mΨ, mN, loc, hΨ⟩ := rows_stream C s hs hn d hl n hpos
  have hκ : ∀ ω, κ ω = k + N (Chance.stream C (ω, k)) := fun ω => congrArg Prod.snd (hΨ ω k _ _ (hT ω)).1
  let cut : ℕ → Stream → Stream := fun m st j => if j < m then st j else 0
  have cut_eq : ∀ (m : ℕ) (st : Stream) (j : ℕ), j < m → cut m st j = st j := fun m st j hj => if_pos hj
  have mcut : ∀ m, Measurable[Chance.past C (k + m)] fun ω => cut m (Chance.stream C (ω, k)) := by
    intro m
    refine @measurable_pi_lambda _ _ _ (Chance.past C (k + m)) _ _ fun j => ?_
    by_cases hj : j < m
    · simp only [cut, if_pos hj]
      have hm : @Measurable Ω ℝ (MeasurableSpace.comap (Chance.value C (.u (k + j))) inferInstance) _ (Chance.value C (.u (k + j))) :=
        comap_measurable _
      exact hm.mono (le_iSup₂_of_le (f := fun i (_ : i ∈ {i | position i < k + m}) => MeasurableSpace.comap (Chance.value C i) inferInstance)
        (ChanceIdx.u (k + j)) (by simpa [position] using hj) le_rfl) le_rfl
    · simp only [cut, if_neg hj]
      exact measurable_const
  have hcut : ∀ (m : ℕ) (st : Stream), N st = m ↔ N (cut m st) = m := by
    intro m st
    constructor
    · intro h
      rw [(loc st (cut m st) fun j hj => cut_eq m st j (h ▸ hj)).1, h]
    · intro h
      rw [(loc (cut m st) st fun j hj => (cut_eq m st j (h ▸ hj)).symm).1, h]
  constructor
  · intro k'
    by_cases hk : k ≤ k'
    · obtain ⟨m, rfl⟩ := Nat.exists_eq_add_of_le hk
      have e : {ω | κ ω = k + m} = {ω | N (cut m (Chance.stream C (ω, k))) = m} := by
        ext ω
        simp only [Set.mem_ofPred_eq, hκ ω, Nat.add_left_cancel_iff]
        exact hcut m _
      rw [e]
      exact (mN.comp (mcut m)) (measurableSet_singleton m)
    · have e : {ω | κ ω = k'} = ∅ := by
        ext ω
        simp only [Set.mem_ofPred_eq, Set.mem_empty_iff_false, iff_false, hκ ω]
        omega
      rw [e]
      exact @MeasurableSet.empty _ (Chance.past C k')
  · intro k'
    by_cases hk : k ≤ k'
    · obtain ⟨m, rfl⟩ := Nat.exists_eq_add_of_le hk
      refine ⟨fun ω => Ψ (cut m (Chance.stream C (ω, k))), mΨ.comp (mcut m), fun ω hω => ?_⟩
      rw [hκ ω, Nat.add_left_cancel_iff] at hω
      show _ = Ψ (cut m (Chance.stream C (ω, k)))
      rw [(loc (Chance.stream C (ω, k)) (cut m (Chance.stream C (ω, k))) fun j hj => cut_eq m _ j (hω ▸ hj)).2]
      exact funext fun i => (hΨ ω k _ _ (hT ω)).2 i
    · refine ⟨fun _ _ _ => (0, 0), @measurable_const _ _ _ (Chance.past C k') _, fun ω hω => ?_⟩
      rw [hκ ω] at hω
      omega

/-- **C131** (training and test data): draw a table of training samples and then a table of `n` test samples with the same generator, and let a
prediction of a label be any function of the training samples and the curve. The fraction of the test samples for which it is off by more than `tol`
differs from the probability of this for a new sample by `t` or more with a probability of at most `2 exp(-2 n t²)`. -/
theorem C131_train_test (C : Chance Ω P) (s₀ : SampleV ℝ) (hs₀ : SampleRegular s₀) (hn₀ : (partNames s₀).Nodup) (d₀ : DistArgs)
    (hl₀ : ∀ l ∈ s₀.structure_, LayerDrawable l ∧ LayerKindOk d₀.kind l) (n₀ : ℕ) (hpos₀ : 0 < n₀) (k : ℕ) (T₀ : Ω → Frame (Num ℝ)) (κ : Ω → ℕ)
    (hT₀ : ∀ ω, generateRandomLabels C.rng.toRng s₀ n₀ d₀ (ω, k) = .ok (T₀ ω, (ω, κ ω)))
    (s : SampleV ℝ) (hs : SampleRegular s) (hn : (partNames s).Nodup) (d : DistArgs)
    (hl : ∀ l ∈ s.structure_, LayerDrawable l ∧ LayerKindOk d.kind l) (nm : Option Str) (hamb : s.ambient.sld = some (.const (.real 0) nm))
    (habs : ∀ l ∈ s.substrate :: s.layers, ∀ p, l.sld = some p → 0 ≤ p.min.im ∧ 0 ≤ p.max.im) (n : ℕ) (hpos : 0 < n) (T : Ω → Frame (Num ℝ))
    (hT : ∀ ω, ∃ g', generateRandomLabels C.rng.toRng s n d (ω, κ ω) = .ok (T ω, g')) (q : List ℝ)
    (N : (Fin n₀ → Row) → (Fin q.length → ℝ) → ℝ) (hN : Measurable fun p : (Fin n₀ → Row) × (Fin q.length → ℝ) => N p.1 p.2) (key : Str) (tol : ℝ)
    (k' : ℕ) (T' : Ω → Frame (Num ℝ)) (hT' : ∀ ω, ∃ g', generateRandomLabels C.rng.toRng s n d (ω, k') = .ok (T' ω, g')) (i' : Fin n)
    (t : ℝ) (ht : 0 ≤ t) :
    P {ω | t ≤ |(Set.ncard {i : Fin n | Misses s q key tol (N fun j => rowOf (T₀ ω) j) (rowOf (T ω) i)} : ℝ) / n -
      P.real {ω' | Misses s q key tol (N fun j => rowOf (T₀ ω) j) (rowOf (T' ω') i')}|} ≤ ENNReal.ofReal (2 * Real.exp (-2 * n * t ^ 2)) := by
  obtain ⟨h1, h2⟩ := C131_known C s₀ hs₀ hn₀ d₀ hl₀ n₀ hpos₀ k T₀ κ hT₀
  exact C131_misses C s hs hn d hl nm hamb habs n hpos κ h1 T hT (Fin n₀ → Row) (fun ω j => rowOf (T₀ ω) j) h2 q N hN key tol k' T' hT' i' t ht

/-! ### Example -/

/-- The hypotheses of C131 hold for two films: training and test tables exist, and a prediction that is the mean thickness of the training samples is a
measurable function of them. -/
example (n₀ n : ℕ) (h₀ : 0 < n₀) (hpos : 0 < n) (q : List ℝ) (tol : ℝ) : ∃ (T₀ T T' : (ChanceIdx → ℝ) → Frame (Num ℝ)) (κ : (ChanceIdx → ℝ) → ℕ),
    (∀ ω, generateRandomLabels Chance.product.rng.toRng exampleFilms n₀ ⟨.uniform, none, none⟩ (ω, 0) = .ok (T₀ ω, (ω, κ ω))) ∧
    (∀ ω, ∃ g', generateRandomLabels Chance.product.rng.toRng exampleFilms n ⟨.uniform, none, none⟩ (ω, κ ω) = .ok (T ω, g')) ∧
    ∀ t : ℝ, 0 ≤ t → Measure.infinitePi ChanceIdx.law {ω | t ≤ |(Set.ncard {i : Fin n | Misses exampleFilms q ("a".toList ++ "_thickness".toList) tol
        (fun _ => (∑ j : Fin n₀, (rowOf (T₀ ω) j ("a".toList ++ "_thickness".toList)).1) / n₀) (rowOf (T ω) i)} : ℝ) / n -
      (Measure.infinitePi ChanceIdx.law).real {ω' | Misses exampleFilms q ("a".toList ++ "_thickness".toList) tol
        (fun _ => (∑ j : Fin n₀, (rowOf (T₀ ω) j ("a".toList ++ "_thickness".toList)).1) / n₀) (rowOf (T' ω') (⟨0, hpos⟩ : Fin n))}|} ≤
      ENNReal.ofReal (2 * Real.exp (-2 * n * t ^ 2)) := by
  have H : ∀ l ∈ exampleFilms.structure_, LayerDrawable l ∧ LayerKindOk .uniform l := fun l hl =>
    ⟨exampleFilms_drawable l hl, fun _ _ => Or.inl rfl, fun _ _ => Or.inl rfl, fun _ _ => Or.inl rfl⟩
  have hnd : (partNames exampleFilms).Nodup := by simp only [partNames, exampleFilms, exampleFilm]; decide
  have run : ∀ m : ℕ, 0 < m → ∀ k, ∃ T : (ChanceIdx → ℝ) → Frame (Num ℝ), ∀ ω, ∃ g',
      generateRandomLabels Chance.product.rng.toRng exampleFilms m ⟨.uniform, none, none⟩ (ω, k) = .ok (T ω, g') := fun m hm k => by
    obtain ⟨T, hT, -⟩ := C124_rows Chance.product exampleFilms exampleFilms_regular hnd ⟨.uniform, none, none⟩ H m hm k
    exact ⟨T, hT⟩
  obtain ⟨Ψ, N, -, -, -, hΨ⟩ := rows_stream Chance.product exampleFilms exampleFilms_regular hnd ⟨.uniform, none, none⟩ H n₀ h₀
  obtain ⟨T₀, hT₀⟩ := run n₀ h₀ 0
  choose F hF using run n hpos
  have hκ : ∀ ω, generateRandomLabels Chance.product.rng.toRng exampleFilms n₀ ⟨.uniform, none, none⟩ (ω, 0) =
      .ok (T₀ ω, (ω, 0 + N (Chance.stream Chance.product (ω, 0)))) := fun ω => by
    obtain ⟨g', hg⟩ := hT₀ ω
    rw [hg, (hΨ ω 0 _ _ hg).1]
  refine ⟨T₀, fun ω => F (0 + N (Chance.stream Chance.product (ω, 0))) ω, F 0, _, hκ, fun ω => hF _ ω, fun t ht => ?_⟩
  refine C131_train_test Chance.product exampleFilms exampleFilms_regular hnd ⟨.uniform, none, none⟩ H n₀ h₀ 0 T₀ _ hκ
    exampleFilms exampleFilms_regular hnd ⟨.uniform, none, none⟩ H (some "sld".toList) rfl ?_ n hpos _ (fun ω => hF _ ω) q
    (fun R _ => (∑ j : Fin n₀, (R j ("a".toList ++ "_thickness".toList)).1) / n₀) ?_ _ tol 0 (F 0) (hF 0) ⟨0, hpos⟩ t ht
  · intro l hl p hp
    simp only [exampleFilms, List.mem_cons, List.not_mem_nil, or_false] at hl
    rcases hl with rfl | rfl | rfl <;> cases hp <;> exact ⟨le_refl _, le_refl _⟩
  · refine (Finset.measurable_sum _ fun j _ => ?_).div_const _
    exact ((measurable_pi_apply _).comp ((measurable_pi_apply j).comp measurable_fst)).fst

end Verif.Props
