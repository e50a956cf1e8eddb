import Verif.Lemmas.PyList
import Verif.Props.Exchange
import Verif.Props.NoiseChance

/-!
# C127: every epoch is a new random arrangement of the samples
-/

namespace Verif.Props
open Verif.Py Verif.Model Verif.Spec Verif.Lemmas MeasureTheory ProbabilityTheory

variable {Ω : Type} [MeasurableSpace Ω] {P : Measure Ω}

/-- A generator during a training: it is constructed when `k 0` random numbers have been drawn, and `on_epoch_end` is called when `k 1`,
`k 2`, ... random numbers have been drawn. In between, other random numbers may be drawn, such as the noise of the batches. -/
structure EpochRun (C : Chance Ω P) (refl : List (List ℝ)) (width : ℕ) (labels : List (List ℝ)) (batch : ℕ) (shuffle : Bool) (k : ℕ → ℕ)
    (s : ℕ → Ω → Gen) : Prop where
  later : StrictMono k
  init : ∀ ω, ∃ g', Gen.init C.rng refl width labels batch shuffle (ω, k 0) = .ok (s 0 ω, g')
  next : ∀ e ω, ∃ g', (s e ω).doShuffle C.rng (ω, k (e + 1)) = .ok (s (e + 1) ω, g')

/-- The samples in the order of the arrangement `π`. -/
def arrangement {n : ℕ} (π : Equiv.Perm (Fin n)) : List ℕ := List.ofFn fun i => (π i : ℕ)

theorem arrangement_length {n : ℕ} (π : Equiv.Perm (Fin n)) : (arrangement π).length = n := by simp [arrangement]

theorem arrangement_injective {n : ℕ} : Function.Injective (arrangement (n := n)) := by
  intro π τ h
  ext i
  exact congrFun (List.ofFn_injective h) i

theorem s_indep (C : Chance Ω P) : iIndepFun C.s P :=
  C.indep.precomp (g := ChanceIdx.s) fun a b h => by cases h; rfl

/-- The arrangement in epoch `e`, for shuffles with the numbers `k 0`, `k 1`, .... -/
def arranged (C : Chance Ω P) (n : ℕ) (k : ℕ → ℕ) : ℕ → Ω → Equiv.Perm (Fin n)
  | 0, ω => C.order n (C.s (k 0) ω)
  | e + 1, ω => arranged C n k e ω * C.order n (C.s (k (e + 1)) ω)

theorem perm_arrangement (C : Chance Ω P) {n : ℕ} (k : ℕ) (ω : Ω) (π : Equiv.Perm (Fin n)) :
    C.perm k ω (arrangement π) = arrangement (π * C.order n (C.s k ω)) := by
  unfold Chance.perm arrangement
  rw [reorder_ofFn (fun n => C.order n (C.s k ω))]
  rfl

theorem run_arranged {C : Chance Ω P} {refl labels : List (List ℝ)} {width batch : ℕ} {k : ℕ → ℕ} {s : ℕ → Ω → Gen}
    (h : EpochRun C refl width labels batch true k s) (e : ℕ) (ω : Ω) :
    (s e ω).indexes = arrangement (arranged C refl.length k e ω) ∧ (s e ω).shuffle = true ∧ (s e ω).batch = batch ∧ (s e ω).refl = refl := by
  induction e with
  | zero =>
    obtain ⟨g', h⟩ := h.init ω
    unfold Gen.init at h
    split_ifs at h with hb
    · exact (Rand.fail_ok.1 h).elim
    · unfold Gen.doShuffle at h
      simp only [if_true] at h
      have := (Prod.mk.inj (Except.ok.inj h)).1
      rw [← this]
      refine ⟨?_, rfl, rfl, rfl⟩
      have e1 : List.range refl.length = arrangement (1 : Equiv.Perm (Fin refl.length)) := by
        refine List.ext_getElem (by simp [arrangement]) fun i _ _ => ?_
        simp [arrangement]
      show C.perm (k 0) ω (List.range refl.length) = _
      rw [e1, perm_arrangement, one_mul]
      rfl
  | succ e ih =>
    obtain ⟨g', h⟩ := h.next e ω
    obtain ⟨h1, h2, h3, h4⟩ := ih
    unfold Gen.doShuffle at h
    rw [if_pos h2] at h
    have := (Prod.mk.inj (Except.ok.inj h)).1
    rw [← this]
    refine ⟨?_, h2, h3, h4⟩
    show C.perm (k (e + 1)) ω (s e ω).indexes = _
    rw [h1, perm_arrangement]
    rfl

/-- The shuffles that lead to the arrangements `τ`. -/
def shuffles {n : ℕ} (τ : ℕ → Equiv.Perm (Fin n)) : ℕ → Equiv.Perm (Fin n)
  | 0 => τ 0
  | e + 1 => (τ e)⁻¹ * τ (e + 1)

theorem arranged_iff (C : Chance Ω P) (n : ℕ) (k : ℕ → ℕ) (τ : ℕ → Equiv.Perm (Fin n)) (ω : Ω) (E : ℕ) :
    (∀ e < E, arranged C n k e ω = τ e) ↔ ∀ e < E, C.order n (C.s (k e) ω) = shuffles τ e := by
  induction E with
  | zero => simp
  | succ E ih =>
    have : ∀ p : ℕ → Prop, (∀ e < E + 1, p e) ↔ (∀ e < E, p e) ∧ p E := by
      intro p
      constructor
      · exact fun h => ⟨fun e he => h e (by omega), h E (by omega)⟩
      · rintro ⟨h1, h2⟩ e he
        rcases Nat.lt_succ_iff_lt_or_eq.1 he with h | rfl
        · exact h1 e h
        · exact h2
    rw [this, this, ih]
    refine and_congr_right fun hE => ?_
    cases E with
    | zero => exact Iff.rfl
    | succ E =>
      have h1 := ih.2 hE E (by omega)
      show arranged C n k E ω * _ = _ ↔ _ = (τ E)⁻¹ * τ (E + 1)
      rw [h1, eq_inv_mul_iff_mul_eq]

theorem arranged_law (C : Chance Ω P) (n : ℕ) {k : ℕ → ℕ} (hk : Function.Injective k) (τ : ℕ → Equiv.Perm (Fin n)) (E : ℕ) :
    MeasurableSet {ω | ∀ e < E, arranged C n k e ω = τ e} ∧
    P {ω | ∀ e < E, arranged C n k e ω = τ e} = ((n.factorial : ENNReal)⁻¹) ^ E := by
  have := chance_prob C
  have e1 : {ω | ∀ e < E, arranged C n k e ω = τ e} = ⋂ e ∈ Finset.range E, C.s (k e) ⁻¹' {x | C.order n x = shuffles τ e} := by
    ext ω
    simp only [Set.mem_ofPred_eq, arranged_iff, Set.mem_iInter, Finset.mem_range, Set.mem_preimage]
  rw [e1]
  constructor
  · exact Finset.measurableSet_biInter _ fun e _ => C.s_measurable _ (C.order_measurable _ _)
  · rw [((s_indep C).precomp hk).measure_inter_preimage_eq_mul (Finset.range E) fun e _ => C.order_measurable _ _]
    have : ∀ e ∈ Finset.range E, P (C.s (k e) ⁻¹' {x | C.order n x = shuffles τ e}) = (n.factorial : ENNReal)⁻¹ := by
      intro e _
      rw [← Measure.map_apply (C.s_measurable _) (C.order_measurable _ _), C.s_law, C.order_law]
    rw [Finset.prod_congr rfl this]
    simp

theorem arranged_product (C : Chance Ω P) (n : ℕ) {k : ℕ → ℕ} (hk : Function.Injective k) (E : ℕ)
    (A : Fin E → Finset (Equiv.Perm (Fin n))) :
    P {ω | ∀ e : Fin E, arranged C n k e ω ∈ A e} = ∏ e : Fin E, ((A e).card : ENNReal) / n.factorial := by
  classical
  let ext : (Fin E → Equiv.Perm (Fin n)) → ℕ → Equiv.Perm (Fin n) := fun τ e => if h : e < E then τ ⟨e, h⟩ else 1
  have hext : ∀ τ ω, (∀ e < E, arranged C n k e ω = ext τ e) ↔ (fun e : Fin E => arranged C n k e ω) = τ := by
    intro τ ω
    constructor
    · intro h
      funext e
      have := h e e.2
      simpa [ext] using this
    · rintro rfl e he
      simp [ext, he]
  have e1 : {ω | ∀ e : Fin E, arranged C n k e ω ∈ A e} = ⋃ τ ∈ Fintype.piFinset A, {ω | ∀ e < E, arranged C n k e ω = ext τ e} := by
    ext ω
    simp only [Set.mem_ofPred_eq, Set.mem_iUnion, Fintype.mem_piFinset, hext]
    constructor
    · exact fun h => ⟨_, h, rfl⟩
    · rintro ⟨τ, h, rfl⟩
      exact h
  rw [e1, measure_biUnion_finset]
  · rw [Finset.sum_congr rfl fun τ _ => (arranged_law C n hk (ext τ) E).2, Finset.sum_const, Fintype.card_piFinset, nsmul_eq_mul]
    simp only [div_eq_mul_inv]
    rw [Finset.prod_mul_distrib, Finset.prod_const, Finset.card_univ, Fintype.card_fin]
    push_cast
    rfl
  · intro τ _ τ' _ hne
    rw [Function.onFun, Set.disjoint_left]
    intro ω h1 h2
    exact hne (((hext τ ω).1 h1).symm.trans ((hext τ' ω).1 h2))
  · exact fun τ _ => (arranged_law C n hk (ext τ) E).1

/-- C127: all arrangements of the samples are equally likely in every epoch, and the epochs are independent: for any conditions on the
arrangements of the first `E` epochs, the probability that all are met is the product of the fractions of arrangements that meet them. -/
theorem C127_epochs (C : Chance Ω P) (refl labels : List (List ℝ)) (width batch : ℕ) (k : ℕ → ℕ) (s : ℕ → Ω → Gen)
    (h : EpochRun C refl width labels batch true k s) (E : ℕ) (A : Fin E → List ℕ → Prop) :
    P {ω | ∀ e : Fin E, A e (s e ω).indexes} =
      ∏ e : Fin E, (Nat.card {π : Equiv.Perm (Fin refl.length) // A e (List.ofFn fun i => (π i : ℕ))} : ENNReal) / refl.length.factorial := by
  classical
  have := arranged_product C refl.length h.later.injective E fun e => Finset.univ.filter fun π => A e (arrangement π)
  simp only [Finset.mem_filter, Finset.mem_univ, true_and] at this
  simp only [(run_arranged h _ _).1]
  rw [this]
  refine Finset.prod_congr rfl fun e _ => ?_
  rw [Nat.card_eq_fintype_card, Fintype.card_subtype]
  rfl

theorem place_count {n : ℕ} (j : Fin n) (B : Finset (Fin n)) :
    (n : ENNReal) * ((Finset.univ.filter fun π : Equiv.Perm (Fin n) => π⁻¹ j ∈ B).card : ENNReal) = n.factorial * B.card := by
  classical
  have h := sum_perm (fun i : Fin n => if i ∈ B then (1 : ENNReal) else 0) j
  rw [Finset.sum_ite_mem, Finset.univ_inter, Finset.sum_const, nsmul_eq_mul, mul_one] at h
  rw [← h, ← Equiv.sum_comp (Equiv.inv (Equiv.Perm (Fin n)))]
  simp only [Equiv.inv_apply]
  rw [← Finset.sum_filter, Finset.sum_const, nsmul_eq_mul, mul_one]

theorem place_product (C : Chance Ω P) {n : ℕ} (j : Fin n) {k : ℕ → ℕ} (hk : Function.Injective k) (E : ℕ)
    (B : Fin E → Finset (Fin n)) :
    P {ω | ∀ e : Fin E, (arranged C n k e ω)⁻¹ j ∈ B e} = ∏ e : Fin E, ((B e).card : ENNReal) / n := by
  have := arranged_product C n hk E fun e => Finset.univ.filter fun π : Equiv.Perm (Fin n) => π⁻¹ j ∈ B e
  simp only [Finset.mem_filter, Finset.mem_univ, true_and] at this
  rw [this]
  refine Finset.prod_congr rfl fun e _ => ?_
  have hn : (n : ENNReal) ≠ 0 := by
    have := j.2
    exact_mod_cast (by omega : n ≠ 0)
  rw [ENNReal.div_eq_div_iff hn (ENNReal.natCast_ne_top _) (by exact_mod_cast n.factorial_ne_zero) (ENNReal.natCast_ne_top _)]
  rw [place_count]

theorem mem_arrangement_block {n : ℕ} (π : Equiv.Perm (Fin n)) (j : Fin n) (lo hi : ℕ) :
    (j : ℕ) ∈ ((arrangement π).take hi).drop lo ↔ lo ≤ (π⁻¹ j : Fin n) ∧ ((π⁻¹ j : Fin n) : ℕ) < hi := by
  rw [List.mem_drop_iff_getElem]
  constructor
  · rintro ⟨i, hi', h⟩
    rw [List.length_take, arrangement_length] at hi'
    rw [List.getElem_take] at h
    have hin : lo + i < n := by omega
    have : π ⟨lo + i, hin⟩ = j := by
      apply Fin.ext
      rw [← h]
      simp [arrangement]
    have : π⁻¹ j = ⟨lo + i, hin⟩ := by rw [← this]; simp
    rw [this]
    simp only
    omega
  · rintro ⟨h1, h2⟩
    refine ⟨((π⁻¹ j : Fin n) : ℕ) - lo, ?_, ?_⟩
    · rw [List.length_take, arrangement_length]
      have := (π⁻¹ j : Fin n).2
      omega
    · rw [List.getElem_take]
      simp only [arrangement, List.getElem_ofFn]
      have : (⟨lo + (((π⁻¹ j : Fin n) : ℕ) - lo), by have := (π⁻¹ j : Fin n).2; omega⟩ : Fin n) = π⁻¹ j := Fin.ext (by simp only; omega)
      rw [this]
      simp

theorem in_batch_iff {C : Chance Ω P} {refl labels : List (List ℝ)} {width batch : ℕ} {k : ℕ → ℕ} {s : ℕ → Ω → Gen}
    (h : EpochRun C refl width labels batch true k s) (j : Fin refl.length) (e i : ℕ) (ω : Ω) :
    (j : ℕ) ∈ (s e ω).batchIndexes i ↔
      i * batch ≤ ((arranged C refl.length k e ω)⁻¹ j : Fin refl.length) ∧ (((arranged C refl.length k e ω)⁻¹ j : Fin refl.length) : ℕ) < (i + 1) * batch := by
  obtain ⟨h1, -, h3, -⟩ := run_arranged h e ω
  rw [batchIndexes_eq, h1, h3, mem_arrangement_block]

theorem card_block {n lo hi : ℕ} (h : hi ≤ n) : (Finset.univ.filter fun p : Fin n => lo ≤ (p : ℕ) ∧ (p : ℕ) < hi).card = hi - lo := by
  rw [← Nat.card_Ico]
  refine Finset.card_bij (fun p _ => (p : ℕ)) ?_ ?_ ?_
  · intro p hp
    simpa using hp
  · intro p _ q _ hpq
    exact Fin.ext hpq
  · intro p hp
    rw [Finset.mem_Ico] at hp
    exact ⟨⟨p, by omega⟩, by simpa using hp, rfl⟩

/-- C127: a sample is in a given batch of an epoch with probability `batch_size / n`, and this is independent of the batches of the sample in
other epochs. -/
theorem C127_batch (C : Chance Ω P) (refl labels : List (List ℝ)) (width batch : ℕ) (k : ℕ → ℕ) (s : ℕ → Ω → Gen)
    (h : EpochRun C refl width labels batch true k s) (j : ℕ) (hj : j < refl.length) (E : ℕ) (i : Fin E → ℕ) (hi : ∀ e, i e < refl.length / batch) :
    P {ω | ∀ e : Fin E, j ∈ (s e ω).batchIndexes (i e)} = ((batch : ENNReal) / refl.length) ^ E := by
  have := place_product C (⟨j, hj⟩ : Fin refl.length) h.later.injective E fun e =>
    Finset.univ.filter fun p : Fin refl.length => i e * batch ≤ (p : ℕ) ∧ (p : ℕ) < (i e + 1) * batch
  simp only [Finset.mem_filter, Finset.mem_univ, true_and] at this
  have e1 : ∀ ω, (∀ e : Fin E, j ∈ (s e ω).batchIndexes (i e)) ↔ ∀ e : Fin E, i e * batch ≤ ((arranged C refl.length k e ω)⁻¹ ⟨j, hj⟩ : Fin refl.length) ∧
      (((arranged C refl.length k e ω)⁻¹ ⟨j, hj⟩ : Fin refl.length) : ℕ) < (i e + 1) * batch := fun ω =>
    forall_congr' fun e => in_batch_iff h ⟨j, hj⟩ e (i e) ω
  simp only [e1]
  rw [this]
  have e2 : ∀ e : Fin E, (Finset.univ.filter fun p : Fin refl.length => i e * batch ≤ (p : ℕ) ∧ (p : ℕ) < (i e + 1) * batch).card = batch := by
    intro e
    rw [card_block]
    · rw [Nat.add_mul, Nat.one_mul, Nat.add_sub_cancel_left]
    · exact le_trans (Nat.mul_le_mul_right _ (hi e)) (Nat.div_mul_le_self _ _)
  simp only [e2]
  rw [Finset.prod_const, Finset.card_univ, Fintype.card_fin]

/-- C127: every sample is left out of an epoch with probability `(n mod batch_size) / n`, independently in every epoch, so that it is left out
of all of the first `E` epochs with probability `((n mod batch_size) / n) ^ E`. -/
theorem C127_left_out (C : Chance Ω P) (refl labels : List (List ℝ)) (width batch : ℕ) (hb : 0 < batch) (k : ℕ → ℕ)
    (s : ℕ → Ω → Gen) (h : EpochRun C refl width labels batch true k s) (j : ℕ) (hj : j < refl.length) (E : ℕ) :
    P {ω | ∀ e < E, ∀ i < (s e ω).len, j ∉ (s e ω).batchIndexes i} = (((refl.length % batch : ℕ) : ENNReal) / refl.length) ^ E := by
  have := place_product C (⟨j, hj⟩ : Fin refl.length) h.later.injective E fun _ =>
    Finset.univ.filter fun p : Fin refl.length => refl.length / batch * batch ≤ (p : ℕ) ∧ (p : ℕ) < refl.length
  simp only [Finset.mem_filter, Finset.mem_univ, true_and] at this
  have e1 : ∀ ω e, (∀ i < (s e ω).len, j ∉ (s e ω).batchIndexes i) ↔ refl.length / batch * batch ≤ ((arranged C refl.length k e ω)⁻¹ ⟨j, hj⟩ : Fin refl.length) ∧
      (((arranged C refl.length k e ω)⁻¹ ⟨j, hj⟩ : Fin refl.length) : ℕ) < refl.length := by
    intro ω e
    have hl : (s e ω).len = refl.length / batch := by
      obtain ⟨-, -, h3, h4⟩ := run_arranged h e ω
      rw [Gen.len, h3, h4]
    rw [hl]
    have hm := fun i => in_batch_iff h ⟨j, hj⟩ e i ω
    simp only at hm
    simp only [hm]
    generalize (arranged C refl.length k e ω)⁻¹ ⟨j, hj⟩ = p
    have hp := p.2
    constructor
    · intro hc
      refine ⟨?_, hp⟩
      by_contra hlt
      refine hc ((p : ℕ) / batch) ?_ ⟨Nat.div_mul_le_self _ _, ?_⟩
      · rw [Nat.div_lt_iff_lt_mul hb]
        omega
      · exact Nat.lt_mul_of_div_lt (Nat.lt_succ_self _) hb
    · rintro ⟨hc, -⟩ i hi ⟨h1, h2⟩
      have : (i + 1) * batch ≤ refl.length / batch * batch := Nat.mul_le_mul_right _ hi
      omega
  have e2 : ∀ ω, (∀ e < E, ∀ i < (s e ω).len, j ∉ (s e ω).batchIndexes i) ↔ ∀ e : Fin E,
      refl.length / batch * batch ≤ ((arranged C refl.length k e ω)⁻¹ ⟨j, hj⟩ : Fin refl.length) ∧
      (((arranged C refl.length k e ω)⁻¹ ⟨j, hj⟩ : Fin refl.length) : ℕ) < refl.length := fun ω =>
    ⟨fun hc e => (e1 ω e).1 (hc e e.2), fun hc e he => (e1 ω e).2 (hc ⟨e, he⟩)⟩
  simp only [e2]
  rw [this, card_block le_rfl, Finset.prod_const, Finset.card_univ, Fintype.card_fin]
  congr 3
  have := Nat.div_add_mod refl.length batch
  rw [mul_comm] at this
  omega

/-- C127: without shuffling the last `n mod batch_size` samples are left out of every epoch. -/
theorem C127_unshuffled (C : Chance Ω P) (refl labels : List (List ℝ)) (width batch : ℕ) (hb : 0 < batch) (k : ℕ → ℕ)
    (s : ℕ → Ω → Gen) (h : EpochRun C refl width labels batch false k s) (j : ℕ) (hj : j < refl.length) (e : ℕ) (ω : Ω) :
    (∀ i < (s e ω).len, j ∉ (s e ω).batchIndexes i) ↔ refl.length - refl.length % batch ≤ j := by
  have inv : ∀ e, (s e ω).indexes = List.range refl.length ∧ (s e ω).shuffle = false ∧ (s e ω).batch = batch ∧ (s e ω).refl = refl := by
    intro e
    induction e with
    | zero =>
      obtain ⟨g', h⟩ := h.init ω
      unfold Gen.init at h
      split_ifs at h with hb
      · exact (Rand.fail_ok.1 h).elim
      · unfold Gen.doShuffle at h
        have := (Prod.mk.inj (Except.ok.inj h)).1
        rw [← this]
        exact ⟨rfl, rfl, rfl, rfl⟩
    | succ e ih =>
      obtain ⟨g', h⟩ := h.next e ω
      obtain ⟨h1, h2, h3, h4⟩ := ih
      unfold Gen.doShuffle at h
      rw [if_neg (by rw [h2]; decide)] at h
      have := (Prod.mk.inj (Except.ok.inj h)).1
      rw [← this]
      exact ⟨h1, h2, h3, h4⟩
  obtain ⟨h1, -, h3, h4⟩ := inv e
  have hm : ∀ i, j ∈ (s e ω).batchIndexes i ↔ i * batch ≤ j ∧ j < (i + 1) * batch := by
    intro i
    have e1 : List.range refl.length = arrangement (1 : Equiv.Perm (Fin refl.length)) := by
      refine List.ext_getElem (by simp [arrangement]) fun i _ _ => ?_
      simp [arrangement]
    have := mem_arrangement_block (1 : Equiv.Perm (Fin refl.length)) ⟨j, hj⟩ (i * batch) ((i + 1) * batch)
    rw [batchIndexes_eq, h1, h3, e1]
    simpa using this
  have hd := Nat.div_add_mod refl.length batch
  rw [mul_comm] at hd
  rw [Gen.len, h3, h4]
  simp only [hm]
  constructor
  · intro hc
    by_contra hlt
    refine hc (j / batch) ?_ ⟨Nat.div_mul_le_self _ _, Nat.lt_mul_of_div_lt (Nat.lt_succ_self _) hb⟩
    rw [Nat.div_lt_iff_lt_mul hb]
    omega
  · rintro hc i hi ⟨h1, h2⟩
    have : (i + 1) * batch ≤ refl.length / batch * batch := Nat.mul_le_mul_right _ hi
    omega

theorem drawUniform_count (C : Chance Ω P) {a b : ℝ} {n : ℕ} {ω : Ω} {k : ℕ} {l : List ℝ} {g' : Ω × ℕ}
    (h : drawUniform C.rng.toRng a b n (ω, k) = .ok (l, g')) : l.length = n ∧ g' = (ω, k + n) := by
  unfold drawUniform at h
  rw [if_neg (by omega)] at h
  have := Except.ok.inj h
  simp only [Chance.rng, Prod.mk.injEq, Int.toNat_natCast] at this
  obtain ⟨rfl, rfl⟩ := this
  simp

theorem uniformNoise_count (C : Chance Ω P) {a b : ℝ} {w : ℕ} {ω : Ω} : ∀ {rows : List (List ℝ)} {k : ℕ} {l : List (List ℝ)} {g' : Ω × ℕ}, (∀ r ∈ rows, r.length = w) →
    rows.mapM (fun v => (do
      let u ← drawUniform C.rng.toRng a b v.length
      return List.zipWith (· * ·) v u : Rand (Ω × ℕ) (List ℝ))) (ω, k) = .ok (l, g') → l.length = rows.length ∧ g' = (ω, k + rows.length * w)
  | [], k, l, g', _, h => by
    rw [List.mapM_nil] at h
    cases Rand.pure_ok.1 h
    simp
  | v :: rows, k, l, g', hw, h => by
    rw [List.mapM_cons] at h
    obtain ⟨x, g1, h1, h⟩ := Rand.bind_ok.1 h
    obtain ⟨xs, g2, h2, h⟩ := Rand.bind_ok.1 h
    cases Rand.pure_ok.1 h
    obtain ⟨u, g3, h3, h1⟩ := Rand.bind_ok.1 h1
    cases Rand.pure_ok.1 h1
    obtain ⟨-, rfl⟩ := drawUniform_count C h3
    obtain ⟨h4, h5⟩ := uniformNoise_count C (fun r hr => hw r (List.mem_cons_of_mem _ hr)) h2
    refine ⟨by simp [h4], ?_⟩
    rw [h5, hw v (by simp), List.length_cons]
    congr 1
    ring

/-- C127: the number of random numbers that a batch with noise uses does not depend on the numbers: one for every point and one for every
curve. So the shuffles take place at fixed positions in the sequence of random numbers, as in `EpochRun`. -/
theorem C127_positions (C : Chance Ω P) (s : Gen) (hs : ∀ r ∈ s.refl, r.length = s.width) (noise scaling : ℝ × ℝ) (m sd : List ℝ) (i : ℕ)
    (ω : Ω) (k : ℕ) (b : NArr × List (List ℝ)) (g' : Ω × ℕ) (h : s.uniformItem C.rng noise scaling m sd i (ω, k) = .ok (b, g')) :
    g' = (ω, k + (s.batchIndexes i).length * (s.width + 1)) := by
  unfold Gen.uniformItem at h
  obtain ⟨x, g1, h1, h⟩ := Rand.bind_ok.1 h
  obtain ⟨h1, rfl⟩ := Rand.ofRes_ok.1 h1
  have hx := mapM_ok_iff.1 h1
  have hlen : x.length = (s.batchIndexes i).length := hx.length_eq.symm
  have hw : ∀ r ∈ x, r.length = s.width := by
    intro r hr
    obtain ⟨p, hp, rfl⟩ := List.getElem_of_mem hr
    have := (List.forall₂_iff_get.1 hx).2 p (by omega) hp
    simp only [List.get_eq_getElem] at this
    exact hs _ (getItem_mem this)
  obtain ⟨y, g2, h2, h⟩ := Rand.bind_ok.1 h
  unfold applyUniformNoise at h2
  simp only at h2
  obtain ⟨rs, g3, h3, h2⟩ := Rand.bind_ok.1 h2
  cases Rand.pure_ok.1 h2
  obtain ⟨e1, rfl⟩ := uniformNoise_count C hw h3
  obtain ⟨z, g4, h4, h⟩ := Rand.bind_ok.1 h
  obtain ⟨v, g5, h5, h⟩ := Rand.bind_ok.1 h
  obtain ⟨u, g6, h6, h⟩ := Rand.bind_ok.1 h
  cases Rand.pure_ok.1 h
  obtain ⟨-, rfl⟩ := Rand.ofRes_ok.1 h5
  obtain ⟨-, rfl⟩ := Rand.ofRes_ok.1 h6
  unfold applyScalingFactor at h4
  obtain ⟨q, g7, h7, h4⟩ := Rand.bind_ok.1 h4
  cases Rand.pure_ok.1 h7
  obtain ⟨f, g8, h8, h4⟩ := Rand.bind_ok.1 h4
  obtain ⟨-, rfl⟩ := drawUniform_count C h8
  have e2 : g' = (ω, k + x.length * s.width + rs.length) := by
    simp only at h4
    generalize List.zipWith (fun (v : List ℝ) (f : ℝ) => v.map (· * f)) rs f = sc at h4
    rcases sc with _ | ⟨r, _ | ⟨r', rest⟩⟩ <;> (cases Rand.pure_ok.1 h4; rfl)
  rw [e2, e1, hlen]
  congr 1
  ring

/-- Such a training exists for every batch size up to the number of samples; here for 1000 samples in batches of 512, whose samples are
left out of ten epochs with probability `0.488 ^ 10`. -/
example : ∃ s : ℕ → (ChanceIdx → ℝ) → Gen, EpochRun Chance.product (List.replicate 1000 [1]) 1 (List.replicate 1000 [2]) 512 true (fun e => 1025 * e) s ∧
    Measure.infinitePi ChanceIdx.law {ω | ∀ e < 10, ∀ i < (s e ω).len, 7 ∉ (s e ω).batchIndexes i} = ((488 : ℕ) / (1000 : ℕ) : ENNReal) ^ 10 := by
  let step : Gen → (ChanceIdx → ℝ) × ℕ → Gen := fun s g => { s with indexes := (Chance.product.rng.shuffleIdx s.indexes g).1 }
  let s : ℕ → (ChanceIdx → ℝ) → Gen := fun e ω => Nat.rec (step ⟨List.replicate 1000 [1], 1, List.replicate 1000 [2], 512, true, List.range (List.replicate 1000 [(1 : ℝ)]).length⟩ (ω, 1025 * 0))
    (fun e x => step x (ω, 1025 * (e + 1))) e
  have hsh : ∀ e ω, (s e ω).shuffle = true := by
    intro e ω
    induction e with
    | zero => rfl
    | succ e ih => exact ih
  have h : EpochRun Chance.product (List.replicate 1000 [1]) 1 (List.replicate 1000 [2]) 512 true (fun e => 1025 * e) s := by
    refine ⟨fun a b (hab : a < b) => (by omega : 1025 * a < 1025 * b), fun ω => ?_, fun e ω => ?_⟩
    · unfold Gen.init
      rw [if_neg (by rw [List.length_replicate]; norm_num)]
      exact ⟨_, rfl⟩
    · unfold Gen.doShuffle
      rw [if_pos (hsh e ω)]
      exact ⟨_, rfl⟩
  refine ⟨s, h, ?_⟩
  have := C127_left_out Chance.product _ _ 1 512 (by norm_num) _ s h 7 (by rw [List.length_replicate]; norm_num) 10
  rw [this, List.length_replicate]

end Verif.Props
