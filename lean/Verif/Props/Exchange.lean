import Verif.Lemmas.Laws
import Verif.Props.LabelLaw
import Verif.Props.Generator

/-!
# C125: rows of random labels are exchangeable
-/

namespace Verif.Props
open Verif.Py Verif.Model Verif.Spec Verif.Lemmas MeasureTheory ProbabilityTheory

variable {Ω : Type} [MeasurableSpace Ω] {P : Measure Ω}

theorem letters_add (C : Chance Ω P) (ω : Ω) (k n : ℕ) : letters C (ω, k + n) = fun j => letters C (ω, k) (n + j) := by
  funext j i
  cases i <;> simp only [letters] <;> rw [Nat.add_assoc]

theorem letterLaw_kind (i : NumKind) : letterLaw.map (fun w => w i) = i.law := Measure.infinitePi_map_eval (μ := NumKind.law) i

/-! ### Shuffles -/

theorem reorder_ofFn {α : Type} (ord : (n : ℕ) → Equiv.Perm (Fin n)) {n : ℕ} (x : Fin n → α) :
    reorder (List.ofFn x) (ord (List.ofFn x).length) = List.ofFn fun i => x (ord n i) := by
  have : ∀ (l : List α) (m : ℕ) (h : l.length = m), reorder l (ord l.length) = List.ofFn fun i : Fin m => l.get ((ord m i).cast h.symm) := by
    rintro l _ rfl
    rfl
  rw [this _ n (by simp)]
  congr 1
  funext i
  simp

/-- The distribution of a shuffled array: all orders have the same probability. -/
noncomputable def shuffleLaw {n : ℕ} (x : Fin n → ℝ) : Measure (Fin n → ℝ) :=
  (n.factorial : ENNReal)⁻¹ • ∑ π : Equiv.Perm (Fin n), Measure.dirac fun i => x (π i)

theorem shuffle_refines (C : Chance Ω P) (n : ℕ) :
    Refines (letters C) (fun (x : Fin n → ℝ) (l : List ℝ) => l = List.ofFn x) (fun l => drawShuffle C.rng.toRng l) (fun x l => l = List.ofFn x) shuffleLaw := by
  have m0 : Measurable fun w : Fin 1 → Letter => w 0 .s := by fun_prop
  have mo : ∀ π, MeasurableSet {w : Fin 1 → Letter | C.order n (w 0 .s) = π} := fun π => m0 (C.order_measurable n π)
  have mφ : Measurable fun p : (Fin n → ℝ) × (Fin 1 → Letter) => fun i => p.1 (C.order n (p.2 0 .s) i) := by
    refine measurable_pi_iff.2 fun i => ?_
    intro S hS
    have e : (fun p : (Fin n → ℝ) × (Fin 1 → Letter) => p.1 (C.order n (p.2 0 .s) i)) ⁻¹' S =
        ⋃ π : Equiv.Perm (Fin n), {p | p.1 (π i) ∈ S} ∩ {p | C.order n (p.2 0 .s) = π} := by
      ext p
      simp
    rw [e]
    have m1 : ∀ j, Measurable fun p : (Fin n → ℝ) × (Fin 1 → Letter) => p.1 j := fun j => by fun_prop
    exact .iUnion fun π => (m1 (π i) hS).inter (measurable_snd (mo π))
  have h := Refines.draw (str := letters C) (r := fun (x : Fin n → ℝ) (l : List ℝ) => l = List.ofFn x) (m := fun l => drawShuffle C.rng.toRng l)
    (r' := fun (x : Fin n → ℝ) (l : List ℝ) => l = List.ofFn x) 1 (fun x w i => x (C.order n (w 0 .s) i)) mφ ?_
  · convert h using 1
    funext x
    have mx : Measurable fun (w : Fin 1 → Letter) (i : Fin n) => x (C.order n (w 0 .s) i) := mφ.comp (measurable_const.prodMk measurable_id)
    classical
    ext S hS
    rw [Measure.map_apply mx hS]
    unfold shuffleLaw
    rw [Measure.smul_apply, Measure.finsetSum_apply, smul_eq_mul, Finset.mul_sum]
    have e : (fun (w : Fin 1 → Letter) (i : Fin n) => x (C.order n (w 0 .s) i)) ⁻¹' S =
        ⋃ π ∈ (Finset.univ.filter fun π : Equiv.Perm (Fin n) => (fun i => x (π i)) ∈ S), {w : Fin 1 → Letter | C.order n (w 0 .s) = π} := by
      ext w
      simp
    have law : ∀ π, (Measure.pi fun _ : Fin 1 => letterLaw) {w | C.order n (w 0 .s) = π} = (n.factorial : ENNReal)⁻¹ := by
      intro π
      rw [← C.order_law n π]
      have e1 : {w : Fin 1 → Letter | C.order n (w 0 .s) = π} = (fun w => w 0) ⁻¹' {v : Letter | C.order n (v .s) = π} := rfl
      have m2 : Measurable fun v : Letter => v .s := by fun_prop
      have m1 : MeasurableSet {v : Letter | C.order n (v .s) = π} := m2 (C.order_measurable n π)
      rw [e1, ← Measure.map_apply (measurable_pi_apply 0) m1, (measurePreserving_eval (fun _ : Fin 1 => letterLaw) 0).map_eq]
      have e2 : {v : Letter | C.order n (v .s) = π} = (fun v => v .s) ⁻¹' {y | C.order n y = π} := rfl
      rw [e2, ← Measure.map_apply m2 (C.order_measurable n π), letterLaw_kind]
      rfl
    rw [e, measure_biUnion_finset (fun π _ ρ _ hne => Set.disjoint_left.2 fun w h1 h2 => hne (h1.symm.trans h2)) fun π _ => mo π]
    simp only [law]
    rw [Finset.sum_filter]
    refine Finset.sum_congr rfl fun π _ => ?_
    rw [Measure.dirac_apply' _ hS]
    by_cases hπ : (fun i => x (π i)) ∈ S
    · simp [hπ]
    · simp [hπ]
  · rintro x _ ⟨ω, k⟩ rfl
    refine ⟨_, _, rfl, ?_, letters_add C ω k 1⟩
    exact reorder_ofFn (fun m => C.order m (C.s k ω)) x

theorem shuffleLaw_measurable {n : ℕ} : Measurable (shuffleLaw (n := n)) := by
  unfold shuffleLaw
  refine Measure.measurable_of_measurable_coe _ fun S hS => ?_
  simp only [Measure.smul_apply, Measure.finsetSum_apply, smul_eq_mul]
  refine Measurable.const_mul (Finset.measurable_sum _ fun π _ => ?_) _
  exact (Measure.measurable_coe hS).comp (Measure.measurable_dirac.comp (measurable_pi_iff.2 fun _ => measurable_pi_apply _))

/-- Permuting the rows. -/
def permRows {X : Type} {n : ℕ} (τ : Equiv.Perm (Fin n)) (x : Fin n → X) : Fin n → X := fun i => x (τ i)

theorem permRows_measurable {X : Type} [MeasurableSpace X] {n : ℕ} (τ : Equiv.Perm (Fin n)) : Measurable (permRows (X := X) τ) :=
  measurable_pi_iff.2 fun _ => measurable_pi_apply _

theorem shuffleLaw_symm {n : ℕ} (x : Fin n → ℝ) (τ : Equiv.Perm (Fin n)) : (shuffleLaw x).map (permRows τ) = shuffleLaw x := by
  unfold shuffleLaw
  rw [Measure.map_smul, Measure.map_finset_sum (permRows_measurable τ).aemeasurable]
  congr 1
  refine Fintype.sum_equiv (Equiv.mulRight τ) _ _ fun π => ?_
  rw [Measure.map_dirac' (permRows_measurable τ)]
  rfl

theorem pi_symm {X : Type} [MeasurableSpace X] {n : ℕ} (μ : Fin n → Measure X) [∀ i, IsProbabilityMeasure (μ i)] (τ : Equiv.Perm (Fin n)) :
    (Measure.pi μ).map (permRows τ) = Measure.pi fun i => μ (τ i) := by
  refine (Measure.pi_eq fun s hs => ?_).symm
  rw [Measure.map_apply (permRows_measurable τ) (.univ_pi hs)]
  have : permRows τ ⁻¹' Set.pi Set.univ s = Set.pi Set.univ fun i => s (τ.symm i) := by
    ext x
    simp only [Set.mem_preimage, Set.mem_pi, Set.mem_univ, true_implies, permRows]
    constructor
    · intro h i
      have := h (τ.symm i)
      rwa [τ.apply_symm_apply] at this
    · intro h i
      have := h (τ i)
      rwa [τ.symm_apply_apply] at this
  rw [this, Measure.pi_pi]
  exact Fintype.prod_equiv τ.symm _ _ fun i => by rw [τ.apply_symm_apply]

theorem pi_inj {X : Type} [MeasurableSpace X] (ν : Measure X) [IsProbabilityMeasure ν] {n m : ℕ} {pos : Fin n → Fin m} (h : Function.Injective pos) :
    (Measure.pi fun _ : Fin m => ν).map (fun w j => w (pos j)) = Measure.pi fun _ : Fin n => ν := by
  rw [← Measure.infinitePi_eq_pi, ← Measure.infinitePi_eq_pi]
  exact Measure.map_infinitePi_infinitePi_of_inj (P := fun _ : Fin m => ν) h

/-! ### Columns -/

/-- The `j`-th value of bolstered sampling before the shuffle: `nb` values around each limit, `nu` values in between. -/
noncomputable def slotValue (a b sd : ℝ) (nb nu : ℕ) (j : ℕ) (w : Letter) : ℝ :=
  if j < nb then foldValue a b (a + sd * w .z) else if j < nb + nu then a + (b - a) * w .u else foldValue a b (b + sd * w .z)

theorem slotValue_measurable (a b sd : ℝ) (nb nu j : ℕ) : Measurable (slotValue a b sd nb nu j) := by
  unfold slotValue
  split_ifs
  · exact (foldValue_measurable a b).comp (by fun_prop)
  · fun_prop
  · exact (foldValue_measurable a b).comp (by fun_prop)

/-- The letter that the `j`-th value takes. -/
def slotPos (nb nu j : ℕ) : ℕ := if j < nb then nu + j else if j < nb + nu then j - nb else j

theorem slots_refines (C : Chance Ω P) {a b f w : ℝ} (h : a ≤ b) (h0 : 0 ≤ f) (h1 : f ≤ 1) (hw : 0 ≤ w) (n : ℕ) :
    Refines (letters C) (fun (_ : Unit) (_ : Unit) => True)
      (fun _ => (do
        let uniform ← drawUniform C.rng.toRng a b (n - 2 * nBolster n f)
        let lower ← drawNormal C.rng.toRng a ((b - a) * w) (nBolster n f)
        let upper ← drawNormal C.rng.toRng b ((b - a) * w) (nBolster n f)
        pure (lower.map (foldValue a b) ++ uniform ++ upper.map (foldValue a b)) : Rand (Ω × ℕ) (List ℝ)))
      (fun x l => l = List.ofFn x)
      (fun _ => Measure.pi fun j : Fin n => letterLaw.map (slotValue a b ((b - a) * w) (nBolster n f).toNat (n - 2 * (nBolster n f).toNat) j)) := by
  have hb := nBolster_range (n := n) h0 h1
  have hs : ¬ (b - a) * w < 0 := not_lt.2 (mul_nonneg (sub_nonneg.2 h) hw)
  have ht : ((n : Int) - 2 * nBolster n f).toNat = n - 2 * (nBolster n f).toNat := by omega
  have hnb : 2 * (nBolster n f).toNat ≤ n := by omega
  obtain ⟨nb, hnbe⟩ : ∃ nb, (nBolster n f).toNat = nb := ⟨_, rfl⟩
  have hlt : ∀ j : Fin n, slotPos nb (n - 2 * nb) j < n := by
    intro j
    have := j.2
    unfold slotPos
    split_ifs <;> omega
  have hinj : Function.Injective fun j : Fin n => (⟨slotPos nb (n - 2 * nb) j, hlt j⟩ : Fin n) := by
    intro i j hij
    have := i.2
    have := j.2
    have hij := Fin.mk.inj hij
    unfold slotPos at hij
    ext
    split_ifs at hij <;> omega
  have mpos : Measurable fun (v : Fin n → Letter) (j : Fin n) => v ⟨slotPos nb (n - 2 * nb) j, hlt j⟩ := measurable_pi_iff.2 fun j => measurable_pi_apply _
  have mslot : Measurable fun (v : Fin n → Letter) (j : Fin n) => slotValue a b ((b - a) * w) nb (n - 2 * nb) j (v j) :=
    measurable_pi_iff.2 fun j => (slotValue_measurable _ _ _ _ _ _).comp (measurable_pi_apply j)
  have key := Refines.draw (str := letters C) (r := fun (_ : Unit) (_ : Unit) => True) (r' := fun (x : Fin n → ℝ) (l : List ℝ) => l = List.ofFn x)
    (m := fun _ => (do
        let uniform ← drawUniform C.rng.toRng a b (n - 2 * nBolster n f)
        let lower ← drawNormal C.rng.toRng a ((b - a) * w) (nBolster n f)
        let upper ← drawNormal C.rng.toRng b ((b - a) * w) (nBolster n f)
        pure (lower.map (foldValue a b) ++ uniform ++ upper.map (foldValue a b)) : Rand (Ω × ℕ) (List ℝ))) n
    (fun _ v j => slotValue a b ((b - a) * w) nb (n - 2 * nb) j (v ⟨slotPos nb (n - 2 * nb) j, hlt j⟩)) ((mslot.comp mpos).comp measurable_snd) ?_
  · convert key using 1
    funext _
    rw [hnbe]
    have e : (fun (v : Fin n → Letter) (j : Fin n) => slotValue a b ((b - a) * w) nb (n - 2 * nb) j (v ⟨slotPos nb (n - 2 * nb) j, hlt j⟩)) =
        (fun (v : Fin n → Letter) (j : Fin n) => slotValue a b ((b - a) * w) nb (n - 2 * nb) j (v j)) ∘
          fun (v : Fin n → Letter) (j : Fin n) => v ⟨slotPos nb (n - 2 * nb) j, hlt j⟩ := rfl
    have := fun j : Fin n => Measure.isProbabilityMeasure_map (μ := letterLaw) (slotValue_measurable a b ((b - a) * w) nb (n - 2 * nb) j).aemeasurable
    rw [e, ← Measure.map_map mslot mpos, pi_inj letterLaw hinj, ← Measure.pi_map_pi fun j => (slotValue_measurable _ _ _ _ _ _).aemeasurable]
  · rintro _ _ ⟨ω, k⟩ -
    refine ⟨((List.range nb).map fun (i : ℕ) => a + (b - a) * w * C.z (k + (n - 2 * nb) + i) ω).map (foldValue a b) ++
        ((List.range (n - 2 * nb)).map fun (i : ℕ) => a + (b - a) * C.u (k + i) ω) ++
        ((List.range nb).map fun (i : ℕ) => b + (b - a) * w * C.z (k + (n - 2 * nb) + nb + i) ω).map (foldValue a b),
      (ω, k + n), ?_, ?_, letters_add C ω k n⟩
    · rw [Rand.bind_ok]
      refine ⟨_, _, by rw [drawUniform, if_neg (by omega)], ?_⟩
      rw [Rand.bind_ok]
      refine ⟨_, _, by rw [drawNormal, if_neg (by push Not; exact ⟨hb.1, not_lt.1 hs⟩)], ?_⟩
      rw [Rand.bind_ok]
      refine ⟨_, _, by rw [drawNormal, if_neg (by push Not; exact ⟨hb.1, not_lt.1 hs⟩)], ?_⟩
      rw [Rand.pure_ok]
      have e : k + (n - 2 * nb) + nb + nb = k + n := by omega
      simp only [Chance.rng, ht, hnbe, e]
    · simp only [List.map_map]
      apply List.ext_getElem
      · simp only [List.length_append, List.length_map, List.length_range, List.length_ofFn]
        omega
      · intro j h1 h2
        rw [List.length_ofFn] at h2
        rw [List.getElem_ofFn]
        simp only [slotValue, slotPos]
        by_cases c1 : j < nb
        · rw [List.getElem_append_left (by simp; omega), List.getElem_append_left (by simp; omega)]
          simp [c1, letters, Nat.add_assoc]
        · by_cases c2 : j < nb + (n - 2 * nb)
          · rw [List.getElem_append_left (by simp; omega), List.getElem_append_right (by simp; omega)]
            simp [c1, c2, letters]
          · rw [List.getElem_append_right (by simp; omega)]
            simp only [if_neg c1, if_neg c2, letters, List.getElem_map, List.getElem_range, Function.comp_apply, List.length_append, List.length_map,
              List.length_range]
            congr 4
            omega

/-- The arguments of the distribution are valid for the limits `a` and `b`. -/
def LimitsOk (d : DistArgs) (a b : ℝ) : Prop :=
  d.kind = .uniform ∨ (d.kind = .logarithmic ∧ 0 < a ∧ 0 < b) ∨
    d.kind = .bolstered ∧ a ≤ b ∧ ∃ f w, d.fraction = some f ∧ d.width = some w ∧ 0 ≤ f ∧ f ≤ 1 ∧ 0 ≤ w

/-- The distribution of `n` values between `a` and `b`. -/
noncomputable def columnLaw (d : DistArgs) (n : ℕ) (a b : ℝ) : Measure (Fin n → ℝ) :=
  match d.kind with
  | .bolstered => (Measure.pi fun j : Fin n => letterLaw.map (slotValue a b ((b - a) * d.width.getD 0) (nBolster n (d.fraction.getD 0)).toNat
      (n - 2 * (nBolster n (d.fraction.getD 0)).toNat) j)).bind shuffleLaw
  | _ => Measure.pi fun _ : Fin n => letterLaw.map fun v => drawFrom d.kind a b (v .u)

theorem column_refines (C : Chance Ω P) {d : DistArgs} {a b : ℝ} (hd : LimitsOk d a b) (n : ℕ) :
    Refines (letters C) (fun (_ : Unit) (_ : Unit) => True) (fun _ => sampleDistribution C.rng.toRng n a b d) (fun x l => l = List.ofFn x)
      fun _ => columnLaw d n a b := by
  rcases em (d.kind = .bolstered) with hk | hk
  · obtain h | h | ⟨-, hab, f, w, e1, e2, h0, h1, hw⟩ := hd
    · rw [hk] at h; cases h
    · rw [hk] at h; cases h.1
    · have h := (slots_refines C hab h0 h1 hw n).bind (k := fun _ l => drawShuffle C.rng.toRng l) ((shuffle_refines C n).comp (Θ' := Unit × (Fin n → ℝ)) (α' := Unit × List ℝ)
        (q := fun p a => True ∧ a.2 = List.ofFn p.2) (f := Prod.snd) measurable_snd Prod.snd fun _ _ h => h.2)
      unfold columnLaw
      simp only [hk, e1, e2, Option.getD_some]
      refine h.congr fun _ _ _ => ?_
      simp only [sampleDistribution, hk, e1, e2, bolstered, bind_assoc, pure_bind]
  · have hd' : d.kind = .uniform ∨ d.kind = .logarithmic ∧ 0 < a ∧ 0 < b := by
      rcases hd with h | h | h
      · exact Or.inl h
      · exact Or.inr h
      · exact absurd h.1 hk
    have m1 : Measurable fun v : Letter => drawFrom d.kind a b (v .u) := (drawFrom_measurable _ _ _).comp (by fun_prop)
    have mφ : Measurable fun (v : Fin n → Letter) (j : Fin n) => drawFrom d.kind a b (v j .u) := measurable_pi_iff.2 fun j => m1.comp (measurable_pi_apply j)
    have h := Refines.draw (str := letters C) (r := fun (_ : Unit) (_ : Unit) => True) (r' := fun (x : Fin n → ℝ) (l : List ℝ) => l = List.ofFn x)
      (m := fun _ => sampleDistribution C.rng.toRng n a b d) n (fun _ v j => drawFrom d.kind a b (v j .u)) (mφ.comp measurable_snd) ?_
    · convert h using 1
      funext _
      unfold columnLaw
      have := Measure.isProbabilityMeasure_map (μ := letterLaw) m1.aemeasurable
      have e := Measure.pi_map_pi (μ := fun _ : Fin n => letterLaw) (f := fun _ v => drawFrom d.kind a b (v .u)) fun _ => m1.aemeasurable
      rw [e]
      cases hc : d.kind <;> first | rfl | exact absurd hc hk
    · rintro _ _ ⟨ω, k⟩ -
      refine ⟨_, _, sample_run C a b hd' n k ω, ?_, letters_add C ω k n⟩
      rw [← ofFn_range]
      rfl

theorem columnLaw_symm (d : DistArgs) (n : ℕ) (a b : ℝ) (τ : Equiv.Perm (Fin n)) : (columnLaw d n a b).map (permRows τ) = columnLaw d n a b := by
  have m1 : Measurable fun v : Letter => drawFrom d.kind a b (v .u) := (drawFrom_measurable _ _ _).comp (by fun_prop)
  have := Measure.isProbabilityMeasure_map (μ := letterLaw) m1.aemeasurable
  have huni : (Measure.pi fun _ : Fin n => letterLaw.map fun v => drawFrom d.kind a b (v .u)).map (permRows τ) =
      Measure.pi fun _ : Fin n => letterLaw.map fun v => drawFrom d.kind a b (v .u) := pi_symm _ τ
  unfold columnLaw
  cases hk : d.kind with
  | bolstered =>
    have ms := shuffleLaw_measurable (n := n)
    refine (bind_symm (b := id) ms ms measurable_id (permRows_measurable τ) Measure.map_id.symm fun x => ?_).symm
    exact (shuffleLaw_symm x τ).symm
  | uniform => rw [hk] at huni; exact huni
  | logarithmic => rw [hk] at huni; exact huni
  | other => rw [hk] at huni; exact huni

/-! ### Programs that treat all rows alike -/

theorem cons_measurable {X : Type} [MeasurableSpace X] (n : ℕ) : Measurable fun p : X × (Fin n → X) => (Fin.cons p.1 p.2 : Fin (n + 1) → X) :=
  measurable_pi_iff.2 fun i => by
    cases i using Fin.cases with
    | zero => simpa using measurable_fst
    | succ i => simpa using (by fun_prop : Measurable fun p : X × (Fin n → X) => p.2 i)

theorem pi_succ {X : Type} [MeasurableSpace X] {n : ℕ} (μ : Fin (n + 1) → Measure X) [∀ i, IsProbabilityMeasure (μ i)] :
    ((μ 0).bind fun y => (Measure.pi fun i : Fin n => μ i.succ).bind fun ys => Measure.dirac (Fin.cons y ys : Fin (n + 1) → X)) = Measure.pi μ := by
  have mc := cons_measurable (X := X) n
  have md : ∀ y : X, Measurable fun ys : Fin n → X => (Measure.dirac (Fin.cons y ys : Fin (n + 1) → X)) := fun y =>
    Measure.measurable_dirac.comp (mc.comp (measurable_const.prodMk measurable_id))
  have mi : Measurable fun y : X => (Measure.pi fun i : Fin n => μ i.succ).bind fun ys => (Measure.dirac (Fin.cons y ys : Fin (n + 1) → X)) := by
    refine Measure.measurable_of_measurable_coe _ fun S hS => ?_
    have e : ∀ y : X, ((Measure.pi fun i : Fin n => μ i.succ).bind fun ys => (Measure.dirac (Fin.cons y ys : Fin (n + 1) → X))) S =
        (Measure.pi fun i : Fin n => μ i.succ) (Prod.mk y ⁻¹' ((fun p : X × (Fin n → X) => (Fin.cons p.1 p.2 : Fin (n + 1) → X)) ⁻¹' S)) := fun y => by
      rw [Measure.bind_apply hS (md y).aemeasurable, ← lintegral_indicator_one (measurable_prodMk_left (mc hS))]
      refine lintegral_congr fun ys => ?_
      rw [Measure.dirac_apply' _ hS]
      rfl
    simp only [e]
    exact measurable_measure_prodMk_left (mc hS)
  symm
  refine Measure.pi_eq fun s hs => ?_
  have hs' := MeasurableSet.univ_pi hs
  rw [Measure.bind_apply hs' mi.aemeasurable, Fin.prod_univ_succ, ← lintegral_indicator_one (hs 0), ← lintegral_mul_const _ (measurable_one.indicator (hs 0))]
  refine lintegral_congr fun y => ?_
  rw [Measure.bind_apply hs' (md y).aemeasurable, ← Measure.pi_pi (fun i : Fin n => μ i.succ) fun i => s i.succ,
    ← lintegral_indicator_one (MeasurableSet.univ_pi fun i : Fin n => hs i.succ), ← lintegral_const_mul _ (measurable_one.indicator (MeasurableSet.univ_pi fun i : Fin n => hs i.succ))]
  refine lintegral_congr fun ys => ?_
  rw [Measure.dirac_apply' _ hs']
  by_cases h0 : y ∈ s 0
  · by_cases h1 : ys ∈ Set.pi Set.univ fun i : Fin n => s i.succ
    · have : (Fin.cons y ys : Fin (n + 1) → X) ∈ Set.pi Set.univ s := fun i _ => by
        cases i using Fin.cases with
        | zero => exact h0
        | succ i => exact h1 i trivial
      simp [h0, Set.indicator_of_mem h1, Set.indicator_of_mem this]
    · have : (Fin.cons y ys : Fin (n + 1) → X) ∉ Set.pi Set.univ s := fun hm => h1 fun i _ => hm i.succ trivial
      simp [Set.indicator_of_notMem h1, Set.indicator_of_notMem this]
  · have : (Fin.cons y ys : Fin (n + 1) → X) ∉ Set.pi Set.univ s := fun hm => h0 (hm 0 trivial)
    simp [h0, Set.indicator_of_notMem this]



/-- The law of the rows of the result commutes with permutations of the rows. -/
def Sym {G A B α β : Type} [MeasurableSpace A] [MeasurableSpace B] (str : G → Letters) {n : ℕ} (r : (Fin n → A) → α → Prop) (m : α → Rand G β)
    (r' : (Fin n → B) → β → Prop) : Prop :=
  ∃ K : (Fin n → A) → Measure (Fin n → B), Refines str r m r' K ∧ ∀ τ x, K (permRows τ x) = (K x).map (permRows τ)

section
variable {G A B D α β γ : Type} [MeasurableSpace A] [MeasurableSpace B] [MeasurableSpace D] {str : G → Letters} {n : ℕ} {r : (Fin n → A) → α → Prop}
  {m : α → Rand G β} {r' : (Fin n → B) → β → Prop}

theorem rowwise_measurable {φ : A → B} (hφ : Measurable φ) : Measurable fun (x : Fin n → A) i => φ (x i) :=
  measurable_pi_iff.2 fun i => hφ.comp (measurable_pi_apply i)

theorem Sym.bind {k : α → β → Rand G γ} {r'' : (Fin n → D) → γ → Prop} (h1 : Sym str r m r')
    (h2 : Sym str (fun (x : Fin n → A × B) (a : α × β) => r (fun i => (x i).1) a.1 ∧ r' (fun i => (x i).2) a.2) (fun a => k a.1 a.2) r'') :
    Sym str r (fun a => m a >>= k a) r'' := by
  obtain ⟨K, hK, sK⟩ := h1
  obtain ⟨L, hL, sL⟩ := h2
  have mz : Measurable fun (p : (Fin n → A) × (Fin n → B)) i => (p.1 i, p.2 i) := measurable_pi_iff.2 fun i =>
    ((measurable_pi_apply i).comp measurable_fst).prodMk ((measurable_pi_apply i).comp measurable_snd)
  have hL' := hL.comp (Θ' := (Fin n → A) × (Fin n → B)) (q := fun p (a : α × β) => r p.1 a.1 ∧ r' p.2 a.2) mz id fun _ _ h => h
  refine ⟨_, hK.bind hL', fun τ x => ?_⟩
  have mL : ∀ x : Fin n → A, Measurable fun y : Fin n → B => L fun i => (x i, y i) := fun x =>
    hL.measurable.comp (mz.comp (measurable_const.prodMk measurable_id))
  exact bind_symm (mL x) (mL _) (permRows_measurable τ) (permRows_measurable τ) (sK τ x) fun y => sL τ fun i => (x i, y i)

theorem Sym.pure' (φ : A → B) (hφ : Measurable φ) (f : α → β) (h : ∀ x a, r x a → r' (fun i => φ (x i)) (f a)) :
    Sym (G := G) str r (fun a => pure (f a)) r' :=
  ⟨_, Refines.pure' (fun (x : Fin n → A) i => φ (x i)) (rowwise_measurable hφ) f h, fun τ x => by rw [Measure.map_dirac' (permRows_measurable τ)]; rfl⟩

theorem Sym.congr {m' : α → Rand G β} (h : Sym str r m r') (hm : ∀ x a, r x a → m a = m' a) : Sym str r m' r' := by
  obtain ⟨K, hK, sK⟩ := h
  exact ⟨K, hK.congr hm, sK⟩

theorem Sym.comp {A' α' : Type} [MeasurableSpace A'] {q : (Fin n → A') → α' → Prop} (h : Sym str r m r') {f : A' → A} (hf : Measurable f) (φ : α' → α)
    (hq : ∀ x a, q x a → r (fun i => f (x i)) (φ a)) : Sym str q (fun a => m (φ a)) r' := by
  obtain ⟨K, hK, sK⟩ := h
  exact ⟨_, hK.comp (rowwise_measurable hf) φ hq, fun τ x => sK τ fun i => f (x i)⟩

theorem Sym.map {q : (Fin n → D) → γ → Prop} (h : Sym str r m r') {f : B → D} (hf : Measurable f) (φ : β → γ) (hq : ∀ x b, r' x b → q (fun i => f (x i)) (φ b)) :
    Sym str r (fun a => m a >>= fun b => pure (φ b)) q := by
  obtain ⟨K, hK, sK⟩ := h
  have mf := rowwise_measurable (n := n) hf
  refine ⟨_, hK.map mf φ hq, fun τ x => ?_⟩
  rw [sK, Measure.map_map mf (permRows_measurable τ), Measure.map_map (permRows_measurable τ) mf]
  rfl

/-- The same for every row, one after the other. -/
theorem Refines.rows {K : A → Measure B} {m₁ : A → Rand G B} (h : Refines str (fun θ a => a = θ) m₁ (fun x b => b = x) K) (loop : List A → Rand G (List B))
    (l0 : loop [] = pure []) (l1 : ∀ a l, loop (a :: l) = m₁ a >>= fun b => loop l >>= fun bs => pure (b :: bs)) (n : ℕ) :
    Refines str (fun (x : Fin n → A) l => l = List.ofFn x) loop (fun y l => l = List.ofFn y) fun x => Measure.pi fun i => K (x i) := by
  have hp := h.prob
  induction n with
  | zero =>
    have h0 := Refines.pure' (G := G) (str := str) (r := fun (x : Fin 0 → A) (l : List A) => l = List.ofFn x) (r' := fun (y : Fin 0 → B) (l : List B) => l = List.ofFn y)
      (fun _ i => i.elim0) measurable_const (fun _ => []) fun _ _ _ => by simp
    have h1 := h0.congr (m' := loop) fun x l hl => by
      have : l = [] := by rw [hl]; simp
      rw [this, l0]
    convert h1 using 1
    funext x
    rw [Measure.pi_of_empty _ fun i => i.elim0]
  | succ n ih =>
    have mc := cons_measurable (X := B) n
    have m0 : Measurable fun x : Fin (n + 1) → A => x 0 := measurable_pi_apply 0
    have mt : Measurable fun (x : Fin (n + 1) → A) (i : Fin n) => x i.succ := measurable_pi_iff.2 fun i => measurable_pi_apply _
    have r3 := Refines.pure' (G := G) (str := str)
      (r := fun (p : ((Fin (n + 1) → A) × B) × (Fin n → B)) (a : ((A × List A) × B) × List B) =>
        ((a.1.1 = (p.1.1 0, List.ofFn fun (i : Fin n) => p.1.1 i.succ)) ∧ a.1.2 = p.1.2) ∧ a.2 = List.ofFn p.2)
      (r' := fun (y : Fin (n + 1) → B) (l : List B) => l = List.ofFn y)
      (fun p => Fin.cons p.1.2 p.2) (mc.comp ((measurable_snd.comp measurable_fst).prodMk measurable_snd)) (fun a => a.1.2 :: a.2)
      (fun p a ha => by rw [ha.1.2, ha.2]; simp [List.ofFn_succ])
    have r2 := (ih.comp (Θ' := (Fin (n + 1) → A) × B) (α' := (A × List A) × B)
      (q := fun p a => (a.1 = (p.1 0, List.ofFn fun (i : Fin n) => p.1 i.succ)) ∧ a.2 = p.2) (mt.comp measurable_fst) (fun a => a.1.2)
      fun p a ha => by rw [ha.1]; rfl).bind (k := fun a bs => pure (a.2 :: bs)) r3
    have r1 := (h.comp (Θ' := Fin (n + 1) → A) (α' := A × List A) (q := fun x a => a = (x 0, List.ofFn fun (i : Fin n) => x i.succ)) m0 Prod.fst
      fun x a ha => by rw [ha]).bind (k := fun a b => loop a.2 >>= fun bs => pure (b :: bs)) r2
    obtain ⟨F, hF, hl, hpr, hr⟩ := r1
    refine ⟨F, hF, fun θ => ?_, fun θ => inferInstance, fun x l g hxl => ?_⟩
    · rw [hl θ]
      congr 1
      exact pi_succ fun i => K (θ i)
    · obtain ⟨b, g', e1, e2⟩ := hr x (x 0, List.ofFn fun (i : Fin n) => x i.succ) g rfl
      refine ⟨b, g', ?_, e2⟩
      rw [← e1, hxl, List.ofFn_succ, l1]
end

/-! ### Columns of the table -/

theorem sampleOk_of {d : DistArgs} {a b : ℝ} (hab : a ≤ b) (h : (d.kind = .uniform ∨ d.kind = .logarithmic ∧ 0 < a) ∨ DistValid d) : LimitsOk d a b := by
  rcases h with (h | h) | (h | ⟨h1, h2⟩)
  · exact Or.inl h
  · exact Or.inr (Or.inl ⟨h.1, h.2, lt_of_lt_of_le h.2 hab⟩)
  · exact Or.inl h
  · exact Or.inr (Or.inr ⟨h1, hab, h2⟩)

theorem column_sym (C : Chance Ω P) {d : DistArgs} {a b : ℝ} (hd : LimitsOk d a b) (n : ℕ) {A α : Type} [MeasurableSpace A] (r : (Fin n → A) → α → Prop) :
    Sym (letters C) r (fun _ => sampleDistribution C.rng.toRng n a b d) (fun x l => l = List.ofFn x) :=
  ⟨_, (column_refines C hd n).comp (Θ' := Fin n → A) (α' := α) (q := r) (f := fun _ => ()) measurable_const (fun _ => ()) fun _ _ _ => trivial,
    fun τ _ => (columnLaw_symm d n a b τ).symm⟩

/-- A column of numbers with their parts. -/
def IsColumn {n : ℕ} (x : Fin n → ℝ × ℝ) (l : List (Num ℝ)) : Prop := l.map (fun v => (v.re, v.im)) = List.ofFn x

theorem param_sym (C : Chance Ω P) {d : DistArgs} {p : Param ℝ} (hp : Drawable p) (hd : KindOk d.kind p ∨ DistValid d) (n : ℕ) {A α : Type} [MeasurableSpace A]
    (r : (Fin n → A) → α → Prop) : Sym (letters C) r (fun _ => p.sample C.rng.toRng n d) IsColumn := by
  cases p with
  | const c nm =>
    refine (Sym.pure' (fun _ => (c.re, c.im)) measurable_const (fun _ => (List.range n).map fun _ => c) fun x a _ => ?_).congr fun _ _ _ =>
      (const_sample _ n d c nm).symm
    simp [IsColumn, List.ofFn_const]
  | range a b nm =>
    obtain ⟨h1, h2, h3⟩ := hp
    rcases h3 with ⟨x, y, rfl, rfl⟩ | h3
    · have hs : LimitsOk d x y := sampleOk_of h1 (hd.imp_left fun h => h.imp_right fun h => ⟨h.1, h.2.1⟩)
      refine ((column_sym C hs n r).map (f := fun v => (v, (0 : ℝ))) (by fun_prop) (fun l => l.map Num.real) fun z l hl => ?_).congr fun _ _ _ =>
        (sample_real _ _ _ _ _).symm
      rw [IsColumn, hl]
      simp [List.map_ofFn, Num.re, Num.im, Function.comp_def]
    · have hne : ¬ (a.im = 0 ∧ b.im = 0) := by rintro ⟨e1, e2⟩; simp [e1, e2] at h3
      have hs1 : LimitsOk d a.re b.re := sampleOk_of h1 (hd.imp_left fun h => h.imp_right fun h => ⟨h.1, h.2.1⟩)
      have hs2 : LimitsOk d a.im b.im := sampleOk_of h2 (hd.imp_left fun h => h.imp_right fun h => ⟨h.1, h.2.2 h3⟩)
      have e := (column_sym C hs1 n r).bind (r'' := IsColumn) (k := fun _ re => sampleDistribution C.rng.toRng n a.im b.im d >>= fun im => pure (List.zipWith (Num.cplx true) re im))
        (((column_sym C hs2 n fun (x : Fin n → A × ℝ) (a : α × List ℝ) => r (fun i => (x i).1) a.1 ∧ a.2 = List.ofFn fun i => (x i).2).bind
          (k := fun a im => pure (List.zipWith (Num.cplx true) a.2 im))
          (Sym.pure' (fun (z : (A × ℝ) × ℝ) => (z.1.2, z.2)) (by fun_prop) (fun (a : (α × List ℝ) × List ℝ) => List.zipWith (Num.cplx true) a.1.2 a.2) fun z l hl => ?_)))
      · refine e.congr fun _ _ _ => ?_
        simp only [Param.sample, if_neg hne]
      · rw [IsColumn, hl.1.2, hl.2]
        apply List.ext_getElem
        · simp
        · intro i _ _
          simp [Num.re, Num.im]

/-- A column of real numbers. -/
def IsReals {n : ℕ} (x : Fin n → ℝ) (l : List (Num ℝ)) : Prop := l = (List.ofFn x).map Num.real

theorem real_param_sym (C : Chance Ω P) {d : DistArgs} {p : Param ℝ} (hp : RealParam p) (hd : KindOk d.kind p ∨ DistValid d) (n : ℕ) {A α : Type} [MeasurableSpace A]
    (r : (Fin n → A) → α → Prop) : Sym (letters C) r (fun _ => p.sample C.rng.toRng n d) IsReals := by
  obtain ⟨x, y, h1, h2, h3⟩ := hp
  cases p with
  | const c nm =>
    simp only [Param.min] at h1
    subst h1
    refine (Sym.pure' (fun _ => x) measurable_const (fun _ => (List.range n).map fun _ => Num.real x) fun z a _ => ?_).congr fun _ _ _ =>
      (const_sample _ n d (.real x) nm).symm
    simp [IsReals, List.ofFn_const]
  | range a b nm =>
    simp only [Param.min, Param.max] at h1 h2
    subst h1 h2
    have hs : LimitsOk d x y := sampleOk_of h3 (hd.imp_left fun h => h.imp_right fun h => ⟨h.1, h.2.1⟩)
    exact ((column_sym C hs n r).map (f := fun v => v) measurable_id (fun l => l.map Num.real) fun z l hl => by rw [IsReals, hl]).congr fun _ _ _ =>
      (sample_real _ _ _ _ _).symm

theorem isReals_column {n : ℕ} {x : Fin n → ℝ} {l : List (Num ℝ)} (h : IsReals x l) : IsColumn (fun i => (x i, 0)) l := by
  rw [IsReals] at h
  rw [IsColumn, h]
  simp [List.map_ofFn, Num.re, Num.im, Function.comp_def]

/-! ### Roughnesses of films -/

theorem sample_one (C : Chance Ω P) {d : DistArgs} {a b : ℝ} (hd : LimitsOk d a b) (ω : Ω) (k : ℕ) :
    sampleDistribution C.rng.toRng 1 a b d (ω, k) = .ok ([drawFrom d.kind a b (C.u k ω)], (ω, k + (if d.kind = .bolstered then 2 else 1))) := by
  by_cases hk : d.kind = .bolstered
  · obtain h | h | ⟨-, hab, f, w, e1, e2, h0, h1, hw⟩ := hd
    · rw [hk] at h; cases h
    · rw [hk] at h; cases h.1
    · have hz : nBolster 1 f = 0 := by exact_mod_cast nBolster_zero (n := 1) h0 (by push_cast; linarith)
      have hsd : 0 ≤ (b - a) * w := mul_nonneg (sub_nonneg.2 hab) hw
      rw [if_pos hk]
      simp only [sampleDistribution, hk, e1, e2, bolstered, hz]
      rw [Rand.bind_ok]
      refine ⟨_, _, by rw [drawUniform, if_neg (by omega)], ?_⟩
      rw [Rand.bind_ok]
      refine ⟨_, _, by rw [drawNormal, if_neg (by push Not; exact ⟨le_refl _, hsd⟩)], ?_⟩
      rw [Rand.bind_ok]
      refine ⟨_, _, by rw [drawNormal, if_neg (by push Not; exact ⟨le_refl _, hsd⟩)], ?_⟩
      have hp : C.perm (k + 1) ω [a + (b - a) * C.u k ω] = [a + (b - a) * C.u k ω] := List.perm_singleton.1 (C.perm_perm (k + 1) ω _)
      simp [drawShuffle, Chance.rng, drawFrom, hp]
  · have hd' : d.kind = .uniform ∨ d.kind = .logarithmic ∧ 0 < a ∧ 0 < b := by
      rcases hd with h | h | h
      · exact Or.inl h
      · exact Or.inr h
      · exact absurd h.1 hk
    rw [if_neg hk]
    have := sample_run C a b hd' 1 k ω
    simpa using this

theorem drawFrom_measurable' (d : DistKind) (a : ℝ) {X : Type} [MeasurableSpace X] {f g : X → ℝ} (hf : Measurable f) (hg : Measurable g) :
    Measurable fun x => drawFrom d a (f x) (g x) := by
  cases d with
  | logarithmic =>
    simp only [drawFrom, Real.logb]
    fun_prop
  | uniform => simp only [drawFrom]; fun_prop
  | bolstered => simp only [drawFrom]; fun_prop
  | other => simp only [drawFrom]; fun_prop

theorem redraw_refines (C : Chance Ω P) {d : DistArgs} {mn mx : ℝ} (hd : (d.kind = .uniform ∨ d.kind = .logarithmic ∧ 0 < mn) ∨ DistValid d) :
    ∃ K : ℝ × ℝ → Measure ℝ, Refines (letters C) (fun (θ : ℝ × ℝ) (a : ℝ × ℝ) => a = θ) (fun a => adjustRoughness C.rng.toRng d mn mx a.1 a.2) (fun x b => b = x) K := by
  have S1 : MeasurableSet {θ : ℝ × ℝ | θ.1 / 2 < mn} := measurableSet_lt (by fun_prop) measurable_const
  have S2 : MeasurableSet {θ : ℝ × ℝ | mx < θ.1 / 2} := measurableSet_lt measurable_const (by fun_prop)
  obtain ⟨N, hN⟩ : ∃ N, N = if d.kind = .bolstered then 2 else 1 := ⟨_, rfl⟩
  have hN0 : 0 < N := by rw [hN]; split_ifs <;> omega
  have h1 : Refines (letters C) (fun (θ a : ℝ × ℝ) => a = θ ∧ θ ∈ {θ : ℝ × ℝ | θ.1 / 2 < mn}) (fun _ => pure mn) (fun x b => b = x) (fun _ => Measure.dirac mn) :=
    Refines.pure' (fun _ => mn) measurable_const (fun _ => mn) fun _ _ _ => rfl
  have h2 : Refines (letters C) (fun (θ a : ℝ × ℝ) => (a = θ ∧ θ ∉ {θ : ℝ × ℝ | θ.1 / 2 < mn}) ∧ θ ∈ {θ : ℝ × ℝ | mx < θ.1 / 2}) (fun a => pure a.2)
      (fun x b => b = x) (fun θ => Measure.dirac θ.2) := Refines.pure' Prod.snd measurable_snd Prod.snd fun θ a h => by rw [h.1.1]
  have mφ : Measurable fun p : (ℝ × ℝ) × (Fin N → Letter) => drawFrom d.kind mn (p.1.1 / 2) (p.2 ⟨0, hN0⟩ .u) := by
    exact drawFrom_measurable' _ _ (by fun_prop) (by fun_prop)
  have h3 : Refines (letters C) (fun (θ a : ℝ × ℝ) => (a = θ ∧ θ ∉ {θ : ℝ × ℝ | θ.1 / 2 < mn}) ∧ θ ∉ {θ : ℝ × ℝ | mx < θ.1 / 2})
      (fun a => adjustRoughness C.rng.toRng d mn mx a.1 a.2) (fun x b => b = x)
      (fun θ => (Measure.pi fun _ : Fin N => letterLaw).map fun w => drawFrom d.kind mn (θ.1 / 2) (w ⟨0, hN0⟩ .u)) := by
    refine Refines.draw N (fun (θ : ℝ × ℝ) w => drawFrom d.kind mn (θ.1 / 2) (w ⟨0, hN0⟩ .u)) mφ ?_
    rintro θ a ⟨ω, k⟩ ⟨⟨rfl, hn⟩, hs⟩
    refine ⟨drawFrom d.kind mn (a.1 / 2) (C.u k ω), (ω, k + N), ?_, rfl, letters_add C ω k N⟩
    have h1' : ¬ a.1 / 2 < mn := hn
    have h2' : ¬ a.1 / 2 > mx := hs
    unfold adjustRoughness maxRoughness
    rw [if_neg h1', if_neg h2', Rand.bind_ok]
    have := sample_one C (sampleOk_of (not_lt.1 h1') hd) ω k
    rw [← hN] at this
    exact ⟨_, _, this, rfl⟩
  have h23 := Refines.ite S2 h2 h3 (m'' := fun a => adjustRoughness C.rng.toRng d mn mx a.1 a.2)
    (fun θ a h hs => by
      have e := h.1
      have h1' : ¬ θ.1 / 2 < mn := h.2
      have h2' : θ.1 / 2 > mx := hs
      unfold adjustRoughness maxRoughness
      rw [e, if_neg h1', if_pos h2']) fun _ _ _ _ => rfl
  exact ⟨_, Refines.ite S1 h1 h23 (m'' := fun a => adjustRoughness C.rng.toRng d mn mx a.1 a.2)
    (fun θ a h hs => by
      have h1' : θ.1 / 2 < mn := hs
      unfold adjustRoughness maxRoughness
      rw [h, if_pos h1']) fun _ _ _ _ => rfl⟩

theorem adjust_sym (C : Chance Ω P) {d : DistArgs} {mn mx : ℝ} (hd : (d.kind = .uniform ∨ d.kind = .logarithmic ∧ 0 < mn) ∨ DistValid d) (n : ℕ) :
    Sym (letters C) (fun (x : Fin n → ℝ × ℝ) (l : List (ℝ × ℝ)) => l = List.ofFn x)
      (fun l => adjustRoughnesses C.rng.toRng d mn mx (l.map Prod.fst) (l.map Prod.snd)) (fun x l => l = List.ofFn x) := by
  obtain ⟨K, hK⟩ := redraw_refines C (mx := mx) hd
  have hp := hK.prob
  refine ⟨_, Refines.rows hK (fun l => adjustRoughnesses C.rng.toRng d mn mx (l.map Prod.fst) (l.map Prod.snd)) rfl (fun a l => rfl) n, fun τ x => ?_⟩
  exact (pi_symm (fun i => K (x i)) τ).symm

theorem roughness_sym (C : Chance Ω P) {d : DistArgs} {q : Param ℝ} (hq : RealParam q)
    (hd : (d.kind = .uniform ∨ d.kind = .logarithmic ∧ 0 < q.min.re) ∨ DistValid d) (n : ℕ) :
    Sym (letters C) (fun (x : Fin n → ℝ) l => IsReals x l) (fun l => generateRoughness C.rng.toRng d q l) IsReals := by
  have h1 := real_param_sym C hq (hd.imp_left (positive_of_real hq)) n (fun (x : Fin n → ℝ) (l : List (Num ℝ)) => IsReals x l)
  obtain ⟨mn, mx, e1, e2, h3⟩ := hq
  have hre1 : q.min.re = mn := by rw [e1]; rfl
  rw [hre1] at hd
  have h2 := ((adjust_sym C (mx := mx) hd n).map (q := IsReals) (f := fun v => v) measurable_id (fun l => l.map Num.real) fun z l hl => by rw [IsReals, hl]).comp
    (q := fun (x : Fin n → ℝ × ℝ) (a : List (Num ℝ) × List (Num ℝ)) => IsReals (fun i => (x i).1) a.1 ∧ IsReals (fun i => (x i).2) a.2)
    (f := fun v => v) measurable_id (fun a => (a.1.map Num.re).zip (a.2.map Num.re)) fun x a ha => by
      rw [ha.1, ha.2]
      apply List.ext_getElem
      · simp
      · intro i _ _
        simp [Num.re]
  have asr : ∀ x : Fin n → ℝ, asReals ((List.ofFn x).map Num.real) = .ok (List.ofFn x) := fun x => asReals_map _
  have unre : ∀ x : List ℝ, (x.map Num.real).map Num.re = x := fun x => by
    rw [List.map_map, show (Num.re ∘ Num.real : ℝ → ℝ) = id from rfl, List.map_id]
  have h2' := h2.congr (m' := fun a => Rand.ofRes (asReals a.1) >>= fun t => Rand.ofRes (asReals a.2) >>= fun r =>
    adjustRoughnesses C.rng.toRng d mn mx t r >>= fun r => pure (r.map Num.real)) fun x a ha => by
      rw [ha.1, ha.2, asr, asr, unre, unre, List.map_fst_zip (by simp), List.map_snd_zip (by simp)]
      rfl
  refine (h1.bind (k := fun l r => Rand.ofRes (asReals l) >>= fun t => Rand.ofRes (asReals r) >>= fun r =>
    adjustRoughnesses C.rng.toRng d mn mx t r >>= fun r => pure (r.map Num.real)) h2').congr fun x l hl => ?_
  have hlen : l.length = n := by rw [hl]; simp
  unfold generateRoughness
  simp only [hlen, e1, e2]

/-! ### The table -/

/-- A row: the two parts of the value for every label. -/
abbrev Row := Str → ℝ × ℝ

/-- The rows of a table. -/
def HasRows {n : ℕ} (x : Fin n → Row) (f : Frame (Num ℝ)) : Prop := ∀ i : Fin n, rowOf f i = x i

theorem hasRows_set {n : ℕ} {x : Fin n → Row} {f : Frame (Num ℝ)} (h : HasRows x f) {y : Fin n → ℝ × ℝ} {l : List (Num ℝ)} (hl : IsColumn y l) (name : Str) :
    HasRows (fun i => Function.update (x i) name (y i)) (f.set name l) := by
  intro i
  funext label
  show rowOf (f.set name l) i label = Function.update (x i) name (y i) label
  rw [Function.update_apply]
  unfold rowOf
  rw [get_set]
  have hlen : l.length = n := by
    have := congrArg List.length hl
    simpa using this
  by_cases e : label = name
  · rw [if_pos e, if_pos e]
    have hi : (i : ℕ) < l.length := by rw [hlen]; exact i.2
    have := congrArg (fun z => z[(i : ℕ)]?) hl
    simp only [List.getElem?_map, List.getElem?_eq_getElem hi, List.getElem?_ofFn] at this
    simpa [List.getElem?_eq_getElem hi] using this
  · rw [if_neg e, if_neg e, ← h i]
    rfl

theorem update_measurable (name : Str) : Measurable fun p : Row × (ℝ × ℝ) => (Function.update p.1 name p.2 : Row) := by
  refine measurable_pi_iff.2 fun label => ?_
  simp only [Function.update_apply]
  split_ifs
  · exact measurable_snd
  · exact (measurable_pi_apply label).comp measurable_fst

/-- Setting a column that has been drawn. -/
theorem Sym.set {G A α : Type} [MeasurableSpace A] {str : G → Letters} {n : ℕ} {r : (Fin n → A) → α → Prop} {m : α → Rand G (List (Num ℝ))}
    (h : Sym str r m IsColumn) (f : α → Frame (Num ℝ)) (φ : A → Row) (hφ : Measurable φ) (hf : ∀ x a, r x a → HasRows (fun i => φ (x i)) (f a)) (name : Str) :
    Sym str r (fun a => m a >>= fun v => pure ((f a).set name v)) HasRows := by
  refine h.bind (k := fun a v => pure ((f a).set name v)) (Sym.pure' (fun (p : A × (ℝ × ℝ)) => (Function.update (φ p.1) name p.2 : Row))
    ((update_measurable name).comp ((hφ.comp measurable_fst).prodMk measurable_snd)) (fun (a : α × List (Num ℝ)) => (f a.1).set name a.2) fun x a ha => ?_)
  exact hasRows_set (hf _ _ ha.1) ha.2 name

/-- The parameters of a layer can be sampled with the distribution. -/
def LayerDistOk (d : DistArgs) (l : LayerV ℝ) : Prop := LayerKindOk d.kind l ∨ DistValid d


theorem update_measurable' {X : Type} [MeasurableSpace X] {f : X → Row} {g : X → ℝ × ℝ} (hf : Measurable f) (hg : Measurable g) (name : Str) :
    Measurable fun x => (Function.update (f x) name (g x) : Row) := (update_measurable name).comp (hf.prodMk hg)

theorem step_sym (C : Chance Ω P) {d : DistArgs} {l : LayerV ℝ} (hl : LayerDrawable l) (hd : LayerDistOk d l) (hsld : l.sld ≠ none)
    (hr : l.thickness ≠ none → l.roughness ≠ none) (n : ℕ) :
    Sym (letters C) (HasRows (n := n)) (fun f => labelStep C.rng.toRng n d f l) (HasRows (n := n)) := by
  obtain ⟨kind, name, th, ro, sld⟩ := l
  cases sld with
  | none => exact absurd rfl hsld
  | some p =>
    have h1 := param_sym C (hl.sld p rfl) (hd.imp_left fun h => h.sld p rfl) n (HasRows (n := n))
    cases th with
    | none =>
      cases ro with
      | none =>
        refine (h1.set (fun f => f) (fun x => x) measurable_id (fun _ _ h => h) (name ++ "_sld".toList)).congr fun _ f _ => ?_
        rfl
      | some q =>
        have hq := hl.roughness q rfl
        have h2 := (real_param_sym C hq (hd.imp_left fun h => positive_of_real hq (h.roughness q rfl)) n
          fun (x : Fin n → Row × (ℝ × ℝ)) (a : Frame (Num ℝ) × List (Num ℝ)) => HasRows (fun i => (x i).1) a.1 ∧ IsColumn (fun i => (x i).2) a.2).bind
            (r'' := HasRows (n := n)) (k := fun a rv => pure ((a.1.set (name ++ "_sld".toList) a.2).set (name ++ "_roughness".toList) rv))
            (Sym.pure' (fun (p : (Row × (ℝ × ℝ)) × ℝ) =>
                (Function.update (Function.update p.1.1 (name ++ "_sld".toList) p.1.2) (name ++ "_roughness".toList) (p.2, 0) : Row))
              (update_measurable' (update_measurable' (by fun_prop) (by fun_prop) _) (by fun_prop) _)
              (fun (a : (Frame (Num ℝ) × List (Num ℝ)) × List (Num ℝ)) => (a.1.1.set (name ++ "_sld".toList) a.1.2).set (name ++ "_roughness".toList) a.2)
              fun x a ha => hasRows_set (hasRows_set ha.1.1 ha.1.2 _) (isReals_column ha.2) _)
        exact (h1.bind (k := fun f v => q.sample C.rng.toRng n d >>= fun rv => pure ((f.set (name ++ "_sld".toList) v).set (name ++ "_roughness".toList) rv)) h2).congr
          fun _ f _ => rfl
    | some t =>
      cases ro with
      | none => exact absurd rfl (hr (by simp))
      | some q =>
        have ht := hl.thickness t rfl
        have hq := hl.roughness q rfl
        have h3 := ((roughness_sym C hq (hd.imp_left fun h => h.roughness q rfl) n).comp
          (q := fun (x : Fin n → (Row × (ℝ × ℝ)) × ℝ) (a : (Frame (Num ℝ) × List (Num ℝ)) × List (Num ℝ)) =>
            (HasRows (fun i => (x i).1.1) a.1.1 ∧ IsColumn (fun i => (x i).1.2) a.1.2) ∧ IsReals (fun i => (x i).2) a.2) measurable_snd Prod.snd fun _ _ h => h.2).bind
            (r'' := HasRows (n := n)) (k := fun a rv => pure (((a.1.1.set (name ++ "_sld".toList) a.1.2).set (name ++ "_thickness".toList) a.2).set (name ++ "_roughness".toList) rv))
            (Sym.pure' (fun (p : ((Row × (ℝ × ℝ)) × ℝ) × ℝ) =>
                (Function.update (Function.update (Function.update p.1.1.1 (name ++ "_sld".toList) p.1.1.2) (name ++ "_thickness".toList) (p.1.2, 0))
                  (name ++ "_roughness".toList) (p.2, 0) : Row))
              (update_measurable' (update_measurable' (update_measurable' (by fun_prop) (by fun_prop) _) (by fun_prop) _) (by fun_prop) _)
              (fun (a : ((Frame (Num ℝ) × List (Num ℝ)) × List (Num ℝ)) × List (Num ℝ)) => ((a.1.1.1.set (name ++ "_sld".toList) a.1.1.2).set (name ++ "_thickness".toList) a.1.2).set (name ++ "_roughness".toList) a.2)
              fun x a ha => hasRows_set (hasRows_set (hasRows_set ha.1.1.1 ha.1.1.2 _) (isReals_column ha.1.2) _) (isReals_column ha.2) _)
        have h2 := (real_param_sym C ht (hd.imp_left fun h => h.thickness t rfl) n
          fun (x : Fin n → Row × (ℝ × ℝ)) (a : Frame (Num ℝ) × List (Num ℝ)) => HasRows (fun i => (x i).1) a.1 ∧ IsColumn (fun i => (x i).2) a.2).bind
            (r'' := HasRows (n := n)) (k := fun a tv => generateRoughness C.rng.toRng d q tv >>= fun rv =>
              pure (((a.1.set (name ++ "_sld".toList) a.2).set (name ++ "_thickness".toList) tv).set (name ++ "_roughness".toList) rv)) h3
        exact (h1.bind (k := fun f v => t.sample C.rng.toRng n d >>= fun tv => generateRoughness C.rng.toRng d q tv >>= fun rv =>
          pure (((f.set (name ++ "_sld".toList) v).set (name ++ "_thickness".toList) tv).set (name ++ "_roughness".toList) rv)) h2).congr fun _ f _ => rfl

theorem loop_sym (C : Chance Ω P) {d : DistArgs} (n : ℕ) {ls : List (LayerV ℝ)} (hl : ∀ l ∈ ls, LayerDrawable l ∧ LayerDistOk d l ∧ l.sld ≠ none ∧
    (l.thickness ≠ none → l.roughness ≠ none)) : Sym (letters C) (HasRows (n := n)) (fun f => labelLoop C.rng.toRng n d f ls) (HasRows (n := n)) := by
  induction ls with
  | nil => exact (Sym.pure' (fun x => x) measurable_id (fun f => f) fun _ _ h => h).congr fun _ _ _ => rfl
  | cons l ls ih =>
    obtain ⟨a, b, c, e⟩ := hl l (by simp)
    exact ((step_sym C a b c e n).bind (k := fun _ f => labelLoop C.rng.toRng n d f ls)
      ((ih fun x hx => hl x (by simp [hx])).comp (f := Prod.snd) measurable_snd Prod.snd fun _ _ h => h.2)).congr fun _ _ _ => rfl

theorem table_rows (C : Chance Ω P) (s : SampleV ℝ) (hs : SampleRegular s) (d : DistArgs) (hl : ∀ l ∈ s.structure_, LayerDrawable l ∧ LayerDistOk d l)
    (n k : ℕ) (T : Ω → Frame (Num ℝ)) (hT : ∀ ω, ∃ g', generateRandomLabels C.rng.toRng s n d (ω, k) = .ok (T ω, g')) :
    Measurable (fun ω (i : Fin n) => rowOf (T ω) i) ∧
    ∀ π : Equiv.Perm (Fin n), P.map (fun ω (i : Fin n) => rowOf (T ω) (π i)) = P.map fun ω (i : Fin n) => rowOf (T ω) i := by
  obtain ⟨K, hK, sK⟩ := loop_sym C n fun l hm => ⟨(hl l hm).1, (hl l hm).2, sample_parts hs l hm⟩
  have h0 : HasRows (n := n) (fun _ _ => (0, 0)) [] := fun i => by
    funext label
    rfl
  obtain ⟨V, mV, lV, hV⟩ := hK.random C k h0
  obtain ⟨names, n1, n2, -⟩ := C05_label_names s hs
  classical
  let sel : Row → Row := fun x label => if label ∈ names then x label else (0, 0)
  have ms : Measurable sel := measurable_pi_iff.2 fun label => by
    simp only [sel]
    split_ifs
    · exact measurable_pi_apply label
    · exact measurable_const
  have e : ∀ ω (i : Fin n), rowOf (T ω) i = sel (V ω i) := by
    intro ω i
    obtain ⟨g', h⟩ := hT ω
    obtain ⟨f, g1, e1, e2⟩ := hV ω
    unfold generateRandomLabels at h
    split_ifs at h with hpos
    · obtain ⟨nm, g2, h1, h⟩ := Rand.bind_ok.1 h
      obtain ⟨h1, rfl⟩ := Rand.ofRes_ok.1 h1
      rw [n1] at h1
      cases h1
      obtain ⟨f', g3, h2, h⟩ := Rand.bind_ok.1 h
      rw [e1] at h2
      cases h2
      obtain ⟨h, -⟩ := Rand.ofRes_ok.1 h
      obtain ⟨c1, c2⟩ := select_get h
      funext label
      simp only [sel]
      split_ifs with hm
      · rw [← e2 i]
        simp only [rowOf, c2 label hm]
      · simp only [rowOf]
        rw [get_of_not_mem (by rw [c1]; exact hm)]
    · exact (Rand.fail_ok.1 h).elim
  have ms' := rowwise_measurable (n := n) ms
  have eT : (fun ω (i : Fin n) => rowOf (T ω) i) = (fun (x : Fin n → Row) i => sel (x i)) ∘ V := funext fun ω => funext fun i => e ω i
  refine ⟨by rw [eT]; exact ms'.comp mV, fun π => ?_⟩
  have eπ : (fun ω (i : Fin n) => rowOf (T ω) (π i)) = (fun (x : Fin n → Row) i => sel (x i)) ∘ permRows π ∘ V := funext fun ω => funext fun i => e ω (π i)
  rw [eT, eπ, ← Measure.map_map ms' ((permRows_measurable π).comp mV), ← Measure.map_map (permRows_measurable π) mV, ← Measure.map_map ms' mV, lV, ← sK]
  rfl

/-! ### The theorems -/

/-- C125: the order of the rows of a table of random labels has no meaning: for every permutation, the permuted table has the same
distribution. This holds for all three distribution types, for every sample and every number of rows. -/
theorem C125_exchangeable (C : Chance Ω P) (s : SampleV ℝ) (hs : SampleRegular s) (d : DistArgs)
    (hl : ∀ l ∈ s.structure_, LayerDrawable l ∧ (LayerKindOk d.kind l ∨ DistValid d)) (n k : ℕ) (T : Ω → Frame (Num ℝ))
    (hT : ∀ ω, ∃ g', generateRandomLabels C.rng.toRng s n d (ω, k) = .ok (T ω, g')) :
    Measurable (fun ω (i : Fin n) => rowOf (T ω) i) ∧
    ∀ π : Equiv.Perm (Fin n), P.map (fun ω (i : Fin n) => rowOf (T ω) (π i)) = P.map fun ω (i : Fin n) => rowOf (T ω) i :=
  table_rows C s hs d hl n k T hT

/-- C125: all rows have the same distribution, and all pairs, triples, ... of different rows. -/
theorem C125_subsets (C : Chance Ω P) (s : SampleV ℝ) (hs : SampleRegular s) (d : DistArgs)
    (hl : ∀ l ∈ s.structure_, LayerDrawable l ∧ (LayerKindOk d.kind l ∨ DistValid d)) (n k : ℕ) (T : Ω → Frame (Num ℝ))
    (hT : ∀ ω, ∃ g', generateRandomLabels C.rng.toRng s n d (ω, k) = .ok (T ω, g')) (m : ℕ) (e e' : Fin m ↪ Fin n) :
    P.map (fun ω (j : Fin m) => rowOf (T ω) (e j)) = P.map fun ω (j : Fin m) => rowOf (T ω) (e' j) := by
  obtain ⟨hm, hπ⟩ := C125_exchangeable C s hs d hl n k T hT
  obtain ⟨π, hπe⟩ : ∃ π : Equiv.Perm (Fin n), ∀ j, π (e' j) = e j := by
    obtain ⟨π, h⟩ := Equiv.Perm.exists_extending_pair e' e e'.injective e.injective
    exact ⟨π, fun j => h j⟩
  have mc : Measurable fun (x : Fin n → Row) (j : Fin m) => x (e' j) := measurable_pi_iff.2 fun j => measurable_pi_apply _
  have mπ : Measurable fun ω (i : Fin n) => rowOf (T ω) (π i) := (permRows_measurable π).comp hm
  have h := congrArg (Measure.map fun (x : Fin n → Row) (j : Fin m) => x (e' j)) (hπ π)
  rw [Measure.map_map mc mπ, Measure.map_map mc hm] at h
  rw [← show (fun ω (j : Fin m) => rowOf (T ω) (e' j)) = (fun (x : Fin n → Row) (j : Fin m) => x (e' j)) ∘ fun ω (i : Fin n) => rowOf (T ω) i from rfl] at h
  rw [← h]
  congr 1
  funext ω j
  show rowOf (T ω) (e j) = rowOf (T ω) (π (e' j))
  rw [hπe]

theorem nTrain_range {v : ℝ} (h0 : 0 ≤ v) (h1 : v ≤ 1) (n : ℕ) : (nTrain v n).toNat ≤ n ∧ 0 ≤ nTrain v n := by
  have hx : 0 ≤ (1 - v) * n := mul_nonneg (by linarith) (Nat.cast_nonneg n)
  have hle : (1 - v) * n ≤ n := by nlinarith [(Nat.cast_nonneg n : (0 : ℝ) ≤ n)]
  unfold nTrain
  simp only [if_pos hx]
  have h2 : 0 ≤ ⌊(1 - v) * n⌋ := Int.floor_nonneg.2 hx
  have h3 : ⌊(1 - v) * n⌋ ≤ n := by
    have := Int.floor_le ((1 - v) * n)
    exact_mod_cast this.trans hle
  exact ⟨by omega, h2⟩

/-- C125: the split of the training data is fair. Training takes the first rows, validation the others, without shuffling; still the
expected value of any function of the two parts (say the validation error of the network trained with the first part) is the average
over all orders of the rows, as for a random split. -/
theorem C125_split (C : Chance Ω P) (s : SampleV ℝ) (hs : SampleRegular s) (d : DistArgs)
    (hl : ∀ l ∈ s.structure_, LayerDrawable l ∧ (LayerKindOk d.kind l ∨ DistValid d)) (n k : ℕ) (T : Ω → Frame (Num ℝ))
    (hT : ∀ ω, ∃ g', generateRandomLabels C.rng.toRng s n d (ω, k) = .ok (T ω, g')) (v : ℝ) (h0 : 0 ≤ v) (h1 : v ≤ 1) :
    ∃ (m : ℕ) (h : m ≤ n), (∀ ω, trainSplit v n (List.ofFn fun (i : Fin n) => rowOf (T ω) i) =
        (List.ofFn fun (i : Fin m) => rowOf (T ω) i, List.ofFn fun (j : Fin (n - m)) => rowOf (T ω) (m + j))) ∧
      ∀ L : (Fin m → Str → ℝ × ℝ) × (Fin (n - m) → Str → ℝ × ℝ) → ENNReal, Measurable L →
        ∫⁻ ω, L (fun i => rowOf (T ω) i, fun j => rowOf (T ω) (m + j)) ∂P =
          (n.factorial : ENNReal)⁻¹ * ∑ π : Equiv.Perm (Fin n),
            ∫⁻ ω, L (fun i => rowOf (T ω) (π (Fin.castLE h i)), fun j => rowOf (T ω) (π ⟨m + j, by omega⟩)) ∂P := by
  obtain ⟨hm, hπ⟩ := C125_exchangeable C s hs d hl n k T hT
  obtain ⟨hle, hnn⟩ := nTrain_range h0 h1 n
  refine ⟨(nTrain v n).toNat, hle, fun ω => ?_, fun L hL => ?_⟩
  · have h := trainSplit_eq h0 h1 (List.ofFn fun (i : Fin n) => rowOf (T ω) i)
    rw [List.length_ofFn] at h
    rw [h]
    generalize (nTrain v n).toNat = m at hle
    refine Prod.ext (List.ext_getElem (by simpa using hle) fun i _ _ => ?_) (List.ext_getElem (by simp) fun i _ _ => ?_)
    · simp
    · simp
  · generalize (nTrain v n).toNat = m at hle L
    have mc : Measurable fun (x : Fin n → Row) => ((fun (i : Fin m) => x (Fin.castLE hle i), fun (j : Fin (n - m)) => x ⟨m + j, by omega⟩) :
        (Fin m → Row) × (Fin (n - m) → Row)) :=
      Measurable.prodMk (measurable_pi_iff.2 fun j => measurable_pi_apply _) (measurable_pi_iff.2 fun j => measurable_pi_apply _)
    have mL : Measurable fun (x : Fin n → Row) => L (fun (i : Fin m) => x (Fin.castLE hle i), fun (j : Fin (n - m)) => x ⟨m + j, by omega⟩) := hL.comp mc
    have each : ∀ π : Equiv.Perm (Fin n), ∫⁻ ω, L (fun i => rowOf (T ω) (π (Fin.castLE hle i)), fun j => rowOf (T ω) (π ⟨m + j, by omega⟩)) ∂P =
        ∫⁻ ω, L (fun i => rowOf (T ω) i, fun j => rowOf (T ω) (m + j)) ∂P := fun π => by
      have mπ : Measurable fun ω (i : Fin n) => rowOf (T ω) (π i) := (permRows_measurable π).comp hm
      have a1 := lintegral_map (μ := P) mL mπ
      have a2 := lintegral_map (μ := P) mL hm
      rw [hπ π] at a1
      exact a1.symm.trans a2
    simp only [each]
    rw [Finset.sum_const, Finset.card_univ, Fintype.card_perm, Fintype.card_fin, nsmul_eq_mul, ← mul_assoc, ENNReal.inv_mul_cancel (by exact_mod_cast n.factorial_ne_zero)
      (ENNReal.natCast_ne_top _), one_mul]

/-! ### Single values of bolstered sampling -/

theorem sum_perm {n : ℕ} (g : Fin n → ENNReal) (i : Fin n) : (n : ENNReal) * ∑ π : Equiv.Perm (Fin n), g (π i) = n.factorial * ∑ j, g j := by
  have h1 : ∀ k : Fin n, ∑ π : Equiv.Perm (Fin n), g (π k) = ∑ π : Equiv.Perm (Fin n), g (π i) := fun k =>
    Fintype.sum_equiv (Equiv.mulRight (Equiv.swap i k)) _ _ fun π => by simp
  have h2 : ∑ k : Fin n, ∑ π : Equiv.Perm (Fin n), g (π k) = ∑ π : Equiv.Perm (Fin n), ∑ j, g j := by
    rw [Finset.sum_comm]
    exact Finset.sum_congr rfl fun π _ => Equiv.sum_comp π g
  simp only [h1] at h2
  rw [Finset.sum_const, Finset.sum_const, Finset.card_univ, Finset.card_univ, Fintype.card_perm, Fintype.card_fin, nsmul_eq_mul, nsmul_eq_mul] at h2
  exact h2

theorem reflected_eq (a b v : ℝ) : reflected a b v = foldValue a b v := by
  unfold reflected foldValue
  simp only [gt_iff_lt]
  split_ifs <;> ring

/-- C125: every single value of bolstered sampling is a mixture, whatever its place in the sample: with probability `m / n` normally
distributed around the lower limit (values beyond the limits reflected), with the same probability around the upper limit, and else
uniform between the limits; `m` is half the documented fraction, rounded down. -/
theorem C125_value (C : Chance Ω P) (a b : ℝ) (hab : a ≤ b) (f w : ℝ) (h0 : 0 ≤ f) (h1 : f ≤ 1) (hw : 0 ≤ w) (n k : ℕ) :
    ∃ x : Fin n → Ω → ℝ, (∀ i, Measurable (x i)) ∧
      (∀ ω, ∃ g', sampleDistribution C.rng.toRng n a b ⟨.bolstered, some f, some w⟩ (ω, k) = .ok (List.ofFn fun i => x i ω, g')) ∧
      ∀ (i : Fin n) (S : Set ℝ), MeasurableSet S → n * P {ω | x i ω ∈ S} =
        ⌊(n : ℝ) * f / 2⌋₊ * gaussianReal 0 1 {z | reflected a b (a + (b - a) * w * z) ∈ S} +
        (n - 2 * ⌊(n : ℝ) * f / 2⌋₊ : ℕ) * volume {y | y ∈ Set.Ico (0 : ℝ) 1 ∧ a + (b - a) * y ∈ S} +
        ⌊(n : ℝ) * f / 2⌋₊ * gaussianReal 0 1 {z | reflected a b (b + (b - a) * w * z) ∈ S} := by
  have hfl : ⌊(n : ℝ) * f / 2⌋₊ = (nBolster n f).toNat := by
    unfold nBolster
    rw [Int.floor_toNat]
    push_cast
    rfl
  have hb := nBolster_range (n := n) h0 h1
  have hn2 : 2 * (nBolster n f).toNat ≤ n := by omega
  obtain ⟨V, mV, lV, hV⟩ := (column_refines C (d := ⟨.bolstered, some f, some w⟩) (Or.inr (Or.inr ⟨rfl, hab, f, w, rfl, rfl, h0, h1, hw⟩)) n).random C k (θ := ()) (a := ()) trivial
  refine ⟨fun i ω => V ω i, fun i => (measurable_pi_apply i).comp mV, fun ω => ?_, fun i S hS => ?_⟩
  · obtain ⟨l, g', e1, rfl⟩ := hV ω
    exact ⟨g', e1⟩
  · rw [hfl]
    have mi : MeasurableSet {y : Fin n → ℝ | y i ∈ S} := (measurable_pi_apply i) hS
    have e0 : P {ω | V ω i ∈ S} = columnLaw ⟨.bolstered, some f, some w⟩ n a b {y | y i ∈ S} := by
      rw [← lV, Measure.map_apply mV mi]
      rfl
    rw [e0]
    unfold columnLaw
    simp only [Option.getD_some]
    generalize hm : (nBolster n f).toNat = m at *
    have mS : ∀ j, Measurable (slotValue a b ((b - a) * w) m (n - 2 * m) j) := fun j => slotValue_measurable _ _ _ _ _ _
    have hp : ∀ j : Fin n, IsProbabilityMeasure (letterLaw.map (slotValue a b ((b - a) * w) m (n - 2 * m) j)) := fun j =>
      Measure.isProbabilityMeasure_map (mS j).aemeasurable
    rw [Measure.bind_apply mi shuffleLaw_measurable.aemeasurable]
    have e1 : ∀ x : Fin n → ℝ, shuffleLaw x {y | y i ∈ S} = (n.factorial : ENNReal)⁻¹ * ∑ π : Equiv.Perm (Fin n), S.indicator 1 (x (π i)) := fun x => by
      unfold shuffleLaw
      rw [Measure.smul_apply, Measure.finsetSum_apply, smul_eq_mul]
      congr 1
      refine Finset.sum_congr rfl fun π _ => ?_
      rw [Measure.dirac_apply' _ mi]
      rfl
    have mind : ∀ j : Fin n, Measurable fun x : Fin n → ℝ => S.indicator (1 : ℝ → ENNReal) (x j) := fun j =>
      (measurable_one.indicator hS).comp (measurable_pi_apply j)
    simp only [e1]
    rw [lintegral_const_mul _ (Finset.measurable_sum _ fun π _ => mind (π i)), lintegral_finsetSum _ fun π _ => mind (π i)]
    have e2 : ∀ j : Fin n, ∫⁻ x, S.indicator (1 : ℝ → ENNReal) (x j) ∂(Measure.pi fun j : Fin n => letterLaw.map (slotValue a b ((b - a) * w) m (n - 2 * m) j)) =
        letterLaw {l | slotValue a b ((b - a) * w) m (n - 2 * m) j l ∈ S} := fun j => by
      rw [← lintegral_map (f := S.indicator 1) (measurable_one.indicator hS) (measurable_pi_apply j), (measurePreserving_eval _ j).map_eq, lintegral_indicator_one hS,
        Measure.map_apply (mS j) hS]
      rfl
    simp only [e2]
    rw [← mul_assoc, mul_comm (n : ENNReal), mul_assoc, sum_perm (fun j : Fin n => letterLaw {l | slotValue a b ((b - a) * w) m (n - 2 * m) j l ∈ S}) i, ← mul_assoc,
      ENNReal.inv_mul_cancel (by exact_mod_cast n.factorial_ne_zero) (ENNReal.natCast_ne_top _), one_mul]
    rw [Fin.sum_univ_eq_sum_range fun j => letterLaw {l | slotValue a b ((b - a) * w) m (n - 2 * m) j l ∈ S}]
    have en : n = m + (n - 2 * m) + m := by omega
    have e3 : ∀ (i : NumKind) (φ : ℝ → ℝ), Measurable φ → letterLaw {l | φ (l i) ∈ S} = i.law {y | φ y ∈ S} := fun i φ hφ => by
      rw [← letterLaw_kind i, Measure.map_apply (measurable_pi_apply i) (hφ hS)]
      rfl
    have mlo : ∀ c : ℝ, Measurable fun z => foldValue a b (c + (b - a) * w * z) := fun c => (foldValue_measurable a b).comp (by fun_prop)
    have s1 : ∀ j < m, letterLaw {l | slotValue a b ((b - a) * w) m (n - 2 * m) j l ∈ S} = gaussianReal 0 1 {z | reflected a b (a + (b - a) * w * z) ∈ S} := fun j hj => by
      simp only [slotValue, if_pos hj, reflected_eq]
      exact e3 .z _ (mlo a)
    have s2 : ∀ j < n - 2 * m, letterLaw {l | slotValue a b ((b - a) * w) m (n - 2 * m) (m + j) l ∈ S} = volume {y | y ∈ Set.Ico (0 : ℝ) 1 ∧ a + (b - a) * y ∈ S} :=
      fun j hj => by
      have mu : Measurable fun y : ℝ => a + (b - a) * y := by fun_prop
      simp only [slotValue, if_neg (by omega : ¬ m + j < m), if_pos (by omega : m + j < m + (n - 2 * m))]
      rw [e3 .u _ mu]
      show (volume.restrict (Set.Ico (0 : ℝ) 1)) ((fun y : ℝ => a + (b - a) * y) ⁻¹' S) = _
      rw [Measure.restrict_apply (mu hS), Set.inter_comm]
      rfl
    have s3 : ∀ j < m, letterLaw {l | slotValue a b ((b - a) * w) m (n - 2 * m) (m + (n - 2 * m) + j) l ∈ S} =
        gaussianReal 0 1 {z | reflected a b (b + (b - a) * w * z) ∈ S} := fun j hj => by
      simp only [slotValue, if_neg (by omega : ¬ m + (n - 2 * m) + j < m), if_neg (by omega : ¬ m + (n - 2 * m) + j < m + (n - 2 * m)), reflected_eq]
      exact e3 .z _ (mlo b)
    generalize n - 2 * m = nu at *
    rw [en, Finset.sum_range_add, Finset.sum_range_add, Finset.sum_congr rfl fun j hj => s1 j (Finset.mem_range.1 hj),
      Finset.sum_congr rfl fun j hj => s2 j (Finset.mem_range.1 hj), Finset.sum_congr rfl fun j hj => s3 j (Finset.mem_range.1 hj)]
    simp only [Finset.sum_const, Finset.card_range, nsmul_eq_mul]

/-- The hypotheses of C125 hold for a sample with a film that has a complex range and the default distribution. -/
example (n : ℕ) (hn : 0 < n) (i j : Fin n) : ∃ T : (ChanceIdx → ℝ) → Frame (Num ℝ),
    (∀ ω, ∃ g', generateRandomLabels Chance.product.rng.toRng exampleTableSample n ⟨.bolstered, some 0.6, some 0.1⟩ (ω, 0) = .ok (T ω, g')) ∧
    (Measure.infinitePi ChanceIdx.law).map (fun ω => rowOf (T ω) i) = (Measure.infinitePi ChanceIdx.law).map fun ω => rowOf (T ω) j := by
  have H : SampleRegular exampleTableSample := by
    refine ⟨⟨rfl, rfl, ⟨_, rfl, ⟨rfl, trivial⟩, ?_⟩, ⟨_, rfl, rfl, trivial⟩⟩, ⟨rfl, rfl, rfl, ⟨_, rfl, rfl, trivial⟩⟩, ?_⟩
    · simp only [Param.min, Num.ltZero]; norm_num
    · intro l hl
      simp only [exampleTableSample, List.mem_singleton] at hl
      subst hl
      refine ⟨Or.inl rfl, ⟨_, rfl, ⟨rfl, ?_⟩, ?_⟩, ⟨_, rfl, ⟨rfl, ?_⟩, ?_⟩, ⟨_, rfl, rfl, ?_⟩⟩
      · simp only [ParamValid, Num.ge]; norm_num
      · simp only [Param.min, Num.ltZero]; norm_num
      · simp only [ParamValid, Num.ge]; norm_num
      · simp only [Param.min, Num.ltZero]; norm_num
      · simp only [ParamValid, Num.ge, Num.isNp, Num.re]; norm_num
  have hv : DistValid ⟨.bolstered, some 0.6, some 0.1⟩ := Or.inr ⟨rfl, _, _, rfl, rfl, by norm_num, by norm_num, by norm_num⟩
  have H2 : ∀ l ∈ exampleTableSample.structure_, LayerDrawable l := by
    intro l hl
    simp only [SampleV.structure_, exampleTableSample, List.cons_append, List.nil_append, List.mem_cons,
      List.not_mem_nil, or_false] at hl
    rcases hl with rfl | rfl | rfl
    · refine ⟨?_, by simp, ?_⟩ <;> rintro p ⟨⟩
      · trivial
      · exact ⟨1, 1, rfl, rfl, le_refl _⟩
    · refine ⟨?_, ?_, ?_⟩ <;> rintro p ⟨⟩
      · exact ⟨by simp [Num.re], by simp [Num.im], Or.inr (Or.inl (by simp [Num.im]))⟩
      · exact ⟨10, 20, rfl, rfl, by norm_num⟩
      · exact ⟨0, 8, rfl, rfl, by norm_num⟩
    · refine ⟨?_, by simp, by simp⟩
      rintro p ⟨⟩
      trivial
  have ht := fun ω => C17_returns Chance.product.rng_ok.toOk exampleTableSample H (by simp only [partNames, exampleTableSample]; decide) H2 n (by omega) _ hv (ω, 0)
  choose T g' hT using ht
  have hT' : ∀ ω, ∃ g', generateRandomLabels Chance.product.rng.toRng exampleTableSample n ⟨.bolstered, some 0.6, some 0.1⟩ (ω, 0) = .ok (T ω, g') :=
    fun ω => ⟨_, hT ω⟩
  refine ⟨T, hT', ?_⟩
  have h := C125_subsets Chance.product exampleTableSample H _ (fun l hl => ⟨H2 l hl, Or.inr hv⟩) n 0 T hT' 1 ⟨fun _ => i, fun _ _ _ => Subsingleton.elim _ _⟩
    ⟨fun _ => j, fun _ _ _ => Subsingleton.elim _ _⟩
  obtain ⟨hm, -⟩ := C125_exchangeable Chance.product exampleTableSample H _ (fun l hl => ⟨H2 l hl, Or.inr hv⟩) n 0 T hT'
  have m0 : Measurable fun x : Fin 1 → Row => x 0 := measurable_pi_apply 0
  have mi : ∀ i : Fin n, Measurable fun ω (_ : Fin 1) => rowOf (T ω) i := fun i => measurable_pi_iff.2 fun _ => (measurable_pi_apply i).comp hm
  have h' := congrArg (Measure.map fun x : Fin 1 → Row => x 0) h
  exact (Measure.map_map m0 (mi i)).symm.trans (h'.trans (Measure.map_map m0 (mi j)))

end Verif.Props
