import Verif.Model.Chance

/-!
# Programs that draw numbers from a stream of independent uniform numbers

The position in the stream may depend on the numbers drawn so far. `Draws` says that a program is distributed as if every cell of
its result had its own number, and that the rest of the stream is fresh.
-/

namespace Verif.Lemmas
open Verif.Py Verif.Model MeasureTheory ProbabilityTheory

/-- The uniform distribution on `[0, 1)`. -/
noncomputable def unif : Measure ℝ := volume.restrict (Set.Ico (0 : ℝ) 1)

instance : IsProbabilityMeasure unif := ⟨by simp [unif]⟩

/-- Independent uniform numbers. -/
noncomputable def iid (ι : Type) : Measure (ι → ℝ) := Measure.infinitePi fun _ : ι => unif

instance (ι : Type) : IsProbabilityMeasure (iid ι) := by unfold iid; infer_instance

theorem iid_precomp {ι κ : Type} {τ : κ → ι} (h : Function.Injective τ) : (iid ι).map (fun w (c : κ) => w (τ c)) = iid κ :=
  Measure.map_infinitePi_infinitePi_of_inj (P := fun _ : ι => unif) h

theorem iid_sum (ι κ : Type) : ((iid ι).prod (iid κ)).map (fun p => Sum.elim p.1 p.2) = iid (ι ⊕ κ) := by
  have hm : Measurable fun p : (ι → ℝ) × (κ → ℝ) => (Sum.elim p.1 p.2 : ι ⊕ κ → ℝ) := by
    refine measurable_pi_iff.2 fun c => ?_
    cases c with
    | inl i => exact (measurable_pi_apply i).comp measurable_fst
    | inr i => exact (measurable_pi_apply i).comp measurable_snd
  refine Measure.eq_infinitePi _ fun s t ht => ?_
  classical
  rw [Measure.map_apply hm (.pi s.countable_toSet fun i _ => ht i)]
  have e : (fun p : (ι → ℝ) × (κ → ℝ) => (Sum.elim p.1 p.2 : ι ⊕ κ → ℝ)) ⁻¹' Set.pi s t =
      Set.pi (s.toLeft : Set ι) (fun i => t (.inl i)) ×ˢ Set.pi (s.toRight : Set κ) fun i => t (.inr i) := by
    ext p
    simp only [Set.mem_preimage, Set.mem_pi, Set.mem_prod, Finset.mem_coe, Finset.mem_toLeft, Finset.mem_toRight]
    constructor
    · intro h
      exact ⟨fun i hi => h (.inl i) hi, fun i hi => h (.inr i) hi⟩
    · rintro ⟨h1, h2⟩ (i | i) hi
      · exact h1 i hi
      · exact h2 i hi
  rw [e, Measure.prod_prod, iid, iid, Measure.infinitePi_pi _ fun i _ => ht _, Measure.infinitePi_pi _ fun i _ => ht _]
  conv_rhs => rw [← Finset.toLeft_disjSum_toRight (u := s), Finset.prod_disjSum]

theorem iid_split (ι κ : Type) : (iid (ι ⊕ κ)).map (fun w => (fun i => w (.inl i), fun i => w (.inr i))) = (iid ι).prod (iid κ) := by
  have hm : Measurable fun p : (ι → ℝ) × (κ → ℝ) => (Sum.elim p.1 p.2 : ι ⊕ κ → ℝ) := by
    refine measurable_pi_iff.2 fun c => ?_
    cases c with
    | inl i => exact (measurable_pi_apply i).comp measurable_fst
    | inr i => exact (measurable_pi_apply i).comp measurable_snd
  rw [← iid_sum, Measure.map_map (by fun_prop) hm]
  exact Measure.map_id

/-- A stream of numbers. -/
abbrev Stream := ℕ → ℝ

theorem iid_positions {ι : Type} {σ : ι → ℕ} (h : Function.Injective σ) {N : ℕ} (hN : ∀ i, σ i < N) :
    (iid ℕ).map (fun s => (fun i => s (σ i), fun j => s (N + j))) = (iid ι).prod (iid ℕ) := by
  have hi : Function.Injective (Sum.elim σ fun j => N + j) := by
    rintro (a | a) (b | b) hab
    · exact congrArg _ (h hab)
    · have := hN a; simp only [Sum.elim_inl, Sum.elim_inr] at hab; omega
    · have := hN b; simp only [Sum.elim_inl, Sum.elim_inr] at hab; omega
    · exact congrArg _ (Nat.add_left_cancel hab)
  rw [← iid_split ι ℕ, ← iid_precomp hi, Measure.map_map (by fun_prop) (by fun_prop)]
  rfl

/-- States that know how many numbers were drawn. -/
class Steps (G : Type) where
  adv : G → ℕ → G
  adv_zero : ∀ g, adv g 0 = g
  adv_add : ∀ g a b, adv (adv g a) b = adv g (a + b)

instance {Ω : Type} : Steps (Ω × ℕ) := ⟨fun g n => (g.1, g.2 + n), fun _ => rfl, fun g a b => by simp only [Nat.add_assoc]⟩

variable {G Θ α β κ : Type} [MeasurableSpace Θ] [Steps G]

/-- `m` is distributed as if every cell `a ∈ A` had its own uniform number: there are numbers, independent of each other and of the rest
of the stream, for which the result is `H`. The program draws `N` numbers, and nothing depends on later ones. -/
def Draws (str : G → Stream) (A : Set κ) (m : Θ → Rand G α) (H : Θ → (κ → ℝ) → α) : Prop :=
  (∀ θ w w', (∀ a ∈ A, w a = w' a) → H θ w = H θ w') ∧
  ∃ (Φ : Θ → Stream → (A → ℝ) × Stream) (N : Θ → Stream → ℕ), (Measurable fun p : Θ × Stream => Φ p.1 p.2) ∧
    (Measurable fun p : Θ × Stream => N p.1 p.2) ∧
    (∀ θ s s', (∀ j < N θ s, s' j = s j) → N θ s' = N θ s ∧ (Φ θ s').1 = (Φ θ s).1) ∧
    (∀ θ s, (Φ θ s).2 = fun j => s (N θ s + j)) ∧
    (∀ θ, (iid ℕ).map (Φ θ) = (iid A).prod (iid ℕ)) ∧
    ∀ θ g, ∃ g', (∀ w : κ → ℝ, (∀ a : A, w a = (Φ θ (str g)).1 a) → m θ g = .ok (H θ w, g')) ∧ str g' = (Φ θ (str g)).2 ∧
      g' = Steps.adv g (N θ (str g))

variable {str : G → Stream} {A B : Set κ}

open Classical in
/-- Numbers outside of `A` are zero. -/
noncomputable def ext (v : A → ℝ) (c : κ) : ℝ := if h : c ∈ A then v ⟨c, h⟩ else 0

theorem ext_mem (v : A → ℝ) (a : A) : ext v a.1 = v a := by
  unfold ext
  rw [dif_pos a.2]

theorem Draws.ext_eq {m : Θ → Rand G α} {H : Θ → (κ → ℝ) → α} (h : Draws str A m H) (θ : Θ) (w : κ → ℝ) : H θ (ext fun a : A => w a) = H θ w :=
  h.1 θ _ _ fun a ha => ext_mem (fun a : A => w a) ⟨a, ha⟩

theorem Draws.pure' (m : Θ → α) : Draws (G := G) str (∅ : Set κ) (fun θ => pure (m θ)) fun θ _ => m θ := by
  refine ⟨fun _ _ _ _ => rfl, fun _ s => (fun a => absurd a.2 (Set.notMem_empty _), s), fun _ _ => 0, ?_, measurable_const,
    fun θ s s' _ => ⟨rfl, rfl⟩, fun θ s => by simp, fun θ => ?_, fun θ g => ⟨g, fun w _ => rfl, rfl, (Steps.adv_zero g).symm⟩⟩
  · refine Measurable.prodMk (measurable_pi_iff.2 fun a => absurd a.2 (Set.notMem_empty _)) measurable_snd
  · have h := iid_positions (ι := (∅ : Set κ)) (σ := fun a => absurd a.2 (Set.notMem_empty _)) (fun a => absurd a.2 (Set.notMem_empty _))
      (N := 0) fun a => absurd a.2 (Set.notMem_empty _)
    rw [← h]
    congr 1
    funext s
    refine Prod.ext (funext fun a => absurd a.2 (Set.notMem_empty _)) (funext fun j => ?_)
    simp

theorem Draws.of_positions {m : Θ → Rand G α} {H : Θ → (κ → ℝ) → α} (pos : Θ → κ → ℕ) (N : Θ → ℕ) (hp : ∀ c, Measurable fun θ => pos θ c)
    (hN : Measurable N) (hi : ∀ θ, Set.InjOn (pos θ) A) (hlt : ∀ θ, ∀ a ∈ A, pos θ a < N θ)
    (hH : ∀ θ w w', (∀ a ∈ A, w a = w' a) → H θ w = H θ w')
    (hm : ∀ θ g, ∃ g', (∀ w : κ → ℝ, (∀ a ∈ A, w a = str g (pos θ a)) → m θ g = .ok (H θ w, g')) ∧
      (str g' = fun j => str g (N θ + j)) ∧ g' = Steps.adv g (N θ)) :
    Draws str A m H := by
  have hev : Measurable fun p : ℕ × Stream => p.2 p.1 := measurable_from_prod_countable_right fun k => measurable_pi_apply k
  refine ⟨hH, fun θ s => (fun a => s (pos θ a), fun j => s (N θ + j)), fun θ _ => N θ, ?_, hN.comp measurable_fst,
    fun θ s s' h => ⟨rfl, funext fun a => h _ (hlt θ a a.2)⟩, fun θ s => rfl, fun θ => ?_, fun θ g => ?_⟩
  · refine Measurable.prodMk (measurable_pi_iff.2 fun a => ?_) (measurable_pi_iff.2 fun j => ?_)
    · exact hev.comp (((hp a).comp measurable_fst).prodMk measurable_snd)
    · exact hev.comp (((hN.add_const j).comp measurable_fst).prodMk measurable_snd)
  · exact iid_positions (fun a b hab => Subtype.ext (hi θ a.2 b.2 hab)) fun a => hlt θ a a.2
  · obtain ⟨g', h1, h2, h3⟩ := hm θ g
    exact ⟨g', fun w hw => h1 w fun a ha => hw ⟨a, ha⟩, h2, h3⟩

theorem iid_union (h : Disjoint A B) : ∃ J : (A → ℝ) × (B → ℝ) → ((A ∪ B : Set κ) → ℝ), Measurable J ∧ ((iid A).prod (iid B)).map J = iid (A ∪ B : Set κ) ∧
    ∀ v w, (∀ a : A, J (v, w) ⟨a, Or.inl a.2⟩ = v a) ∧ ∀ b : B, J (v, w) ⟨b, Or.inr b.2⟩ = w b := by
  classical
  let τ : (A ∪ B : Set κ) → A ⊕ B := fun c => if hc : c.1 ∈ A then .inl ⟨c.1, hc⟩ else .inr ⟨c.1, c.2.resolve_left hc⟩
  have hτ : Function.Injective τ := by
    intro a b hab
    simp only [τ] at hab
    split_ifs at hab with h1 h2
    · have := Sum.inl.inj hab
      exact Subtype.ext (Subtype.mk.inj this)
    · have := Sum.inr.inj hab
      exact Subtype.ext (Subtype.mk.inj this)
  have hm : Measurable fun p : (A → ℝ) × (B → ℝ) => (Sum.elim p.1 p.2 : A ⊕ B → ℝ) := by
    refine measurable_pi_iff.2 fun c => ?_
    cases c with
    | inl i => exact (measurable_pi_apply i).comp measurable_fst
    | inr i => exact (measurable_pi_apply i).comp measurable_snd
  have hc : Measurable fun (w : A ⊕ B → ℝ) (c : (A ∪ B : Set κ)) => w (τ c) := by fun_prop
  refine ⟨fun p c => Sum.elim p.1 p.2 (τ c), hc.comp hm, ?_, fun v w => ⟨fun a => ?_, fun b => ?_⟩⟩
  · rw [← iid_precomp hτ, ← iid_sum, Measure.map_map hc hm]
    rfl
  · simp only [τ]
    rw [dif_pos a.2]
    rfl
  · simp only [τ]
    rw [dif_neg fun ha => Set.disjoint_left.1 h ha b.2]
    rfl

theorem Draws.bind {m : Θ → Rand G α} {H : Θ → (κ → ℝ) → α} {k : Θ → α → Rand G β} {K : Θ × (A → ℝ) → (κ → ℝ) → β} {R : Θ → (κ → ℝ) → β}
    (h1 : Draws str A m H) (h2 : Draws str B (fun p : Θ × (A → ℝ) => k p.1 (H p.1 (ext p.2))) K) (hAB : Disjoint A B)
    (hR : ∀ θ w, K (θ, fun a => w a) w = R θ w) : Draws str (A ∪ B) (fun θ => m θ >>= k θ) R := by
  obtain ⟨hd, Φ, N, hΦ, hN, hloc, hrest, hl, hr⟩ := h1
  obtain ⟨hd', Ψ, M, hΨ, hM, hloc', hrest', hl', hr'⟩ := h2
  obtain ⟨J, hJ, hJl, hJv⟩ := iid_union hAB
  have m1 : ∀ θ, Measurable (Φ θ) := fun θ => hΦ.comp (measurable_const.prodMk measurable_id)
  refine ⟨fun θ w w' hw => ?_, fun θ s => (J ((Φ θ s).1, (Ψ (θ, (Φ θ s).1) (Φ θ s).2).1), (Ψ (θ, (Φ θ s).1) (Φ θ s).2).2),
    fun θ s => N θ s + M (θ, (Φ θ s).1) (Φ θ s).2, ?_, ?_, fun θ s s' hs => ?_, fun θ s => ?_, fun θ => ?_, fun θ g => ?_⟩
  · have e : (fun a : A => w a) = fun a : A => w' a := funext fun a => hw a (Or.inl a.2)
    rw [← hR, ← hR, e]
    exact hd' _ _ _ fun b hb => hw b (Or.inr hb)
  · have a1 : Measurable fun p : Θ × Stream => Ψ (p.1, (Φ p.1 p.2).1) (Φ p.1 p.2).2 :=
      hΨ.comp ((measurable_fst.prodMk (measurable_fst.comp hΦ)).prodMk (measurable_snd.comp hΦ))
    exact (hJ.comp ((measurable_fst.comp hΦ).prodMk (measurable_fst.comp a1))).prodMk (measurable_snd.comp a1)
  · exact hN.add (hM.comp ((measurable_fst.prodMk (measurable_fst.comp hΦ)).prodMk (measurable_snd.comp hΦ)))
  · simp only at hs
    obtain ⟨e1, e2⟩ := hloc θ s s' fun j hj => hs j (by omega)
    have e3 : ∀ j < M (θ, (Φ θ s).1) (Φ θ s).2, (Φ θ s').2 j = (Φ θ s).2 j := by
      intro j hj
      rw [hrest, hrest, e1]
      exact hs _ (by omega)
    obtain ⟨e4, e5⟩ := hloc' (θ, (Φ θ s).1) (Φ θ s).2 (Φ θ s').2 e3
    simp only [e1, e2, e4, e5, and_self]
  · simp only [hrest', hrest, Nat.add_assoc]
  · have sk : MeasurePreserving (fun p : (A → ℝ) × Stream => (p.1, Ψ (θ, p.1) p.2)) ((iid A).prod (iid ℕ)) ((iid A).prod ((iid B).prod (iid ℕ))) :=
      (MeasurePreserving.id (iid A)).skew_product (g := fun v s => Ψ (θ, v) s) (hΨ.comp ((measurable_const.prodMk measurable_fst).prodMk measurable_snd))
        (Filter.Eventually.of_forall fun v => hl' (θ, v))
    have as : MeasurePreserving (MeasurableEquiv.prodAssoc (α := A → ℝ) (β := B → ℝ) (γ := Stream)).symm ((iid A).prod ((iid B).prod (iid ℕ)))
        (((iid A).prod (iid B)).prod (iid ℕ)) := (measurePreserving_prodAssoc (iid A) (iid B) (iid ℕ)).symm
    have jj : MeasurePreserving (Prod.map J (id : Stream → Stream)) (((iid A).prod (iid B)).prod (iid ℕ)) ((iid (A ∪ B : Set κ)).prod (iid ℕ)) :=
      (MeasurePreserving.mk hJ hJl).prod (MeasurePreserving.id _)
    exact (jj.comp (as.comp (sk.comp ⟨m1 θ, hl θ⟩))).map_eq
  · obtain ⟨g1, e1, e2, e5⟩ := hr θ g
    obtain ⟨g2, e3, e4, e6⟩ := hr' (θ, (Φ θ (str g)).1) g1
    rw [e2] at e3 e4 e6
    refine ⟨g2, fun w hw => ?_, e4, by rw [e6, e5, Steps.adv_add]⟩
    have w1 : ∀ a : A, w a = (Φ θ (str g)).1 a := fun a => (hw ⟨a, Or.inl a.2⟩).trans ((hJv _ _).1 a)
    have w2 : ∀ b : B, w b = (Ψ (θ, (Φ θ (str g)).1) (Φ θ (str g)).2).1 b := fun b => (hw ⟨b, Or.inr b.2⟩).trans ((hJv _ _).2 b)
    have w3 : (fun a : A => w a) = (Φ θ (str g)).1 := funext w1
    rw [← hR, w3]
    exact Rand.bind_ok.2 ⟨_, g1, e1 _ fun a => ext_mem _ a, e3 w w2⟩

theorem Draws.bind_ext {m : Θ → Rand G α} {H : Θ → (κ → ℝ) → α} {k : Θ → α → Rand G β} {K : Θ × (A → ℝ) → (κ → ℝ) → β} (h1 : Draws str A m H)
    (h2 : Draws str B (fun p : Θ × (A → ℝ) => k p.1 (H p.1 (ext p.2))) K) (hAB : Disjoint A B) :
    Draws str (A ∪ B) (fun θ => m θ >>= k θ) fun θ w => K (θ, fun a => w a) w :=
  h1.bind h2 hAB fun _ _ => rfl

theorem Draws.congr {m m' : Θ → Rand G α} {H H' : Θ → (κ → ℝ) → α} (h : Draws str A m H) (h1 : ∀ θ, m θ = m' θ) (h2 : ∀ θ w, H θ w = H' θ w) :
    Draws str A m' H' := by
  have e1 : m = m' := funext h1
  have e2 : H = H' := funext fun θ => funext (h2 θ)
  rwa [← e1, ← e2]

theorem Draws.map {m : Θ → Rand G α} {H : Θ → (κ → ℝ) → α} (h : Draws str A m H) (φ : Θ → α → β) :
    Draws str A (fun θ => m θ >>= fun a => pure (φ θ a)) fun θ w => φ θ (H θ w) := by
  obtain ⟨hd, Φ, N, hΦ, hN, hloc, hrest, hl, hr⟩ := h
  refine ⟨fun θ w w' hw => congrArg (φ θ) (hd θ w w' hw), Φ, N, hΦ, hN, hloc, hrest, hl, fun θ g => ?_⟩
  obtain ⟨g', e1, e2⟩ := hr θ g
  exact ⟨g', fun w hw => Rand.bind_ok.2 ⟨_, _, e1 w hw, rfl⟩, e2⟩

theorem Draws.comp {Θ' : Type} [MeasurableSpace Θ'] {m : Θ → Rand G α} {H : Θ → (κ → ℝ) → α} (h : Draws str A m H) {f : Θ' → Θ} (hf : Measurable f) :
    Draws str A (fun θ => m (f θ)) fun θ => H (f θ) := by
  obtain ⟨hd, Φ, N, hΦ, hN, hloc, hrest, hl, hr⟩ := h
  have hf' : Measurable fun p : Θ' × Stream => (f p.1, p.2) := (hf.comp measurable_fst).prodMk measurable_snd
  exact ⟨fun θ => hd (f θ), fun θ => Φ (f θ), fun θ => N (f θ), hΦ.comp hf', hN.comp hf', fun θ => hloc _, fun θ => hrest _, fun θ => hl _,
    fun θ g => hr _ g⟩

/-! ### Random variables -/

variable {Ω : Type} [MeasurableSpace Ω] {P : Measure Ω}

/-- The uniform numbers from the `k`-th on. -/
def Chance.stream (C : Chance Ω P) (g : Ω × ℕ) : Stream := fun j => C.u (g.2 + j) g.1

theorem Chance.stream_law (C : Chance Ω P) (k : ℕ) : P.map (fun ω => Chance.stream C (ω, k)) = iid ℕ := by
  have := C.indep.isProbabilityMeasure
  have h := (C.u_indep.precomp (g := fun j => k + j) fun a b hab => Nat.add_left_cancel hab).map_fun_eq_infinitePi_map fun j => C.u_measurable _
  refine h.trans ?_
  unfold iid unif
  congr 1
  funext j
  exact C.u_law _

theorem Chance.stream_measurable (C : Chance Ω P) (k : ℕ) : Measurable fun ω => Chance.stream C (ω, k) :=
  measurable_pi_iff.2 fun j => C.u_measurable (k + j)

/-- The numbers of the cells as a function of the stream, for all cells (those that are not used get numbers from the rest of the stream). -/
theorem Draws.stream [Countable κ] (C : Chance Ω P) {m : Rand (Ω × ℕ) α} {H : (κ → ℝ) → α}
    (h : Draws (Θ := Unit) (Chance.stream C) A (fun _ => m) fun _ => H) :
    ∃ (W : Stream → κ → ℝ) (N : Stream → ℕ), Measurable W ∧ Measurable N ∧ (iid ℕ).map W = iid κ ∧
      (∀ s s', (∀ j < N s, s' j = s j) → N s' = N s ∧ H (W s') = H (W s)) ∧
      ∀ ω k, m (ω, k) = .ok (H (W (Chance.stream C (ω, k))), (ω, k + N (Chance.stream C (ω, k)))) := by
  classical
  obtain ⟨hd, Φ, N, hΦ, hN, hloc, -, hl, hr⟩ := h
  obtain ⟨enc, henc⟩ := Countable.exists_injective_nat κ
  let τ : κ → A ⊕ ℕ := fun c => if hc : c ∈ A then .inl ⟨c, hc⟩ else .inr (enc c)
  have hτ : Function.Injective τ := by
    intro a b hab
    simp only [τ] at hab
    split_ifs at hab with h1 h2
    · exact congrArg Subtype.val (Sum.inl.inj hab)
    · exact henc (Sum.inr.inj hab)
  let W : Stream → κ → ℝ := fun st c => Sum.elim (Φ () st).1 (Φ () st).2 (τ c)
  have m0 : Measurable (Φ ()) := hΦ.comp (measurable_const.prodMk measurable_id)
  have m1 : Measurable fun p : (A → ℝ) × Stream => (Sum.elim p.1 p.2 : A ⊕ ℕ → ℝ) := by
    refine measurable_pi_iff.2 fun c => ?_
    cases c with
    | inl i => exact (measurable_pi_apply i).comp measurable_fst
    | inr i => exact (measurable_pi_apply i).comp measurable_snd
  have m2 : Measurable fun (w : A ⊕ ℕ → ℝ) (c : κ) => w (τ c) := by fun_prop
  have hW : ∀ s (a : A), W s a = (Φ () s).1 a := fun s a => by
    simp only [W, τ]
    rw [dif_pos a.2]
    rfl
  refine ⟨W, N (), m2.comp (m1.comp m0), hN.comp (measurable_const.prodMk measurable_id), ?_, fun s s' hs => ?_, fun ω k => ?_⟩
  · rw [← iid_precomp hτ, ← iid_sum, ← hl (), Measure.map_map m1 m0, Measure.map_map m2 (m1.comp m0)]
    rfl
  · obtain ⟨e1, e2⟩ := hloc () s s' hs
    refine ⟨e1, hd () _ _ fun a ha => ?_⟩
    rw [hW s' ⟨a, ha⟩, hW s ⟨a, ha⟩, e2]
  · obtain ⟨g', e1, -, e2⟩ := hr () (ω, k)
    refine (e1 _ fun a => hW _ a).trans ?_
    rw [e2]
    rfl

/-- The numbers of the cells as random variables. -/
theorem Draws.random [Countable κ] (C : Chance Ω P) (k : ℕ) {m : Rand (Ω × ℕ) α} {H : (κ → ℝ) → α}
    (h : Draws (Θ := Unit) (Chance.stream C) A (fun _ => m) fun _ => H) :
    ∃ V : κ → Ω → ℝ, (∀ c, Measurable (V c)) ∧ iIndepFun V P ∧ (∀ c, P.map (V c) = unif) ∧
      ∀ ω, ∃ g', m (ω, k) = .ok (H fun c => V c ω, g') := by
  have := C.indep.isProbabilityMeasure
  obtain ⟨W, N, mW, -, lW, -, hW⟩ := h.stream C
  have mV : Measurable fun ω => W (Chance.stream C (ω, k)) := mW.comp (Chance.stream_measurable C k)
  have law : P.map (fun ω c => W (Chance.stream C (ω, k)) c) = iid κ := by
    rw [← lW, ← Chance.stream_law C k, Measure.map_map mW (Chance.stream_measurable C k)]
    rfl
  have mc : ∀ c, Measurable fun ω => W (Chance.stream C (ω, k)) c := fun c => (measurable_pi_apply c).comp mV
  have lc : ∀ c, P.map (fun ω => W (Chance.stream C (ω, k)) c) = unif := by
    intro c
    have : P.map (fun ω => W (Chance.stream C (ω, k)) c) = (P.map fun ω c => W (Chance.stream C (ω, k)) c).map fun w => w c := by
      rw [Measure.map_map (measurable_pi_apply c) mV]
      rfl
    rw [this, law]
    exact Measure.infinitePi_map_eval (μ := fun _ : κ => unif) c
  refine ⟨fun c ω => W (Chance.stream C (ω, k)) c, mc, ?_, lc, fun ω => ⟨_, hW ω k⟩⟩
  rw [iIndepFun_iff_map_fun_eq_infinitePi_map mc, law]
  unfold iid
  congr 1
  funext c
  exact (lc c).symm

end Verif.Lemmas
