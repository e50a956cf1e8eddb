import Verif.Model.Chance

/-!
# Distributions of the results of programs

A program takes numbers from a stream of independent letters; a letter has a uniform number, a normal number and a uniform number for
shuffles. `Refines` says which distribution the result has, and that the rest of the stream is fresh.
-/

namespace Verif.Lemmas
open Verif.Py Verif.Model MeasureTheory ProbabilityTheory

/-- The numbers of a letter. -/
inductive NumKind where
  | u | z | s

/-- Their distributions. -/
noncomputable def NumKind.law : NumKind → Measure ℝ
  | .u => volume.restrict (Set.Ico (0 : ℝ) 1)
  | .z => gaussianReal 0 1
  | .s => volume.restrict (Set.Ico (0 : ℝ) 1)

instance (i : NumKind) : IsProbabilityMeasure i.law := by
  cases i with
  | u => exact ⟨by simp [NumKind.law]⟩
  | z => exact inferInstanceAs (IsProbabilityMeasure (gaussianReal 0 1))
  | s => exact ⟨by simp [NumKind.law]⟩

abbrev Letter := NumKind → ℝ

noncomputable def letterLaw : Measure Letter := Measure.infinitePi NumKind.law

instance : IsProbabilityMeasure letterLaw := by unfold letterLaw; infer_instance

abbrev Letters := ℕ → Letter

noncomputable def lettersLaw : Measure Letters := Measure.infinitePi fun _ : ℕ => letterLaw

instance : IsProbabilityMeasure lettersLaw := by unfold lettersLaw; infer_instance

/-- `N` letters and the rest. -/
theorem letters_split (N : ℕ) : lettersLaw.map (fun s => (fun i : Fin N => s i, fun j => s (N + j))) =
    (Measure.pi fun _ : Fin N => letterLaw).prod lettersLaw := by
  have hs : Function.Injective (Sum.elim (fun i : Fin N => (i : ℕ)) fun j => N + j) := by
    rintro (a | a) (b | b) hab
    · exact congrArg _ (Fin.ext hab)
    · have := a.2; simp only [Sum.elim_inl, Sum.elim_inr] at hab; omega
    · have := b.2; simp only [Sum.elim_inl, Sum.elim_inr] at hab; omega
    · exact congrArg _ (Nat.add_left_cancel hab)
  have hp := Measure.map_infinitePi_infinitePi_of_inj (P := fun _ : ℕ => letterLaw) hs
  have hm : Measurable fun p : (Fin N → Letter) × Letters => (Sum.elim p.1 p.2 : Fin N ⊕ ℕ → Letter) := by
    refine measurable_pi_iff.2 fun c => ?_
    cases c with
    | inl i => exact (measurable_pi_apply i).comp measurable_fst
    | inr i => exact (measurable_pi_apply i).comp measurable_snd
  have hsum : ((Measure.pi fun _ : Fin N => letterLaw).prod lettersLaw).map (fun p => Sum.elim p.1 p.2) =
      Measure.infinitePi fun _ : Fin N ⊕ ℕ => letterLaw := by
    refine Measure.eq_infinitePi _ fun s t ht => ?_
    classical
    rw [Measure.map_apply hm (.pi s.countable_toSet fun i _ => ht i)]
    have e : (fun p : (Fin N → Letter) × Letters => (Sum.elim p.1 p.2 : Fin N ⊕ ℕ → Letter)) ⁻¹' Set.pi s t =
        Set.pi (s.toLeft : Set (Fin N)) (fun i => t (.inl i)) ×ˢ Set.pi (s.toRight : Set ℕ) fun i => t (.inr i) := by
      ext p
      simp only [Set.mem_preimage, Set.mem_pi, Set.mem_prod, Finset.mem_coe, Finset.mem_toLeft, Finset.mem_toRight]
      constructor
      · intro h
        exact ⟨fun i hi => h (.inl i) hi, fun i hi => h (.inr i) hi⟩
      · rintro ⟨h1, h2⟩ (i | i) hi
        · exact h1 i hi
        · exact h2 i hi
    rw [e, Measure.prod_prod, ← Measure.infinitePi_eq_pi, lettersLaw, Measure.infinitePi_pi _ fun i _ => ht _, Measure.infinitePi_pi _ fun i _ => ht _]
    conv_rhs => rw [← Finset.toLeft_disjSum_toRight (u := s), Finset.prod_disjSum]
  have hback : (Measure.infinitePi fun _ : Fin N ⊕ ℕ => letterLaw).map (fun w => (fun i : Fin N => w (.inl i), fun j : ℕ => w (.inr j))) =
      (Measure.pi fun _ : Fin N => letterLaw).prod lettersLaw := by
    rw [← hsum, Measure.map_map (by fun_prop) hm]
    exact Measure.map_id
  rw [← hback, ← hp, Measure.map_map (by fun_prop) (by fun_prop)]
  rfl

variable {G Θ X Y Z α β γ : Type} [MeasurableSpace Θ] [MeasurableSpace X] [MeasurableSpace Y] [MeasurableSpace Z]

/-- For inputs described by `θ` (relation `r`), the result of `m` is described (relation `r'`) by a random element with the distribution
`K θ`, and the rest of the stream is fresh. -/
def Refines (str : G → Letters) (r : Θ → α → Prop) (m : α → Rand G β) (r' : X → β → Prop) (K : Θ → Measure X) : Prop :=
  ∃ F : Θ → Letters → X × Letters, (Measurable fun p : Θ × Letters => F p.1 p.2) ∧ (∀ θ, lettersLaw.map (F θ) = (K θ).prod lettersLaw) ∧
    (∀ θ, IsProbabilityMeasure (K θ)) ∧
    ∀ θ a g, r θ a → ∃ b g', m a g = .ok (b, g') ∧ r' (F θ (str g)).1 b ∧ str g' = (F θ (str g)).2

variable {str : G → Letters} {r : Θ → α → Prop} {m : α → Rand G β} {r' : X → β → Prop} {K : Θ → Measure X}

theorem Refines.prob (h : Refines str r m r' K) (θ : Θ) : IsProbabilityMeasure (K θ) := by
  obtain ⟨F, -, -, hp, -⟩ := h
  exact hp θ

theorem law_fst {F : Θ → Letters → X × Letters} (hF : Measurable fun p : Θ × Letters => F p.1 p.2)
    (hl : ∀ θ, lettersLaw.map (F θ) = (K θ).prod lettersLaw) (θ : Θ) {B : Set X} (hB : MeasurableSet B) :
    K θ B = lettersLaw {s | (F θ s).1 ∈ B} := by
  have m1 : Measurable (F θ) := hF.comp (measurable_const.prodMk measurable_id)
  have h := congrArg (fun μ => μ (B ×ˢ Set.univ)) (hl θ)
  simp only [Measure.prod_prod, measure_univ, mul_one] at h
  rw [← h, Measure.map_apply m1 (hB.prod .univ)]
  congr 1
  ext s
  simp

theorem Refines.measurable (h : Refines str r m r' K) : Measurable K := by
  obtain ⟨F, hF, hl, -, -⟩ := h
  refine Measure.measurable_of_measurable_coe _ fun B hB => ?_
  simp only [law_fst hF hl _ hB]
  exact measurable_measure_prodMk_left (ν := lettersLaw) ((measurable_fst.comp hF) hB)

/-- A program without randomness. -/
theorem Refines.pure' (φ : Θ → X) (hφ : Measurable φ) (f : α → β) (h : ∀ θ a, r θ a → r' (φ θ) (f a)) :
    Refines (G := G) str r (fun a => pure (f a)) r' fun θ => Measure.dirac (φ θ) := by
  refine ⟨fun θ s => (φ θ, s), by fun_prop, fun θ => ?_, fun θ => inferInstance, fun θ a g hr => ⟨_, g, rfl, h θ a hr, rfl⟩⟩
  rw [Measure.dirac_prod]

/-- A program that takes `N` letters. -/
theorem Refines.draw (N : ℕ) (φ : Θ → (Fin N → Letter) → X) (hφ : Measurable fun p : Θ × (Fin N → Letter) => φ p.1 p.2)
    (h : ∀ θ a g, r θ a → ∃ b g', m a g = .ok (b, g') ∧ r' (φ θ fun i => str g i) b ∧ str g' = fun j => str g (N + j)) :
    Refines str r m r' fun θ => (Measure.pi fun _ : Fin N => letterLaw).map (φ θ) := by
  have mθ : ∀ θ, Measurable (φ θ) := fun θ => hφ.comp (measurable_const.prodMk measurable_id)
  refine ⟨fun θ s => (φ θ fun i => s i, fun j => s (N + j)), ?_, fun θ => ?_, fun θ => Measure.isProbabilityMeasure_map (mθ θ).aemeasurable, h⟩
  · refine Measurable.prodMk (hφ.comp (measurable_fst.prodMk ?_)) ?_ <;> fun_prop
  · have e : (fun s : Letters => (φ θ fun i : Fin N => s i, fun j => s (N + j))) =
        Prod.map (φ θ) id ∘ fun s : Letters => (fun i : Fin N => s i, fun j => s (N + j)) := rfl
    show lettersLaw.map (fun s : Letters => (φ θ fun i : Fin N => s i, fun j => s (N + j))) = ((Measure.pi fun _ : Fin N => letterLaw).map (φ θ)).prod lettersLaw
    rw [e, ← Measure.map_map ((mθ θ).prodMap measurable_id) (by fun_prop), letters_split, ← Measure.map_prod_map _ _ (mθ θ) measurable_id, Measure.map_id]

/-- One program after another. -/
theorem Refines.bind {k : α → β → Rand G γ} {r'' : Y → γ → Prop} {L : Θ × X → Measure Y} (h1 : Refines str r m r' K)
    (h2 : Refines str (fun (p : Θ × X) (a : α × β) => r p.1 a.1 ∧ r' p.2 a.2) (fun a => k a.1 a.2) r'' L) :
    Refines str r (fun a => m a >>= k a) r'' fun θ => (K θ).bind fun x => L (θ, x) := by
  have mL := h2.measurable
  have pL := h2.prob
  have pK := h1.prob
  obtain ⟨F, hF, hl, -, hr⟩ := h1
  obtain ⟨F', hF', hl', -, hr'⟩ := h2
  have mF : ∀ θ, Measurable (F θ) := fun θ => hF.comp (measurable_const.prodMk measurable_id)
  have mF' : ∀ θ, Measurable (F' θ) := fun θ => hF'.comp (measurable_const.prodMk measurable_id)
  have mLθ : ∀ θ, Measurable fun x => L (θ, x) := fun θ => mL.comp (measurable_const.prodMk measurable_id)
  have pB : ∀ θ, IsProbabilityMeasure ((K θ).bind fun x => L (θ, x)) := fun θ => ⟨by
    rw [Measure.bind_apply .univ (mLθ θ).aemeasurable]
    simp⟩
  refine ⟨fun θ s => F' (θ, (F θ s).1) (F θ s).2, ?_, fun θ => ?_, pB, fun θ a g hra => ?_⟩
  · exact hF'.comp ((measurable_fst.prodMk (measurable_fst.comp hF)).prodMk (measurable_snd.comp hF))
  · have mG : Measurable fun p : X × Letters => F' (θ, p.1) p.2 := hF'.comp ((measurable_const.prodMk measurable_fst).prodMk measurable_snd)
    have e : (fun s => F' (θ, (F θ s).1) (F θ s).2) = (fun p : X × Letters => F' (θ, p.1) p.2) ∘ F θ := rfl
    show lettersLaw.map (fun s => F' (θ, (F θ s).1) (F θ s).2) = ((K θ).bind fun x => L (θ, x)).prod lettersLaw
    rw [e, ← Measure.map_map mG (mF θ), hl]
    ext S hS
    rw [Measure.map_apply mG hS, Measure.prod_apply (mG hS), Measure.prod_apply hS,
      Measure.lintegral_bind (mLθ θ).aemeasurable (measurable_measure_prodMk_left hS).aemeasurable]
    refine lintegral_congr fun x => ?_
    have := hl' (θ, x)
    rw [← Measure.prod_apply hS, ← this, Measure.map_apply (mF' _) hS]
    rfl
  · obtain ⟨b, g1, e1, e2, e3⟩ := hr θ a g hra
    obtain ⟨c, g2, e4, e5, e6⟩ := hr' (θ, (F θ (str g)).1) (a, b) g1 ⟨hra, e2⟩
    rw [e3] at e5 e6
    exact ⟨c, g2, Rand.bind_ok.2 ⟨b, g1, e1, e4⟩, e5, e6⟩

theorem Refines.congr {m' : α → Rand G β} (h : Refines str r m r' K) (hm : ∀ θ a, r θ a → m a = m' a) : Refines str r m' r' K := by
  obtain ⟨F, hF, hl, hp, hr⟩ := h
  exact ⟨F, hF, hl, hp, fun θ a g hra => by rw [← hm θ a hra]; exact hr θ a g hra⟩

/-- Inputs that are described by others. -/
theorem Refines.comp {Θ' α' : Type} [MeasurableSpace Θ'] {q : Θ' → α' → Prop} (h : Refines str r m r' K) {f : Θ' → Θ} (hf : Measurable f) (φ : α' → α)
    (hq : ∀ θ a, q θ a → r (f θ) (φ a)) : Refines str q (fun a => m (φ a)) r' fun θ => K (f θ) := by
  obtain ⟨F, hF, hl, hp, hr⟩ := h
  exact ⟨fun θ => F (f θ), hF.comp ((hf.comp measurable_fst).prodMk measurable_snd), fun θ => hl _, fun θ => hp _, fun θ a g hqa => hr _ _ g (hq θ a hqa)⟩

/-- Results that describe others. -/
theorem Refines.map {q : Y → γ → Prop} (h : Refines str r m r' K) {f : X → Y} (hf : Measurable f) (φ : β → γ) (hq : ∀ x b, r' x b → q (f x) (φ b)) :
    Refines str r (fun a => m a >>= fun b => pure (φ b)) q fun θ => (K θ).map f := by
  obtain ⟨F, hF, hl, hp, hr⟩ := h
  have mF : ∀ θ, Measurable (F θ) := fun θ => hF.comp (measurable_const.prodMk measurable_id)
  refine ⟨fun θ s => (f (F θ s).1, (F θ s).2), ?_, fun θ => ?_, fun θ => Measure.isProbabilityMeasure_map hf.aemeasurable, fun θ a g hra => ?_⟩
  · exact (hf.comp (measurable_fst.comp hF)).prodMk (measurable_snd.comp hF)
  · have e : (fun s => (f (F θ s).1, (F θ s).2)) = Prod.map f id ∘ F θ := rfl
    show lettersLaw.map (fun s => (f (F θ s).1, (F θ s).2)) = ((K θ).map f).prod lettersLaw
    rw [e, ← Measure.map_map (hf.prodMap measurable_id) (mF θ), hl, ← Measure.map_prod_map _ _ hf measurable_id, Measure.map_id]
  · obtain ⟨b, g', e1, e2, e3⟩ := hr θ a g hra
    exact ⟨_, g', Rand.bind_ok.2 ⟨b, g', e1, rfl⟩, hq _ _ e2, e3⟩

open Classical in
/-- A case distinction. -/
theorem Refines.ite {m' : α → Rand G β} {K' : Θ → Measure X} {S : Set Θ} (hS : MeasurableSet S) (h1 : Refines str (fun θ a => r θ a ∧ θ ∈ S) m r' K)
    (h2 : Refines str (fun θ a => r θ a ∧ θ ∉ S) m' r' K') {m'' : α → Rand G β} (e1 : ∀ θ a, r θ a → θ ∈ S → m'' a = m a)
    (e2 : ∀ θ a, r θ a → θ ∉ S → m'' a = m' a) : Refines str r m'' r' fun θ => if θ ∈ S then K θ else K' θ := by
  obtain ⟨F, hF, hl, hp, hr⟩ := h1
  obtain ⟨F', hF', hl', hp', hr'⟩ := h2
  refine ⟨fun θ s => if θ ∈ S then F θ s else F' θ s, ?_, fun θ => ?_, fun θ => ?_, fun θ a g hra => ?_⟩
  · exact Measurable.ite (measurable_fst hS) hF hF'
  · by_cases h : θ ∈ S
    · simp only [if_pos h, hl]
    · simp only [if_neg h, hl']
  · by_cases h : θ ∈ S
    · simp only [if_pos h, hp]
    · simp only [if_neg h, hp']
  · by_cases h : θ ∈ S
    · simp only [if_pos h]
      rw [e1 θ a hra h]
      exact hr θ a g ⟨hra, h⟩
    · simp only [if_neg h]
      rw [e2 θ a hra h]
      exact hr' θ a g ⟨hra, h⟩

/-! ### Symmetries -/

/-- If the two steps commute with a symmetry, so does their composition. -/
theorem bind_symm {μ μ' : Measure X} {L L' : X → Measure Y} (mL : Measurable L) (mL' : Measurable L') {b : X → X} (hb : Measurable b) {c : Y → Y} (hc : Measurable c)
    (h1 : μ' = μ.map b) (h2 : ∀ x, L' (b x) = (L x).map c) : μ'.bind L' = (μ.bind L).map c := by
  ext S hS
  rw [h1, Measure.bind_apply hS mL'.aemeasurable, Measure.map_apply hc hS, Measure.bind_apply (hc hS) mL.aemeasurable,
    lintegral_map (f := fun x => L' x S) ((Measure.measurable_coe hS).comp mL') hb]
  refine lintegral_congr fun x => ?_
  rw [h2, Measure.map_apply hc hS]

/-! ### Random variables -/

variable {Ω : Type} [MeasurableSpace Ω] {P : Measure Ω}

/-- The letters from the `k`-th on. -/
def letters (C : Chance Ω P) (g : Ω × ℕ) : Letters := fun j i => match i with
  | .u => C.u (g.2 + j) g.1
  | .z => C.z (g.2 + j) g.1
  | .s => C.s (g.2 + j) g.1

/-- Where the numbers of a letter are. -/
def NumKind.idx (k : ℕ) (p : ℕ × NumKind) : ChanceIdx := match p.2 with
  | .u => .u (k + p.1)
  | .z => .z (k + p.1)
  | .s => .s (k + p.1)

theorem letters_measurable (C : Chance Ω P) (k : ℕ) : Measurable fun ω => letters C (ω, k) := by
  refine measurable_pi_iff.2 fun j => measurable_pi_iff.2 fun i => ?_
  cases i with
  | u => exact C.u_measurable (k + j)
  | z => exact C.z_measurable (k + j)
  | s => exact C.s_measurable (k + j)

theorem letters_law (C : Chance Ω P) (k : ℕ) : P.map (fun ω => letters C (ω, k)) = lettersLaw := by
  have := C.indep.isProbabilityMeasure
  have hi : Function.Injective (NumKind.idx k) := by
    rintro ⟨a, i⟩ ⟨b, j⟩ h
    cases i <;> cases j <;> simp only [NumKind.idx] at h <;> first | (injection h with h; have := Nat.add_left_cancel h; subst this; rfl) | cases h
  have h := C.indep.precomp hi
  have hm : ∀ p : ℕ × NumKind, Measurable fun ω => letters C (ω, k) p.1 p.2 := fun p => by
    obtain ⟨j, i⟩ := p
    cases i with
    | u => exact C.u_measurable (k + j)
    | z => exact C.z_measurable (k + j)
    | s => exact C.s_measurable (k + j)
  have h' : iIndepFun (fun (p : ℕ × NumKind) ω => letters C (ω, k) p.1 p.2) P := by
    convert h using 2 with p
    obtain ⟨j, i⟩ := p
    cases i <;> rfl
  have law : P.map (fun ω (p : ℕ × NumKind) => letters C (ω, k) p.1 p.2) = Measure.infinitePi fun p : ℕ × NumKind => p.2.law := by
    rw [h'.map_fun_eq_infinitePi_map hm]
    congr 1
    funext p
    obtain ⟨j, i⟩ := p
    cases i with
    | u => exact C.u_law (k + j)
    | z => exact C.z_law (k + j)
    | s => exact C.s_law (k + j)
  have hc := Measure.infinitePi_map_curry (μ := fun (_ : ℕ) (i : NumKind) => i.law)
  unfold lettersLaw letterLaw
  rw [← hc, ← law, Measure.map_map (MeasurableEquiv.measurable _) (measurable_pi_iff.2 hm)]
  rfl

/-- The result as a random element. -/
theorem Refines.random {m : α → Rand (Ω × ℕ) β} (C : Chance Ω P) (k : ℕ) (h : Refines (letters C) r m r' K) {θ : Θ} {a : α} (hr : r θ a) :
    ∃ V : Ω → X, Measurable V ∧ P.map V = K θ ∧ ∀ ω, ∃ b g', m a (ω, k) = .ok (b, g') ∧ r' (V ω) b := by
  obtain ⟨F, hF, hl, -, hr'⟩ := h
  have mF : Measurable (F θ) := hF.comp (measurable_const.prodMk measurable_id)
  refine ⟨fun ω => (F θ (letters C (ω, k))).1, measurable_fst.comp (mF.comp (letters_measurable C k)), ?_, fun ω => ?_⟩
  · have e : (fun ω => (F θ (letters C (ω, k))).1) = Prod.fst ∘ F θ ∘ fun ω => letters C (ω, k) := rfl
    rw [e, ← Measure.map_map measurable_fst (mF.comp (letters_measurable C k)), ← Measure.map_map mF (letters_measurable C k), letters_law, hl, Measure.map_fst_prod]
    simp
  · obtain ⟨b, g', e1, e2, -⟩ := hr' θ a (ω, k) hr
    exact ⟨b, g', e1, e2⟩

end Verif.Lemmas
