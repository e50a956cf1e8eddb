import Verif.Props.Ambiguity

/-!
# C141: the default distribution reaches every admissible set of labels

By default random labels are drawn from the bolstered distribution. Its values are not independent (they are shuffled) and may leave the limits,
so that C124 and C129 do not speak about it. Here the random numbers are steered: if the next numbers lie in suitable sets, all of positive
probability, then all rows of the table are close to a given set of labels.
-/

namespace Verif.Props
open Verif.Py Verif.Model Verif.Spec Verif.Lemmas MeasureTheory ProbabilityTheory

variable {Ω : Type} [MeasurableSpace Ω] {P : Measure Ω}

/-! ### Steered computations -/

/-- There are sets of positive probability such that, if the next `N` uniform and normal numbers are in these sets, the computation uses `N` numbers
and its result has the property `Q`. The sets are the same for all parameters `θ` of the domain `D`. -/
def Steered (C : Chance Ω P) {Θ α : Type} (D : Θ → Prop) (m : Θ → Rand (Ω × ℕ) α) (Q : Θ → α → Prop) : Prop :=
  ∃ (N : ℕ) (U Z : ℕ → Set ℝ),
    (∀ j, MeasurableSet (U j) ∧ 0 < volume.restrict (Set.Ico (0 : ℝ) 1) (U j)) ∧ (∀ j, MeasurableSet (Z j) ∧ 0 < gaussianReal 0 1 (Z j)) ∧
    ∀ θ, D θ → ∀ ω k, (∀ j < N, C.u (k + j) ω ∈ U j ∧ C.z (k + j) ω ∈ Z j) → ∃ a, m θ (ω, k) = .ok (a, (ω, k + N)) ∧ Q θ a

theorem univ_unif : MeasurableSet (Set.univ : Set ℝ) ∧ 0 < volume.restrict (Set.Ico (0 : ℝ) 1) (Set.univ : Set ℝ) := ⟨MeasurableSet.univ, by simp⟩

theorem univ_gauss : MeasurableSet (Set.univ : Set ℝ) ∧ 0 < gaussianReal 0 1 (Set.univ : Set ℝ) := ⟨MeasurableSet.univ, by simp⟩

namespace Steered
variable {C : Chance Ω P} {Θ Θ' α β : Type} {D : Θ → Prop} {m : Θ → Rand (Ω × ℕ) α} {Q : Θ → α → Prop}

theorem pure' {f : Θ → α} (h : ∀ θ, D θ → Q θ (f θ)) : Steered C D (fun θ => pure (f θ)) Q :=
  ⟨0, fun _ => Set.univ, fun _ => Set.univ, fun _ => univ_unif, fun _ => univ_gauss, fun θ hθ _ _ _ => ⟨f θ, rfl, h θ hθ⟩⟩

theorem mono (h : Steered C D m Q) {m' : Θ → Rand (Ω × ℕ) α} {Q' : Θ → α → Prop} (hm : ∀ θ, D θ → m' θ = m θ) (hQ : ∀ θ a, D θ → Q θ a → Q' θ a) :
    Steered C D m' Q' := by
  obtain ⟨N, U, Z, hU, hZ, h⟩ := h
  refine ⟨N, U, Z, hU, hZ, fun θ hθ ω k hk => ?_⟩
  obtain ⟨a, h1, h2⟩ := h θ hθ ω k hk
  exact ⟨a, by rw [hm θ hθ]; exact h1, hQ θ a hθ h2⟩

theorem comp (h : Steered C D m Q) {D' : Θ' → Prop} (f : Θ' → Θ) (hf : ∀ θ, D' θ → D (f θ)) :
    Steered C D' (fun θ => m (f θ)) (fun θ => Q (f θ)) := by
  obtain ⟨N, U, Z, hU, hZ, h⟩ := h
  exact ⟨N, U, Z, hU, hZ, fun θ hθ => h (f θ) (hf θ hθ)⟩

theorem bind (h : Steered C D m Q) {f : Θ → α → Rand (Ω × ℕ) β} {R : Θ → β → Prop}
    (hf : Steered C (fun p : Θ × α => D p.1 ∧ Q p.1 p.2) (fun p => f p.1 p.2) (fun p b => R p.1 b)) : Steered C D (fun θ => m θ >>= f θ) R := by
  obtain ⟨N, U, Z, hU, hZ, h⟩ := h
  obtain ⟨N', U', Z', hU', hZ', h'⟩ := hf
  refine ⟨N + N', fun j => if j < N then U j else U' (j - N), fun j => if j < N then Z j else Z' (j - N), fun j => ?_, fun j => ?_,
    fun θ hθ ω k hk => ?_⟩
  · simp only
    split_ifs
    exacts [hU j, hU' _]
  · simp only
    split_ifs
    exacts [hZ j, hZ' _]
  · obtain ⟨a, h1, h2⟩ := h θ hθ ω k fun j hj => by
      have := hk j (by omega)
      simpa only [if_pos hj] using this
    obtain ⟨b, h3, h4⟩ := h' (θ, a) ⟨hθ, h2⟩ ω (k + N) fun j hj => by
      have := hk (N + j) (by omega)
      simp only at this
      rw [if_neg (by omega), if_neg (by omega), Nat.add_sub_cancel_left] at this
      rwa [← Nat.add_assoc] at this
    refine ⟨b, Rand.bind_ok.2 ⟨a, _, h1, ?_⟩, h4⟩
    have h3 : f θ a (ω, k + N) = .ok (b, (ω, k + N + N')) := h3
    rw [h3, Nat.add_assoc]

theorem map (h : Steered C D m Q) (f : Θ → α → β) {R : Θ → β → Prop} (hf : ∀ θ a, D θ → Q θ a → R θ (f θ a)) :
    Steered C D (fun θ => m θ >>= fun a => pure (f θ a)) R :=
  h.bind (pure' fun p hp => hf p.1 p.2 hp.1 hp.2)

/-- A steered computation has a result with the property with positive probability. -/
theorem pos {m : Rand (Ω × ℕ) α} {Q : α → Prop} (h : Steered C (fun _ : Unit => True) (fun _ => m) (fun _ => Q)) (k : ℕ) :
    0 < P {ω | ∃ a g', m (ω, k) = .ok (a, g') ∧ Q a} := by
  classical
  obtain ⟨N, U, Z, hU, hZ, h⟩ := h
  set B : ChanceIdx → Set ℝ := fun i => match i with
    | .u j => U (j - k)
    | .z j => Z (j - k)
    | _ => Set.univ with hB
  set S : Finset ChanceIdx := (Finset.range N).image (fun j => ChanceIdx.u (k + j)) ∪ (Finset.range N).image (fun j => ChanceIdx.z (k + j)) with hS
  have mB : ∀ i, MeasurableSet (B i) := by
    intro i
    cases i
    exacts [(hU _).1, (hZ _).1, MeasurableSet.univ, MeasurableSet.univ]
  set X : ChanceIdx → Ω → ℝ := fun i ω => match i with
    | .u k => C.u k ω
    | .z k => C.z k ω
    | .s k => C.s k ω
    | .pois k r => (C.pois k r ω : ℝ) with hX
  have hind : iIndepFun X P := C.indep
  have hprod := hind.measure_inter_preimage_eq_mul S (sets := B) (fun i _ => mB i)
  refine lt_of_lt_of_le ?_ (measure_mono (s := ⋂ i ∈ S, X i ⁻¹' B i) ?_)
  · rw [pos_iff_ne_zero]
    rw [hprod]
    refine (Finset.prod_ne_zero_iff.2 fun i hi => ?_)
    rw [hS, Finset.mem_union, Finset.mem_image, Finset.mem_image] at hi
    rcases hi with ⟨j, -, rfl⟩ | ⟨j, -, rfl⟩
    · have := (hU (k + j - k)).2
      rw [← C.u_law (k + j), Measure.map_apply (C.u_measurable _) (hU _).1] at this
      exact this.ne'
    · have := (hZ (k + j - k)).2
      rw [← C.z_law (k + j), Measure.map_apply (C.z_measurable _) (hZ _).1] at this
      exact this.ne'
  · intro ω hω
    have hω := Set.mem_iInter₂.1 hω
    obtain ⟨a, h1, h2⟩ := h () trivial ω k fun j hj => by
      have e1 := hω (.u (k + j)) (by rw [hS]; exact Finset.mem_union_left _ (Finset.mem_image.2 ⟨j, Finset.mem_range.2 hj, rfl⟩))
      have e2 := hω (.z (k + j)) (by rw [hS]; exact Finset.mem_union_right _ (Finset.mem_image.2 ⟨j, Finset.mem_range.2 hj, rfl⟩))
      simp only [hB, hX, Set.mem_preimage, Nat.add_sub_cancel_left] at e1 e2
      exact ⟨e1, e2⟩
    exact ⟨a, _, h1, h2⟩

end Steered

/-! ### One column -/

/-- The set `I` between the limits can be reached by uniform numbers, and by normal numbers around both limits. -/
structure Target (a b w : ℝ) (I : Set ℝ) : Prop where
  within : ∀ x ∈ I, a ≤ x ∧ x ≤ b
  uniform : MeasurableSet {v | a + (b - a) * v ∈ I} ∧ 0 < volume.restrict (Set.Ico (0 : ℝ) 1) {v | a + (b - a) * v ∈ I}
  lower : MeasurableSet {z | a + (b - a) * w * z ∈ I} ∧ 0 < gaussianReal 0 1 {z | a + (b - a) * w * z ∈ I}
  upper : MeasurableSet {z | b + (b - a) * w * z ∈ I} ∧ 0 < gaussianReal 0 1 {z | b + (b - a) * w * z ∈ I}

theorem gauss_open {s : Set ℝ} (hs : IsOpen s) (hn : s.Nonempty) : 0 < gaussianReal 0 1 s := by
  rw [pos_iff_ne_zero]
  intro h
  exact (hs.measure_pos volume hn).ne' (gaussianReal_absolutelyContinuous' 0 (one_ne_zero) h)

theorem target_interval {a b w c d : ℝ} (hw : 0 < w) (h1 : a ≤ c) (h2 : c < d) (h3 : d ≤ b) : Target a b w (Set.Ioo c d) := by
  have hab : 0 < b - a := by linarith
  have hs : 0 < (b - a) * w := mul_pos hab hw
  have hopen : ∀ x y : ℝ, IsOpen {z : ℝ | x + y * z ∈ Set.Ioo c d} := fun x y => isOpen_Ioo.preimage (by fun_prop)
  have hne : ∀ x y : ℝ, 0 < y → Set.Nonempty {z : ℝ | x + y * z ∈ Set.Ioo c d} := by
    intro x y hy
    refine ⟨((c + d) / 2 - x) / y, ?_⟩
    show x + y * (((c + d) / 2 - x) / y) ∈ Set.Ioo c d
    rw [mul_div_cancel₀ _ hy.ne']
    constructor <;> linarith
  refine ⟨fun x hx => ⟨h1.trans hx.1.le, hx.2.le.trans h3⟩, ⟨(hopen _ _).measurableSet, ?_⟩, ⟨(hopen _ _).measurableSet, gauss_open (hopen _ _) (hne _ _ hs)⟩,
    ⟨(hopen _ _).measurableSet, gauss_open (hopen _ _) (hne _ _ hs)⟩⟩
  rw [Measure.restrict_apply' measurableSet_Ico]
  refine lt_of_lt_of_le ?_ (measure_mono (s := Set.Ioo ((c - a) / (b - a)) ((d - a) / (b - a))) ?_)
  · rw [Real.volume_Ioo, ENNReal.ofReal_pos, sub_pos]
    exact div_lt_div_of_pos_right (by linarith) hab
  · rintro x ⟨e1, e2⟩
    rw [div_lt_iff₀ hab] at e1
    rw [lt_div_iff₀ hab] at e2
    refine ⟨⟨by linarith, by linarith⟩, ?_, ?_⟩
    · by_contra hc
      push Not at hc
      nlinarith
    · by_contra hc
      push Not at hc
      nlinarith

theorem target_point (a w : ℝ) : Target a a w {a} := by
  have e : ∀ y : ℝ, {z : ℝ | a + (a - a) * w * z ∈ ({a} : Set ℝ)} = Set.univ := by
    intro y
    ext z
    simp
  have e' : {z : ℝ | a + (a - a) * z ∈ ({a} : Set ℝ)} = Set.univ := by
    ext z
    simp
  refine ⟨fun x hx => ?_, by rw [e']; exact univ_unif, by rw [e a]; exact univ_gauss, by rw [e a]; exact univ_gauss⟩
  rw [Set.mem_singleton_iff.1 hx]
  exact ⟨le_refl _, le_refl _⟩

/-- All elements of the set are on one side of `e`. -/
def OneSide (I : Set ℝ) (e : ℝ) : Prop := ((∀ x ∈ I, x < e) ∨ ∀ x ∈ I, e ≤ x) ∧ ((∀ x ∈ I, x ≤ e) ∨ ∀ x ∈ I, e < x)

theorem split_interval {c d : ℝ} (h : c < d) (e : ℝ) : ∃ c' d', c ≤ c' ∧ c' < d' ∧ d' ≤ d ∧ OneSide (Set.Ioo c' d') e := by
  rcases lt_or_ge e ((c + d) / 2) with he | he
  · refine ⟨(c + d) / 2, d, by linarith, by linarith, le_refl _, Or.inr fun x hx => ?_, Or.inr fun x hx => ?_⟩
    · linarith [hx.1]
    · linarith [hx.1]
  · refine ⟨c, (c + d) / 2, le_refl _, by linarith, by linarith, Or.inl fun x hx => ?_, Or.inl fun x hx => ?_⟩
    · linarith [hx.2]
    · linarith [hx.2]

theorem OneSide.mono {I J : Set ℝ} {e : ℝ} (h : OneSide I e) (hJ : J ⊆ I) : OneSide J e :=
  ⟨h.1.imp (fun h x hx => h x (hJ hx)) fun h x hx => h x (hJ hx), h.2.imp (fun h x hx => h x (hJ hx)) fun h x hx => h x (hJ hx)⟩

theorem oneSide_point (a e : ℝ) : OneSide {a} e := by
  constructor
  · rcases lt_or_ge a e with h | h
    · exact Or.inl fun x hx => by rw [Set.mem_singleton_iff.1 hx]; exact h
    · exact Or.inr fun x hx => by rw [Set.mem_singleton_iff.1 hx]; exact h
  · rcases le_or_gt a e with h | h
    · exact Or.inl fun x hx => by rw [Set.mem_singleton_iff.1 hx]; exact h
    · exact Or.inr fun x hx => by rw [Set.mem_singleton_iff.1 hx]; exact h

/-- Every value between the limits has a target nearby, on one side of two given numbers. -/
theorem target_near {a b w y δ : ℝ} (hw : 0 < w) (h1 : a ≤ y) (h2 : y ≤ b) (hδ : 0 < δ) (e e' : ℝ) :
    ∃ I, Target a b w I ∧ (∀ x ∈ I, |x - y| < δ) ∧ OneSide I e ∧ OneSide I e' := by
  rcases eq_or_lt_of_le (h1.trans h2) with hab | hab
  · subst hab
    obtain rfl := le_antisymm h1 h2
    refine ⟨{a}, target_point a w, fun x hx => ?_, oneSide_point _ _, oneSide_point _ _⟩
    rw [Set.mem_singleton_iff.1 hx, sub_self, abs_zero]
    exact hδ
  · have hlt : max a (y - δ) < min b (y + δ) := by
      rw [max_lt_iff, lt_min_iff, lt_min_iff]
      refine ⟨⟨hab, ?_⟩, ?_, ?_⟩ <;> linarith
    obtain ⟨c1, d1, i1, i2, i3, o1⟩ := split_interval hlt e
    obtain ⟨c2, d2, j1, j2, j3, o2⟩ := split_interval i2 e'
    have k1 := (max_le_iff.1 (i1.trans j1))
    have k2 := (le_min_iff.1 (j3.trans i3))
    refine ⟨Set.Ioo c2 d2, target_interval hw k1.1 j2 k2.1, fun x hx => ?_, o1.mono (Set.Ioo_subset_Ioo j1 j3), o2⟩
    rw [abs_lt]
    constructor <;> linarith [hx.1, hx.2, k1.2, k2.2]

theorem drawNormal_of_nonneg {G : Type} (rng : Rng G) (m : ℝ) {s : ℝ} (hs : 0 ≤ s) (n : ℕ) (g : G) :
    drawNormal rng m s (n : Int) g = .ok ((rng.normal m s n g).1, (rng.normal m s n g).2) := by
  unfold drawNormal
  rw [if_neg (by simp only [not_or]; exact ⟨by omega, not_lt.2 hs⟩)]
  rfl

/-- The settings: bolstered with fraction `f` and width `w`. -/
def bolsteredArgs (f w : ℝ) : DistArgs := ⟨.bolstered, some f, some w⟩

theorem bolstered_steered (C : Chance Ω P) {Θ : Type} (D : Θ → Prop) {a b f w : ℝ} (hf : 0 ≤ f) (hf1 : f ≤ 1) (hw : 0 < w) (hab : a ≤ b) (n : ℕ) {I : Set ℝ}
    (hI : Target a b w I) : Steered C D (fun _ => sampleDistribution C.rng.toRng n a b (bolsteredArgs f w)) (fun _ xs => xs.length = n ∧ ∀ x ∈ xs, x ∈ I) := by
  have hs : ¬ ((b - a) * w < 0) := not_lt.2 (mul_nonneg (sub_nonneg.2 hab) hw.le)
  have hnb := nBolster_bounds (n := (n : Int)) (by omega) hf hf1
  have hfold : ∀ x ∈ I, foldValue a b x = x := by
    intro x hx
    have := hI.within x hx
    unfold foldValue
    rw [if_neg (not_lt.2 this.1), if_neg (not_lt.2 this.2)]
  simp only [sampleDistribution, bolsteredArgs, bolstered]
  generalize nBolster (n : Int) f = nb at hnb
  obtain ⟨m, rfl⟩ := Int.eq_ofNat_of_zero_le hnb.1
  have hnu : ((n : Int) - 2 * (m : Int)).toNat + 2 * m = n := by omega
  have hU : ∀ {Θ : Type} (D : Θ → Prop), Steered C D (fun _ => drawUniform C.rng.toRng a b ((n : Int) - 2 * (m : Int)))
      (fun _ xs => xs.length = ((n : Int) - 2 * (m : Int)).toNat ∧ ∀ x ∈ xs, x ∈ I) := by
    intro Θ D
    refine ⟨((n : Int) - 2 * (m : Int)).toNat, fun _ => {v | a + (b - a) * v ∈ I}, fun _ => Set.univ, fun _ => hI.uniform, fun _ => univ_gauss,
      fun _ _ ω k hk => ⟨_, drawUniform_of_nonneg _ _ _ hnb.2 _, by simp [Chance.rng], fun x hx => ?_⟩⟩
    simp only [Chance.rng, List.mem_map, List.mem_range] at hx
    obtain ⟨i, hi, rfl⟩ := hx
    exact (hk i hi).1
  have hN : ∀ {Θ : Type} (D : Θ → Prop) (c : ℝ), (MeasurableSet {z | c + (b - a) * w * z ∈ I} ∧ 0 < gaussianReal 0 1 {z | c + (b - a) * w * z ∈ I}) →
      Steered C D (fun _ => drawNormal C.rng.toRng c ((b - a) * w) (m : Int)) (fun _ xs => xs.length = m ∧ ∀ x ∈ xs, x ∈ I) := by
    intro Θ D c hc
    refine ⟨m, fun _ => Set.univ, fun _ => {z | c + (b - a) * w * z ∈ I}, fun _ => univ_unif, fun _ => hc,
      fun _ _ ω k hk => ⟨_, drawNormal_of_nonneg _ _ (not_lt.1 hs) m _, by simp [Chance.rng], fun x hx => ?_⟩⟩
    simp only [Chance.rng, List.mem_map, List.mem_range] at hx
    obtain ⟨i, hi, rfl⟩ := hx
    exact (hk i hi).2
  refine (hU D).bind ((hN _ a hI.lower).bind ((hN _ b hI.upper).bind ?_))
  refine ⟨1, fun _ => Set.univ, fun _ => Set.univ, fun _ => univ_unif, fun _ => univ_gauss, ?_⟩
  rintro ⟨⟨⟨θ, u⟩, lo⟩, up⟩ ⟨⟨⟨-, hu1, hu2⟩, hl1, hl2⟩, hp1, hp2⟩ ω k -
  refine ⟨_, rfl, ?_, fun x hx => ?_⟩
  · simp only at hu1 hl1 hp1
    refine ((C.perm_perm k ω _).length_eq).trans ?_
    simp only [List.length_append, List.length_map]
    omega
  · have hx := (C.perm_perm k ω _).mem_iff.1 hx
    simp only [List.mem_append, List.mem_map] at hx
    rcases hx with (⟨z, hz, rfl⟩ | hx) | ⟨z, hz, rfl⟩
    · rw [hfold z (hl2 z hz)]
      exact hl2 z hz
    · exact hu2 x hx
    · rw [hfold z (hp2 z hz)]
      exact hp2 z hz

theorem real_steered (C : Chance Ω P) {f w : ℝ} (hf : 0 ≤ f) (hf1 : f ≤ 1) (hw : 0 < w) (n : ℕ) {p : Param ℝ} (hp : RealParam p) {t : ℝ}
    (ht : InRange p (.real t)) {δ : ℝ} (hδ : 0 < δ) (e e' : ℝ) : ∃ I : Set ℝ, (∀ x ∈ I, |x - t| < δ) ∧ OneSide I e ∧ OneSide I e' ∧
      ∀ (Θ : Type) (D : Θ → Prop), Steered C D (fun _ => p.sample C.rng.toRng n (bolsteredArgs f w))
        (fun _ col => ∃ r : List ℝ, col = r.map Num.real ∧ r.length = n ∧ ∀ x ∈ r, x ∈ I) := by
  obtain ⟨a, b, h1, h2, h3⟩ := hp
  cases p with
  | const c nm =>
    cases ht
    refine ⟨{t}, fun x hx => ?_, oneSide_point _ _, oneSide_point _ _, fun Θ D => ?_⟩
    · rw [Set.mem_singleton_iff.1 hx, sub_self, abs_zero]
      exact hδ
    · refine (Steered.pure' (f := fun _ => (List.range n).map fun _ => Num.real t) fun θ _ => ?_).mono (fun θ _ => const_sample _ _ _ _ _) fun θ _ _ h => h
      exact ⟨(List.range n).map fun _ => t, by rw [List.map_map]; rfl, by simp, fun x hx => by
        obtain ⟨_, -, rfl⟩ := List.mem_map.1 hx
        rfl⟩
  | range x z nm =>
    simp only [Param.min, Param.max] at h1 h2
    subst h1 h2
    obtain ⟨_, e0, h4, h5⟩ := ht
    cases e0
    obtain ⟨I, hI, hnear, o1, o2⟩ := target_near (w := w) hw h4 h5 hδ e e'
    refine ⟨I, hnear, o1, o2, fun Θ D => ?_⟩
    refine ((bolstered_steered C D hf hf1 hw h3 n hI).map (fun _ v => v.map Num.real)
      (R := fun _ col => ∃ r : List ℝ, col = r.map Num.real ∧ r.length = n ∧ ∀ x ∈ r, x ∈ I) fun θ r _ h => ⟨r, rfl, h⟩).mono (fun θ _ => ?_) fun θ _ _ h => h
    rw [sample_real]

theorem sld_steered (C : Chance Ω P) {f w : ℝ} (hf : 0 ≤ f) (hf1 : f ≤ 1) (hw : 0 < w) (n : ℕ) {p : Param ℝ} (hp : Drawable p) {y : Num ℝ}
    (hy : InRange p y) {ε : ℝ} (hε : 0 < ε) {Θ : Type} (D : Θ → Prop) : Steered C D (fun _ => p.sample C.rng.toRng n (bolsteredArgs f w))
        (fun _ col => col.length = n ∧ ∀ v ∈ col, (|v.re - y.re| < ε ∧ |v.im - y.im| < ε) ∧ InRange p v) := by
  cases p with
  | const c nm =>
    cases hy
    refine (Steered.pure' (f := fun _ => (List.range n).map fun _ => y) fun θ _ => ?_).mono (fun θ _ => const_sample _ _ _ _ _) fun θ _ _ h => h
    refine ⟨by simp, fun x hx => ?_⟩
    obtain ⟨_, -, rfl⟩ := List.mem_map.1 hx
    exact ⟨⟨by simpa using hε, by simpa using hε⟩, rfl⟩
  | range a b nm =>
    obtain ⟨h1, h2, h3⟩ := hp
    by_cases hr : ∃ x y, a = .real x ∧ b = .real y
    · obtain ⟨x, z, rfl, rfl⟩ := hr
      obtain ⟨t, rfl, h4, h5⟩ := hy
      obtain ⟨I, hI, hnear, -, -⟩ := target_near (w := w) hw h4 h5 hε 0 0
      refine ((bolstered_steered C D hf hf1 hw h1 n hI).map (fun _ v => v.map Num.real) (R := fun _ col => col.length = n ∧ ∀ v ∈ col,
        (|v.re - (Num.real t).re| < ε ∧ |v.im - (Num.real t).im| < ε) ∧ InRange (.range (.real x) (.real z) nm) v) fun θ r _ h => ?_).mono
          (fun θ _ => by rw [sample_real]; rfl) fun θ _ _ h => h
      refine ⟨by rw [List.length_map]; exact h.1, fun v hv => ?_⟩
      obtain ⟨u, hu, rfl⟩ := List.mem_map.1 hv
      have hu := h.2 u hu
      exact ⟨⟨hnear u hu, by simpa [Num.im] using hε⟩, u, rfl, hI.within u hu⟩
    · have him : a.im ≠ 0 ∨ b.im ≠ 0 := h3.resolve_left hr
      have hin : ∀ v : Num ℝ, InRange (.range a b nm) v ↔ ∃ x t, v = .cplx true x t ∧ x ∈ Set.uIcc a.re b.re ∧ t ∈ Set.uIcc a.im b.im := by
        intro v
        cases a with
        | real x =>
          cases b with
          | real z => exact absurd ⟨_, _, rfl, rfl⟩ hr
          | cplx _ _ _ => exact Iff.rfl
        | cplx _ _ _ => cases b <;> exact Iff.rfl
      obtain ⟨x, t, rfl, hx, ht⟩ := (hin y).1 hy
      rw [Set.uIcc_of_le h1] at hx
      rw [Set.uIcc_of_le h2] at ht
      obtain ⟨I, hI, hnear, -, -⟩ := target_near (w := w) hw hx.1 hx.2 hε 0 0
      obtain ⟨J, hJ, hnear', -, -⟩ := target_near (w := w) hw ht.1 ht.2 hε 0 0
      refine ((bolstered_steered C D hf hf1 hw h1 n hI).bind (f := fun _ re => do
        let im ← sampleDistribution C.rng.toRng n a.im b.im (bolsteredArgs f w)
        return List.zipWith (Num.cplx true) re im) (R := fun _ col => col.length = n ∧ ∀ v ∈ col,
        (|v.re - (Num.cplx true x t).re| < ε ∧ |v.im - (Num.cplx true x t).im| < ε) ∧ InRange (.range a b nm) v)
        ((bolstered_steered C _ hf hf1 hw h2 n hJ).map (fun (p : Θ × List ℝ) im => List.zipWith (Num.cplx true) p.2 im) ?_)).mono (fun θ _ => ?_) fun θ _ _ h => h
      · rintro ⟨θ, re⟩ im ⟨-, l1, g1⟩ ⟨l2, g2⟩
        simp only at l1 g1
        refine ⟨by simp [l1, l2], fun v hv => ?_⟩
        simp only at hv
        rw [← List.map_uncurry_zip_eq_zipWith] at hv
        obtain ⟨⟨u, u'⟩, hm, rfl⟩ := List.mem_map.1 hv
        obtain ⟨m1, m2⟩ := List.of_mem_zip hm
        have e1 := g1 u m1
        have e2 := g2 u' m2
        refine ⟨⟨hnear u e1, hnear' u' e2⟩, (hin _).2 ⟨u, u', rfl, ?_, ?_⟩⟩
        · rw [Set.uIcc_of_le h1]
          exact hI.within u e1
        · rw [Set.uIcc_of_le h2]
          exact hJ.within u' e2
      · simp only [Param.sample]
        rw [if_neg (by rintro ⟨e1, e2⟩; rcases him with h | h <;> contradiction)]

/-! ### Thickness and roughness of a film -/

/-- One roughness is drawn again: one uniform number. -/
theorem bolstered_one (C : Chance Ω P) {a b f w : ℝ} (hf : 0 ≤ f) (hf1 : f ≤ 1) (hw : 0 < w) (hab : a ≤ b) (ω : Ω) (k : ℕ) :
    sampleDistribution C.rng.toRng 1 a b (bolsteredArgs f w) (ω, k) = .ok ([a + (b - a) * C.u k ω], (ω, k + 2)) := by
  have hs : ¬ ((b - a) * w < 0) := not_lt.2 (mul_nonneg (sub_nonneg.2 hab) hw.le)
  have h0 : nBolster 1 f = 0 := by
    unfold nBolster
    rw [Int.floor_eq_iff]
    norm_num
    constructor <;> linarith
  simp only [sampleDistribution, bolsteredArgs, bolstered, h0]
  rw [Rand.bind_ok]
  refine ⟨_, _, drawUniform_of_nonneg _ _ _ (by norm_num) _, ?_⟩
  rw [Rand.bind_ok]
  refine ⟨_, _, by rw [drawNormal, if_neg (by simp only [not_or]; exact ⟨by omega, hs⟩)], ?_⟩
  rw [Rand.bind_ok]
  refine ⟨_, _, by rw [drawNormal, if_neg (by simp only [not_or]; exact ⟨by omega, hs⟩)], ?_⟩
  unfold drawShuffle
  have hp := C.perm_perm (k + 1) ω [a + (b - a) * C.u k ω]
  rw [List.perm_singleton] at hp
  simp only [Chance.rng]
  congr 1
  refine Prod.ext ?_ rfl
  simpa using hp

theorem adjust_steered (C : Chance Ω P) {f w : ℝ} (hf : 0 ≤ f) (hf1 : f ≤ 1) (hw : 0 < w) {mn mx r ε v δ : ℝ} {I : Set ℝ}
    (hδ : 0 < δ) (hv : v ∈ Set.Icc (0 : ℝ) 1) (o1 : OneSide I (2 * mn)) (o2 : OneSide I (2 * mx))
    (hnear : ∀ t ∈ I, ∀ x : ℝ, |x - v| < δ → |(if t / 2 < mn then mn else mn + (min mx (t / 2) - mn) * x) - r| < ε) :
    Steered C (fun θ : ℝ × ℝ => θ.1 ∈ I ∧ |θ.2 - r| < ε) (fun θ => adjustRoughness C.rng.toRng (bolsteredArgs f w) mn mx θ.1 θ.2)
      (fun _ x => |x - r| < ε) := by
  have hv0 : |v - v| < δ := by simpa using hδ
  unfold adjustRoughness maxRoughness
  rcases o1.1 with h1 | h1
  · refine (Steered.pure' (f := fun _ => mn) (Q := fun _ x => |x - r| < ε) fun θ hθ => ?_).mono (fun θ hθ => ?_) fun θ _ _ h => h
    · have := h1 _ hθ.1
      have h := hnear _ hθ.1 v hv0
      rwa [if_pos (by linarith)] at h
    · have := h1 _ hθ.1
      rw [if_pos (by linarith)]
  · rcases o2.2 with h2 | h2
    · refine ⟨2, fun _ => {x | |x - v| < δ}, fun _ => Set.univ, fun _ => ⟨measurableSet_lt (by fun_prop) measurable_const, unif_near hv hδ⟩,
        fun _ => univ_gauss, ?_⟩
      rintro ⟨t, x⟩ ⟨ht, -⟩ ω k hk
      simp only at ht ⊢
      have a1 := h1 t ht
      have a2 := h2 t ht
      have a3 : ¬ t / 2 < mn := by linarith
      rw [if_neg a3, if_neg (by linarith)]
      refine ⟨mn + (t / 2 - mn) * C.u k ω, ?_, ?_⟩
      · rw [Rand.bind_ok]
        exact ⟨_, _, bolstered_one C hf hf1 hw (not_lt.1 a3) ω k, rfl⟩
      · have h := hnear t ht (C.u k ω) (hk 0 (by norm_num)).1
        rwa [if_neg a3, min_eq_right (by linarith)] at h
    · refine (Steered.pure' (f := fun θ : ℝ × ℝ => θ.2) (Q := fun _ x => |x - r| < ε) fun θ hθ => hθ.2).mono (fun θ hθ => ?_) fun θ _ _ h => h
      have a1 := h1 _ hθ.1
      have a2 := h2 _ hθ.1
      rw [if_neg (by linarith), if_pos (by linarith)]

theorem adjusts_steered (C : Chance Ω P) {d : DistArgs} {mn mx : ℝ} {I J K : Set ℝ}
    (h : Steered C (fun θ : ℝ × ℝ => θ.1 ∈ I ∧ θ.2 ∈ J) (fun θ => adjustRoughness C.rng.toRng d mn mx θ.1 θ.2) (fun _ x => x ∈ K)) (n : ℕ) :
    Steered C (fun θ : List ℝ × List ℝ => (θ.1.length = n ∧ ∀ t ∈ θ.1, t ∈ I) ∧ θ.2.length = n ∧ ∀ r ∈ θ.2, r ∈ J)
      (fun θ => adjustRoughnesses C.rng.toRng d mn mx θ.1 θ.2) (fun _ x => x.length = n ∧ ∀ r ∈ x, r ∈ K) := by
  induction n with
  | zero =>
    refine (Steered.pure' (f := fun _ => ([] : List ℝ)) fun θ _ => ⟨rfl, by simp⟩).mono (fun θ hθ => ?_) fun θ _ _ h => h
    rw [List.length_eq_zero_iff.1 hθ.1.1, List.length_eq_zero_iff.1 hθ.2.1]
    rfl
  | succ n ih =>
    have hcons : ∀ (L : Set ℝ) (l : List ℝ), (l.length = n + 1 ∧ ∀ t ∈ l, t ∈ L) → l = l.headD 0 :: l.tail ∧ l.headD 0 ∈ L ∧
        (l.tail.length = n ∧ ∀ t ∈ l.tail, t ∈ L) := by
      intro L l hl
      cases l with
      | nil => simp at hl
      | cons t l => exact ⟨rfl, hl.2 t (by simp), by simpa using hl.1, fun x hx => hl.2 x (List.mem_cons_of_mem _ hx)⟩
    refine ((h.comp (D' := fun θ : List ℝ × List ℝ => (θ.1.length = n + 1 ∧ ∀ t ∈ θ.1, t ∈ I) ∧ θ.2.length = n + 1 ∧ ∀ r ∈ θ.2, r ∈ J)
      (fun θ => (θ.1.headD 0, θ.2.headD 0)) fun θ hθ => ⟨(hcons I _ hθ.1).2.1, (hcons J _ hθ.2).2.1⟩).bind
        (f := fun θ r => adjustRoughnesses C.rng.toRng d mn mx θ.1.tail θ.2.tail >>= fun rs => pure (r :: rs))
        (R := fun _ x => x.length = n + 1 ∧ ∀ r ∈ x, r ∈ K)
        ((ih.comp (fun p : (List ℝ × List ℝ) × ℝ => (p.1.1.tail, p.1.2.tail)) fun p hp => ⟨(hcons I _ hp.1.1).2.2, (hcons J _ hp.1.2).2.2⟩).map
          (fun p rs => p.2 :: rs) ?_)).mono (fun θ hθ => ?_) fun θ _ _ h => h
    · rintro ⟨θ, r⟩ rs ⟨-, hr⟩ ⟨l, hrs⟩
      refine ⟨by simp [l], fun x hx => ?_⟩
      rcases List.mem_cons.1 hx with rfl | hx
      exacts [hr, hrs x hx]
    · conv_lhs => rw [(hcons I _ hθ.1).1, (hcons J _ hθ.2).1]
      rfl

theorem rough_steered (C : Chance Ω P) {f w : ℝ} (hf : 0 ≤ f) (hf1 : f ≤ 1) (hw : 0 < w) (n : ℕ) {p q : Param ℝ} (hp : RealParam p) (hq : RealParam q)
    {t r : ℝ} (ht : InRange p (.real t)) (hr : InRange q (.real r)) (hb : RoughBound q (.real t) (.real r)) {ε : ℝ} (hε : 0 < ε) :
    ∃ I : Set ℝ, (∀ x ∈ I, |x - t| < ε) ∧
      (∀ (Θ : Type) (D : Θ → Prop), Steered C D (fun _ => p.sample C.rng.toRng n (bolsteredArgs f w))
        (fun _ col => ∃ r : List ℝ, col = r.map Num.real ∧ r.length = n ∧ ∀ x ∈ r, x ∈ I)) ∧
      Steered C (fun col : List (Num ℝ) => ∃ r : List ℝ, col = r.map Num.real ∧ r.length = n ∧ ∀ x ∈ r, x ∈ I)
        (fun col => generateRoughness C.rng.toRng (bolsteredArgs f w) q col)
        (fun _ col => col.length = n ∧ ∀ v ∈ col, ∃ x, v = .real x ∧ |x - r| < ε) := by
  obtain ⟨v, hv, e⟩ := roughnessValue_hits hq (Or.inl rfl : DistKind.uniform = .uniform ∨ _) hr hb
  obtain ⟨δ, hδ, hnear⟩ := near_of_continuous (roughnessValue_continuous hq (Or.inl rfl : DistKind.uniform = .uniform ∨ _)) t v (Num.real.inj e) hε
  have hq' := hq
  obtain ⟨mn, mx, h1, h2, h3⟩ := hq
  obtain ⟨I, i1, i2, i3, i4⟩ := real_steered C hf hf1 hw n hp ht (lt_min hδ hε) (2 * mn) (2 * mx)
  obtain ⟨J, j1, -, -, j2⟩ := real_steered C hf hf1 hw n hq' hr hε 0 0
  refine ⟨I, fun x hx => (i1 x hx).trans_le (min_le_right _ _), i4, ?_⟩
  have hone := adjust_steered C hf hf1 hw (mn := mn) (mx := mx) (r := r) (ε := ε) hδ hv i2 i3 fun t' ht' x hx => by
    have h := hnear t' x ((i1 t' ht').trans_le (min_le_left _ _)) hx
    unfold roughnessValue drawFrom at h
    rwa [h1, h2] at h
  have hall := adjusts_steered (I := I) (J := J) (K := {x | |x - r| < ε}) C
    (hone.comp (D' := fun θ : ℝ × ℝ => θ.1 ∈ I ∧ θ.2 ∈ J) id fun θ hθ => ⟨hθ.1, j1 _ hθ.2⟩) n
  have hre : ∀ l : List ℝ, (l.map Num.real).map (fun v : Num ℝ => v.re) = l := fun l => by rw [List.map_map]; exact List.map_id _
  refine ((j2 (List (Num ℝ)) (fun col : List (Num ℝ) => ∃ r : List ℝ, col = r.map Num.real ∧ r.length = n ∧ ∀ x ∈ r, x ∈ I)).bind
    (f := fun ts rs => Rand.ofRes (asReals ts) >>= fun t => Rand.ofRes (asReals rs) >>= fun r =>
      adjustRoughnesses C.rng.toRng (bolsteredArgs f w) mn mx t r >>= fun r => pure (r.map Num.real))
    (R := fun _ col => col.length = n ∧ ∀ v ∈ col, ∃ x, v = .real x ∧ |x - r| < ε)
    (((hall.comp (fun p : List (Num ℝ) × List (Num ℝ) => (p.1.map fun v : Num ℝ => v.re, p.2.map fun v : Num ℝ => v.re)) ?_).map
      (fun _ rs => rs.map Num.real) ?_).mono ?_ fun _ _ _ h => h)).mono ?_ fun _ _ _ h => h
  · rintro ⟨ts, rs⟩ ⟨⟨t', rfl, l1, m1⟩, ⟨r', rfl, l2, m2⟩⟩
    simp only [hre]
    exact ⟨⟨l1, m1⟩, l2, m2⟩
  · rintro ⟨ts, rs⟩ x - ⟨l, hx⟩
    refine ⟨by simpa using l, fun v hv => ?_⟩
    obtain ⟨z, hz, rfl⟩ := List.mem_map.1 hv
    exact ⟨z, rfl, hx z hz⟩
  · rintro ⟨ts, rs⟩ ⟨⟨t', rfl, -, -⟩, ⟨r', rfl, -, -⟩⟩
    simp only [hre, asReals_map]
    rfl
  · rintro col ⟨t', rfl, l1, -⟩
    unfold generateRoughness
    rw [List.length_map, l1, h1, h2]

/-! ### One layer -/

/-- All values of the column `label` are close to `y`. -/
def NearColumn (f : Frame (Num ℝ)) (n : ℕ) (ε : ℝ) (label : Str) (y : Num ℝ) (Q : Num ℝ → Prop) : Prop :=
  ∃ col, f.get label = .ok col ∧ col.length = n ∧ ∀ v ∈ col, (|v.re - y.re| < ε ∧ |v.im - y.im| < ε) ∧ Q v

/-- The columns of one layer are close to `y`. -/
structure LayerSteered (n : ℕ) (y : Str → Num ℝ) (ε : ℝ) (f : Frame (Num ℝ)) (l : LayerV ℝ) : Prop where
  sld : ∀ p, l.sld = some p → NearColumn f n ε (l.name ++ "_sld".toList) (y (l.name ++ "_sld".toList)) (InRange p)
  thickness : ∀ p, l.thickness = some p → NearColumn f n ε (l.name ++ "_thickness".toList) (y (l.name ++ "_thickness".toList)) fun _ => True
  roughness : ∀ p, l.roughness = some p → NearColumn f n ε (l.name ++ "_roughness".toList) (y (l.name ++ "_roughness".toList)) fun _ => True

theorem layerSteered_congr {n : ℕ} {y : Str → Num ℝ} {ε : ℝ} {f f' : Frame (Num ℝ)} {l : LayerV ℝ} (h : LayerSteered n y ε f l)
    (he : ∀ k ∈ layerKeys l.name, f'.get k = f.get k) : LayerSteered n y ε f' l := by
  have h1 := he (l.name ++ "_sld".toList) (by simp [layerKeys])
  have h2 := he (l.name ++ "_thickness".toList) (by simp [layerKeys])
  have h3 := he (l.name ++ "_roughness".toList) (by simp [layerKeys])
  unfold NearColumn at *
  constructor
  · unfold NearColumn; rw [h1]; exact h.sld
  · unfold NearColumn; rw [h2]; exact h.thickness
  · unfold NearColumn; rw [h3]; exact h.roughness

theorem layer_steered (C : Chance Ω P) {f w : ℝ} (hf : 0 ≤ f) (hf1 : f ≤ 1) (hw : 0 < w) (n : ℕ) {l : LayerV ℝ} (hl : LayerDrawable l)
    (hsld : l.sld ≠ none) (hrt : l.thickness ≠ none → l.roughness ≠ none) {y : Str → Num ℝ}
    (hs : ∀ p, l.sld = some p → InRange p (y (l.name ++ "_sld".toList)))
    (ht : ∀ p, l.thickness = some p → InRange p (y (l.name ++ "_thickness".toList)))
    (hr : ∀ q, l.roughness = some q → InRange q (y (l.name ++ "_roughness".toList)))
    (hb : ∀ p q, l.thickness = some p → l.roughness = some q →
      RoughBound q (y (l.name ++ "_thickness".toList)) (y (l.name ++ "_roughness".toList))) {ε : ℝ} (hε : 0 < ε) :
    Steered C (fun _ : Frame (Num ℝ) => True) (fun t => labelStep C.rng.toRng n (bolsteredArgs f w) t l)
      (fun t t' => LayerSteered n y ε t' l ∧ ∀ k, k ∉ layerKeys l.name → t'.get k = t.get k) := by
  obtain ⟨p, hp⟩ := Option.ne_none_iff_exists'.1 hsld
  have t1 : l.name ++ "_thickness".toList ≠ l.name ++ "_roughness".toList := thickness_ne_roughness _ _
  have t2 : l.name ++ "_thickness".toList ≠ l.name ++ "_sld".toList := thickness_ne_sld _ _
  have t3 : l.name ++ "_roughness".toList ≠ l.name ++ "_sld".toList := roughness_ne_sld _ _
  have S := sld_steered C hf hf1 hw n (hl.sld p hp) (hs p hp) hε (fun _ : Frame (Num ℝ) => True)
  unfold labelStep
  simp only [hp]
  have key : ∀ t' : Frame (Num ℝ), (NearColumn t' n ε (l.name ++ "_sld".toList) (y (l.name ++ "_sld".toList)) (InRange p)) →
      (∀ p, l.thickness = some p → NearColumn t' n ε (l.name ++ "_thickness".toList) (y (l.name ++ "_thickness".toList)) fun _ => True) →
      (∀ p, l.roughness = some p → NearColumn t' n ε (l.name ++ "_roughness".toList) (y (l.name ++ "_roughness".toList)) fun _ => True) →
      LayerSteered n y ε t' l := by
    intro t' a b c
    refine ⟨fun p' hp' => ?_, b, c⟩
    rw [hp] at hp'
    cases hp'
    exact a
  cases htk : l.thickness with
  | none =>
    cases hq : l.roughness with
    | none =>
      rw [htk, hq] at key
      simp only
      refine S.map (fun t v => t.set (l.name ++ "_sld".toList) v) fun t v _ hv => ⟨key _ ⟨v, ?_, hv⟩ (fun _ h => by cases h) (fun _ h => by cases h), fun k hk => ?_⟩
      · rw [get_set, if_pos rfl]
      · rw [get_set, if_neg]
        rintro rfl
        exact hk (by simp [layerKeys])
    | some q =>
      rw [htk, hq] at key
      simp only
      obtain ⟨r, er⟩ := real_value (hl.roughness q hq) (hr q hq)
      have hr' := hr q hq
      rw [er] at key hr'
      obtain ⟨J, j1, -, -, j2⟩ := real_steered C hf hf1 hw n (hl.roughness q hq) hr' hε 0 0
      refine S.bind ((j2 _ _).map (fun (p : Frame (Num ℝ) × List (Num ℝ)) rv => (p.1.set (l.name ++ "_sld".toList) p.2).set (l.name ++ "_roughness".toList) rv) ?_)
      rintro ⟨t, v⟩ rv ⟨-, hv⟩ ⟨rr, rfl, l1, m1⟩
      refine ⟨key _ ⟨v, ?_, hv⟩ (fun _ h => by cases h) fun _ _ => ⟨rr.map Num.real, ?_, ?_, ?_⟩, fun k hk => ?_⟩
      · rw [get_set, if_neg t3.symm, get_set, if_pos rfl]
      · rw [get_set, if_pos rfl]
      · rw [List.length_map]; exact l1
      · intro v hv
        obtain ⟨x, hx, rfl⟩ := List.mem_map.1 hv
        exact ⟨⟨j1 x (m1 x hx), by simpa [Num.im] using hε⟩, trivial⟩
      · rw [get_set, if_neg, get_set, if_neg]
        · rintro rfl
          exact hk (by simp [layerKeys])
        · rintro rfl
          exact hk (by simp [layerKeys])
  | some p' =>
    cases hq : l.roughness with
    | none => exact absurd hq (hrt (by rw [htk]; simp))
    | some q =>
      rw [htk, hq] at key
      simp only
      obtain ⟨t0, et⟩ := real_value (hl.thickness p' htk) (ht p' htk)
      obtain ⟨r0, er⟩ := real_value (hl.roughness q hq) (hr q hq)
      have ht' := ht p' htk
      have hr' := hr q hq
      have hb' := hb p' q htk hq
      rw [et] at ht' hb' key
      rw [er] at hr' hb' key
      obtain ⟨I, i1, i2, i3⟩ := rough_steered C hf hf1 hw n (hl.thickness p' htk) (hl.roughness q hq) ht' hr' hb' hε
      refine S.bind ((i2 _ _).bind (f := fun (p : Frame (Num ℝ) × List (Num ℝ)) tv => generateRoughness C.rng.toRng (bolsteredArgs f w) q tv >>= fun rv =>
        pure (((p.1.set (l.name ++ "_sld".toList) p.2).set (l.name ++ "_thickness".toList) tv).set (l.name ++ "_roughness".toList) rv))
        ((i3.comp (fun p : (Frame (Num ℝ) × List (Num ℝ)) × List (Num ℝ) => p.2) fun p hp => hp.2).map
        (fun (p : (Frame (Num ℝ) × List (Num ℝ)) × List (Num ℝ)) rv =>
          ((p.1.1.set (l.name ++ "_sld".toList) p.1.2).set (l.name ++ "_thickness".toList) p.2).set (l.name ++ "_roughness".toList) rv) ?_))
      rintro ⟨⟨t, v⟩, tv⟩ rv ⟨⟨-, hv⟩, ⟨tt, htt, l1, m1⟩⟩ ⟨l2, m2⟩
      simp only at htt
      subst htt
      refine ⟨key _ ⟨v, ?_, hv⟩ (fun _ _ => ⟨tt.map Num.real, ?_, ?_, ?_⟩) fun _ _ => ⟨rv, ?_, l2, ?_⟩, fun k hk => ?_⟩
      · rw [get_set, if_neg t3.symm, get_set, if_neg t2.symm, get_set, if_pos rfl]
      · rw [get_set, if_neg t1, get_set, if_pos rfl]
      · rw [List.length_map]; exact l1
      · intro v hv
        obtain ⟨x, hx, rfl⟩ := List.mem_map.1 hv
        exact ⟨⟨i1 x (m1 x hx), by simpa [Num.im] using hε⟩, trivial⟩
      · rw [get_set, if_pos rfl]
      · intro v hv
        obtain ⟨x, rfl, hx⟩ := m2 v hv
        exact ⟨⟨hx, by simpa [Num.im] using hε⟩, trivial⟩
      · rw [get_set, if_neg, get_set, if_neg, get_set, if_neg]
        all_goals
          rintro rfl
          exact hk (by simp [layerKeys])

theorem loop_steered (C : Chance Ω P) {d : DistArgs} {n : ℕ} {y : Str → Num ℝ} {ε : ℝ} (ls : List (LayerV ℝ)) (hn : (ls.map (·.name)).Nodup)
    (h : ∀ l ∈ ls, Steered C (fun _ : Frame (Num ℝ) => True) (fun t => labelStep C.rng.toRng n d t l)
      (fun t t' => LayerSteered n y ε t' l ∧ ∀ k, k ∉ layerKeys l.name → t'.get k = t.get k)) :
    Steered C (fun _ : Frame (Num ℝ) => True) (fun t => labelLoop C.rng.toRng n d t ls)
      (fun t t' => (∀ l ∈ ls, LayerSteered n y ε t' l) ∧ ∀ k, (∀ l ∈ ls, k ∉ layerKeys l.name) → t'.get k = t.get k) := by
  induction ls with
  | nil => exact Steered.pure' (f := fun t => t) fun t _ => ⟨by simp, fun _ _ => rfl⟩
  | cons l ls ih =>
    rw [List.map_cons, List.nodup_cons] at hn
    have ih := ih hn.2 fun l' hl' => h l' (List.mem_cons_of_mem _ hl')
    refine ((h l (by simp)).bind (f := fun _ t' => labelLoop C.rng.toRng n d t' ls) (R := fun t t' => (∀ x ∈ l :: ls, LayerSteered n y ε t' x) ∧
      ∀ k, (∀ x ∈ l :: ls, k ∉ layerKeys x.name) → t'.get k = t.get k)
      ((ih.comp (fun p : Frame (Num ℝ) × Frame (Num ℝ) => p.2) fun _ _ => trivial).mono (fun _ _ => rfl) ?_))
    rintro ⟨t, t1⟩ t2 ⟨-, h1, h2⟩ ⟨h3, h4⟩
    simp only at h1 h2 h4
    refine ⟨fun x hx => ?_, fun k hk => ?_⟩
    · rcases List.mem_cons.1 hx with rfl | hx
      · refine layerSteered_congr h1 fun k hk => h4 k fun z hz => layerKeys_disjoint ?_ hk
        intro he
        exact hn.1 (List.mem_map.2 ⟨z, hz, he.symm⟩)
      · exact h3 x hx
    · rw [h4 k fun x hx => hk x (List.mem_cons_of_mem _ hx), h2 k (hk l (by simp))]

/-! ### The whole table -/

/-- With positive probability all rows of the table are close to `y`. -/
theorem table_steered (C : Chance Ω P) (s : SampleV ℝ) (hs : SampleRegular s) (hn : (partNames s).Nodup) (hl : ∀ l ∈ s.structure_, LayerDrawable l)
    (f w : ℝ) (hf : 0 ≤ f) (hf1 : f ≤ 1) (hw : 0 < w) (n k : ℕ) (T : Ω → Frame (Num ℝ))
    (hT : ∀ ω, ∃ g', generateRandomLabels C.rng.toRng s n ⟨.bolstered, some f, some w⟩ (ω, k) = .ok (T ω, g'))
    (y : Str → Num ℝ) (hy : RowWithin s y) (ε : ℝ) (hε : 0 < ε) : 0 < P {ω | ∀ l ∈ s.structure_, LayerSteered n y ε (T ω) l} := by
  have hst : ∀ l, l ∈ s.structure_ ↔ l ∈ s.substrate :: s.layers ++ [s.ambient] := by
    intro l
    simp [SampleV.structure_]
  have hloop := loop_steered C (d := bolsteredArgs f w) (n := n) (y := y) (ε := ε) s.structure_ (by simpa [SampleV.structure_, partNames] using hn) fun l hm => by
    have hm' := (hst l).1 hm
    have hfilm : ∀ p, l.thickness = some p → l ∈ s.layers := by
      intro p hp
      rcases List.mem_cons.1 (by simpa using hm' : l ∈ s.substrate :: (s.layers ++ [s.ambient])) with rfl | h
      · rw [hs.substrate.thickness] at hp
        cases hp
      · rcases List.mem_append.1 h with h | h
        · exact h
        · rw [List.mem_singleton.1 h, hs.ambient.thickness] at hp
          cases hp
    have hrough : ∀ q, l.roughness = some q → l ∈ s.substrate :: s.layers := by
      intro q hq
      rcases List.mem_append.1 hm' with h | h
      · exact h
      · rw [List.mem_singleton.1 h, hs.ambient.roughness] at hq
        cases hq
    exact layer_steered C hf hf1 hw n (hl l hm) (sample_parts hs l hm).1 (sample_parts hs l hm).2 (fun p hp => hy.sld l hm' p hp)
      (fun p hp => hy.thickness l (hfilm p hp) p hp) (fun q hq => hy.roughness l (hrough q hq) q hq)
      (fun p q hp hq => hy.limit l (hfilm p hp) q hq) hε
  have hpos := (hloop.comp (D' := fun _ : Unit => True) (fun _ => ([] : Frame (Num ℝ))) fun _ _ => trivial).pos
    (m := labelLoop C.rng.toRng n (bolsteredArgs f w) [] s.structure_) k
  refine hpos.trans_le (measure_mono fun ω hω => ?_)
  obtain ⟨t, g1, h1, h2, -⟩ := hω
  obtain ⟨g', hg⟩ := hT ω
  unfold generateRandomLabels at hg
  split_ifs at hg with hn0
  swap
  · exact (Rand.fail_ok.1 hg).elim
  · obtain ⟨names, g2, h3, hg⟩ := Rand.bind_ok.1 hg
    obtain ⟨h8, e3⟩ := Rand.ofRes_ok.1 h3
    simp only at h8 e3
    subst e3
    obtain ⟨t', g3, h4, hg⟩ := Rand.bind_ok.1 hg
    have e : (t, g1) = (t', g3) := Except.ok.inj (h1.symm.trans h4)
    cases e
    have h5 := (Rand.ofRes_ok.1 hg).1
    obtain ⟨names', h6, h7, -⟩ := C05_label_names s hs
    rw [h8] at h6
    cases h6
    obtain ⟨-, c2⟩ := select_get h5
    rw [h7] at c2
    intro l hm
    obtain ⟨m1, m2, m3⟩ := mem_expectedLabels hs hm
    have h := h2 l hm
    constructor
    · intro p hp
      obtain ⟨col, hc⟩ := h.sld p hp
      exact ⟨col, by rw [c2 _ m1]; exact hc.1, hc.2⟩
    · intro p hp
      obtain ⟨col, hc⟩ := h.thickness p hp
      exact ⟨col, by rw [c2 _ (m3 (by rw [hp]; simp))]; exact hc.1, hc.2⟩
    · intro p hp
      obtain ⟨col, hc⟩ := h.roughness p hp
      exact ⟨col, by rw [c2 _ (m2 (by rw [hp]; simp))]; exact hc.1, hc.2⟩

theorem rowOf_near {f : Frame (Num ℝ)} {n : ℕ} {ε : ℝ} {label : Str} {y : Num ℝ} {Q : Num ℝ → Prop} (h : NearColumn f n ε label y Q) (i : Fin n) :
    ∃ v, rowOf f i label = (v.re, v.im) ∧ (|v.re - y.re| < ε ∧ |v.im - y.im| < ε) ∧ Q v := by
  obtain ⟨col, h1, h2, h3⟩ := h
  have hi : (i : ℕ) < col.length := by rw [h2]; exact i.2
  exact ⟨col[(i : ℕ)], rowOf_get h1 hi, h3 _ (List.getElem_mem hi)⟩

theorem rows_near {s : SampleV ℝ} (hs : SampleRegular s) {n : ℕ} {y : Str → Num ℝ} {ε : ℝ} {t : Frame (Num ℝ)}
    (h : ∀ l ∈ s.structure_, LayerSteered n y ε t l) (i : Fin n) :
    RowNear t i (expectedLabels s.substrate.name (s.layers.map (·.name)) s.ambient.name) y ε := by
  have hst : ∀ l, l ∈ s.structure_ ↔ l ∈ s.substrate :: s.layers ++ [s.ambient] := by
    intro l
    simp [SampleV.structure_]
  have fin : ∀ {label : Str} {Q : Num ℝ → Prop}, NearColumn t n ε label (y label) Q →
      |(rowOf t i label).1 - (y label).re| < ε ∧ |(rowOf t i label).2 - (y label).im| < ε := by
    intro label Q hc
    obtain ⟨v, e, hv, -⟩ := rowOf_near hc i
    rw [e]
    exact hv
  intro label hlabel
  unfold expectedLabels at hlabel
  rcases List.mem_append.1 hlabel with hlabel | hlabel
  · rcases List.mem_append.1 hlabel with hlabel | hlabel
    · simp only [List.map_map, List.mem_map, Function.comp_apply] at hlabel
      obtain ⟨l, hm, rfl⟩ := hlabel
      obtain ⟨p, hp, -⟩ := (hs.layers l hm).thickness
      exact fin ((h l ((hst l).2 (by simp [hm]))).thickness p hp)
    · rw [← List.map_cons (f := fun l : LayerV ℝ => l.name)] at hlabel
      simp only [List.map_map, List.mem_map, Function.comp_apply] at hlabel
      obtain ⟨l, hm, rfl⟩ := hlabel
      have hl := h l ((hst l).2 (List.mem_append_left _ hm))
      rcases List.mem_cons.1 hm with rfl | hm
      · obtain ⟨q, hq, -⟩ := hs.substrate.roughness
        exact fin (hl.roughness q hq)
      · obtain ⟨q, hq, -⟩ := (hs.layers l hm).roughness
        exact fin (hl.roughness q hq)
  · have e : s.substrate.name :: s.layers.map (·.name) ++ [s.ambient.name] = (s.substrate :: s.layers ++ [s.ambient]).map fun l : LayerV ℝ => l.name := by
      simp
    rw [e] at hlabel
    simp only [List.map_map, List.mem_map, Function.comp_apply] at hlabel
    obtain ⟨l, hm, rfl⟩ := hlabel
    obtain ⟨p, hp⟩ : ∃ p, l.sld = some p := Option.ne_none_iff_exists'.1 (sample_parts hs l ((hst l).2 hm)).1
    exact fin ((h l ((hst l).2 hm)).sld p hp)

/-- **C141** (all structures are seen): for bolstered sampling with any fraction between 0 and 1 and any positive width, every set of labels that the
ranges of the sample allow is approached by all rows of the random labels together, up to any error `ε`, with a positive probability. -/
theorem C141_support (C : Chance Ω P) (s : SampleV ℝ) (hs : SampleRegular s) (hn : (partNames s).Nodup) (hl : ∀ l ∈ s.structure_, LayerDrawable l)
    (f w : ℝ) (hf : 0 ≤ f) (hf1 : f ≤ 1) (hw : 0 < w) (n k : ℕ) (T : Ω → Frame (Num ℝ))
    (hT : ∀ ω, ∃ g', generateRandomLabels C.rng.toRng s n ⟨.bolstered, some f, some w⟩ (ω, k) = .ok (T ω, g'))
    (y : Str → Num ℝ) (hy : RowWithin s y) (ε : ℝ) (hε : 0 < ε) :
    0 < P {ω | ∀ i : Fin n, RowNear (T ω) i (expectedLabels s.substrate.name (s.layers.map (·.name)) s.ambient.name) y ε} :=
  (table_steered C s hs hn hl f w hf hf1 hw n k T hT y hy ε hε).trans_le (measure_mono fun _ hω i => rows_near hs hω i)

theorem reaches_of_bolstered (C : Chance Ω P) (s : SampleV ℝ) (hs : SampleRegular s) (hn : (partNames s).Nodup) (hl : ∀ l ∈ s.structure_, LayerDrawable l)
    (f w : ℝ) (hf : 0 ≤ f) (hf1 : f ≤ 1) (hw : 0 < w) (nm : Option Str) (hamb : s.ambient.sld = some (.const (.real 0) nm))
    (habs : ∀ l ∈ s.substrate :: s.layers, ∀ p, l.sld = some p → 0 ≤ p.min.im ∧ 0 ≤ p.max.im) (n k : ℕ) (T : Ω → Frame (Num ℝ))
    (hT : ∀ ω, ∃ g', generateRandomLabels C.rng.toRng s n ⟨.bolstered, some f, some w⟩ (ω, k) = .ok (T ω, g')) (i : Fin n) : Reaches P s T i := by
  intro y hy ε hε
  refine (table_steered C s hs hn hl f w hf hf1 hw n k T hT y hy ε hε).trans_le (measure_mono fun ω hω => ⟨rows_near hs hω i, ?_, fun l hm => ?_⟩)
  · obtain ⟨v, e, -, hv⟩ := rowOf_near ((hω s.ambient (by simp [SampleV.structure_])).sld _ hamb) i
    cases hv
    exact e
  · have hm' : l ∈ s.structure_ := by
      simp only [SampleV.structure_, List.cons_append, List.nil_append, List.mem_cons, List.mem_append, List.not_mem_nil, or_false] at hm ⊢
      exact hm.imp_right Or.inl
    obtain ⟨p, hp⟩ : ∃ p, l.sld = some p := Option.ne_none_iff_exists'.1 (sample_parts hs l hm').1
    obtain ⟨v, e, -, hv⟩ := rowOf_near ((hω l hm').sld p hp) i
    rw [e]
    exact inRange_absorption hv (habs l hm p hp).1 (habs l hm p hp).2

/-- **C141** (what the curves do not determine cannot be learned from the default training data): let two admissible sets of labels have the same
simulated curve. Then any continuous prediction from curves misses the label of a random training sample of the bolstered distribution by almost half
the difference of the two sets, with positive probability. -/
theorem C141_unlearnable (C : Chance Ω P) (s : SampleV ℝ) (hs : SampleRegular s) (hn : (partNames s).Nodup) (hl : ∀ l ∈ s.structure_, LayerDrawable l)
    (f w : ℝ) (hf : 0 ≤ f) (hf1 : f ≤ 1) (hw : 0 < w) (nm : Option Str) (hamb : s.ambient.sld = some (.const (.real 0) nm))
    (habs : ∀ l ∈ s.substrate :: s.layers, ∀ p, l.sld = some p → 0 ≤ p.min.im ∧ 0 ≤ p.max.im) (n k : ℕ) (T : Ω → Frame (Num ℝ))
    (hT : ∀ ω, ∃ g', generateRandomLabels C.rng.toRng s n ⟨.bolstered, some f, some w⟩ (ω, k) = .ok (T ω, g')) (i : Fin n)
    (q : List ℝ) (y y' : Str → Num ℝ) (hy : RowWithin s y) (hy' : RowWithin s y') (v₀ : Fin q.length → ℝ)
    (hv : curveFor s q (pairs y) = .ok (List.ofFn fun j => some (v₀ j))) (hv' : curveFor s q (pairs y') = curveFor s q (pairs y))
    (N : (Fin q.length → ℝ) → ℝ) (hN : Continuous N) (key : Str)
    (hkey : key ∈ expectedLabels s.substrate.name (s.layers.map (·.name)) s.ambient.name) (ε : ℝ) (hε : 0 < ε) :
    0 < P {ω | ∃ v : Fin q.length → ℝ, curveFor s q (rowOf (T ω) i) = .ok (List.ofFn fun j => some (v j)) ∧
      |(y key).re - (y' key).re| / 2 - ε < |N v - (rowOf (T ω) i key).1|} :=
  unlearnable_core s hs nm hamb habs T i (reaches_of_bolstered C s hs hn hl f w hf hf1 hw nm hamb habs n k T hT i) q y y' hy hy' v₀ hv hv' N hN key hkey ε hε

/-- The hypotheses of C141 hold for two films with the same ranges and the default settings of `generate_random_labels`: any continuous prediction of
the thickness of the lower film is wrong by more than 3 Å with positive probability. -/
example (n : ℕ) (hn : 0 < n) (q : List ℝ) (N : (Fin q.length → ℝ) → ℝ) (hN : Continuous N) : ∃ T : (ChanceIdx → ℝ) → Frame (Num ℝ),
    (∀ ω, ∃ g', generateRandomLabels Chance.product.rng.toRng exampleFilms n ⟨.bolstered, some 0.15, some 0.1⟩ (ω, 0) = .ok (T ω, g')) ∧
    ∀ i : Fin n, 0 < Measure.infinitePi ChanceIdx.law {ω | ∃ v : Fin q.length → ℝ,
      curveFor exampleFilms q (rowOf (T ω) i) = .ok (List.ofFn fun j => some (v j)) ∧
      3 < |N v - (rowOf (T ω) i ("a".toList ++ "_thickness".toList)).1|} := by
  have hnd : (partNames exampleFilms).Nodup := by simp only [partNames, exampleFilms, exampleFilm]; decide
  have ret := fun ω : ChanceIdx → ℝ => C17_returns Chance.product.rng_ok.toOk exampleFilms exampleFilms_regular hnd exampleFilms_drawable n (by omega)
    ⟨.bolstered, some 0.15, some 0.1⟩ (Or.inr ⟨rfl, 0.15, 0.1, rfl, rfl, by norm_num, by norm_num, by norm_num⟩) (ω, 0)
  choose T hT using ret
  refine ⟨T, hT, fun i => ?_⟩
  exact films_core T i (reaches_of_bolstered Chance.product exampleFilms exampleFilms_regular hnd exampleFilms_drawable 0.15 0.1 (by norm_num) (by norm_num)
    (by norm_num) (some "sld".toList) rfl films_absorption n 0 T hT i) q N hN

end Verif.Props
