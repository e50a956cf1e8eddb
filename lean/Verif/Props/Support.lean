import Verif.Props.LabelLaw
import Verif.Props.Tail

/-!
# C129: random labels come close to every set of labels that the ranges allow
-/

namespace Verif.Props
open Verif.Py Verif.Model Verif.Spec Verif.Lemmas MeasureTheory ProbabilityTheory

variable {Ω : Type} [MeasurableSpace Ω] {P : Measure Ω}

/-! ### Values as functions of their numbers -/

theorem drawFrom_continuous (d : DistKind) (a b : ℝ) : Continuous (drawFrom d a b) := by
  cases d
  case logarithmic => exact (Real.continuous_const_rpow (by norm_num : (10 : ℝ) ≠ 0)).comp (by fun_prop)
  all_goals
    unfold drawFrom
    simp only
    fun_prop

/-- Every value between the limits belongs to a number. -/
theorem drawFrom_hits {d : DistKind} {a b : ℝ} (hd : d = .uniform ∨ d = .logarithmic ∧ 0 < a) {y : ℝ} (h1 : a ≤ y) (h2 : y ≤ b) :
    ∃ v ∈ Set.Icc (0 : ℝ) 1, drawFrom d a b v = y := by
  rcases eq_or_lt_of_le (h1.trans h2) with hab | hab
  · subst hab
    obtain rfl := le_antisymm h1 h2
    refine ⟨0, ⟨le_refl _, zero_le_one⟩, ?_⟩
    rcases hd with rfl | ⟨rfl, h0⟩
    · simp [drawFrom]
    · simp only [drawFrom, sub_self, zero_mul, add_zero]
      exact Real.rpow_logb (by norm_num) (by norm_num) h0
  · rcases hd with rfl | ⟨rfl, h0⟩
    · have hba : 0 < b - a := sub_pos.2 hab
      refine ⟨(y - a) / (b - a), ⟨div_nonneg (sub_nonneg.2 h1) hba.le, (div_le_one hba).2 (by linarith)⟩, ?_⟩
      simp only [drawFrom]
      rw [mul_div_cancel₀ _ hba.ne']
      ring
    · have hy : 0 < y := lt_of_lt_of_le h0 h1
      have hl1 : Real.logb 10 a ≤ Real.logb 10 y := Real.logb_le_logb_of_le (by norm_num) h0 h1
      have hl2 : Real.logb 10 y ≤ Real.logb 10 b := Real.logb_le_logb_of_le (by norm_num) hy h2
      have hl3 : 0 < Real.logb 10 b - Real.logb 10 a := sub_pos.2 (Real.logb_lt_logb (by norm_num) h0 hab)
      refine ⟨(Real.logb 10 y - Real.logb 10 a) / (Real.logb 10 b - Real.logb 10 a),
        ⟨div_nonneg (sub_nonneg.2 hl1) hl3.le, (div_le_one hl3).2 (by linarith)⟩, ?_⟩
      simp only [drawFrom]
      rw [mul_div_cancel₀ _ hl3.ne', add_sub_cancel]
      exact Real.rpow_logb (by norm_num) (by norm_num) hy

theorem paramValue_continuous (d : DistKind) (p : Param ℝ) :
    Continuous (fun x : ℝ × ℝ => (paramValue d p x.1 x.2).re) ∧ Continuous (fun x : ℝ × ℝ => (paramValue d p x.1 x.2).im) := by
  cases p with
  | const c nm =>
    constructor <;> (unfold paramValue; simp only; exact continuous_const)
  | range a b nm =>
    cases a <;> cases b
    · exact ⟨(drawFrom_continuous d _ _).comp continuous_fst, continuous_const⟩
    all_goals exact ⟨(drawFrom_continuous d _ _).comp continuous_fst, (drawFrom_continuous d _ _).comp continuous_snd⟩

/-- Every value in the range of a parameter belongs to two numbers. -/
theorem paramValue_hits {d : DistKind} {p : Param ℝ} (hp : Drawable p) (hd : KindOk d p) {y : Num ℝ} (hy : InRange p y) :
    ∃ v ∈ Set.Icc (0 : ℝ) 1, ∃ w ∈ Set.Icc (0 : ℝ) 1, paramValue d p v w = y := by
  have z : (0 : ℝ) ∈ Set.Icc (0 : ℝ) 1 := ⟨le_refl _, zero_le_one⟩
  cases p with
  | const c nm => exact ⟨0, z, 0, z, hy.symm⟩
  | range a b nm =>
    have hre : d = .uniform ∨ d = .logarithmic ∧ 0 < a.re := hd.imp_right fun h => ⟨h.1, h.2.1⟩
    have him : (a.im ≠ 0 ∨ b.im ≠ 0) → d = .uniform ∨ d = .logarithmic ∧ 0 < a.im := fun hc => hd.imp_right fun h => ⟨h.1, h.2.2 hc⟩
    have two : (a.im ≠ 0 ∨ b.im ≠ 0) → (∃ x t, y = .cplx true x t ∧ x ∈ Set.uIcc a.re b.re ∧ t ∈ Set.uIcc a.im b.im) →
        ∃ v ∈ Set.Icc (0 : ℝ) 1, ∃ w ∈ Set.Icc (0 : ℝ) 1, (Num.cplx true (drawFrom d a.re b.re v) (drawFrom d a.im b.im w)) = y := by
      rintro hc ⟨x, t, rfl, hx, ht⟩
      rw [Set.uIcc_of_le hp.1] at hx
      rw [Set.uIcc_of_le hp.2.1] at ht
      obtain ⟨v, hv, e1⟩ := drawFrom_hits hre hx.1 hx.2
      obtain ⟨w, hw, e2⟩ := drawFrom_hits (him hc) ht.1 ht.2
      exact ⟨v, hv, w, hw, by rw [e1, e2]⟩
    cases a with
    | real a =>
      cases b with
      | real b =>
        obtain ⟨x, rfl, h1, h2⟩ := hy
        obtain ⟨v, hv, e⟩ := drawFrom_hits hre h1 h2
        exact ⟨v, hv, 0, z, congrArg Num.real e⟩
      | cplx f x t =>
        refine two ?_ hy
        rcases hp.2.2 with ⟨_, _, _, h⟩ | h
        · cases h
        · exact h
    | cplx f x t =>
      refine two ?_ (by cases b <;> exact hy)
      rcases hp.2.2 with ⟨_, _, h, _⟩ | h
      · cases h
      · exact h

/-- The roughness of a film, with the bound by the thickness as a maximum and a minimum. -/
theorem roughnessValue_eq {d : DistKind} {q : Param ℝ} (hq : RealParam q) (hd : d = .uniform ∨ d = .logarithmic ∧ 0 < q.min.re) (t v : ℝ) :
    roughnessValue d q t v = drawFrom d q.min.re (max q.min.re (min q.max.re (t / 2))) v := by
  have h3 : q.min.re ≤ q.max.re := by
    obtain ⟨a, b, h1, h2, h3⟩ := hq
    rw [h1, h2]
    exact h3
  unfold roughnessValue
  split_ifs with h
  · rw [max_eq_left ((min_le_right _ _).trans h.le)]
    rcases hd with rfl | ⟨rfl, h0⟩
    · simp [drawFrom]
    · simp only [drawFrom, sub_self, zero_mul, add_zero]
      exact (Real.rpow_logb (by norm_num) (by norm_num) h0).symm
  · rw [max_eq_right (le_min h3 (not_lt.1 h))]

theorem roughnessValue_continuous {d : DistKind} {q : Param ℝ} (hq : RealParam q) (hd : d = .uniform ∨ d = .logarithmic ∧ 0 < q.min.re) :
    Continuous fun x : ℝ × ℝ => roughnessValue d q x.1 x.2 := by
  simp only [roughnessValue_eq hq hd]
  rcases hd with rfl | ⟨rfl, h0⟩
  · unfold drawFrom
    simp only
    fun_prop
  · unfold drawFrom Real.logb
    simp only
    refine (Real.continuous_const_rpow (by norm_num)).comp ?_
    have hb : Continuous fun x : ℝ × ℝ => Real.log (max q.min.re (min q.max.re (x.1 / 2))) :=
      Continuous.log (by fun_prop) fun x => (lt_of_lt_of_le h0 (le_max_left _ _)).ne'
    fun_prop

/-- Every roughness that the thickness allows belongs to a number. -/
theorem roughnessValue_hits {d : DistKind} {q : Param ℝ} (hq : RealParam q) (hd : d = .uniform ∨ d = .logarithmic ∧ 0 < q.min.re) {t : ℝ} {y : Num ℝ}
    (hy : InRange q y) (hb : RoughBound q (.real t) y) : ∃ v ∈ Set.Icc (0 : ℝ) 1, Num.real (roughnessValue d q t v) = y := by
  obtain ⟨a, b, h1, h2, h3⟩ := hq
  obtain ⟨m, t', r, e1, e2, rfl, hr⟩ := hb
  cases e2
  rw [h1] at e1
  cases e1
  have hrange : a ≤ r ∧ r ≤ b := by
    cases q with
    | const c nm =>
      simp only [Param.min, Param.max] at h1 h2
      subst h1
      cases h2
      cases hy
      exact ⟨le_refl _, le_refl _⟩
    | range x z nm =>
      simp only [Param.min, Param.max] at h1 h2
      subst h1 h2
      obtain ⟨_, e, h4, h5⟩ := hy
      cases e
      exact ⟨h4, h5⟩
  rw [h1] at hd
  simp only [roughnessValue_eq ⟨a, b, h1, h2, h3⟩ (by rw [h1]; exact hd), h1, h2, Num.re] at *
  obtain ⟨v, hv, e⟩ := drawFrom_hits hd hrange.1 (b := max a (min b (t / 2))) (by
    rcases le_total (t / 2) a with h | h
    · rw [max_eq_left h] at hr
      exact hr.trans (le_max_left _ _)
    · rw [max_eq_right h] at hr
      exact (le_min hrange.2 hr).trans (le_max_right _ _))
  exact ⟨v, hv, by rw [e]⟩

/-! ### One layer -/

/-- The values of the labels of one layer in row `i`, as functions of the four numbers `x`. -/
structure LayerNear (d : DistKind) (l : LayerV ℝ) (y : Str → Num ℝ) (ε : ℝ) (x : Part → ℝ) : Prop where
  sld : ∀ p, l.sld = some p → |(paramValue d p (x .sldRe) (x .sldIm)).re - (y (l.name ++ "_sld".toList)).re| < ε ∧
    |(paramValue d p (x .sldRe) (x .sldIm)).im - (y (l.name ++ "_sld".toList)).im| < ε
  thickness : ∀ p, l.thickness = some p → |(paramValue d p (x .thickness) 0).re - (y (l.name ++ "_thickness".toList)).re| < ε ∧
    |(paramValue d p (x .thickness) 0).im - (y (l.name ++ "_thickness".toList)).im| < ε
  roughness : ∀ q, l.roughness = some q → l.thickness = none → |(paramValue d q (x .roughness) 0).re - (y (l.name ++ "_roughness".toList)).re| < ε ∧
    |(paramValue d q (x .roughness) 0).im - (y (l.name ++ "_roughness".toList)).im| < ε
  film : ∀ p q, l.thickness = some p → l.roughness = some q →
    |roughnessValue d q (paramValue d p (x .thickness) 0).re (x .roughness) - (y (l.name ++ "_roughness".toList)).re| < ε ∧
    (y (l.name ++ "_roughness".toList)).im = 0

/-- A continuous function of two numbers is close to its value near a point. -/
theorem near_of_continuous {f : ℝ × ℝ → ℝ} (hf : Continuous f) (v w : ℝ) {y ε : ℝ} (hy : f (v, w) = y) (hε : 0 < ε) :
    ∃ δ > 0, ∀ x z : ℝ, |x - v| < δ → |z - w| < δ → |f (x, z) - y| < ε := by
  obtain ⟨δ, hδ, h⟩ := Metric.continuous_iff.1 hf (v, w) ε hε
  refine ⟨δ, hδ, fun x z hx hz => ?_⟩
  have := h (x, z) (by rw [Prod.dist_eq, Real.dist_eq, Real.dist_eq]; exact max_lt hx hz)
  rwa [hy, Real.dist_eq] at this

/-- A real parameter has real values. -/
theorem real_value {p : Param ℝ} (hp : RealParam p) {y : Num ℝ} (hy : InRange p y) : ∃ t, y = .real t := by
  obtain ⟨a, b, h1, h2, -⟩ := hp
  cases p with
  | const c nm =>
    cases hy
    exact ⟨a, h1⟩
  | range u w nm =>
    simp only [Param.min, Param.max] at h1 h2
    subst h1 h2
    obtain ⟨x, h, -⟩ := hy
    exact ⟨x, h⟩

theorem real_second {d : DistKind} {p : Param ℝ} (hp : RealParam p) (v w : ℝ) : paramValue d p v w = paramValue d p v 0 := by
  obtain ⟨a, b, h1, h2, -⟩ := hp
  cases p with
  | const c nm => rfl
  | range u w nm =>
    simp only [Param.min, Param.max] at h1 h2
    subst h1 h2
    rfl

theorem layer_near {d : DistKind} {l : LayerV ℝ} (hl : LayerDrawable l) (hk : LayerKindOk d l) {y : Str → Num ℝ}
    (hs : ∀ p, l.sld = some p → InRange p (y (l.name ++ "_sld".toList)))
    (ht : ∀ p, l.thickness = some p → InRange p (y (l.name ++ "_thickness".toList)))
    (hr : ∀ q, l.roughness = some q → InRange q (y (l.name ++ "_roughness".toList)))
    (hb : ∀ p q, l.thickness = some p → l.roughness = some q →
      RoughBound q (y (l.name ++ "_thickness".toList)) (y (l.name ++ "_roughness".toList))) {ε : ℝ} (hε : 0 < ε) :
    ∃ v : Part → ℝ, (∀ c, v c ∈ Set.Icc (0 : ℝ) 1) ∧ ∃ δ > 0, ∀ x : Part → ℝ, (∀ c, |x c - v c| < δ) → LayerNear d l y ε x := by
  have z : (0 : ℝ) ∈ Set.Icc (0 : ℝ) 1 := ⟨le_refl _, zero_le_one⟩
  -- the density
  have sld : ∃ v ∈ Set.Icc (0 : ℝ) 1, ∃ w ∈ Set.Icc (0 : ℝ) 1, ∃ δ > 0, ∀ x x' : ℝ, |x - v| < δ → |x' - w| < δ → ∀ p, l.sld = some p →
      |(paramValue d p x x').re - (y (l.name ++ "_sld".toList)).re| < ε ∧ |(paramValue d p x x').im - (y (l.name ++ "_sld".toList)).im| < ε := by
    cases h : l.sld with
    | none => exact ⟨0, z, 0, z, 1, one_pos, fun _ _ _ _ p hp => by cases hp⟩
    | some p =>
      obtain ⟨v, hv, w, hw, e⟩ := paramValue_hits (hl.sld p h) (hk.sld p h) (hs p h)
      obtain ⟨c1, c2⟩ := paramValue_continuous d p
      obtain ⟨δ, hδ, h1⟩ := near_of_continuous c1 v w (congrArg Num.re e) hε
      obtain ⟨δ', hδ', h2⟩ := near_of_continuous c2 v w (congrArg Num.im e) hε
      refine ⟨v, hv, w, hw, min δ δ', lt_min hδ hδ', fun x x' hx hx' p' hp' => ?_⟩
      cases hp'
      exact ⟨h1 x x' (hx.trans_le (min_le_left _ _)) (hx'.trans_le (min_le_left _ _)),
        h2 x x' (hx.trans_le (min_le_right _ _)) (hx'.trans_le (min_le_right _ _))⟩
  -- a real parameter
  have real : ∀ (p : Param ℝ) (k : Str), RealParam p → KindOk d p → InRange p (y k) → ∃ v ∈ Set.Icc (0 : ℝ) 1, paramValue d p v 0 = y k ∧
      ∃ δ > 0, ∀ x : ℝ, |x - v| < δ → |(paramValue d p x 0).re - (y k).re| < ε ∧ |(paramValue d p x 0).im - (y k).im| < ε := by
    intro p k hp hkd hy
    obtain ⟨v, hv, w, -, e⟩ := paramValue_hits hp.drawable hkd hy
    rw [real_second hp] at e
    obtain ⟨c1, c2⟩ := paramValue_continuous d p
    obtain ⟨δ, hδ, h1⟩ := near_of_continuous c1 v 0 (congrArg Num.re e) hε
    obtain ⟨δ', hδ', h2⟩ := near_of_continuous c2 v 0 (congrArg Num.im e) hε
    refine ⟨v, hv, e, min δ δ', lt_min hδ hδ', fun x hx => ?_⟩
    exact ⟨h1 x 0 (hx.trans_le (min_le_left _ _)) (by simpa using hδ), h2 x 0 (hx.trans_le (min_le_right _ _)) (by simpa using hδ')⟩
  -- thickness and roughness
  have rest : ∃ v ∈ Set.Icc (0 : ℝ) 1, ∃ w ∈ Set.Icc (0 : ℝ) 1, ∃ δ > 0, ∀ x x' : ℝ, |x - v| < δ → |x' - w| < δ →
      (∀ p, l.thickness = some p → |(paramValue d p x 0).re - (y (l.name ++ "_thickness".toList)).re| < ε ∧
        |(paramValue d p x 0).im - (y (l.name ++ "_thickness".toList)).im| < ε) ∧
      (∀ q, l.roughness = some q → l.thickness = none → |(paramValue d q x' 0).re - (y (l.name ++ "_roughness".toList)).re| < ε ∧
        |(paramValue d q x' 0).im - (y (l.name ++ "_roughness".toList)).im| < ε) ∧
      (∀ p q, l.thickness = some p → l.roughness = some q →
        |roughnessValue d q (paramValue d p x 0).re x' - (y (l.name ++ "_roughness".toList)).re| < ε ∧
        (y (l.name ++ "_roughness".toList)).im = 0) := by
    cases h : l.thickness with
    | none =>
      cases h' : l.roughness with
      | none => exact ⟨0, z, 0, z, 1, one_pos, fun _ _ _ _ => ⟨fun p hp => (by cases hp), fun q hq => (by cases hq), fun p q hp => (by cases hp)⟩⟩
      | some q =>
        obtain ⟨w, hw, -, δ, hδ, h1⟩ := real q _ (hl.roughness q h') (positive_of_real (hl.roughness q h') (hk.roughness q h')) (hr q h')
        refine ⟨0, z, w, hw, δ, hδ, fun x x' _ hx' => ⟨fun p hp => (by cases hp), fun q' hq' _ => ?_, fun p q hp => (by cases hp)⟩⟩
        cases hq'
        exact h1 x' hx'
    | some p =>
      obtain ⟨v, hv, e, δ, hδ, h1⟩ := real p _ (hl.thickness p h) (hk.thickness p h) (ht p h)
      cases h' : l.roughness with
      | none =>
        refine ⟨v, hv, 0, z, δ, hδ, fun x x' hx _ => ⟨fun p' hp' => ?_, fun q hq => (by cases hq), fun p q _ hq => (by cases hq)⟩⟩
        cases hp'
        exact h1 x hx
      | some q =>
        obtain ⟨t, et⟩ := real_value (hl.thickness p h) (ht p h)
        obtain ⟨r, er⟩ := real_value (hl.roughness q h') (hr q h')
        obtain ⟨w, hw, e'⟩ := roughnessValue_hits (hl.roughness q h') (hk.roughness q h') (hr q h') (by rw [← et]; exact hb p q h h')
        have hc : Continuous fun a : ℝ × ℝ => roughnessValue d q (paramValue d p a.1 0).re a.2 := by
          have c1 : Continuous fun a : ℝ × ℝ => ((paramValue d p a.1 0).re, a.2) :=
            (((paramValue_continuous d p).1.comp (continuous_fst.prodMk continuous_const)).prodMk continuous_snd)
          exact (roughnessValue_continuous (hl.roughness q h') (hk.roughness q h')).comp c1
        obtain ⟨δ', hδ', h2⟩ := near_of_continuous hc v w (y := (y (l.name ++ "_roughness".toList)).re) (by
          show roughnessValue d q (paramValue d p v 0).re w = _
          rw [e, et, ← e']
          rfl) hε
        refine ⟨v, hv, w, hw, min δ δ', lt_min hδ hδ', fun x x' hx hx' => ⟨fun p' hp' => ?_, fun q _ hp => (by cases hp), fun p' q' hp' hq' => ?_⟩⟩
        · cases hp'
          exact h1 x (hx.trans_le (min_le_left _ _))
        · cases hp'
          cases hq'
          exact ⟨h2 x x' (hx.trans_le (min_le_right _ _)) (hx'.trans_le (min_le_right _ _)), by rw [er]; rfl⟩
  obtain ⟨v1, hv1, w1, hw1, δ1, hδ1, h1⟩ := sld
  obtain ⟨v2, hv2, w2, hw2, δ2, hδ2, h2⟩ := rest
  refine ⟨fun c => match c with | .sldRe => v1 | .sldIm => w1 | .thickness => v2 | .roughness => w2, fun c => ?_, min δ1 δ2, lt_min hδ1 hδ2,
    fun x hx => ?_⟩
  · cases c
    exacts [hv1, hw1, hv2, hw2]
  · obtain ⟨a, b, c⟩ := h2 (x .thickness) (x .roughness) ((hx .thickness).trans_le (min_le_right _ _)) ((hx .roughness).trans_le (min_le_right _ _))
    exact ⟨h1 (x .sldRe) (x .sldIm) ((hx .sldRe).trans_le (min_le_left _ _)) ((hx .sldIm).trans_le (min_le_left _ _)), a, b, c⟩

/-! ### The whole row -/

/-- A uniform number is close to every number of `[0, 1]` with positive probability. -/
theorem unif_near {v δ : ℝ} (hv : v ∈ Set.Icc (0 : ℝ) 1) (hδ : 0 < δ) : 0 < volume.restrict (Set.Ico (0 : ℝ) 1) {x : ℝ | |x - v| < δ} := by
  rw [Measure.restrict_apply' measurableSet_Ico]
  have hlt : max 0 (v - δ) < min 1 (v + δ) := by
    rw [max_lt_iff, lt_min_iff, lt_min_iff]
    refine ⟨⟨zero_lt_one, ?_⟩, ?_, ?_⟩ <;> linarith [hv.1, hv.2]
  refine lt_of_lt_of_le ?_ (measure_mono (s := Set.Ioo (max 0 (v - δ)) (min 1 (v + δ))) ?_)
  · rw [Real.volume_Ioo, ENNReal.ofReal_pos]
    linarith
  · rintro x ⟨h1, h2⟩
    rw [max_lt_iff] at h1
    rw [lt_min_iff] at h2
    refine ⟨?_, h1.1.le, h2.1⟩
    show |x - v| < δ
    rw [abs_lt]
    constructor <;> linarith [h1.2, h2.2]

/-- The probability to come close to a set of labels has a positive bound that does not depend on the number of rows. -/
theorem support_bound (s : SampleV ℝ) (hs : SampleRegular s) (hn : (partNames s).Nodup) (d : DistArgs)
    (hl : ∀ l ∈ s.structure_, LayerDrawable l ∧ LayerKindOk d.kind l) (y : Str → Num ℝ) (hy : RowWithin s y) (ε : ℝ) (hε : 0 < ε) :
    ∃ p : ENNReal, 0 < p ∧ ∀ (Ω : Type) [MeasurableSpace Ω] (P : Measure Ω) (C : Chance Ω P) (n : ℕ) (k : ℕ) (T : Ω → Frame (Num ℝ)),
      (∀ ω, ∃ g', generateRandomLabels C.rng.toRng s n d (ω, k) = .ok (T ω, g')) → ∀ i : Fin n, ∃ A, MeasurableSet A ∧ p ≤ P A ∧
      A ⊆ {ω | RowNear (T ω) i (expectedLabels s.substrate.name (s.layers.map (·.name)) s.ambient.name) y ε} := by
  have hst : ∀ l, l ∈ s.structure_ ↔ l ∈ s.substrate :: s.layers ++ [s.ambient] := by
    intro l
    simp [SampleV.structure_]
  have key : ∀ j : ℕ, ∃ (v : Part → ℝ) (δ : ℝ), (∀ c, v c ∈ Set.Icc (0 : ℝ) 1) ∧ 0 < δ ∧ ∀ l, s.structure_[j]? = some l →
      ∀ x : Part → ℝ, (∀ c, |x c - v c| < δ) → LayerNear d.kind l y ε x := by
    intro j
    cases hj : s.structure_[j]? with
    | none => exact ⟨fun _ => 0, 1, fun _ => ⟨le_refl _, zero_le_one⟩, one_pos, fun l hl => by cases hl⟩
    | some l =>
      have hm := List.mem_of_getElem? hj
      have hm' := (hst l).1 hm
      have hfilm : ∀ p, l.thickness = some p → l ∈ s.layers := by
        intro p hp
        rcases List.mem_cons.1 (by simpa using hm' : l ∈ s.substrate :: (s.layers ++ [s.ambient])) with rfl | h
        · rw [hs.substrate.thickness] at hp
          cases hp
        · rcases List.mem_append.1 h with h | h
          · exact h
          · rw [List.mem_singleton.1 h, hs.ambient.thickness] at hp
            cases hp
      have hrough : ∀ q, l.roughness = some q → l ∈ s.substrate :: s.layers := by
        intro q hq
        rcases List.mem_append.1 hm' with h | h
        · exact h
        · rw [List.mem_singleton.1 h, hs.ambient.roughness] at hq
          cases hq
      obtain ⟨v, hv, δ, hδ, h⟩ := layer_near (hl l hm).1 (hl l hm).2 (y := y) (fun p hp => hy.sld l hm' p hp)
        (fun p hp => hy.thickness l (hfilm p hp) p hp) (fun q hq => hy.roughness l (hrough q hq) q hq)
        (fun p q hp hq => hy.limit l (hfilm p hp) q hq) hε
      refine ⟨v, δ, hv, hδ, fun l' hl' => ?_⟩
      cases hl'
      exact h
  choose v δ hv hδ hnear using key
  refine ⟨∏ j ∈ Finset.range s.structure_.length, ∏ c ∈ ({.sldRe, .sldIm, .thickness, .roughness} : Finset Part),
    volume.restrict (Set.Ico (0 : ℝ) 1) {x : ℝ | |x - v j c| < δ j}, ?_, ?_⟩
  · exact pos_iff_ne_zero.2 (Finset.prod_ne_zero_iff.2 fun j _ => Finset.prod_ne_zero_iff.2 fun c _ => (unif_near (hv j c) (hδ j)).ne')
  intro Ω _ P C n k T hT i
  obtain ⟨V, mV, iV, lV, hV⟩ := C124_table C s hs hn d hl n (Fin.pos i) k
  have hcol : ∀ ω, ∀ (j : ℕ) (l : LayerV ℝ), s.structure_[j]? = some l → LayerColumns d.kind n (fun c => V c ω) j (T ω) l := by
    intro ω
    obtain ⟨f, g', h1, -, h2⟩ := hV ω
    obtain ⟨g'', h3⟩ := hT ω
    rw [h1] at h3
    cases h3
    exact h2
  set S : Finset Cell := (Finset.range s.structure_.length) ×ˢ (({(i : ℕ)} : Finset ℕ) ×ˢ ({.sldRe, .sldIm, .thickness, .roughness} : Finset Part)) with hS
  set B : Cell → Set ℝ := fun c => {x | |x - v c.1 c.2.2| < δ c.1} with hB
  have mB : ∀ c, MeasurableSet (B c) := fun c => by
    refine measurableSet_lt ?_ measurable_const
    fun_prop
  have hprod := iV.measure_inter_preimage_eq_mul S (sets := B) (fun c _ => mB c)
  have hvalue : P (⋂ c ∈ S, V c ⁻¹' B c) = ∏ j ∈ Finset.range s.structure_.length, ∏ c ∈ ({.sldRe, .sldIm, .thickness, .roughness} : Finset Part),
      volume.restrict (Set.Ico (0 : ℝ) 1) {x : ℝ | |x - v j c| < δ j} := by
    rw [hprod, hS, Finset.prod_product]
    refine Finset.prod_congr rfl fun j _ => ?_
    rw [Finset.prod_product, Finset.prod_singleton]
    refine Finset.prod_congr rfl fun c _ => ?_
    rw [← Measure.map_apply (mV _) (mB _), lV]
  refine ⟨⋂ c ∈ S, V c ⁻¹' B c, Finset.measurableSet_biInter _ fun c _ => mV c (mB c), hvalue.ge, fun ω hω => ?_⟩
  have hcell : ∀ (j : ℕ), j < s.structure_.length → ∀ c : Part, |V (j, i, c) ω - v j c| < δ j := by
    intro j hj c
    have : (j, (i : ℕ), c) ∈ S := by
      rw [hS]
      simp only [Finset.mem_product, Finset.mem_range, Finset.mem_singleton]
      refine ⟨hj, trivial, ?_⟩
      cases c <;> simp
    exact Set.mem_iInter₂.1 hω _ this
  have hlay : ∀ l ∈ s.structure_, ∃ j, s.structure_[j]? = some l ∧ LayerNear d.kind l y ε (fun c => V (j, i, c) ω) := by
    intro l hm
    obtain ⟨j, hj⟩ := List.getElem?_of_mem hm
    exact ⟨j, hj, hnear j l hj _ (hcell j (List.getElem?_eq_some_iff.1 hj).1)⟩
  intro label hlabel
  unfold expectedLabels at hlabel
  rcases List.mem_append.1 hlabel with hlabel | hlabel
  · rcases List.mem_append.1 hlabel with hlabel | hlabel
    · simp only [List.map_map, List.mem_map, Function.comp_apply] at hlabel
      obtain ⟨l, hm, rfl⟩ := hlabel
      obtain ⟨j, hj, hln⟩ := hlay l ((hst l).2 (by simp [hm]))
      obtain ⟨p, hp, -⟩ := (hs.layers l hm).thickness
      rw [rowOf_ofFn ((hcol ω j l hj).thickness p hp)]
      exact hln.thickness p hp
    · rw [← List.map_cons (f := fun l : LayerV ℝ => l.name)] at hlabel
      simp only [List.map_map, List.mem_map, Function.comp_apply] at hlabel
      obtain ⟨l, hm, rfl⟩ := hlabel
      obtain ⟨j, hj, hln⟩ := hlay l ((hst l).2 (List.mem_append_left _ hm))
      rcases List.mem_cons.1 hm with rfl | hm
      · obtain ⟨q, hq, -⟩ := hs.substrate.roughness
        rw [rowOf_ofFn ((hcol ω j _ hj).roughness q hq hs.substrate.thickness)]
        exact hln.roughness q hq hs.substrate.thickness
      · obtain ⟨p, hp, -⟩ := (hs.layers l hm).thickness
        obtain ⟨q, hq, -⟩ := (hs.layers l hm).roughness
        rw [rowOf_ofFn ((hcol ω j l hj).film p q hp hq)]
        obtain ⟨h1, h2⟩ := hln.film p q hp hq
        refine ⟨h1, ?_⟩
        rw [h2]
        simpa [Num.im] using hε
  · have e : s.substrate.name :: s.layers.map (·.name) ++ [s.ambient.name] = (s.substrate :: s.layers ++ [s.ambient]).map fun l : LayerV ℝ => l.name := by
      simp
    rw [e] at hlabel
    simp only [List.map_map, List.mem_map, Function.comp_apply] at hlabel
    obtain ⟨l, hm, rfl⟩ := hlabel
    obtain ⟨j, hj, hln⟩ := hlay l ((hst l).2 hm)
    obtain ⟨p, hp⟩ : ∃ p, l.sld = some p := Option.ne_none_iff_exists'.1 (sample_parts hs l ((hst l).2 hm)).1
    rw [rowOf_ofFn ((hcol ω j l hj).sld p hp)]
    exact hln.sld p hp

/-- **C129** (all structures are seen): for uniform and logarithmic sampling, every set of labels that the ranges of the sample allow is approached
by every row of the random labels, up to any error `ε`, with a positive probability. -/
theorem C129_support (C : Chance Ω P) (s : SampleV ℝ) (hs : SampleRegular s) (hn : (partNames s).Nodup) (d : DistArgs)
    (hl : ∀ l ∈ s.structure_, LayerDrawable l ∧ LayerKindOk d.kind l) (n : ℕ) (k : ℕ) (T : Ω → Frame (Num ℝ))
    (hT : ∀ ω, ∃ g', generateRandomLabels C.rng.toRng s n d (ω, k) = .ok (T ω, g')) (i : Fin n) (y : Str → Num ℝ) (hy : RowWithin s y)
    (ε : ℝ) (hε : 0 < ε) :
    0 < P {ω | RowNear (T ω) i (expectedLabels s.substrate.name (s.layers.map (·.name)) s.ambient.name) y ε} := by
  obtain ⟨p, hp, h⟩ := support_bound s hs hn d hl y hy ε hε
  obtain ⟨A, -, hA, hsub⟩ := h Ω P C n k T hT i
  exact hp.trans_le (hA.trans (measure_mono hsub))

/-- **C129** (training sets become dense): the probability that no row of a table of `n` random labels is close to a given admissible set of labels
decreases at least like a power `(1 - p) ^ n` with `p > 0`. -/
theorem C129_dense (s : SampleV ℝ) (hs : SampleRegular s) (hn : (partNames s).Nodup) (d : DistArgs)
    (hl : ∀ l ∈ s.structure_, LayerDrawable l ∧ LayerKindOk d.kind l) (y : Str → Num ℝ) (hy : RowWithin s y) (ε : ℝ) (hε : 0 < ε) :
    ∃ p : ENNReal, 0 < p ∧ ∀ (Ω : Type) [MeasurableSpace Ω] (P : Measure Ω) (C : Chance Ω P) (n : ℕ) (k : ℕ) (T : Ω → Frame (Num ℝ)), 0 < n →
      (∀ ω, ∃ g', generateRandomLabels C.rng.toRng s n d (ω, k) = .ok (T ω, g')) →
      P {ω | ∀ i : Fin n, ¬ RowNear (T ω) i (expectedLabels s.substrate.name (s.layers.map (·.name)) s.ambient.name) y ε} ≤ (1 - p) ^ n := by
  obtain ⟨p, hp, h⟩ := support_bound s hs hn d hl y hy ε hε
  refine ⟨p, hp, fun Ω _ P C n k T hpos hT => ?_⟩
  have := chance_prob C
  set labels := expectedLabels s.substrate.name (s.layers.map (·.name)) s.ambient.name with hlabels
  obtain ⟨T', hT', ind, -⟩ := C124_rows C s hs hn d hl n hpos k
  have hTT : T' = T := by
    funext ω
    obtain ⟨g1, h1⟩ := hT ω
    obtain ⟨g2, h2⟩ := hT' ω
    rw [h1] at h2
    exact (congrArg Prod.fst (Except.ok.inj h2)).symm
  rw [hTT] at ind
  set M : Set (Str → ℝ × ℝ) := {r | ∀ k ∈ labels, |(r k).1 - (y k).re| < ε ∧ |(r k).2 - (y k).im| < ε} with hM
  have mM : MeasurableSet M := by
    have e : M = ⋂ k ∈ {k | k ∈ labels}, {r : Str → ℝ × ℝ | |(r k).1 - (y k).re| < ε ∧ |(r k).2 - (y k).im| < ε} := by
      ext r
      simp [hM]
    rw [e]
    refine MeasurableSet.biInter (List.finite_toSet labels).countable fun k _ => ?_
    have m1 : Measurable fun r : Str → ℝ × ℝ => |(r k).1 - (y k).re| := by fun_prop
    have m2 : Measurable fun r : Str → ℝ × ℝ => |(r k).2 - (y k).im| := by fun_prop
    exact (measurableSet_lt m1 measurable_const).inter (measurableSet_lt m2 measurable_const)
  have hprod := ind.measure_inter_preimage_eq_mul Finset.univ (sets := fun _ => Mᶜ) (fun _ _ => mM.compl)
  have e : {ω | ∀ i : Fin n, ¬ RowNear (T ω) i labels y ε} = ⋂ i ∈ (Finset.univ : Finset (Fin n)), (fun ω => rowOf (T ω) i) ⁻¹' Mᶜ := by
    ext ω
    simp [hM, RowNear]
  rw [e, hprod]
  refine (Finset.prod_le_prod' (g := fun _ => 1 - p) fun i _ => ?_).trans (by simp)
  obtain ⟨A, mA, hA, hsub⟩ := h Ω P C n k T hT i
  calc P ((fun ω => rowOf (T ω) i) ⁻¹' Mᶜ) ≤ P Aᶜ := measure_mono fun ω hω hc => hω (hsub hc)
    _ = 1 - P A := prob_compl_eq_one_sub mA
    _ ≤ 1 - p := tsub_le_tsub_left hA 1

/-- Labels of the sample `exampleTableSample`: a film of 12 Å with a roughness of 3 Å. -/
noncomputable def exampleLabels (k : Str) : Num ℝ :=
  if k = "film_thickness".toList then .real 12
  else if k = "film_roughness".toList then .real 3
  else if k = "film_sld".toList then .cplx true (3 / 2) (5 / 4)
  else if k = "Si_roughness".toList then .real 1
  else if k = "Si_sld".toList then .real 20
  else .real 0

theorem exampleLabels_within : RowWithin exampleTableSample exampleLabels := by
  have e1 : exampleLabels ("film".toList ++ "_thickness".toList) = .real 12 := by
    unfold exampleLabels; rw [if_pos (by decide)]
  have e2 : exampleLabels ("film".toList ++ "_roughness".toList) = .real 3 := by
    unfold exampleLabels; rw [if_neg (by decide), if_pos (by decide)]
  have e3 : exampleLabels ("film".toList ++ "_sld".toList) = .cplx true (3 / 2) (5 / 4) := by
    unfold exampleLabels; rw [if_neg (by decide), if_neg (by decide), if_pos (by decide)]
  have e4 : exampleLabels ("Si".toList ++ "_roughness".toList) = .real 1 := by
    unfold exampleLabels; rw [if_neg (by decide), if_neg (by decide), if_neg (by decide), if_pos (by decide)]
  have e5 : exampleLabels ("Si".toList ++ "_sld".toList) = .real 20 := by
    unfold exampleLabels; rw [if_neg (by decide), if_neg (by decide), if_neg (by decide), if_neg (by decide), if_pos (by decide)]
  have e6 : exampleLabels ("air".toList ++ "_sld".toList) = .real 0 := by
    unfold exampleLabels
    rw [if_neg (by decide), if_neg (by decide), if_neg (by decide), if_neg (by decide), if_neg (by decide)]
  refine ⟨?_, ?_, ?_, ?_⟩ <;> intro l hl p hp <;>
    simp only [exampleTableSample, List.cons_append, List.nil_append, List.mem_cons, List.not_mem_nil, or_false] at hl
  · rcases hl with rfl | rfl | rfl <;> cases hp
    · exact e5
    · refine ⟨3 / 2, 5 / 4, e3, ?_, ?_⟩ <;> simp only [Num.re, Num.im] <;> rw [Set.uIcc_of_le (by norm_num)] <;> constructor <;> norm_num
    · exact e6
  · rcases hl with rfl | rfl <;> cases hp
    · exact e4
    · exact ⟨3, e2, by norm_num, by norm_num⟩
  · subst hl
    cases hp
    exact ⟨12, e1, by norm_num, by norm_num⟩
  · subst hl
    cases hp
    exact ⟨0, 12, 3, rfl, e1, e2, by norm_num⟩

/-- The hypotheses of C129 hold for a film with a complex range. -/
example (n : ℕ) (hn : 0 < n) : ∃ T : (ChanceIdx → ℝ) → Frame (Num ℝ),
    (∀ ω, ∃ g', generateRandomLabels Chance.product.rng.toRng exampleTableSample n ⟨.uniform, none, none⟩ (ω, 0) = .ok (T ω, g')) ∧
    ∀ (i : Fin n) (ε : ℝ), 0 < ε → 0 < Measure.infinitePi ChanceIdx.law {ω | RowNear (T ω) i
      (expectedLabels exampleTableSample.substrate.name (exampleTableSample.layers.map (·.name)) exampleTableSample.ambient.name)
      exampleLabels ε} := by
  have H : ∀ l ∈ exampleTableSample.structure_, LayerDrawable l ∧ LayerKindOk .uniform l := fun l hl =>
    ⟨exampleTable_drawable l hl, fun _ _ => Or.inl rfl, fun _ _ => Or.inl rfl, fun _ _ => Or.inl rfl⟩
  have hnd : (partNames exampleTableSample).Nodup := by simp only [partNames, exampleTableSample]; decide
  obtain ⟨T, hT, -⟩ := C124_rows Chance.product exampleTableSample exampleTable_regular hnd ⟨.uniform, none, none⟩ H n hn 0
  exact ⟨T, hT, fun i ε hε => C129_support Chance.product exampleTableSample exampleTable_regular hnd ⟨.uniform, none, none⟩ H n 0 T hT i
    exampleLabels exampleLabels_within ε hε⟩

end Verif.Props
