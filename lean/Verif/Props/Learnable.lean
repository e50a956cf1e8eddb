import Verif.Props.TestSet
import Mathlib.Topology.TietzeExtension

/-!
# C132: which labels can be learned

A label can be predicted from curves without error, by a continuous function, exactly if admissible labels with the same curve agree in it.
-/

namespace Verif.Props
open Verif.Py Verif.Model Verif.Spec Verif.Lemmas Complex Filter Topology MeasureTheory ProbabilityTheory

/-! ### Functions of functions on compact spaces -/

/-- On a compact space, a continuous function that is determined by another one is a continuous function of it. -/
theorem factor_continuous {X : Type} [TopologicalSpace X] [CompactSpace X] {n : ℕ} (f : X → Fin n → ℝ) (hf : Continuous f) (g : X → ℝ)
    (hg : Continuous g) (h : ∀ a b, f a = f b → g a = g b) : ∃ N : (Fin n → ℝ) → ℝ, Continuous N ∧ ∀ x, N (f x) = g x := by
  let π : X → Set.range f := Set.rangeFactorization f
  have cπ : Continuous π := hf.subtype_mk _
  have hq : IsQuotientMap π := cπ.isClosedMap.isQuotientMap cπ Set.rangeFactorization_surjective
  let φ : Set.range f → ℝ := fun v => g v.2.choose
  have hφ : ∀ x, φ (π x) = g x := fun x => h _ _ (π x).2.choose_spec
  have cφ : Continuous φ := by
    rw [hq.continuous_iff]
    have : φ ∘ π = g := funext hφ
    rw [this]
    exact hg
  obtain ⟨N, hN⟩ := ContinuousMap.exists_restrict_eq (isCompact_range hf).isClosed (⟨φ, cφ⟩ : C(Set.range f, ℝ))
  refine ⟨N, N.continuous, fun x => ?_⟩
  rw [← hφ x]
  exact congrArg (fun F : C(Set.range f, ℝ) => F (π x)) hN

/-! ### The set of admissible labels is compact -/

/-- The values that a parameter allows, as pairs. -/
def box (p : Param ℝ) : Set (ℝ × ℝ) := Set.uIcc p.min.re p.max.re ×ˢ Set.uIcc p.min.im p.max.im

theorem box_compact (p : Param ℝ) : IsCompact (box p) := isCompact_uIcc.prod isCompact_uIcc

theorem inRange_box {p : Param ℝ} {v : Num ℝ} (h : InRange p v) : (v.re, v.im) ∈ box p := by
  unfold box
  cases p with
  | const c nm =>
    cases h
    exact ⟨by simp [Param.min, Param.max], by simp [Param.min, Param.max]⟩
  | range a b nm =>
    have aux : ∀ x y : ℝ, x ∈ Set.uIcc a.re b.re → y ∈ Set.uIcc a.im b.im →
        ((Num.cplx true x y : Num ℝ).re, (Num.cplx true x y : Num ℝ).im) ∈ Set.uIcc a.re b.re ×ˢ Set.uIcc a.im b.im := fun x y h1 h2 => ⟨h1, h2⟩
    cases a <;> cases b
    · obtain ⟨x, rfl, h1, h2⟩ := h
      exact ⟨by simpa [Num.re, Param.min, Param.max] using Set.Icc_subset_uIcc ⟨h1, h2⟩, by simp [Num.im, Param.min, Param.max]⟩
    all_goals
      obtain ⟨x, y, rfl, hx, hy⟩ := h
      exact aux x y hx hy

/-- A value of a parameter from its parts. -/
def toNum : Param ℝ → ℝ × ℝ → Num ℝ
  | .const c _, _ => c
  | .range (.real _) (.real _) _, x => .real x.1
  | .range _ _ _, x => .cplx true x.1 x.2

theorem toNum_inRange {p : Param ℝ} (hp : Drawable p) {x : ℝ × ℝ} (h : x ∈ box p) : InRange p (toNum p x) ∧ ((toNum p x).re, (toNum p x).im) = x := by
  obtain ⟨h1, h2⟩ := h
  cases p with
  | const c nm =>
    simp only [Param.min, Param.max, Set.uIcc_self, Set.mem_singleton_iff] at h1 h2
    exact ⟨rfl, Prod.ext h1.symm h2.symm⟩
  | range a b nm =>
    obtain ⟨o1, o2, -⟩ := hp
    cases a <;> cases b
    · simp only [Param.min, Param.max, Num.re, Num.im, Set.uIcc_self, Set.mem_singleton_iff] at h1 h2 o1
      rw [Set.uIcc_of_le o1] at h1
      exact ⟨⟨x.1, rfl, h1.1, h1.2⟩, Prod.ext rfl h2.symm⟩
    all_goals exact ⟨⟨x.1, x.2, rfl, h1, h2⟩, rfl⟩

/-- Labels as pairs that the ranges of the sample allow. -/
structure Admissible (s : SampleV ℝ) (z : Str → ℝ × ℝ) : Prop where
  sld : ∀ l ∈ s.substrate :: s.layers ++ [s.ambient], ∀ p, l.sld = some p → z (l.name ++ "_sld".toList) ∈ box p
  roughness : ∀ l ∈ s.substrate :: s.layers, ∀ p, l.roughness = some p → z (l.name ++ "_roughness".toList) ∈ box p
  thickness : ∀ l ∈ s.layers, ∀ p, l.thickness = some p → z (l.name ++ "_thickness".toList) ∈ box p
  limit : ∀ l ∈ s.layers, ∀ p, l.roughness = some p →
    (z (l.name ++ "_roughness".toList)).1 ≤ max p.min.re ((z (l.name ++ "_thickness".toList)).1 / 2)

theorem row_admissible {s : SampleV ℝ} {y : Str → Num ℝ} (h : RowWithin s y) : Admissible s (pairs y) := by
  refine ⟨fun l hl p hp => inRange_box (h.sld l hl p hp), fun l hl p hp => inRange_box (h.roughness l hl p hp),
    fun l hl p hp => inRange_box (h.thickness l hl p hp), fun l hl p hp => ?_⟩
  obtain ⟨m, t, r, h1, h2, h3, h4⟩ := h.limit l hl p hp
  unfold pairs
  rw [h1, h2, h3]
  exact h4

/-- The parameter of a label. -/
def HasParam (s : SampleV ℝ) (k : Str) (p : Param ℝ) : Prop :=
  (∃ l ∈ s.substrate :: s.layers ++ [s.ambient], l.sld = some p ∧ k = l.name ++ "_sld".toList) ∨
  (∃ l ∈ s.substrate :: s.layers, l.roughness = some p ∧ k = l.name ++ "_roughness".toList) ∨
  (∃ l ∈ s.layers, l.thickness = some p ∧ k = l.name ++ "_thickness".toList)

theorem same_part {s : SampleV ℝ} (hn : (partNames s).Nodup) {l l' : LayerV ℝ} (h : l ∈ s.substrate :: s.layers ++ [s.ambient])
    (h' : l' ∈ s.substrate :: s.layers ++ [s.ambient]) (e : l.name = l'.name) : l = l' := by
  have hn' : ((s.substrate :: s.layers ++ [s.ambient]).map (·.name)).Nodup := by simpa [partNames] using hn
  exact List.inj_on_of_nodup_map hn' h h' e

theorem HasParam.unique {s : SampleV ℝ} (hn : (partNames s).Nodup) {k : Str} {p p' : Param ℝ} (h : HasParam s k p) (h' : HasParam s k p') : p = p' := by
  have sub : ∀ l, l ∈ s.substrate :: s.layers → l ∈ s.substrate :: s.layers ++ [s.ambient] := fun l => List.mem_append_left _
  have sub' : ∀ l, l ∈ s.layers → l ∈ s.substrate :: s.layers ++ [s.ambient] := fun l h => List.mem_append_left _ (List.mem_cons_of_mem _ h)
  rcases h with ⟨l, hl, e, rfl⟩ | ⟨l, hl, e, rfl⟩ | ⟨l, hl, e, rfl⟩ <;> rcases h' with ⟨l', hl', e', k'⟩ | ⟨l', hl', e', k'⟩ | ⟨l', hl', e', k'⟩
  · rw [same_part hn hl hl' (List.append_left_injective _ k')] at e
    exact Option.some.inj (e.symm.trans e')
  · exact absurd k'.symm (roughness_ne_sld _ _)
  · exact absurd k'.symm (thickness_ne_sld _ _)
  · exact absurd k' (roughness_ne_sld _ _)
  · rw [same_part hn (sub _ hl) (sub _ hl') (List.append_left_injective _ k')] at e
    exact Option.some.inj (e.symm.trans e')
  · exact absurd k'.symm (thickness_ne_roughness _ _)
  · exact absurd k' (thickness_ne_sld _ _)
  · exact absurd k' (thickness_ne_roughness _ _)
  · rw [same_part hn (sub' _ hl) (sub' _ hl') (List.append_left_injective _ k')] at e
    exact Option.some.inj (e.symm.trans e')

/-- The values of drawable labels that the ranges allow. -/
theorem admissible_lift {s : SampleV ℝ} (hs : SampleRegular s) (hn : (partNames s).Nodup) (hl : ∀ l ∈ s.structure_, LayerDrawable l)
    {z : Str → ℝ × ℝ} (hz : Admissible s z) :
    ∃ y, RowWithin s y ∧ ∀ k ∈ expectedLabels s.substrate.name (s.layers.map (·.name)) s.ambient.name, pairs y k = z k := by
  classical
  let y : Str → Num ℝ := fun k => if h : ∃ p, HasParam s k p then toNum h.choose (z k) else .real 0
  have hy : ∀ k p, HasParam s k p → y k = toNum p (z k) := by
    intro k p hp
    have hex : ∃ p, HasParam s k p := ⟨p, hp⟩
    simp only [y, dif_pos hex]
    rw [hex.choose_spec.unique hn hp]
  have hst : ∀ l, l ∈ s.substrate :: s.layers ++ [s.ambient] → l ∈ s.structure_ := fun l hm => by simpa [SampleV.structure_] using hm
  have sub : ∀ l, l ∈ s.substrate :: s.layers → l ∈ s.substrate :: s.layers ++ [s.ambient] := fun l => List.mem_append_left _
  have sub' : ∀ l, l ∈ s.layers → l ∈ s.substrate :: s.layers ++ [s.ambient] := fun l h => List.mem_append_left _ (List.mem_cons_of_mem _ h)
  have v1 : ∀ l ∈ s.substrate :: s.layers ++ [s.ambient], ∀ p, l.sld = some p →
      InRange p (y (l.name ++ "_sld".toList)) ∧ pairs y (l.name ++ "_sld".toList) = z (l.name ++ "_sld".toList) := by
    intro l hm p hp
    unfold pairs
    rw [hy _ p (Or.inl ⟨l, hm, hp, rfl⟩)]
    exact toNum_inRange ((hl l (hst l hm)).sld p hp) (hz.sld l hm p hp)
  have v2 : ∀ l ∈ s.substrate :: s.layers, ∀ p, l.roughness = some p →
      InRange p (y (l.name ++ "_roughness".toList)) ∧ pairs y (l.name ++ "_roughness".toList) = z (l.name ++ "_roughness".toList) := by
    intro l hm p hp
    unfold pairs
    rw [hy _ p (Or.inr (Or.inl ⟨l, hm, hp, rfl⟩))]
    exact toNum_inRange ((hl l (hst l (sub l hm))).roughness p hp).drawable (hz.roughness l hm p hp)
  have v3 : ∀ l ∈ s.layers, ∀ p, l.thickness = some p →
      InRange p (y (l.name ++ "_thickness".toList)) ∧ pairs y (l.name ++ "_thickness".toList) = z (l.name ++ "_thickness".toList) := by
    intro l hm p hp
    unfold pairs
    rw [hy _ p (Or.inr (Or.inr ⟨l, hm, hp, rfl⟩))]
    exact toNum_inRange ((hl l (hst l (sub' l hm))).thickness p hp).drawable (hz.thickness l hm p hp)
  have real : ∀ {p : Param ℝ} {v : Num ℝ}, RealParam p → InRange p v → v = .real v.re := by
    intro p v hp hv
    obtain ⟨a, b, h1, h2, -⟩ := hp
    cases p with
    | const c nm => cases hv; simp only [Param.min] at h1; rw [h1]; rfl
    | range a' b' nm =>
      simp only [Param.min, Param.max] at h1 h2
      subst h1 h2
      obtain ⟨x, rfl, -, -⟩ := hv
      rfl
  refine ⟨y, ⟨fun l hm p hp => (v1 l hm p hp).1, fun l hm p hp => (v2 l hm p hp).1, fun l hm p hp => (v3 l hm p hp).1, fun l hm p hp => ?_⟩, ?_⟩
  · obtain ⟨t, ht, -⟩ := (hs.layers l hm).thickness
    have d := hl l (hst l (sub' l hm))
    obtain ⟨a1, a2⟩ := v2 l (List.mem_cons_of_mem _ hm) p hp
    obtain ⟨b1, b2⟩ := v3 l hm t ht
    obtain ⟨m, m', h1, -, -⟩ := d.roughness p hp
    refine ⟨m, _, _, h1, real (d.thickness t ht) b1, real (d.roughness p hp) a1, ?_⟩
    have h := hz.limit l hm p hp
    rw [← a2, ← b2, h1] at h
    exact h
  · intro k hk
    unfold expectedLabels at hk
    simp only [List.mem_append, List.mem_map, List.mem_cons, List.not_mem_nil, or_false] at hk
    rcases hk with (⟨_, ⟨l, hm, rfl⟩, rfl⟩ | ⟨_, h, rfl⟩) | ⟨_, h, rfl⟩
    · obtain ⟨t, ht, -⟩ := (hs.layers l hm).thickness
      exact (v3 l hm t ht).2
    · rcases h with rfl | ⟨l, hm, rfl⟩
      · obtain ⟨p, hp, -⟩ := hs.substrate.roughness
        exact (v2 s.substrate (by simp) p hp).2
      · obtain ⟨p, hp, -⟩ := (hs.layers l hm).roughness
        exact (v2 l (by simp [hm]) p hp).2
    · rcases h with (rfl | ⟨l, hm, rfl⟩) | rfl
      · obtain ⟨p, hp, -⟩ := hs.substrate.sld
        exact (v1 s.substrate (by simp) p hp).2
      · obtain ⟨p, hp, -⟩ := (hs.layers l hm).sld
        exact (v1 l (by simp [hm]) p hp).2
      · obtain ⟨p, hp, -⟩ := hs.ambient.sld
        exact (v1 s.ambient (by simp) p hp).2

theorem admissible_compact (s : SampleV ℝ) (hs : SampleRegular s) :
    IsCompact {x : LabelSpace (expectedLabels s.substrate.name (s.layers.map (·.name)) s.ambient.name) | Admissible s (atLabel x)} := by
  set labels := expectedLabels s.substrate.name (s.layers.map (·.name)) s.ambient.name with hlabels
  have hK : ∀ k : {k : Str // k ∈ labels}, ∃ B : Set (ℝ × ℝ), IsCompact B ∧ ∀ x : LabelSpace labels, Admissible s (atLabel x) → x k ∈ B := by
    rintro ⟨k, hk⟩
    have hat : ∀ x : LabelSpace labels, atLabel x k = x ⟨k, hk⟩ := fun x => dif_pos hk
    have hk' := hk
    rw [hlabels] at hk'
    unfold expectedLabels at hk'
    simp only [List.mem_append, List.mem_map, List.mem_cons, List.not_mem_nil, or_false] at hk'
    rcases hk' with (⟨_, ⟨l, hm, rfl⟩, rfl⟩ | ⟨_, h, rfl⟩) | ⟨_, h, rfl⟩
    · obtain ⟨p, hp, -⟩ := (hs.layers l hm).thickness
      exact ⟨box p, box_compact p, fun x hx => by rw [← hat x]; exact hx.thickness l hm p hp⟩
    · rcases h with rfl | ⟨l, hm, rfl⟩
      · obtain ⟨p, hp, -⟩ := hs.substrate.roughness
        exact ⟨box p, box_compact p, fun x hx => by rw [← hat x]; exact hx.roughness s.substrate (by simp) p hp⟩
      · obtain ⟨p, hp, -⟩ := (hs.layers l hm).roughness
        exact ⟨box p, box_compact p, fun x hx => by rw [← hat x]; exact hx.roughness l (by simp [hm]) p hp⟩
    · rcases h with (rfl | ⟨l, hm, rfl⟩) | rfl
      · obtain ⟨p, hp, -⟩ := hs.substrate.sld
        exact ⟨box p, box_compact p, fun x hx => by rw [← hat x]; exact hx.sld s.substrate (by simp) p hp⟩
      · obtain ⟨p, hp, -⟩ := (hs.layers l hm).sld
        exact ⟨box p, box_compact p, fun x hx => by rw [← hat x]; exact hx.sld l (by simp [hm]) p hp⟩
      · obtain ⟨p, hp, -⟩ := hs.ambient.sld
        exact ⟨box p, box_compact p, fun x hx => by rw [← hat x]; exact hx.sld s.ambient (by simp) p hp⟩
  choose B hB hxB using hK
  refine (isCompact_univ_pi hB).of_isClosed_subset ?_ fun x hx k _ => hxB k x hx
  have e : {x : LabelSpace labels | Admissible s (atLabel x)} =
      {x | ∀ l ∈ s.substrate :: s.layers ++ [s.ambient], ∀ p, l.sld = some p → atLabel x (l.name ++ "_sld".toList) ∈ box p} ∩
      {x | ∀ l ∈ s.substrate :: s.layers, ∀ p, l.roughness = some p → atLabel x (l.name ++ "_roughness".toList) ∈ box p} ∩
      {x | ∀ l ∈ s.layers, ∀ p, l.thickness = some p → atLabel x (l.name ++ "_thickness".toList) ∈ box p} ∩
      {x | ∀ l ∈ s.layers, ∀ p, l.roughness = some p →
        (atLabel x (l.name ++ "_roughness".toList)).1 ≤ max p.min.re ((atLabel x (l.name ++ "_thickness".toList)).1 / 2)} := by
    ext x
    exact ⟨fun h => ⟨⟨⟨h.sld, h.roughness⟩, h.thickness⟩, h.limit⟩, fun h => ⟨h.1.1.1, h.1.1.2, h.1.2, h.2⟩⟩
  rw [e]
  have cbox : ∀ (k : Str) (p : Param ℝ), IsClosed {x : LabelSpace labels | atLabel x k ∈ box p} := fun k p =>
    (box_compact p).isClosed.preimage (atLabel_continuous k)
  refine ((IsClosed.inter ?_ ?_).inter ?_).inter ?_
  · simp only [Set.ofPred_forall]
    exact isClosed_iInter fun l => isClosed_iInter fun _ => isClosed_iInter fun p => isClosed_iInter fun _ => cbox _ p
  · simp only [Set.ofPred_forall]
    exact isClosed_iInter fun l => isClosed_iInter fun _ => isClosed_iInter fun p => isClosed_iInter fun _ => cbox _ p
  · simp only [Set.ofPred_forall]
    exact isClosed_iInter fun l => isClosed_iInter fun _ => isClosed_iInter fun p => isClosed_iInter fun _ => cbox _ p
  · simp only [Set.ofPred_forall]
    refine isClosed_iInter fun l => isClosed_iInter fun _ => isClosed_iInter fun p => isClosed_iInter fun _ => ?_
    exact isClosed_le (atLabel_continuous _).fst (continuous_const.max ((atLabel_continuous _).fst.div_const 2))

/-! ### Labels that the curves determine -/

/-- Admissible labels with the same simulated curve have the same value of a label. -/
def Determined (s : SampleV ℝ) (q : List ℝ) (key : Str) : Prop :=
  ∀ y y' : Str → Num ℝ, RowWithin s y → RowWithin s y' → curveFor s q (pairs y) = curveFor s q (pairs y') → (y key).re = (y' key).re

theorem curveFor_congr (s : SampleV ℝ) (q : List ℝ) {z z' : Str → ℝ × ℝ}
    (h : ∀ k ∈ expectedLabels s.substrate.name (s.layers.map (·.name)) s.ambient.name, z k = z' k) : curveFor s q z = curveFor s q z' := by
  obtain ⟨m1, m2, m3⟩ := mem_labels (s := s)
  unfold curveFor
  rw [h _ (m3 s.ambient (by simp))]
  congr 1
  · exact List.map_congr_left fun l hl => by rw [h _ (m1 l hl)]
  · exact List.map_congr_left fun l hl => by rw [h _ (m2 l hl)]
  · exact List.map_congr_left fun l hl => by rw [h _ (m3 l (List.mem_append_left _ hl))]

theorem Admissible.congr {s : SampleV ℝ} {z z' : Str → ℝ × ℝ} (hz : Admissible s z)
    (h : ∀ k ∈ expectedLabels s.substrate.name (s.layers.map (·.name)) s.ambient.name, z k = z' k) : Admissible s z' := by
  obtain ⟨m1, m2, m3⟩ := mem_labels (s := s)
  refine ⟨fun l hl p hp => ?_, fun l hl p hp => ?_, fun l hl p hp => ?_, fun l hl p hp => ?_⟩
  · rw [← h _ (m3 l hl)]; exact hz.sld l hl p hp
  · rw [← h _ (m2 l hl)]; exact hz.roughness l hl p hp
  · rw [← h _ (m1 l hl)]; exact hz.thickness l hl p hp
  · rw [← h _ (m1 l hl), ← h _ (m2 l (List.mem_cons_of_mem _ hl))]; exact hz.limit l hl p hp

/-- Admissible labels have no density in the ambient and no negative absorption. -/
theorem within_physical {s : SampleV ℝ} (hs : SampleRegular s) {nm : Option Str} (hamb : s.ambient.sld = some (.const (.real 0) nm))
    (habs : ∀ l ∈ s.substrate :: s.layers, ∀ p, l.sld = some p → 0 ≤ p.min.im ∧ 0 ≤ p.max.im) {z : Str → Num ℝ} (hz : RowWithin s z) :
    pairs z (s.ambient.name ++ "_sld".toList) = (0, 0) ∧ ∀ l ∈ s.substrate :: s.layers, 0 ≤ (pairs z (l.name ++ "_sld".toList)).2 := by
  constructor
  · have : z (s.ambient.name ++ "_sld".toList) = .real 0 := hz.sld s.ambient (by simp) _ hamb
    unfold pairs
    rw [this]
    rfl
  · intro l hm
    obtain ⟨p, hp⟩ : ∃ p, l.sld = some p := by
      rcases List.mem_cons.1 hm with rfl | hm
      · obtain ⟨p, hp, -⟩ := hs.substrate.sld
        exact ⟨p, hp⟩
      · obtain ⟨p, hp, -⟩ := (hs.layers l hm).sld
        exact ⟨p, hp⟩
    exact inRange_absorption (hz.sld l (List.mem_append_left _ hm) p hp) (habs l hm p hp).1 (habs l hm p hp).2

/-- The curve is a continuous function on the set of admissible labels. -/
theorem curve_map (s : SampleV ℝ) (hs : SampleRegular s) (hn : (partNames s).Nodup) (hl : ∀ l ∈ s.structure_, LayerDrawable l) (nm : Option Str)
    (hamb : s.ambient.sld = some (.const (.real 0) nm)) (habs : ∀ l ∈ s.substrate :: s.layers, ∀ p, l.sld = some p → 0 ≤ p.min.im ∧ 0 ≤ p.max.im)
    (q : List ℝ) (hnum : ∀ y, RowWithin s y → ∃ v : Fin q.length → ℝ, curveFor s q (pairs y) = .ok (List.ofFn fun j => some (v j))) :
    ∃ F : {x : LabelSpace (expectedLabels s.substrate.name (s.layers.map (·.name)) s.ambient.name) | Admissible s (atLabel x)} → Fin q.length → ℝ,
      Continuous F ∧ ∀ x, curveFor s q (atLabel x.1) = .ok (List.ofFn fun j => some (F x j)) := by
  set labels := expectedLabels s.substrate.name (s.layers.map (·.name)) s.ambient.name with hlabels
  set K : Set (LabelSpace labels) := {x | Admissible s (atLabel x)} with hKdef
  have at_mem : ∀ (x : LabelSpace labels) (k : Str) (hk : k ∈ labels), atLabel x k = x ⟨k, hk⟩ := fun x k hk => dif_pos hk
  have lift : ∀ x : K, ∃ y, RowWithin s y ∧ ∀ k ∈ labels, pairs y k = atLabel x.1 k := fun x => admissible_lift hs hn hl x.2
  have curve : ∀ x : K, ∃ v : Fin q.length → ℝ, curveFor s q (atLabel x.1) = .ok (List.ofFn fun j => some (v j)) := by
    intro x
    obtain ⟨y, hy, e⟩ := lift x
    rw [← curveFor_congr s q e]
    exact hnum y hy
  have phys : ∀ x : K, atLabel x.1 (s.ambient.name ++ "_sld".toList) = (0, 0) ∧
      ∀ l ∈ s.substrate :: s.layers, 0 ≤ (atLabel x.1 (l.name ++ "_sld".toList)).2 := by
    intro x
    obtain ⟨y, hy, e⟩ := lift x
    obtain ⟨p1, p2⟩ := within_physical hs hamb habs hy
    obtain ⟨-, -, m3⟩ := mem_labels (s := s)
    exact ⟨by rw [← e _ (m3 s.ambient (by simp))]; exact p1, fun l hm => by rw [← e _ (m3 l (List.mem_append_left _ hm))]; exact p2 l hm⟩
  choose F hF using curve
  have cF : Continuous F := by
    rw [Metric.continuous_iff]
    intro x η hη
    obtain ⟨δ, hδ, hc⟩ := curve_near s q (atLabel x.1) (F x) (hF x) (phys x).1 (phys x).2 η hη
    refine ⟨δ, hδ, fun x' hx' => ?_⟩
    obtain ⟨v, h1, h2⟩ := hc (atLabel x'.1) (phys x').1 (phys x').2 fun k hk => by
      have hd : dist (x'.1 ⟨k, hk⟩) (x.1 ⟨k, hk⟩) < δ := (dist_le_pi_dist x'.1 x.1 ⟨k, hk⟩).trans_lt hx'
      rw [Prod.dist_eq, max_lt_iff, Real.dist_eq, Real.dist_eq] at hd
      rw [at_mem _ k hk, at_mem _ k hk]
      exact hd
    have e : F x' = v := by
      rw [hF x'] at h1
      have := List.ofFn_injective (Except.ok.inj h1)
      exact funext fun j => Option.some.inj (congrFun this j)
    rw [e, dist_pi_lt_iff hη]
    exact fun j => by rw [Real.dist_eq]; exact h2 j
  exact ⟨F, cF, hF⟩

/-- **C132** (labels that the curves determine can be learned): let all admissible labels have a curve, and let those with the same curve agree in a
label. Then a continuous function of the curve gives this label, and it is not sensitive to small errors of the curve: for every tolerance there is
a size of errors of the curve, the same for all admissible labels, up to which the prediction is within the tolerance. -/
theorem C132_learnable (s : SampleV ℝ) (hs : SampleRegular s) (hn : (partNames s).Nodup) (hl : ∀ l ∈ s.structure_, LayerDrawable l) (nm : Option Str)
    (hamb : s.ambient.sld = some (.const (.real 0) nm)) (habs : ∀ l ∈ s.substrate :: s.layers, ∀ p, l.sld = some p → 0 ≤ p.min.im ∧ 0 ≤ p.max.im)
    (q : List ℝ) (hnum : ∀ y, RowWithin s y → ∃ v : Fin q.length → ℝ, curveFor s q (pairs y) = .ok (List.ofFn fun j => some (v j))) (key : Str)
    (hkey : key ∈ expectedLabels s.substrate.name (s.layers.map (·.name)) s.ambient.name) (hdet : Determined s q key) :
    ∃ N : (Fin q.length → ℝ) → ℝ, Continuous N ∧
      (∀ y, RowWithin s y → ∀ v : Fin q.length → ℝ, curveFor s q (pairs y) = .ok (List.ofFn fun j => some (v j)) → N v = (y key).re) ∧
      ∀ ε > 0, ∃ δ > 0, ∀ y, RowWithin s y → ∀ v w : Fin q.length → ℝ, curveFor s q (pairs y) = .ok (List.ofFn fun j => some (v j)) →
        (∀ j, |w j - v j| < δ) → |N w - (y key).re| < ε := by
  have hK := admissible_compact s hs
  set labels := expectedLabels s.substrate.name (s.layers.map (·.name)) s.ambient.name with hlabels
  set K : Set (LabelSpace labels) := {x | Admissible s (atLabel x)} with hKdef
  obtain ⟨F, cF, hF⟩ := curve_map s hs hn hl nm hamb habs q hnum
  have at_mem : ∀ (x : LabelSpace labels) (k : Str) (hk : k ∈ labels), atLabel x k = x ⟨k, hk⟩ := fun x k hk => dif_pos hk
  have lift : ∀ x : K, ∃ y, RowWithin s y ∧ ∀ k ∈ labels, pairs y k = atLabel x.1 k := fun x => admissible_lift hs hn hl x.2
  have : CompactSpace K := isCompact_iff_compactSpace.1 hK
  have cg : Continuous fun x : K => (atLabel x.1 key).1 := ((atLabel_continuous key).comp continuous_subtype_val).fst
  obtain ⟨N, cN, hN⟩ := factor_continuous F cF (fun x : K => (atLabel x.1 key).1) cg (by
    intro a b hab
    obtain ⟨y, hy, e⟩ := lift a
    obtain ⟨y', hy', e'⟩ := lift b
    have := hdet y y' hy hy' (by rw [curveFor_congr s q e, curveFor_congr s q e', hF, hF, hab])
    show (atLabel a.1 key).1 = (atLabel b.1 key).1
    rw [← e key hkey, ← e' key hkey]
    exact this)
  have point : ∀ y, RowWithin s y → ∀ v : Fin q.length → ℝ, curveFor s q (pairs y) = .ok (List.ofFn fun j => some (v j)) →
      ∃ x : K, F x = v ∧ (atLabel x.1 key).1 = (y key).re := by
    intro y hy v hv
    have e : ∀ k ∈ labels, pairs y k = atLabel (fun k : {k : Str // k ∈ labels} => pairs y k.1) k := fun k hk =>
      (at_mem (fun k : {k : Str // k ∈ labels} => pairs y k.1) k hk).symm
    refine ⟨⟨fun k => pairs y k.1, (row_admissible hy).congr e⟩, ?_, ?_⟩
    · have h := hF ⟨fun k => pairs y k.1, (row_admissible hy).congr e⟩
      rw [← curveFor_congr s q e, hv] at h
      have := List.ofFn_injective (Except.ok.inj h)
      exact (funext fun j => Option.some.inj (congrFun this j)).symm
    · show (atLabel (fun k : {k : Str // k ∈ labels} => pairs y k.1) key).1 = _
      rw [← e key hkey]
      rfl
  refine ⟨N, cN, ?_, ?_⟩
  · intro y hy v hv
    obtain ⟨x, rfl, h⟩ := point y hy v hv
    rw [hN, h]
  · intro ε hε
    have hu := (isCompact_range cF).uniformContinuousAt_of_continuousAt N (fun a _ => cN.continuousAt) (Metric.dist_mem_uniformity hε)
    obtain ⟨δ, hδ, h⟩ := Metric.mem_uniformity_dist.1 hu
    refine ⟨δ, hδ, fun y hy v w hv hw => ?_⟩
    obtain ⟨x, rfl, hx⟩ := point y hy v hv
    have hd : dist (F x) w < δ := by
      rw [dist_comm, dist_pi_lt_iff hδ]
      exact fun j => by rw [Real.dist_eq]; exact hw j
    have : dist (N (F x)) (N w) < ε := h hd ⟨x, rfl⟩
    rw [hN, hx, dist_comm, Real.dist_eq] at this
    exact this

variable {Ω : Type} [MeasurableSpace Ω] {P : Measure Ω}

theorem getD_within {α : Type} {l : List α} {i : ℕ} (d : α) (h : i < l.length) : l.getD i d = l[i] := by simp [h]

/-- The rows of random tables are admissible. -/
theorem row_within {s : SampleV ℝ} (hs : SampleRegular s) {n : ℕ} {f : Frame (Num ℝ)} (h : TableWithin s n f) (i : Fin n) :
    ∃ y, RowWithin s y ∧ ∀ k, rowOf f i k = pairs y k := by
  let y : Str → Num ℝ := fun k => match f.get k with
    | .ok col => col.getD i (.real 0)
    | .error _ => .real 0
  have hy : ∀ k col, f.get k = .ok col → y k = col.getD i (.real 0) := fun k col e => by simp only [y, e]
  have key : ∀ k p, ColumnWithin f n k p → InRange p (y k) := by
    rintro k p ⟨col, h1, h2, h3⟩
    have hi : (i : ℕ) < col.length := by rw [h2]; exact i.2
    rw [hy k col h1, getD_within _ hi]
    exact h3 _ (List.getElem_mem hi)
  refine ⟨y, ⟨fun l hl p hp => key _ p (h.sld l hl p hp), fun l hl p hp => key _ p (h.roughness l hl p hp),
    fun l hl p hp => key _ p (h.thickness l hl p hp), fun l hl p hp => ?_⟩, fun k => ?_⟩
  · obtain ⟨ts, rs, h1, h2, h3⟩ := h.limit l hl p hp
    obtain ⟨t, ht, -⟩ := (hs.layers l hl).thickness
    obtain ⟨col, c1, c2, -⟩ := h.thickness l hl t ht
    obtain ⟨col', d1, d2, -⟩ := h.roughness l (List.mem_cons_of_mem _ hl) p hp
    obtain rfl : ts = col := Except.ok.inj (h1.symm.trans c1)
    obtain rfl : rs = col' := Except.ok.inj (h2.symm.trans d1)
    have it : (i : ℕ) < ts.length := by rw [c2]; exact i.2
    have ir : (i : ℕ) < rs.length := by rw [d2]; exact i.2
    rw [hy _ _ h1, hy _ _ h2, getD_within _ it, getD_within _ ir]
    exact h3 i _ _ (List.getElem?_eq_getElem it) (List.getElem?_eq_getElem ir)
  · unfold rowOf pairs
    simp only [y]
    cases f.get k <;> rfl

/-- **C132** (which labels can be learned): let all admissible labels have a curve. A continuous function gives a label of random training samples
from their curves, with probability one, if and only if admissible labels with the same curve agree in this label. -/
theorem C132_iff (C : Chance Ω P) (s : SampleV ℝ) (hs : SampleRegular s) (hn : (partNames s).Nodup) (d : DistArgs)
    (hl : ∀ l ∈ s.structure_, LayerDrawable l ∧ LayerKindOk d.kind l) (nm : Option Str) (hamb : s.ambient.sld = some (.const (.real 0) nm))
    (habs : ∀ l ∈ s.substrate :: s.layers, ∀ p, l.sld = some p → 0 ≤ p.min.im ∧ 0 ≤ p.max.im)
    (n : ℕ) (k : ℕ) (T : Ω → Frame (Num ℝ)) (hT : ∀ ω, ∃ g', generateRandomLabels C.rng.toRng s n d (ω, k) = .ok (T ω, g')) (i : Fin n)
    (q : List ℝ) (hnum : ∀ y, RowWithin s y → ∃ v : Fin q.length → ℝ, curveFor s q (pairs y) = .ok (List.ofFn fun j => some (v j))) (key : Str)
    (hkey : key ∈ expectedLabels s.substrate.name (s.layers.map (·.name)) s.ambient.name) :
    (∃ N : (Fin q.length → ℝ) → ℝ, Continuous N ∧ ∀ᵐ ω ∂P, ¬ Misses s q key 0 N (rowOf (T ω) i)) ↔ Determined s q key := by
  constructor
  · rintro ⟨N, cN, hN⟩ y y' hy hy' hc
    by_contra hne
    obtain ⟨v₀, hv⟩ := hnum y hy
    have hpos : 0 < |(y key).re - (y' key).re| := abs_pos.2 (sub_ne_zero.2 hne)
    have h := C130_unlearnable C s hs hn d hl nm hamb habs n k T hT i q y y' hy hy' v₀ hv hc.symm N cN key hkey
      (|(y key).re - (y' key).re| / 4) (by linarith)
    refine h.ne' (measure_mono_null (fun ω hω => ?_) (ae_iff.1 hN))
    obtain ⟨v, h1, h2⟩ := hω
    show ¬ ¬ Misses s q key 0 N (rowOf (T ω) i)
    rw [not_not]
    rintro ⟨v', h1', h2'⟩
    rw [h1] at h1'
    have e : v = v' := funext fun j => Option.some.inj (congrFun (List.ofFn_injective (Except.ok.inj h1')) j)
    subst e
    linarith
  · intro hdet
    obtain ⟨N, cN, hN, -⟩ := C132_learnable s hs hn (fun l hm => (hl l hm).1) nm hamb habs q hnum key hkey hdet
    refine ⟨N, cN, Filter.Eventually.of_forall fun ω => ?_⟩
    obtain ⟨g', hg⟩ := hT ω
    have tame : Tame C.rng.toRng d := by
      intro hk
      obtain ⟨p, hp, -⟩ := hs.substrate.sld
      rcases (hl s.substrate (by simp [SampleV.structure_])).2.sld p hp with h | ⟨h, -⟩ <;> rw [hk] at h <;> cases h
    obtain ⟨y, hy, e⟩ := row_within hs (within_of_tame C.rng_ok.toOk hs hn (fun l hm => (hl l hm).1) tame hg) i
    obtain ⟨v, hv⟩ := hnum y hy
    have hr : rowOf (T ω) i = pairs y := funext e
    unfold Misses
    rw [not_not, hr]
    exact ⟨v, hv, by rw [hN y hy v hv]; simp [pairs]⟩

/-! ### The roughness of a substrate -/

theorem wave_sector {q ρ : ℝ} {k : ℂ} (h : IsWave q (ρ : ℂ) k) (hq : 16 * Real.pi * ρ < q ^ 2) : |k.im| < k.re := by
  have e := congrArg Complex.re h.1
  rw [sq, Complex.mul_re] at e
  have e' : ((q : ℂ) ^ 2 / 4 - 4 * (Real.pi : ℂ) * ((ρ : ℂ) + ((10 ^ (-30 : ℤ) : ℝ) : ℂ) * I)).re = q ^ 2 / 4 - 4 * Real.pi * ρ := by
    rw [show (q : ℂ) ^ 2 / 4 - 4 * (Real.pi : ℂ) * ((ρ : ℂ) + ((10 ^ (-30 : ℤ) : ℝ) : ℂ) * I) =
      ((q ^ 2 / 4 - 4 * Real.pi * ρ : ℝ) : ℂ) + ((-(4 * Real.pi * 10 ^ (-30 : ℤ)) : ℝ) : ℂ) * I by push_cast; ring]
    rw [Complex.add_re, Complex.re_ofReal_mul, Complex.ofReal_re, Complex.I_re, mul_zero, add_zero]
  rw [e'] at e
  refine abs_lt_of_sq_lt_sq ?_ h.2.le
  nlinarith

theorem codePoint_substrate (q σ ρ : ℝ) :
    codePoint [] [σ] [(ρ : ℂ)] q = some (min (‖(codeWave q 0 - codeWave q ρ) / (codeWave q 0 + codeWave q ρ) *
      cexp (-2 * codeWave q 0 * codeWave q ρ * σ ^ 2)‖ ^ 2) 1) := by
  have h := C39_substrate q σ ρ _ _ (by simp) (codeWave_isWave q (ρ := 0) (by simp)).1 (codeWave_isWave q (ρ := (ρ : ℂ)) (by simp)).1
  rw [multilayer_eq [q] [] [σ] [(ρ : ℂ)] rfl rfl] at h
  simpa using h

/-- Above the critical edge the value falls with the roughness. -/
theorem substrate_strict (q ρ : ℝ) (hq : q ≠ 0) (hρ : ρ ≠ 0) (hc : 16 * Real.pi * ρ < q ^ 2) {σ σ' : ℝ} (h0 : 0 ≤ σ) (h0' : 0 ≤ σ')
    (e : codePoint [] [σ] [(ρ : ℂ)] q = codePoint [] [σ'] [(ρ : ℂ)] q) : σ = σ' := by
  rw [codePoint_substrate, codePoint_substrate] at e
  have w0 : IsWave q ((0 : ℝ) : ℂ) (codeWave q 0) := by rw [Complex.ofReal_zero]; exact (codeWave_isWave q (by simp)).1
  have w1 : IsWave q (ρ : ℂ) (codeWave q ρ) := (codeWave_isWave q (by simp)).1
  have hlt := (C39_below_one q ρ _ _ (by simp) (codeWave_isWave q (ρ := 0) (by simp)).1 w1).1
  set k₀ := codeWave q 0 with hk₀
  set k₁ := codeWave q (ρ : ℂ) with hk₁
  have s0 := wave_sector w0 (by rw [mul_zero]; positivity)
  have s1 := wave_sector w1 hc
  have c0 : 0 < (k₀ * k₁).re := by
    rw [Complex.mul_re]
    have : k₀.im * k₁.im ≤ |k₀.im| * |k₁.im| := by rw [← abs_mul]; exact le_abs_self _
    nlinarith [abs_nonneg k₀.im, abs_nonneg k₁.im, mul_lt_mul'' s0 s1 (abs_nonneg _) (abs_nonneg _)]
  have hne : k₀ - k₁ ≠ 0 := by
    intro h
    have h : k₀ = k₁ := sub_eq_zero.1 h
    have := w0.1
    rw [h, w1.1] at this
    apply hρ
    have h2 : (Real.pi : ℂ) * (ρ : ℂ) = 0 := by
      rw [Complex.ofReal_zero] at this
      linear_combination (-1 / 4) * this
    rcases mul_eq_zero.1 h2 with h3 | h3
    · exact absurd h3 (by exact_mod_cast Real.pi_ne_zero)
    · exact_mod_cast h3
  have hsum : k₀ + k₁ ≠ 0 := by
    intro h
    have := congrArg Complex.re h
    rw [Complex.add_re, Complex.zero_re] at this
    linarith [w0.2, w1.2]
  set B := (k₀ - k₁) / (k₀ + k₁) with hB
  have hB0 : 0 < ‖B‖ := norm_pos_iff.2 (div_ne_zero hne hsum)
  have val : ∀ x : ℝ, ‖B * cexp (-2 * k₀ * k₁ * (x : ℂ) ^ 2)‖ = ‖B‖ * Real.exp (-2 * (k₀ * k₁).re * x ^ 2) := by
    intro x
    rw [norm_mul, Complex.norm_exp]
    congr 2
    rw [show -2 * k₀ * k₁ * (x : ℂ) ^ 2 = ((-2 * x ^ 2 : ℝ) : ℂ) * (k₀ * k₁) by push_cast; ring, Complex.re_ofReal_mul]
    ring
  have below : ∀ x : ℝ, ‖B * cexp (-2 * k₀ * k₁ * (x : ℂ) ^ 2)‖ ^ 2 ≤ 1 := by
    intro x
    rw [val]
    have : Real.exp (-2 * (k₀ * k₁).re * x ^ 2) ≤ 1 := Real.exp_le_one_iff.2 (by nlinarith [sq_nonneg x])
    exact pow_le_one₀ (by positivity) (mul_le_one₀ hlt.le (Real.exp_pos _).le this)
  rw [min_eq_left (below σ), min_eq_left (below σ')] at e
  have e := (pow_left_inj₀ (norm_nonneg _) (norm_nonneg _) two_ne_zero).1 (Option.some.inj e)
  rw [val, val] at e
  have e := Real.exp_injective (mul_left_cancel₀ hB0.ne' e)
  have e := mul_left_cancel₀ (mul_ne_zero (by norm_num) c0.ne') e
  exact (pow_left_inj₀ h0 h0' two_ne_zero).1 e

/-- **C132** (roughness of a substrate): for a sample without layers, with a substrate of fixed density, the curve determines the roughness of the
substrate as soon as one of the q values is above the critical edge. -/
theorem C132_substrate (s : SampleV ℝ) (hs : SampleRegular s) (hl : ∀ l ∈ s.structure_, LayerDrawable l) (nm nm' : Option Str)
    (hamb : s.ambient.sld = some (.const (.real 0) nm)) (hlay : s.layers = []) (ρ : ℝ) (hsub : s.substrate.sld = some (.const (.real ρ) nm'))
    (hρ : ρ ≠ 0) (q : List ℝ) :
    (∀ y, RowWithin s y → ∃ v : Fin q.length → ℝ, curveFor s q (pairs y) = .ok (List.ofFn fun j => some (v j))) ∧
    ∀ u ∈ q, u ≠ 0 → 16 * Real.pi * (ρ * 1e-6) < u ^ 2 → Determined s q (s.substrate.name ++ "_roughness".toList) := by
  have curve : ∀ y, RowWithin s y → curveFor s q (pairs y) = .ok (q.map fun (u : ℝ) =>
      codePoint [] [(y (s.substrate.name ++ "_roughness".toList)).re * 1e-10] [((ρ * 1e14 : ℝ) : ℂ)] (u * 1e10)) := by
    intro y hy
    have ea : y (s.ambient.name ++ "_sld".toList) = .real 0 := hy.sld s.ambient (by simp) _ hamb
    have es : y (s.substrate.name ++ "_sld".toList) = .real ρ := hy.sld s.substrate (by simp) _ hsub
    unfold curveFor pairs
    rw [hlay, ea]
    have z0 : (⟨(Num.real (0 : ℝ)).re, (Num.real (0 : ℝ)).im⟩ : ℂ) * 1e14 = 0 := by
      rw [show (⟨(Num.real (0 : ℝ)).re, (Num.real (0 : ℝ)).im⟩ : ℂ) = 0 from rfl, zero_mul]
    have z1 : (⟨(Num.real ρ).re, (Num.real ρ).im⟩ : ℂ) * 1e14 = ((ρ * 1e14 : ℝ) : ℂ) := by
      rw [show (⟨(Num.real ρ).re, (Num.real ρ).im⟩ : ℂ) = (ρ : ℂ) from rfl]
      push_cast
      rfl
    simp only [List.map_cons, List.map_nil]
    rw [es, z0, z1, multilayer_eq _ _ _ _ rfl rfl, List.map_map]
    rfl
  constructor
  · intro y hy
    refine ⟨fun j => (codePoint [] [(y (s.substrate.name ++ "_roughness".toList)).re * 1e-10] [((ρ * 1e14 : ℝ) : ℂ)] (q.get j * 1e10)).getD 0, ?_⟩
    rw [curve y hy]
    congr 1
    apply List.ext_getElem (by simp)
    intro j h1 h2
    simp only [List.getElem_map, List.getElem_ofFn]
    rw [codePoint_substrate, codePoint_substrate]
    rfl
  · intro u hu hu0 hc y y' hy hy' e
    rw [curve y hy, curve y' hy'] at e
    have e := List.map_inj_left.1 (Except.ok.inj e) u hu
    have nonneg : ∀ z, RowWithin s z → 0 ≤ (z (s.substrate.name ++ "_roughness".toList)).re := by
      intro z hz
      obtain ⟨p, hp, -, hp0⟩ := hs.substrate.roughness
      obtain ⟨a, b, h1, h2, h3⟩ := (hl s.substrate (by simp [SampleV.structure_])).roughness p hp
      have ha : 0 ≤ a := by
        rw [h1] at hp0
        simpa [Num.ltZero] using hp0
      have hr := (inRange_box (hz.roughness s.substrate (by simp) p hp)).1
      rw [h1, h2] at hr
      exact ha.trans ((le_min le_rfl h3).trans hr.1)
    have := substrate_strict (u * 1e10) (ρ * 1e14) (by positivity) (by positivity) (by nlinarith)
      (mul_nonneg (nonneg y hy) (by norm_num)) (mul_nonneg (nonneg y' hy') (by norm_num)) e
    linarith

/-- A substrate with an unknown roughness. -/
noncomputable def exampleSubstrate : SampleV ℝ where
  substrate := ⟨.substrate, "Si".toList, none, some (.range (.real 0) (.real 10) (some "roughness".toList)), some (.const (.real 20) (some "sld".toList))⟩
  ambient := ⟨.ambient, "air".toList, none, none, some (.const (.real 0) (some "sld".toList))⟩
  layers := []

theorem exampleSubstrate_regular : SampleRegular exampleSubstrate := by
  refine ⟨⟨rfl, rfl, ⟨_, rfl, ⟨rfl, ?_⟩, ?_⟩, ⟨_, rfl, rfl, trivial⟩⟩, ⟨rfl, rfl, rfl, ⟨_, rfl, rfl, trivial⟩⟩, ?_⟩
  · simp only [ParamValid, Num.ge]; norm_num
  · simp only [Param.min, Num.ltZero]; norm_num
  · intro l hl
    exact absurd hl (List.not_mem_nil)

theorem exampleSubstrate_drawable : ∀ l ∈ exampleSubstrate.structure_, LayerDrawable l := by
  intro l hl
  simp only [SampleV.structure_, exampleSubstrate, List.cons_append, List.nil_append, List.mem_cons, List.not_mem_nil, or_false] at hl
  rcases hl with rfl | rfl
  · refine ⟨?_, by simp, ?_⟩ <;> rintro p ⟨⟩
    · trivial
    · exact ⟨0, 10, rfl, rfl, by norm_num⟩
  · refine ⟨?_, by simp, by simp⟩
    rintro p ⟨⟩
    trivial

/-- The hypotheses of C132 hold for a substrate with an unknown roughness: a continuous function gives the roughness of random samples from two
values of the curve. -/
example (n : ℕ) (hpos : 0 < n) (i : Fin n) : ∃ T : (ChanceIdx → ℝ) → Frame (Num ℝ),
    (∀ ω, ∃ g', generateRandomLabels Chance.product.rng.toRng exampleSubstrate n ⟨.uniform, none, none⟩ (ω, 0) = .ok (T ω, g')) ∧
    ∃ N : (Fin 2 → ℝ) → ℝ, Continuous N ∧
      ∀ᵐ ω ∂Measure.infinitePi ChanceIdx.law, ¬ Misses exampleSubstrate [0.1, 0.2] ("Si".toList ++ "_roughness".toList) 0 N (rowOf (T ω) i) := by
  have H : ∀ l ∈ exampleSubstrate.structure_, LayerDrawable l ∧ LayerKindOk .uniform l := fun l hl =>
    ⟨exampleSubstrate_drawable l hl, fun _ _ => Or.inl rfl, fun _ _ => Or.inl rfl, fun _ _ => Or.inl rfl⟩
  have hnd : (partNames exampleSubstrate).Nodup := by simp only [partNames, exampleSubstrate]; decide
  obtain ⟨T, hT, -⟩ := C124_rows Chance.product exampleSubstrate exampleSubstrate_regular hnd ⟨.uniform, none, none⟩ H n hpos 0
  obtain ⟨h1, h2⟩ := C132_substrate exampleSubstrate exampleSubstrate_regular exampleSubstrate_drawable (some "sld".toList) (some "sld".toList) rfl rfl
    20 rfl (by norm_num) [0.1, 0.2]
  refine ⟨T, hT, (C132_iff Chance.product exampleSubstrate exampleSubstrate_regular hnd ⟨.uniform, none, none⟩ H (some "sld".toList) rfl ?_ n 0 T hT i
    [0.1, 0.2] h1 _ ?_).2 (h2 0.2 (by simp) (by norm_num) (by nlinarith [Real.pi_le_four]))⟩
  · intro l hl p hp
    simp only [exampleSubstrate, List.mem_cons, List.not_mem_nil, or_false] at hl
    subst hl
    cases hp
    exact ⟨le_refl _, le_refl _⟩
  · exact mem_labels.2.1 exampleSubstrate.substrate (by simp)

end Verif.Props
