import Verif.Props.Density

/-!
# Property C142: an error that no network can learn to avoid

Two neighbouring layers of the same density look like one layer, so that only the sum of their thicknesses can be read off a curve. If both
thicknesses are drawn from the same range, exchanging them gives an equally likely training sample with the same curve. A prediction must therefore
have a mean squared error of at least a quarter of the mean squared difference of the two thicknesses.
-/

namespace Verif.Props
open Verif.Py Verif.Model Verif.Spec Verif.Lemmas MeasureTheory ProbabilityTheory

/-! ### Exchanging two labels -/

/-- If a measure preserving map exchanges two quantities and leaves a prediction as it is, the prediction has at least a quarter of their mean squared
difference as mean squared error. -/
theorem exchange_loss {X : Type} [MeasurableSpace X] {μ : Measure X} {σ : X → X} (hσ : MeasurePreserving σ μ μ) {g t t' : X → ℝ} (mg : Measurable g)
    (mt : Measurable t) (hg : ∀ᵐ x ∂μ, g (σ x) = g x) (ht : ∀ x, t (σ x) = t' x) :
    (∫⁻ x, ENNReal.ofReal ((t x - t' x) ^ 2) ∂μ) / 4 ≤ ∫⁻ x, ENNReal.ofReal ((g x - t x) ^ 2) ∂μ := by
  have m1 : Measurable fun x => ENNReal.ofReal ((g x - t x) ^ 2) := ((mg.sub mt).pow_const 2).ennreal_ofReal
  have e : ∫⁻ x, ENNReal.ofReal ((g x - t x) ^ 2) ∂μ = ∫⁻ x, ENNReal.ofReal ((g x - t' x) ^ 2) ∂μ := by
    rw [← hσ.lintegral_comp m1]
    refine lintegral_congr_ae ?_
    filter_upwards [hg] with x hx
    rw [hx, ht x]
  refine ENNReal.div_le_of_le_mul ?_
  have h4 : (∫⁻ x, ENNReal.ofReal ((g x - t x) ^ 2) ∂μ) * 4 =
      2 * ((∫⁻ x, ENNReal.ofReal ((g x - t x) ^ 2) ∂μ) + ∫⁻ x, ENNReal.ofReal ((g x - t' x) ^ 2) ∂μ) := by
    rw [← e]
    ring
  rw [h4, ← lintegral_add_left m1, ← lintegral_const_mul' _ _ (by norm_num)]
  refine lintegral_mono fun x => ?_
  show ENNReal.ofReal ((t x - t' x) ^ 2) ≤ 2 * (ENNReal.ofReal ((g x - t x) ^ 2) + ENNReal.ofReal ((g x - t' x) ^ 2))
  rw [← ENNReal.ofReal_add (sq_nonneg _) (sq_nonneg _), show (2 : ENNReal) = ENNReal.ofReal 2 by simp, ← ENNReal.ofReal_mul (by norm_num)]
  refine ENNReal.ofReal_le_ofReal ?_
  nlinarith [sq_nonneg (2 * g x - t x - t' x)]

/-! ### Rows as functions of the numbers -/

variable {Ω : Type} [MeasurableSpace Ω] {P : Measure Ω}

theorem rowOf_congr {f f' : Frame (Num ℝ)} {label : Str} (h : f.get label = f'.get label) (i : ℕ) : rowOf f i label = rowOf f' i label := by
  unfold rowOf
  rw [h]

/-- The row of the table for the numbers of the cells. -/
noncomputable def rowFor (s : SampleV ℝ) (d : DistKind) (n i : ℕ) (v : Cell → ℝ) : Str → ℝ × ℝ := rowOf (tableLoop d n v 0 [] s.structure_) i

theorem rowFor_measurable (s : SampleV ℝ) (d : DistKind) (n : ℕ) (i : Fin n) (label : Str) : Measurable fun v => rowFor s d n i v label := by
  have rw' : RowWise n fun w => tableLoop d n w 0 [] s.structure_ := tableLoop_rowWise d n s.structure_ 0 (F := fun _ => []) fun k => Or.inl fun _ => rfl
  unfold rowFor rowOf
  rcases rw' label with h | ⟨φ, h1, h2, h3⟩
  · simp only [h]
    exact measurable_const
  · simp only [h3, List.getD_eq_getElem?_getD, List.getElem?_map, List.getElem?_range i.2, Option.map_some, Option.getD_some]
    have m : Measurable fun (v : Cell → ℝ) (c : ℕ × Part) => v (c.1, (i : ℕ), c.2) := by fun_prop
    exact (h1.comp m).prodMk (h2.comp m)

theorem rowFor_columns {s : SampleV ℝ} (hs : SampleRegular s) (hn : (partNames s).Nodup) (d : DistKind) (n : ℕ) (v : Cell → ℝ) {j : ℕ} {l : LayerV ℝ}
    (hj : s.structure_[j]? = some l) : LayerColumns d n v j (tableLoop d n v 0 [] s.structure_) l :=
  labels_layerColumns hs hn (fun _ _ => rfl) j l hj

/-- The rows of random tables are those for independent uniform numbers. -/
theorem rows_numbers (C : Chance Ω P) (s : SampleV ℝ) (hs : SampleRegular s) (hn : (partNames s).Nodup) (d : DistArgs)
    (hl : ∀ l ∈ s.structure_, LayerDrawable l ∧ LayerKindOk d.kind l) (n : ℕ) (hpos : 0 < n) (k : ℕ) (T : Ω → Frame (Num ℝ))
    (hT : ∀ ω, ∃ g', generateRandomLabels C.rng.toRng s n d (ω, k) = .ok (T ω, g')) :
    ∃ W : Ω → Cell → ℝ, Measurable W ∧ P.map W = iid Cell ∧
      ∀ ω (i : ℕ), ∀ key ∈ expectedLabels s.substrate.name (s.layers.map (·.name)) s.ambient.name, rowOf (T ω) i key = rowFor s d.kind n i (W ω) key := by
  have := C.indep.isProbabilityMeasure
  obtain ⟨A, -, dA⟩ := loop_draws C n (fun l hm => ⟨(hl l hm).1, (hl l hm).2, sample_parts hs l hm⟩) 0
  obtain ⟨V, mV, iV, lV, hV⟩ := (dA Unit fun _ => []).random C k
  refine ⟨fun ω c => V c ω, measurable_pi_iff.2 mV, ?_, fun ω i key hkey => ?_⟩
  · rw [iV.map_fun_eq_infinitePi_map mV]
    unfold iid
    congr 1
    funext c
    exact lV c
  · obtain ⟨g', h⟩ := hV ω
    obtain ⟨f, hf, -, hr⟩ := labels_run hs hpos hn h
    obtain ⟨g'', hT'⟩ := hT ω
    have e : f = T ω := (Prod.mk.inj (Except.ok.inj (hr.symm.trans hT'))).1
    rw [← e]
    exact rowOf_congr (hf key hkey) i

/-! ### Neighbouring layers that look the same -/

/-- Two neighbouring layers with the same density, and the same range of thicknesses; the roughness of the upper one is never limited by its thickness. -/
structure Twins (s : SampleV ℝ) (pre post : List (LayerV ℝ)) (l l' : LayerV ℝ) (a b : ℝ) (c : Num ℝ) : Prop where
  layers : s.layers = pre ++ l :: l' :: post
  density : (∃ nm, l.sld = some (.const c nm)) ∧ ∃ nm, l'.sld = some (.const c nm)
  thickness : (∃ nm, l.thickness = some (.range (.real a) (.real b) nm)) ∧ ∃ nm, l'.thickness = some (.range (.real a) (.real b) nm)
  roughness : ∀ p, l'.roughness = some p → 2 * p.max.re ≤ a

variable {s : SampleV ℝ} {pre post : List (LayerV ℝ)} {l l' : LayerV ℝ} {a b : ℝ} {c : Num ℝ}

theorem Twins.at_lower (tw : Twins s pre post l l' a b c) : s.structure_[pre.length + 1]? = some l := by
  simp [SampleV.structure_, tw.layers]

theorem Twins.at_upper (tw : Twins s pre post l l' a b c) : s.structure_[pre.length + 2]? = some l' := by
  simp [SampleV.structure_, tw.layers]

/-- Any other part of the sample has another position. -/
theorem Twins.at_other (tw : Twins s pre post l l' a b c) {m : LayerV ℝ} (hm : m ∈ s.substrate :: pre ++ post ++ [s.ambient]) :
    ∃ j, s.structure_[j]? = some m ∧ j ≠ pre.length + 1 ∧ j ≠ pre.length + 2 := by
  have e : s.structure_ = (s.substrate :: pre) ++ l :: l' :: (post ++ [s.ambient]) := by simp [SampleV.structure_, tw.layers]
  rw [List.append_assoc, List.mem_append] at hm
  rcases hm with hm | hm
  · obtain ⟨j, hj, hm⟩ := List.mem_iff_getElem.1 hm
    refine ⟨j, ?_, ?_, ?_⟩
    · rw [e, List.getElem?_append_left hj, List.getElem?_eq_getElem hj, hm]
    all_goals
      simp only [List.length_cons] at hj
      omega
  · obtain ⟨j, hj, hm⟩ := List.mem_iff_getElem.1 hm
    refine ⟨pre.length + 3 + j, ?_, by omega, by omega⟩
    rw [e, List.getElem?_append_right (by simp only [List.length_cons]; omega)]
    have : pre.length + 3 + j - (s.substrate :: pre).length = j + 2 := by simp only [List.length_cons]; omega
    rw [this, List.getElem?_cons_succ, List.getElem?_cons_succ, List.getElem?_eq_getElem hj, hm]

/-- The numbers of the two thicknesses exchanged. -/
def exchange (j i : ℕ) (v : Cell → ℝ) : Cell → ℝ := fun x => v (Equiv.swap (j + 1, i, Part.thickness) (j + 2, i, Part.thickness) x)

theorem exchange_preserving (j i : ℕ) : MeasurePreserving (exchange j i) (iid Cell) (iid Cell) := by
  refine ⟨?_, ?_⟩
  · unfold exchange
    fun_prop
  · exact iid_precomp (Equiv.injective (Equiv.swap (j + 1, i, Part.thickness) (j + 2, i, Part.thickness)))

theorem exchange_lower (j i : ℕ) (v : Cell → ℝ) : exchange j i v (j + 1, i, .thickness) = v (j + 2, i, .thickness) := by
  unfold exchange
  rw [Equiv.swap_apply_left]

theorem exchange_upper (j i : ℕ) (v : Cell → ℝ) : exchange j i v (j + 2, i, .thickness) = v (j + 1, i, .thickness) := by
  unfold exchange
  rw [Equiv.swap_apply_right]

theorem exchange_part (j i j' i' : ℕ) (v : Cell → ℝ) {p : Part} (hp : p ≠ .thickness) : exchange j i v (j', i', p) = v (j', i', p) := by
  unfold exchange
  rw [Equiv.swap_apply_of_ne_of_ne] <;> simp [hp]

theorem exchange_other (j i j' i' : ℕ) (v : Cell → ℝ) (p : Part) (h1 : j' ≠ j + 1) (h2 : j' ≠ j + 2) : exchange j i v (j', i', p) = v (j', i', p) := by
  unfold exchange
  rw [Equiv.swap_apply_of_ne_of_ne] <;> simp [h1, h2]

theorem Twins.lower_row (tw : Twins s pre post l l' a b c) (hs : SampleRegular s) (hn : (partNames s).Nodup) (d : DistKind) (n : ℕ) (i : Fin n) (v : Cell → ℝ) :
    rowFor s d n i v (l.name ++ "_thickness".toList) = (drawFrom d a b (v (pre.length + 1, i, .thickness)), 0) := by
  obtain ⟨nm, h⟩ := tw.thickness.1
  exact rowOf_ofFn ((rowFor_columns hs hn d n v tw.at_lower).thickness _ h) i

theorem Twins.upper_row (tw : Twins s pre post l l' a b c) (hs : SampleRegular s) (hn : (partNames s).Nodup) (d : DistKind) (n : ℕ) (i : Fin n) (v : Cell → ℝ) :
    rowFor s d n i v (l'.name ++ "_thickness".toList) = (drawFrom d a b (v (pre.length + 2, i, .thickness)), 0) := by
  obtain ⟨nm, h⟩ := tw.thickness.2
  exact rowOf_ofFn ((rowFor_columns hs hn d n v tw.at_upper).thickness _ h) i

/-- A roughness that the thickness does not limit. -/
theorem roughness_free (d : DistKind) {q : Param ℝ} {t t' x : ℝ} (hq : q.min.re ≤ q.max.re) (h : 2 * q.max.re ≤ t) (h' : 2 * q.max.re ≤ t') :
    roughnessValue d q t x = roughnessValue d q t' x := by
  unfold roughnessValue
  rw [if_neg (by linarith), if_neg (by linarith), min_eq_left (by linarith), min_eq_left (by linarith)]

/-- Exchanging the numbers of the thicknesses does not change the curve. -/
theorem Twins.same_curve (tw : Twins s pre post l l' a b c) (hs : SampleRegular s) (hn : (partNames s).Nodup) (d : DistKind)
    (hl : ∀ l ∈ s.structure_, LayerDrawable l) {nm : Option Str} (hamb : s.ambient.sld = some (.const (.real 0) nm)) (hc : 0 ≤ c.im) (q : List ℝ)
    (n : ℕ) (i : Fin n) (v : Cell → ℝ) (h1 : a ≤ drawFrom d a b (v (pre.length + 1, i, .thickness)))
    (h2 : a ≤ drawFrom d a b (v (pre.length + 2, i, .thickness))) :
    curveFor s q (rowFor s d n i (exchange pre.length i v)) = curveFor s q (rowFor s d n i v) := by
  have col := fun (v : Cell → ℝ) {j : ℕ} {l : LayerV ℝ} (hj : s.structure_[j]? = some l) => rowFor_columns hs hn d n v hj
  have sld : ∀ (v : Cell → ℝ) (j : ℕ) (m : LayerV ℝ), s.structure_[j]? = some m → ∀ p, m.sld = some p →
      rowFor s d n i v (m.name ++ "_sld".toList) = ((paramValue d p (v (j, i, .sldRe)) (v (j, i, .sldIm))).re, (paramValue d p (v (j, i, .sldRe)) (v (j, i, .sldIm))).im) :=
    fun v j m hj p hp => rowOf_ofFn ((col v hj).sld p hp) i
  have cl : ∀ v, rowFor s d n i v (l.name ++ "_sld".toList) = (c.re, c.im) := by
    intro v
    obtain ⟨nm, h⟩ := tw.density.1
    exact sld v _ _ tw.at_lower _ h
  have cl' : ∀ v, rowFor s d n i v (l'.name ++ "_sld".toList) = (c.re, c.im) := by
    intro v
    obtain ⟨nm, h⟩ := tw.density.2
    exact sld v _ _ tw.at_upper _ h
  have ofStruct : ∀ m ∈ s.structure_, ∃ j, s.structure_[j]? = some m := fun m hm => by
    obtain ⟨j, hj, e⟩ := List.mem_iff_getElem.1 hm
    exact ⟨j, by rw [List.getElem?_eq_getElem hj, e]⟩
  refine C130_same_curve s q _ _ pre post l l' tw.layers ?_ ?_ ?_ ?_ ?_ ?_ ?_
  · obtain ⟨j, hj, -⟩ := tw.at_other (m := s.ambient) (by simp)
    exact sld v j _ hj _ hamb
  · rw [cl v]
    exact hc
  · rw [cl v, cl' v]
  · intro m hm
    obtain ⟨j, hj⟩ := ofStruct m (by simpa [SampleV.structure_] using hm)
    obtain ⟨p, hp⟩ : ∃ p, m.sld = some p := by
      simp only [List.cons_append, List.mem_cons, List.mem_append, List.not_mem_nil, or_false] at hm
      rcases hm with rfl | hm | rfl
      · obtain ⟨p, hp, -⟩ := hs.substrate.sld; exact ⟨p, hp⟩
      · obtain ⟨p, hp, -⟩ := (hs.layers m hm).sld; exact ⟨p, hp⟩
      · obtain ⟨p, hp, -⟩ := hs.ambient.sld; exact ⟨p, hp⟩
    rw [sld _ j m hj p hp, sld v j m hj p hp, exchange_part _ _ _ _ _ (by decide), exchange_part _ _ _ _ _ (by decide)]
  · intro m hm
    obtain ⟨j, hj, n1, n2⟩ := tw.at_other (m := m) (by
      rcases List.mem_append.1 hm with h | h <;> simp [h])
    have hml : m ∈ s.layers := by
      rw [tw.layers]
      rcases List.mem_append.1 hm with h | h <;> simp [h]
    obtain ⟨p, hp, -⟩ := (hs.layers m hml).thickness
    have e : ∀ v, rowFor s d n i v (m.name ++ "_thickness".toList) = ((paramValue d p (v (j, i, .thickness)) 0).re, (paramValue d p (v (j, i, .thickness)) 0).im) :=
      fun v => rowOf_ofFn ((col v hj).thickness p hp) i
    rw [e, e, exchange_other _ _ _ _ _ _ n1 n2]
  · rw [tw.lower_row hs hn, tw.lower_row hs hn, tw.upper_row hs hn, tw.upper_row hs hn, exchange_lower, exchange_upper]
    exact add_comm _ _
  · intro m hm
    have hm' : m = s.substrate ∨ m ∈ pre ++ post ∨ m = l' := by
      simp only [List.cons_append, List.mem_cons, List.mem_append] at hm ⊢
      tauto
    rcases hm' with rfl | hm' | rfl
    · obtain ⟨j, hj, n1, n2⟩ := tw.at_other (m := s.substrate) (by simp)
      obtain ⟨p, hp, -⟩ := hs.substrate.roughness
      have e : ∀ v, rowFor s d n i v (s.substrate.name ++ "_roughness".toList) =
          ((paramValue d p (v (j, i, .roughness)) 0).re, (paramValue d p (v (j, i, .roughness)) 0).im) :=
        fun v => rowOf_ofFn ((col v hj).roughness p hp hs.substrate.thickness) i
      rw [e, e, exchange_other _ _ _ _ _ _ n1 n2]
    · obtain ⟨j, hj, n1, n2⟩ := tw.at_other (m := m) (by
        rcases List.mem_append.1 hm' with h | h <;> simp [h])
      have hml : m ∈ s.layers := by
        rw [tw.layers]
        rcases List.mem_append.1 hm' with h | h <;> simp [h]
      obtain ⟨p, hp, -⟩ := (hs.layers m hml).thickness
      obtain ⟨r, hr, -⟩ := (hs.layers m hml).roughness
      have e : ∀ v, rowFor s d n i v (m.name ++ "_roughness".toList) =
          (roughnessValue d r (paramValue d p (v (j, i, .thickness)) 0).re (v (j, i, .roughness)), 0) :=
        fun v => rowOf_ofFn ((col v hj).film p r hp hr) i
      rw [e, e, exchange_other _ _ _ _ _ _ n1 n2, exchange_other _ _ _ _ _ _ n1 n2]
    · have hml : m ∈ s.layers := by rw [tw.layers]; simp
      obtain ⟨nm, hp⟩ := tw.thickness.2
      obtain ⟨r, hr, -⟩ := (hs.layers m hml).roughness
      have e : ∀ v, rowFor s d n i v (m.name ++ "_roughness".toList) =
          (roughnessValue d r (drawFrom d a b (v (pre.length + 2, i, .thickness))) (v (pre.length + 2, i, .roughness)), 0) :=
        fun v => rowOf_ofFn ((col v tw.at_upper).film _ r hp hr) i
      obtain ⟨x, y, hx, hy, hxy⟩ := (hl m (by simp [SampleV.structure_, hml])).roughness r hr
      have hb := tw.roughness r hr
      have hq : r.min.re ≤ r.max.re := by rw [hx, hy]; exact hxy
      rw [e, e, exchange_upper, exchange_part _ _ _ _ _ (by decide), roughness_free d hq (hb.trans h1) (hb.trans h2)]

/-! ### The error -/

/-- **C142** (an error that cannot be avoided): let two neighbouring layers have the same density and the same range of thicknesses, with uniform or
logarithmic sampling. Every prediction of the thickness of the lower one from the curve has, on random training samples, a mean squared error of at
least a quarter of the mean squared difference between the two thicknesses, however large the network and the number of training samples. -/
theorem C142_loss (C : Chance Ω P) (s : SampleV ℝ) (hs : SampleRegular s) (hn : (partNames s).Nodup) (d : DistArgs)
    (hl : ∀ l ∈ s.structure_, LayerDrawable l ∧ LayerKindOk d.kind l) (nm : Option Str) (hamb : s.ambient.sld = some (.const (.real 0) nm))
    (habs : ∀ l ∈ s.substrate :: s.layers, ∀ p, l.sld = some p → 0 ≤ p.min.im ∧ 0 ≤ p.max.im)
    (n : ℕ) (k : ℕ) (T : Ω → Frame (Num ℝ)) (hT : ∀ ω, ∃ g', generateRandomLabels C.rng.toRng s n d (ω, k) = .ok (T ω, g')) (i : Fin n)
    (q : List ℝ) (hnum : ∀ y, RowWithin s y → ∃ v : Fin q.length → ℝ, curveFor s q (pairs y) = .ok (List.ofFn fun j => some (v j)))
    (pre post : List (LayerV ℝ)) (l l' : LayerV ℝ) (a b : ℝ) (c : Num ℝ) (tw : Twins s pre post l l' a b c)
    (curve : Ω → Fin q.length → ℝ) (hcurve : ∀ ω, curveFor s q (rowOf (T ω) i) = .ok (List.ofFn fun j => some (curve ω j)))
    (N : (Fin q.length → ℝ) → ℝ) (hN : Measurable N) :
    (∫⁻ ω, ENNReal.ofReal (((rowOf (T ω) i (l.name ++ "_thickness".toList)).1 - (rowOf (T ω) i (l'.name ++ "_thickness".toList)).1) ^ 2) ∂P) / 4 ≤
      ∫⁻ ω, ENNReal.ofReal ((N (curve ω) - (rowOf (T ω) i (l.name ++ "_thickness".toList)).1) ^ 2) ∂P := by
  classical
  have hpos : 0 < n := i.pos
  obtain ⟨W, mW, lW, hW⟩ := rows_numbers C s hs hn d hl n hpos k T hT
  obtain ⟨m1, m2, m3⟩ := mem_labels (s := s)
  have hml : l ∈ s.layers := by rw [tw.layers]; simp
  have hml' : l' ∈ s.layers := by rw [tw.layers]; simp
  set labels := expectedLabels s.substrate.name (s.layers.map (·.name)) s.ambient.name with hlabels
  set K : Set (LabelSpace labels) := {x | Admissible s (atLabel x)} with hKdef
  obtain ⟨F, cF, hF⟩ := curve_map s hs hn (fun l hm => (hl l hm).1) nm hamb habs q hnum
  let x : (Cell → ℝ) → LabelSpace labels := fun v key => rowFor s d.kind n i v key.1
  have mx : Measurable x := measurable_pi_iff.2 fun key => rowFor_measurable s d.kind n i key.1
  have hx : ∀ v, ∀ key ∈ labels, atLabel (x v) key = rowFor s d.kind n i v key := fun v key hkey => dif_pos hkey
  have mK : MeasurableSet K := (admissible_compact s hs).measurableSet
  -- the rows of the tables are admissible
  have inK : ∀ ω, x (W ω) ∈ K := by
    intro ω
    obtain ⟨g', hg⟩ := hT ω
    have tame : Tame C.rng.toRng d := by
      intro hk
      obtain ⟨p, hp, -⟩ := hs.substrate.sld
      rcases (hl s.substrate (by simp [SampleV.structure_])).2.sld p hp with h | ⟨h, -⟩ <;> rw [hk] at h <;> cases h
    obtain ⟨y, hy, e⟩ := row_within hs (within_of_tame C.rng_ok.toOk hs hn (fun l hm => (hl l hm).1) tame hg) i
    refine (row_admissible hy).congr fun key hkey => ?_
    rw [← e, hW ω i key hkey, hx _ key hkey]
  have aeK : ∀ᵐ v ∂iid Cell, x v ∈ K := by
    rw [← lW, ae_map_iff mW.aemeasurable (mx mK)]
    exact Filter.Eventually.of_forall inK
  have aeK' : ∀ᵐ v ∂iid Cell, x (exchange pre.length i v) ∈ K := (exchange_preserving pre.length i).quasiMeasurePreserving.ae aeK
  -- the curve as a function of the numbers
  let g : (Cell → ℝ) → Fin q.length → ℝ := fun v => if h : x v ∈ K then F ⟨x v, h⟩ else 0
  have mg : Measurable g := by
    have mF : Measurable fun z : LabelSpace labels => if h : z ∈ K then F ⟨z, h⟩ else 0 :=
      Measurable.dite (f := fun z : K => F z) (g := fun _ => 0) cF.measurable measurable_const mK
    exact mF.comp mx
  have hg : ∀ v (_ : x v ∈ K), curveFor s q (rowFor s d.kind n i v) = .ok (List.ofFn fun j => some (g v j)) := by
    intro v hv
    have : g v = F ⟨x v, hv⟩ := dif_pos hv
    rw [this, ← hF ⟨x v, hv⟩]
    exact curveFor_congr s q fun key hkey => (hx v key hkey).symm
  have unique : ∀ {r : Res (List (Option ℝ))} {v w : Fin q.length → ℝ}, r = .ok (List.ofFn fun j => some (v j)) → r = .ok (List.ofFn fun j => some (w j)) → v = w := by
    intro r v w h h'
    have := List.ofFn_injective (Except.ok.inj (h.symm.trans h'))
    exact funext fun j => Option.some.inj (congrFun this j)
  have hgc : ∀ ω, curve ω = g (W ω) := fun ω => by
    refine unique (hcurve ω) ?_
    rw [← hg (W ω) (inK ω)]
    exact curveFor_congr s q fun key hkey => hW ω i key hkey
  have above : ∀ v, x v ∈ K → a ≤ drawFrom d.kind a b (v (pre.length + 1, i, .thickness)) ∧ a ≤ drawFrom d.kind a b (v (pre.length + 2, i, .thickness)) := by
    intro v hv
    have key : ∀ (m : LayerV ℝ) (r : ℝ), m ∈ s.layers → (∃ nm, m.thickness = some (.range (.real a) (.real b) nm)) →
        rowFor s d.kind n i v (m.name ++ "_thickness".toList) = (r, 0) → a ≤ r := by
      rintro m r hm ⟨nm, ht⟩ hr
      obtain ⟨x', y', hx', hy', hxy⟩ := (hl m (by simp [SampleV.structure_, hm])).1.thickness _ ht
      have hab : a ≤ b := by
        have e1 : a = x' := Num.real.inj hx'
        have e2 : b = y' := Num.real.inj hy'
        rw [e1, e2]; exact hxy
      have := (hv.thickness m hm _ ht).1
      rw [hx v _ (m1 m hm), hr] at this
      exact (Set.uIcc_of_le hab ▸ this : r ∈ Set.Icc a b).1
    exact ⟨key l _ hml tw.thickness.1 (tw.lower_row hs hn d.kind n i v), key l' _ hml' tw.thickness.2 (tw.upper_row hs hn d.kind n i v)⟩
  have hc0 : 0 ≤ c.im := by
    obtain ⟨nm, h⟩ := tw.density.1
    exact (habs l (List.mem_cons_of_mem _ hml) _ h).1
  have gex : ∀ᵐ v ∂iid Cell, N (g (exchange pre.length i v)) = N (g v) := by
    filter_upwards [aeK, aeK'] with v h1 h2
    refine congrArg N (unique (hg _ h2) ?_)
    rw [← hg v h1]
    obtain ⟨u1, u2⟩ := above v h1
    exact tw.same_curve hs hn d.kind (fun l hm => (hl l hm).1) hamb hc0 q n i v u1 u2
  have mt : ∀ key, Measurable fun v => (rowFor s d.kind n i v key).1 := fun key => (rowFor_measurable s d.kind n i key).fst
  have main := exchange_loss (exchange_preserving pre.length i) (g := fun v => N (g v)) (t := fun v => (rowFor s d.kind n i v (l.name ++ "_thickness".toList)).1)
    (t' := fun v => (rowFor s d.kind n i v (l'.name ++ "_thickness".toList)).1) (hN.comp mg) (mt _) gex (fun v => by
      rw [tw.lower_row hs hn, tw.upper_row hs hn, exchange_lower])
  have a1 : Measurable fun v => ENNReal.ofReal (((rowFor s d.kind n i v (l.name ++ "_thickness".toList)).1 - (rowFor s d.kind n i v (l'.name ++ "_thickness".toList)).1) ^ 2) :=
    (((mt _).sub (mt _)).pow_const 2).ennreal_ofReal
  have a2 : Measurable fun v => ENNReal.ofReal ((N (g v) - (rowFor s d.kind n i v (l.name ++ "_thickness".toList)).1) ^ 2) :=
    (((hN.comp mg).sub (mt _)).pow_const 2).ennreal_ofReal
  rw [← lW, lintegral_map a1 mW, lintegral_map a2 mW] at main
  simp only [hW _ i _ (m1 l hml), hW _ i _ (m1 l' hml'), hgc]
  exact main

/-! ### Uniform sampling -/

theorem sq_between (x : ℝ) : ∫⁻ y, ENNReal.ofReal ((x - y) ^ 2) ∂unif = ENNReal.ofReal (x ^ 2 - x + 1 / 3) := by
  unfold unif
  rw [← ofReal_integral_eq_lintegral_ofReal]
  · congr 1
    rw [integral_Ico_eq_integral_Ioc, ← intervalIntegral.integral_of_le zero_le_one]
    have e : (fun y : ℝ => (x - y) ^ 2) = fun y => x ^ 2 - 2 * x * y + y ^ 2 := by funext y; ring
    rw [e, intervalIntegral.integral_add, intervalIntegral.integral_sub]
    · rw [intervalIntegral.integral_const, show (fun y : ℝ => 2 * x * y) = fun y => (2 * x) * y from rfl, intervalIntegral.integral_const_mul (2 * x) fun y => y,
        integral_id, integral_pow]
      norm_num
      ring
    all_goals exact Continuous.intervalIntegrable (by fun_prop) _ _
  · exact (Continuous.integrableOn_Icc (by fun_prop)).mono_set Set.Ico_subset_Icc_self
  · exact Filter.Eventually.of_forall fun y => sq_nonneg _

/-- The mean squared difference of two independent uniform numbers. -/
theorem sq_difference {ι : Type} {x y : ι} (h : x ≠ y) : ∫⁻ v, ENNReal.ofReal ((v x - v y) ^ 2) ∂iid ι = ENNReal.ofReal (1 / 6) := by
  have ind : iIndepFun (fun (i : ι) (v : ι → ℝ) => v i) (iid ι) := iIndepFun_infinitePi (P := fun _ : ι => unif) (X := fun _ z => z) fun _ => measurable_id
  have law : ∀ z : ι, (iid ι).map (fun v => v z) = unif := fun z => Measure.infinitePi_map_eval (μ := fun _ : ι => unif) z
  have pr : (iid ι).map (fun v => (v x, v y)) = unif.prod unif := by
    rw [(indepFun_iff_map_prod_eq_prod_map_map (measurable_pi_apply x).aemeasurable (measurable_pi_apply y).aemeasurable).1 (ind.indepFun h), law, law]
  have m : Measurable fun p : ℝ × ℝ => ENNReal.ofReal ((p.1 - p.2) ^ 2) := by fun_prop
  have e : ∫⁻ v, ENNReal.ofReal ((v x - v y) ^ 2) ∂iid ι = ∫⁻ p, ENNReal.ofReal ((p.1 - p.2) ^ 2) ∂(unif.prod unif) := by
    rw [← pr, lintegral_map m (by fun_prop)]
  rw [e, lintegral_prod _ m.aemeasurable]
  simp only [sq_between]
  unfold unif
  rw [← ofReal_integral_eq_lintegral_ofReal]
  · congr 1
    rw [integral_Ico_eq_integral_Ioc, ← intervalIntegral.integral_of_le zero_le_one]
    rw [intervalIntegral.integral_add, intervalIntegral.integral_sub]
    · simp only [intervalIntegral.integral_const, integral_id, integral_pow]
      norm_num
    all_goals exact Continuous.intervalIntegrable (by fun_prop) _ _
  · exact (Continuous.integrableOn_Icc (by fun_prop)).mono_set Set.Ico_subset_Icc_self
  · exact Filter.Eventually.of_forall fun y => show 0 ≤ y ^ 2 - y + 1 / 3 by nlinarith [sq_nonneg (y - 1 / 2)]

/-- With uniform sampling, the mean squared difference of the two thicknesses is a sixth of the squared width of their range. -/
theorem Twins.difference (C : Chance Ω P) (hs : SampleRegular s) (hn : (partNames s).Nodup) (d : DistArgs) (hd : d.kind = .uniform)
    (hl : ∀ l ∈ s.structure_, LayerDrawable l ∧ LayerKindOk d.kind l)
    {n k : ℕ} {T : Ω → Frame (Num ℝ)} (hT : ∀ ω, ∃ g', generateRandomLabels C.rng.toRng s n d (ω, k) = .ok (T ω, g')) (i : Fin n)
    (tw : Twins s pre post l l' a b c) (κ : ℝ) :
    ∫⁻ ω, ENNReal.ofReal ((κ * ((rowOf (T ω) i (l.name ++ "_thickness".toList)).1 - (rowOf (T ω) i (l'.name ++ "_thickness".toList)).1)) ^ 2) ∂P =
      ENNReal.ofReal (κ ^ 2 * (b - a) ^ 2 / 6) := by
  obtain ⟨W, mW, lW, hW⟩ := rows_numbers C s hs hn d hl n i.pos k T hT
  obtain ⟨m1, -, -⟩ := mem_labels (s := s)
  have hml : l ∈ s.layers := by rw [tw.layers]; simp
  have hml' : l' ∈ s.layers := by rw [tw.layers]; simp
  simp only [hW _ i _ (m1 l hml), hW _ i _ (m1 l' hml'), tw.lower_row hs hn, tw.upper_row hs hn, hd]
  have e : ∀ v : Cell → ℝ, ENNReal.ofReal ((κ * (drawFrom .uniform a b (v (pre.length + 1, i, .thickness)) - drawFrom .uniform a b (v (pre.length + 2, i, .thickness)))) ^ 2) =
      ENNReal.ofReal (κ ^ 2 * (b - a) ^ 2) * ENNReal.ofReal ((v (pre.length + 1, i, .thickness) - v (pre.length + 2, i, .thickness)) ^ 2) := by
    intro v
    rw [← ENNReal.ofReal_mul (by positivity)]
    congr 1
    simp only [drawFrom]
    ring
  simp only [e]
  have m : Measurable fun v : Cell → ℝ => ENNReal.ofReal (κ ^ 2 * (b - a) ^ 2) *
      ENNReal.ofReal ((v (pre.length + 1, (i : ℕ), Part.thickness) - v (pre.length + 2, (i : ℕ), Part.thickness)) ^ 2) := by fun_prop
  rw [← lintegral_map m mW, lW, lintegral_const_mul _ (by fun_prop), sq_difference (by simp), ← ENNReal.ofReal_mul (by positivity)]
  congr 1
  ring

/-- **C142** (uniform sampling): with uniform sampling, no prediction of the thickness of the lower one of two such layers from the curve has a mean
squared error below `(b - a)² / 24`, half the variance of the thickness itself, where `a` and `b` are the limits of the thickness. -/
theorem C142_uniform (C : Chance Ω P) (s : SampleV ℝ) (hs : SampleRegular s) (hn : (partNames s).Nodup) (d : DistArgs) (hd : d.kind = .uniform)
    (hl : ∀ l ∈ s.structure_, LayerDrawable l ∧ LayerKindOk d.kind l) (nm : Option Str) (hamb : s.ambient.sld = some (.const (.real 0) nm))
    (habs : ∀ l ∈ s.substrate :: s.layers, ∀ p, l.sld = some p → 0 ≤ p.min.im ∧ 0 ≤ p.max.im)
    (n : ℕ) (k : ℕ) (T : Ω → Frame (Num ℝ)) (hT : ∀ ω, ∃ g', generateRandomLabels C.rng.toRng s n d (ω, k) = .ok (T ω, g')) (i : Fin n)
    (q : List ℝ) (hnum : ∀ y, RowWithin s y → ∃ v : Fin q.length → ℝ, curveFor s q (pairs y) = .ok (List.ofFn fun j => some (v j)))
    (pre post : List (LayerV ℝ)) (l l' : LayerV ℝ) (a b : ℝ) (c : Num ℝ) (tw : Twins s pre post l l' a b c)
    (curve : Ω → Fin q.length → ℝ) (hcurve : ∀ ω, curveFor s q (rowOf (T ω) i) = .ok (List.ofFn fun j => some (curve ω j)))
    (N : (Fin q.length → ℝ) → ℝ) (hN : Measurable N) :
    ENNReal.ofReal ((b - a) ^ 2 / 24) ≤ ∫⁻ ω, ENNReal.ofReal ((N (curve ω) - (rowOf (T ω) i (l.name ++ "_thickness".toList)).1) ^ 2) ∂P := by
  have h1 := C142_loss C s hs hn d hl nm hamb habs n k T hT i q hnum pre post l l' a b c tw curve hcurve N hN
  have h2 := tw.difference C hs hn d hd hl hT i 1
  simp only [one_mul, one_pow] at h2
  rw [h2, show (4 : ENNReal) = ENNReal.ofReal 4 by simp, ← ENNReal.ofReal_div_of_pos (by norm_num)] at h1
  refine le_trans (le_of_eq ?_) h1
  congr 1
  ring

/-- **C142** (the limit is that of the best guess): half the sum of the two thicknesses, as a prediction, has exactly this mean squared error. -/
theorem C142_sharp (C : Chance Ω P) (s : SampleV ℝ) (hs : SampleRegular s) (hn : (partNames s).Nodup) (d : DistArgs) (hd : d.kind = .uniform)
    (hl : ∀ l ∈ s.structure_, LayerDrawable l ∧ LayerKindOk d.kind l)
    (n : ℕ) (k : ℕ) (T : Ω → Frame (Num ℝ)) (hT : ∀ ω, ∃ g', generateRandomLabels C.rng.toRng s n d (ω, k) = .ok (T ω, g')) (i : Fin n)
    (pre post : List (LayerV ℝ)) (l l' : LayerV ℝ) (a b : ℝ) (c : Num ℝ) (tw : Twins s pre post l l' a b c) :
    ∫⁻ ω, ENNReal.ofReal ((((rowOf (T ω) i (l.name ++ "_thickness".toList)).1 + (rowOf (T ω) i (l'.name ++ "_thickness".toList)).1) / 2 -
      (rowOf (T ω) i (l.name ++ "_thickness".toList)).1) ^ 2) ∂P = ENNReal.ofReal ((b - a) ^ 2 / 24) := by
  have h := tw.difference C hs hn d hd hl hT i (-1 / 2)
  rw [show (-1 / 2 : ℝ) ^ 2 * (b - a) ^ 2 / 6 = (b - a) ^ 2 / 24 by ring] at h
  rw [← h]
  refine lintegral_congr fun ω => ?_
  congr 1
  ring

/-! ### An example -/

/-- Two films of the same density on silicon. -/
noncomputable def exampleTwins : SampleV ℝ where
  substrate := ⟨.substrate, "Si".toList, none, some (.const (.real 0) (some "roughness".toList)), some (.const (.real 20) (some "sld".toList))⟩
  ambient := ⟨.ambient, "air".toList, none, none, some (.const (.real 0) (some "sld".toList))⟩
  layers := [⟨.layer, "lower".toList, some (.range (.real 20) (.real 140) (some "thickness".toList)), some (.const (.real 0) (some "roughness".toList)),
      some (.const (.real 10) (some "sld".toList))⟩,
    ⟨.layer, "upper".toList, some (.range (.real 20) (.real 140) (some "thickness".toList)), some (.const (.real 0) (some "roughness".toList)),
      some (.const (.real 10) (some "sld".toList))⟩]

theorem exampleTwins_regular : SampleRegular exampleTwins := by
  refine ⟨⟨rfl, rfl, ⟨_, rfl, ⟨rfl, trivial⟩, ?_⟩, ⟨_, rfl, rfl, trivial⟩⟩, ⟨rfl, rfl, rfl, ⟨_, rfl, rfl, trivial⟩⟩, ?_⟩
  · simp only [Param.min, Num.ltZero]; norm_num
  · intro l hl
    simp only [exampleTwins, List.mem_cons, List.not_mem_nil, or_false] at hl
    rcases hl with rfl | rfl <;>
    · refine ⟨Or.inl rfl, ⟨_, rfl, ⟨rfl, ?_⟩, ?_⟩, ⟨_, rfl, ⟨rfl, trivial⟩, ?_⟩, ⟨_, rfl, rfl, trivial⟩⟩
      · simp only [ParamValid, Num.ge]; norm_num
      · simp only [Param.min, Num.ltZero]; norm_num
      · simp only [Param.min, Num.ltZero]; norm_num

theorem exampleTwins_drawable : ∀ l ∈ exampleTwins.structure_, LayerDrawable l := by
  intro l hl
  simp only [SampleV.structure_, exampleTwins, List.cons_append, List.nil_append, List.mem_cons, List.not_mem_nil, or_false] at hl
  rcases hl with rfl | rfl | rfl | rfl
  · refine ⟨?_, by simp, ?_⟩ <;> rintro p ⟨⟩
    · trivial
    · exact ⟨0, 0, rfl, rfl, le_rfl⟩
  · refine ⟨?_, ?_, ?_⟩ <;> rintro p ⟨⟩
    · trivial
    · exact ⟨20, 140, rfl, rfl, by norm_num⟩
    · exact ⟨0, 0, rfl, rfl, le_rfl⟩
  · refine ⟨?_, ?_, ?_⟩ <;> rintro p ⟨⟩
    · trivial
    · exact ⟨20, 140, rfl, rfl, by norm_num⟩
    · exact ⟨0, 0, rfl, rfl, le_rfl⟩
  · refine ⟨?_, by simp, by simp⟩
    rintro p ⟨⟩
    trivial

/-- The hypotheses of C142 hold for it, and any momentum transfers: the thickness of the lower film, between 20 Å and 140 Å, is never predicted with a mean
squared error below 600 Å². -/
example (n : ℕ) (hpos : 0 < n) (i : Fin n) (q : List ℝ) : ∃ (T : (ChanceIdx → ℝ) → Frame (Num ℝ)) (curve : (ChanceIdx → ℝ) → Fin q.length → ℝ),
    (∀ ω, ∃ g', generateRandomLabels Chance.product.rng.toRng exampleTwins n ⟨.uniform, none, none⟩ (ω, 0) = .ok (T ω, g')) ∧
    (∀ ω, curveFor exampleTwins q (rowOf (T ω) i) = .ok (List.ofFn fun j => some (curve ω j))) ∧
    ∀ N : (Fin q.length → ℝ) → ℝ, Measurable N → ENNReal.ofReal 600 ≤
      ∫⁻ ω, ENNReal.ofReal ((N (curve ω) - (rowOf (T ω) i ("lower".toList ++ "_thickness".toList)).1) ^ 2) ∂Measure.infinitePi ChanceIdx.law := by
  have H : ∀ l ∈ exampleTwins.structure_, LayerDrawable l ∧ LayerKindOk .uniform l := fun l hl =>
    ⟨exampleTwins_drawable l hl, fun _ _ => Or.inl rfl, fun _ _ => Or.inl rfl, fun _ _ => Or.inl rfl⟩
  have hnd : (partNames exampleTwins).Nodup := by simp only [partNames, exampleTwins]; decide
  have habs : ∀ l ∈ exampleTwins.substrate :: exampleTwins.layers, ∀ p, l.sld = some p → 0 ≤ p.min.im ∧ 0 ≤ p.max.im := by
    intro l hl
    simp only [exampleTwins, List.mem_cons, List.not_mem_nil, or_false] at hl
    rcases hl with rfl | rfl | rfl <;> rintro p ⟨⟩ <;> exact ⟨le_refl (0 : ℝ), le_refl (0 : ℝ)⟩
  have hsharp : SharpSample exampleTwins := by
    refine ⟨⟨_, rfl⟩, ?_, habs⟩
    intro l hl
    simp only [exampleTwins, List.mem_cons, List.not_mem_nil, or_false] at hl
    rcases hl with rfl | rfl | rfl <;> exact ⟨_, rfl⟩
  have hnum : ∀ y, RowWithin exampleTwins y → ∃ v : Fin q.length → ℝ, curveFor exampleTwins q (pairs y) = .ok (List.ofFn fun j => some (v j)) := by
    intro y hy
    obtain ⟨R, hR, -⟩ := stack_points exampleTwins_regular exampleTwins_drawable hsharp hy
    exact ⟨_, curve_of_points (nm := some "sld".toList) rfl q hy fun u _ => hR u⟩
  obtain ⟨T, hT, -⟩ := C124_rows Chance.product exampleTwins exampleTwins_regular hnd ⟨.uniform, none, none⟩ H n hpos 0
  have hc : ∀ ω, ∃ v : Fin q.length → ℝ, curveFor exampleTwins q (rowOf (T ω) i) = .ok (List.ofFn fun j => some (v j)) := by
    intro ω
    obtain ⟨g', hg⟩ := hT ω
    obtain ⟨y, hy, e⟩ := row_within exampleTwins_regular
      (within_of_tame Chance.product.rng_ok.toOk exampleTwins_regular hnd exampleTwins_drawable (by intro h; cases h) hg) i
    rw [show rowOf (T ω) i = pairs y from funext e]
    exact hnum y hy
  choose curve hcurve using hc
  refine ⟨T, curve, hT, hcurve, fun N hN => ?_⟩
  have h := C142_uniform Chance.product exampleTwins exampleTwins_regular hnd ⟨.uniform, none, none⟩ rfl H (some "sld".toList) rfl habs n 0 T hT i q hnum
    [] [] ⟨.layer, "lower".toList, some (.range (.real 20) (.real 140) (some "thickness".toList)), some (.const (.real 0) (some "roughness".toList)),
      some (.const (.real 10) (some "sld".toList))⟩ ⟨.layer, "upper".toList, some (.range (.real 20) (.real 140) (some "thickness".toList)), some (.const (.real 0) (some "roughness".toList)),
      some (.const (.real 10) (some "sld".toList))⟩ 20 140 (.real 10)
    ⟨rfl, ⟨⟨_, rfl⟩, ⟨_, rfl⟩⟩, ⟨⟨_, rfl⟩, ⟨_, rfl⟩⟩, by rintro p ⟨⟩; show 2 * (0 : ℝ) ≤ 20; norm_num⟩ curve hcurve N hN
  rw [show ((140 : ℝ) - 20) ^ 2 / 24 = 600 by norm_num] at h
  exact h

end Verif.Props
