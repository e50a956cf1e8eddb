import Verif.Props.Support
import Verif.Props.Continuity
import Verif.Props.Trainer
import Verif.Model.Networks

/-!
# C130: labels that the curves do not determine cannot be learned
-/

namespace Verif.Props
open Verif.Py Verif.Model Verif.Spec Complex Filter Topology MeasureTheory

/-- The simulated curve of a set of labels: real and imaginary part for every label, in the units of the labels (Å, 1e-6 Å⁻²). -/
noncomputable def curveFor (s : SampleV ℝ) (q : List ℝ) (y : Str → ℝ × ℝ) : Res (List (Option ℝ)) :=
  multilayerReflectivity (q.map fun (x : ℝ) => x * 1e10)
    (s.layers.map fun (l : LayerV ℝ) => (y (l.name ++ "_thickness".toList)).1 * 1e-10)
    ((s.substrate :: s.layers).map fun (l : LayerV ℝ) => (y (l.name ++ "_roughness".toList)).1 * 1e-10)
    ((s.substrate :: s.layers).map fun (l : LayerV ℝ) =>
      (⟨(y (l.name ++ "_sld".toList)).1, (y (l.name ++ "_sld".toList)).2⟩ : ℂ) * 1e14)
    ((⟨(y (s.ambient.name ++ "_sld".toList)).1, (y (s.ambient.name ++ "_sld".toList)).2⟩ : ℂ) * 1e14)

/-- The labels as pairs of real and imaginary part. -/
def pairs (y : Str → Num ℝ) (k : Str) : ℝ × ℝ := ((y k).re, (y k).im)

theorem cellC_rowOf {f : Frame (Num ℝ)} {F : Str → List (Num ℝ)} {k : Str} (h : f.get k = .ok (F k)) (i : ℕ) :
    cellC F k i = ⟨(rowOf f i k).1, (rowOf f i k).2⟩ := by
  unfold cellC rowOf
  rw [h]
  simp only [List.getD_eq_getElem?_getD]
  cases (F k)[i]?.getD (.real 0) <;> rfl

variable {G : Type}

/-- **C130** (simulated curves): without noise on the q values, row `i` of the simulated curves is the curve of row `i` of the labels. -/
theorem C130_generated (rng : Rng G) (ok : rng.Ok) (hz : ∀ m n g, ∀ x ∈ (rng.normal m 0 n g).1, x = m) (s : SampleV ℝ) (hs : SampleRegular s)
    (hn : (partNames s).Nodup) (hk : KeywordFree (partNames s)) (hlay : 0 < s.layers.length)
    (hsub : ∀ p, s.substrate.roughness = some p → ∃ a b, p.min = .real a ∧ p.max = .real b) (d : DistArgs) (n : ℕ)
    (f : Frame (Num ℝ)) (g g₁ : G) (h : generateRandomLabels rng s n d g = .ok (f, g₁)) (eng : Option Engine) (pf : Str → Option ℝ)
    (q : List ℝ) (g₂ g₃ : G) (c : List (List (Option ℝ)))
    (hc : simulateReflectivity rng eng pf q (some (toSimTable f n)) (.num 0) "builtin".toList g₂ = .ok (c, g₃)) :
    c.length = n ∧ ∀ i < n, ∃ ci, c[i]? = some ci ∧ curveFor s q (rowOf f i) = .ok ci := by
  obtain ⟨-, hcol, hlab, -⟩ := C17_label_table ok s hs hn n _ _ _ f h
  obtain ⟨F, hF, hget, ht, hr, -⟩ := generated_columns ok hs hn hsub h
  rw [Int.toNat_natCast] at hget
  have htab := generated_isTable hcol hF (fun k hk => (hget k hk).2) ht hr
  obtain ⟨gq, hq⟩ := noisyQ_zero rng ok hz pf q n g₂
  rw [C40_builtin_partial s hs f.columns hlab hk hlay _ _ _ _ htab rng eng pf q (.num 0) g₂ gq _ (.inl rfl) (fun _ => q) (fun _ _ => rfl) hq] at hc
  obtain ⟨m1, m2, m3⟩ := mem_labels (s := s)
  rw [← hcol] at m1 m2 m3
  have key : ∀ i, multilayerReflectivity (q.map fun (x : ℝ) => x * 1e10) ((rowT s F i).map fun (x : ℝ) => x * 1e-10)
          ((rowR s F i).map fun (x : ℝ) => x * 1e-10) (((rowS s F i).map fun (z : ℂ) => z * 1e14).dropLast)
          (((rowS s F i).map fun (z : ℂ) => z * 1e14).getLastD 0) = curveFor s q (rowOf f i) := by
    intro i
    have e1 : (rowT s F i).map (fun (x : ℝ) => x * 1e-10) =
        s.layers.map fun (l : LayerV ℝ) => (rowOf f i (l.name ++ "_thickness".toList)).1 * 1e-10 := by
      unfold rowT
      rw [List.map_map]
      refine List.map_congr_left fun l hl => ?_
      simp only [Function.comp]
      rw [cellC_rowOf (hget _ (m1 l hl)).1]
    have e2 : (rowR s F i).map (fun (x : ℝ) => x * 1e-10) =
        (s.substrate :: s.layers).map fun (l : LayerV ℝ) => (rowOf f i (l.name ++ "_roughness".toList)).1 * 1e-10 := by
      unfold rowR
      rw [List.map_map]
      refine List.map_congr_left fun l hl => ?_
      simp only [Function.comp]
      rw [cellC_rowOf (hget _ (m2 l hl)).1]
    have e3 : (rowS s F i).map (fun (z : ℂ) => z * 1e14) =
        ((s.substrate :: s.layers).map fun (l : LayerV ℝ) =>
          (⟨(rowOf f i (l.name ++ "_sld".toList)).1, (rowOf f i (l.name ++ "_sld".toList)).2⟩ : ℂ) * 1e14) ++
        [(⟨(rowOf f i (s.ambient.name ++ "_sld".toList)).1, (rowOf f i (s.ambient.name ++ "_sld".toList)).2⟩ : ℂ) * 1e14] := by
      unfold rowS
      rw [List.map_map, List.map_append]
      congr 1
      · refine List.map_congr_left fun l hl => ?_
        simp only [Function.comp]
        rw [cellC_rowOf (hget _ (m3 l (List.mem_append_left _ hl))).1]
      · simp only [List.map_cons, List.map_nil, Function.comp]
        rw [cellC_rowOf (hget _ (m3 s.ambient (by simp))).1]
    rw [e1, e2, e3, List.dropLast_concat]
    unfold curveFor
    congr 1
    rw [List.getLastD_eq_getLast?, List.getLast?_concat, Option.getD_some]
  have hrows : (toSimTable f n).nrows = n := rfl
  simp only [hrows, key] at hc
  cases hm : (List.range n).mapM fun (i : Nat) => curveFor s q (rowOf f i) with
  | error e => rw [hm] at hc; cases hc
  | ok c' =>
    rw [hm] at hc
    cases hc
    have hf := mapM_ok_iff.1 hm
    have hl : c.length = n := by simpa using hf.length_eq.symm
    refine ⟨hl, fun i hi => ⟨c[i]'(by omega), List.getElem?_eq_getElem _, ?_⟩⟩
    have := hf.get (i := i) (by simpa using hi) (by omega)
    simpa using this

/-- **C130** (hidden labels): if two neighbouring layers have the same density, only the sum of their thicknesses matters, and the roughness
between them does not. -/
theorem C130_same_curve (s : SampleV ℝ) (q : List ℝ) (y y' : Str → ℝ × ℝ) (pre post : List (LayerV ℝ)) (l l' : LayerV ℝ)
    (hl : s.layers = pre ++ l :: l' :: post)
    (hamb : y (s.ambient.name ++ "_sld".toList) = (0, 0))
    (hpos : 0 ≤ (y (l.name ++ "_sld".toList)).2)
    (hsld : y (l.name ++ "_sld".toList) = y (l'.name ++ "_sld".toList))
    (hs : ∀ m ∈ s.substrate :: s.layers ++ [s.ambient], y' (m.name ++ "_sld".toList) = y (m.name ++ "_sld".toList))
    (ht : ∀ m ∈ pre ++ post, y' (m.name ++ "_thickness".toList) = y (m.name ++ "_thickness".toList))
    (hsum : (y' (l.name ++ "_thickness".toList)).1 + (y' (l'.name ++ "_thickness".toList)).1 =
      (y (l.name ++ "_thickness".toList)).1 + (y (l'.name ++ "_thickness".toList)).1)
    (hr : ∀ m ∈ s.substrate :: pre ++ l' :: post, y' (m.name ++ "_roughness".toList) = y (m.name ++ "_roughness".toList)) :
    curveFor s q y' = curveFor s q y := by
  have one : ∀ z : Str → ℝ × ℝ, z (s.ambient.name ++ "_sld".toList) = (0, 0) → 0 ≤ (z (l.name ++ "_sld".toList)).2 →
      z (l.name ++ "_sld".toList) = z (l'.name ++ "_sld".toList) →
      curveFor s q z = multilayerReflectivity (q.map fun (x : ℝ) => x * 1e10)
        (pre.map (fun (l : LayerV ℝ) => (z (l.name ++ "_thickness".toList)).1 * 1e-10) ++
          ((z (l.name ++ "_thickness".toList)).1 + (z (l'.name ++ "_thickness".toList)).1) * 1e-10 ::
          post.map fun (l : LayerV ℝ) => (z (l.name ++ "_thickness".toList)).1 * 1e-10)
        ((s.substrate :: pre).map (fun (l : LayerV ℝ) => (z (l.name ++ "_roughness".toList)).1 * 1e-10) ++
          (z (l'.name ++ "_roughness".toList)).1 * 1e-10 ::
          post.map fun (l : LayerV ℝ) => (z (l.name ++ "_roughness".toList)).1 * 1e-10)
        ((s.substrate :: pre).map (fun (l : LayerV ℝ) => (⟨(z (l.name ++ "_sld".toList)).1, (z (l.name ++ "_sld".toList)).2⟩ : ℂ) * 1e14) ++
          (⟨(z (l'.name ++ "_sld".toList)).1, (z (l'.name ++ "_sld".toList)).2⟩ : ℂ) * 1e14 ::
          post.map fun (l : LayerV ℝ) => (⟨(z (l.name ++ "_sld".toList)).1, (z (l.name ++ "_sld".toList)).2⟩ : ℂ) * 1e14) 0 := by
    intro z h1 h2 h3
    have him : ((⟨(z (l'.name ++ "_sld".toList)).1, (z (l'.name ++ "_sld".toList)).2⟩ : ℂ) * 1e14).im ≠ -1e-30 := by
      have e : ((⟨(z (l'.name ++ "_sld".toList)).1, (z (l'.name ++ "_sld".toList)).2⟩ : ℂ) * 1e14).im = (z (l'.name ++ "_sld".toList)).2 * 1e14 := by
        have : (1e14 : ℂ) = ((1e14 : ℝ) : ℂ) := by norm_num
        rw [this, Complex.im_mul_ofReal]
      rw [e, ← h3]
      have : 0 ≤ (z (l.name ++ "_sld".toList)).2 * 1e14 := by positivity
      have h0 : (-1e-30 : ℝ) < 0 := by norm_num
      linarith
    obtain ⟨c, -, hc1, hc2⟩ := C36_split (q.map fun (x : ℝ) => x * 1e10)
      (pre.map (fun (l : LayerV ℝ) => (z (l.name ++ "_thickness".toList)).1 * 1e-10))
      (post.map fun (l : LayerV ℝ) => (z (l.name ++ "_thickness".toList)).1 * 1e-10)
      ((s.substrate :: pre).map (fun (l : LayerV ℝ) => (z (l.name ++ "_roughness".toList)).1 * 1e-10))
      (post.map fun (l : LayerV ℝ) => (z (l.name ++ "_roughness".toList)).1 * 1e-10)
      ((s.substrate :: pre).map (fun (l : LayerV ℝ) => (⟨(z (l.name ++ "_sld".toList)).1, (z (l.name ++ "_sld".toList)).2⟩ : ℂ) * 1e14))
      (post.map fun (l : LayerV ℝ) => (⟨(z (l.name ++ "_sld".toList)).1, (z (l.name ++ "_sld".toList)).2⟩ : ℂ) * 1e14)
      ((⟨(z (l'.name ++ "_sld".toList)).1, (z (l'.name ++ "_sld".toList)).2⟩ : ℂ) * 1e14)
      ((z (l'.name ++ "_thickness".toList)).1 * 1e-10) ((z (l.name ++ "_thickness".toList)).1 * 1e-10)
      ((z (l'.name ++ "_roughness".toList)).1 * 1e-10) ((z (l.name ++ "_roughness".toList)).1 * 1e-10)
      (by simp) (by simp) (by simp) (by simp) him
    unfold curveFor
    rw [hl, h1]
    have hz : (⟨((0, 0) : ℝ × ℝ).1, ((0, 0) : ℝ × ℝ).2⟩ : ℂ) * 1e14 = 0 := by
      rw [show (⟨((0, 0) : ℝ × ℝ).1, ((0, 0) : ℝ × ℝ).2⟩ : ℂ) = 0 from rfl, zero_mul]
    rw [hz]
    simp only [List.map_append, List.map_cons, List.cons_append] at hc1 hc2 ⊢
    rw [h3, hc2, ← hc1, add_comm (z (l.name ++ "_thickness".toList)).1, add_mul]
  have hm : l ∈ s.substrate :: s.layers ++ [s.ambient] := by simp [hl]
  have hm' : l' ∈ s.substrate :: s.layers ++ [s.ambient] := by simp [hl]
  rw [one y hamb hpos hsld, one y' (by rw [hs _ (by simp)]; exact hamb) (by rw [hs _ hm]; exact hpos) (by rw [hs _ hm, hs _ hm']; exact hsld), hsum]
  have f1 : ∀ L : List (LayerV ℝ), (∀ m ∈ L, m ∈ pre ++ post) → L.map (fun (l : LayerV ℝ) => (y' (l.name ++ "_thickness".toList)).1 * (1e-10 : ℝ)) =
      L.map fun (l : LayerV ℝ) => (y (l.name ++ "_thickness".toList)).1 * (1e-10 : ℝ) := fun L hL =>
    List.map_congr_left fun m hm => by rw [ht m (hL m hm)]
  have f2 : ∀ L : List (LayerV ℝ), (∀ m ∈ L, m ∈ s.substrate :: pre ++ l' :: post) →
      L.map (fun (l : LayerV ℝ) => (y' (l.name ++ "_roughness".toList)).1 * (1e-10 : ℝ)) =
      L.map fun (l : LayerV ℝ) => (y (l.name ++ "_roughness".toList)).1 * (1e-10 : ℝ) := fun L hL =>
    List.map_congr_left fun m hm => by rw [hr m (hL m hm)]
  have f3 : ∀ L : List (LayerV ℝ), (∀ m ∈ L, m ∈ s.substrate :: s.layers ++ [s.ambient]) →
      L.map (fun (l : LayerV ℝ) => (⟨(y' (l.name ++ "_sld".toList)).1, (y' (l.name ++ "_sld".toList)).2⟩ : ℂ) * 1e14) =
      L.map fun (l : LayerV ℝ) => (⟨(y (l.name ++ "_sld".toList)).1, (y (l.name ++ "_sld".toList)).2⟩ : ℂ) * 1e14 := fun L hL =>
    List.map_congr_left fun m hm => by rw [hs m (hL m hm)]
  rw [f1 pre fun m hm => by simp [hm], f1 post fun m hm => by simp [hm], f2 (s.substrate :: pre) fun m hm => List.mem_append_left _ hm,
    f2 post fun m hm => by simp [hm], f3 (s.substrate :: pre) (fun m hm => ?_), f3 post (fun m hm => ?_), hr l' (by simp), hs l' hm']
  · rw [hl]
    simp [hm]
  · rw [hl]
    rcases List.mem_cons.1 hm with rfl | hm
    · simp
    · simp [hm]

/-! ### Curves close to the curve of given labels -/

/-- Labels as a point of a finite-dimensional space. -/
abbrev LabelSpace (labels : List Str) : Type := {k : Str // k ∈ labels} → ℝ × ℝ

noncomputable def atLabel {labels : List Str} (x : LabelSpace labels) (k : Str) : ℝ × ℝ := if h : k ∈ labels then x ⟨k, h⟩ else 0

theorem atLabel_continuous {labels : List Str} (k : Str) : Continuous fun x : LabelSpace labels => atLabel x k := by
  unfold atLabel
  by_cases h : k ∈ labels
  · simp only [h, dif_pos]
    fun_prop
  · simp only [h, dif_neg, not_false_eq_true]
    fun_prop

/-- The simulated curve as a function of the labels: thicknesses, roughnesses and densities depend continuously on them. -/
theorem curve_family (s : SampleV ℝ) (q : List ℝ) :
    ∃ (t r : List (LabelSpace (expectedLabels s.substrate.name (s.layers.map (·.name)) s.ambient.name) → ℝ))
      (ρ : List (LabelSpace (expectedLabels s.substrate.name (s.layers.map (·.name)) s.ambient.name) → ℂ)),
      t.length + 1 = r.length ∧ r.length = ρ.length ∧ (∀ f ∈ t, Continuous f) ∧ (∀ f ∈ r, Continuous f) ∧ (∀ f ∈ ρ, Continuous f) ∧
      (∀ f ∈ ρ, ∀ x, 0 ≤ (f x).im) ∧
      ∀ y : Str → ℝ × ℝ, y (s.ambient.name ++ "_sld".toList) = (0, 0) →
        (∀ l ∈ s.substrate :: s.layers, 0 ≤ (y (l.name ++ "_sld".toList)).2) →
        curveFor s q y = .ok (q.map fun (u : ℝ) => codePoint (at_ t fun k => y k.1) (at_ r fun k => y k.1) (at_ ρ fun k => y k.1) (u * 1e10)) := by
  set labels := expectedLabels s.substrate.name (s.layers.map (·.name)) s.ambient.name with hlabels
  obtain ⟨m1, m2, m3⟩ := mem_labels (s := s)
  rw [← hlabels] at m1 m2 m3
  let t : List (LabelSpace labels → ℝ) := s.layers.map fun (l : LayerV ℝ) x => (atLabel x (l.name ++ "_thickness".toList)).1 * 1e-10
  let r : List (LabelSpace labels → ℝ) := (s.substrate :: s.layers).map fun (l : LayerV ℝ) x => (atLabel x (l.name ++ "_roughness".toList)).1 * 1e-10
  let ρ : List (LabelSpace labels → ℂ) := (s.substrate :: s.layers).map fun (l : LayerV ℝ) x =>
    (((atLabel x (l.name ++ "_sld".toList)).1 : ℂ) + ((max (atLabel x (l.name ++ "_sld".toList)).2 0 : ℝ) : ℂ) * I) * 1e14
  have hval : ∀ y : Str → ℝ × ℝ, y (s.ambient.name ++ "_sld".toList) = (0, 0) →
      (∀ l ∈ s.substrate :: s.layers, 0 ≤ (y (l.name ++ "_sld".toList)).2) →
      curveFor s q y = .ok (q.map fun (u : ℝ) => codePoint (at_ t fun k => y k.1) (at_ r fun k => y k.1) (at_ ρ fun k => y k.1) (u * 1e10)) := by
    intro y ha hp
    unfold curveFor
    have hz : (⟨((0, 0) : ℝ × ℝ).1, ((0, 0) : ℝ × ℝ).2⟩ : ℂ) * 1e14 = 0 := by
      rw [show (⟨((0, 0) : ℝ × ℝ).1, ((0, 0) : ℝ × ℝ).2⟩ : ℂ) = 0 from rfl, zero_mul]
    rw [ha, hz, multilayer_eq _ _ _ _ (by simp) (by simp), List.map_map]
    have e1 : at_ t (fun k => y k.1) = s.layers.map fun (l : LayerV ℝ) => (y (l.name ++ "_thickness".toList)).1 * 1e-10 := by
      simp only [at_, t, List.map_map]
      refine List.map_congr_left fun l hl => ?_
      simp only [Function.comp, atLabel, dif_pos (m1 l hl)]
    have e2 : at_ r (fun k => y k.1) = (s.substrate :: s.layers).map fun (l : LayerV ℝ) => (y (l.name ++ "_roughness".toList)).1 * 1e-10 := by
      simp only [at_, r]
      rw [List.map_map]
      refine List.map_congr_left fun l hl => ?_
      simp only [Function.comp, atLabel, dif_pos (m2 l hl)]
    have e3 : at_ ρ (fun k => y k.1) = (s.substrate :: s.layers).map fun (l : LayerV ℝ) =>
        (⟨(y (l.name ++ "_sld".toList)).1, (y (l.name ++ "_sld".toList)).2⟩ : ℂ) * 1e14 := by
      simp only [at_, ρ]
      rw [List.map_map]
      refine List.map_congr_left fun l hl => ?_
      simp only [Function.comp, atLabel, dif_pos (m3 l (List.mem_append_left _ hl)), max_eq_left (hp l hl)]
      congr 1
      apply Complex.ext <;> simp
    rw [e1, e2, e3]
    rfl
  have ct : ∀ f ∈ t, Continuous f := by
    intro f hf
    obtain ⟨l, -, rfl⟩ := List.mem_map.1 hf
    exact (atLabel_continuous _).fst.mul_const _
  have cr : ∀ f ∈ r, Continuous f := by
    intro f hf
    obtain ⟨l, -, rfl⟩ := List.mem_map.1 hf
    exact (atLabel_continuous _).fst.mul_const _
  have cs : ∀ f ∈ ρ, Continuous f := by
    intro f hf
    obtain ⟨l, -, rfl⟩ := List.mem_map.1 hf
    have c := atLabel_continuous (labels := labels) (l.name ++ "_sld".toList)
    exact ((continuous_ofReal.comp c.fst).add ((continuous_ofReal.comp (c.snd.max continuous_const)).mul_const I)).mul_const _
  have pos : ∀ f ∈ ρ, ∀ x, 0 ≤ (f x).im := by
    intro f hf x
    obtain ⟨l, -, rfl⟩ := List.mem_map.1 hf
    have : (1e14 : ℂ) = ((1e14 : ℝ) : ℂ) := by norm_num
    simp only
    rw [this, Complex.im_mul_ofReal]
    have : 0 ≤ max (atLabel x (l.name ++ "_sld".toList)).2 0 := le_max_right _ _
    simp
    exact mul_nonneg this (by norm_num)
  have hl1 : t.length + 1 = r.length := by simp [t, r]
  have hl2 : r.length = ρ.length := by simp [r, ρ]
  exact ⟨t, r, ρ, hl1, hl2, ct, cr, cs, pos, hval⟩

/-- The curve is a continuous function of the labels. -/
theorem curve_near (s : SampleV ℝ) (q : List ℝ) (y₀ : Str → ℝ × ℝ) (v₀ : Fin q.length → ℝ)
    (h₀ : curveFor s q y₀ = .ok (List.ofFn fun j => some (v₀ j)))
    (hamb : y₀ (s.ambient.name ++ "_sld".toList) = (0, 0))
    (hpos : ∀ l ∈ s.substrate :: s.layers, 0 ≤ (y₀ (l.name ++ "_sld".toList)).2) (η : ℝ) (hη : 0 < η) :
    ∃ δ > 0, ∀ y : Str → ℝ × ℝ, y (s.ambient.name ++ "_sld".toList) = (0, 0) →
      (∀ l ∈ s.substrate :: s.layers, 0 ≤ (y (l.name ++ "_sld".toList)).2) →
      (∀ k ∈ expectedLabels s.substrate.name (s.layers.map (·.name)) s.ambient.name, |(y k).1 - (y₀ k).1| < δ ∧ |(y k).2 - (y₀ k).2| < δ) →
      ∃ v : Fin q.length → ℝ, curveFor s q y = .ok (List.ofFn fun j => some (v j)) ∧ ∀ j, |v j - v₀ j| < η := by
  have fam := curve_family s q
  set labels := expectedLabels s.substrate.name (s.layers.map (·.name)) s.ambient.name with hlabels
  obtain ⟨t, r, ρ, hl1, hl2, ct, cr, cs, pos, hval⟩ := fam
  have hp₀ := hval y₀ hamb hpos
  rw [h₀] at hp₀
  have hp₀ := Except.ok.inj hp₀
  set x₀ : LabelSpace labels := fun k => y₀ k.1 with hx₀
  have hpt : ∀ j : Fin q.length, codePoint (at_ t x₀) (at_ r x₀) (at_ ρ x₀) (q.get j * 1e10) = some (v₀ j) := by
    intro j
    have := congrArg (fun l => l[(j : ℕ)]?) hp₀
    simpa using this.symm
  have hev : ∀ᶠ x in 𝓝 x₀, ∀ j : Fin q.length, ∃ v, codePoint (at_ t x) (at_ r x) (at_ ρ x) (q.get j * 1e10) = some v ∧ |v - v₀ j| < η := by
    rw [Filter.eventually_all]
    intro j
    have hm : ∀ x : LabelSpace labels, multilayerReflectivity [q.get j * 1e10] (at_ t x) (at_ r x) (at_ ρ x) 0 =
        .ok [codePoint (at_ t x) (at_ r x) (at_ ρ x) (q.get j * 1e10)] := fun x =>
      multilayer_eq _ _ _ _ (by simpa [at_] using hl1) (by simpa [at_] using hl2)
    have := C107_continuous (fun _ : LabelSpace labels => q.get j * 1e10) continuous_const t r ρ hl1 hl2 ct cr cs pos x₀ (v₀ j)
      (by rw [hm, hpt]) η hη
    filter_upwards [this] with x hx
    obtain ⟨v, h1, h2⟩ := hx
    rw [hm] at h1
    exact ⟨v, by simpa using h1, h2⟩
  obtain ⟨δ, hδ, hball⟩ := Metric.eventually_nhds_iff.1 hev
  refine ⟨δ, hδ, fun y ha hp hy => ?_⟩
  have hd : dist (fun k : {k : Str // k ∈ labels} => y k.1) x₀ < δ := by
    rw [dist_pi_lt_iff hδ]
    intro k
    rw [Prod.dist_eq, max_lt_iff, Real.dist_eq, Real.dist_eq]
    exact hy k.1 k.2
  choose v hv1 hv2 using hball hd
  refine ⟨v, ?_, hv2⟩
  rw [hval y ha hp]
  congr 1
  apply List.ext_getElem (by simp)
  intro j h1 h2
  have := hv1 ⟨j, by simpa using h1⟩
  simpa using this

/-! ### Random labels -/

theorem rowOf_get {f : Frame (Num ℝ)} {k : Str} {col : List (Num ℝ)} (h : f.get k = .ok col) {i : ℕ} (hi : i < col.length) :
    rowOf f i k = (col[i].re, col[i].im) := by
  unfold rowOf
  rw [h]
  simp [hi]

variable {Ω : Type} [MeasurableSpace Ω] {P : Measure Ω}

theorem inRange_absorption {p : Param ℝ} {v : Num ℝ} (h : InRange p v) (h1 : 0 ≤ p.min.im) (h2 : 0 ≤ p.max.im) : 0 ≤ v.im := by
  cases p with
  | const c nm => cases h; exact h1
  | range a b nm =>
    have aux : ∀ x y : ℝ, 0 ≤ a.im → 0 ≤ b.im → y ∈ Set.uIcc a.im b.im → 0 ≤ (Num.cplx true x y : Num ℝ).im := fun x y h1 h2 hy =>
      (le_min h1 h2).trans hy.1
    cases a <;> cases b
    · obtain ⟨x, rfl, -, -⟩ := h
      exact le_refl _
    all_goals
      obtain ⟨x, y, rfl, -, hy⟩ := h
      exact aux x y h1 h2 hy

/-- The rows of random tables have no density in the ambient and no negative absorption. -/
theorem row_physical (C : Chance Ω P) (s : SampleV ℝ) (hs : SampleRegular s) (hn : (partNames s).Nodup) (d : DistArgs)
    (hl : ∀ l ∈ s.structure_, LayerDrawable l ∧ LayerKindOk d.kind l) (nm : Option Str) (hamb : s.ambient.sld = some (.const (.real 0) nm))
    (habs : ∀ l ∈ s.substrate :: s.layers, ∀ p, l.sld = some p → 0 ≤ p.min.im ∧ 0 ≤ p.max.im)
    (n : ℕ) (g : Ω × ℕ) (f : Frame (Num ℝ)) (g' : Ω × ℕ) (hg : generateRandomLabels C.rng.toRng s n d g = .ok (f, g')) (i : Fin n) :
    rowOf f i (s.ambient.name ++ "_sld".toList) = (0, 0) ∧ ∀ l ∈ s.substrate :: s.layers, 0 ≤ (rowOf f i (l.name ++ "_sld".toList)).2 := by
  have hsld : ∀ l ∈ s.substrate :: s.layers, ∃ p, l.sld = some p := by
    intro l hm
    rcases List.mem_cons.1 hm with rfl | hm
    · obtain ⟨p, hp, -⟩ := hs.substrate.sld
      exact ⟨p, hp⟩
    · obtain ⟨p, hp, -⟩ := (hs.layers l hm).sld
      exact ⟨p, hp⟩
  have tame : Tame C.rng.toRng d := by
    intro hk
    obtain ⟨p, hp⟩ := hsld s.substrate (by simp)
    rcases (hl s.substrate (by simp [SampleV.structure_])).2.sld p hp with h | ⟨h, -⟩ <;> rw [hk] at h <;> cases h
  have within := within_of_tame C.rng_ok.toOk hs hn (fun l hm => (hl l hm).1) tame hg
  constructor
  · obtain ⟨col, h1, h2, h3⟩ := within.sld s.ambient (by simp) _ hamb
    have hi : (i : ℕ) < col.length := by rw [h2]; exact i.2
    rw [rowOf_get h1 hi]
    have : col[(i : ℕ)] = .real 0 := h3 _ (List.getElem_mem hi)
    rw [this]
    rfl
  · intro l hm
    obtain ⟨p, hp⟩ := hsld l hm
    obtain ⟨col, h1, h2, h3⟩ := within.sld l (List.mem_append_left _ hm) p hp
    have hi : (i : ℕ) < col.length := by rw [h2]; exact i.2
    rw [rowOf_get h1 hi]
    exact inRange_absorption (h3 _ (List.getElem_mem hi)) (habs l hm p hp).1 (habs l hm p hp).2

/-- The rows `i` of the random tables come close to every set of labels that the ranges allow, with positive probability, without density of the
ambient and negative absorption. -/
def Reaches (P : Measure Ω) (s : SampleV ℝ) (T : Ω → Frame (Num ℝ)) (i : ℕ) : Prop :=
  ∀ y, RowWithin s y → ∀ ε > 0, 0 < P {ω | RowNear (T ω) i (expectedLabels s.substrate.name (s.layers.map (·.name)) s.ambient.name) y ε ∧
    rowOf (T ω) i (s.ambient.name ++ "_sld".toList) = (0, 0) ∧ ∀ l ∈ s.substrate :: s.layers, 0 ≤ (rowOf (T ω) i (l.name ++ "_sld".toList)).2}

theorem reaches_of_kind (C : Chance Ω P) (s : SampleV ℝ) (hs : SampleRegular s) (hn : (partNames s).Nodup) (d : DistArgs)
    (hl : ∀ l ∈ s.structure_, LayerDrawable l ∧ LayerKindOk d.kind l) (nm : Option Str) (hamb : s.ambient.sld = some (.const (.real 0) nm))
    (habs : ∀ l ∈ s.substrate :: s.layers, ∀ p, l.sld = some p → 0 ≤ p.min.im ∧ 0 ≤ p.max.im)
    (n : ℕ) (k : ℕ) (T : Ω → Frame (Num ℝ)) (hT : ∀ ω, ∃ g', generateRandomLabels C.rng.toRng s n d (ω, k) = .ok (T ω, g')) (i : Fin n) :
    Reaches P s T i := by
  intro y hy ε hε
  refine (C129_support C s hs hn d hl n k T hT i y hy ε hε).trans_le (measure_mono fun ω hω => ?_)
  obtain ⟨g', hg⟩ := hT ω
  exact ⟨hω, row_physical C s hs hn d hl nm hamb habs n _ _ _ hg i⟩

/-- For tables that reach every admissible set of labels. -/
theorem unlearnable_core (s : SampleV ℝ) (hs : SampleRegular s) (nm : Option Str) (hamb : s.ambient.sld = some (.const (.real 0) nm))
    (habs : ∀ l ∈ s.substrate :: s.layers, ∀ p, l.sld = some p → 0 ≤ p.min.im ∧ 0 ≤ p.max.im) (T : Ω → Frame (Num ℝ)) (i : ℕ) (hT : Reaches P s T i)
    (q : List ℝ) (y y' : Str → Num ℝ) (hy : RowWithin s y) (hy' : RowWithin s y') (v₀ : Fin q.length → ℝ)
    (hv : curveFor s q (pairs y) = .ok (List.ofFn fun j => some (v₀ j))) (hv' : curveFor s q (pairs y') = curveFor s q (pairs y))
    (N : (Fin q.length → ℝ) → ℝ) (hN : Continuous N) (key : Str)
    (hkey : key ∈ expectedLabels s.substrate.name (s.layers.map (·.name)) s.ambient.name) (ε : ℝ) (hε : 0 < ε) :
    0 < P {ω | ∃ v : Fin q.length → ℝ, curveFor s q (rowOf (T ω) i) = .ok (List.ofFn fun j => some (v j)) ∧
      |(y key).re - (y' key).re| / 2 - ε < |N v - (rowOf (T ω) i key).1|} := by
  have main : ∀ z : Str → Num ℝ, RowWithin s z → curveFor s q (pairs z) = .ok (List.ofFn fun j => some (v₀ j)) →
      |(y key).re - (y' key).re| / 2 ≤ |N v₀ - (z key).re| →
      0 < P {ω | ∃ v : Fin q.length → ℝ, curveFor s q (rowOf (T ω) i) = .ok (List.ofFn fun j => some (v j)) ∧
        |(y key).re - (y' key).re| / 2 - ε < |N v - (rowOf (T ω) i key).1|} := by
    intro z hz hzv hdiff
    have za : pairs z (s.ambient.name ++ "_sld".toList) = (0, 0) := by
      have : z (s.ambient.name ++ "_sld".toList) = .real 0 := hz.sld s.ambient (by simp) _ hamb
      unfold pairs
      rw [this]
      rfl
    have hsld : ∀ l ∈ s.substrate :: s.layers, ∃ p, l.sld = some p := by
      intro l hm
      rcases List.mem_cons.1 hm with rfl | hm
      · obtain ⟨p, hp, -⟩ := hs.substrate.sld
        exact ⟨p, hp⟩
      · obtain ⟨p, hp, -⟩ := (hs.layers l hm).sld
        exact ⟨p, hp⟩
    have zp : ∀ l ∈ s.substrate :: s.layers, 0 ≤ (pairs z (l.name ++ "_sld".toList)).2 := by
      intro l hm
      obtain ⟨p, hp⟩ := hsld l hm
      exact inRange_absorption (hz.sld l (List.mem_append_left _ hm) p hp) (habs l hm p hp).1 (habs l hm p hp).2
    obtain ⟨η, hη, hNη⟩ : ∃ η > 0, ∀ v : Fin q.length → ℝ, (∀ j, |v j - v₀ j| < η) → |N v - N v₀| < ε / 2 := by
      obtain ⟨η, hη, h⟩ := Metric.continuous_iff.1 hN v₀ (ε / 2) (by linarith)
      refine ⟨η, hη, fun v hv => ?_⟩
      have := h v ((dist_pi_lt_iff hη).2 fun j => by rw [Real.dist_eq]; exact hv j)
      rwa [Real.dist_eq] at this
    obtain ⟨δ, hδ, hcurve⟩ := curve_near s q (pairs z) v₀ hzv za zp η hη
    have hpos := hT z hz (min δ (ε / 2)) (lt_min hδ (by linarith))
    refine hpos.trans_le (measure_mono fun ω hω => ?_)
    obtain ⟨hω, ra, rp⟩ := hω
    obtain ⟨v, hv1, hv2⟩ := hcurve (rowOf (T ω) i) ra rp fun k hk =>
      ⟨(hω k hk).1.trans_le (min_le_left _ _), (hω k hk).2.trans_le (min_le_left _ _)⟩
    refine ⟨v, hv1, ?_⟩
    have h1 := hNη v hv2
    have h2 := (hω key hkey).1.trans_le (min_le_right _ _)
    have h3 : |N v₀ - (z key).re| ≤ |N v - N v₀| + |N v - (rowOf (T ω) i key).1| + |(rowOf (T ω) i key).1 - (z key).re| := by
      have e : N v₀ - (z key).re = -(N v - N v₀) + (N v - (rowOf (T ω) i key).1) + ((rowOf (T ω) i key).1 - (z key).re) := by ring
      rw [e]
      refine (abs_add_le _ _).trans (add_le_add_left ((abs_add_le _ _).trans ?_) _)
      rw [abs_neg]
    linarith
  by_cases hcase : |(y key).re - (y' key).re| / 2 ≤ |N v₀ - (y key).re|
  · exact main y hy hv hcase
  · refine main y' hy' (hv'.trans hv) ?_
    have : |(y key).re - (y' key).re| ≤ |N v₀ - (y key).re| + |N v₀ - (y' key).re| := by
      have e : (y key).re - (y' key).re = -(N v₀ - (y key).re) + (N v₀ - (y' key).re) := by ring
      rw [e]
      refine (abs_add_le _ _).trans ?_
      rw [abs_neg]
    push Not at hcase
    linarith

/-- **C130** (what the curves do not determine cannot be learned): let two admissible sets of labels have the same simulated curve. Then any
continuous prediction from curves misses the label of a random training sample by almost half the difference of the two sets, with positive
probability. -/
theorem C130_unlearnable (C : Chance Ω P) (s : SampleV ℝ) (hs : SampleRegular s) (hn : (partNames s).Nodup) (d : DistArgs)
    (hl : ∀ l ∈ s.structure_, LayerDrawable l ∧ LayerKindOk d.kind l) (nm : Option Str) (hamb : s.ambient.sld = some (.const (.real 0) nm))
    (habs : ∀ l ∈ s.substrate :: s.layers, ∀ p, l.sld = some p → 0 ≤ p.min.im ∧ 0 ≤ p.max.im)
    (n : ℕ) (k : ℕ) (T : Ω → Frame (Num ℝ)) (hT : ∀ ω, ∃ g', generateRandomLabels C.rng.toRng s n d (ω, k) = .ok (T ω, g')) (i : Fin n)
    (q : List ℝ) (y y' : Str → Num ℝ) (hy : RowWithin s y) (hy' : RowWithin s y') (v₀ : Fin q.length → ℝ)
    (hv : curveFor s q (pairs y) = .ok (List.ofFn fun j => some (v₀ j))) (hv' : curveFor s q (pairs y') = curveFor s q (pairs y))
    (N : (Fin q.length → ℝ) → ℝ) (hN : Continuous N) (key : Str)
    (hkey : key ∈ expectedLabels s.substrate.name (s.layers.map (·.name)) s.ambient.name) (ε : ℝ) (hε : 0 < ε) :
    0 < P {ω | ∃ v : Fin q.length → ℝ, curveFor s q (rowOf (T ω) i) = .ok (List.ofFn fun j => some (v j)) ∧
      |(y key).re - (y' key).re| / 2 - ε < |N v - (rowOf (T ω) i key).1|} :=
  unlearnable_core s hs nm hamb habs T i (reaches_of_kind C s hs hn d hl nm hamb habs n k T hT i) q y y' hy hy' v₀ hv hv' N hN key hkey ε hε

/-- For tables that reach every admissible set of labels. -/
theorem thickness_core (s : SampleV ℝ) (hs : SampleRegular s) (nm : Option Str) (hamb : s.ambient.sld = some (.const (.real 0) nm))
    (habs : ∀ l ∈ s.substrate :: s.layers, ∀ p, l.sld = some p → 0 ≤ p.min.im ∧ 0 ≤ p.max.im) (T : Ω → Frame (Num ℝ)) (i : ℕ) (hT : Reaches P s T i)
    (q : List ℝ) (pre post : List (LayerV ℝ)) (l l' : LayerV ℝ) (hlay : s.layers = pre ++ l :: l' :: post)
    (y y' : Str → Num ℝ) (hy : RowWithin s y) (hy' : RowWithin s y')
    (hd : ∃ c : List ℝ, curveFor s q (pairs y) = .ok (c.map some))
    (hsld : y (l.name ++ "_sld".toList) = y (l'.name ++ "_sld".toList))
    (hs' : ∀ m ∈ s.substrate :: s.layers ++ [s.ambient], y' (m.name ++ "_sld".toList) = y (m.name ++ "_sld".toList))
    (ht : ∀ m ∈ pre ++ post, y' (m.name ++ "_thickness".toList) = y (m.name ++ "_thickness".toList))
    (hr : ∀ m ∈ s.substrate :: pre ++ l' :: post, y' (m.name ++ "_roughness".toList) = y (m.name ++ "_roughness".toList))
    (hsum : (y' (l.name ++ "_thickness".toList)).re + (y' (l'.name ++ "_thickness".toList)).re =
      (y (l.name ++ "_thickness".toList)).re + (y (l'.name ++ "_thickness".toList)).re)
    (N : (Fin q.length → ℝ) → ℝ) (hN : Continuous N) (ε : ℝ) (hε : 0 < ε) :
    0 < P {ω | ∃ v : Fin q.length → ℝ, curveFor s q (rowOf (T ω) i) = .ok (List.ofFn fun j => some (v j)) ∧
      |(y (l.name ++ "_thickness".toList)).re - (y' (l.name ++ "_thickness".toList)).re| / 2 - ε <
        |N v - (rowOf (T ω) i (l.name ++ "_thickness".toList)).1|} := by
  obtain ⟨c, hc⟩ := hd
  have ya : pairs y (s.ambient.name ++ "_sld".toList) = (0, 0) := by
    have : y (s.ambient.name ++ "_sld".toList) = .real 0 := hy.sld s.ambient (by simp) _ hamb
    unfold pairs
    rw [this]
    rfl
  have hml : l ∈ s.layers := by simp [hlay]
  have yp : 0 ≤ (pairs y (l.name ++ "_sld".toList)).2 := by
    obtain ⟨p, hp, -⟩ := (hs.layers l hml).sld
    have hm : l ∈ s.substrate :: s.layers := by simp [hml]
    exact inRange_absorption (hy.sld l (List.mem_append_left _ hm) p hp) (habs l hm p hp).1 (habs l hm p hp).2
  have hlen : c.length = q.length := by
    unfold curveFor at hc
    have e : (⟨(pairs y (s.ambient.name ++ "_sld".toList)).1, (pairs y (s.ambient.name ++ "_sld".toList)).2⟩ : ℂ) * 1e14 = 0 := by
      rw [ya, show (⟨((0, 0) : ℝ × ℝ).1, ((0, 0) : ℝ × ℝ).2⟩ : ℂ) = 0 from rfl, zero_mul]
    rw [e, multilayer_eq _ _ _ _ (by simp) (by simp)] at hc
    have := congrArg List.length (Except.ok.inj hc)
    simpa using this.symm
  have hv : curveFor s q (pairs y) = .ok (List.ofFn fun j : Fin q.length => some (c.get (j.cast hlen.symm))) := by
    rw [hc]
    congr 1
    apply List.ext_getElem (by simp [hlen])
    intro j h1 h2
    simp
  refine unlearnable_core s hs nm hamb habs T i hT q y y' hy hy' _ hv ?_ N hN _ ((mem_labels (s := s)).1 l hml) ε hε
  refine C130_same_curve s q (pairs y) (pairs y') pre post l l' hlay ya yp ?_ ?_ ?_ hsum ?_
  · simp only [pairs, hsld]
  · intro m hm
    simp only [pairs, hs' m hm]
  · intro m hm
    simp only [pairs, ht m hm]
  · intro m hm
    simp only [pairs, hr m hm]

/-- **C130** (neighbouring layers): if the ranges of two neighbouring layers allow the same density, their thicknesses cannot be learned: for any
continuous prediction of the thickness of the lower layer from the curve, and any two sets of labels with the same sum of thicknesses, a random
training sample is missed by almost half the difference of the thicknesses, with positive probability. -/
theorem C130_thickness (C : Chance Ω P) (s : SampleV ℝ) (hs : SampleRegular s) (hn : (partNames s).Nodup) (d : DistArgs)
    (hl : ∀ l ∈ s.structure_, LayerDrawable l ∧ LayerKindOk d.kind l) (nm : Option Str) (hamb : s.ambient.sld = some (.const (.real 0) nm))
    (habs : ∀ l ∈ s.substrate :: s.layers, ∀ p, l.sld = some p → 0 ≤ p.min.im ∧ 0 ≤ p.max.im)
    (n : ℕ) (k : ℕ) (T : Ω → Frame (Num ℝ)) (hT : ∀ ω, ∃ g', generateRandomLabels C.rng.toRng s n d (ω, k) = .ok (T ω, g')) (i : Fin n)
    (q : List ℝ) (pre post : List (LayerV ℝ)) (l l' : LayerV ℝ) (hlay : s.layers = pre ++ l :: l' :: post)
    (y y' : Str → Num ℝ) (hy : RowWithin s y) (hy' : RowWithin s y')
    (hd : ∃ c : List ℝ, curveFor s q (pairs y) = .ok (c.map some))
    (hsld : y (l.name ++ "_sld".toList) = y (l'.name ++ "_sld".toList))
    (hs' : ∀ m ∈ s.substrate :: s.layers ++ [s.ambient], y' (m.name ++ "_sld".toList) = y (m.name ++ "_sld".toList))
    (ht : ∀ m ∈ pre ++ post, y' (m.name ++ "_thickness".toList) = y (m.name ++ "_thickness".toList))
    (hr : ∀ m ∈ s.substrate :: pre ++ l' :: post, y' (m.name ++ "_roughness".toList) = y (m.name ++ "_roughness".toList))
    (hsum : (y' (l.name ++ "_thickness".toList)).re + (y' (l'.name ++ "_thickness".toList)).re =
      (y (l.name ++ "_thickness".toList)).re + (y (l'.name ++ "_thickness".toList)).re)
    (N : (Fin q.length → ℝ) → ℝ) (hN : Continuous N) (ε : ℝ) (hε : 0 < ε) :
    0 < P {ω | ∃ v : Fin q.length → ℝ, curveFor s q (rowOf (T ω) i) = .ok (List.ofFn fun j => some (v j)) ∧
      |(y (l.name ++ "_thickness".toList)).re - (y' (l.name ++ "_thickness".toList)).re| / 2 - ε <
        |N v - (rowOf (T ω) i (l.name ++ "_thickness".toList)).1|} :=
  thickness_core s hs nm hamb habs T i (reaches_of_kind C s hs hn d hl nm hamb habs n k T hT i) q pre post l l' hlay y y' hy hy' hd hsld hs' ht hr hsum N hN ε hε

/-! ### Networks -/

/-- The outputs of a layer are continuous functions if its inputs are. -/
theorem layer_family {X : Type} [TopologicalSpace X] (l : NetLayer) (fs : List (X → ℝ)) (hf : ∀ f ∈ fs, Continuous f) :
    ∃ gs : List (X → ℝ), (∀ g ∈ gs, Continuous g) ∧ ∀ x, l.out (at_ fs x) = at_ gs x := by
  have lin : ∀ (w : List ℝ) (fs : List (X → ℝ)), (∀ f ∈ fs, Continuous f) → Continuous fun x => (List.zipWith (· * ·) w (at_ fs x)).sum := by
    intro w
    induction w with
    | nil => intro fs _; simpa using continuous_const
    | cons a w ih =>
      intro fs hf
      cases fs with
      | nil => simpa [at_] using continuous_const
      | cons f fs =>
        simp only [at_, List.map_cons, List.zipWith_cons_cons, List.sum_cons]
        exact ((hf f (by simp)).const_mul a).add (ih fs fun g hg => hf g (by simp [hg]))
  let gs : List (X → ℝ) := List.zipWith (fun (w : List ℝ) (b : ℝ) x => (List.zipWith (· * ·) w (at_ fs x)).sum + b) l.weights l.bias
  have cg : ∀ g ∈ gs, Continuous g := by
    intro g hg
    obtain ⟨i, hi, rfl⟩ := List.getElem_of_mem hg
    simp only [gs, List.getElem_zipWith]
    exact (lin _ fs hf).add_const _
  have eg : ∀ x, List.zipWith (fun (w : List ℝ) (b : ℝ) => (List.zipWith (· * ·) w (at_ fs x)).sum + b) l.weights l.bias = at_ gs x := by
    intro x
    simp only [gs, at_, List.map_zipWith]
  by_cases hr : l.relu = true
  · refine ⟨gs.map fun (g : X → ℝ) x => max (g x) 0, ?_, fun x => ?_⟩
    · intro g hg
      obtain ⟨g', hg', rfl⟩ := List.mem_map.1 hg
      exact (cg g' hg').max continuous_const
    · unfold NetLayer.out
      simp only [hr, if_true]
      rw [eg]
      simp [at_]
  · refine ⟨gs, cg, fun x => ?_⟩
    unfold NetLayer.out
    simp only [hr]
    exact eg x

theorem net_family {X : Type} [TopologicalSpace X] (net : List NetLayer) (fs : List (X → ℝ)) (hf : ∀ f ∈ fs, Continuous f) :
    ∃ gs : List (X → ℝ), (∀ g ∈ gs, Continuous g) ∧ ∀ x, netOut net (at_ fs x) = at_ gs x := by
  induction net generalizing fs with
  | nil => exact ⟨fs, hf, fun x => rfl⟩
  | cons l net ih =>
    obtain ⟨gs, h1, h2⟩ := layer_family l fs hf
    obtain ⟨hs, h3, h4⟩ := ih gs h1
    refine ⟨hs, h3, fun x => ?_⟩
    rw [← h4, ← h2]
    rfl

/-- What a network predicts for one label: the curve is standardized with the means `m` and the deviations `σ`, and output `j` of the network is
scaled back with `a` and `b`. -/
noncomputable def netLabel {n : ℕ} (net : List NetLayer) (m σ : Fin n → ℝ) (a b : ℝ) (j : ℕ) (v : Fin n → ℝ) : ℝ :=
  (netOut net (List.ofFn fun i => (v i - m i) / σ i)).getD j 0 * b + a

/-- **C130** (networks): the predictions of a network are continuous functions of the curve. -/
theorem C130_network {n : ℕ} (net : List NetLayer) (m σ : Fin n → ℝ) (a b : ℝ) (j : ℕ) : Continuous (netLabel net m σ a b j) := by
  obtain ⟨gs, h1, h2⟩ := net_family net (List.ofFn fun (i : Fin n) (v : Fin n → ℝ) => (v i - m i) / σ i) (by
    intro f hf
    obtain ⟨i, rfl⟩ := List.mem_ofFn.1 hf
    exact ((continuous_apply i).sub continuous_const).div_const _)
  have e : netLabel net m σ a b j = fun v => (at_ gs v).getD j 0 * b + a := by
    funext v
    unfold netLabel
    rw [← h2]
    congr 4
    simp only [at_, List.map_ofFn, Function.comp_def]
  rw [e]
  refine (Continuous.mul_const ?_ b).add_const a
  by_cases hj : j < gs.length
  · have : (fun v : Fin n → ℝ => (at_ gs v).getD j 0) = gs[j] := by
      funext v
      simp [at_, hj]
    rw [this]
    exact h1 _ (List.getElem_mem hj)
  · have : (fun v : Fin n → ℝ => (at_ gs v).getD j 0) = fun _ => 0 := by
      funext v
      simp [at_, hj]
    rw [this]
    exact continuous_const

/-! ### Example: two films with the same ranges -/

/-- Two films on silicon with the same ranges. -/
noncomputable def exampleFilm (name : Str) : LayerV ℝ :=
  ⟨.layer, name, some (.range (.real 10) (.real 20) (some "thickness".toList)), some (.range (.real 0) (.real 5) (some "roughness".toList)),
    some (.range (.real 1) (.real 2) (some "sld".toList))⟩

noncomputable def exampleFilms : SampleV ℝ where
  substrate := ⟨.substrate, "Si".toList, none, some (.const (.real 0) (some "roughness".toList)), some (.const (.real 20) (some "sld".toList))⟩
  ambient := ⟨.ambient, "air".toList, none, none, some (.const (.real 0) (some "sld".toList))⟩
  layers := [exampleFilm "a".toList, exampleFilm "b".toList]

theorem exampleFilms_regular : SampleRegular exampleFilms := by
  refine ⟨⟨rfl, rfl, ⟨_, rfl, ⟨rfl, trivial⟩, ?_⟩, ⟨_, rfl, rfl, trivial⟩⟩, ⟨rfl, rfl, rfl, ⟨_, rfl, rfl, trivial⟩⟩, ?_⟩
  · simp only [Param.min, Num.ltZero]; norm_num
  · intro l hl
    simp only [exampleFilms, List.mem_cons, List.not_mem_nil, or_false] at hl
    rcases hl with rfl | rfl <;>
      refine ⟨Or.inl rfl, ⟨_, rfl, ⟨rfl, ?_⟩, ?_⟩, ⟨_, rfl, ⟨rfl, ?_⟩, ?_⟩, ⟨_, rfl, rfl, ?_⟩⟩ <;>
      simp only [ParamValid, Num.ge, Param.min, Num.ltZero] <;> norm_num

theorem exampleFilms_drawable : ∀ l ∈ exampleFilms.structure_, LayerDrawable l := by
  intro l hl
  simp only [SampleV.structure_, exampleFilms, List.cons_append, List.nil_append, List.mem_cons, List.not_mem_nil, or_false] at hl
  have film : ∀ name, LayerDrawable (exampleFilm name) := by
    intro name
    refine ⟨?_, ?_, ?_⟩ <;> rintro p ⟨⟩
    · exact ⟨by simp [Num.re], by simp [Num.im], Or.inl (by simp [Num.re])⟩
    · exact ⟨10, 20, rfl, rfl, by norm_num⟩
    · exact ⟨0, 5, rfl, rfl, by norm_num⟩
  rcases hl with rfl | rfl | rfl | rfl
  · refine ⟨?_, by simp, ?_⟩ <;> rintro p ⟨⟩
    · trivial
    · exact ⟨0, 0, rfl, rfl, le_refl _⟩
  · exact film _
  · exact film _
  · refine ⟨?_, by simp, by simp⟩
    rintro p ⟨⟩
    trivial

/-- Labels of the two films: thicknesses `t` and `30 - t`, no roughness, the same density. -/
noncomputable def filmLabels (t : ℝ) (k : Str) : Num ℝ :=
  if k = "a_thickness".toList then .real t
  else if k = "b_thickness".toList then .real (30 - t)
  else if k = "a_sld".toList then .real (3 / 2)
  else if k = "b_sld".toList then .real (3 / 2)
  else if k = "Si_sld".toList then .real 20
  else .real 0

theorem filmLabels_values (t : ℝ) :
    filmLabels t ("a".toList ++ "_thickness".toList) = .real t ∧ filmLabels t ("b".toList ++ "_thickness".toList) = .real (30 - t) ∧
    filmLabels t ("a".toList ++ "_sld".toList) = .real (3 / 2) ∧ filmLabels t ("b".toList ++ "_sld".toList) = .real (3 / 2) ∧
    filmLabels t ("Si".toList ++ "_sld".toList) = .real 20 ∧ filmLabels t ("air".toList ++ "_sld".toList) = .real 0 ∧
    filmLabels t ("Si".toList ++ "_roughness".toList) = .real 0 ∧ filmLabels t ("a".toList ++ "_roughness".toList) = .real 0 ∧
    filmLabels t ("b".toList ++ "_roughness".toList) = .real 0 := by
  unfold filmLabels
  refine ⟨?_, ?_, ?_, ?_, ?_, ?_, ?_, ?_, ?_⟩
  · rw [if_pos (by decide)]
  · rw [if_neg (by decide), if_pos (by decide)]
  · rw [if_neg (by decide), if_neg (by decide), if_pos (by decide)]
  · rw [if_neg (by decide), if_neg (by decide), if_neg (by decide), if_pos (by decide)]
  · rw [if_neg (by decide), if_neg (by decide), if_neg (by decide), if_neg (by decide), if_pos (by decide)]
  all_goals rw [if_neg (by decide), if_neg (by decide), if_neg (by decide), if_neg (by decide), if_neg (by decide)]

theorem filmLabels_within {t : ℝ} (h1 : 10 ≤ t) (h2 : t ≤ 20) : RowWithin exampleFilms (filmLabels t) := by
  obtain ⟨e1, e2, e3, e4, e5, e6, e7, e8, e9⟩ := filmLabels_values t
  refine ⟨?_, ?_, ?_, ?_⟩ <;> intro l hl p hp <;>
    simp only [exampleFilms, List.cons_append, List.nil_append, List.mem_cons, List.not_mem_nil, or_false] at hl
  · rcases hl with rfl | rfl | rfl | rfl <;> cases hp
    · exact e5
    · exact ⟨_, e3, by norm_num, by norm_num⟩
    · exact ⟨_, e4, by norm_num, by norm_num⟩
    · exact e6
  · rcases hl with rfl | rfl | rfl <;> cases hp
    · exact e7
    · exact ⟨_, e8, by norm_num, by norm_num⟩
    · exact ⟨_, e9, by norm_num, by norm_num⟩
  · rcases hl with rfl | rfl <;> cases hp
    · exact ⟨_, e1, h1, h2⟩
    · exact ⟨_, e2, by linarith, by linarith⟩
  · rcases hl with rfl | rfl <;> cases hp
    · exact ⟨0, _, _, rfl, e1, e8, le_max_left _ _⟩
    · exact ⟨0, _, _, rfl, e2, e9, le_max_left _ _⟩

theorem films_absorption : ∀ l ∈ exampleFilms.substrate :: exampleFilms.layers, ∀ p, l.sld = some p → 0 ≤ p.min.im ∧ 0 ≤ p.max.im := by
  intro l hl p hp
  simp only [exampleFilms, List.mem_cons, List.not_mem_nil, or_false] at hl
  rcases hl with rfl | rfl | rfl <;> cases hp <;> exact ⟨le_refl _, le_refl _⟩

/-- For tables that reach every admissible set of labels, any continuous prediction of the thickness of the lower film is wrong by more than 3 Å with
positive probability. -/
theorem films_core (T : Ω → Frame (Num ℝ)) (i : ℕ) (hT : Reaches P exampleFilms T i) (q : List ℝ) (N : (Fin q.length → ℝ) → ℝ) (hN : Continuous N) :
    0 < P {ω | ∃ v : Fin q.length → ℝ, curveFor exampleFilms q (rowOf (T ω) i) = .ok (List.ofFn fun j => some (v j)) ∧
      3 < |N v - (rowOf (T ω) i ("a".toList ++ "_thickness".toList)).1|} := by
  obtain ⟨e1, e2, e3, e4, e5, e6, e7, e8, e9⟩ := filmLabels_values 11
  obtain ⟨e1', e2', e3', e4', e5', e6', e7', e8', e9'⟩ := filmLabels_values 19
  have h := thickness_core exampleFilms exampleFilms_regular (some "sld".toList) rfl films_absorption T i hT q
    [] [] (exampleFilm "a".toList) (exampleFilm "b".toList) rfl (filmLabels 11) (filmLabels 19) (filmLabels_within (by norm_num) (by norm_num))
    (filmLabels_within (by norm_num) (by norm_num)) ?_ (e3.trans e4.symm) ?_ (by simp) ?_ ?_ N hN 1 one_pos
  · refine h.trans_le (measure_mono fun ω hω => ?_)
    obtain ⟨v, h1, h2⟩ := hω
    refine ⟨v, h1, ?_⟩
    have e1 : filmLabels 11 ((exampleFilm "a".toList).name ++ "_thickness".toList) = .real 11 := e1
    have e1' : filmLabels 19 ((exampleFilm "a".toList).name ++ "_thickness".toList) = .real 19 := e1'
    rw [e1, e1'] at h2
    simp only [Num.re] at h2
    norm_num at h2
    exact h2
  · unfold curveFor
    have ea : filmLabels 11 (exampleFilms.ambient.name ++ "_sld".toList) = .real 0 := e6
    have hz : (⟨(pairs (filmLabels 11) (exampleFilms.ambient.name ++ "_sld".toList)).1,
        (pairs (filmLabels 11) (exampleFilms.ambient.name ++ "_sld".toList)).2⟩ : ℂ) * 1e14 = 0 := by
      simp only [pairs]
      rw [ea]
      rw [show (⟨(Num.real (0 : ℝ)).re, (Num.real (0 : ℝ)).im⟩ : ℂ) = 0 from rfl, zero_mul]
    rw [hz]
    obtain ⟨c, hc, -⟩ := C34_sharp (q.map fun (x : ℝ) => x * 1e10)
      (exampleFilms.layers.map fun (l : LayerV ℝ) => (pairs (filmLabels 11) (l.name ++ "_thickness".toList)).1 * 1e-10)
      ((exampleFilms.substrate :: exampleFilms.layers).map fun (l : LayerV ℝ) => (pairs (filmLabels 11) (l.name ++ "_roughness".toList)).1 * 1e-10)
      ((exampleFilms.substrate :: exampleFilms.layers).map fun (l : LayerV ℝ) =>
        (⟨(pairs (filmLabels 11) (l.name ++ "_sld".toList)).1, (pairs (filmLabels 11) (l.name ++ "_sld".toList)).2⟩ : ℂ) * 1e14)
      (by simp) (by simp) (by
        intro ρ hρ
        obtain ⟨l, hl, rfl⟩ := List.mem_map.1 hρ
        have e : (1e14 : ℂ) = ((1e14 : ℝ) : ℂ) := by norm_num
        rw [e, Complex.im_mul_ofReal]
        refine mul_nonneg ?_ (by norm_num)
        simp only [exampleFilms, exampleFilm, List.mem_cons, List.not_mem_nil, or_false] at hl
        rcases hl with rfl | rfl | rfl
        · simp only [pairs, e5]; exact le_refl _
        · simp only [pairs, e3]; exact le_refl _
        · simp only [pairs, e4]; exact le_refl _) (by
        intro x hx
        obtain ⟨l, hl, rfl⟩ := List.mem_map.1 hx
        simp only [exampleFilms, exampleFilm, List.mem_cons, List.not_mem_nil, or_false] at hl
        rcases hl with rfl | rfl | rfl
        · simp only [pairs, e7]; simp [Num.re]
        · simp only [pairs, e8]; simp [Num.re]
        · simp only [pairs, e9]; simp [Num.re]) (by
        intro x hx
        obtain ⟨l, hl, rfl⟩ := List.mem_map.1 hx
        simp only [exampleFilms, exampleFilm, List.mem_cons, List.not_mem_nil, or_false] at hl
        rcases hl with rfl | rfl
        · simp only [pairs, e1]; simp only [Num.re]; norm_num
        · simp only [pairs, e2]; simp only [Num.re]; norm_num)
    exact ⟨c, hc⟩
  · intro m hm
    simp only [exampleFilms, exampleFilm, List.cons_append, List.nil_append, List.mem_cons, List.not_mem_nil, or_false] at hm
    rcases hm with rfl | rfl | rfl | rfl
    · exact e5'.trans e5.symm
    · exact e3'.trans e3.symm
    · exact e4'.trans e4.symm
    · exact e6'.trans e6.symm
  · intro m hm
    simp only [exampleFilms, exampleFilm, List.cons_append, List.nil_append, List.mem_cons, List.not_mem_nil, or_false] at hm
    rcases hm with rfl | rfl
    · exact e7'.trans e7.symm
    · exact e9'.trans e9.symm
  · have a1 : filmLabels 11 ((exampleFilm "a".toList).name ++ "_thickness".toList) = .real 11 := e1
    have a2 : filmLabels 19 ((exampleFilm "a".toList).name ++ "_thickness".toList) = .real 19 := e1'
    have b1 : filmLabels 11 ((exampleFilm "b".toList).name ++ "_thickness".toList) = .real (30 - 11) := e2
    have b2 : filmLabels 19 ((exampleFilm "b".toList).name ++ "_thickness".toList) = .real (30 - 19) := e2'
    rw [a1, a2, b1, b2]
    simp only [Num.re]
    norm_num

/-- The hypotheses of C130 hold for two films with the same ranges: any continuous prediction of the thickness of the lower film is wrong by more
than 3 Å with positive probability. -/
example (n : ℕ) (hn : 0 < n) (q : List ℝ) (N : (Fin q.length → ℝ) → ℝ) (hN : Continuous N) : ∃ T : (ChanceIdx → ℝ) → Frame (Num ℝ),
    (∀ ω, ∃ g', generateRandomLabels Chance.product.rng.toRng exampleFilms n ⟨.uniform, none, none⟩ (ω, 0) = .ok (T ω, g')) ∧
    ∀ i : Fin n, 0 < Measure.infinitePi ChanceIdx.law {ω | ∃ v : Fin q.length → ℝ,
      curveFor exampleFilms q (rowOf (T ω) i) = .ok (List.ofFn fun j => some (v j)) ∧
      3 < |N v - (rowOf (T ω) i ("a".toList ++ "_thickness".toList)).1|} := by
  have H : ∀ l ∈ exampleFilms.structure_, LayerDrawable l ∧ LayerKindOk .uniform l := fun l hl =>
    ⟨exampleFilms_drawable l hl, fun _ _ => Or.inl rfl, fun _ _ => Or.inl rfl, fun _ _ => Or.inl rfl⟩
  have hnd : (partNames exampleFilms).Nodup := by simp only [partNames, exampleFilms, exampleFilm]; decide
  obtain ⟨T, hT, -⟩ := C124_rows Chance.product exampleFilms exampleFilms_regular hnd ⟨.uniform, none, none⟩ H n hn 0
  refine ⟨T, hT, fun i => ?_⟩
  exact films_core T i (reaches_of_kind Chance.product exampleFilms exampleFilms_regular hnd ⟨.uniform, none, none⟩ H (some "sld".toList) rfl films_absorption
    n 0 T hT i) q N hN

/-- The hypotheses of `C130_generated` about the random numbers hold for the numbers of `Chance`. -/
example (C : Chance Ω P) : C.rng.toRng.Ok ∧ ∀ m n g, ∀ x ∈ (C.rng.toRng.normal m 0 n g).1, x = m := by
  refine ⟨C.rng_ok.toOk, fun m n g x hx => ?_⟩
  simp only [Chance.rng, List.mem_map] at hx
  obtain ⟨i, -, rfl⟩ := hx
  ring

end Verif.Props
