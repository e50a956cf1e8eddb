import Verif.Props.Identify

/-!
# C146: how the curve of a bare substrate changes with momentum transfer, roughness and density

`C135` uses that the reflectivity of a substrate above the critical edge determines its density. Here the direction of each change is stated: the curve
falls along the momentum transfer, falls with the roughness and rises with the density. The small absorption that the code adds is part of all values.
-/

namespace Verif.Props
open Verif.Py Verif.Model Verif.Spec Verif.Lemmas Complex

/-- A momentum transfer (1/m) is above the critical edge of a density (1/m²), including the absorption that the code adds. -/
def AboveEdgeSI (ρ q : ℝ) : Prop := 16 * Real.pi * (ρ + 1e-30) < q ^ 2

theorem AboveEdgeSI.tiny {ρ q : ℝ} (h : AboveEdgeSI ρ q) : tinyAbs < q ^ 2 / 4 - 4 * Real.pi * ρ := by
  unfold AboveEdgeSI at h
  unfold tinyAbs
  have : (10 : ℝ) ^ (-30 : ℤ) = 1e-30 := by norm_num
  rw [this]
  nlinarith

theorem AboveEdgeSI.mono {ρ ρ' q : ℝ} (h : AboveEdgeSI ρ q) (hle : ρ' ≤ ρ) : AboveEdgeSI ρ' q := by
  unfold AboveEdgeSI at *
  nlinarith [Real.pi_pos]

/-- The reflectivity above the critical edge falls with the momentum transfer. -/
theorem halfLog_falls {a s c₁ c₂ : ℝ} (ha : 0 < a) (hs : 0 ≤ s) (hc : tinyAbs < c₁ - a) (h : c₁ < c₂) : halfLog a s c₂ < halfLog a s c₁ := by
  have anti : StrictAntiOn (halfLog a s) (Set.Icc c₁ c₂) := by
    refine strictAntiOn_of_deriv_neg (convex_Icc c₁ c₂) (fun x _ => (halfLog_deriv_c a s x).continuousAt.continuousWithinAt) ?_
    intro x hx
    rw [interior_Icc] at hx
    rw [(halfLog_deriv_c a s x).deriv]
    have hx' : tinyAbs < x - a := by linarith [hx.1]
    have p1 := re_inv_pos ((abs_nonneg _).trans_lt (wave_mul_sector hx' (show x - a ≤ x by linarith)))
    have p2 : 0 < (waveAt x / waveAt (x - a) + waveAt (x - a) / waveAt x).re := by
      rw [Complex.add_re]
      linarith [wave_quot_pos x (x - a), wave_quot_pos (x - a) x]
    nlinarith [mul_nonneg hs p2.le]
  exact anti (Set.left_mem_Icc.2 h.le) (Set.right_mem_Icc.2 h.le) h

/-- The reflectivity above the critical edge falls with the roughness. -/
theorem halfLog_rough {a s s' c : ℝ} (ha : 0 < a) (hc : tinyAbs < c - a) (h : s < s') : halfLog a s' c < halfLog a s c := by
  have hg := (abs_nonneg _).trans_lt (wave_mul_sector hc (show c - a ≤ c by linarith))
  unfold halfLog
  nlinarith [mul_pos (sub_pos.2 h) hg]

/-- The curve of a substrate above its critical edge. -/
theorem bare_curve (qs : List ℝ) (σ ρ : ℝ) (hρ : 0 < ρ) (hq : ∀ q ∈ qs, AboveEdgeSI ρ q) :
    multilayerReflectivity qs [] [σ] [(ρ : ℂ)] 0 =
      .ok ((qs.map fun q => Real.exp (2 * halfLog (4 * Real.pi * ρ) (σ ^ 2) (q ^ 2 / 4))).map some) := by
  rw [multilayer_eq _ _ _ _ rfl rfl, List.map_map]
  congr 1
  exact List.map_congr_left fun q hm => codePoint_halfLog σ hρ (hq q hm).tiny

/-- **C146** (along the curve): above the critical edge the curve of a substrate falls strictly: the larger of two momentum transfers has the smaller
reflectivity. All values are positive. -/
theorem C146_falls (qs : List ℝ) (σ ρ : ℝ) (hρ : 0 < ρ) (hq : ∀ q ∈ qs, 0 < q ∧ AboveEdgeSI ρ q) :
    ∃ c : List ℝ, multilayerReflectivity qs [] [σ] [(ρ : ℂ)] 0 = .ok (c.map some) ∧ c.length = qs.length ∧ (∀ v ∈ c, 0 < v ∧ v ≤ 1) ∧
      ∀ (i j : ℕ) (hi : i < qs.length) (hj : j < qs.length), qs[i] < qs[j] → ∃ u v, c[i]? = some u ∧ c[j]? = some v ∧ v < u := by
  refine ⟨_, bare_curve qs σ ρ hρ fun q hm => (hq q hm).2, by simp, ?_, ?_⟩
  · intro v hv
    obtain ⟨q, hm, rfl⟩ := List.mem_map.1 hv
    refine ⟨Real.exp_pos _, ?_⟩
    have h1 := codePoint_halfLog σ hρ (hq q hm).2.tiny
    rw [codePoint_substrate] at h1
    rw [← Option.some.inj h1]
    exact min_le_right _ _
  · intro i j hi hj h
    refine ⟨_, _, by rw [List.getElem?_map, List.getElem?_eq_getElem hi]; rfl, by rw [List.getElem?_map, List.getElem?_eq_getElem hj]; rfl, ?_⟩
    have h1 := hq _ (List.getElem_mem hi)
    have := halfLog_falls (a := 4 * Real.pi * ρ) (by positivity) (sq_nonneg σ) h1.2.tiny (show qs[i] ^ 2 / 4 < qs[j] ^ 2 / 4 by nlinarith [h1.1])
    exact Real.exp_lt_exp.2 (by linarith)

/-- **C146** (roughness): above the critical edge every value of the curve is smaller for the rougher of two substrates of the same density. -/
theorem C146_rough (qs : List ℝ) (σ σ' ρ : ℝ) (hρ : 0 < ρ) (hσ : |σ| < |σ'|) (hq : ∀ q ∈ qs, AboveEdgeSI ρ q) :
    ∃ c c' : List ℝ, multilayerReflectivity qs [] [σ] [(ρ : ℂ)] 0 = .ok (c.map some) ∧
      multilayerReflectivity qs [] [σ'] [(ρ : ℂ)] 0 = .ok (c'.map some) ∧ List.Forall₂ (fun smooth rough => rough < smooth) c c' := by
  refine ⟨_, _, bare_curve qs σ ρ hρ hq, bare_curve qs σ' ρ hρ hq, ?_⟩
  rw [List.forall₂_map_left_iff, List.forall₂_map_right_iff, List.forall₂_same]
  intro q hm
  have := halfLog_rough (a := 4 * Real.pi * ρ) (by positivity) (hq q hm).tiny (sq_lt_sq.2 hσ)
  exact Real.exp_lt_exp.2 (by linarith)

/-- **C146** (density): above the critical edge of the denser one, every value of the curve is larger for the denser of two substrates of the same
roughness. -/
theorem C146_dense (qs : List ℝ) (σ ρ ρ' : ℝ) (hρ : 0 < ρ) (h : ρ < ρ') (hq : ∀ q ∈ qs, AboveEdgeSI ρ' q) :
    ∃ c c' : List ℝ, multilayerReflectivity qs [] [σ] [(ρ : ℂ)] 0 = .ok (c.map some) ∧
      multilayerReflectivity qs [] [σ] [(ρ' : ℂ)] 0 = .ok (c'.map some) ∧ List.Forall₂ (fun light dense => light < dense) c c' := by
  refine ⟨_, _, bare_curve qs σ ρ hρ fun q hm => (hq q hm).mono h.le, bare_curve qs σ ρ' (hρ.trans h) hq, ?_⟩
  rw [List.forall₂_map_left_iff, List.forall₂_map_right_iff, List.forall₂_same]
  intro q hm
  have := halfLog_strict (a := 4 * Real.pi * ρ) (a' := 4 * Real.pi * ρ') (by positivity) (by nlinarith [Real.pi_pos]) (hq q hm).tiny (sq_nonneg σ)
  exact Real.exp_lt_exp.2 (by linarith)

/-- **C146** (samples): the simulated curve of a sample without layers below vacuum, in the units of the labels, falls along ascending momentum transfers
above the critical edge of the density of the substrate. -/
theorem C146_sample (s : SampleV ℝ) (nm : Option Str) (hamb : s.ambient.sld = some (.const (.real 0) nm)) (hlay : s.layers = []) (q : List ℝ)
    (y : Str → Num ℝ) (hy : RowWithin s y) (ρ : ℝ) (hρ : y (s.substrate.name ++ "_sld".toList) = .real ρ) (h0 : 0 < ρ)
    (hq : ∀ u ∈ q, 0 < u ∧ AboveEdge ρ u) (hs : q.Pairwise (· < ·)) :
    ∃ c : List ℝ, curveFor s q (pairs y) = .ok (c.map some) ∧ c.length = q.length ∧ c.Pairwise (· > ·) := by
  refine ⟨q.map fun u => Real.exp (2 * halfLog (4 * Real.pi * (ρ * 1e14)) (((y (s.substrate.name ++ "_roughness".toList)).re * 1e-10) ^ 2)
    ((u * 1e10) ^ 2 / 4)), ?_, by simp, ?_⟩
  · rw [substrate_curve hamb hlay q hy hρ, List.map_map]
    congr 1
    exact List.map_congr_left fun u hm => codePoint_halfLog _ (by positivity) (hq u hm).2.si
  · rw [List.pairwise_map]
    refine hs.imp_of_mem ?_
    intro u v hu hv huv
    have p := (hq u hu).1
    have := halfLog_falls (a := 4 * Real.pi * (ρ * 1e14)) (by positivity)
      (sq_nonneg ((y (s.substrate.name ++ "_roughness".toList)).re * 1e-10)) (hq u hu).2.si (show (u * 1e10) ^ 2 / 4 < (v * 1e10) ^ 2 / 4 by nlinarith)
    exact Real.exp_lt_exp.2 (by linarith)

/-- Not vacuous: silicon (density `2·10¹⁵ / m²`) at `0.05` and `0.1` 1/Å. -/
example : ∃ u v, multilayerReflectivity [5e8, 1e9] [] [3e-10] [((2e15 : ℝ) : ℂ)] 0 = .ok [some u, some v] ∧ 0 < v ∧ v < u ∧ u ≤ 1 := by
  have hpi := Real.pi_le_four
  obtain ⟨c, e, hl, hr, hd⟩ := C146_falls [5e8, 1e9] 3e-10 2e15 (by norm_num) (by
    intro q hq
    simp only [List.mem_cons, List.not_mem_nil, or_false] at hq
    unfold AboveEdgeSI
    rcases hq with rfl | rfl <;> constructor <;> norm_num at hpi ⊢ <;> nlinarith)
  match c, hl with
  | [u, v], _ =>
    obtain ⟨u', v', h1, h2, h3⟩ := hd 0 1 (by simp) (by simp) (by norm_num)
    simp only [List.getElem?_cons_zero, List.getElem?_cons_succ, Option.some.injEq] at h1 h2
    subst h1 h2
    exact ⟨u, v, e, (hr v (by simp)).1, h3, (hr u (by simp)).2⟩

end Verif.Props
