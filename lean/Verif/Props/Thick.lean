import Verif.Props.Parratt
import Mathlib.Analysis.SpecialFunctions.Exp

/-!
# C114: thick layers and symmetries of simulated curves
-/

namespace Verif.Props
open Verif.Py Verif.Model Verif.Spec Complex Filter Topology

/-! ### Symmetry -/

theorem ptR_abs (kp kn : ℂ) (r : ℝ) : ptR kp kn |r| = ptR kp kn r := by
  have e : ((|r| : ℝ) : ℂ) ^ 2 = (r : ℂ) ^ 2 := by
    rw [← Complex.ofReal_pow, sq_abs, Complex.ofReal_pow]
  unfold ptR
  rw [e]

theorem ptK_abs (s : ℂ) (q : ℝ) : ptK s (((|q| : ℝ) : ℂ) / 2) = ptK s ((q : ℂ) / 2) := by
  have e : ((|q| : ℝ) : ℂ) ^ 2 = (q : ℂ) ^ 2 := by
    rw [← Complex.ofReal_pow, sq_abs, Complex.ofReal_pow]
  unfold ptK
  rw [div_pow, div_pow, e]

theorem codeStack_abs (q : ℝ) : ∀ (l : List Slab) (k : ℂ),
    codeStack (((|q| : ℝ) : ℂ) / 2) k (l.map fun (x : Slab) => ⟨|x.roughness|, x.sld, x.thickness⟩) = codeStack ((q : ℂ) / 2) k l
  | [], k => by simp [codeStack]
  | x :: l, k => by
    rw [List.map_cons, codeStack, codeStack, codeStack_abs q l]
    simp only [ptK_abs, ptR_abs]

theorem slabs_abs (t r : List ℝ) (s : List ℂ) :
    slabs t (r.map fun (x : ℝ) => |x|) s = (slabs t r s).map fun (x : Slab) => ⟨|x.roughness|, x.sld, x.thickness⟩ := by
  unfold slabs
  rw [List.map_reverse, List.zip_map_left]
  congr 1
  rw [List.zipWith_map_left, List.map_zipWith]
  rfl

/-- C114: only the magnitudes of the momentum transfer and of the roughnesses matter, for all arguments. -/
theorem C114_symmetric (q t r : List ℝ) (s : List ℂ) (amb : ℂ) :
    multilayerReflectivity (q.map fun (x : ℝ) => |x|) t (r.map fun (x : ℝ) => |x|) s amb = multilayerReflectivity q t r s amb := by
  by_cases ha : amb = 0
  · subst ha
    by_cases hl : t.length + 1 = r.length ∧ r.length = s.length
    · rw [multilayer_eq q t r s hl.1 hl.2, multilayer_eq _ t _ s (by simpa using hl.1) (by simpa using hl.2), List.map_map]
      congr 1
      refine List.map_congr_left fun x _ => ?_
      unfold codePoint
      simp only [Function.comp_apply]
      rw [slabs_abs, ptK_abs]
      have : shifted ((slabs t r s).map fun (x : Slab) => ⟨|x.roughness|, x.sld, x.thickness⟩) =
          (shifted (slabs t r s)).map fun (x : Slab) => ⟨|x.roughness|, x.sld, x.thickness⟩ := by
        unfold shifted
        rw [List.map_map, List.map_map]
        rfl
      rw [this, codeStack_abs]
    · rw [(C34_range_partial q t r s 0).2.1 rfl hl, (C34_range_partial _ t _ s 0).2.1 rfl (by simpa using hl)]
  · rw [(C34_range_partial q t r s amb).1 ha, (C34_range_partial _ t _ s amb).1 ha]

/-! ### Thick layers -/

theorem stackMatrix_at (wave : ℂ → ℂ) (x : Slab) (b : List Slab) : ∀ (l : List Slab) (k : ℂ),
    stackMatrix wave k (l ++ x :: b) = stackMatrix wave k (l ++ [⟨x.roughness, x.sld, 0⟩]) * layerMatrix (wave x.sld) x.thickness *
      stackMatrix wave (wave x.sld) b
  | [], k => by
    show interfaceMatrix k (wave x.sld) x.roughness * layerMatrix (wave x.sld) x.thickness * stackMatrix wave (wave x.sld) b =
      interfaceMatrix k (wave x.sld) x.roughness * layerMatrix (wave x.sld) 0 * 1 * layerMatrix (wave x.sld) x.thickness * _
    rw [layerMatrix_zero, mul_one, mul_one]
  | y :: l, k => by
    show interfaceMatrix k (wave y.sld) y.roughness * layerMatrix (wave y.sld) y.thickness * stackMatrix wave (wave y.sld) (l ++ x :: b) =
      interfaceMatrix k (wave y.sld) y.roughness * layerMatrix (wave y.sld) y.thickness *
        stackMatrix wave (wave y.sld) (l ++ [⟨x.roughness, x.sld, 0⟩]) * _ * _
    rw [stackMatrix_at wave x b l]
    simp only [Matrix.mul_assoc]

theorem thick_ratio (A : Matrix (Fin 2) (Fin 2) ℂ) (B : Matrix (Fin 2) (Fin 2) ℂ) (k : ℂ) (d : ℝ) :
    (A * layerMatrix k d * B) 0 1 = cexp (I * k * d) * (A 0 0 * (cexp (-(2 * I * k * d)) * B 0 1) + A 0 1 * B 1 1) ∧
    (A * layerMatrix k d * B) 1 1 = cexp (I * k * d) * (A 1 0 * (cexp (-(2 * I * k * d)) * B 0 1) + A 1 1 * B 1 1) := by
  have e2 : cexp (-(I * k * d)) = cexp (I * k * d) * cexp (-(2 * I * k * d)) := by
    rw [← Complex.exp_add]; ring_nf
  unfold layerMatrix
  rw [e2]
  constructor <;> simp [Matrix.mul_apply, Fin.sum_univ_two] <;> ring

theorem phase_tendsto {k : ℂ} (hk : k.im < 0) : Tendsto (fun d : ℝ => cexp (-(2 * I * k * d))) atTop (𝓝 0) := by
  rw [tendsto_zero_iff_norm_tendsto_zero]
  have : (fun d : ℝ => ‖cexp (-(2 * I * k * d))‖) = fun d : ℝ => Real.exp (2 * k.im * d) := by
    funext d
    rw [Complex.norm_exp]
    congr 1
    simp
  rw [this]
  exact Real.tendsto_exp_atBot.comp (tendsto_id.const_mul_atTop_of_neg (by linarith))

/-- C114: what lies below a layer is not seen if the layer is thick: the reflectivity tends to the one of the stack in
which the layer is the substrate. `t₁`, `r₁`, `s₁` are the media below the layer with density `ρ`, `t₂`, `r₂`, `s₂` the ones
above it. -/
theorem C114_thick (q : ℝ) (t₁ t₂ r₁ r₂ : List ℝ) (s₁ s₂ : List ℂ) (ρ : ℂ) (σ : ℝ) (h1 : t₁.length + 1 = r₁.length)
    (h2 : r₁.length = s₁.length) (h3 : t₂.length = r₂.length) (h4 : r₂.length = s₂.length) (hp : ∀ x ∈ s₁ ++ ρ :: s₂, 0 ≤ x.im)
    (wave : ℂ → ℂ) (hw : ∀ ρ, 0 ≤ ρ.im → IsWave q ρ (wave ρ)) (y : ℂ) (hy : parratt wave (wave ρ) (slabs t₁ r₁ s₁) = some y)
    (v₀ : ℝ) (hv : multilayerReflectivity [q] t₂ (σ :: r₂) (ρ :: s₂) 0 = .ok [some v₀]) (ε : ℝ) (hε : 0 < ε) :
    ∃ d₀ : ℝ, ∀ d, d₀ ≤ d → ∃ v, multilayerReflectivity [q] (t₁ ++ d :: t₂) (r₁ ++ σ :: r₂) (s₁ ++ ρ :: s₂) 0 = .ok [some v] ∧
      |v - v₀| < ε := by
  have hρ : 0 ≤ ρ.im := hp ρ (by simp)
  have hp2 : ∀ x ∈ ρ :: s₂, 0 ≤ x.im := fun x hx => hp x (List.mem_append_right _ hx)
  have hp1 : ∀ x ∈ s₁, 0 ≤ x.im := fun x hx => hp x (List.mem_append_left _ hx)
  obtain ⟨hB, -⟩ := stack_parratt (fun ρ h => (hw ρ h).2) (slabs t₁ r₁ s₁) (slabs_physical hp1) (wave ρ) (hw ρ hρ).2 y hy
  have hk : (wave ρ).im < 0 := by
    rw [isWave_unique (hw ρ hρ) (codeWave_isWave q hρ).1]; exact (codeWave_isWave q hρ).2
  set L := (List.zipWith (fun (p : ℝ × ℂ) d => (⟨p.1, p.2, d⟩ : Slab)) (r₂.zip s₂) t₂).reverse with hL
  have eA : slabs t₂ (σ :: r₂) (ρ :: s₂) = L ++ [⟨σ, ρ, 0⟩] := by
    have := slabs_append [] t₂ [σ] r₂ [ρ] s₂ rfl rfl
    simp only [List.nil_append, List.singleton_append] at this
    rw [this]
    rfl
  have eM : ∀ d : ℝ, slabs (t₁ ++ d :: t₂) (r₁ ++ σ :: r₂) (s₁ ++ ρ :: s₂) = L ++ ⟨σ, ρ, d⟩ :: slabs t₁ r₁ s₁ := by
    intro d
    rw [slabs_append t₁ (d :: t₂) r₁ (σ :: r₂) s₁ (ρ :: s₂) h1 h2]
    simp [hL]
  set A := stackMatrix wave (wave 0) (L ++ [⟨σ, ρ, 0⟩]) with hA
  set B := stackMatrix wave (wave ρ) (slabs t₁ r₁ s₁) with hBdef
  rw [multilayer_eq [q] _ _ _ (by simpa using h3) (by simpa using h4), List.map_singleton, codePoint_eq _ _ _ hp2 q wave hw, eA, ← hA] at hv
  have hv : intensity A = some v₀ := by simpa using hv
  unfold intensity at hv
  split at hv
  · cases hv
  · rename_i hA1
    have hv : min (‖A 0 1 / A 1 1‖ ^ 2) 1 = v₀ := Option.some.inj hv
    set φ : ℝ → ℂ := fun d => cexp (-(2 * I * wave ρ * d)) with hφ
    have t0 : Tendsto φ atTop (𝓝 0) := phase_tendsto hk
    have tn : Tendsto (fun d => A 0 0 * (φ d * B 0 1) + A 0 1 * B 1 1) atTop (𝓝 (A 0 0 * (0 * B 0 1) + A 0 1 * B 1 1)) :=
      (((t0.mul_const _).const_mul _).add_const _)
    have td : Tendsto (fun d => A 1 0 * (φ d * B 0 1) + A 1 1 * B 1 1) atTop (𝓝 (A 1 0 * (0 * B 0 1) + A 1 1 * B 1 1)) :=
      (((t0.mul_const _).const_mul _).add_const _)
    rw [zero_mul, mul_zero, zero_add] at tn td
    have hne : A 1 1 * B 1 1 ≠ 0 := mul_ne_zero hA1 hB
    have tr := tn.div td hne
    rw [mul_div_mul_right _ _ hB] at tr
    have tv : Tendsto (fun d => min (‖(A 0 0 * (φ d * B 0 1) + A 0 1 * B 1 1) / (A 1 0 * (φ d * B 0 1) + A 1 1 * B 1 1)‖ ^ 2) 1) atTop (𝓝 v₀) := by
      rw [← hv]
      exact ((tr.norm.pow 2).min tendsto_const_nhds)
    have ev := (td.eventually_ne hne).and (Metric.tendsto_nhds.1 tv ε hε)
    obtain ⟨d₀, hd₀⟩ := Filter.eventually_atTop.1 ev
    refine ⟨d₀, fun d hd => ?_⟩
    obtain ⟨h5, h6⟩ := hd₀ d hd
    refine ⟨_, ?_, h6⟩
    rw [multilayer_eq [q] _ _ _ (by simp; omega) (by simp; omega), List.map_singleton, codePoint_eq _ _ _ hp q wave hw, eM,
      stackMatrix_at wave ⟨σ, ρ, d⟩]
    obtain ⟨r1, r2⟩ := thick_ratio A B (wave ρ) d
    unfold intensity
    simp only [← hA, ← hBdef]
    rw [r1, r2, if_neg (mul_ne_zero (Complex.exp_ne_zero _) h5), mul_div_mul_left _ _ (Complex.exp_ne_zero _)]

/-- C114: in particular a thick layer on a rough substrate looks like the substrate of its own material. -/
theorem C114_on_substrate (q σ₁ σ₂ : ℝ) (ρ₁ ρ₂ : ℂ) (hρ₁ : 0 ≤ ρ₁.im) (hρ₂ : 0 ≤ ρ₂.im) (ε : ℝ) (hε : 0 < ε) :
    ∃ v₀ d₀ : ℝ, multilayerReflectivity [q] [] [σ₂] [ρ₂] 0 = .ok [some v₀] ∧
      ∀ d, d₀ ≤ d → ∃ v, multilayerReflectivity [q] [d] [σ₁, σ₂] [ρ₁, ρ₂] 0 = .ok [some v] ∧ |v - v₀| < ε := by
  obtain ⟨wave, hw⟩ := wave_exists
  have e := C39_substrate q σ₂ ρ₂ _ _ hρ₂ (hw q 0 (by simp)) (hw q ρ₂ hρ₂)
  have hx : parratt (wave q) (wave q ρ₂) (slabs [] [σ₁] [ρ₁]) = some (fresnel (wave q ρ₂) (wave q ρ₁) σ₁) := by
    show parratt (wave q) (wave q ρ₂) [⟨σ₁, ρ₁, 0⟩] = _
    rw [parratt, parratt]
    simp
  obtain ⟨d₀, h⟩ := C114_thick q [] [] [σ₁] [] [ρ₁] [] ρ₂ σ₂ rfl rfl rfl rfl (by
    intro x hx
    simp only [List.cons_append, List.nil_append, List.mem_cons, List.not_mem_nil, or_false] at hx
    rcases hx with rfl | rfl
    · exact hρ₁
    · exact hρ₂) (wave q) (hw q) _ hx _ e ε hε
  exact ⟨_, d₀, e, h⟩

end Verif.Props
