import Verif.Props.Flux
import Verif.Props.Simulate
import Verif.Spec.Parratt

/-!
# C113: simulated curves are those of Parratt's recursion
-/

namespace Verif.Props
open Verif.Py Verif.Model Verif.Spec Complex

theorem wave_add_ne_zero {k k' : ℂ} (h : 0 < k.re) (h' : 0 < k'.re) : k + k' ≠ 0 := by
  intro e
  have := congrArg Complex.re e
  rw [Complex.add_re, Complex.zero_re] at this
  linarith

/-- The last column of the matrix of a stack. -/
theorem stack_column (wave : ℂ → ℂ) (k : ℂ) (s : Slab) (rest : List Slab) :
    stackMatrix wave k (s :: rest) 0 1 =
      (k + wave s.sld) / (2 * k) * cexp (-(k - wave s.sld) ^ 2 * s.roughness ^ 2 / 2) *
        (cexp (-(I * wave s.sld * s.thickness)) * stackMatrix wave (wave s.sld) rest 0 1) +
      (k - wave s.sld) / (2 * k) * cexp (-(k + wave s.sld) ^ 2 * s.roughness ^ 2 / 2) *
        (cexp (I * wave s.sld * s.thickness) * stackMatrix wave (wave s.sld) rest 1 1) ∧
    stackMatrix wave k (s :: rest) 1 1 =
      (k - wave s.sld) / (2 * k) * cexp (-(k + wave s.sld) ^ 2 * s.roughness ^ 2 / 2) *
        (cexp (-(I * wave s.sld * s.thickness)) * stackMatrix wave (wave s.sld) rest 0 1) +
      (k + wave s.sld) / (2 * k) * cexp (-(k - wave s.sld) ^ 2 * s.roughness ^ 2 / 2) *
        (cexp (I * wave s.sld * s.thickness) * stackMatrix wave (wave s.sld) rest 1 1) := by
  have e : stackMatrix wave k (s :: rest) = interfaceMatrix k (wave s.sld) s.roughness * layerMatrix (wave s.sld) s.thickness *
      stackMatrix wave (wave s.sld) rest := rfl
  rw [e]
  generalize stackMatrix wave (wave s.sld) rest = m
  unfold interfaceMatrix layerMatrix
  constructor <;> simp [Matrix.mul_apply, Fin.sum_univ_two] <;> ring

/-- One step: the column in terms of the ratio below. -/
theorem column_step {k k' : ℂ} (hk : k ≠ 0) (hs : k + k' ≠ 0) (σ d : ℝ) (u v : ℂ) (hv : v ≠ 0) :
    ∃ c : ℂ, c ≠ 0 ∧
      (k + k') / (2 * k) * cexp (-(k - k') ^ 2 * σ ^ 2 / 2) * (cexp (-(I * k' * d)) * u) +
        (k - k') / (2 * k) * cexp (-(k + k') ^ 2 * σ ^ 2 / 2) * (cexp (I * k' * d) * v) =
        c * (fresnel k k' σ + u / v * cexp (-(2 * I * k' * d))) ∧
      (k - k') / (2 * k) * cexp (-(k + k') ^ 2 * σ ^ 2 / 2) * (cexp (-(I * k' * d)) * u) +
        (k + k') / (2 * k) * cexp (-(k - k') ^ 2 * σ ^ 2 / 2) * (cexp (I * k' * d) * v) =
        c * (1 + fresnel k k' σ * (u / v * cexp (-(2 * I * k' * d)))) := by
  refine ⟨(k + k') / (2 * k) * cexp (-(k - k') ^ 2 * σ ^ 2 / 2) * cexp (I * k' * d) * v, ?_, ?_, ?_⟩
  · exact mul_ne_zero (mul_ne_zero (mul_ne_zero (div_ne_zero hs (mul_ne_zero two_ne_zero hk)) (Complex.exp_ne_zero _))
      (Complex.exp_ne_zero _)) hv
  all_goals
    have e1 : cexp (-(k + k') ^ 2 * σ ^ 2 / 2) = cexp (-(k - k') ^ 2 * σ ^ 2 / 2) * cexp (-(2 * k * k' * σ ^ 2)) := by
      rw [← Complex.exp_add]; ring_nf
    have e2 : cexp (-(I * k' * d)) = cexp (I * k' * d) * cexp (-(2 * I * k' * d)) := by
      rw [← Complex.exp_add]; ring_nf
    rw [e1, e2]
    unfold fresnel
    field_simp
    ring

/-- The matrix of a stack for which the recursion is defined. -/
theorem stack_parratt {wave : ℂ → ℂ} (hw : ∀ ρ, 0 ≤ ρ.im → 0 < (wave ρ).re) :
    ∀ (l : List Slab), Physical l → ∀ (k : ℂ), 0 < k.re → ∀ x, parratt wave k l = some x →
      stackMatrix wave k l 1 1 ≠ 0 ∧ stackMatrix wave k l 0 1 / stackMatrix wave k l 1 1 = x
  | [], _, k, _, x, h => by
    cases h
    simp [stackMatrix]
  | s :: rest, hp, k, hk, x, h => by
    unfold parratt at h
    obtain ⟨y, hy, h⟩ := Option.bind_eq_some_iff.1 h
    have hs : 0 < (wave s.sld).re := hw _ (hp s (List.mem_cons_self ..))
    obtain ⟨h1, h2⟩ := stack_parratt hw rest (fun z hz => hp z (List.mem_cons_of_mem _ hz)) _ hs y hy
    simp only at h
    split at h
    · cases h
    · rename_i hd
      obtain ⟨e1, e2⟩ := stack_column wave k s rest
      obtain ⟨c, hc, c1, c2⟩ := column_step (k := k) (k' := wave s.sld) (fun e => by rw [e] at hk; simp at hk) (wave_add_ne_zero hk hs)
        s.roughness s.thickness (stackMatrix wave (wave s.sld) rest 0 1) _ h1
      rw [c1, h2] at e1
      rw [c2, h2] at e2
      rw [e1, e2]
      refine ⟨mul_ne_zero hc hd, ?_⟩
      rw [mul_div_mul_left _ _ hc]
      exact Option.some.inj h

/-- The recursion is defined if no matrix of a lower part of the stack has a vanishing last entry. -/
theorem parratt_defined {wave : ℂ → ℂ} (hw : ∀ ρ, 0 ≤ ρ.im → 0 < (wave ρ).re) :
    ∀ (l : List Slab), Physical l → ∀ (k : ℂ), 0 < k.re →
      (∀ (l' : List Slab) (k' : ℂ), l' <:+ l → 0 < k'.re → stackMatrix wave k' l' 1 1 ≠ 0) → ∃ x, parratt wave k l = some x
  | [], _, k, _, _ => ⟨0, rfl⟩
  | s :: rest, hp, k, hk, h => by
    have hs : 0 < (wave s.sld).re := hw _ (hp s (List.mem_cons_self ..))
    have hp' : Physical rest := fun z hz => hp z (List.mem_cons_of_mem _ hz)
    obtain ⟨y, hy⟩ := parratt_defined hw rest hp' _ hs fun l' k' hl => h l' k' (hl.trans (List.suffix_cons ..))
    obtain ⟨h1, h2⟩ := stack_parratt hw rest hp' _ hs y hy
    have h0 := h (s :: rest) k (List.suffix_refl _) hk
    obtain ⟨e1, e2⟩ := stack_column wave k s rest
    obtain ⟨c, hc, c1, c2⟩ := column_step (k := k) (k' := wave s.sld) (fun e => by rw [e] at hk; simp at hk) (wave_add_ne_zero hk hs)
      s.roughness s.thickness (stackMatrix wave (wave s.sld) rest 0 1) _ h1
    rw [c2, h2] at e2
    rw [e2] at h0
    unfold parratt
    rw [hy]
    simp only [Option.bind_some]
    rw [if_neg (right_ne_zero_of_mul h0)]
    exact ⟨_, rfl⟩

/-- C113: where Parratt's recursion with rough interfaces is defined, the simulated reflectivity is the squared modulus of
its result, cut off at one. -/
theorem C113_parratt (q : ℝ) (t r : List ℝ) (s : List ℂ) (h1 : t.length + 1 = r.length) (h2 : r.length = s.length)
    (hp : ∀ ρ ∈ s, 0 ≤ ρ.im) (wave : ℂ → ℂ) (hw : ∀ ρ, 0 ≤ ρ.im → IsWave q ρ (wave ρ)) (x : ℂ)
    (hx : parratt wave (wave 0) (slabs t r s) = some x) :
    multilayerReflectivity [q] t r s 0 = .ok [some (min (‖x‖ ^ 2) 1)] := by
  rw [multilayer_eq [q] t r s h1 h2, List.map_singleton, codePoint_eq t r s hp q wave hw]
  obtain ⟨h3, h4⟩ := stack_parratt (fun ρ h => (hw ρ h).2) (slabs t r s) (slabs_physical hp) (wave 0) (hw 0 (by simp)).2 x hx
  unfold intensity
  rw [if_neg h3, h4]

/-- C113: for sharp interfaces the recursion is defined for every stack. -/
theorem C113_sharp (q : ℝ) (t r : List ℝ) (s : List ℂ) (hp : ∀ ρ ∈ s, 0 ≤ ρ.im) (hr : ∀ x ∈ r, x = 0) (ht : ∀ d ∈ t, 0 ≤ d)
    (wave : ℂ → ℂ) (hw : ∀ ρ, 0 ≤ ρ.im → IsWave q ρ (wave ρ)) :
    ∃ x, parratt wave (wave 0) (slabs t r s) = some x := by
  refine parratt_defined (fun ρ h => (hw ρ h).2) _ (slabs_physical hp) _ (hw 0 (by simp)).2 fun l' k' hl hk h0 => ?_
  have hin : ∀ x ∈ l', x ∈ slabs t r s := fun x hx => hl.subset hx
  have := flux_stack (q := q) (wave := wave) (fun ρ h => ⟨hw ρ h, by
      rw [isWave_unique (hw ρ h) (codeWave_isWave q h).1]; exact (codeWave_isWave q h).2⟩) l'
    (fun x hx => slabs_physical hp x (hin x hx)) (fun x hx => hr _ (slabs_mem (hin x hx)).2.1) (fun x hx => by
      rcases (slabs_mem (hin x hx)).2.2 with h | h
      · rw [h]
      · exact ht _ h) k' hk (fun e => by rw [e] at hk; simp at hk)
  rw [h0, flux_eq, map_zero, zero_mul, Complex.zero_im] at this
  nlinarith [Complex.normSq_nonneg (stackMatrix wave k' l' 0 1), mul_nonneg hk.le (Complex.normSq_nonneg (stackMatrix wave k' l' 0 1))]

/-- The hypothesis of `C113_parratt` is met by every rough substrate (and by `C113_sharp`). -/
example (σ : ℝ) (ρ : ℂ) (wave : ℂ → ℂ) :
    parratt wave (wave 0) (slabs [] [σ] [ρ]) = some (fresnel (wave 0) (wave ρ) σ) := by
  show parratt wave (wave 0) [⟨σ, ρ, 0⟩] = _
  rw [parratt, parratt]
  simp

/-! ### Units -/

/-- `k` is the wave number (in 1/Å) at momentum transfer `q` (in 1/Å) in a medium with the scattering length density `ρ`
(in 10⁻⁶/Å²), up to the small absorption that the code adds. -/
def IsWaveAngstrom (q : ℝ) (ρ k : ℂ) : Prop :=
  k ^ 2 = (q : ℂ) ^ 2 / 4 - 4 * (Real.pi : ℂ) * (ρ * ((10 ^ (-6 : ℤ) : ℝ) : ℂ) + ((10 ^ (-50 : ℤ) : ℝ) : ℂ) * I) ∧ 0 < k.re

theorem slabs_scale (t r : List ℝ) (s : List ℂ) (a : ℝ) (c : ℂ) :
    slabs (t.map fun (x : ℝ) => x * a) (r.map fun (x : ℝ) => x * a) (s.map fun (z : ℂ) => z * c) =
      (slabs t r s).map fun (x : Slab) => ⟨x.roughness * a, x.sld * c, x.thickness * a⟩ := by
  unfold slabs
  rw [List.map_reverse, List.zip_map]
  congr 1
  rw [show (0 : ℝ) :: t.map (fun (x : ℝ) => x * a) = (0 :: t).map fun (x : ℝ) => x * a by simp, List.zipWith_map, List.map_zipWith]
  rfl

theorem parratt_scale {wave wave' : ℂ → ℂ} {a b : ℝ} {c : ℂ} (hab : a * b = 1) :
    ∀ (l : List Slab), (∀ x ∈ l, wave' (x.sld * c) = wave x.sld * b) → ∀ k : ℂ,
      parratt wave' (k * b) (l.map fun (x : Slab) => ⟨x.roughness * a, x.sld * c, x.thickness * a⟩) = parratt wave k l
  | [], _, k => by simp [parratt]
  | x :: l, h, k => by
    have hx := h x (List.mem_cons_self ..)
    have ih := parratt_scale (wave := wave) (wave' := wave') (c := c) hab l (fun y hy => h y (List.mem_cons_of_mem _ hy)) (wave x.sld)
    have hb : (b : ℂ) ≠ 0 := by
      intro e
      have : b = 0 := by exact_mod_cast e
      rw [this, mul_zero] at hab
      exact one_ne_zero hab.symm
    have hab' : (a : ℂ) * b = 1 := by exact_mod_cast hab
    have e1 : fresnel (k * b) (wave x.sld * b) (x.roughness * a) = fresnel k (wave x.sld) x.roughness := by
      unfold fresnel
      congr 1
      · rw [← sub_mul, ← add_mul, mul_div_mul_right _ _ hb]
      · congr 2
        push_cast
        linear_combination (2 * k * wave x.sld * x.roughness ^ 2) * (a * b + 1) * hab'
    have e2 : cexp (-(2 * I * (wave x.sld * b) * ((x.thickness * a : ℝ) : ℂ))) = cexp (-(2 * I * wave x.sld * x.thickness)) := by
      congr 2
      push_cast
      linear_combination (2 * I * wave x.sld * x.thickness) * hab'
    rw [List.map_cons, parratt, parratt]
    simp only [hx, ih, e1, e2]

theorem wave_angstrom {q : ℝ} {ρ k : ℂ} (h : IsWaveAngstrom q ρ k) : IsWave (q * 1e10) (ρ * 1e14) (k * ((1e10 : ℝ) : ℂ)) := by
  refine ⟨?_, ?_⟩
  · rw [mul_pow, h.1]
    push_cast
    norm_num
    ring
  · rw [Complex.mul_re, Complex.ofReal_re, Complex.ofReal_im, mul_zero, sub_zero]
    exact mul_pos h.2 (by norm_num)

/-- C113: with lengths in Å, momentum transfers in 1/Å and densities in 10⁻⁶/Å², what the builtin engine returns is the
squared modulus of Parratt's recursion in these units. -/
theorem C113_units (q : ℝ) (t r : List ℝ) (s : List ℂ) (h1 : t.length + 1 = r.length) (h2 : r.length = s.length)
    (hp : ∀ ρ ∈ s, 0 ≤ ρ.im) (wave : ℂ → ℂ) (hw : ∀ ρ, 0 ≤ ρ.im → IsWaveAngstrom q ρ (wave ρ)) (x : ℂ)
    (hx : parratt wave (wave 0) (slabs t r s) = some x) :
    multilayerReflectivity [q * 1e10] (t.map fun (x : ℝ) => x * 1e-10) (r.map fun (x : ℝ) => x * 1e-10)
      (s.map fun (z : ℂ) => z * 1e14) 0 = .ok [some (min (‖x‖ ^ 2) 1)] := by
  have him : ∀ ρ : ℂ, (ρ * 1e14).im = ρ.im * 1e14 := fun ρ => by
    rw [show (1e14 : ℂ) = ((1e14 : ℝ) : ℂ) by norm_num, Complex.im_mul_ofReal]
  refine C113_parratt (q * 1e10) _ _ _ (by simpa using h1) (by simpa using h2) ?_
    (fun ρ => wave (ρ / 1e14) * ((1e10 : ℝ) : ℂ)) ?_ x ?_
  · intro ρ hρ
    obtain ⟨z, hz, rfl⟩ := List.mem_map.1 hρ
    rw [him]
    exact mul_nonneg (hp z hz) (by norm_num)
  · intro ρ hρ
    have e : ρ / 1e14 * 1e14 = ρ := by field_simp
    have : 0 ≤ (ρ / 1e14).im := by
      have := him (ρ / 1e14)
      rw [e] at this
      rw [this] at hρ
      nlinarith
    have h3 := wave_angstrom (hw _ this)
    rw [e] at h3
    exact h3
  · rw [slabs_scale, zero_div]
    rw [← hx]
    exact parratt_scale (by norm_num) _ (fun y _ => by
      rw [mul_div_assoc, div_self (by norm_num), mul_one]) _

/-! ### Simulated curves of a sample -/

/-- C113: every point that `simulate_reflectivity` returns with the builtin engine is Parratt's value in Å units for the
labels of its own row, at the drawn momentum transfer. The density of the ambient is the last one; it must be zero (C36). -/
theorem C113_simulated (smp : SampleV ℝ) (hs : SampleRegular smp) (names : List Str)
    (hn : smp.labelNames = .ok names) (hk : KeywordFree (partNames smp)) (hl : 0 < smp.layers.length) (tab : SimTable)
    (t r : Nat → List ℝ) (s : Nat → List ℂ) (ht : IsTable names smp.layers.length tab t r fun i => s i ++ [0])
    (rng : Rng G) (ok : rng.Ok) (eng : Option Engine) (pf : Str → Option ℝ) (q : List ℝ) (sp : ℝ) (hsp : 0 ≤ sp) (g g' : G)
    (c : List (List (Option ℝ)))
    (h : simulateReflectivity rng eng pf q (some tab) (.num sp) "builtin".toList g = .ok (c, g'))
    (i j : Nat) (hi : i < tab.nrows) (hj : j < q.length) (hp : ∀ ρ ∈ s i, 0 ≤ ρ.im) (wave : ℂ → ℂ)
    (hw : ∀ ρ, 0 ≤ ρ.im →
      IsWaveAngstrom (q.getD j 0 * (rng.normal 1 sp (tab.nrows * q.length) g).1.getD (i * q.length + j) 0) ρ (wave ρ))
    (x : ℂ) (hx : parratt wave (wave 0) (slabs (t i) (r i) (s i)) = some x) :
    ∃ ci, c[i]? = some ci ∧ ci[j]? = some (some (min (‖x‖ ^ 2) 1)) := by
  obtain ⟨-, -, hc⟩ := C79_own_row_partial smp hs names hn hk hl tab t r _ ht rng ok eng pf q sp hsp g g' c h
  obtain ⟨ci, h1, h2⟩ := hc i hi
  have l1 := ht.thickness i hi
  have l2 := ht.roughness i hi
  have l3 := ht.sld i hi
  have l3 : (s i).length = smp.layers.length + 1 := by simpa using l3
  rw [List.map_append, List.map_singleton, List.dropLast_concat, List.getLastD_concat, zero_mul,
    multilayer_eq _ _ _ _ (by simp [l1, l2]) (by simp [l2, l3])] at h2
  have h3 := C113_units _ (t i) (r i) (s i) (by omega) (by omega) hp wave hw x hx
  rw [multilayer_eq _ _ _ _ (by simp [l1, l2]) (by simp [l2, l3]), List.map_singleton] at h3
  have h3 := (List.cons.inj (Except.ok.inj h3)).1
  refine ⟨ci, h1, ?_⟩
  rw [← Except.ok.inj h2, List.map_map, List.getElem?_map, List.getElem?_range hj]
  simp only [Option.map_some, Function.comp_apply]
  rw [h3]

/-- Waves in Å units exist at every momentum transfer. -/
example (q : ℝ) : ∃ wave : ℂ → ℂ, ∀ ρ, 0 ≤ ρ.im → IsWaveAngstrom q ρ (wave ρ) := by
  obtain ⟨wave, hw⟩ := wave_exists
  refine ⟨fun ρ => wave (q * 1e10) (ρ * 1e14) * ((1e-10 : ℝ) : ℂ), fun ρ hρ => ?_⟩
  have him : (ρ * 1e14).im = ρ.im * 1e14 := by
    rw [show (1e14 : ℂ) = ((1e14 : ℝ) : ℂ) by norm_num, Complex.im_mul_ofReal]
  have h := hw (q * 1e10) (ρ * 1e14) (by rw [him]; positivity)
  refine ⟨?_, ?_⟩
  · rw [mul_pow, h.1]
    push_cast
    norm_num
    ring
  · rw [Complex.mul_re, Complex.ofReal_re, Complex.ofReal_im, mul_zero, sub_zero]
    exact mul_pos h.2 (by norm_num)

end Verif.Props
