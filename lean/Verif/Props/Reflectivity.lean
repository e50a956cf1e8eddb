import Verif.Model.Reflectivity
import Verif.Spec.Reflectivity
import Verif.Lemmas.Except
import Mathlib.Analysis.SpecialFunctions.Complex.Arg
import Mathlib.Analysis.SpecialFunctions.Trigonometric.Bounds

/-!
# C33 to C39: the builtin reflectivity simulation
-/

namespace Verif.Props
open Verif.Py Verif.Model Verif.Spec Complex

/-! ### C33: wave numbers -/

theorem npSqrt_sq (z : ℂ) : npSqrt z ^ 2 = z := by
  unfold npSqrt
  have := Complex.cpow_nat_inv_pow z (n := 2) (by norm_num)
  norm_num at this ⊢
  exact this

theorem npSqrt_re_im {z : ℂ} (h : z.im < 0) : 0 < (npSqrt z).re ∧ (npSqrt z).im < 0 := by
  have hz : z ≠ 0 := by rintro rfl; simp at h
  have ha := Complex.arg_neg_iff.2 h
  have hb := Complex.neg_pi_lt_arg z
  have e : npSqrt z = cexp (Complex.log z * (1 / 2)) := by
    unfold npSqrt
    rw [Complex.cpow_def_of_ne_zero hz]
  have him : (Complex.log z * (1 / 2)).im = Complex.arg z / 2 := by
    have : (1 / 2 : ℂ) = ((1 / 2 : ℝ) : ℂ) := by norm_num
    rw [this, Complex.im_mul_ofReal, Complex.log_im]
    ring
  rw [e, Complex.exp_re, Complex.exp_im, him]
  constructor
  · exact mul_pos (Real.exp_pos _) (Real.cos_pos_of_mem_Ioo ⟨by linarith, by linarith [Real.pi_pos]⟩)
  · refine mul_neg_of_pos_of_neg (Real.exp_pos _) (Real.sin_neg_of_neg_of_neg_pi_lt (by linarith) (by linarith))

/-- The wave number that the code computes for `q` and the scattering length density `ρ` (before `DELTA` is
added). -/
noncomputable def codeWave (q : ℝ) (ρ : ℂ) : ℂ := npSqrt (((q : ℂ) / 2) ^ 2 - 4 * (Real.pi : ℂ) * (ρ + delta))

theorem codeWave_arg_im (q : ℝ) (ρ : ℂ) :
    (((q : ℂ) / 2) ^ 2 - 4 * (Real.pi : ℂ) * (ρ + delta)).im = -(4 * Real.pi * (ρ.im + 1e-30)) := by
  have h1 : (((q : ℂ) / 2) ^ 2) = (((q / 2) ^ 2 : ℝ) : ℂ) := by push_cast; ring
  have h2 : (4 * (Real.pi : ℂ)) = ((4 * Real.pi : ℝ) : ℂ) := by push_cast; ring
  rw [h1, h2, Complex.sub_im, Complex.ofReal_im, Complex.im_ofReal_mul, Complex.add_im]
  unfold delta
  rw [Complex.im_ofReal_mul]
  simp

theorem codeWave_isWave (q : ℝ) {ρ : ℂ} (h : 0 ≤ ρ.im) :
    IsWave q ρ (codeWave q ρ) ∧ (codeWave q ρ).im < 0 := by
  have hneg : (((q : ℂ) / 2) ^ 2 - 4 * (Real.pi : ℂ) * (ρ + delta)).im < 0 := by
    rw [codeWave_arg_im]
    have := Real.pi_pos
    have h' : (0 : ℝ) < ρ.im + 1e-30 := by
      have : (0 : ℝ) < 1e-30 := by norm_num
      linarith
    nlinarith
  obtain ⟨h1, h2⟩ := npSqrt_re_im hneg
  refine ⟨⟨?_, h1⟩, h2⟩
  unfold codeWave
  rw [npSqrt_sq]
  unfold delta
  norm_num
  ring

theorem isWave_unique {q : ℝ} {ρ k k' : ℂ} (h : IsWave q ρ k) (h' : IsWave q ρ k') : k = k' := by
  have hs : k ^ 2 = k' ^ 2 := h.1.trans h'.1.symm
  rcases sq_eq_sq_iff_eq_or_eq_neg.1 hs with h1 | h1
  · exact h1
  · have := h.2
    rw [h1, Complex.neg_re] at this
    linarith [h'.2]

/-- C33: for every list of real `q` values (including zero and the critical angle) and every scattering length
density with non-negative imaginary part, the computed wave numbers have positive real part, negative
imaginary part, are not zero and have the square `q²/4 - 4π(ρ + 10⁻³⁰ i)`. -/
theorem C33_wave_vectors (q : List ℝ) (ρ : ℂ) (h : 0 ≤ ρ.im) :
    List.Forall₂ (fun q k => IsWave q ρ k ∧ k.im < 0 ∧ k ≠ 0) q
      (getRelativeKz (q.map fun (q : ℝ) => (q : ℂ) / 2) (ρ + delta)) := by
  unfold getRelativeKz
  rw [List.map_map]
  induction q with
  | nil => exact .nil
  | cons a q ih =>
    refine .cons ⟨(codeWave_isWave a h).1, (codeWave_isWave a h).2, ?_⟩ ih
    intro h0
    have := (codeWave_isWave a h).2
    unfold codeWave at this
    simp only [Function.comp_apply] at h0
    rw [h0] at this
    simp at this

/-- C33, the branch: the wave number is the only one with this square and a positive real part. -/
theorem C33_unique (q : ℝ) (ρ k k' : ℂ) (h : IsWave q ρ k) (h' : IsWave q ρ k') : k = k' := isWave_unique h h'

/-- The safe division is the ordinary one for a non-zero denominator. -/
theorem safeDiv1_eq {a b : ℂ} (hb : b ≠ 0) : safeDiv1 a b = a / b := by
  unfold safeDiv1
  split_ifs with h
  · rw [h, div_self hb]
  · rfl

/-- C33: with wave numbers of physical media no denominator of the safe divisions is zero, and they are exact
divisions. -/
theorem C33_division (q : ℝ) (ρ a : ℂ) (h : 0 ≤ ρ.im) : 2 * codeWave q ρ ≠ 0 ∧
    safeDiv1 a (2 * codeWave q ρ) = a / (2 * codeWave q ρ) := by
  have hk : codeWave q ρ ≠ 0 := by
    intro h0
    have := (codeWave_isWave q h).2
    rw [h0] at this
    simp at this
  have : 2 * codeWave q ρ ≠ 0 := mul_ne_zero two_ne_zero hk
  exact ⟨this, safeDiv1_eq this⟩

/-! ### The loop over the interfaces as a matrix product -/

theorem map2_map {α β γ δ : Type} (f : α → β → γ) (l : List δ) (a : δ → α) (b : δ → β) :
    map2 f (l.map a) (l.map b) = l.map fun x => f (a x) (b x) := by
  unfold map2
  induction l with
  | nil => rfl
  | cons x l ih => simp only [List.map_cons, List.zipWith_cons_cons, ih]

/-- One interface, for one `q`, with the divisions of the code. -/
noncomputable def ptR (kp kn : ℂ) (r : ℝ) : Mat :=
  let p := safeDiv1 (kp + kn) (2 * kp) * cexp (-(kp - kn) ^ 2 * 0.5 * (r : ℂ) ^ 2)
  let m := safeDiv1 (kp - kn) (2 * kp) * cexp (-(kp + kn) ^ 2 * 0.5 * (r : ℂ) ^ 2)
  !![p, m; m, p]

/-- One layer, for one `q`. -/
noncomputable def ptT (k : ℂ) (d : ℝ) : Mat := !![cexp (-I * k * d), 0; 0, cexp (I * k * d)]

theorem makeReflectionMatrix_map {δ : Type} (l : List δ) (f g : δ → ℂ) (r : ℝ) :
    makeReflectionMatrix (l.map f) (l.map g) (l.map fun _ => r) = l.map fun x => ptR (f x) (g x) r := by
  unfold makeReflectionMatrix safeDiv
  simp only [← map2.eq_def]
  rw [show (l.map f).map (fun x => 2 * x) = l.map fun x => 2 * f x by rw [List.map_map]; rfl]
  simp only [map2_map]
  rfl

theorem makeTranslationMatrix_map {δ : Type} (l : List δ) (f : δ → ℂ) (d : ℝ) :
    makeTranslationMatrix (l.map f) (l.map fun _ => d) = l.map fun x => ptT (f x) d := by
  unfold makeTranslationMatrix
  rw [map2_map]
  rfl

/-- The wave number inside the code; `s` includes `DELTA`. -/
noncomputable def ptK (s k0 : ℂ) : ℂ := npSqrt (k0 ^ 2 - 4 * (Real.pi : ℂ) * s)

/-- The total matrix after `n` interfaces, for one `q`. -/
noncomputable def ptM (t r : List ℝ) (s : List ℂ) (amb k0 : ℂ) : Nat → Mat
  | 0 => 1
  | 1 => ptR (ptK amb k0) (ptK (s.getD 0 0) k0) (r.getD 0 0)
  | n + 2 => ptM t r s amb k0 (n + 1) * ptT (ptK (s.getD n 0) k0) (t.getD n 0) *
      ptR (ptK (s.getD n 0) k0) (ptK (s.getD (n + 1) 0) k0) (r.getD (n + 1) 0)

theorem getItem_getD {α : Type} {l : List α} {i : Nat} (d : α) (h : i < l.length) :
    getItem l (i : Int) = .ok (l.getD i d) := by
  simp [getItem, normIdx, h]

theorem interfaces_eq (kz0 : List ℂ) (t r : List ℝ) (s : List ℂ) (amb : ℂ) (n : Nat)
    (ht : n ≤ t.length) (hr : n < r.length) (hs : n < s.length) :
    interfaces kz0 t r s amb (n + 1) = .ok (kz0.map fun k0 => ptM t r s amb k0 (n + 1)) := by
  induction n with
  | zero =>
    have e1 : getItem s 0 = .ok (s.getD 0 0) := getItem_getD (i := 0) 0 hs
    have e2 : getItem r 0 = .ok (r.getD 0 0) := getItem_getD (i := 0) 0 hr
    unfold interfaces
    simp only [e1, e2, bind_ok, getRelativeKz]
    rw [makeReflectionMatrix_map]
    rfl
  | succ n ih =>
    unfold interfaces
    rw [ih (by omega) (by omega) (by omega), getItem_getD 0 (show n < t.length by omega),
      getItem_getD 0 (show n < s.length by omega), getItem_getD 0 hs, getItem_getD 0 hr]
    simp only [bind_ok, getRelativeKz]
    rw [makeReflectionMatrix_map, makeTranslationMatrix_map, map2_map, map2_map]
    rfl

/-- The matrix of a stack (listed from the top) with the divisions of the code. -/
noncomputable def codeStack (k0 prev : ℂ) : List Slab → Mat
  | [] => 1
  | s :: rest => ptR prev (ptK s.sld k0) s.roughness * ptT (ptK s.sld k0) s.thickness *
      codeStack k0 (ptK s.sld k0) rest

theorem ptT_zero (k : ℂ) : ptT k 0 = 1 := by
  unfold ptT
  ext i j
  fin_cases i <;> fin_cases j <;> simp

theorem codeStack_drop (k0 amb : ℂ) (l : List Slab) (t r : List ℝ) (s : List ℂ)
    (hl : ∀ i < l.length, l[i]? = some ⟨r.getD i 0, s.getD i 0, t.getD i 0⟩) (n : Nat) (hn : n < l.length) :
    ptM t r s amb k0 (n + 1) * (ptT (ptK (s.getD n 0) k0) (t.getD n 0) *
      codeStack k0 (ptK (s.getD n 0) k0) (l.drop (n + 1))) = codeStack k0 (ptK amb k0) l := by
  induction n with
  | zero =>
    cases l with
    | nil => simp at hn
    | cons a l =>
      have h0 := hl 0 hn
      simp only [List.getElem?_cons_zero, Option.some.injEq] at h0
      simp only [List.drop_succ_cons, List.drop_zero, codeStack, ptM]
      rw [h0, mul_assoc]
  | succ n ih =>
    rw [← ih (by omega)]
    have hd : l.drop (n + 1) = ⟨r.getD (n + 1) 0, s.getD (n + 1) 0, t.getD (n + 1) 0⟩ :: l.drop (n + 2) := by
      rw [List.drop_eq_getElem_cons hn]
      congr 1
      have := hl (n + 1) hn
      rw [List.getElem?_eq_getElem hn] at this
      exact Option.some.inj this
    rw [hd]
    simp only [codeStack, ptM, mul_assoc]

/-- A stack listed from the top, with `DELTA` added to the scattering length densities. -/
noncomputable def shifted (l : List Slab) : List Slab := l.map fun s => ⟨s.roughness, s.sld + delta, s.thickness⟩

theorem slabs_length {t r : List ℝ} {s : List ℂ} (h1 : t.length + 1 = r.length) (h2 : r.length = s.length) :
    (slabs t r s).length = r.length := by
  unfold slabs
  simp only [List.length_reverse, List.length_zipWith, List.length_zip, List.length_cons]
  omega

theorem slabs_get {t r : List ℝ} {s : List ℂ} (h1 : t.length + 1 = r.length) (h2 : r.length = s.length) (i : Nat)
    (hi : i < (shifted (slabs t r s)).length) :
    (shifted (slabs t r s))[i]? = some ⟨r.reverse.getD i 0, (s.reverse.map (· + delta)).getD i 0,
      t.reverse.getD i 0⟩ := by
  have hl : (shifted (slabs t r s)).length = r.length := by unfold shifted; rw [List.length_map, slabs_length h1 h2]
  rw [hl] at hi
  unfold shifted slabs
  rw [List.reverse_zipWith (by simp; omega), List.reverse_cons]
  simp only [List.zip, List.reverse_zipWith h2]
  rw [List.getElem?_map, List.getElem?_zipWith, List.getElem?_zipWith]
  have a1 : r.reverse[i]? = some (r.reverse.getD i 0) := by simp [List.getD, hi]
  have a2 : s.reverse[i]? = some (s.reverse.getD i 0) := by simp [List.getD, show i < s.length by omega]
  have a3 : (s.reverse.map (· + delta)).getD i 0 = s.reverse.getD i 0 + delta := by
    simp [List.getD, show i < s.length by omega]
  have a4 : (t.reverse ++ [0])[i]? = some (t.reverse.getD i 0) := by
    by_cases hit : i < t.length
    · rw [List.getElem?_append_left (by simpa using hit)]
      simp [List.getD, hit]
    · have : i = t.reverse.length := by simp; omega
      subst this
      simp [List.getD]
  rw [a1, a2, a3, a4]
  rfl

/-- The value that the code computes for one `q`. -/
noncomputable def codePoint (t r : List ℝ) (s : List ℂ) (q : ℝ) : Option ℝ :=
  reflectivityOf (codeStack ((q : ℂ) / 2) (ptK (0 + delta) ((q : ℂ) / 2)) (shifted (slabs t r s)))

theorem multilayer_eq (q t r : List ℝ) (s : List ℂ) (h1 : t.length + 1 = r.length) (h2 : r.length = s.length) :
    multilayerReflectivity q t r s 0 = .ok (q.map (codePoint t r s)) := by
  unfold multilayerReflectivity
  simp only [ne_eq, not_true_eq_false, if_false, List.length_reverse, List.length_map]
  rw [if_pos ⟨h1, h2⟩]
  obtain ⟨n, hn⟩ : ∃ n, r.length = n + 1 := ⟨t.length, h1.symm⟩
  rw [hn, interfaces_eq _ _ _ _ _ n (by simp; omega) (by simp; omega) (by simp; omega)]
  simp only [bind_ok, List.map_map]
  show Except.ok _ = _
  congr 1
  refine List.map_congr_left fun q _ => ?_
  simp only [Function.comp_apply]
  unfold codePoint
  congr 1
  have hlen : (shifted (slabs t r s)).length = n + 1 := by
    unfold shifted; rw [List.length_map, slabs_length h1 h2, hn]
  have := codeStack_drop ((q : ℂ) / 2) (0 + delta) (shifted (slabs t r s)) t.reverse r.reverse
    (s.reverse.map (· + delta)) (fun i hi => slabs_get h1 h2 i hi) n (by omega)
  rw [← this]
  have hd : (shifted (slabs t r s)).drop (n + 1) = [] := by rw [List.drop_eq_nil_iff]; omega
  have h0 : t.reverse.getD n 0 = 0 := by
    have : t.reverse.length ≤ n := by simp; omega
    rw [List.getD, List.getElem?_eq_none this]
    rfl
  rw [hd, h0, ptT_zero]
  simp [codeStack]

/-! ### C35 -/

/-- C35: for every stack there is one function of `q` such that every list of `q` values gives the list of its
values. -/
theorem C35_pointwise (t r : List ℝ) (s : List ℂ) (h1 : t.length + 1 = r.length) (h2 : r.length = s.length) :
    ∃ f : ℝ → Option ℝ, ∀ q, multilayerReflectivity q t r s 0 = .ok (q.map f) :=
  ⟨codePoint t r s, fun q => multilayer_eq q t r s h1 h2⟩

/-- C35: concatenating, permuting and selecting `q` values does the same to the curve. -/
theorem C35_rearrange (t r : List ℝ) (s : List ℂ) (h1 : t.length + 1 = r.length) (h2 : r.length = s.length)
    (q q' : List ℝ) : ∃ c c', multilayerReflectivity q t r s 0 = .ok c ∧ multilayerReflectivity q' t r s 0 = .ok c' ∧
      c.length = q.length ∧
      multilayerReflectivity (q ++ q') t r s 0 = .ok (c ++ c') ∧
      (q.Perm q' → (q.zip c).Perm (q'.zip c')) ∧
      (q'.Sublist q → (q'.zip c').Sublist (q.zip c)) := by
  obtain ⟨f, hf⟩ := C35_pointwise t r s h1 h2
  have hz : ∀ l : List ℝ, l.zip (l.map f) = l.map fun x => (x, f x) := fun l => by
    induction l with
    | nil => rfl
    | cons a l ih => simp [ih]
  refine ⟨_, _, hf q, hf q', by simp, by rw [hf, List.map_append], fun h => ?_, fun h => ?_⟩
  · rw [hz, hz]; exact h.map _
  · rw [hz, hz]; exact h.map _

theorem ptR_eq {kp kn : ℂ} (h : kp ≠ 0) (r : ℝ) : ptR kp kn r = interfaceMatrix kp kn r := by
  unfold ptR interfaceMatrix
  have h2 : 2 * kp ≠ 0 := mul_ne_zero two_ne_zero h
  have e : ∀ z : ℂ, -z ^ 2 * 0.5 * (r : ℂ) ^ 2 = -z ^ 2 * (r : ℂ) ^ 2 / 2 := fun z => by norm_num; ring
  simp only [safeDiv1_eq h2, e]

theorem ptT_eq (k : ℂ) (d : ℝ) : ptT k d = layerMatrix k d := by
  unfold ptT layerMatrix
  have : -I * k * d = -(I * k * d) := by ring
  rw [this]

/-- The sample is physical: no scattering length density has a negative imaginary part. -/
def Physical (l : List Slab) : Prop := ∀ s ∈ l, 0 ≤ s.sld.im

theorem codeWave_ne_zero (q : ℝ) {ρ : ℂ} (h : 0 ≤ ρ.im) : codeWave q ρ ≠ 0 := by
  intro h0
  have := (codeWave_isWave q h).2
  rw [h0] at this
  simp at this

theorem codeStack_eq (q : ℝ) (wave : ℂ → ℂ) (hw : ∀ ρ, 0 ≤ ρ.im → IsWave q ρ (wave ρ)) (l : List Slab)
    (hp : Physical l) (prev : ℂ) (hprev : 0 ≤ prev.im) :
    codeStack ((q : ℂ) / 2) (codeWave q prev) (shifted l) = stackMatrix wave (wave prev) l := by
  induction l generalizing prev with
  | nil => rfl
  | cons a l ih =>
    have ha := hp a (by simp)
    have e : ∀ ρ : ℂ, 0 ≤ ρ.im → codeWave q ρ = wave ρ := fun ρ h =>
      isWave_unique (codeWave_isWave q h).1 (hw ρ h)
    show ptR (codeWave q prev) (codeWave q a.sld) a.roughness * ptT (codeWave q a.sld) a.thickness *
      codeStack ((q : ℂ) / 2) (codeWave q a.sld) (shifted l) = _
    rw [ptR_eq (codeWave_ne_zero q hprev), ptT_eq, ih (fun s hs => hp s (by simp [hs])) a.sld ha,
      e prev hprev, e a.sld ha]
    rfl

theorem mem_zipWith {α β γ : Type} {f : α → β → γ} {a : List α} {b : List β} {x : γ}
    (h : x ∈ List.zipWith f a b) : ∃ p ∈ a, ∃ d ∈ b, x = f p d := by
  induction a generalizing b with
  | nil => simp at h
  | cons p a ih =>
    cases b with
    | nil => simp at h
    | cons d b =>
      rw [List.zipWith_cons_cons, List.mem_cons] at h
      rcases h with rfl | h
      · exact ⟨p, by simp, d, by simp, rfl⟩
      · obtain ⟨p', hp, d', hd, rfl⟩ := ih h
        exact ⟨p', by simp [hp], d', by simp [hd], rfl⟩

theorem slabs_mem {t r : List ℝ} {s : List ℂ} {x : Slab} (h : x ∈ slabs t r s) :
    x.sld ∈ s ∧ x.roughness ∈ r ∧ (x.thickness = 0 ∨ x.thickness ∈ t) := by
  unfold slabs at h
  rw [List.mem_reverse] at h
  obtain ⟨p, hp, d, hd, rfl⟩ := mem_zipWith h
  have := List.of_mem_zip (show (p.1, p.2) ∈ r.zip s from hp)
  exact ⟨this.2, this.1, List.mem_cons.1 hd⟩

theorem slabs_physical {t r : List ℝ} {s : List ℂ} (h : ∀ ρ ∈ s, 0 ≤ ρ.im) : Physical (slabs t r s) :=
  fun _ hx => h _ (slabs_mem hx).1

theorem codePoint_eq (t r : List ℝ) (s : List ℂ) (hp : ∀ ρ ∈ s, 0 ≤ ρ.im) (q : ℝ) (wave : ℂ → ℂ)
    (hw : ∀ ρ, 0 ≤ ρ.im → IsWave q ρ (wave ρ)) :
    codePoint t r s q = intensity (stackMatrix wave (wave 0) (slabs t r s)) := by
  rw [← codeStack_eq q wave hw _ (slabs_physical hp) 0 (by simp)]
  rfl

/-- C35: for physical media, every value is the one of the transfer-matrix product for its own `q`. -/
theorem C35_transfer (q t r : List ℝ) (s : List ℂ) (h1 : t.length + 1 = r.length) (h2 : r.length = s.length)
    (hp : ∀ ρ ∈ s, 0 ≤ ρ.im) (wave : ℝ → ℂ → ℂ) (hw : ∀ q ρ, 0 ≤ ρ.im → IsWave q ρ (wave q ρ)) :
    multilayerReflectivity q t r s 0 =
      .ok (q.map fun q => intensity (stackMatrix (wave q) (wave q 0) (slabs t r s))) := by
  rw [multilayer_eq q t r s h1 h2]
  congr 1
  exact List.map_congr_left fun q _ => codePoint_eq t r s hp q (wave q) (hw q)

/-- Wave numbers as required in `C35_transfer` exist. -/
theorem wave_exists : ∃ wave : ℝ → ℂ → ℂ, ∀ q ρ, 0 ≤ ρ.im → IsWave q ρ (wave q ρ) :=
  ⟨codeWave, fun q _ h => (codeWave_isWave q h).1⟩

/-! ### C36, C37, C38: structure of the stack -/

theorem slabs_append (t₁ t₂ r₁ r₂ : List ℝ) (s₁ s₂ : List ℂ) (h1 : t₁.length + 1 = r₁.length)
    (h2 : r₁.length = s₁.length) :
    slabs (t₁ ++ t₂) (r₁ ++ r₂) (s₁ ++ s₂) =
      (List.zipWith (fun (p : ℝ × ℂ) d => (⟨p.1, p.2, d⟩ : Slab)) (r₂.zip s₂) t₂).reverse ++ slabs t₁ r₁ s₁ := by
  unfold slabs
  rw [List.zip_append h2, ← List.cons_append, List.zipWith_append (by simp; omega), List.reverse_append]

theorem layerMatrix_add (k : ℂ) (d d' : ℝ) : layerMatrix k d * layerMatrix k d' = layerMatrix k (d + d') := by
  unfold layerMatrix
  ext i j
  fin_cases i <;> fin_cases j <;> simp [Matrix.mul_apply, Fin.sum_univ_two, ← Complex.exp_add] <;> ring_nf

theorem interfaceMatrix_self {k : ℂ} (h : k ≠ 0) (σ : ℝ) : interfaceMatrix k k σ = 1 := by
  unfold interfaceMatrix
  have : (k + k) / (2 * k) = 1 := by rw [← two_mul]; exact div_self (mul_ne_zero two_ne_zero h)
  ext i j
  fin_cases i <;> fin_cases j <;> simp [this]

theorem isWave_ne_zero {q : ℝ} {ρ k : ℂ} (h : IsWave q ρ k) : k ≠ 0 := by
  rintro rfl
  simpa using h.2

theorem codeWave_ne_zero' (q : ℝ) {ρ : ℂ} (h : ρ.im ≠ -1e-30) : codeWave q ρ ≠ 0 := by
  intro h0
  have h1 := codeWave_arg_im q ρ
  have h2 : codeWave q ρ ^ 2 = 0 := by rw [h0]; ring
  unfold codeWave at h2
  rw [npSqrt_sq] at h2
  rw [h2] at h1
  simp only [Complex.zero_im, zero_eq_neg, mul_eq_zero, Real.pi_ne_zero, OfNat.ofNat_ne_zero, false_or] at h1
  exact h (by linarith)

theorem ptR_self {k : ℂ} (h : k ≠ 0) (σ : ℝ) : ptR k k σ = 1 := by rw [ptR_eq h, interfaceMatrix_self h]

theorem ptT_add (k : ℂ) (d d' : ℝ) : ptT k d * ptT k d' = ptT k (d + d') := by
  rw [ptT_eq, ptT_eq, ptT_eq, layerMatrix_add]

theorem codeStack_split (k0 : ℂ) (top rest : List Slab) (σ σ' : ℝ) (ρ : ℂ) (hρ : ptK ρ k0 ≠ 0) (d d' : ℝ) (k : ℂ) :
    codeStack k0 k (top ++ ⟨σ, ρ, d⟩ :: ⟨σ', ρ, d'⟩ :: rest) = codeStack k0 k (top ++ ⟨σ, ρ, d + d'⟩ :: rest) := by
  induction top generalizing k with
  | nil =>
    simp only [List.nil_append, codeStack]
    rw [ptR_self hρ, ← ptT_add]
    simp only [mul_assoc, one_mul]
  | cons a top ih => simp only [List.cons_append, codeStack, ih]

theorem shifted_append (a b : List Slab) : shifted (a ++ b) = shifted a ++ shifted b := List.map_append

theorem shifted_cons (a : Slab) (b : List Slab) :
    shifted (a :: b) = ⟨a.roughness, a.sld + delta, a.thickness⟩ :: shifted b := rfl

/-- C36: a layer of thickness `d + d'` can be divided into two layers with the same scattering length density
and any roughness between them, at any place of any stack, without changing the curve. (`t₁`, `r₁`, `s₁`
describe what is below the layer, `t₂`, `r₂`, `s₂` what is above. The only exception is a scattering length
density whose imaginary part is the negative of the small number that the code adds.) -/
theorem C36_split (q t₁ t₂ r₁ r₂ : List ℝ) (s₁ s₂ : List ℂ) (ρ : ℂ) (d d' σ σ' : ℝ)
    (h1 : t₁.length + 1 = r₁.length) (h2 : r₁.length = s₁.length) (h3 : t₂.length = r₂.length)
    (h4 : r₂.length = s₂.length) (hρ : ρ.im ≠ -1e-30) :
    ∃ c, c.length = q.length ∧
      multilayerReflectivity q (t₁ ++ (d + d') :: t₂) (r₁ ++ σ :: r₂) (s₁ ++ ρ :: s₂) 0 = .ok c ∧
      multilayerReflectivity q (t₁ ++ d' :: d :: t₂) (r₁ ++ σ' :: σ :: r₂) (s₁ ++ ρ :: ρ :: s₂) 0 = .ok c := by
  refine ⟨_, ?_, multilayer_eq q _ _ _ (by simp; omega) (by simp; omega), ?_⟩
  · simp
  rw [multilayer_eq q _ _ _ (by simp; omega) (by simp; omega)]
  congr 1
  refine List.map_congr_left fun q _ => ?_
  unfold codePoint
  rw [slabs_append t₁ _ r₁ _ s₁ _ h1 h2, slabs_append t₁ _ r₁ _ s₁ _ h1 h2]
  simp only [List.zip_cons_cons, List.zipWith_cons_cons, List.reverse_cons, List.append_assoc, List.cons_append,
    List.nil_append, shifted_append, shifted_cons]
  rw [codeStack_split _ _ _ _ _ _ (codeWave_ne_zero' q hρ)]

/-- The hypotheses of `C36_split` for a layer in the middle of a stack. -/
example : ([100] : List ℝ).length + 1 = ([3, 4] : List ℝ).length ∧ ([3, 4] : List ℝ).length = ([20, 15] : List ℂ).length ∧
    ([50] : List ℝ).length = ([5] : List ℝ).length ∧ ([5] : List ℝ).length = ([7 + I] : List ℂ).length ∧
    (10 + 2 * I : ℂ).im ≠ -1e-30 := by
  refine ⟨rfl, rfl, rfl, rfl, ?_⟩
  simp
  norm_num

theorem interfaceMatrix_trans {a b : ℂ} (ha : a ≠ 0) (hb : b ≠ 0) (c : ℂ) :
    interfaceMatrix a b 0 * interfaceMatrix b c 0 = interfaceMatrix a c 0 := by
  unfold interfaceMatrix
  ext i j
  fin_cases i <;> fin_cases j <;> simp [Matrix.mul_apply, Fin.sum_univ_two] <;> field_simp <;> ring

theorem layerMatrix_zero (k : ℂ) : layerMatrix k 0 = 1 := by rw [← ptT_eq, ptT_zero]

theorem codeStack_vanish (k0 : ℂ) (top rest : List Slab) (ht : ∀ x ∈ top, ptK x.sld k0 ≠ 0) (ρ ρ' : ℂ)
    (hρ : ptK ρ k0 ≠ 0) (d : ℝ) (k : ℂ) (hk : k ≠ 0) :
    codeStack k0 k (top ++ ⟨0, ρ, 0⟩ :: ⟨0, ρ', d⟩ :: rest) = codeStack k0 k (top ++ ⟨0, ρ', d⟩ :: rest) := by
  induction top generalizing k with
  | nil =>
    simp only [List.nil_append, codeStack]
    rw [ptT_zero, ptR_eq hk, ptR_eq hk, ptR_eq hρ, ← interfaceMatrix_trans hk hρ (ptK ρ' k0)]
    simp only [mul_assoc, mul_one]
  | cons a top ih =>
    simp only [List.cons_append, codeStack]
    rw [ih (fun s hs => ht s (by simp [hs])) _ (ht a (by simp))]

/-- C37: a layer of thickness zero whose two interfaces are sharp can be removed from any stack without changing
the curve. (`r₁ ++ [0]` are the roughnesses up to the lower interface of the layer. The layer and the media above
it must not have the imaginary part `-1e-30` that cancels the small number added by the code; what is below is
arbitrary.) -/
theorem C37_vanish (q t₁ t₂ r₁ r₂ : List ℝ) (s₁ s₂ : List ℂ) (ρ : ℂ)
    (h1 : t₁.length = r₁.length) (h2 : r₁.length + 1 = s₁.length) (h3 : t₂.length = r₂.length)
    (h4 : r₂.length = s₂.length) (hp : ∀ x ∈ ρ :: s₂, x.im ≠ -1e-30) :
    ∃ c, c.length = q.length ∧
      multilayerReflectivity q (t₁ ++ t₂) (r₁ ++ 0 :: r₂) (s₁ ++ s₂) 0 = .ok c ∧
      multilayerReflectivity q (t₁ ++ 0 :: t₂) (r₁ ++ 0 :: 0 :: r₂) (s₁ ++ ρ :: s₂) 0 = .ok c := by
  refine ⟨_, ?_, multilayer_eq q _ _ _ (by simp; omega) (by simp; omega), ?_⟩
  · simp
  rw [multilayer_eq q _ _ _ (by simp; omega) (by simp; omega)]
  congr 1
  refine List.map_congr_left fun q _ => ?_
  obtain ⟨s₀, ρ', rfl⟩ : ∃ s₀ ρ', s₁ = s₀ ++ [ρ'] := by
    rcases List.eq_nil_or_concat s₁ with rfl | ⟨l, a, rfl⟩
    · simp at h2
    · exact ⟨l, a, by simp⟩
  have hs0 : r₁.length = s₀.length := by simp at h2; omega
  have e1 : r₁ ++ (0 : ℝ) :: r₂ = (r₁ ++ [0]) ++ r₂ := by simp
  have e2 : r₁ ++ (0 : ℝ) :: 0 :: r₂ = (r₁ ++ [0]) ++ 0 :: r₂ := by simp
  unfold codePoint
  rw [e1, e2, slabs_append t₁ _ (r₁ ++ [0]) _ _ _ (by simp; omega) (by simp; omega),
    slabs_append t₁ _ (r₁ ++ [0]) _ _ _ (by simp; omega) (by simp; omega)]
  have hb : ∃ d rest, slabs t₁ (r₁ ++ [0]) (s₀ ++ [ρ']) = ⟨0, ρ', d⟩ :: rest := by
    unfold slabs
    rcases List.eq_nil_or_concat (0 :: t₁) with h | ⟨l, d, h⟩
    · simp at h
    · rw [h, List.concat_eq_append, List.zip_append hs0, List.zipWith_append]
      · simp
      · have := congrArg List.length h
        simp at this ⊢
        omega
  obtain ⟨d, rest, hb⟩ := hb
  rw [hb]
  simp only [List.zip_cons_cons, List.zipWith_cons_cons, List.reverse_cons, List.append_assoc, List.cons_append,
    List.nil_append, shifted_append, shifted_cons]
  rw [codeStack_vanish _ _ _ _ _ _ (codeWave_ne_zero' q (hp ρ (by simp))) _ _
    (show ptK (0 + delta) ((q : ℂ) / 2) ≠ 0 from codeWave_ne_zero q (ρ := 0) (by simp))]
  intro x hx
  unfold shifted at hx
  obtain ⟨y, hy, rfl⟩ := List.mem_map.1 hx
  rw [List.mem_reverse] at hy
  obtain ⟨p, hpm, d, -, rfl⟩ := mem_zipWith hy
  have := List.of_mem_zip (show (p.1, p.2) ∈ r₂.zip s₂ from hpm)
  exact codeWave_ne_zero' q (hp _ (by simp [this.2]))

/-- The hypotheses of `C37_vanish` for a layer in the middle of a stack. -/
example : ([100] : List ℝ).length = ([3] : List ℝ).length ∧ ([3] : List ℝ).length + 1 = ([20, 15] : List ℂ).length ∧
    ([50] : List ℝ).length = ([5] : List ℝ).length ∧ ([5] : List ℝ).length = ([7 + I] : List ℂ).length ∧
    ∀ x ∈ [(10 + 2 * I : ℂ), 7 + I], x.im ≠ -1e-30 := by
  refine ⟨rfl, rfl, rfl, rfl, ?_⟩
  simp
  norm_num

/-- C38: without any contrast to the ambient medium nothing is reflected, for any number of layers, any
thicknesses and roughnesses and every `q`. -/
theorem C38_no_contrast (q t r : List ℝ) (s : List ℂ) (h1 : t.length + 1 = r.length) (h2 : r.length = s.length)
    (h0 : ∀ ρ ∈ s, ρ = 0) : multilayerReflectivity q t r s 0 = .ok (q.map fun _ => some 0) := by
  obtain ⟨wave, hw⟩ := wave_exists
  rw [C35_transfer q t r s h1 h2 (fun ρ h => by rw [h0 ρ h]; simp) wave hw]
  congr 1
  refine List.map_congr_left fun q _ => ?_
  have key : ∀ l : List Slab, (∀ x ∈ l, x.sld = 0) →
      stackMatrix (wave q) (wave q 0) l 0 1 = 0 ∧ stackMatrix (wave q) (wave q 0) l 1 1 ≠ 0 := by
    intro l hl
    induction l with
    | nil => simp [stackMatrix]
    | cons a l ih =>
      obtain ⟨i1, i2⟩ := ih fun x hx => hl x (by simp [hx])
      simp only [stackMatrix, hl a (by simp), interfaceMatrix_self (isWave_ne_zero (hw q 0 (by simp))), one_mul]
      simp only [layerMatrix, Matrix.mul_apply, Fin.sum_univ_two, i1]
      simp [i2]
  obtain ⟨k1, k2⟩ := key (slabs t r s) fun x hx => h0 _ (slabs_mem hx).1
  unfold intensity
  rw [if_neg k2, k1]
  simp

/-! ### C39: bare substrate -/

/-- C39: for a bare substrate the value is the Fresnel reflectivity with the Nevot-Croce roughness factor, cut
off at one; there is never a division by zero. -/
theorem C39_substrate (q σ : ℝ) (ρ k₀ k₁ : ℂ) (hρ : 0 ≤ ρ.im) (h0 : IsWave q 0 k₀) (h1 : IsWave q ρ k₁) :
    multilayerReflectivity [q] [] [σ] [ρ] 0 =
      .ok [some (min (‖(k₀ - k₁) / (k₀ + k₁) * cexp (-2 * k₀ * k₁ * σ ^ 2)‖ ^ 2) 1)] := by
  obtain ⟨wave, hw⟩ := wave_exists
  rw [C35_transfer [q] [] [σ] [ρ] rfl rfl (by simpa using hρ) wave hw]
  have e0 : wave q 0 = k₀ := isWave_unique (hw q 0 (by simp)) h0
  have e1 : wave q ρ = k₁ := isWave_unique (hw q ρ hρ) h1
  have hk0 : k₀ ≠ 0 := isWave_ne_zero h0
  have hsum : k₀ + k₁ ≠ 0 := by
    intro h
    have := congrArg Complex.re h
    simp at this
    linarith [h0.2, h1.2]
  have hm : stackMatrix (wave q) (wave q 0) (slabs [] [σ] [ρ]) = interfaceMatrix k₀ k₁ σ := by
    simp [slabs, stackMatrix, layerMatrix_zero, e0, e1]
  simp only [List.map_cons, List.map_nil, hm]
  have h11 : interfaceMatrix k₀ k₁ σ 1 1 ≠ 0 := by
    simp only [interfaceMatrix, Matrix.of_apply, Matrix.cons_val', Matrix.cons_val_one, Matrix.cons_val_fin_one]
    exact mul_ne_zero (div_ne_zero hsum (mul_ne_zero two_ne_zero hk0)) (Complex.exp_ne_zero _)
  unfold intensity
  rw [if_neg h11]
  congr 6
  simp only [interfaceMatrix, Matrix.of_apply, Matrix.cons_val', Matrix.cons_val_one, Matrix.cons_val_zero,
    Matrix.cons_val_fin_one]
  rw [mul_div_mul_comm, ← Complex.exp_sub]
  congr 1
  · field_simp
  · congr 1
    ring

/-- C39: with zero roughness the reflectivity of a physical substrate is below one, so that it is never cut
off. -/
theorem C39_below_one (q : ℝ) (ρ k₀ k₁ : ℂ) (hρ : 0 ≤ ρ.im) (h0 : IsWave q 0 k₀) (h1 : IsWave q ρ k₁) :
    ‖(k₀ - k₁) / (k₀ + k₁)‖ < 1 ∧
    multilayerReflectivity [q] [] [0] [ρ] 0 = .ok [some (‖(k₀ - k₁) / (k₀ + k₁)‖ ^ 2)] := by
  have i0 : k₀.im < 0 := by
    rw [isWave_unique h0 (codeWave_isWave q (ρ := 0) (by simp)).1]; exact (codeWave_isWave q (by simp)).2
  have i1 : k₁.im < 0 := by
    rw [isWave_unique h1 (codeWave_isWave q hρ).1]; exact (codeWave_isWave q hρ).2
  have hlt : ‖(k₀ - k₁) / (k₀ + k₁)‖ < 1 := by
    have hsum : k₀ + k₁ ≠ 0 := by
      intro h
      have := congrArg Complex.re h
      simp at this
      linarith [h0.2, h1.2]
    rw [norm_div, div_lt_one (norm_pos_iff.2 hsum)]
    rw [← sq_lt_sq₀ (norm_nonneg _) (norm_nonneg _), ← Complex.normSq_eq_norm_sq, ← Complex.normSq_eq_norm_sq,
      Complex.normSq_apply, Complex.normSq_apply]
    simp only [Complex.sub_re, Complex.sub_im, Complex.add_re, Complex.add_im]
    nlinarith [mul_pos h0.2 h1.2, mul_pos_of_neg_of_neg i0 i1]
  refine ⟨hlt, ?_⟩
  rw [C39_substrate q 0 ρ k₀ k₁ hρ h0 h1]
  have : ‖(k₀ - k₁) / (k₀ + k₁)‖ ^ 2 ≤ 1 := by
    have := norm_nonneg ((k₀ - k₁) / (k₀ + k₁))
    nlinarith
  simp only [Complex.ofReal_zero, ne_eq, OfNat.ofNat_ne_zero, not_false_eq_true, zero_pow, mul_zero, Complex.exp_zero,
    mul_one]
  rw [min_eq_left this]

end Verif.Props
