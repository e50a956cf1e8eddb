import Verif.Model.Noise
import Mathlib.Probability.Distributions.Gaussian.Real
import Mathlib.Probability.Distributions.Poisson.Basic
import Mathlib.Probability.Independence.InfinitePi
import Mathlib.MeasureTheory.Function.Floor

/-!
# Random numbers with their distributions

Everywhere else `numpy.random` is a generator with an arbitrary outcome. Here its numbers are random variables on a probability space:
`random_sample` gives independent numbers with the uniform distribution on `[0, 1)`, `standard_normal` independent standard normal
numbers, `poisson` has the Poisson distribution of its rate, and all outcomes of `shuffle` are equally likely. The generator of numpy is deterministic; that its numbers behave like
these is an idealization.
-/

namespace Verif.Model
open Verif.Py MeasureTheory ProbabilityTheory

/-- Which random number: the `k`-th, drawn from the uniform, the normal or a Poisson distribution. -/
inductive ChanceIdx where
  | u (k : ℕ) | z (k : ℕ) | s (k : ℕ) | pois (k : ℕ) (r : NNReal)

/-- The distribution of one number; counts are real numbers here. -/
noncomputable def ChanceIdx.law : ChanceIdx → Measure ℝ
  | .u _ => volume.restrict (Set.Ico (0 : ℝ) 1)
  | .z _ => gaussianReal 0 1
  | .s _ => volume.restrict (Set.Ico (0 : ℝ) 1)
  | .pois _ r => (poissonMeasure r).map (fun (k : ℕ) => (k : ℝ))

instance (i : ChanceIdx) : IsProbabilityMeasure i.law := by
  cases i with
  | u k => exact ⟨by simp [ChanceIdx.law]⟩
  | z k => exact inferInstanceAs (IsProbabilityMeasure (gaussianReal 0 1))
  | s k => exact ⟨by simp [ChanceIdx.law]⟩
  | pois k r => exact Measure.isProbabilityMeasure_map (by fun_prop)

/-- The elements of a list in the order `π`. -/
def reorder {α : Type} (l : List α) (π : Equiv.Perm (Fin l.length)) : List α := List.ofFn fun i => l.get (π i)

theorem reorder_perm {α : Type} (l : List α) (π : Equiv.Perm (Fin l.length)) : (reorder l π).Perm l := by
  have h := Equiv.Perm.ofFn_comp_perm π l.get
  rw [List.ofFn_get] at h
  exact h

/-- The random numbers: the `k`-th number drawn is `u k` if it is drawn from the uniform distribution, `z k` if it is drawn from the
normal distribution, and `pois k r` if it is drawn from the Poisson distribution with rate `r`. A shuffle of `n` elements puts them into
the order `order n (s k)` for a uniform number `s k`; all orders have the same probability. -/
structure Chance (Ω : Type) [MeasurableSpace Ω] (P : Measure Ω) where
  u : ℕ → Ω → ℝ
  z : ℕ → Ω → ℝ
  pois : ℕ → NNReal → Ω → ℕ
  s : ℕ → Ω → ℝ
  order : (n : ℕ) → ℝ → Equiv.Perm (Fin n)
  u_mem : ∀ k ω, u k ω ∈ Set.Ico (0 : ℝ) 1
  u_measurable : ∀ k, Measurable (u k)
  z_measurable : ∀ k, Measurable (z k)
  s_measurable : ∀ k, Measurable (s k)
  pois_measurable : ∀ k r, Measurable (pois k r)
  u_law : ∀ k, P.map (u k) = volume.restrict (Set.Ico (0 : ℝ) 1)
  z_law : ∀ k, P.map (z k) = gaussianReal 0 1
  s_law : ∀ k, P.map (s k) = volume.restrict (Set.Ico (0 : ℝ) 1)
  order_measurable : ∀ n π, MeasurableSet {x | order n x = π}
  order_law : ∀ n π, volume.restrict (Set.Ico (0 : ℝ) 1) {x | order n x = π} = (n.factorial : ENNReal)⁻¹
  pois_law : ∀ k r, P.map (pois k r) = poissonMeasure r
  indep : iIndepFun (fun (i : ChanceIdx) (ω : Ω) => match i with
    | .u k => u k ω
    | .z k => z k ω
    | .s k => s k ω
    | .pois k r => (pois k r ω : ℝ)) P

namespace Chance
variable {Ω : Type} [MeasurableSpace Ω] {P : Measure Ω}

/-- The `k`-th draw, if it is a shuffle of `l`. -/
def perm (C : Chance Ω P) {α : Type} (k : ℕ) (ω : Ω) (l : List α) : List α := reorder l (C.order l.length (C.s k ω))

theorem perm_perm (C : Chance Ω P) {α : Type} (k : ℕ) (ω : Ω) (l : List α) : (C.perm k ω l).Perm l := reorder_perm _ _

/-- `numpy.random` with these numbers. The state is the outcome and the number of numbers drawn so far. `uniform(a, b)` is
`a + (b - a) * random_sample()`, `normal(m, s)` is `m + s * standard_normal()` (documentation of numpy). -/
def rng (C : Chance Ω P) : NoiseRng (Ω × ℕ) where
  uniform a b n g := ((List.range n).map fun (i : ℕ) => a + (b - a) * C.u (g.2 + i) g.1, (g.1, g.2 + n))
  normal m s n g := ((List.range n).map fun (i : ℕ) => m + s * C.z (g.2 + i) g.1, (g.1, g.2 + n))
  shuffle l g := (C.perm g.2 g.1 l, (g.1, g.2 + 1))
  normalEach l g := (l.mapIdx fun (i : ℕ) (p : ℝ × ℝ) => p.1 + p.2 * C.z (g.2 + i) g.1, (g.1, g.2 + l.length))
  poissonEach l g := (l.mapIdx fun (i : ℕ) (r : ℝ) => C.pois (g.2 + i) r.toNNReal g.1, (g.1, g.2 + l.length))
  shuffleIdx l g := (C.perm g.2 g.1 l, (g.1, g.2 + 1))

theorem u_indep (C : Chance Ω P) : iIndepFun C.u P :=
  C.indep.precomp (g := ChanceIdx.u) fun a b h => by cases h; rfl

theorem z_indep (C : Chance Ω P) : iIndepFun C.z P :=
  C.indep.precomp (g := ChanceIdx.z) fun a b h => by cases h; rfl

/-- They keep the contract under which everything else is proved. -/
theorem rng_ok (C : Chance Ω P) : C.rng.Ok where
  uniform_length a b n g := by simp [rng]
  uniform_mem a b n g x hx := by
    simp only [rng, List.mem_map] at hx
    obtain ⟨i, -, rfl⟩ := hx
    have h := C.u_mem (g.2 + i) g.1
    rcases le_total a b with hab | hab
    · rw [Set.uIcc_of_le hab]
      constructor <;> nlinarith [h.1, h.2.le]
    · rw [Set.uIcc_of_ge hab]
      constructor <;> nlinarith [h.1, h.2.le]
  normal_length m s n g := by simp [rng]
  shuffle_perm l g := C.perm_perm _ _ _
  normalEach_length l g := by simp [rng]
  poissonEach_length l g := by simp [rng]
  shuffleIdx_perm l g := C.perm_perm _ _ _

end Chance

/-- The order with number `⌊n! x⌋`, for a number `x` of `[0, 1)`. -/
noncomputable def nthOrder (n : ℕ) (x : ℝ) : Equiv.Perm (Fin n) :=
  (Fintype.equivFin (Equiv.Perm (Fin n))).symm ⟨⌊(Fintype.card (Equiv.Perm (Fin n)) : ℝ) * Int.fract x⌋₊, by
    have h : (0 : ℝ) < Fintype.card (Equiv.Perm (Fin n)) := Nat.cast_pos.2 Fintype.card_pos
    rw [Nat.floor_lt (mul_nonneg h.le (Int.fract_nonneg _))]
    nlinarith [Int.fract_lt_one x]⟩

theorem nthOrder_eq (n : ℕ) (π : Equiv.Perm (Fin n)) (x : ℝ) :
    nthOrder n x = π ↔ ⌊(Fintype.card (Equiv.Perm (Fin n)) : ℝ) * Int.fract x⌋₊ = (Fintype.equivFin (Equiv.Perm (Fin n)) π : ℕ) := by
  unfold nthOrder
  rw [Equiv.symm_apply_eq, Fin.ext_iff]

theorem nthOrder_measurable (n : ℕ) (π : Equiv.Perm (Fin n)) : MeasurableSet {x | nthOrder n x = π} := by
  simp only [nthOrder_eq]
  exact (Nat.measurable_floor.comp (measurable_const.mul measurable_fract)) (measurableSet_singleton _)

theorem nthOrder_law (n : ℕ) (π : Equiv.Perm (Fin n)) :
    volume.restrict (Set.Ico (0 : ℝ) 1) {x | nthOrder n x = π} = (n.factorial : ENNReal)⁻¹ := by
  have hc : (0 : ℝ) < Fintype.card (Equiv.Perm (Fin n)) := Nat.cast_pos.2 Fintype.card_pos
  have hi := (Fintype.equivFin (Equiv.Perm (Fin n)) π).2
  simp only [nthOrder_eq]
  rw [show n.factorial = Fintype.card (Equiv.Perm (Fin n)) by rw [Fintype.card_perm, Fintype.card_fin]]
  generalize (Fintype.equivFin (Equiv.Perm (Fin n)) π : ℕ) = i at *
  generalize Fintype.card (Equiv.Perm (Fin n)) = c at *
  have hi' : ((i : ℝ) + 1) ≤ c := by exact_mod_cast hi
  have e : {x : ℝ | ⌊(c : ℝ) * Int.fract x⌋₊ = i} ∩ Set.Ico (0 : ℝ) 1 = Set.Ico ((i : ℝ) / c) ((i + 1) / c) := by
    ext x
    simp only [Set.mem_inter_iff, Set.mem_ofPred_eq, Set.mem_Ico]
    constructor
    · rintro ⟨h, hx⟩
      rw [Int.fract_eq_self.2 hx, Nat.floor_eq_iff (mul_nonneg hc.le hx.1)] at h
      rw [div_le_iff₀ hc, lt_div_iff₀ hc]
      constructor <;> nlinarith [h.1, h.2]
    · rintro ⟨h1, h2⟩
      have h0 : 0 ≤ x := le_trans (by positivity) h1
      have h3 : x < 1 := lt_of_lt_of_le h2 ((div_le_one hc).2 hi')
      rw [div_le_iff₀ hc] at h1
      rw [lt_div_iff₀ hc] at h2
      rw [Int.fract_eq_self.2 ⟨h0, h3⟩, Nat.floor_eq_iff (mul_nonneg hc.le h0)]
      exact ⟨⟨by linarith, by linarith⟩, h0, h3⟩
  rw [Measure.restrict_apply' measurableSet_Ico, e, Real.volume_Ico, ← sub_div, add_sub_cancel_left, one_div, ENNReal.ofReal_inv_of_pos hc, ENNReal.ofReal_natCast]

theorem fract_law {i : ChanceIdx} (h : i.law = volume.restrict (Set.Ico (0 : ℝ) 1)) :
    (Measure.infinitePi ChanceIdx.law).map (fun ω : ChanceIdx → ℝ => Int.fract (ω i)) = volume.restrict (Set.Ico (0 : ℝ) 1) := by
  have h1 : (Measure.infinitePi ChanceIdx.law).map (fun ω : ChanceIdx → ℝ => ω i) = volume.restrict (Set.Ico (0 : ℝ) 1) :=
    (Measure.infinitePi_map_eval (μ := ChanceIdx.law) i).trans h
  have h2 : (volume.restrict (Set.Ico (0 : ℝ) 1)).map Int.fract = volume.restrict (Set.Ico (0 : ℝ) 1) := by
    have : (Int.fract : ℝ → ℝ) =ᵐ[volume.restrict (Set.Ico (0 : ℝ) 1)] id := by
      rw [Filter.EventuallyEq, ae_restrict_iff' measurableSet_Ico]
      exact Filter.Eventually.of_forall fun x hx => Int.fract_eq_self.2 hx
    rw [Measure.map_congr this, Measure.map_id]
  rw [← h2, ← h1]
  exact (Measure.map_map measurable_fract (measurable_pi_apply i)).symm

/-- Such random numbers exist: the product of their distributions. -/
noncomputable def Chance.product : Chance (ChanceIdx → ℝ) (Measure.infinitePi ChanceIdx.law) where
  u k ω := Int.fract (ω (.u k))
  z k ω := ω (.z k)
  pois k r ω := ⌊ω (.pois k r)⌋₊
  s k ω := Int.fract (ω (.s k))
  order := nthOrder
  u_mem k ω := ⟨Int.fract_nonneg _, Int.fract_lt_one _⟩
  u_measurable k := measurable_fract.comp (measurable_pi_apply _)
  z_measurable k := measurable_pi_apply _
  s_measurable k := measurable_fract.comp (measurable_pi_apply _)
  pois_measurable k r := Nat.measurable_floor.comp (measurable_pi_apply _)
  u_law k := fract_law rfl
  z_law k := Measure.infinitePi_map_eval (μ := ChanceIdx.law) (.z k)
  s_law k := fract_law rfl
  order_measurable := nthOrder_measurable
  order_law := nthOrder_law
  pois_law k r := by
    have h1 : (Measure.infinitePi ChanceIdx.law).map (fun ω : ChanceIdx → ℝ => ω (.pois k r)) = (poissonMeasure r).map (fun (k : ℕ) => (k : ℝ)) :=
      Measure.infinitePi_map_eval (μ := ChanceIdx.law) (.pois k r)
    have h2 : ((poissonMeasure r).map (fun (k : ℕ) => (k : ℝ))).map (fun x : ℝ => ⌊x⌋₊) = poissonMeasure r := by
      rw [Measure.map_map Nat.measurable_floor (by fun_prop)]
      have : ((fun x : ℝ => ⌊x⌋₊) ∘ fun (k : ℕ) => (k : ℝ)) = id := by
        funext k; simp
      rw [this, Measure.map_id]
    rw [← h2, ← h1]
    exact (Measure.map_map Nat.measurable_floor (measurable_pi_apply (ChanceIdx.pois k r))).symm
  indep := by
    have h := iIndepFun_infinitePi (P := ChanceIdx.law) (X := fun (i : ChanceIdx) (x : ℝ) => match i with
      | .u _ => Int.fract x
      | .z _ => x
      | .s _ => Int.fract x
      | .pois _ _ => ((⌊x⌋₊ : ℕ) : ℝ)) (by
        intro i
        cases i with
        | u k => exact measurable_fract
        | z k => exact measurable_id
        | s k => exact measurable_fract
        | pois k r => exact (measurable_from_top (f := fun n : ℕ => (n : ℝ))).comp Nat.measurable_floor)
    convert h using 2 with i
    cases i <;> rfl

end Verif.Model
