import Verif.Props.Exchange
import Verif.Props.LabelTable
import Mathlib.Probability.Moments.Basic
import Mathlib.Analysis.Complex.ExponentialBounds

/-!
# C126: how often random labels leave their ranges
-/

namespace Verif.Props
open Verif.Py Verif.Model Verif.Spec Verif.Lemmas MeasureTheory ProbabilityTheory

variable {Ω : Type} [MeasurableSpace Ω] {P : Measure Ω}

/-! ### The tail of the normal distribution -/

theorem upper_tail {t : ℝ} (ht : 0 ≤ t) : gaussianReal 0 1 {z | t ≤ z} ≤ ENNReal.ofReal (Real.exp (-(t ^ 2 / 2))) := by
  have h := measure_ge_le_exp_mul_mgf (μ := gaussianReal 0 1) (X := fun z : ℝ => z) (t := t) t ht (integrable_exp_mul_gaussianReal t)
  rw [mgf_fun_id_gaussianReal, ← Real.exp_add] at h
  rw [show -t * t + (0 * t + ((1 : NNReal) : ℝ) * t ^ 2 / 2) = -(t ^ 2 / 2) by push_cast; ring] at h
  rw [ENNReal.le_ofReal_iff_toReal_le (measure_ne_top _ _) (Real.exp_pos _).le]
  exact h

theorem lower_tail (t : ℝ) : gaussianReal 0 1 {z | z < -t} = gaussianReal 0 1 {z | t < z} := by
  have h : (gaussianReal 0 1).map (fun x : ℝ => -x) = gaussianReal 0 1 := by
    rw [gaussianReal_map_neg, neg_zero]
  conv_lhs => rw [← h]
  rw [Measure.map_apply (by fun_prop) (measurableSet_lt (by fun_prop) (by fun_prop))]
  congr 1
  ext z
  simp

theorem two_tails {t : ℝ} (ht : 0 ≤ t) : gaussianReal 0 1 {z | t < |z|} ≤ ENNReal.ofReal (2 * Real.exp (-(t ^ 2 / 2))) := by
  have h1 : gaussianReal 0 1 {z | t < z} ≤ ENNReal.ofReal (Real.exp (-(t ^ 2 / 2))) :=
    (measure_mono fun z (hz : t < z) => hz.le).trans (upper_tail ht)
  have e : {z : ℝ | t < |z|} = {z | t < z} ∪ {z | z < -t} := by
    ext z
    simp only [Set.mem_ofPred_eq, Set.mem_union, lt_abs]
    constructor <;> rintro (h | h) <;> [left; right; left; right] <;> linarith
  rw [e, two_mul, ENNReal.ofReal_add (Real.exp_pos _).le (Real.exp_pos _).le]
  refine (measure_union_le _ _).trans (add_le_add h1 ?_)
  rw [lower_tail]
  exact h1

theorem tail_pos (t : ℝ) : 0 < gaussianReal 0 1 {z | t < z} := by
  rw [pos_iff_ne_zero]
  intro h
  have := gaussianReal_absolutelyContinuous' 0 (v := 1) one_ne_zero h
  rw [show {z : ℝ | t < z} = Set.Ioi t from rfl, Real.volume_Ioi] at this
  exact ENNReal.top_ne_zero this

/-! ### Single values -/

theorem reflected_lower {a b w z : ℝ} (hab : a < b) (hw : 0 < w) :
    reflected a b (a + (b - a) * w * z) ∉ Set.Icc a b ↔ z < -(1 / w) ∨ 2 / w < z := by
  have hs : 0 < b - a := sub_pos.2 hab
  have h1 : z < -(1 / w) ↔ w * z < -1 := by
    rw [← neg_div, lt_div_iff₀ hw, mul_comm]
  have h2 : 2 / w < z ↔ 2 < w * z := by rw [div_lt_iff₀ hw, mul_comm]
  rw [h1, h2, mul_assoc]
  generalize w * z = y
  unfold reflected
  rw [Set.mem_Icc, not_and_or, not_le, not_le]
  constructor
  · intro h
    split_ifs at h with h3 h4
    · rcases h with h | h
      · exfalso; nlinarith
      · left; by_contra hc; nlinarith
    · rcases h with h | h
      · right; by_contra hc; nlinarith
      · exfalso; nlinarith
    · rcases h with h | h <;> exact absurd h (by assumption)
  · rintro (h | h)
    · have : a + (b - a) * y < a := by nlinarith
      rw [if_pos this]
      right; nlinarith
    · have h3 : ¬ a + (b - a) * y < a := by nlinarith
      have h4 : b < a + (b - a) * y := by nlinarith
      rw [if_neg h3, if_pos h4]
      left; nlinarith

theorem reflected_upper {a b w z : ℝ} (hab : a < b) (hw : 0 < w) :
    reflected a b (b + (b - a) * w * z) ∉ Set.Icc a b ↔ 1 / w < z ∨ z < -(2 / w) := by
  have hs : 0 < b - a := sub_pos.2 hab
  have h1 : 1 / w < z ↔ 1 < w * z := by rw [div_lt_iff₀ hw, mul_comm]
  have h2 : z < -(2 / w) ↔ w * z < -2 := by
    rw [← neg_div, lt_div_iff₀ hw, mul_comm]
  rw [h1, h2, mul_assoc]
  generalize w * z = y
  unfold reflected
  rw [Set.mem_Icc, not_and_or, not_le, not_le]
  constructor
  · intro h
    split_ifs at h with h3 h4
    · rcases h with h | h
      · exfalso; nlinarith
      · right; by_contra hc; nlinarith
    · rcases h with h | h
      · left; by_contra hc; nlinarith
      · exfalso; nlinarith
    · rcases h with h | h <;> exact absurd h (by assumption)
  · rintro (h | h)
    · have h3 : ¬ b + (b - a) * y < a := by nlinarith
      have h4 : b < b + (b - a) * y := by nlinarith
      rw [if_neg h3, if_pos h4]
      left; nlinarith
    · have : b + (b - a) * y < a := by nlinarith
      rw [if_pos this]
      right; nlinarith

theorem lower_mass {a b w : ℝ} (hab : a < b) (hw : 0 < w) :
    gaussianReal 0 1 {z | reflected a b (a + (b - a) * w * z) ∈ (Set.Icc a b)ᶜ} =
      gaussianReal 0 1 {z | 1 / w < z} + gaussianReal 0 1 {z | 2 / w < z} := by
  have e : {z : ℝ | reflected a b (a + (b - a) * w * z) ∈ (Set.Icc a b)ᶜ} = {z | z < -(1 / w)} ∪ {z | 2 / w < z} := by
    ext z
    exact reflected_lower hab hw
  have hd : Disjoint {z : ℝ | z < -(1 / w)} {z | 2 / w < z} := by
    rw [Set.disjoint_left]
    intro z (h1 : z < -(1 / w)) (h2 : 2 / w < z)
    have : 0 < 1 / w := by positivity
    have : 0 < 2 / w := by positivity
    linarith
  rw [e, measure_union hd (measurableSet_lt measurable_const measurable_id), lower_tail]

theorem upper_mass {a b w : ℝ} (hab : a < b) (hw : 0 < w) :
    gaussianReal 0 1 {z | reflected a b (b + (b - a) * w * z) ∈ (Set.Icc a b)ᶜ} =
      gaussianReal 0 1 {z | 1 / w < z} + gaussianReal 0 1 {z | 2 / w < z} := by
  have e : {z : ℝ | reflected a b (b + (b - a) * w * z) ∈ (Set.Icc a b)ᶜ} = {z | 1 / w < z} ∪ {z | z < -(2 / w)} := by
    ext z
    exact reflected_upper hab hw
  have hd : Disjoint {z : ℝ | 1 / w < z} {z | z < -(2 / w)} := by
    rw [Set.disjoint_left]
    intro z (h1 : 1 / w < z) (h2 : z < -(2 / w))
    have : 0 < 1 / w := by positivity
    have : 0 < 2 / w := by positivity
    linarith
  rw [e, measure_union hd (measurableSet_lt measurable_id measurable_const), lower_tail]

/-- C126: how likely a value of bolstered sampling is outside its limits, exactly: `n` times the probability is `2 m (Q(1 / w) + Q(2 / w))`,
where `m` is half the documented fraction of the `n` values (rounded down), `w` the width and `Q(t)` the probability that a standard normal
number exceeds `t`. The limits have no influence on it. -/
theorem C126_value (C : Chance Ω P) (a b : ℝ) (hab : a < b) (f w : ℝ) (h0 : 0 ≤ f) (h1 : f ≤ 1) (hw : 0 < w) (n k : ℕ) :
    ∃ x : Fin n → Ω → ℝ, (∀ i, Measurable (x i)) ∧
      (∀ ω, ∃ g', sampleDistribution C.rng.toRng n a b ⟨.bolstered, some f, some w⟩ (ω, k) = .ok (List.ofFn fun i => x i ω, g')) ∧
      ∀ i : Fin n, n * P {ω | ¬ (a ≤ x i ω ∧ x i ω ≤ b)} =
        2 * ⌊(n : ℝ) * f / 2⌋₊ * (gaussianReal 0 1 {z | 1 / w < z} + gaussianReal 0 1 {z | 2 / w < z}) := by
  obtain ⟨x, hx, h, hl⟩ := C125_value C a b hab.le f w h0 h1 hw.le n k
  refine ⟨x, hx, h, fun i => ?_⟩
  have := hl i (Set.Icc a b)ᶜ measurableSet_Icc.compl
  have hu : volume {y : ℝ | y ∈ Set.Ico (0 : ℝ) 1 ∧ a + (b - a) * y ∈ (Set.Icc a b)ᶜ} = 0 := by
    have : {y : ℝ | y ∈ Set.Ico (0 : ℝ) 1 ∧ a + (b - a) * y ∈ (Set.Icc a b)ᶜ} = ∅ := by
      refine Set.eq_empty_iff_forall_notMem.2 fun y ⟨hy, hn⟩ => hn ?_
      have hs : 0 < b - a := sub_pos.2 hab
      constructor <;> nlinarith [hy.1, hy.2]
    rw [this, measure_empty]
  rw [lower_mass hab hw, upper_mass hab hw, hu, mul_zero, add_zero, ← add_mul, ← two_mul] at this
  exact this

/-- C126: this probability is at most `f (exp(-1 / (2 w²)) + exp(-2 / w²))`, and it is not zero if there are normally distributed values at
all. -/
theorem C126_value_bounds (C : Chance Ω P) (a b : ℝ) (hab : a < b) (f w : ℝ) (h0 : 0 ≤ f) (h1 : f ≤ 1) (hw : 0 < w) (n k : ℕ)
    (x : Fin n → Ω → ℝ)
    (hx : ∀ ω, ∃ g', sampleDistribution C.rng.toRng n a b ⟨.bolstered, some f, some w⟩ (ω, k) = .ok (List.ofFn fun i => x i ω, g')) (i : Fin n) :
    P {ω | ¬ (a ≤ x i ω ∧ x i ω ≤ b)} ≤ ENNReal.ofReal (f * (Real.exp (-(1 / (2 * w ^ 2))) + Real.exp (-(2 / w ^ 2)))) ∧
    (2 ≤ n * f → 0 < P {ω | ¬ (a ≤ x i ω ∧ x i ω ≤ b)}) := by
  obtain ⟨y, -, hy, hP⟩ := C126_value C a b hab f w h0 h1 hw n k
  have e : ∀ ω i, x i ω = y i ω := by
    intro ω
    obtain ⟨g1, e1⟩ := hx ω
    obtain ⟨g2, e2⟩ := hy ω
    rw [e1] at e2
    have := (Prod.mk.inj (Except.ok.inj e2)).1
    exact congrFun (List.ofFn_injective this)
  simp only [e]
  have hi := hP i
  have hn : (n : ENNReal) ≠ 0 := by
    have := i.2
    exact_mod_cast (by omega : n ≠ 0)
  have hn' : (n : ENNReal) ≠ ⊤ := ENNReal.natCast_ne_top n
  have hnr : (0 : ℝ) < n := by exact_mod_cast (by have := i.2; omega : 0 < n)
  constructor
  · have q1 : gaussianReal 0 1 {z | 1 / w < z} ≤ ENNReal.ofReal (Real.exp (-(1 / (2 * w ^ 2)))) := by
      refine (measure_mono fun z (hz : 1 / w < z) => hz.le).trans ((upper_tail (by positivity)).trans (le_of_eq ?_))
      congr 3
      field_simp
    have q2 : gaussianReal 0 1 {z | 2 / w < z} ≤ ENNReal.ofReal (Real.exp (-(2 / w ^ 2))) := by
      refine (measure_mono fun z (hz : 2 / w < z) => hz.le).trans ((upper_tail (by positivity)).trans (le_of_eq ?_))
      congr 3
      ring
    have hm : (2 * ⌊(n : ℝ) * f / 2⌋₊ : ENNReal) ≤ n * ENNReal.ofReal f := by
      have h := Nat.floor_le (a := (n : ℝ) * f / 2) (by positivity)
      have : ((2 * ⌊(n : ℝ) * f / 2⌋₊ : ℕ) : ℝ) ≤ n * f := by push_cast; linarith
      have := ENNReal.ofReal_le_ofReal this
      rw [ENNReal.ofReal_natCast, ENNReal.ofReal_mul hnr.le, ENNReal.ofReal_natCast] at this
      exact_mod_cast this
    refine (ENNReal.mul_le_mul_iff_right hn hn').1 ?_
    rw [hi, ENNReal.ofReal_mul h0, ENNReal.ofReal_add (Real.exp_pos _).le (Real.exp_pos _).le, ← mul_assoc]
    exact mul_le_mul' hm (add_le_add q1 q2)
  · intro h2
    have hm : 1 ≤ ⌊(n : ℝ) * f / 2⌋₊ := Nat.le_floor (by push_cast; linarith)
    rw [pos_iff_ne_zero]
    intro hz
    rw [hz, mul_zero] at hi
    have := hi.symm
    rw [mul_eq_zero, mul_eq_zero, add_eq_zero] at this
    rcases this with (h | h) | h
    · exact two_ne_zero h
    · have : ⌊(n : ℝ) * f / 2⌋₊ = 0 := by exact_mod_cast h
      omega
    · exact (tail_pos _).ne' h.1

/-! ### Whole tables -/

/-- The random numbers with the normal ones cut off at `t` and `-t`. -/
noncomputable def clipped (C : Chance Ω P) (t : ℝ) : Rng (Ω × ℕ) :=
  { C.rng.toRng with
    normal := fun m s n g => ((List.range n).map fun (i : ℕ) => m + s * max (-t) (min t (C.z (g.2 + i) g.1)), (g.1, g.2 + n)) }

theorem clipped_ok (C : Chance Ω P) (t : ℝ) : (clipped C t).Ok where
  uniform_length := C.rng_ok.toOk.uniform_length
  uniform_mem := C.rng_ok.toOk.uniform_mem
  normal_length m s n g := by simp [clipped]
  shuffle_perm := C.rng_ok.toOk.shuffle_perm

theorem clipped_bounded (C : Chance Ω P) {t : ℝ} (ht : 0 ≤ t) : (clipped C t).NormalBounded t := by
  intro m s n g hs x hx
  simp only [clipped, List.mem_map] at hx
  obtain ⟨i, -, rfl⟩ := hx
  rw [add_sub_cancel_left, abs_mul, abs_of_nonneg hs, mul_comm]
  refine mul_le_mul_of_nonneg_right (abs_le.2 ⟨le_max_left _ _, max_le (by linarith) (min_le_left _ _)⟩) hs

/-- Two computations agree, and keep within `N` numbers, if the next `N` normal numbers are between `-t` and `t`. -/
def Agree (C : Chance Ω P) (t : ℝ) (N : ℕ) {α : Type} (post : α → Prop) (m m' : Rand (Ω × ℕ) α) : Prop :=
  ∀ ω k, (∀ j < N, |C.z (k + j) ω| ≤ t) → m' (ω, k) = m (ω, k) ∧
    ∀ b g', m (ω, k) = .ok (b, g') → g'.1 = ω ∧ k ≤ g'.2 ∧ g'.2 ≤ k + N ∧ post b

variable {C : Chance Ω P} {t : ℝ}

theorem Agree.fail {α : Type} {post : α → Prop} (e : PyErr) (N : ℕ) : Agree C t N post (Rand.fail e) (Rand.fail e) :=
  fun _ _ _ => ⟨rfl, fun _ _ h => (Rand.fail_ok.1 h).elim⟩

theorem Agree.pure {α : Type} {post : α → Prop} {a : α} (h : post a) (N : ℕ) :
    Agree C t N post (Pure.pure a) (Pure.pure a) := by
  intro ω k _
  refine ⟨rfl, fun b g' hb => ?_⟩
  cases Rand.pure_ok.1 hb
  exact ⟨rfl, le_rfl, Nat.le_add_right _ _, h⟩

theorem Agree.ofRes {α : Type} {post : α → Prop} {x : Res α} (h : ∀ a, x = .ok a → post a) (N : ℕ) :
    Agree C t N post (Rand.ofRes x) (Rand.ofRes x) := by
  intro ω k _
  refine ⟨rfl, fun b g' hb => ?_⟩
  obtain ⟨h1, h2⟩ := Rand.ofRes_ok.1 hb
  simp only at h1 h2
  subst h2
  exact ⟨rfl, le_rfl, Nat.le_add_right _ _, h _ h1⟩

theorem Agree.mono {α : Type} {post post' : α → Prop} {N N' : ℕ} {m m' : Rand (Ω × ℕ) α} (h : Agree C t N post m m') (hN : N ≤ N')
    (hp : ∀ a, post a → post' a) : Agree C t N' post' m m' := by
  intro ω k hz
  obtain ⟨h1, h2⟩ := h ω k fun j hj => hz j (by omega)
  refine ⟨h1, fun b g' hb => ?_⟩
  obtain ⟨a, b, c, d⟩ := h2 b g' hb
  exact ⟨a, b, by omega, hp _ d⟩

theorem Agree.bind {α β : Type} {p : α → Prop} {q : β → Prop} {N M : ℕ} {m m' : Rand (Ω × ℕ) α} {r r' : α → Rand (Ω × ℕ) β}
    (h : Agree C t N p m m') (hr : ∀ a, p a → Agree C t M q (r a) (r' a)) : Agree C t (N + M) q (m >>= r) (m' >>= r') := by
  intro ω k hz
  obtain ⟨h1, h2⟩ := h ω k fun j hj => hz j (by omega)
  show (m' (ω, k) >>= fun x => r' x.1 x.2) = (m (ω, k) >>= fun x => r x.1 x.2) ∧
    ∀ b g', (m (ω, k) >>= fun x => r x.1 x.2) = .ok (b, g') → _
  rw [h1]
  cases hm : m (ω, k) with
  | error e => exact ⟨rfl, fun b g' hb => by cases hb⟩
  | ok x =>
    obtain ⟨a, g⟩ := x
    obtain ⟨e1, e2, e3, e4⟩ := h2 a g hm
    obtain ⟨ω', k'⟩ := g
    simp only at e1 e2 e3
    subst e1
    obtain ⟨h3, h4⟩ := hr a e4 ω' k' fun j hj => by
      have := hz (k' - k + j) (by omega)
      rwa [show k + (k' - k + j) = k' + j by omega] at this
    refine ⟨h3, fun b g' hb => ?_⟩
    obtain ⟨f1, f2, f3, f4⟩ := h4 b g' hb
    exact ⟨f1, by omega, by omega, f4⟩

theorem agree_uniform (a b : ℝ) (n : Int) :
    Agree C t n.toNat (fun l => (l.length : Int) = n) (drawUniform C.rng.toRng a b n) (drawUniform (clipped C t) a b n) := by
  intro ω k _
  refine ⟨rfl, fun l g' h => ?_⟩
  unfold drawUniform at h
  split_ifs at h with hn
  have := Except.ok.inj h
  simp only [Chance.rng, Prod.mk.injEq] at this
  obtain ⟨rfl, rfl⟩ := this
  simp only [List.length_map, List.length_range]
  exact ⟨trivial, by omega, by omega, by omega⟩

theorem agree_normal (a s : ℝ) (n : Int) :
    Agree C t n.toNat (fun l => (l.length : Int) = n) (drawNormal C.rng.toRng a s n) (drawNormal (clipped C t) a s n) := by
  intro ω k hz
  unfold drawNormal
  split_ifs with hn
  · exact ⟨rfl, fun l g' h => by cases h⟩
  · constructor
    · simp only [clipped, Chance.rng]
      congr 2
      refine List.map_congr_left fun i hi => ?_
      have := abs_le.1 (hz i (List.mem_range.1 hi))
      rw [min_eq_right this.2, max_eq_right this.1]
    · intro l g' h
      have := Except.ok.inj h
      simp only [Chance.rng, Prod.mk.injEq] at this
      obtain ⟨rfl, rfl⟩ := this
      simp only [List.length_map, List.length_range]
      exact ⟨trivial, by omega, by omega, by omega⟩

theorem agree_shuffle (l : List ℝ) :
    Agree C t 1 (fun _ => True) (drawShuffle C.rng.toRng l) (drawShuffle (clipped C t) l) := by
  intro ω k _
  refine ⟨rfl, fun l' g' h => ?_⟩
  have := Except.ok.inj h
  simp only [Chance.rng, Prod.mk.injEq] at this
  obtain ⟨rfl, rfl⟩ := this
  exact ⟨rfl, by omega, by omega, trivial⟩

theorem agree_distribution (n : Int) (a b : ℝ) (d : DistArgs) :
    Agree C t (n.toNat + 1) (fun _ => True) (sampleDistribution C.rng.toRng n a b d) (sampleDistribution (clipped C t) n a b d) := by
  obtain ⟨kind, fr, wd⟩ := d
  cases kind with
  | uniform => exact (agree_uniform a b n).mono (by omega) fun _ _ => trivial
  | other => exact .fail _ _
  | logarithmic =>
    unfold sampleDistribution logDistribution
    simp only
    split_ifs
    · exact .fail _ _
    · exact (agree_uniform _ _ n).bind fun l _ => .pure trivial _
  | bolstered =>
    unfold sampleDistribution
    cases fr with
    | none => exact .fail _ _
    | some f =>
      cases wd with
      | none => exact .fail _ _
      | some w =>
        simp only
        unfold bolstered
        simp only
        by_cases hb : 0 ≤ nBolster n f ∧ 0 ≤ n - 2 * nBolster n f
        · refine Agree.mono ((agree_uniform _ _ _).bind fun u _ => (agree_normal _ _ _).bind fun l _ => (agree_normal _ _ _).bind fun v _ =>
            agree_shuffle _) (by omega) fun _ h => h
        · have key : ∀ (rng : Rng (Ω × ℕ)) (ω : Ω) (k : ℕ), ((do
              let uniform ← drawUniform rng a b (n - 2 * nBolster n f)
              let lower ← drawNormal rng a ((b - a) * w) (nBolster n f)
              let upper ← drawNormal rng b ((b - a) * w) (nBolster n f)
              drawShuffle rng (lower.map (foldValue a b) ++ uniform ++ upper.map (foldValue a b)) : Rand (Ω × ℕ) (List ℝ))) (ω, k) =
                .error .valueError := by
            intro rng ω k
            rw [not_and_or, not_le, not_le] at hb
            by_cases hu : n - 2 * nBolster n f < 0
            · have : drawUniform rng a b (n - 2 * nBolster n f) = Rand.fail .valueError := by
                funext g
                unfold drawUniform
                rw [if_pos hu]
                rfl
              rw [this]
              rfl
            · have hb : nBolster n f < 0 := hb.resolve_right hu
              have e1 : drawNormal rng a ((b - a) * w) (nBolster n f) = Rand.fail .valueError := by
                funext g
                unfold drawNormal
                rw [if_pos (Or.inl hb)]
                rfl
              have e2 : drawUniform rng a b (n - 2 * nBolster n f) = fun g => .ok (rng.uniform a b (n - 2 * nBolster n f).toNat g) := by
                funext g
                unfold drawUniform
                rw [if_neg hu]
              rw [e1, e2]
              rfl
          intro ω k _
          rw [key, key]
          exact ⟨rfl, fun b g' h => by cases h⟩

theorem agree_sample (n : ℕ) (d : DistArgs) (p : Param ℝ) :
    Agree C t (2 * (n + 1)) (fun l => l.length = n) (p.sample C.rng.toRng n d) (p.sample (clipped C t) n d) := by
  have H : Agree C t (2 * (n + 1)) (fun _ => True) (p.sample C.rng.toRng n d) (p.sample (clipped C t) n d) := by
    have hd : ∀ a b, Agree C t (n + 1) (fun _ => True) (sampleDistribution C.rng.toRng n a b d) (sampleDistribution (clipped C t) n a b d) :=
      fun a b => agree_distribution (n : Int) a b d
    cases p with
    | const v nm =>
      unfold Param.sample
      simp only
      split_ifs
      · exact .fail _ _
      · exact .pure trivial _
    | range a b nm =>
      unfold Param.sample
      simp only
      split_ifs
      · split
        · exact Agree.mono ((hd _ _).bind (M := 0) fun l _ => .pure trivial _) (by omega) fun _ h => h
        · exact .fail _ _
      · exact Agree.mono ((hd _ _).bind fun l _ => (hd _ _).bind (M := 0) fun l' _ => .pure trivial _) (by omega) fun _ h => h
  intro ω k hz
  obtain ⟨h1, h2⟩ := H ω k hz
  refine ⟨h1, fun b g' hb => ?_⟩
  obtain ⟨a1, a2, a3, -⟩ := h2 b g' hb
  exact ⟨a1, a2, a3, by exact_mod_cast sample_length C.rng_ok.toOk hb⟩

theorem agree_adjust (d : DistArgs) (mn mx x r : ℝ) :
    Agree C t 2 (fun _ => True) (adjustRoughness C.rng.toRng d mn mx x r) (adjustRoughness (clipped C t) d mn mx x r) := by
  unfold adjustRoughness
  split_ifs
  · exact .pure trivial _
  · exact .pure trivial _
  · refine Agree.bind (M := 0) (agree_distribution 1 mn (maxRoughness x) d) fun l _ => ?_
    split
    · exact .pure trivial _
    · exact .fail _ _

theorem agree_adjusts (d : DistArgs) (mn mx : ℝ) : ∀ (ts rs : List ℝ),
    Agree C t (2 * ts.length) (fun _ => True) (adjustRoughnesses C.rng.toRng d mn mx ts rs) (adjustRoughnesses (clipped C t) d mn mx ts rs)
  | [], rs => .pure trivial _
  | _ :: _, [] => .fail _ _
  | x :: ts, r :: rs => by
    unfold adjustRoughnesses
    refine Agree.mono ((agree_adjust d mn mx x r).bind fun v _ => (agree_adjusts d mn mx ts rs).bind (M := 0) fun l _ => .pure trivial _)
      (by simp only [List.length_cons]; omega) fun _ h => h

theorem agree_roughness (d : DistArgs) (p : Param ℝ) (ts : List (Num ℝ)) :
    Agree C t (4 * ts.length + 2) (fun _ => True) (generateRoughness C.rng.toRng d p ts) (generateRoughness (clipped C t) d p ts) := by
  unfold generateRoughness
  refine Agree.mono ((agree_sample ts.length d p).bind fun rs _ => (Agree.ofRes (post := fun l => l.length = ts.length) (fun l hl => ?_) 0).bind
    fun l hl => (Agree.ofRes (post := fun _ => True) (fun _ _ => trivial) 0).bind (M := 2 * ts.length) (q := fun _ => True) fun l' _ => ?_)
      (by omega) fun _ h => h
  · have := asReals_ok hl
    rw [this, List.length_map]
  · split
    · rw [← hl]
      exact (agree_adjusts d _ _ l l').bind (M := 0) fun _ _ => .pure trivial _
    · exact .fail _ _

theorem agree_step (n : ℕ) (d : DistArgs) (f : Frame (Num ℝ)) (l : LayerV ℝ) :
    Agree C t (8 * n + 6) (fun _ => True) (labelStep C.rng.toRng n d f l) (labelStep (clipped C t) n d f l) := by
  unfold labelStep
  split
  · exact .fail _ _
  · refine Agree.mono ((agree_sample n d _).bind (M := 6 * n + 4) fun v _ => ?_) (by omega) fun _ h => h
    split
    · refine Agree.mono ((agree_sample n d _).bind (M := 4 * n + 2) fun tv htv => ?_) (by omega) fun _ h => h
      rw [← htv]
      exact (agree_roughness d _ tv).bind (M := 0) fun _ _ => .pure trivial _
    · exact .fail _ _
    · exact Agree.mono ((agree_sample n d _).bind (M := 0) fun _ _ => .pure trivial _) (by omega) fun _ h => h
    · exact .pure trivial _

theorem agree_loop (n : ℕ) (d : DistArgs) : ∀ (ls : List (LayerV ℝ)) (f : Frame (Num ℝ)),
    Agree C t (ls.length * (8 * n + 6)) (fun _ => True) (labelLoop C.rng.toRng n d f ls) (labelLoop (clipped C t) n d f ls)
  | [], f => .pure trivial _
  | l :: ls, f => by
    unfold labelLoop
    refine Agree.mono ((agree_step n d f l).bind fun f' _ => agree_loop n d ls f') (le_of_eq ?_) fun _ h => h
    simp only [List.length_cons]
    ring

theorem agree_table (s : SampleV ℝ) (n : ℕ) (d : DistArgs) :
    Agree C t ((s.layers.length + 2) * (8 * n + 6)) (fun _ => True) (generateRandomLabels C.rng.toRng s n d)
      (generateRandomLabels (clipped C t) s n d) := by
  unfold generateRandomLabels
  split_ifs
  · refine Agree.mono ((Agree.ofRes (post := fun _ => True) (fun _ _ => trivial) 0).bind fun _ _ => (agree_loop n d s.structure_ []).bind
      fun _ _ => Agree.ofRes (post := fun _ => True) (fun _ _ => trivial) 0) (le_of_eq ?_) fun _ h => h
    simp [SampleV.structure_]
  · exact .fail _ _

theorem realParam_ordered {p : Param ℝ} (h : RealParam p) : Ordered p := by
  cases p with
  | const c nm => trivial
  | range a b nm =>
    obtain ⟨x, y, h1, h2, h3⟩ := h
    simp only [Param.min, Param.max] at h1 h2
    subst h1 h2
    exact ⟨h3, le_refl _⟩

theorem drawable_ordered {p : Param ℝ} (h : Drawable p) : Ordered p := by
  cases p with
  | const c nm => trivial
  | range a b nm => exact ⟨h.1, h.2.1⟩

/-- With bounded normal numbers the table is within its ranges. -/
theorem within_of_tame {G : Type} {rng : Rng G} (ok : rng.Ok) {s : SampleV ℝ} (hs : SampleRegular s) (hn : (partNames s).Nodup)
    (hl : ∀ l ∈ s.structure_, LayerDrawable l) {n : ℕ} {d : DistArgs} (ht : Tame rng d) {g g' : G} {f : Frame (Num ℝ)}
    (h : generateRandomLabels rng s n d g = .ok (f, g')) : TableWithin s n f := by
  obtain ⟨-, -, -, hr⟩ := C17_label_table ok s hs hn n d g g' f h
  rw [Int.toNat_natCast] at hr
  have hl' : ∀ l ∈ s.substrate :: s.layers ++ [s.ambient], LayerDrawable l := by
    intro l hm
    exact hl l (by simpa [SampleV.structure_] using hm)
  have film : ∀ l ∈ s.layers, ∀ q, l.roughness = some q → ∃ p, l.thickness = some p ∧ ∃ ts rs,
      f.get (l.name ++ "_thickness".toList) = .ok ts ∧ ts.length = n ∧ (∀ v ∈ ts, InRange p v) ∧
      f.get (l.name ++ "_roughness".toList) = .ok rs ∧ rs.length = n ∧
        List.Forall₂ (fun t v => InRange q v ∧ RoughBound q t v) ts rs := by
    intro l hm q hq
    have hm' : l ∈ s.substrate :: s.layers ++ [s.ambient] := by simp [hm]
    obtain ⟨p, hp, -⟩ := (hs.layers l hm).thickness
    obtain ⟨ts, rs, h1, h2, h3, h4, -, h5⟩ := (hr l hm').film p q hp hq
    exact ⟨p, hp, ts, rs, h1, h2.1, h2.2.1 (Or.inr ⟨ht, fun _ => realParam_ordered ((hl' l hm').thickness p hp)⟩), h3, h4, h5 (Or.inr ht)⟩
  constructor
  · intro l hm p hp
    obtain ⟨col, h1, h2⟩ := (hr l hm).sld p hp
    exact ⟨col, h1, h2.1, h2.2.1 (Or.inr ⟨ht, fun _ => drawable_ordered ((hl' l hm).sld p hp)⟩)⟩
  · intro l hm q hq
    rcases List.mem_cons.1 hm with rfl | hm
    · have hm' : s.substrate ∈ s.substrate :: s.layers ++ [s.ambient] := by simp
      obtain ⟨col, h1, h2⟩ := (hr _ hm').substrate q hs.substrate.thickness hq
      exact ⟨col, h1, h2.1, h2.2.1 (Or.inr ⟨ht, fun _ => realParam_ordered ((hl' _ hm').roughness q hq)⟩)⟩
    · obtain ⟨p, -, ts, rs, -, h2, -, h4, h5, h6⟩ := film l hm q hq
      refine ⟨rs, h4, h5, fun v hv => ?_⟩
      obtain ⟨i, hi, rfl⟩ := List.getElem_of_mem hv
      exact ((List.forall₂_iff_get.1 h6).2 i (by omega) hi).1
  · intro l hm p hp
    obtain ⟨q, hq, -⟩ := (hs.layers l hm).roughness
    obtain ⟨p', hp', ts, rs, h1, h2, h3, -⟩ := film l hm q hq
    rw [hp] at hp'
    cases hp'
    exact ⟨ts, h1, h2, h3⟩
  · intro l hm q hq
    obtain ⟨p, -, ts, rs, h1, h2, -, h4, h5, h6⟩ := film l hm q hq
    refine ⟨ts, rs, h1, h4, fun i t v hi hv => ?_⟩
    obtain ⟨a, ha⟩ := List.getElem?_eq_some_iff.1 hi
    obtain ⟨b, hb⟩ := List.getElem?_eq_some_iff.1 hv
    have := (List.forall₂_iff_get.1 h6).2 i a b
    simp only [List.get_eq_getElem] at this
    rw [ha, hb] at this
    exact this.2

theorem excess (C : Chance Ω P) {t : ℝ} (ht : 0 ≤ t) (k N : ℕ) :
    P {ω | ∃ j < N, t < |C.z (k + j) ω|} ≤ N * ENNReal.ofReal (2 * Real.exp (-(t ^ 2 / 2))) := by
  have e : {ω | ∃ j < N, t < |C.z (k + j) ω|} = ⋃ j ∈ Finset.range N, {ω | t < |C.z (k + j) ω|} := by
    ext ω
    simp
  rw [e]
  refine (measure_biUnion_finset_le _ _).trans ?_
  have : ∀ j ∈ Finset.range N, P {ω | t < |C.z (k + j) ω|} ≤ ENNReal.ofReal (2 * Real.exp (-(t ^ 2 / 2))) := by
    intro j _
    have h := two_tails ht
    rw [← C.z_law (k + j), Measure.map_apply (C.z_measurable _) (measurableSet_lt measurable_const (by fun_prop))] at h
    exact h
  refine (Finset.sum_le_sum this).trans ?_
  simp

/-- C126: the table of random labels for the bolstered distribution is within its ranges up to a small probability: at most
`2 (8 n + 6) (L + 2) exp(-1 / (2 w²))` for `n` rows, `L` layers and the width `w`. Within its ranges means: every value is in the range of its
parameter, and no roughness exceeds half the thickness of its layer in the same row (or the lower limit of the roughness). -/
theorem C126_table (C : Chance Ω P) (s : SampleV ℝ) (hs : SampleRegular s) (hn : (partNames s).Nodup)
    (hl : ∀ l ∈ s.structure_, LayerDrawable l) (n : ℕ) (hpos : 0 < n) (f w : ℝ) (h0 : 0 ≤ f) (h1 : f ≤ 1) (hw : 0 < w) (k : ℕ) :
    ∃ T : Ω → Frame (Num ℝ), (∀ ω, ∃ g', generateRandomLabels C.rng.toRng s n ⟨.bolstered, some f, some w⟩ (ω, k) = .ok (T ω, g')) ∧
      P {ω | ¬ TableWithin s n (T ω)} ≤
        ENNReal.ofReal (2 * ((8 * n + 6) * (s.layers.length + 2)) * Real.exp (-(1 / (2 * w ^ 2)))) := by
  have hd : DistValid ⟨.bolstered, some f, some w⟩ := Or.inr ⟨rfl, f, w, rfl, rfl, h0, h1, hw.le⟩
  choose T g' hT using fun ω => C17_returns C.rng_ok.toOk s hs hn hl n (by exact_mod_cast hpos) _ hd (ω, k)
  refine ⟨T, fun ω => ⟨_, hT ω⟩, ?_⟩
  have ht : (0 : ℝ) ≤ 1 / w := by positivity
  have hT' : Tame (clipped C (1 / w)) ⟨.bolstered, some f, some w⟩ := by
    intro _
    refine ⟨1 / w, clipped_bounded C ht, ht, ?_⟩
    rintro v ⟨⟩
    rw [one_div_mul_cancel hw.ne']
  refine (measure_mono fun ω (hω : ¬ TableWithin s n (T ω)) => ?_).trans ((excess C ht k ((s.layers.length + 2) * (8 * n + 6))).trans (le_of_eq ?_))
  · by_contra hc
    simp only [Set.mem_ofPred_eq, not_exists, not_and, not_lt] at hc
    have := (agree_table (t := 1 / w) s n ⟨.bolstered, some f, some w⟩ ω k hc).1
    rw [hT ω] at this
    exact hω (within_of_tame (clipped_ok C _) hs hn hl hT' this)
  · rw [← ENNReal.ofReal_natCast, ← ENNReal.ofReal_mul (Nat.cast_nonneg _)]
    congr 1
    rw [show (1 / w) ^ 2 / 2 = 1 / (2 * w ^ 2) by field_simp]
    push_cast
    ring

theorem exp_fifty : Real.exp (-50) ≤ 1 / 5 / 10 ^ 21 := by
  have h : (5 * 10 ^ 21 : ℝ) ≤ Real.exp 50 := by
    have h1 := Real.exp_one_gt_d9
    have : Real.exp 50 = Real.exp 1 ^ 50 := by rw [← Real.exp_nat_mul]; norm_num
    rw [this]
    calc (5 * 10 ^ 21 : ℝ) ≤ 2.718 ^ 50 := by norm_num
      _ ≤ Real.exp 1 ^ 50 := pow_le_pow_left₀ (by norm_num) (by linarith) 50
  rw [Real.exp_neg, div_div, one_div]
  exact inv_anti₀ (by norm_num) h

/-- C126 for the default settings of `generate_random_labels`: up to a million rows and ten layers, the probability that the table leaves its
ranges anywhere is less than `10⁻¹³`. -/
theorem C126_default (C : Chance Ω P) (s : SampleV ℝ) (hs : SampleRegular s) (hn : (partNames s).Nodup)
    (hl : ∀ l ∈ s.structure_, LayerDrawable l) (n : ℕ) (hpos : 0 < n) (hn6 : n ≤ 1000000) (hL : s.layers.length ≤ 10) (k : ℕ)
    (T : Ω → Frame (Num ℝ))
    (hT : ∀ ω, ∃ g', generateRandomLabels C.rng.toRng s n ⟨.bolstered, some 0.15, some 0.1⟩ (ω, k) = .ok (T ω, g')) :
    P {ω | ¬ TableWithin s n (T ω)} ≤ ENNReal.ofReal (1 / 10 ^ 13) := by
  obtain ⟨T', hT', h⟩ := C126_table C s hs hn hl n hpos 0.15 0.1 (by norm_num) (by norm_num) (by norm_num) k
  have e : ∀ ω, T ω = T' ω := by
    intro ω
    obtain ⟨g1, e1⟩ := hT ω
    obtain ⟨g2, e2⟩ := hT' ω
    rw [e1] at e2
    exact (Prod.mk.inj (Except.ok.inj e2)).1
  simp only [e]
  refine h.trans (ENNReal.ofReal_le_ofReal ?_)
  have hx : Real.exp (-(1 / (2 * (0.1 : ℝ) ^ 2))) = Real.exp (-50) := by norm_num
  rw [hx]
  have hn' : (n : ℝ) ≤ 1000000 := by exact_mod_cast hn6
  have hL' : (s.layers.length : ℝ) ≤ 10 := by exact_mod_cast hL
  have hA : 2 * ((8 * (n : ℝ) + 6) * (s.layers.length + 2)) ≤ 2 * ((8 * 1000000 + 6) * (10 + 2)) := by gcongr
  calc _ ≤ 2 * ((8 * 1000000 + 6) * (10 + 2)) * (1 / 5 / 10 ^ 21 : ℝ) := mul_le_mul hA exp_fifty (Real.exp_pos _).le (by norm_num)
    _ ≤ _ := by norm_num

theorem exampleTable_regular : SampleRegular exampleTableSample := by
  refine ⟨⟨rfl, rfl, ⟨_, rfl, ⟨rfl, trivial⟩, ?_⟩, ⟨_, rfl, rfl, trivial⟩⟩, ⟨rfl, rfl, rfl, ⟨_, rfl, rfl, trivial⟩⟩, ?_⟩
  · simp only [Param.min, Num.ltZero]; norm_num
  · intro l hl
    simp only [exampleTableSample, List.mem_singleton] at hl
    subst hl
    refine ⟨Or.inl rfl, ⟨_, rfl, ⟨rfl, ?_⟩, ?_⟩, ⟨_, rfl, ⟨rfl, ?_⟩, ?_⟩, ⟨_, rfl, rfl, ?_⟩⟩
    · simp only [ParamValid, Num.ge]; norm_num
    · simp only [Param.min, Num.ltZero]; norm_num
    · simp only [ParamValid, Num.ge]; norm_num
    · simp only [Param.min, Num.ltZero]; norm_num
    · simp only [ParamValid, Num.ge, Num.isNp, Num.re]; norm_num

theorem exampleTable_drawable : ∀ l ∈ exampleTableSample.structure_, LayerDrawable l := by
  intro l hl
  simp only [SampleV.structure_, exampleTableSample, List.cons_append, List.nil_append, List.mem_cons,
    List.not_mem_nil, or_false] at hl
  rcases hl with rfl | rfl | rfl
  · refine ⟨?_, by simp, ?_⟩ <;> rintro p ⟨⟩
    · trivial
    · exact ⟨1, 1, rfl, rfl, le_refl _⟩
  · refine ⟨?_, ?_, ?_⟩ <;> rintro p ⟨⟩
    · exact ⟨by simp [Num.re], by simp [Num.im], Or.inr (Or.inl (by simp [Num.im]))⟩
    · exact ⟨10, 20, rfl, rfl, by norm_num⟩
    · exact ⟨0, 8, rfl, rfl, by norm_num⟩
  · refine ⟨?_, by simp, by simp⟩
    rintro p ⟨⟩
    trivial

/-- The hypotheses of C126 hold for a film with a complex range and a hundred thousand rows. -/
example : ∃ T : (ChanceIdx → ℝ) → Frame (Num ℝ),
    (∀ ω, ∃ g', generateRandomLabels Chance.product.rng.toRng exampleTableSample (100000 : ℕ) ⟨.bolstered, some 0.15, some 0.1⟩ (ω, 0) = .ok (T ω, g')) ∧
    Measure.infinitePi ChanceIdx.law {ω | ¬ TableWithin exampleTableSample 100000 (T ω)} ≤ ENNReal.ofReal (1 / 10 ^ 13) := by
  have hp : (partNames exampleTableSample).Nodup := by simp only [partNames, exampleTableSample]; decide
  obtain ⟨T, hT, -⟩ := C126_table Chance.product exampleTableSample exampleTable_regular hp exampleTable_drawable 100000 (by norm_num) 0.15 0.1
    (by norm_num) (by norm_num) (by norm_num) 0
  exact ⟨T, hT, C126_default Chance.product exampleTableSample exampleTable_regular hp exampleTable_drawable 100000 (by norm_num) (by norm_num)
    (by simp [exampleTableSample]) 0 T hT⟩

end Verif.Props
