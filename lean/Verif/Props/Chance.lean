import Verif.Model.Chance
import Verif.Spec.Chance

/-!
# C122: sampled values follow the documented distributions
-/

namespace Verif.Props
open Verif.Py Verif.Model Verif.Spec MeasureTheory ProbabilityTheory

variable {Ω : Type} [MeasurableSpace Ω] {P : Measure Ω}

theorem chance_u_cdf (C : Chance Ω P) (k : ℕ) {t : ℝ} (ht : t ∈ Set.Icc (0 : ℝ) 1) : P {ω | C.u k ω ≤ t} = ENNReal.ofReal t := by
  have h : P {ω | C.u k ω ≤ t} = (P.map (C.u k)) (Set.Iic t) := by
    rw [Measure.map_apply (C.u_measurable k) measurableSet_Iic]
    rfl
  rw [h, C.u_law, Measure.restrict_apply measurableSet_Iic]
  rcases eq_or_lt_of_le ht.2 with h1 | h1
  · rw [show Set.Iic t ∩ Set.Ico (0 : ℝ) 1 = Set.Ico 0 1 by ext x; simp; intro _ h; linarith, Real.volume_Ico, h1]
    norm_num
  · rw [show Set.Iic t ∩ Set.Ico (0 : ℝ) 1 = Set.Icc 0 t by ext x; simp; constructor <;> intro h <;> (refine ⟨?_, ?_⟩ <;> first | linarith [h.1, h.2] | (try exact ⟨by linarith [h.1], by linarith [h.2]⟩)), Real.volume_Icc,
      sub_zero]

theorem uniform_of_u (C : Chance Ω P) (k : ℕ) {a b : ℝ} (h : a < b) : UniformBetween P (fun ω => a + (b - a) * C.u k ω) a b := by
  intro t ht
  have hb : 0 < b - a := sub_pos.2 h
  have : {ω | a + (b - a) * C.u k ω ≤ t} = {ω | C.u k ω ≤ (t - a) / (b - a)} := by
    ext ω
    simp only [Set.mem_ofPred_eq]
    rw [le_div_iff₀ hb]
    constructor <;> intro h <;> linarith
  rw [this]
  exact chance_u_cdf C k ⟨div_nonneg (sub_nonneg.2 ht.1) hb.le, by rw [div_le_one hb]; linarith [ht.2]⟩

theorem logUniform_of_u (C : Chance Ω P) (k : ℕ) {a b : ℝ} (h0 : 0 < a) (h : a < b) :
    LogUniformBetween P (fun ω => (10 : ℝ) ^ (Real.logb 10 a + (Real.logb 10 b - Real.logb 10 a) * C.u k ω)) a b := by
  intro t ht
  have hl : Real.logb 10 a < Real.logb 10 b := Real.logb_lt_logb (by norm_num) h0 h
  have ht0 : 0 < t := lt_of_lt_of_le h0 ht.1
  have : {ω | (10 : ℝ) ^ (Real.logb 10 a + (Real.logb 10 b - Real.logb 10 a) * C.u k ω) ≤ t} =
      {ω | Real.logb 10 a + (Real.logb 10 b - Real.logb 10 a) * C.u k ω ≤ Real.logb 10 t} := by
    ext ω
    simp only [Set.mem_ofPred_eq]
    rw [Real.le_logb_iff_rpow_le (by norm_num) ht0]
  rw [this, uniform_of_u C k hl (Real.logb 10 t) ⟨Real.logb_le_logb_of_le (by norm_num) h0 ht.1, Real.logb_le_logb_of_le (by norm_num) ht0 ht.2⟩]
  congr 1
  rw [Real.log_div ht0.ne' h0.ne', Real.log_div (h0.trans h).ne' h0.ne']
  unfold Real.logb
  have : Real.log 10 ≠ 0 := (Real.log_pos (by norm_num)).ne'
  rw [← sub_div, ← sub_div, div_div_div_cancel_right₀ this]

theorem drawFrom_measurable (d : DistKind) (a b : ℝ) : Measurable (drawFrom d a b) := by
  unfold drawFrom
  cases d <;> fun_prop

theorem ofFn_range {α : Type} (n : ℕ) (f : ℕ → α) : (List.ofFn fun (i : Fin n) => f i) = (List.range n).map f := by
  apply List.ext_getElem <;> simp

theorem sample_run (C : Chance Ω P) {d : DistArgs} (a b : ℝ) (hd : d.kind = .uniform ∨ d.kind = .logarithmic ∧ 0 < a ∧ 0 < b) (n k : ℕ) (ω : Ω) :
    sampleDistribution C.rng.toRng n a b d (ω, k) =
      .ok ((List.range n).map fun (i : ℕ) => drawFrom d.kind a b (C.u (k + i) ω), (ω, k + n)) := by
  unfold sampleDistribution
  rcases hd with hd | ⟨hd, h0, h1⟩
  · rw [hd]
    simp only [drawUniform]
    rw [if_neg (by omega)]
    rfl
  · rw [hd]
    simp only [logDistribution]
    rw [if_neg (by push Not; exact ⟨h0, h1⟩)]
    rw [Rand.bind_ok]
    refine ⟨_, _, by rw [drawUniform, if_neg (by omega)], ?_⟩
    rw [Rand.pure_ok]
    simp only [Chance.rng, drawFrom, Int.toNat_natCast, List.map_map]
    rfl

/-- What `distribution_type` documents for one value. -/
def DocumentedLaw (P : Measure Ω) (d : DistKind) (X : Ω → ℝ) (a b : ℝ) : Prop :=
  match d with
  | .uniform => UniformBetween P X a b
  | .logarithmic => LogUniformBetween P X a b
  | _ => False

theorem drawFrom_law (C : Chance Ω P) {d : DistKind} {a b : ℝ} (h : a < b) (hd : d = .uniform ∨ d = .logarithmic ∧ 0 < a) (k : ℕ) :
    DocumentedLaw P d (fun ω => drawFrom d a b (C.u k ω)) a b := by
  rcases hd with rfl | ⟨rfl, h0⟩
  · exact uniform_of_u C k h
  · exact logUniform_of_u C k h0 h

/-- C122: the values of `sample_distribution` for `'uniform'` and `'logarithmic'` are independent, and each has the documented
distribution between the two limits. -/
theorem C122_values (C : Chance Ω P) (a b : ℝ) (h : a < b) (d : DistArgs) (hd : d.kind = .uniform ∨ d.kind = .logarithmic ∧ 0 < a) (n k : ℕ) :
    ∃ x : Fin n → Ω → ℝ, (∀ ω, sampleDistribution C.rng.toRng n a b d (ω, k) = .ok (List.ofFn fun (i : Fin n) => x i ω, (ω, k + n))) ∧
      (∀ i, DocumentedLaw P d.kind (x i) a b) ∧ iIndepFun x P := by
  refine ⟨fun i ω => drawFrom d.kind a b (C.u (k + i) ω), fun ω => ?_, fun i => drawFrom_law C h hd _, ?_⟩
  · rw [sample_run C a b (hd.imp_right fun h' => ⟨h'.1, h'.2, h'.2.trans h⟩), ← ofFn_range]
  · have := C.u_indep.precomp (g := fun (i : Fin n) => k + (i : ℕ)) fun i j hij => Fin.ext (Nat.add_left_cancel hij)
    exact this.comp (fun _ => drawFrom d.kind a b) fun _ => drawFrom_measurable _ _ _

theorem chance_prob (C : Chance Ω P) : IsProbabilityMeasure P := C.indep.isProbabilityMeasure

/-! ### Bolstered sampling -/

theorem nBolster_zero {n : ℕ} {f : ℝ} (h0 : 0 ≤ f) (h : n * f < 2) : nBolster n f = 0 := by
  unfold nBolster
  rw [Int.floor_eq_zero_iff]
  have : (0 : ℝ) ≤ n := Nat.cast_nonneg n
  constructor
  · push_cast; positivity
  · push_cast; linarith

/-- C122: bolstered sampling of few values is plain uniform sampling: if `n * bolster_fraction < 2`, no value is drawn around the
limits. This is so for every single value, hence for all roughnesses that `generate_random_labels` draws again. -/
theorem C122_bolstered_few (C : Chance Ω P) (a b : ℝ) (h : a < b) (f w : ℝ) (h0 : 0 ≤ f) (h1 : 0 ≤ w) (n k : ℕ) (hn : n * f < 2) :
    ∃ x : Fin n → Ω → ℝ, (∀ ω, ∃ l, sampleDistribution C.rng.toRng n a b ⟨.bolstered, some f, some w⟩ (ω, k) = .ok (l, (ω, k + n + 1)) ∧
      l.Perm (List.ofFn fun (i : Fin n) => x i ω)) ∧ (∀ i, UniformBetween P (x i) a b) ∧ iIndepFun x P := by
  refine ⟨fun i ω => a + (b - a) * C.u (k + i) ω, fun ω => ⟨_, ?_, C.perm_perm (k + n) ω _⟩, fun i => uniform_of_u C _ h, ?_⟩
  · simp only [sampleDistribution, bolstered, nBolster_zero h0 hn]
    rw [Rand.bind_ok]
    refine ⟨_, _, by rw [drawUniform, if_neg (by omega)], ?_⟩
    rw [Rand.bind_ok]
    refine ⟨_, _, by rw [drawNormal, if_neg (by push Not; exact ⟨le_refl _, mul_nonneg (sub_pos.2 h).le h1⟩)], ?_⟩
    rw [Rand.bind_ok]
    refine ⟨_, _, by rw [drawNormal, if_neg (by push Not; exact ⟨le_refl _, mul_nonneg (sub_pos.2 h).le h1⟩)], ?_⟩
    rw [ofFn_range n (fun i => a + (b - a) * C.u (k + i) ω)]
    simp [drawShuffle, Chance.rng]
  · have := C.u_indep.precomp (g := fun (i : Fin n) => k + (i : ℕ)) fun i j hij => Fin.ext (Nat.add_left_cancel hij)
    exact this.comp (fun _ y => a + (b - a) * y) fun _ => by fun_prop

theorem foldValue_mirror {mn mx : ℝ} (h : mn ≤ mx) (v : ℝ) : foldValue mn mx (mn + mx - v) = mn + mx - foldValue mn mx v := by
  unfold foldValue
  split_ifs <;> linarith

theorem foldValue_measurable (mn mx : ℝ) : Measurable (foldValue mn mx) := by
  unfold foldValue
  refine Measurable.ite measurableSet_Iio (by fun_prop) (Measurable.ite measurableSet_Ioi (by fun_prop) measurable_id)

theorem foldValue_abs (mn mx v : ℝ) : |foldValue mn mx v| ≤ |v| + 2 * |mn| + 2 * |mx| := by
  have h1 := abs_nonneg mn
  have h2 := abs_nonneg mx
  unfold foldValue
  split_ifs
  · rw [show v + 2 * (mn - v) = -v + 2 * mn by ring]
    calc |-v + 2 * mn| ≤ |-v| + |2 * mn| := abs_add_le _ _
      _ = |v| + 2 * |mn| := by rw [abs_neg, abs_mul, abs_two]
      _ ≤ _ := by linarith
  · rw [show v + 2 * (mx - v) = -v + 2 * mx by ring]
    calc |-v + 2 * mx| ≤ |-v| + |2 * mx| := abs_add_le _ _
      _ = |v| + 2 * |mx| := by rw [abs_neg, abs_mul, abs_two]
      _ ≤ _ := by linarith
  · linarith

theorem z_integrable (C : Chance Ω P) (k : ℕ) : Integrable (C.z k) P := by
  have h : Integrable id (P.map (C.z k)) := by
    rw [C.z_law]
    exact (memLp_id_gaussianReal 1).integrable le_rfl
  exact h.comp_measurable (C.z_measurable k)

theorem fold_integrable (C : Chance Ω P) (k : ℕ) (mn mx m s : ℝ) : Integrable (fun ω => foldValue mn mx (m + s * C.z k ω)) P := by
  have := chance_prob C
  have h1 : Integrable (fun ω => |m + s * C.z k ω| + 2 * |mn| + 2 * |mx|) P :=
    ((((integrable_const m).add ((z_integrable C k).const_mul s)).abs.add (integrable_const _)).add (integrable_const _))
  refine h1.mono' ((foldValue_measurable mn mx).comp ((C.z_measurable k).const_mul s |>.const_add m)).aestronglyMeasurable ?_
  exact Filter.Eventually.of_forall fun ω => foldValue_abs mn mx _

theorem fold_mirror_law (C : Chance Ω P) (mn mx s : ℝ) (h : mn ≤ mx) (j k : ℕ) :
    P.map (fun ω => foldValue mn mx (mx + s * C.z j ω)) = P.map (fun ω => mn + mx - foldValue mn mx (mn + s * C.z k ω)) := by
  have e1 : (fun ω => foldValue mn mx (mx + s * C.z j ω)) = (fun y => foldValue mn mx (mx + s * y)) ∘ C.z j := rfl
  have e2 : (fun ω => mn + mx - foldValue mn mx (mn + s * C.z k ω)) = (fun y => foldValue mn mx (mx + s * y)) ∘ (fun y => -y) ∘ C.z k := by
    funext ω
    simp only [Function.comp_apply]
    rw [← foldValue_mirror h]
    congr 1
    ring
  have hm : Measurable fun y => foldValue mn mx (mx + s * y) := (foldValue_measurable mn mx).comp (by fun_prop)
  rw [e1, e2, ← Measure.map_map hm (C.z_measurable j), C.z_law, ← Measure.map_map hm (measurable_neg.comp (C.z_measurable k)),
    ← Measure.map_map measurable_neg (C.z_measurable k), C.z_law]
  congr 1
  have := gaussianReal_map_neg (μ := 0) (v := 1)
  rw [neg_zero] at this
  exact this.symm

theorem nBolster_range {n : ℕ} {f : ℝ} (h0 : 0 ≤ f) (h1 : f ≤ 1) : 0 ≤ nBolster n f ∧ 2 * nBolster n f ≤ n := by
  unfold nBolster
  have hn : (0 : ℝ) ≤ n := Nat.cast_nonneg n
  refine ⟨Int.floor_nonneg.2 (by push_cast; positivity), ?_⟩
  have := Int.floor_le ((((n : ℕ) : Int) : ℝ) * f / 2)
  have h2 : (2 * (⌊(((n : ℕ) : Int) : ℝ) * f / 2⌋ : ℝ)) ≤ n := by
    push_cast at this ⊢
    nlinarith
  exact_mod_cast h2

/-- The values of bolstered sampling before they are shuffled. -/
theorem bolstered_run (C : Chance Ω P) (a b : ℝ) (h : a < b) (f w : ℝ) (h0 : 0 ≤ f) (h1 : f ≤ 1) (hw : 0 ≤ w) (n k : ℕ) (ω : Ω) :
    ∃ l, sampleDistribution C.rng.toRng n a b ⟨.bolstered, some f, some w⟩ (ω, k) = .ok (l, (ω, k + n + 1)) ∧
      l.Perm ((List.range (nBolster n f).toNat).map (fun (i : ℕ) => foldValue a b (a + (b - a) * w * C.z (k + (n - 2 * (nBolster n f).toNat) + i) ω)) ++
        (List.range (n - 2 * (nBolster n f).toNat)).map (fun (i : ℕ) => a + (b - a) * C.u (k + i) ω) ++
        (List.range (nBolster n f).toNat).map
          (fun (i : ℕ) => foldValue a b (b + (b - a) * w * C.z (k + (n - 2 * (nBolster n f).toNat) + (nBolster n f).toNat + i) ω))) := by
  have hb := nBolster_range (n := n) h0 h1
  have hs : ¬ (b - a) * w < 0 := not_lt.2 (mul_nonneg (sub_pos.2 h).le hw)
  have hk : k + (n - 2 * (nBolster n f).toNat) + (nBolster n f).toNat + (nBolster n f).toNat = k + n := by omega
  have ht : ((n : Int) - 2 * nBolster n f).toNat = n - 2 * (nBolster n f).toNat := by omega
  refine ⟨C.perm (k + n) ω _, ?_, C.perm_perm (k + n) ω _⟩
  simp only [sampleDistribution, bolstered]
  rw [Rand.bind_ok]
  refine ⟨_, _, by rw [drawUniform, if_neg (by omega)], ?_⟩
  rw [Rand.bind_ok]
  refine ⟨_, _, by rw [drawNormal, if_neg (by push Not; exact ⟨hb.1, not_lt.1 hs⟩)], ?_⟩
  rw [Rand.bind_ok]
  refine ⟨_, _, by rw [drawNormal, if_neg (by push Not; exact ⟨hb.1, not_lt.1 hs⟩)], ?_⟩
  simp only [drawShuffle, Chance.rng, ht, hk, List.map_map]
  rfl

theorem integral_u (C : Chance Ω P) (k : ℕ) : ∫ ω, C.u k ω ∂P = 1 / 2 := by
  have h : ∫ ω, C.u k ω ∂P = ∫ x, x ∂(P.map (C.u k)) := (integral_map (C.u_measurable k).aemeasurable measurable_id.aestronglyMeasurable).symm
  rw [h, C.u_law, integral_Ico_eq_integral_Ioc, ← intervalIntegral.integral_of_le (by norm_num), integral_id]
  norm_num

theorem u_integrable (C : Chance Ω P) (k : ℕ) : Integrable (C.u k) P := by
  have := chance_prob C
  refine Integrable.of_bound (C.u_measurable k).aestronglyMeasurable 1 (Filter.Eventually.of_forall fun ω => ?_)
  have := C.u_mem k ω
  rw [Real.norm_eq_abs, abs_of_nonneg this.1]
  exact this.2.le

theorem integral_affine_u (C : Chance Ω P) (k : ℕ) (a b : ℝ) : ∫ ω, (a + (b - a) * C.u k ω) ∂P = (a + b) / 2 := by
  have := chance_prob C
  rw [integral_add (integrable_const a) ((u_integrable C k).const_mul _), integral_const_mul, integral_u]
  simp
  ring

theorem integral_fold_pair (C : Chance Ω P) (j k : ℕ) (mn mx s : ℝ) (h : mn ≤ mx) :
    ∫ ω, foldValue mn mx (mn + s * C.z k ω) ∂P + ∫ ω, foldValue mn mx (mx + s * C.z j ω) ∂P = mn + mx := by
  have := chance_prob C
  have m1 : Measurable fun ω => foldValue mn mx (mx + s * C.z j ω) := (foldValue_measurable mn mx).comp ((C.z_measurable j).const_mul s |>.const_add mx)
  have m2 : Measurable fun ω => foldValue mn mx (mn + s * C.z k ω) := (foldValue_measurable mn mx).comp ((C.z_measurable k).const_mul s |>.const_add mn)
  have e : ∫ ω, foldValue mn mx (mx + s * C.z j ω) ∂P = ∫ ω, (mn + mx - foldValue mn mx (mn + s * C.z k ω)) ∂P := by
    have a1 := integral_map (μ := P) m1.aemeasurable (f := fun x : ℝ => x) measurable_id.aestronglyMeasurable
    have a2 := integral_map (μ := P) (m2.const_sub (mn + mx)).aemeasurable (f := fun x : ℝ => x) measurable_id.aestronglyMeasurable
    rw [← a1, ← a2, fold_mirror_law C mn mx s h j k]
  rw [e, integral_sub (integrable_const _) (fold_integrable C k mn mx mn s)]
  simp

theorem integral_list_sum {n : ℕ} {f : ℕ → Ω → ℝ} (h : ∀ i, Integrable (f i) P) :
    Integrable (fun ω => ((List.range n).map fun (i : ℕ) => f i ω).sum) P ∧
      ∫ ω, ((List.range n).map fun (i : ℕ) => f i ω).sum ∂P = ((List.range n).map fun (i : ℕ) => ∫ ω, f i ω ∂P).sum := by
  induction n with
  | zero => simp
  | succ n ih =>
    simp only [List.range_succ, List.map_append, List.sum_append, List.map_cons, List.map_nil, List.sum_singleton]
    exact ⟨ih.1.add (h n), by rw [integral_add ih.1 (h n), ih.2]⟩

/-- C122: bolstered sampling draws `⌊n * bolster_fraction / 2⌋` values around each limit and the others uniformly. The values around the
lower limit all have the same distribution, those around the upper limit have the mirrored distribution, and the mean of the sample is
the centre of the range. -/
theorem C122_bolstered (C : Chance Ω P) (a b : ℝ) (h : a < b) (f w : ℝ) (h0 : 0 ≤ f) (h1 : f ≤ 1) (hw : 0 ≤ w) (n k : ℕ) :
    ∃ (l : Ω → List ℝ) (lo up : Fin ⌊(n : ℝ) * f / 2⌋₊ → Ω → ℝ) (mid : Fin (n - 2 * ⌊(n : ℝ) * f / 2⌋₊) → Ω → ℝ),
      (∀ ω, sampleDistribution C.rng.toRng n a b ⟨.bolstered, some f, some w⟩ (ω, k) = .ok (l ω, (ω, k + n + 1)) ∧
        (l ω).Perm (List.ofFn (fun i => lo i ω) ++ List.ofFn (fun i => mid i ω) ++ List.ofFn fun i => up i ω)) ∧
      (∀ i, UniformBetween P (mid i) a b) ∧ (∀ i j, P.map (lo i) = P.map (lo j)) ∧ (∀ i j, P.map (up i) = P.map fun ω => a + b - lo j ω) ∧
      ∫ ω, (l ω).sum ∂P = n * ((a + b) / 2) := by
  have hfl : ⌊(n : ℝ) * f / 2⌋₊ = (nBolster n f).toNat := by
    unfold nBolster
    rw [Int.floor_toNat]
    push_cast
    rfl
  have hb := nBolster_range (n := n) h0 h1
  rw [hfl]
  have hn2 : 2 * (nBolster n f).toNat ≤ n := by omega
  have hrun := bolstered_run C a b h f w h0 h1 hw n k
  generalize (nBolster n f).toNat = m at hrun hn2
  choose l hl1 hl2 using hrun
  refine ⟨l, fun i ω => foldValue a b (a + (b - a) * w * C.z (k + (n - 2 * m) + i) ω),
    fun i ω => foldValue a b (b + (b - a) * w * C.z (k + (n - 2 * m) + m + i) ω), fun i ω => a + (b - a) * C.u (k + i) ω,
    fun ω => ⟨hl1 ω, ?_⟩, fun i => uniform_of_u C _ h, fun i j => ?_, fun i j => fold_mirror_law C a b _ h.le _ _, ?_⟩
  · refine (hl2 ω).trans (List.Perm.of_eq ?_)
    rw [ofFn_range m fun i => foldValue a b (a + (b - a) * w * C.z (k + (n - 2 * m) + i) ω),
      ofFn_range m fun i => foldValue a b (b + (b - a) * w * C.z (k + (n - 2 * m) + m + i) ω),
      ofFn_range (n - 2 * m) fun i => a + (b - a) * C.u (k + i) ω]
  · have hm : Measurable fun y => foldValue a b (a + (b - a) * w * y) := (foldValue_measurable a b).comp (by fun_prop)
    have e : ∀ q, P.map (fun ω => foldValue a b (a + (b - a) * w * C.z q ω)) = (gaussianReal 0 1).map fun y => foldValue a b (a + (b - a) * w * y) := by
      intro q
      rw [← C.z_law q, Measure.map_map hm (C.z_measurable q)]
      rfl
    rw [e, e]
  · have hsum : ∀ ω, (l ω).sum = ((List.range m).map fun (i : ℕ) => foldValue a b (a + (b - a) * w * C.z (k + (n - 2 * m) + i) ω) +
        foldValue a b (b + (b - a) * w * C.z (k + (n - 2 * m) + m + i) ω)).sum +
        ((List.range (n - 2 * m)).map fun (i : ℕ) => a + (b - a) * C.u (k + i) ω).sum := by
      intro ω
      rw [(hl2 ω).sum_eq, List.sum_append, List.sum_append]
      simp only [List.sum_map_add]
      ring
    have hp := chance_prob C
    have i1 := integral_list_sum (P := P) (n := m) (f := fun i ω => foldValue a b (a + (b - a) * w * C.z (k + (n - 2 * m) + i) ω) +
        foldValue a b (b + (b - a) * w * C.z (k + (n - 2 * m) + m + i) ω)) fun i => (fold_integrable C _ a b _ _).add (fold_integrable C _ a b _ _)
    have i2 := integral_list_sum (P := P) (n := n - 2 * m) (f := fun i ω => a + (b - a) * C.u (k + i) ω) fun i =>
      (integrable_const a).add ((u_integrable C _).const_mul _)
    simp only [hsum]
    rw [integral_add i1.1 i2.1, i1.2, i2.2]
    have e1 : ∀ i, ∫ ω, (foldValue a b (a + (b - a) * w * C.z (k + (n - 2 * m) + i) ω) +
        foldValue a b (b + (b - a) * w * C.z (k + (n - 2 * m) + m + i) ω)) ∂P = a + b := by
      intro i
      rw [integral_add (fold_integrable C _ a b _ _) (fold_integrable C _ a b _ _), integral_fold_pair C _ _ a b _ h.le]
    simp only [e1, integral_affine_u]
    simp only [List.map_const', List.sum_replicate, List.length_range, nsmul_eq_mul]
    rw [Nat.cast_sub hn2]
    push_cast
    ring

end Verif.Props
