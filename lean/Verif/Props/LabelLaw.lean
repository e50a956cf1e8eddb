import Verif.Lemmas.Draws
import Verif.Props.Chance
import Verif.Props.LabelTable

/-!
# C124: the distribution of a table of random labels
-/

namespace Verif.Props
open Verif.Py Verif.Model Verif.Spec Verif.Lemmas MeasureTheory ProbabilityTheory

variable {Ω : Type} [MeasurableSpace Ω] {P : Measure Ω}

/-- For logarithmic sampling: limits are positive. -/
def PositiveParam : Param ℝ → Prop
  | .const _ _ => True
  | .range a b _ => 0 < a.re ∧ (a.im ≠ 0 ∨ b.im ≠ 0 → 0 < a.im)

/-- `'uniform'`, or `'logarithmic'` with positive limits. -/
def KindOk (d : DistKind) (p : Param ℝ) : Prop := d = .uniform ∨ d = .logarithmic ∧ PositiveParam p

theorem sample_run' (C : Chance Ω P) {d : DistArgs} (a b : ℝ) (hd : d.kind = .uniform ∨ d.kind = .logarithmic ∧ 0 < a ∧ 0 < b) (n : ℕ) (g : Ω × ℕ) :
    sampleDistribution C.rng.toRng n a b d g =
      .ok ((List.range n).map fun (i : ℕ) => drawFrom d.kind a b (Chance.stream C g i), (g.1, g.2 + n)) :=
  sample_run C a b hd n g.2 g.1

theorem stream_add (C : Chance Ω P) (g : Ω × ℕ) (n : ℕ) : Chance.stream C (g.1, g.2 + n) = fun j => Chance.stream C g (n + j) := by
  funext j
  simp only [Chance.stream]
  rw [Nat.add_assoc]

theorem const_sample {G : Type} (rng : Rng G) (n : ℕ) (d : DistArgs) (c : Num ℝ) (nm : Option Str) :
    (Param.const c nm).sample rng n d = pure ((List.range n).map fun _ => c) := by
  simp only [Param.sample]
  rw [if_neg (by omega)]
  simp

theorem column_draws (C : Chance Ω P) {d : DistArgs} {p : Param ℝ} (hp : Drawable p) (hd : KindOk d.kind p) (n j : ℕ) :
    ∃ A ⊆ {c : Cell | c.1 = j ∧ (c.2.2 = .sldRe ∨ c.2.2 = .sldIm)}, ∀ (Θ : Type) [MeasurableSpace Θ],
      Draws (Chance.stream C) A (fun _ : Θ => p.sample C.rng.toRng n d)
        fun _ w => (List.range n).map fun (i : ℕ) => paramValue d.kind p (w (j, i, .sldRe)) (w (j, i, .sldIm)) := by
  cases p with
  | const c nm =>
    refine ⟨∅, Set.empty_subset _, fun Θ _ => ?_⟩
    exact (Draws.pure' fun _ => (List.range n).map fun _ => c).congr (fun _ => (const_sample _ n d c nm).symm) fun _ _ => rfl
  | range a b nm =>
    obtain ⟨h1, h2, h3⟩ := hp
    by_cases hr : ∃ x y, a = .real x ∧ b = .real y
    · obtain ⟨x, y, rfl, rfl⟩ := hr
      have hd' : d.kind = .uniform ∨ d.kind = .logarithmic ∧ 0 < x ∧ 0 < y :=
        hd.imp_right fun h => ⟨h.1, h.2.1, lt_of_lt_of_le h.2.1 h1⟩
      refine ⟨{c | c.1 = j ∧ c.2.1 < n ∧ c.2.2 = .sldRe}, fun c hc => ⟨hc.1, Or.inl hc.2.2⟩, fun Θ _ => ?_⟩
      refine Draws.of_positions (fun _ c => c.2.1) (fun _ => n) (fun _ => measurable_const) measurable_const ?_ (fun _ c hc => hc.2.1) ?_ ?_
      · rintro θ ⟨j1, i1, p1⟩ ⟨rfl, -, rfl⟩ ⟨j2, i2, p2⟩ ⟨rfl, -, rfl⟩ h
        simp only at h
        subst h
        rfl
      · intro θ w w' hw
        refine List.map_congr_left fun i hi => ?_
        simp only [paramValue]
        rw [hw (j, i, .sldRe) ⟨rfl, List.mem_range.1 hi, rfl⟩]
      · intro θ g
        refine ⟨(g.1, g.2 + n), fun w hw => ?_, stream_add C g n, rfl⟩
        rw [sample_real, Rand.bind_ok]
        refine ⟨_, _, sample_run' C x y hd' n g, ?_⟩
        rw [Rand.pure_ok, List.map_map]
        refine Prod.ext (List.map_congr_left fun i hi => ?_) rfl
        simp only [paramValue, Function.comp_apply]
        rw [hw (j, i, .sldRe) ⟨rfl, List.mem_range.1 hi, rfl⟩]
    · have him : a.im ≠ 0 ∨ b.im ≠ 0 := h3.resolve_left hr
      have hd1 : d.kind = .uniform ∨ d.kind = .logarithmic ∧ 0 < a.re ∧ 0 < b.re :=
        hd.imp_right fun h => ⟨h.1, h.2.1, lt_of_lt_of_le h.2.1 h1⟩
      have hd2 : d.kind = .uniform ∨ d.kind = .logarithmic ∧ 0 < a.im ∧ 0 < b.im :=
        hd.imp_right fun h => ⟨h.1, h.2.2 him, lt_of_lt_of_le (h.2.2 him) h2⟩
      have hpv : ∀ v w, paramValue d.kind (.range a b nm) v w = .cplx true (drawFrom d.kind a.re b.re v) (drawFrom d.kind a.im b.im w) := by
        intro v w
        unfold paramValue
        split
        · next h => cases h
        · next h => cases h; exact absurd ⟨_, _, rfl, rfl⟩ hr
        · next h => cases h; rfl
      simp only [hpv]
      refine ⟨{c | c.1 = j ∧ c.2.1 < n ∧ (c.2.2 = .sldRe ∨ c.2.2 = .sldIm)}, fun c hc => ⟨hc.1, hc.2.2⟩, fun Θ _ => ?_⟩
      refine Draws.of_positions (fun _ c => if c.2.2 = .sldRe then c.2.1 else n + c.2.1) (fun _ => n + n) (fun _ => measurable_const) measurable_const ?_ ?_ ?_ ?_
      · rintro θ ⟨j1, i1, p1⟩ ⟨rfl, hi1, h1⟩ ⟨j2, i2, p2⟩ ⟨rfl, hi2, h2⟩ h
        simp only at h hi1 hi2 h1 h2
        rcases h1 with rfl | rfl <;> rcases h2 with rfl | rfl
        · simp only [if_true] at h; rw [h]
        · rw [if_pos rfl, if_neg (by decide)] at h; omega
        · rw [if_neg (by decide), if_pos rfl] at h; omega
        · rw [if_neg (by decide), if_neg (by decide)] at h; rw [Nat.add_left_cancel h]
      · intro θ c hc
        have := hc.2.1
        show (if c.2.2 = .sldRe then c.2.1 else n + c.2.1) < n + n
        split_ifs <;> omega
      · intro θ w w' hw
        refine List.map_congr_left fun i hi => ?_
        rw [hw (j, i, .sldRe) ⟨rfl, List.mem_range.1 hi, Or.inl rfl⟩, hw (j, i, .sldIm) ⟨rfl, List.mem_range.1 hi, Or.inr rfl⟩]
      · intro θ g
        refine ⟨(g.1, g.2 + (n + n)), fun w hw => ?_, stream_add C g (n + n), rfl⟩
        simp only [Param.sample]
        rw [if_neg (by rintro ⟨e1, e2⟩; rcases him with h | h <;> contradiction), Rand.bind_ok]
        refine ⟨_, _, sample_run' C _ _ hd1 n g, ?_⟩
        rw [Rand.bind_ok]
        refine ⟨_, _, sample_run' C _ _ hd2 n _, ?_⟩
        rw [Rand.pure_ok]
        refine Prod.ext ?_ (by simp only [Nat.add_assoc])
        rw [stream_add, List.zipWith_map, List.zipWith_self]
        refine List.map_congr_left fun i hi => ?_
        have e1 := hw (j, i, .sldRe) ⟨rfl, List.mem_range.1 hi, Or.inl rfl⟩
        have e2 := hw (j, i, .sldIm) ⟨rfl, List.mem_range.1 hi, Or.inr rfl⟩
        rw [if_pos rfl] at e1
        rw [if_neg (show ¬ Part.sldIm = Part.sldRe by decide)] at e2
        rw [e1, e2]

theorem real_column_draws (C : Chance Ω P) {d : DistArgs} {p : Param ℝ} (hp : RealParam p) (hd : KindOk d.kind p) (n j : ℕ) (part : Part) :
    ∃ A ⊆ {c : Cell | c.1 = j ∧ c.2.2 = part}, ∀ (Θ : Type) [MeasurableSpace Θ],
      Draws (Chance.stream C) A (fun _ : Θ => p.sample C.rng.toRng n d)
        fun _ w => (List.range n).map fun (i : ℕ) => paramValue d.kind p (w (j, i, part)) 0 := by
  obtain ⟨x, y, h1, h2, h3⟩ := hp
  cases p with
  | const c nm =>
    refine ⟨∅, Set.empty_subset _, fun Θ _ => ?_⟩
    exact (Draws.pure' fun _ => (List.range n).map fun _ => c).congr (fun _ => (const_sample _ n d c nm).symm) fun _ _ => rfl
  | range a b nm =>
    simp only [Param.min, Param.max] at h1 h2
    subst h1 h2
    have hd' : d.kind = .uniform ∨ d.kind = .logarithmic ∧ 0 < x ∧ 0 < y :=
      hd.imp_right fun h => ⟨h.1, h.2.1, lt_of_lt_of_le h.2.1 h3⟩
    refine ⟨{c | c.1 = j ∧ c.2.1 < n ∧ c.2.2 = part}, fun c hc => ⟨hc.1, hc.2.2⟩, fun Θ _ => ?_⟩
    refine Draws.of_positions (fun _ c => c.2.1) (fun _ => n) (fun _ => measurable_const) measurable_const ?_ (fun _ c hc => hc.2.1) ?_ ?_
    · rintro θ ⟨j1, i1, p1⟩ ⟨rfl, -, rfl⟩ ⟨j2, i2, p2⟩ ⟨e1, -, e2⟩ h
      simp only at h e1 e2
      rw [h, e1, e2]
    · intro θ w w' hw
      refine List.map_congr_left fun i hi => ?_
      simp only [paramValue]
      rw [hw (j, i, part) ⟨rfl, List.mem_range.1 hi, rfl⟩]
    · intro θ g
      refine ⟨(g.1, g.2 + n), fun w hw => ?_, stream_add C g n, rfl⟩
      rw [sample_real, Rand.bind_ok]
      refine ⟨_, _, sample_run' C x y hd' n g, ?_⟩
      rw [Rand.pure_ok, List.map_map]
      refine Prod.ext (List.map_congr_left fun i hi => ?_) rfl
      simp only [paramValue, Function.comp_apply]
      rw [hw (j, i, part) ⟨rfl, List.mem_range.1 hi, rfl⟩]

theorem drawFrom_same {d : DistKind} {a : ℝ} (h : d = .uniform ∨ d = .logarithmic ∧ 0 < a) (y : ℝ) : drawFrom d a a y = a := by
  rcases h with rfl | ⟨rfl, h⟩
  · simp [drawFrom]
  · simp only [drawFrom, sub_self, zero_mul, add_zero]
    exact Real.rpow_logb (by norm_num) (by norm_num) h

open Classical in
/-- Which roughnesses are drawn again. -/
noncomputable def redrawn (mn mx : ℝ) (t : ℕ → ℝ) (i : ℕ) : Bool := decide (mn ≤ t i / 2 ∧ t i / 2 ≤ mx)

/-- The number of roughnesses drawn again before row `i`. -/
noncomputable def redraws (mn mx : ℝ) (t : ℕ → ℝ) (i : ℕ) : ℕ := Nat.count (fun i => redrawn mn mx t i = true) i

theorem adjust_run (C : Chance Ω P) {d : DistArgs} {mn mx : ℝ} (hd : d.kind = .uniform ∨ d.kind = .logarithmic ∧ 0 < mn) (t r : ℕ → ℝ) (ω : Ω)
    (k m a : ℕ) :
    adjustRoughnesses C.rng.toRng d mn mx ((List.range' a m).map t) ((List.range' a m).map r) (ω, k + redraws mn mx t a) =
      .ok ((List.range' a m).map fun (i : ℕ) => if t i / 2 < mn then mn else if t i / 2 > mx then r i else
        drawFrom d.kind mn (t i / 2) (C.u (k + redraws mn mx t i) ω), (ω, k + redraws mn mx t (a + m))) := by
  induction m generalizing a with
  | zero => rfl
  | succ m ih =>
    rw [List.range'_succ, List.map_cons, List.map_cons, List.map_cons]
    unfold adjustRoughnesses
    have ih := ih (a + 1)
    have hs : redraws mn mx t (a + 1) = redraws mn mx t a + if redrawn mn mx t a = true then 1 else 0 := Nat.count_succ _ _
    rw [show a + 1 + m = a + (m + 1) by omega] at ih
    rw [Rand.bind_ok]
    refine ⟨if t a / 2 < mn then mn else if t a / 2 > mx then r a else drawFrom d.kind mn (t a / 2) (C.u (k + redraws mn mx t a) ω),
      (ω, k + redraws mn mx t (a + 1)), ?_, ?_⟩
    · unfold adjustRoughness maxRoughness
      by_cases h1 : t a / 2 < mn
      · rw [if_pos h1, if_pos h1]
        have : redrawn mn mx t a = false := by
          simp only [redrawn, decide_eq_false_iff_not]
          exact fun h => absurd h.1 (not_le.2 h1)
        rw [this] at hs
        simp only [Bool.false_eq_true, if_false, add_zero] at hs
        rw [hs]
        rfl
      · by_cases h2 : t a / 2 > mx
        · rw [if_neg h1, if_pos h2, if_neg h1, if_pos h2]
          have : redrawn mn mx t a = false := by
            simp only [redrawn, decide_eq_false_iff_not]
            exact fun h => absurd h.2 (not_le.2 h2)
          rw [this] at hs
          simp only [Bool.false_eq_true, if_false, add_zero] at hs
          rw [hs]
          rfl
        · rw [if_neg h1, if_neg h2, if_neg h1, if_neg h2]
          have : redrawn mn mx t a = true := by
            simp only [redrawn, decide_eq_true_eq]
            exact ⟨not_lt.1 h1, not_lt.1 h2⟩
          rw [this] at hs
          simp only [if_true] at hs
          rw [hs, Rand.bind_ok]
          refine ⟨_, _, sample_run C mn (t a / 2) (hd.imp_right fun h => ⟨h.1, h.2, lt_of_lt_of_le h.2 (not_lt.1 h1)⟩) 1 _ ω, ?_⟩
          rfl
    · rw [Rand.bind_ok]
      exact ⟨_, _, ih, rfl⟩

theorem adjust_run_zero (C : Chance Ω P) {d : DistArgs} {mn mx : ℝ} (hd : d.kind = .uniform ∨ d.kind = .logarithmic ∧ 0 < mn) (t r : ℕ → ℝ)
    (g : Ω × ℕ) (m : ℕ) :
    adjustRoughnesses C.rng.toRng d mn mx ((List.range m).map t) ((List.range m).map r) g =
      .ok ((List.range m).map fun (i : ℕ) => if t i / 2 < mn then mn else if t i / 2 > mx then r i else
        drawFrom d.kind mn (t i / 2) (Chance.stream C g (redraws mn mx t i)), (g.1, g.2 + redraws mn mx t m)) := by
  have h := adjust_run C (mx := mx) hd t r g.1 g.2 m 0
  rw [show redraws mn mx t 0 = 0 from Nat.count_zero _, Nat.zero_add] at h
  rw [List.range_eq_range']
  exact h

theorem redraws_measurable {Θ : Type} [MeasurableSpace Θ] (mn mx : ℝ) {t : Θ → ℕ → ℝ} (ht : ∀ i, Measurable fun θ => t θ i) (i : ℕ) :
    Measurable fun θ => redraws mn mx (t θ) i := by
  induction i with
  | zero =>
    have : (fun θ => redraws mn mx (t θ) 0) = fun _ => 0 := funext fun θ => Nat.count_zero _
    rw [this]
    exact measurable_const
  | succ i ih =>
    have : (fun θ => redraws mn mx (t θ) (i + 1)) = fun θ => redraws mn mx (t θ) i + if mn ≤ t θ i / 2 ∧ t θ i / 2 ≤ mx then 1 else 0 := by
      funext θ
      refine (Nat.count_succ _ _).trans (congrArg (fun x => redraws mn mx (t θ) i + x) ?_)
      simp only [redrawn, decide_eq_true_eq]
    rw [this]
    refine ih.add (Measurable.ite ?_ measurable_const measurable_const)
    exact (measurableSet_le measurable_const ((ht i).div_const 2)).inter (measurableSet_le ((ht i).div_const 2) measurable_const)

theorem roughness_draws (C : Chance Ω P) {d : DistArgs} {q : Param ℝ} (hq : RealParam q) (hd : d.kind = .uniform ∨ d.kind = .logarithmic ∧ 0 < q.min.re)
    (n j : ℕ) : ∃ A ⊆ {c : Cell | c.1 = j ∧ c.2.2 = .roughness}, ∀ (Θ : Type) [MeasurableSpace Θ] (t : Θ → ℕ → ℝ), (∀ i, Measurable fun θ => t θ i) →
      Draws (Chance.stream C) A (fun θ : Θ => generateRoughness C.rng.toRng d q ((List.range n).map fun (i : ℕ) => Num.real (t θ i)))
        fun θ w => (List.range n).map fun (i : ℕ) => Num.real (roughnessValue d.kind q (t θ i) (w (j, i, .roughness))) := by
  obtain ⟨mn, mx, h1, h2, h3⟩ := hq
  have hre1 : q.min.re = mn := by rw [h1]; rfl
  have hre2 : q.max.re = mx := by rw [h2]; rfl
  rw [hre1] at hd
  have asr : ∀ x : ℕ → ℝ, asReals ((List.range n).map fun (i : ℕ) => Num.real (x i)) = .ok ((List.range n).map x) := by
    intro x
    rw [show ((List.range n).map fun (i : ℕ) => Num.real (x i)) = ((List.range n).map x).map Num.real by rw [List.map_map]; rfl]
    exact asReals_map _
  unfold roughnessValue
  simp only [hre1, hre2]
  cases q with
  | const c nm =>
    simp only [Param.min, Param.max] at h1 h2
    rw [h1] at h2
    cases h2
    subst h1
    refine ⟨∅, Set.empty_subset _, fun Θ _ t ht => ?_⟩
    refine Draws.of_positions (fun _ _ => 0) (fun θ => redraws mn mn (t θ) n) (fun _ => measurable_const) (redraws_measurable mn mn ht n)
      (fun θ a ha => absurd ha (Set.notMem_empty _)) (fun θ a ha => absurd ha (Set.notMem_empty _)) ?_ fun θ g => ?_
    · intro θ w w' _
      refine List.map_congr_left fun i _ => ?_
      split_ifs with hlt
      · rfl
      · rw [min_eq_left (not_lt.1 hlt), drawFrom_same hd, drawFrom_same hd]
    · refine ⟨(g.1, g.2 + redraws mn mn (t θ) n), fun w _ => ?_, stream_add C g _, rfl⟩
      unfold generateRoughness
      rw [List.length_map, List.length_range, const_sample, Rand.bind_ok]
      refine ⟨_, _, rfl, ?_⟩
      rw [Rand.bind_ok]
      refine ⟨_, _, Rand.ofRes_ok.2 ⟨asr (t θ), rfl⟩, ?_⟩
      rw [Rand.bind_ok]
      refine ⟨_, _, Rand.ofRes_ok.2 ⟨asr fun _ => mn, rfl⟩, ?_⟩
      simp only [Param.min, Param.max]
      rw [Rand.bind_ok]
      refine ⟨_, _, adjust_run_zero C hd (t θ) (fun _ => mn) g n, ?_⟩
      rw [Rand.pure_ok, List.map_map]
      refine Prod.ext (List.map_congr_left fun i _ => ?_) rfl
      simp only [Function.comp_apply]
      congr 1
      split_ifs with a1 a2
      · rfl
      · rw [min_eq_left (not_lt.1 a1), drawFrom_same hd]
      · rw [min_eq_left (not_lt.1 a1), drawFrom_same hd, le_antisymm (not_lt.1 a2) (not_lt.1 a1), drawFrom_same hd]
  | range a b nm =>
    simp only [Param.min, Param.max] at h1 h2
    subst h1 h2
    refine ⟨{c | c.1 = j ∧ c.2.1 < n ∧ c.2.2 = .roughness}, fun c hc => ⟨hc.1, hc.2.2⟩, fun Θ _ t ht => ?_⟩
    have hpos : ∀ c : Cell, Measurable fun θ => if mn ≤ t θ c.2.1 / 2 ∧ t θ c.2.1 / 2 ≤ mx then n + redraws mn mx (t θ) c.2.1 else c.2.1 := by
      intro c
      refine Measurable.ite ?_ ((redraws_measurable mn mx ht _).const_add n) measurable_const
      exact (measurableSet_le measurable_const ((ht _).div_const 2)).inter (measurableSet_le ((ht _).div_const 2) measurable_const)
    refine Draws.of_positions (fun θ c => if mn ≤ t θ c.2.1 / 2 ∧ t θ c.2.1 / 2 ≤ mx then n + redraws mn mx (t θ) c.2.1 else c.2.1)
      (fun θ => n + redraws mn mx (t θ) n) hpos ((redraws_measurable mn mx ht n).const_add n) ?_ ?_ ?_ fun θ g => ?_
    · rintro θ ⟨j1, i1, p1⟩ ⟨rfl, hi1, rfl⟩ ⟨j2, i2, p2⟩ ⟨e1, hi2, e2⟩ h
      simp only at h e1 e2 hi1 hi2
      subst e1 e2
      have : i1 = i2 := by
        split_ifs at h with c1 c2 c2
        · refine Nat.count_injective (p := fun i => redrawn mn mx (t θ) i = true) ?_ ?_ (Nat.add_left_cancel h)
          · simpa [redrawn] using c1
          · simpa [redrawn] using c2
        · omega
        · omega
        · exact h
      rw [this]
    · rintro θ ⟨j1, i1, p1⟩ ⟨rfl, hi1, rfl⟩
      simp only at hi1 ⊢
      split_ifs with c1
      · refine Nat.add_lt_add_left (Nat.count_strict_mono (p := fun i => redrawn mn mx (t θ) i = true) ?_ hi1) n
        simpa [redrawn] using c1
      · omega
    · intro θ w w' hw
      refine List.map_congr_left fun i hi => ?_
      rw [hw (j, i, .roughness) ⟨rfl, List.mem_range.1 hi, rfl⟩]
    · refine ⟨(g.1, g.2 + (n + redraws mn mx (t θ) n)), fun w hw => ?_, stream_add C g _, rfl⟩
      unfold generateRoughness
      rw [List.length_map, List.length_range, sample_real, Rand.bind_ok]
      refine ⟨_, _, Rand.bind_ok.2 ⟨_, _, sample_run' C mn mx (hd.imp_right fun h => ⟨h.1, h.2, lt_of_lt_of_le h.2 h3⟩) n g, rfl⟩, ?_⟩
      rw [Rand.bind_ok]
      refine ⟨_, _, Rand.ofRes_ok.2 ⟨asr (t θ), rfl⟩, ?_⟩
      rw [Rand.bind_ok]
      refine ⟨_, _, Rand.ofRes_ok.2 ⟨asReals_map _, rfl⟩, ?_⟩
      simp only [Param.min, Param.max]
      rw [Rand.bind_ok]
      refine ⟨_, _, adjust_run_zero C hd (t θ) (fun i => drawFrom d.kind mn mx (Chance.stream C g i)) (g.1, g.2 + n) n, ?_⟩
      rw [Rand.pure_ok, List.map_map]
      refine Prod.ext (List.map_congr_left fun i hi => ?_) (by simp only [Nat.add_assoc])
      simp only [Function.comp_apply]
      congr 1
      have hv := hw (j, i, .roughness) ⟨rfl, List.mem_range.1 hi, rfl⟩
      simp only at hv
      split_ifs with a1 a2
      · rfl
      · rw [min_eq_left a2.le, hv, if_neg fun h => absurd h.2 (not_le.2 a2)]
      · rw [min_eq_right (not_lt.1 a2), hv, if_pos ⟨not_lt.1 a1, not_lt.1 a2⟩, stream_add]

theorem paramValue_real {p : Param ℝ} (hp : RealParam p) (d : DistKind) (v w : ℝ) : paramValue d p v w = .real (paramValue d p v 0).re := by
  obtain ⟨x, y, h1, h2, h3⟩ := hp
  cases p with
  | const c nm =>
    simp only [Param.min] at h1
    subst h1
    rfl
  | range a b nm =>
    simp only [Param.min, Param.max] at h1 h2
    subst h1 h2
    rfl

theorem paramValue_measurable (p : Param ℝ) (d : DistKind) : Measurable fun v => (paramValue d p v 0).re := by
  cases p with
  | const c nm =>
    simp only [paramValue]
    exact measurable_const
  | range a b nm =>
    cases a <;> cases b <;> exact drawFrom_measurable _ _ _

theorem positive_of_real {p : Param ℝ} (hp : RealParam p) {d : DistKind} (h : d = .uniform ∨ d = .logarithmic ∧ 0 < p.min.re) : KindOk d p := by
  refine h.imp_right fun h => ⟨h.1, ?_⟩
  obtain ⟨x, y, h1, h2, h3⟩ := hp
  cases p with
  | const c nm => trivial
  | range a b nm =>
    simp only [Param.min, Param.max] at h1 h2
    subst h1 h2
    exact ⟨h.2, fun him => by simp [Num.im] at him⟩

/-- The parameters of a layer can be sampled with the distribution type. -/
structure LayerKindOk (d : DistKind) (l : LayerV ℝ) : Prop where
  sld : ∀ p, l.sld = some p → KindOk d p
  thickness : ∀ p, l.thickness = some p → KindOk d p
  roughness : ∀ p, l.roughness = some p → d = .uniform ∨ d = .logarithmic ∧ 0 < p.min.re

/-- The columns of one layer for given numbers. -/
noncomputable def tableStep (d : DistKind) (n : ℕ) (w : Cell → ℝ) (j : ℕ) (f : Frame (Num ℝ)) (l : LayerV ℝ) : Frame (Num ℝ) :=
  match l.sld with
  | none => f
  | some p =>
    let f := f.set (l.name ++ "_sld".toList) ((List.range n).map fun (i : ℕ) => paramValue d p (w (j, i, .sldRe)) (w (j, i, .sldIm)))
    match l.thickness, l.roughness with
    | some t, some r =>
      (f.set (l.name ++ "_thickness".toList) ((List.range n).map fun (i : ℕ) => paramValue d t (w (j, i, .thickness)) 0)).set
        (l.name ++ "_roughness".toList)
        ((List.range n).map fun (i : ℕ) => Num.real (roughnessValue d r (paramValue d t (w (j, i, .thickness)) 0).re (w (j, i, .roughness))))
    | none, some r => f.set (l.name ++ "_roughness".toList) ((List.range n).map fun (i : ℕ) => paramValue d r (w (j, i, .roughness)) 0)
    | _, none => f

theorem layer_draws (C : Chance Ω P) {d : DistArgs} {l : LayerV ℝ} (hl : LayerDrawable l) (hd : LayerKindOk d.kind l) (hsld : l.sld ≠ none)
    (hr : l.thickness ≠ none → l.roughness ≠ none) (n j : ℕ) : ∃ A ⊆ {c : Cell | c.1 = j}, ∀ (Θ : Type) [MeasurableSpace Θ] (f : Θ → Frame (Num ℝ)),
      Draws (Chance.stream C) A (fun θ : Θ => labelStep C.rng.toRng n d (f θ) l) fun θ w => tableStep d.kind n w j (f θ) l := by
  obtain ⟨p, hp⟩ := Option.ne_none_iff_exists'.1 hsld
  obtain ⟨A, hA, dA⟩ := column_draws C (hl.sld p hp) (hd.sld p hp) n j
  unfold labelStep tableStep
  simp only [hp]
  cases ht : l.thickness with
  | none =>
    cases hq : l.roughness with
    | none =>
      exact ⟨A, fun c hc => (hA hc).1, fun Θ _ f => (dA Θ).map fun θ v => (f θ).set (l.name ++ "_sld".toList) v⟩
    | some q =>
      obtain ⟨B, hB, dB⟩ := real_column_draws C (hl.roughness q hq) (positive_of_real (hl.roughness q hq) (hd.roughness q hq)) n j .roughness
      refine ⟨A ∪ B, ?_, fun Θ _ f => ?_⟩
      · rintro c (hc | hc)
        · exact (hA hc).1
        · exact (hB hc).1
      · have hAB : Disjoint A B := Set.disjoint_left.2 fun c h1 h2 => by
          have e1 := (hA h1).2
          rw [(hB h2).2] at e1
          rcases e1 with e | e <;> cases e
        refine (dA Θ).bind ((dB (Θ × (A → ℝ))).map fun p rv => ((f p.1).set (l.name ++ "_sld".toList) _).set (l.name ++ "_roughness".toList) rv) hAB ?_
        intro θ w
        exact congrArg (fun v => ((f θ).set (l.name ++ "_sld".toList) v).set (l.name ++ "_roughness".toList) _) ((dA Θ).ext_eq θ w)
  | some t =>
    cases hq : l.roughness with
    | none => exact absurd hq (hr (by rw [ht]; simp))
    | some q =>
      have hreal := hl.thickness t ht
      obtain ⟨B, hB, dB⟩ := real_column_draws C hreal (hd.thickness t ht) n j .thickness
      obtain ⟨D, hD, dD⟩ := roughness_draws C (hl.roughness q hq) (hd.roughness q hq) n j
      refine ⟨A ∪ (B ∪ D), ?_, fun Θ _ f => ?_⟩
      · rintro c (hc | hc | hc)
        · exact (hA hc).1
        · exact (hB hc).1
        · exact (hD hc).1
      · have hBD : Disjoint B D := Set.disjoint_left.2 fun c h1 h2 => by
          have e1 := (hB h1).2
          rw [(hD h2).2] at e1
          cases e1
        have hABD : Disjoint A (B ∪ D) := Set.disjoint_left.2 fun c h1 h2 => by
          have e1 := (hA h1).2
          rcases h2 with h2 | h2
          · rw [(hB h2).2] at e1
            rcases e1 with e | e <;> cases e
          · rw [(hD h2).2] at e1
            rcases e1 with e | e <;> cases e
        have hm : ∀ i, Measurable fun x : (Θ × (A → ℝ)) × (B → ℝ) => (paramValue d.kind t (ext x.2 (j, i, .thickness)) 0).re := by
          intro i
          refine (paramValue_measurable t d.kind).comp ?_
          unfold ext
          split_ifs with h
          · exact (measurable_pi_apply _).comp measurable_snd
          · exact measurable_const
        have d3 := (dD ((Θ × (A → ℝ)) × (B → ℝ)) (fun x i => (paramValue d.kind t (ext x.2 (j, i, .thickness)) 0).re) hm).map
          fun x rv => (((f x.1.1).set (l.name ++ "_sld".toList)
            ((List.range n).map fun (i : ℕ) => paramValue d.kind p (ext x.1.2 (j, i, .sldRe)) (ext x.1.2 (j, i, .sldIm)))).set (l.name ++ "_thickness".toList)
            ((List.range n).map fun (i : ℕ) => paramValue d.kind t (ext x.2 (j, i, .thickness)) 0)).set (l.name ++ "_roughness".toList) rv
        have hlist : ∀ v : B → ℝ, ((List.range n).map fun (i : ℕ) => paramValue d.kind t (ext v (j, i, .thickness)) 0) =
            (List.range n).map fun (i : ℕ) => Num.real (paramValue d.kind t (ext v (j, i, .thickness)) 0).re := fun v =>
          List.map_congr_left fun i _ => paramValue_real hreal _ _ _
        have d2 := (dB (Θ × (A → ℝ))).bind_ext (k := fun x tv => do
            let rv ← generateRoughness C.rng.toRng d q tv
            return (((f x.1).set (l.name ++ "_sld".toList)
              ((List.range n).map fun (i : ℕ) => paramValue d.kind p (ext x.2 (j, i, .sldRe)) (ext x.2 (j, i, .sldIm)))).set (l.name ++ "_thickness".toList)
              tv).set (l.name ++ "_roughness".toList) rv)
          (d3.congr (fun x => by simp only [hlist]) fun _ _ => rfl) hBD
        refine (dA Θ).bind d2 hABD fun θ w => ?_
        have e1 := (dA Θ).ext_eq θ w
        have e2 := (dB (Θ × (A → ℝ))).ext_eq (θ, fun a => w a) w
        simp only at e1 e2 ⊢
        rw [e1, e2]
        congr 1
        refine List.map_congr_left fun i hi => ?_
        have e3 := List.map_inj_left.1 e2 i hi
        rw [e3]

/-- The columns of all layers for given numbers. -/
noncomputable def tableLoop (d : DistKind) (n : ℕ) (w : Cell → ℝ) : ℕ → Frame (Num ℝ) → List (LayerV ℝ) → Frame (Num ℝ)
  | _, f, [] => f
  | j, f, l :: ls => tableLoop d n w (j + 1) (tableStep d n w j f l) ls

theorem loop_draws (C : Chance Ω P) {d : DistArgs} (n : ℕ) {ls : List (LayerV ℝ)} (hl : ∀ l ∈ ls, LayerDrawable l ∧ LayerKindOk d.kind l ∧ l.sld ≠ none ∧
    (l.thickness ≠ none → l.roughness ≠ none)) (j : ℕ) : ∃ A ⊆ {c : Cell | j ≤ c.1}, ∀ (Θ : Type) [MeasurableSpace Θ] (f : Θ → Frame (Num ℝ)),
      Draws (Chance.stream C) A (fun θ : Θ => labelLoop C.rng.toRng n d (f θ) ls) fun θ w => tableLoop d.kind n w j (f θ) ls := by
  induction ls generalizing j with
  | nil => exact ⟨∅, Set.empty_subset _, fun Θ _ f => Draws.pure' f⟩
  | cons l ls ih =>
    obtain ⟨a1, a2, a3, a4⟩ := hl l (by simp)
    obtain ⟨A, hA, dA⟩ := layer_draws C a1 a2 a3 a4 n j
    obtain ⟨B, hB, dB⟩ := ih (fun x hx => hl x (by simp [hx])) (j + 1)
    refine ⟨A ∪ B, ?_, fun Θ _ f => ?_⟩
    · rintro c (hc | hc)
      · exact (hA hc).ge
      · exact (Nat.le_succ j).trans (hB hc)
    · have hAB : Disjoint A B := Set.disjoint_left.2 fun c h1 h2 => by
        have e1 : c.1 = j := hA h1
        have e2 : j + 1 ≤ c.1 := hB h2
        omega
      refine (dA Θ f).bind (dB (Θ × (A → ℝ)) fun x => tableStep d.kind n (ext x.2) j (f x.1) l) hAB fun θ w => ?_
      exact congrArg (fun f => tableLoop d.kind n w (j + 1) f ls) ((dA Θ f).ext_eq θ w)

theorem layerColumns_congr {d : DistKind} {n j : ℕ} {v : Cell → ℝ} {f f' : Frame (Num ℝ)} {l : LayerV ℝ} (h : LayerColumns d n v j f l)
    (he : ∀ k ∈ layerKeys l.name, f'.get k = f.get k) : LayerColumns d n v j f' l := by
  have h1 := he (l.name ++ "_sld".toList) (by simp [layerKeys])
  have h2 := he (l.name ++ "_thickness".toList) (by simp [layerKeys])
  have h3 := he (l.name ++ "_roughness".toList) (by simp [layerKeys])
  constructor
  · rw [h1]; exact h.sld
  · rw [h2]; exact h.thickness
  · rw [h3]; exact h.roughness
  · rw [h3]; exact h.film

theorem tableStep_columns (d : DistKind) (n : ℕ) (w : Cell → ℝ) (j : ℕ) (f : Frame (Num ℝ)) {l : LayerV ℝ} (hsld : l.sld ≠ none)
    (hr : l.thickness ≠ none → l.roughness ≠ none) :
    LayerColumns d n w j (tableStep d n w j f l) l ∧ ∀ k, k ∉ layerKeys l.name → (tableStep d n w j f l).get k = f.get k := by
  obtain ⟨p, hp⟩ := Option.ne_none_iff_exists'.1 hsld
  have t1 : l.name ++ "_thickness".toList ≠ l.name ++ "_roughness".toList := thickness_ne_roughness _ _
  have t2 : l.name ++ "_thickness".toList ≠ l.name ++ "_sld".toList := thickness_ne_sld _ _
  have t3 : l.name ++ "_roughness".toList ≠ l.name ++ "_sld".toList := roughness_ne_sld _ _
  unfold layerKeys tableStep
  simp only [hp]
  generalize h1 : l.name ++ "_sld".toList = ks at *
  generalize h2 : l.name ++ "_thickness".toList = kt at *
  generalize h3 : l.name ++ "_roughness".toList = kr at *
  have hof : ∀ g : ℕ → Num ℝ, (List.range n).map g = List.ofFn fun i : Fin n => g i := fun g => (ofFn_range n g).symm
  cases ht : l.thickness with
  | none =>
    cases hq : l.roughness with
    | none =>
      refine ⟨⟨?_, ?_, ?_, ?_⟩, fun k hk => ?_⟩
      · intro p' hp'
        rw [hp] at hp'
        cases hp'
        rw [h1, get_set, if_pos rfl, hof]
      · rw [ht]; rintro _ ⟨⟩
      · rw [hq]; rintro _ ⟨⟩
      · rw [ht]; rintro _ _ ⟨⟩
      · simp only [List.mem_cons, not_or] at hk
        rw [get_set, if_neg hk.1]
    | some q =>
      refine ⟨⟨?_, ?_, ?_, ?_⟩, fun k hk => ?_⟩
      · intro p' hp'
        rw [hp] at hp'
        cases hp'
        rw [h1, get_set, if_neg t3.symm, get_set, if_pos rfl, hof]
      · rw [ht]; rintro _ ⟨⟩
      · rw [hq]
        rintro _ ⟨⟩ -
        rw [h3, get_set, if_pos rfl, hof]
      · rw [ht]; rintro _ _ ⟨⟩
      · simp only [List.mem_cons, not_or] at hk
        rw [get_set, if_neg hk.2.2.1, get_set, if_neg hk.1]
  | some t =>
    cases hq : l.roughness with
    | none => exact absurd hq (hr (by rw [ht]; simp))
    | some q =>
      refine ⟨⟨?_, ?_, ?_, ?_⟩, fun k hk => ?_⟩
      · intro p' hp'
        rw [hp] at hp'
        cases hp'
        rw [h1, get_set, if_neg t3.symm, get_set, if_neg t2.symm, get_set, if_pos rfl, hof]
      · rw [ht]
        rintro _ ⟨⟩
        rw [h2, get_set, if_neg t1, get_set, if_pos rfl, hof]
      · rw [ht]; rintro _ _ ⟨⟩
      · rw [ht, hq]
        rintro _ _ ⟨⟩ ⟨⟩
        rw [h3, get_set, if_pos rfl, hof]
      · simp only [List.mem_cons, not_or] at hk
        rw [get_set, if_neg hk.2.2.1, get_set, if_neg hk.2.1, get_set, if_neg hk.1]

theorem tableLoop_columns (d : DistKind) (n : ℕ) (w : Cell → ℝ) {ls : List (LayerV ℝ)}
    (hl : ∀ l ∈ ls, l.sld ≠ none ∧ (l.thickness ≠ none → l.roughness ≠ none)) (hn : (ls.map (·.name)).Nodup) (j : ℕ) (f : Frame (Num ℝ)) :
    (∀ (i : ℕ) (l : LayerV ℝ), ls[i]? = some l → LayerColumns d n w (j + i) (tableLoop d n w j f ls) l) ∧
      ∀ k, (∀ l ∈ ls, k ∉ layerKeys l.name) → (tableLoop d n w j f ls).get k = f.get k := by
  induction ls generalizing j f with
  | nil => exact ⟨by simp, fun _ _ => rfl⟩
  | cons l ls ih =>
    rw [List.map_cons, List.nodup_cons] at hn
    obtain ⟨s1, s2⟩ := tableStep_columns d n w j f (hl l (by simp)).1 (hl l (by simp)).2
    obtain ⟨i1, i2⟩ := ih (fun x hx => hl x (by simp [hx])) hn.2 (j + 1) (tableStep d n w j f l)
    unfold tableLoop
    constructor
    · intro i x hx
      cases i with
      | zero =>
        simp only [List.getElem?_cons_zero, Option.some.injEq] at hx
        subst hx
        refine layerColumns_congr s1 fun k hk => i2 k fun y hy => layerKeys_disjoint ?_ hk
        intro he
        exact hn.1 (List.mem_map.2 ⟨y, hy, he.symm⟩)
      | succ i =>
        rw [List.getElem?_cons_succ] at hx
        rw [show j + (i + 1) = j + 1 + i by omega]
        exact i1 i x hx
    · intro k hk
      rw [i2 k fun y hy => hk y (by simp [hy]), s2 k (hk l (by simp))]

theorem sample_parts {s : SampleV ℝ} (hs : SampleRegular s) : ∀ l ∈ s.structure_, l.sld ≠ none ∧ (l.thickness ≠ none → l.roughness ≠ none) := by
  intro l hm
  simp only [SampleV.structure_, List.cons_append, List.nil_append, List.mem_cons, List.mem_append, List.not_mem_nil, or_false] at hm
  rcases hm with rfl | hm | rfl
  · obtain ⟨_, e1, _, ⟨q, e4, _⟩⟩ := hs.substrate
    exact ⟨by rw [e4]; simp, by rw [e1]; simp⟩
  · obtain ⟨_, _, ⟨p, e2, _⟩, ⟨q, e4, _⟩⟩ := hs.layers l hm
    exact ⟨by rw [e4]; simp, by rw [e2]; simp⟩
  · obtain ⟨_, e1, _, ⟨q, e4, _⟩⟩ := hs.ambient
    exact ⟨by rw [e4]; simp, by rw [e1]; simp⟩

theorem labels_have_columns {s : SampleV ℝ} (hs : SampleRegular s) {f : Frame (Num ℝ)} {d : DistKind} {n : ℕ} {w : Cell → ℝ}
    (h : ∀ (i : ℕ) (l : LayerV ℝ), s.structure_[i]? = some l → LayerColumns d n w i f l) :
    ∀ k ∈ expectedLabels s.substrate.name (s.layers.map (·.name)) s.ambient.name, ∃ col, f.get k = .ok col := by
  have h' : ∀ l ∈ s.structure_, ∃ i, LayerColumns d n w i f l := fun l hl => by
    obtain ⟨i, hi⟩ := List.getElem?_of_mem hl
    exact ⟨i, h i l hi⟩
  intro k hk
  unfold expectedLabels at hk
  have hsub : s.substrate ∈ s.structure_ := by simp [SampleV.structure_]
  have hamb : s.ambient ∈ s.structure_ := by simp [SampleV.structure_]
  have hfilm : ∀ l ∈ s.layers, l ∈ s.structure_ := fun l h => by simp [SampleV.structure_, h]
  rcases List.mem_append.1 hk with hk | hk
  · rcases List.mem_append.1 hk with hk | hk
    · obtain ⟨m, hm, rfl⟩ := List.mem_map.1 hk
      obtain ⟨l, hl', rfl⟩ := List.mem_map.1 hm
      obtain ⟨_, ⟨p, e1, _⟩, ⟨q, e2, _⟩, _⟩ := hs.layers l hl'
      obtain ⟨i, hi⟩ := h' l (hfilm l hl')
      exact ⟨_, hi.thickness p e1⟩
    · obtain ⟨m, hm, rfl⟩ := List.mem_map.1 hk
      rcases List.mem_cons.1 hm with rfl | hm
      · obtain ⟨_, e1, ⟨q, e2, _⟩, _⟩ := hs.substrate
        obtain ⟨i, hi⟩ := h' _ hsub
        exact ⟨_, hi.roughness q e2 e1⟩
      · obtain ⟨l, hl', rfl⟩ := List.mem_map.1 hm
        obtain ⟨_, ⟨p, e1, _⟩, ⟨q, e2, _⟩, _⟩ := hs.layers l hl'
        obtain ⟨i, hi⟩ := h' l (hfilm l hl')
        exact ⟨_, hi.film p q e1 e2⟩
  · obtain ⟨m, hm, rfl⟩ := List.mem_map.1 hk
    have : ∃ l ∈ s.structure_, l.name = m := by
      simp only [List.cons_append, List.mem_cons, List.mem_append, List.not_mem_nil, or_false, List.mem_map] at hm
      rcases hm with rfl | ⟨l, hl', rfl⟩ | rfl
      · exact ⟨_, hsub, rfl⟩
      · exact ⟨l, hfilm l hl', rfl⟩
      · exact ⟨_, hamb, rfl⟩
    obtain ⟨l, hl', rfl⟩ := this
    obtain ⟨q, e⟩ := Option.ne_none_iff_exists'.1 (sample_parts hs l hl').1
    obtain ⟨i, hi⟩ := h' l hl'
    exact ⟨_, hi.sld q e⟩

/-- Labels of a layer of the structure. -/
theorem mem_expectedLabels {s : SampleV ℝ} (hs : SampleRegular s) {l : LayerV ℝ} (hl : l ∈ s.structure_) :
    l.name ++ "_sld".toList ∈ expectedLabels s.substrate.name (s.layers.map (·.name)) s.ambient.name ∧
      (l.roughness ≠ none → l.name ++ "_roughness".toList ∈ expectedLabels s.substrate.name (s.layers.map (·.name)) s.ambient.name) ∧
      (l.thickness ≠ none → l.name ++ "_thickness".toList ∈ expectedLabels s.substrate.name (s.layers.map (·.name)) s.ambient.name) := by
  unfold expectedLabels
  simp only [SampleV.structure_, List.cons_append, List.nil_append, List.mem_cons, List.mem_append, List.not_mem_nil, or_false] at hl
  refine ⟨List.mem_append_right _ (List.mem_map.2 ⟨l.name, ?_, rfl⟩), fun hr => List.mem_append_left _ (List.mem_append_right _ (List.mem_map.2 ⟨l.name, ?_, rfl⟩)),
    fun ht => List.mem_append_left _ (List.mem_append_left _ (List.mem_map.2 ⟨l.name, ?_, rfl⟩))⟩
  · simp only [List.cons_append, List.mem_cons, List.mem_append, List.not_mem_nil, or_false]
    rcases hl with rfl | hl | rfl
    · exact Or.inl rfl
    · exact Or.inr (Or.inl (List.mem_map.2 ⟨l, hl, rfl⟩))
    · exact Or.inr (Or.inr rfl)
  · simp only [List.mem_cons]
    rcases hl with rfl | hl | rfl
    · exact Or.inl rfl
    · exact Or.inr (List.mem_map.2 ⟨l, hl, rfl⟩)
    · exact absurd hs.ambient.roughness hr
  · rcases hl with rfl | hl | rfl
    · exact absurd hs.substrate.thickness ht
    · exact List.mem_map.2 ⟨l, hl, rfl⟩
    · exact absurd hs.ambient.thickness ht

theorem labels_run {G : Type} {rng : Rng G} {s : SampleV ℝ} (hs : SampleRegular s) {n : ℕ} (hpos : 0 < n) {d : DistArgs} {g g' : G}
    {w : Cell → ℝ} (hn : (partNames s).Nodup) (h : labelLoop rng n d [] s.structure_ g = .ok (tableLoop d.kind n w 0 [] s.structure_, g')) :
    ∃ f, (∀ k ∈ expectedLabels s.substrate.name (s.layers.map (·.name)) s.ambient.name, f.get k = (tableLoop d.kind n w 0 [] s.structure_).get k) ∧
      f.columns = expectedLabels s.substrate.name (s.layers.map (·.name)) s.ambient.name ∧ generateRandomLabels rng s n d g = .ok (f, g') := by
  obtain ⟨hc, -⟩ := tableLoop_columns d.kind n w (sample_parts hs) (by simpa [SampleV.structure_, partNames] using hn) 0 []
  simp only [Nat.zero_add] at hc
  have hget := labels_have_columns hs hc
  obtain ⟨names, h1, h2, _⟩ := C05_label_names s hs
  rw [← h2] at hget ⊢
  have hsel : ∃ r, (tableLoop d.kind n w 0 [] s.structure_).select names = .ok r := by
    generalize tableLoop d.kind n w 0 [] s.structure_ = f at hget
    refine ⟨names.map fun k => (k, match f.get k with | .ok c => c | .error _ => []), ?_⟩
    unfold Frame.select
    refine mapM_eq_ok_map fun k hk => ?_
    obtain ⟨col, hc⟩ := hget k hk
    rw [hc]; rfl
  obtain ⟨r, hr⟩ := hsel
  obtain ⟨c1, c2⟩ := select_get hr
  refine ⟨r, c2, c1, ?_⟩
  unfold generateRandomLabels
  rw [if_neg (not_not.2 (by omega))]
  exact Rand.bind_ok.2 ⟨names, g, Rand.ofRes_ok.2 ⟨h1, rfl⟩, Rand.bind_ok.2 ⟨_, _, h, Rand.ofRes_ok.2 ⟨hr, rfl⟩⟩⟩

theorem labels_layerColumns {s : SampleV ℝ} (hs : SampleRegular s) {n : ℕ} {d : DistKind} {w : Cell → ℝ} (hn : (partNames s).Nodup) {f : Frame (Num ℝ)}
    (hf : ∀ k ∈ expectedLabels s.substrate.name (s.layers.map (·.name)) s.ambient.name, f.get k = (tableLoop d n w 0 [] s.structure_).get k)
    (j : ℕ) (l : LayerV ℝ) (hj : s.structure_[j]? = some l) : LayerColumns d n w j f l := by
  obtain ⟨hc, -⟩ := tableLoop_columns d n w (sample_parts hs) (by simpa [SampleV.structure_, partNames] using hn) 0 []
  have hc := hc j l hj
  rw [Nat.zero_add] at hc
  obtain ⟨m1, m2, m3⟩ := mem_expectedLabels hs (List.mem_of_getElem? hj)
  constructor
  · rw [hf _ m1]; exact hc.sld
  · intro p hp
    rw [hf _ (m3 (by rw [hp]; simp))]
    exact hc.thickness p hp
  · intro q hq
    rw [hf _ (m2 (by rw [hq]; simp))]
    exact hc.roughness q hq
  · intro p q hp hq
    rw [hf _ (m2 (by rw [hq]; simp))]
    exact hc.film p q hp hq

/-- C124: the table of random labels is distributed as documented, for every sample with distinct names and every number of rows: there
are independent numbers, uniform on `[0, 1)`, one for every row and parameter (two for a complex parameter), such that every label is
the value of its parameter for its own number, and the roughness of a film is drawn between its lower limit and the smaller one of its
upper limit and half the thickness of the same row. -/
theorem C124_table (C : Chance Ω P) (s : SampleV ℝ) (hs : SampleRegular s) (hn : (partNames s).Nodup) (d : DistArgs)
    (hl : ∀ l ∈ s.structure_, LayerDrawable l ∧ LayerKindOk d.kind l) (n : ℕ) (hpos : 0 < n) (k : ℕ) :
    ∃ V : Cell → Ω → ℝ, (∀ c, Measurable (V c)) ∧ iIndepFun V P ∧ (∀ c, P.map (V c) = volume.restrict (Set.Ico (0 : ℝ) 1)) ∧
      ∀ ω, ∃ f g', generateRandomLabels C.rng.toRng s n d (ω, k) = .ok (f, g') ∧
        f.columns = expectedLabels s.substrate.name (s.layers.map (·.name)) s.ambient.name ∧
        ∀ (j : ℕ) (l : LayerV ℝ), s.structure_[j]? = some l → LayerColumns d.kind n (fun c => V c ω) j f l := by
  obtain ⟨A, -, dA⟩ := loop_draws C n (fun l hm => ⟨(hl l hm).1, (hl l hm).2, sample_parts hs l hm⟩) 0
  obtain ⟨V, mV, iV, lV, hV⟩ := (dA Unit fun _ => []).random C k
  refine ⟨V, mV, iV, lV, fun ω => ?_⟩
  obtain ⟨g', h⟩ := hV ω
  obtain ⟨f, hf, hc, hrun⟩ := labels_run hs hpos hn h
  exact ⟨f, g', hrun, hc, labels_layerColumns hs hn hf⟩

/-! ### Rows -/

/-- Every column holds in row `i` a function of the numbers of row `i`. -/
def RowWise (n : ℕ) (F : (Cell → ℝ) → Frame (Num ℝ)) : Prop :=
  ∀ k, (∀ w, (F w).get k = .error .keyError) ∨ ∃ φ : (ℕ × Part → ℝ) → Num ℝ, (Measurable fun v => (φ v).re) ∧ (Measurable fun v => (φ v).im) ∧
    ∀ w, (F w).get k = .ok ((List.range n).map fun (i : ℕ) => φ fun c => w (c.1, i, c.2))

theorem RowWise.set {n : ℕ} {F : (Cell → ℝ) → Frame (Num ℝ)} (h : RowWise n F) (name : Str) (φ : (ℕ × Part → ℝ) → Num ℝ)
    (h1 : Measurable fun v => (φ v).re) (h2 : Measurable fun v => (φ v).im) :
    RowWise n fun w => (F w).set name ((List.range n).map fun (i : ℕ) => φ fun c => w (c.1, i, c.2)) := by
  intro k
  by_cases hk : k = name
  · exact Or.inr ⟨φ, h1, h2, fun w => by rw [get_set, if_pos hk]⟩
  · simp only [get_set, if_neg hk]
    exact h k

theorem paramValue_measurable_re (p : Param ℝ) (d : DistKind) {X : Type} [MeasurableSpace X] {f g : X → ℝ} (hf : Measurable f) :
    Measurable fun x => (paramValue d p (f x) (g x)).re := by
  cases p with
  | const c nm =>
    simp only [paramValue]
    exact measurable_const
  | range a b nm => cases a <;> cases b <;> exact (drawFrom_measurable _ _ _).comp hf

theorem paramValue_measurable_im (p : Param ℝ) (d : DistKind) {X : Type} [MeasurableSpace X] {f g : X → ℝ} (hg : Measurable g) :
    Measurable fun x => (paramValue d p (f x) (g x)).im := by
  cases p with
  | const c nm =>
    simp only [paramValue]
    exact measurable_const
  | range a b nm =>
    cases a <;> cases b <;> first | exact (drawFrom_measurable _ _ _).comp hg | exact measurable_const

theorem roughnessValue_measurable (q : Param ℝ) {d : DistKind} {X : Type} [MeasurableSpace X] {t v : X → ℝ} (ht : Measurable t) (hv : Measurable v) :
    Measurable fun x => roughnessValue d q (t x) (v x) := by
  unfold roughnessValue
  refine Measurable.ite (measurableSet_lt (ht.div_const 2) measurable_const) measurable_const ?_
  have hb : Measurable fun x => min q.max.re (t x / 2) := measurable_const.min (ht.div_const 2)
  unfold drawFrom
  cases d
  case logarithmic =>
    simp only [Real.logb]
    exact (measurable_const.pow (measurable_const.add ((((Real.measurable_log.comp hb).div_const _).sub measurable_const).mul hv)))
  all_goals exact measurable_const.add ((hb.sub measurable_const).mul hv)

theorem tableStep_rowWise (d : DistKind) (n j : ℕ) (l : LayerV ℝ) {F : (Cell → ℝ) → Frame (Num ℝ)} (h : RowWise n F) :
    RowWise n fun w => tableStep d n w j (F w) l := by
  unfold tableStep
  have ms : ∀ part : Part, Measurable fun v : ℕ × Part → ℝ => v (j, part) := fun part => measurable_pi_apply _
  cases l.sld with
  | none => exact h
  | some p =>
    have h1 := h.set (l.name ++ "_sld".toList) (fun v => paramValue d p (v (j, .sldRe)) (v (j, .sldIm)))
      (paramValue_measurable_re p d (ms _)) (paramValue_measurable_im p d (ms _))
    cases l.thickness with
    | none =>
      cases l.roughness with
      | none => exact h1
      | some q =>
        exact h1.set (l.name ++ "_roughness".toList) (fun v => paramValue d q (v (j, .roughness)) 0)
          (paramValue_measurable_re q d (ms _)) (paramValue_measurable_im q d measurable_const)
    | some t =>
      cases l.roughness with
      | none => exact h1
      | some q =>
        have h2 := h1.set (l.name ++ "_thickness".toList) (fun v => paramValue d t (v (j, .thickness)) 0)
          (paramValue_measurable_re t d (ms _)) (paramValue_measurable_im t d measurable_const)
        exact h2.set (l.name ++ "_roughness".toList)
          (fun v => Num.real (roughnessValue d q (paramValue d t (v (j, .thickness)) 0).re (v (j, .roughness))))
          (roughnessValue_measurable q (paramValue_measurable_re t d (ms _)) (ms _)) measurable_const

theorem tableLoop_rowWise (d : DistKind) (n : ℕ) (ls : List (LayerV ℝ)) (j : ℕ) {F : (Cell → ℝ) → Frame (Num ℝ)} (h : RowWise n F) :
    RowWise n fun w => tableLoop d n w j (F w) ls := by
  induction ls generalizing j F with
  | nil => exact h
  | cons l ls ih => exact ih (j + 1) (tableStep_rowWise d n j l h)

theorem rows_indep {V : Cell → Ω → ℝ} (mV : ∀ c, Measurable (V c)) (iV : iIndepFun V P) (lV : ∀ c, P.map (V c) = unif) :
    iIndepFun (fun (i : ℕ) ω (c : ℕ × Part) => V (c.1, i, c.2) ω) P ∧ ∀ i, P.map (fun ω (c : ℕ × Part) => V (c.1, i, c.2) ω) = iid (ℕ × Part) := by
  have := iV.isProbabilityMeasure
  have hi : ∀ i : ℕ, Function.Injective fun c : ℕ × Part => ((c.1, i, c.2) : Cell) := by
    rintro i ⟨a, b⟩ ⟨a', b'⟩ h
    simp only [Prod.mk.injEq, true_and] at h
    rw [h.1, h.2]
  have he : Function.Injective fun c : ℕ × (ℕ × Part) => ((c.2.1, c.1, c.2.2) : Cell) := by
    rintro ⟨i, a, b⟩ ⟨i', a', b'⟩ h
    simp only [Prod.mk.injEq] at h
    rw [h.1, h.2.1, h.2.2]
  have law : P.map (fun ω c => V c ω) = iid Cell := by
    rw [iV.map_fun_eq_infinitePi_map mV]
    unfold iid
    congr 1
    funext c
    exact lV c
  have mall : Measurable fun ω c => V c ω := measurable_pi_iff.2 mV
  have row : ∀ i, P.map (fun ω (c : ℕ × Part) => V (c.1, i, c.2) ω) = iid (ℕ × Part) := by
    intro i
    rw [← iid_precomp (hi i), ← law, Measure.map_map (by fun_prop) mall]
    rfl
  refine ⟨?_, row⟩
  rw [iIndepFun_iff_map_fun_eq_infinitePi_map fun i => measurable_pi_iff.2 fun c => mV _]
  have e1 : (fun ω (i : ℕ) (c : ℕ × Part) => V (c.1, i, c.2) ω) =
      (MeasurableEquiv.curry ℕ (ℕ × Part) ℝ) ∘ (fun (w : Cell → ℝ) (c : ℕ × (ℕ × Part)) => w (c.2.1, c.1, c.2.2)) ∘ fun ω c => V c ω := rfl
  have m2 : Measurable fun (w : Cell → ℝ) (c : ℕ × (ℕ × Part)) => w (c.2.1, c.1, c.2.2) := by fun_prop
  rw [e1, ← Measure.map_map (MeasurableEquiv.measurable _) (m2.comp mall), ← Measure.map_map m2 mall, law, iid_precomp he]
  simp only [row]
  exact Measure.infinitePi_map_curry (μ := fun (_ : ℕ) (_ : ℕ × Part) => unif)

/-- C124: the rows of the table of random labels are independent of each other and all have the same distribution. -/
theorem C124_rows (C : Chance Ω P) (s : SampleV ℝ) (hs : SampleRegular s) (hn : (partNames s).Nodup) (d : DistArgs)
    (hl : ∀ l ∈ s.structure_, LayerDrawable l ∧ LayerKindOk d.kind l) (n : ℕ) (hpos : 0 < n) (k : ℕ) :
    ∃ T : Ω → Frame (Num ℝ), (∀ ω, ∃ g', generateRandomLabels C.rng.toRng s n d (ω, k) = .ok (T ω, g')) ∧
      iIndepFun (fun (i : Fin n) ω => rowOf (T ω) i) P ∧ ∀ i j : Fin n, P.map (fun ω => rowOf (T ω) i) = P.map fun ω => rowOf (T ω) j := by
  obtain ⟨A, -, dA⟩ := loop_draws C n (fun l hm => ⟨(hl l hm).1, (hl l hm).2, sample_parts hs l hm⟩) 0
  obtain ⟨V, mV, iV, lV, hV⟩ := (dA Unit fun _ => []).random C k
  have hrun : ∀ ω, ∃ f, (∀ k ∈ expectedLabels s.substrate.name (s.layers.map (·.name)) s.ambient.name,
      f.get k = (tableLoop d.kind n (fun c => V c ω) 0 [] s.structure_).get k) ∧
      f.columns = expectedLabels s.substrate.name (s.layers.map (·.name)) s.ambient.name ∧ ∃ g', generateRandomLabels C.rng.toRng s n d (ω, k) = .ok (f, g') := by
    intro ω
    obtain ⟨g', h⟩ := hV ω
    obtain ⟨f, hf, hc, hr⟩ := labels_run hs hpos hn h
    exact ⟨f, hf, hc, g', hr⟩
  choose T hT1 hT2 hT3 using hrun
  have rw' : RowWise n fun w => tableLoop d.kind n w 0 [] s.structure_ :=
    tableLoop_rowWise d.kind n s.structure_ 0 (F := fun _ => []) fun k => Or.inl fun _ => rfl
  have hφ : ∀ label : Str, ∃ ψ : (ℕ × Part → ℝ) → ℝ × ℝ, Measurable ψ ∧ ∀ ω (i : Fin n), rowOf (T ω) i label = ψ fun c => V (c.1, i, c.2) ω := by
    intro label
    by_cases hm : label ∈ expectedLabels s.substrate.name (s.layers.map (·.name)) s.ambient.name
    · rcases rw' label with h | ⟨φ, h1, h2, h3⟩
      · refine ⟨fun _ => (0, 0), measurable_const, fun ω i => ?_⟩
        unfold rowOf
        rw [hT1 ω label hm, h]
      · refine ⟨fun v => ((φ v).re, (φ v).im), h1.prodMk h2, fun ω i => ?_⟩
        unfold rowOf
        rw [hT1 ω label hm, h3]
        simp only [List.getD_eq_getElem?_getD, List.getElem?_map, List.getElem?_range i.2, Option.map_some, Option.getD_some]
    · refine ⟨fun _ => (0, 0), measurable_const, fun ω i => ?_⟩
      unfold rowOf
      rw [get_of_not_mem (by rw [hT2]; exact hm)]
  choose ψ hψ1 hψ2 using hφ
  have hrow : ∀ ω (i : Fin n), rowOf (T ω) i = fun label => ψ label fun c => V (c.1, i, c.2) ω := fun ω i => funext fun label => hψ2 label ω i
  have mψ : Measurable fun (v : ℕ × Part → ℝ) (label : Str) => ψ label v := measurable_pi_iff.2 hψ1
  obtain ⟨r1, r2⟩ := rows_indep mV iV lV
  have mrow : ∀ i : ℕ, Measurable fun ω (c : ℕ × Part) => V (c.1, i, c.2) ω := fun i => measurable_pi_iff.2 fun c => mV _
  refine ⟨T, hT3, ?_, fun i j => ?_⟩
  · simp only [hrow]
    exact (r1.precomp (g := fun i : Fin n => (i : ℕ)) Fin.val_injective).comp (fun _ v label => ψ label v) fun _ => mψ
  · simp only [hrow]
    have e : ∀ i : Fin n, P.map (fun ω label => ψ label fun c => V (c.1, i, c.2) ω) = (iid (ℕ × Part)).map fun v label => ψ label v := by
      intro i
      rw [← r2 i, Measure.map_map mψ (mrow i)]
      rfl
    rw [e, e]

/-! ### Distributions of single labels -/

theorem unif_Iic {t : ℝ} (ht : t ∈ Set.Icc (0 : ℝ) 1) : unif (Set.Iic t) = ENNReal.ofReal t := by
  have h := Chance.product
  have e : unif (Set.Iic t) = (Measure.infinitePi ChanceIdx.law) {ω | Chance.product.u 0 ω ≤ t} := by
    rw [show unif = (Measure.infinitePi ChanceIdx.law).map (Chance.product.u 0) from (Chance.product.u_law 0).symm,
      Measure.map_apply (Chance.product.u_measurable 0) measurableSet_Iic]
    rfl
  rw [e, chance_u_cdf _ _ ht]

theorem drawFrom_lt {d : DistKind} {a b : ℝ} (hab : a ≤ b) (hd : d = .uniform ∨ d = .logarithmic ∧ 0 < a) {v : ℝ} (hv : v ∈ Set.Ico (0 : ℝ) 1) :
    drawFrom d a b v ≤ b := by
  rcases hd with rfl | ⟨rfl, h0⟩
  · simp only [drawFrom]
    nlinarith [hv.1, hv.2]
  · have hb := lt_of_lt_of_le h0 hab
    simp only [drawFrom]
    rw [← Real.le_logb_iff_rpow_le (by norm_num) hb]
    have : Real.logb 10 a ≤ Real.logb 10 b := Real.logb_le_logb_of_le (by norm_num) h0 hab
    nlinarith [hv.1, hv.2]

/-- The values have the documented distribution function. -/
theorem drawFrom_cdf {d : DistKind} {a b : ℝ} (hab : a < b) (hd : d = .uniform ∨ d = .logarithmic ∧ 0 < a) {x : ℝ} (hx : a ≤ x) :
    unif {v | drawFrom d a b v ≤ x} = ENNReal.ofReal (cdfBetween d a b x) := by
  by_cases hb : b ≤ x
  · unfold cdfBetween
    rw [if_pos hb]
    have : unif {v | drawFrom d a b v ≤ x} = unif Set.univ := by
      unfold unif
      rw [Measure.restrict_apply' measurableSet_Ico, Measure.restrict_apply' measurableSet_Ico, Set.univ_inter]
      congr 1
      ext v
      simp only [Set.mem_inter_iff, Set.mem_ofPred_eq, and_iff_right_iff_imp]
      exact fun hv => (drawFrom_lt hab.le hd hv).trans hb
    rw [this]
    simp
  · unfold cdfBetween
    rw [if_neg hb]
    have hb' := not_le.1 hb
    have e : ∀ t, (∀ v, drawFrom d a b v ≤ x ↔ v ≤ t) → t ∈ Set.Icc (0 : ℝ) 1 → unif {v | drawFrom d a b v ≤ x} = ENNReal.ofReal t := by
      intro t h ht
      rw [← unif_Iic ht]
      congr 1
      ext v
      exact h v
    rcases hd with rfl | ⟨rfl, h0⟩
    · have hba : 0 < b - a := sub_pos.2 hab
      refine e _ (fun v => ?_) ⟨div_nonneg (sub_nonneg.2 hx) hba.le, (div_le_one hba).2 (by linarith)⟩
      simp only [drawFrom]
      rw [le_div_iff₀ hba]
      constructor <;> intro h <;> linarith
    · have hx0 : 0 < x := lt_of_lt_of_le h0 hx
      have hlog : Real.log (x / a) / Real.log (b / a) = (Real.logb 10 x - Real.logb 10 a) / (Real.logb 10 b - Real.logb 10 a) := by
        rw [Real.log_div hx0.ne' h0.ne', Real.log_div (h0.trans hab).ne' h0.ne']
        unfold Real.logb
        have : Real.log 10 ≠ 0 := (Real.log_pos (by norm_num)).ne'
        rw [← sub_div, ← sub_div, div_div_div_cancel_right₀ this]
      have hl1 : Real.logb 10 a ≤ Real.logb 10 x := Real.logb_le_logb_of_le (by norm_num) h0 hx
      have hl2 : Real.logb 10 x ≤ Real.logb 10 b := Real.logb_le_logb_of_le (by norm_num) hx0 hb'.le
      have hl3 : 0 < Real.logb 10 b - Real.logb 10 a := sub_pos.2 (Real.logb_lt_logb (by norm_num) h0 hab)
      show _ = ENNReal.ofReal (Real.log (x / a) / Real.log (b / a))
      rw [hlog]
      refine e _ (fun v => ?_) ⟨div_nonneg (sub_nonneg.2 hl1) hl3.le, (div_le_one hl3).2 (by linarith)⟩
      simp only [drawFrom]
      rw [← Real.le_logb_iff_rpow_le (by norm_num) hx0, le_div_iff₀ hl3]
      constructor <;> intro h <;> linarith

theorem law_of_unif {V : Ω → ℝ} (mV : Measurable V) (lV : P.map V = unif) {d : DistKind} {a b : ℝ} (hab : a < b)
    (hd : d = .uniform ∨ d = .logarithmic ∧ 0 < a) : DocumentedLaw P d (fun ω => drawFrom d a b (V ω)) a b := by
  have key : ∀ t, a ≤ t → P {ω | drawFrom d a b (V ω) ≤ t} = ENNReal.ofReal (cdfBetween d a b t) := by
    intro t ht
    rw [← drawFrom_cdf hab hd ht, ← lV, Measure.map_apply mV (measurableSet_le (drawFrom_measurable _ _ _) measurable_const)]
    rfl
  rcases hd with rfl | ⟨rfl, h0⟩
  · intro t ht
    rw [key t ht.1]
    unfold cdfBetween
    split_ifs with h
    · rw [le_antisymm ht.2 h, div_self (sub_pos.2 hab).ne']
    · rfl
  · intro t ht
    rw [key t ht.1]
    unfold cdfBetween
    split_ifs with h
    · rw [le_antisymm ht.2 h, div_self]
      exact (Real.log_pos ((one_lt_div h0).2 hab)).ne'
    · rfl

theorem rowOf_ofFn {f : Frame (Num ℝ)} {label : Str} {n : ℕ} {x : Fin n → Num ℝ} (h : f.get label = .ok (List.ofFn x)) (i : Fin n) :
    rowOf f i label = ((x i).re, (x i).im) := by
  unfold rowOf
  rw [h]
  simp [List.getD_eq_getElem?_getD]

/-- C124: in every row, a thickness, a scattering length density (for complex limits both parts, independently) and the roughness of the
substrate have the documented distribution between their limits. -/
theorem C124_laws (C : Chance Ω P) (s : SampleV ℝ) (hs : SampleRegular s) (hn : (partNames s).Nodup) (d : DistArgs)
    (hl : ∀ l ∈ s.structure_, LayerDrawable l ∧ LayerKindOk d.kind l) (n : ℕ) (hpos : 0 < n) (k : ℕ) (T : Ω → Frame (Num ℝ))
    (hT : ∀ ω, ∃ g', generateRandomLabels C.rng.toRng s n d (ω, k) = .ok (T ω, g')) (l : LayerV ℝ) (hm : l ∈ s.structure_) (i : Fin n) :
    (∀ a b nm, l.thickness = some (.range (.real a) (.real b) nm) → a < b →
      DocumentedLaw P d.kind (fun ω => (rowOf (T ω) i (l.name ++ "_thickness".toList)).1) a b) ∧
    (∀ a b nm, l.sld = some (.range (.real a) (.real b) nm) → a < b →
      DocumentedLaw P d.kind (fun ω => (rowOf (T ω) i (l.name ++ "_sld".toList)).1) a b) ∧
    (∀ a b nm, l.sld = some (.range a b nm) → (a.im ≠ 0 ∨ b.im ≠ 0) → a.re < b.re → a.im < b.im →
      DocumentedLaw P d.kind (fun ω => (rowOf (T ω) i (l.name ++ "_sld".toList)).1) a.re b.re ∧
      DocumentedLaw P d.kind (fun ω => (rowOf (T ω) i (l.name ++ "_sld".toList)).2) a.im b.im ∧
      IndepFun (fun ω => (rowOf (T ω) i (l.name ++ "_sld".toList)).1) (fun ω => (rowOf (T ω) i (l.name ++ "_sld".toList)).2) P) ∧
    (∀ a b nm, l.roughness = some (.range (.real a) (.real b) nm) → l.thickness = none → a < b →
      DocumentedLaw P d.kind (fun ω => (rowOf (T ω) i (l.name ++ "_roughness".toList)).1) a b) := by
  obtain ⟨V, mV, iV, lV, hV⟩ := C124_table C s hs hn d hl n hpos k
  obtain ⟨j, hj⟩ := List.getElem?_of_mem hm
  have hcol : ∀ ω, LayerColumns d.kind n (fun c => V c ω) j (T ω) l := by
    intro ω
    obtain ⟨f, g', h1, -, h2⟩ := hV ω
    obtain ⟨g'', h3⟩ := hT ω
    rw [h1] at h3
    cases h3
    exact h2 j l hj
  have hk := (hl l hm).2
  refine ⟨?_, ?_, ?_, ?_⟩
  · intro a b nm hp hab
    have e : (fun ω => (rowOf (T ω) i (l.name ++ "_thickness".toList)).1) = fun ω => drawFrom d.kind a b (V (j, i, .thickness) ω) := by
      funext ω
      rw [rowOf_ofFn ((hcol ω).thickness _ hp)]
      rfl
    rw [e]
    exact law_of_unif (mV _) (lV _) hab ((hk.thickness _ hp).imp_right fun h => ⟨h.1, h.2.1⟩)
  · intro a b nm hp hab
    have e : (fun ω => (rowOf (T ω) i (l.name ++ "_sld".toList)).1) = fun ω => drawFrom d.kind a b (V (j, i, .sldRe) ω) := by
      funext ω
      rw [rowOf_ofFn ((hcol ω).sld _ hp)]
      rfl
    rw [e]
    exact law_of_unif (mV _) (lV _) hab ((hk.sld _ hp).imp_right fun h => ⟨h.1, h.2.1⟩)
  · intro a b nm hp him hre hi
    have hv : ∀ v w, paramValue d.kind (.range a b nm) v w = .cplx true (drawFrom d.kind a.re b.re v) (drawFrom d.kind a.im b.im w) := by
      intro v w
      unfold paramValue
      split
      · next h => cases h
      · next h => cases h; simp [Num.im] at him
      · next h => cases h; rfl
    have e1 : (fun ω => (rowOf (T ω) i (l.name ++ "_sld".toList)).1) = fun ω => drawFrom d.kind a.re b.re (V (j, i, .sldRe) ω) := by
      funext ω
      rw [rowOf_ofFn ((hcol ω).sld _ hp), hv]
      rfl
    have e2 : (fun ω => (rowOf (T ω) i (l.name ++ "_sld".toList)).2) = fun ω => drawFrom d.kind a.im b.im (V (j, i, .sldIm) ω) := by
      funext ω
      rw [rowOf_ofFn ((hcol ω).sld _ hp), hv]
      rfl
    rw [e1, e2]
    refine ⟨law_of_unif (mV _) (lV _) hre ((hk.sld _ hp).imp_right fun h => ⟨h.1, h.2.1⟩),
      law_of_unif (mV _) (lV _) hi ((hk.sld _ hp).imp_right fun h => ⟨h.1, h.2.2 him⟩), ?_⟩
    exact (iV.indepFun (i := (j, (i : ℕ), Part.sldRe)) (j := (j, (i : ℕ), Part.sldIm)) (by simp)).comp (drawFrom_measurable _ _ _) (drawFrom_measurable _ _ _)
  · intro a b nm hq ht hab
    have e : (fun ω => (rowOf (T ω) i (l.name ++ "_roughness".toList)).1) = fun ω => drawFrom d.kind a b (V (j, i, .roughness) ω) := by
      funext ω
      rw [rowOf_ofFn ((hcol ω).roughness _ hq ht)]
      rfl
    rw [e]
    exact law_of_unif (mV _) (lV _) hab (hk.roughness _ hq)

/-- C124: in every row, the roughness of a film has, given its thickness `t`, the documented distribution between its lower limit and the
smaller one of its upper limit and `t / 2`. If `t / 2` is below the lower limit, the roughness is the lower limit. -/
theorem C124_roughness (C : Chance Ω P) (s : SampleV ℝ) (hs : SampleRegular s) (hn : (partNames s).Nodup) (d : DistArgs)
    (hl : ∀ l ∈ s.structure_, LayerDrawable l ∧ LayerKindOk d.kind l) (n : ℕ) (hpos : 0 < n) (k : ℕ) (T : Ω → Frame (Num ℝ))
    (hT : ∀ ω, ∃ g', generateRandomLabels C.rng.toRng s n d (ω, k) = .ok (T ω, g')) (l : LayerV ℝ) (hm : l ∈ s.structure_) (i : Fin n)
    (p : Param ℝ) (mn mx : ℝ) (nm : Option Str) (hp : l.thickness = some p) (hq : l.roughness = some (.range (.real mn) (.real mx) nm)) (hmm : mn < mx)
    (t r : Ω → ℝ) (ht : t = fun ω => (rowOf (T ω) i (l.name ++ "_thickness".toList)).1) (hr : r = fun ω => (rowOf (T ω) i (l.name ++ "_roughness".toList)).1) :
    (∀ B, MeasurableSet B → (∀ x ∈ B, mn < x / 2) → ∀ x, mn ≤ x →
      P {ω | t ω ∈ B ∧ r ω ≤ x} = ∫⁻ ω in {ω | t ω ∈ B}, ENNReal.ofReal (cdfBetween d.kind mn (min mx (t ω / 2)) x) ∂P) ∧
    ∀ ω, t ω / 2 < mn → r ω = mn := by
  obtain ⟨V, mV, iV, lV, hV⟩ := C124_table C s hs hn d hl n hpos k
  obtain ⟨j, hj⟩ := List.getElem?_of_mem hm
  have hcol : ∀ ω, LayerColumns d.kind n (fun c => V c ω) j (T ω) l := by
    intro ω
    obtain ⟨f, g', h1, -, h2⟩ := hV ω
    obtain ⟨g'', h3⟩ := hT ω
    rw [h1] at h3
    cases h3
    exact h2 j l hj
  have := chance_prob C
  have e1 : t = fun ω => (paramValue d.kind p (V (j, i, .thickness) ω) 0).re := by
    rw [ht]
    funext ω
    rw [rowOf_ofFn ((hcol ω).thickness _ hp)]
  have e2 : r = fun ω => roughnessValue d.kind (.range (.real mn) (.real mx) nm) (t ω) (V (j, i, .roughness) ω) := by
    rw [hr, e1]
    funext ω
    rw [rowOf_ofFn ((hcol ω).film _ _ hp hq)]
    rfl
  have mt : Measurable t := by
    rw [e1]
    exact paramValue_measurable_re p d.kind (mV _)
  have ind : IndepFun t (V (j, i, .roughness)) P := by
    rw [e1]
    exact (iV.indepFun (i := (j, (i : ℕ), Part.thickness)) (j := (j, (i : ℕ), Part.roughness)) (by simp)).comp (paramValue_measurable p d.kind) measurable_id
  have law : P.map (fun ω => (t ω, V (j, i, .roughness) ω)) = (P.map t).prod unif := by
    rw [(indepFun_iff_map_prod_eq_prod_map_map mt.aemeasurable (mV _).aemeasurable).1 ind, lV]
    rfl
  have hk := ((hl l hm).2).roughness _ hq
  refine ⟨fun B hB hBm x hx => ?_, fun ω h => ?_⟩
  · have mS : MeasurableSet {y : ℝ × ℝ | y.1 ∈ B ∧ roughnessValue d.kind (.range (.real mn) (.real mx) nm) y.1 y.2 ≤ x} :=
      (measurable_fst hB).inter (measurableSet_le (roughnessValue_measurable _ measurable_fst measurable_snd) measurable_const)
    have e3 : {ω | t ω ∈ B ∧ r ω ≤ x} = (fun ω => (t ω, V (j, i, .roughness) ω)) ⁻¹'
        {y : ℝ × ℝ | y.1 ∈ B ∧ roughnessValue d.kind (.range (.real mn) (.real mx) nm) y.1 y.2 ≤ x} := by
      rw [e2]
      rfl
    rw [e3, ← Measure.map_apply (mt.prodMk (mV _)) mS, law, Measure.prod_apply mS]
    have e4 : ∀ y, unif (Prod.mk y ⁻¹' {y : ℝ × ℝ | y.1 ∈ B ∧ roughnessValue d.kind (.range (.real mn) (.real mx) nm) y.1 y.2 ≤ x}) =
        B.indicator (fun y => ENNReal.ofReal (cdfBetween d.kind mn (min mx (y / 2)) x)) y := by
      intro y
      by_cases hy : y ∈ B
      · rw [Set.indicator_of_mem hy, ← drawFrom_cdf (lt_min hmm (hBm y hy)) hk hx]
        congr 1
        ext v
        simp only [Set.mem_preimage, Set.mem_ofPred_eq, hy, true_and]
        show (if y / 2 < mn then mn else drawFrom d.kind mn (min mx (y / 2)) v) ≤ x ↔ _
        rw [if_neg (not_lt.2 (hBm y hy).le)]
      · rw [Set.indicator_of_notMem hy]
        have : (Prod.mk y ⁻¹' {y : ℝ × ℝ | y.1 ∈ B ∧ roughnessValue d.kind (.range (.real mn) (.real mx) nm) y.1 y.2 ≤ x}) = ∅ := by
          ext v
          simp [hy]
        rw [this, measure_empty]
    simp only [e4]
    have mg : Measurable (B.indicator fun y : ℝ => ENNReal.ofReal (cdfBetween d.kind mn (min mx (y / 2)) x)) := by
      have := measurable_measure_prodMk_left (ν := unif) mS
      rwa [funext e4] at this
    rw [lintegral_map mg mt]
    exact lintegral_indicator (μ := P) (mt hB) fun ω => ENNReal.ofReal (cdfBetween d.kind mn (min mx (t ω / 2)) x)
  · rw [e2]
    show (if t ω / 2 < mn then mn else drawFrom d.kind mn (min mx (t ω / 2)) (V (j, i, .roughness) ω)) = mn
    rw [if_pos h]

/-- The hypotheses of C124 hold for a sample with a film that has a complex range. -/
example (n : ℕ) (hn : 0 < n) : ∃ V : Cell → (ChanceIdx → ℝ) → ℝ, ∀ ω, ∃ f g',
    generateRandomLabels Chance.product.rng.toRng exampleTableSample n ⟨.uniform, none, none⟩ (ω, 0) = .ok (f, g') ∧
    LayerColumns .uniform n (fun c => V c ω) 1 f ⟨.layer, "film".toList, some (.range (.real 10) (.real 20) (some "thickness".toList)),
      some (.range (.real 0) (.real 8) (some "roughness".toList)), some (.range (.cplx true 1 1) (.cplx true 2 2) (some "sld".toList))⟩ := by
  have H : SampleRegular exampleTableSample := by
    refine ⟨⟨rfl, rfl, ⟨_, rfl, ⟨rfl, trivial⟩, ?_⟩, ⟨_, rfl, rfl, trivial⟩⟩, ⟨rfl, rfl, rfl, ⟨_, rfl, rfl, trivial⟩⟩, ?_⟩
    · simp only [Param.min, Num.ltZero]; norm_num
    · intro l hl
      simp only [exampleTableSample, List.mem_singleton] at hl
      subst hl
      refine ⟨Or.inl rfl, ⟨_, rfl, ⟨rfl, ?_⟩, ?_⟩, ⟨_, rfl, ⟨rfl, ?_⟩, ?_⟩, ⟨_, rfl, rfl, ?_⟩⟩
      · simp only [ParamValid, Num.ge]; norm_num
      · simp only [Param.min, Num.ltZero]; norm_num
      · simp only [ParamValid, Num.ge]; norm_num
      · simp only [Param.min, Num.ltZero]; norm_num
      · simp only [ParamValid, Num.ge, Num.isNp, Num.re]; norm_num
  have H2 : ∀ l ∈ exampleTableSample.structure_, LayerDrawable l ∧ LayerKindOk .uniform l := by
    intro l hl
    refine ⟨?_, fun _ _ => Or.inl rfl, fun _ _ => Or.inl rfl, fun _ _ => Or.inl rfl⟩
    simp only [SampleV.structure_, exampleTableSample, List.cons_append, List.nil_append, List.mem_cons,
      List.not_mem_nil, or_false] at hl
    rcases hl with rfl | rfl | rfl
    · refine ⟨?_, by simp, ?_⟩ <;> rintro p ⟨⟩
      · trivial
      · exact ⟨1, 1, rfl, rfl, le_refl _⟩
    · refine ⟨?_, ?_, ?_⟩ <;> rintro p ⟨⟩
      · exact ⟨by simp [Num.re], by simp [Num.im], Or.inr (Or.inl (by simp [Num.im]))⟩
      · exact ⟨10, 20, rfl, rfl, by norm_num⟩
      · exact ⟨0, 8, rfl, rfl, by norm_num⟩
    · refine ⟨?_, by simp, by simp⟩
      rintro p ⟨⟩
      trivial
  obtain ⟨V, -, -, -, hV⟩ := C124_table Chance.product exampleTableSample H (by simp only [partNames, exampleTableSample]; decide)
    ⟨.uniform, none, none⟩ H2 n hn 0
  refine ⟨V, fun ω => ?_⟩
  obtain ⟨f, g', h, -, hc⟩ := hV ω
  exact ⟨f, g', h, hc 1 _ rfl⟩

end Verif.Props
