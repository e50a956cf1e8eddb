import Verif.Props.ClosedLoop
import Verif.Props.FittedCurve

/-!
# C60, C61, C98 and C109 for the simulation of the code

The theorems about fits ask that the network returns one row per curve and that the simulation returns one curve per row. Here this
is proved for a network that computes its outputs row by row and for the simulation of the generator (`codeEnv`).
-/

namespace Verif.Props
open Verif.Py Verif.Model Verif.Spec Verif.Model.FitEnv

/-- A sample with at least one layer whose parts have distinct names, free of the key words of the labels, and proper ranges. -/
structure CodeSample (s : SampleV ℝ) : Prop where
  regular : SampleRegular s
  names : (partNames s).Nodup
  free : KeywordFree (partNames s)
  layers : 0 < s.layers.length

variable {engine : Option Engine} {trainedQ mean std : List ℝ} {outputs : Nat} {net : List ℝ → Nat → Fl} {s : SampleV ℝ}
  {optimizer : (List ℝ → Res (List (Option ℝ))) → List ℝ → List ℝ → List ℝ → List ℝ → Res (List ℝ)}

theorem code_net : NetShape (codeEnv engine ((labelParams s).map Prod.fst) trainedQ mean std outputs net s optimizer) :=
  RowNet.shape ⟨outputs, net, fun _ => rfl⟩

theorem code_sim (h : CodeSample s) : SimShape (codeEnv engine ((labelParams s).map Prod.fst) trainedQ mean std outputs net s optimizer) :=
  fun _ _ _ hr => generator_shape h.regular h.free h.layers (engine := engine) hr

theorem reflectivityOf_range {m : Mat} {v : ℝ} (h : reflectivityOf m = some v) : 0 ≤ v ∧ v ≤ 1 := by
  unfold reflectivityOf at h
  split_ifs at h
  cases h
  exact ⟨le_min (by positivity) zero_le_one, min_le_right _ _⟩

theorem multilayer_range {q t r : List ℝ} {sl : List ℂ} {amb : ℂ} {c : List (Option ℝ)} (h : multilayerReflectivity q t r sl amb = .ok c) {v : ℝ}
    (hv : some v ∈ c) : 0 ≤ v ∧ v ≤ 1 := by
  unfold multilayerReflectivity at h
  split_ifs at h
  simp only at h
  split_ifs at h
  obtain ⟨total, -, h⟩ := bind_eq_ok.1 h
  cases h
  obtain ⟨m, -, hm⟩ := List.mem_map.1 hv
  exact reflectivityOf_range hm

theorem assignRow_mem {nq : Nat} {r c : List (Option ℝ)} (h : assignRow nq r = .ok c) {v : Option ℝ} (hv : v ∈ c) : v ∈ r := by
  unfold assignRow at h
  split_ifs at h
  · cases h; exact hv
  · split at h
    · cases h
      rw [List.eq_of_mem_replicate hv]
      exact List.mem_cons_self
    · cases h

/-- The numbers that the builtin engine returns lie between 0 and 1. -/
theorem builtin_range {names : List Str} {q : List ℝ} {t : Table} {r : List (List (Option ℝ))} (h : generatorSimulate none names q t = .ok r) :
    ∀ c ∈ r, ∀ v : ℝ, some v ∈ c → 0 ≤ v ∧ v ≤ 1 := by
  unfold generatorSimulate at h
  split_ifs at h
  obtain ⟨tab, -, h⟩ := bind_eq_ok.1 h
  simp only at h
  unfold runBuiltin at h
  intro c hc v hv
  obtain ⟨i, hi, rfl⟩ := List.getElem_of_mem hc
  have hf := mapM_ok_iff.1 h
  have := (List.forall₂_iff_get.1 hf).2 i (by rw [hf.length_eq]; exact hi) hi
  simp only [List.get_eq_getElem] at this
  obtain ⟨_, -, this⟩ := bind_eq_ok.1 this
  obtain ⟨_, -, this⟩ := bind_eq_ok.1 this
  obtain ⟨_, -, this⟩ := bind_eq_ok.1 this
  obtain ⟨_, -, this⟩ := bind_eq_ok.1 this
  obtain ⟨_, -, this⟩ := bind_eq_ok.1 this
  obtain ⟨res, hres, this⟩ := bind_eq_ok.1 this
  exact multilayer_range hres (assignRow_mem this hv)

/-- Simulated curves without NaN are lists of numbers that are not negative. -/
theorem builtin_sims {names : List Str} {q : List ℝ} {t : Table} {r : List (List (Option ℝ))} (h : generatorSimulate none names q t = .ok r)
    (hn : ∀ c ∈ r, none ∉ c) : ∃ sims : List (List ℝ), r = sims.map (fun (c : List ℝ) => c.map some) ∧ ∀ c ∈ sims, NonnegCurve c := by
  have hr := builtin_range h
  clear h
  have key : ∀ c : List (Option ℝ), none ∉ c → ∃ d : List ℝ, c = d.map some := by
    intro c hc
    induction c with
    | nil => exact ⟨[], rfl⟩
    | cons x c ih =>
      obtain ⟨d, rfl⟩ := ih fun h => hc (List.mem_cons_of_mem _ h)
      cases x with
      | none => exact absurd List.mem_cons_self hc
      | some y => exact ⟨y :: d, rfl⟩
  induction r with
  | nil => exact ⟨[], rfl, fun c hc => by cases hc⟩
  | cons c r ih =>
    obtain ⟨sims, h1, h2⟩ := ih (fun d hd => hn d (List.mem_cons_of_mem _ hd)) (fun d hd => hr d (List.mem_cons_of_mem _ hd))
    obtain ⟨d, rfl⟩ := key c (hn c List.mem_cons_self)
    refine ⟨d :: sims, by rw [h1]; rfl, fun e he => ?_⟩
    rcases List.mem_cons.1 he with rfl | he
    · exact fun v hv => (hr _ List.mem_cons_self v (List.mem_map.2 ⟨v, hv, rfl⟩)).1
    · exact h2 e he

/-- C61 for the simulation of the code, with any engine: the reported shift and factor are the best of the drawn ones. Missing:
simulated curves with NaN, for which it is false (`C61_nan`). -/
theorem C61_code_partial (engine : Option Engine) (trainedQ mean std : List ℝ) (outputs : Nat) (net : List ℝ → Nat → Fl) (s : SampleV ℝ)
    (optimizer : (List ℝ → Res (List (Option ℝ))) → List ℝ → List ℝ → List ℝ → List ℝ → Res (List ℝ)) (h : CodeSample s)
    (hq : trainedQ.Pairwise (· < ·)) (hne : trainedQ ≠ []) (q curve draws : List ℝ) (x : ℝ) (t : Table) :
    let env := codeEnv engine ((labelParams s).map Prod.fst) trainedQ mean std outputs net s optimizer
    (env.optimizeQ q curve draws = .ok (x, t) → BestShift env q curve draws x t) ∧
    ∀ lo hi dq, env.optimizeScaling q lo hi curve draws dq = .ok (x, t) → BestScaling env q lo hi curve draws dq x t :=
  ⟨fun ho => C61_q_partial _ hq hne code_net (code_sim h) q curve draws x t ho,
    fun lo hi dq ho => C61_scaling_partial _ code_net (code_sim h) q lo hi curve draws dq x t ho⟩

/-- C61 for the builtin engine: the selected variant has the smallest log MSE whenever no simulated value is NaN; nothing else is
asked of the network or the simulated curves. Missing: NaN (`C61_nan`). -/
theorem C61_builtin_partial (trainedQ mean std : List ℝ) (outputs : Nat) (net : List ℝ → Nat → Fl) (s : SampleV ℝ)
    (optimizer : (List ℝ → Res (List (Option ℝ))) → List ℝ → List ℝ → List ℝ → List ℝ → Res (List ℝ)) (h : CodeSample s)
    (hq : trainedQ.Pairwise (· < ·)) (hne : trainedQ ≠ []) (q curve shifts : List ℝ) (x : ℝ) (t : Table) :
    let env := codeEnv none ((labelParams s).map Prod.fst) trainedQ mean std outputs net s optimizer
    env.optimizeQ q curve shifts = .ok (x, t) →
    ∃ variants params data refl k,
      List.Forall₂ (fun (d : ℝ) (v : List ℝ) => interpReflectivity trainedQ (q.map fun (x : ℝ) => x + d) curve = .ok v) shifts variants ∧
      env.predict variants = .ok params ∧ env.simulate trainedQ params = .ok refl ∧ refl.length = shifts.length ∧
      interpReflectivity trainedQ q curve = .ok data ∧ shifts[k]? = some x ∧ t = params.row k ∧
      ((∀ c ∈ refl, none ∉ c) → ∃ sims : List (List ℝ), refl = sims.map (fun (c : List ℝ) => c.map some) ∧
        ∃ best, sims[k]? = some best ∧ ∀ c ∈ sims, PositiveCurve c → PositiveCurve best ∧ logMse data best ≤ logMse data c) := by
  intro env ho
  obtain ⟨variants, params, data, refl, k, h1, h2, -, h4, h5, h6, h7, h8, h9⟩ := C61_q_partial env hq hne code_net (code_sim h) q curve shifts x t ho
  refine ⟨variants, params, data, refl, k, h1, h2, h4, h5, h6, h7, h8, fun hn => ?_⟩
  obtain ⟨sims, g1, g2⟩ := builtin_sims h4 hn
  exact ⟨sims, g1, h9 sims g1 g2⟩

/-- C60 for the simulation of the code, both optimizations. Missing: one optimization alone, for which it is false (`C60_false`). -/
theorem C60_code_partial (engine : Option Engine) (trainedQ mean std : List ℝ) (outputs : Nat) (net : List ℝ → Nat → Fl) (s : SampleV ℝ)
    (optimizer : (List ℝ → Res (List (Option ℝ))) → List ℝ → List ℝ → List ℝ → List ℝ → Res (List ℝ)) (h : CodeSample s)
    (hq : trainedQ.Pairwise (· < ·)) (hne : trainedQ ≠ []) (curves : List (List ℝ)) (q : List ℝ) (o : Options) (shifts scalings : Nat → List ℝ)
    (out : Output) (ho : o.optimizeQ = true) (hs : o.optimizeScaling = true) (hp : o.polish = false) :
    let env := codeEnv engine ((labelParams s).map Prod.fst) trainedQ mean std outputs net s optimizer
    env.fitCurve curves q o shifts scalings = .ok out →
    ∃ lo hi bs ss, env.qIndices q = .ok (lo, hi) ∧ out.bestShift = some bs ∧ out.bestScaling = some ss ∧
      bs.length = curves.length ∧ ss.length = curves.length ∧ out.params.rows = curves.length ∧
      ∀ i c, curves[i]? = some c → ∃ b s, bs[i]? = some b ∧ ss[i]? = some s ∧
        (∃ u, BestShift env q c (shifts i) b u) ∧ BestScaling env q lo hi c (scalings i) b s (out.params.row i) :=
  fun hf => C60_both_partial _ hq hne code_net (code_sim h) curves q o shifts scalings out ho hs hp hf

/-- C98 for the simulation of the code: improvement of what is returned, for predictions within their ranges. The search is asked to
stay within its bounds and not to end above its start. -/
theorem C98_code_partial (engine : Option Engine) (trainedQ mean std : List ℝ) (outputs : Nat) (net : List ℝ → Nat → Fl) (s : SampleV ℝ)
    (optimizer : (List ℝ → Res (List (Option ℝ))) → List ℝ → List ℝ → List ℝ → List ℝ → Res (List ℝ)) (h : CodeSample s) :
    let env := codeEnv engine ((labelParams s).map Prod.fst) trainedQ mean std outputs net s optimizer
    Spec.RealRanges s → WithinBounds env → Descends env → ∀ (curves : List (List ℝ)) (q : List ℝ) (o : Options)
    (shifts scalings : Nat → List ℝ) (out out' : Output),
    env.fitCurve curves q { o with polish := false } shifts scalings = .ok out →
    env.fitCurve curves q { o with polish := true } shifts scalings = .ok out' → ∀ (i : Nat) (c : List ℝ), curves[i]? = some c →
    ∀ v : Str → ℝ, PredictionRow s (out.params.row i) v →
    (∀ n x nm, (n, Param.const x nm) ∈ labelParams s → x.toC = (v n : ℝ)) → PredictionInside s v → (∀ f ∈ o.fractions, f ≤ 1) →
    ∃ lo hi, ∃ s0 s1 : List ℝ, env.qIndices q = .ok (lo, hi) ∧
      env.simulate ((q.take hi).drop lo) (out.params.row i) = .ok [s0.map some] ∧
      env.simulate ((q.take hi).drop lo) (out'.params.row i) = .ok [s1.map some] ∧
      logMse ((c.take hi).drop lo) s1 ≤ logMse ((c.take hi).drop lo) s0 :=
  fun hr hb hd curves q o shifts scalings out out' h1 h2 i c hc v hp hconst hv hf =>
    C98_improves_inside _ h.regular h.names (code_sim h) hr hb hd curves q o shifts scalings out out' h1 h2 i c hc v hp hconst hv hf

/-- C109 for the simulation of the code: the refinement keeps an exact fit exact. -/
theorem C109_code (engine : Option Engine) (trainedQ mean std : List ℝ) (outputs : Nat) (net : List ℝ → Nat → Fl) (s : SampleV ℝ)
    (optimizer : (List ℝ → Res (List (Option ℝ))) → List ℝ → List ℝ → List ℝ → List ℝ → Res (List ℝ)) (h : CodeSample s) :
    let env := codeEnv engine ((labelParams s).map Prod.fst) trainedQ mean std outputs net s optimizer
    Spec.RealRanges s → WithinBounds env → Descends env → ∀ (curves : List (List ℝ)) (q : List ℝ) (o : Options)
    (shifts scalings : Nat → List ℝ) (out out' : Output),
    env.fitCurve curves q { o with polish := false } shifts scalings = .ok out →
    env.fitCurve curves q { o with polish := true } shifts scalings = .ok out' → ∀ (i : Nat) (c : List ℝ), curves[i]? = some c →
    ∀ v : Str → ℝ, PredictionRow s (out.params.row i) v →
    (∀ n x nm, (n, Param.const x nm) ∈ labelParams s → x.toC = (v n : ℝ)) → PredictionInside s v → (∀ f ∈ o.fractions, f ≤ 1) →
    ∀ lo hi : Nat, env.qIndices q = .ok (lo, hi) →
    env.simulate ((q.take hi).drop lo) (out.params.row i) = .ok [((c.take hi).drop lo).map some] →
    env.simulate ((q.take hi).drop lo) (out'.params.row i) = .ok [((c.take hi).drop lo).map some] :=
  fun hr hb hd curves q o shifts scalings out out' h1 h2 i c hc v hp hconst hv hf lo hi hidx he =>
    C109_refined _ h.regular h.names (code_sim h) hr hb hd curves q o shifts scalings out out' h1 h2 i c hc v hp hconst hv hf lo hi hidx he

theorem prep_code : CodeSample (prepSample 0 1) :=
  ⟨prepSample_regular (by norm_num), prepSample_names 0 1, prep_keywordFree, by decide⟩

/-- The optimization of the q shift succeeds with the builtin engine. -/
theorem plain_optimizeQ {b : ℝ} (hb : 0 < b) : ∃ t, plainEnv.optimizeQ [1, 2] [1, b] [0] = .ok (0, t) := by
  have htq : plainEnv.trainedQ = [1, 2] := rfl
  have hq : ([1, 2] : List ℝ).Pairwise (· < ·) := by norm_num
  have hp : PositiveCurve [1, b] := by
    intro v hv
    simp only [List.mem_cons, List.not_mem_nil, or_false] at hv
    rcases hv with rfl | rfl
    · norm_num
    · exact hb
  have hself : interpReflectivity [1, 2] [1, 2] [1, b] = .ok [1, b] := interp_self hq (by simp) rfl hp
  obtain ⟨r, hr⟩ := plain_simulate (b * 10 + 10) b [1, 2]
  have hsh := code_sim prep_code _ _ _ hr
  have hfit : plainEnv.fitPlain [[1, b]] [1, 2] 0 1 = .ok (pairTable (b * 10 + 10) b, r) := by
    unfold FitEnv.fitPlain
    rw [show plainEnv.qIndices [1, 2] = .ok (0, 2) from toy_qIndices (prepSample 0 1), bind_ok]
    have := networkInput_self (env := plainEnv) (v := [[1, b]]) hq (by rw [htq]; simp) (by
      intro c hc
      rw [List.mem_singleton.1 hc]
      exact ⟨rfl, hp⟩)
    rw [htq] at this
    rw [this, bind_ok, plain_predict hb, bind_ok, hr]
    rfl
  obtain ⟨c, hc⟩ : ∃ c, r = [c] := List.length_eq_one_iff.1 hsh.1
  have hcl : c.length = 2 := hsh.2 c (by rw [hc]; exact List.mem_cons_self)
  refine ⟨(pairTable (b * 10 + 10) b).row 0, ?_⟩
  unfold FitEnv.optimizeQ qShiftVariants
  rw [htq, mapM_cons]
  simp only [List.map_cons, List.map_nil, add_zero, hself, bind_ok, mapM_ok_nil, pure, Except.pure, hfit]
  have h1 : curveVariantLogMse [some 1, some b] r = .ok [fMean (List.zipWith logSqErr [some 1, some b] c)] := by
    rw [hc]
    unfold curveVariantLogMse ew
    rw [mapM_cons, if_pos (by simp [hcl])]
    rfl
  rw [h1, bind_ok]
  have h2 : fArgmin [fMean (List.zipWith logSqErr [some 1, some b] c)] = .ok 0 := rfl
  rw [h2, bind_ok]
  have h3 : (pairTable (b * 10 + 10) b).row 0 = pairTable (b * 10 + 10) b := rfl
  rw [h3, hr, bind_ok, hc]
  rfl

/-- The hypotheses of `C61_builtin_partial` hold. -/
example {b : ℝ} (hb : 0 < b) : ∃ t refl, plainEnv.optimizeQ [1, 2] [1, b] [0] = .ok (0, t) ∧ refl.length = 1 ∧
    ((∀ c ∈ refl, none ∉ c) → ∃ sims : List (List ℝ), refl = sims.map fun (c : List ℝ) => c.map some) := by
  obtain ⟨t, h⟩ := plain_optimizeQ hb
  obtain ⟨_, _, _, refl, _, -, -, -, h1, -, -, -, h2⟩ := C61_builtin_partial [1, 2] [0, 0] [1, 1] 2
    (fun (r : List ℝ) (_ : Nat) => some ((r.getD 1 0 : ℝ) : ℂ)) (prepSample 0 1) (fun _ _ start _ _ => .ok start) prep_code (by norm_num)
    (by simp) [1, 2] [1, b] [0] 0 t h
  exact ⟨t, refl, h, h1, fun hn => (h2 hn).imp fun _ g => g.1⟩

end Verif.Props
