import Verif.Props.Generator
import Verif.Props.Sampling
import Verif.Props.Standardize

/-!
# C27, C28, C29, C30: noise functions and noise generators
-/

namespace Verif.Props
open Verif.Py Verif.Model
variable {G : Type} {rng : NoiseRng G}

/-- The curves of an array. -/
def curves : NArr → List (List ℝ)
  | .d1 v => [v]
  | .d2 _ rows => rows
  | .other => []

/-- The argument of the noise level is documented: a number, or a pair of positive limits. -/
def LevelOk : SpreadArg → Prop
  | .num _ => True
  | .tuple [a, b] => 0 < a ∧ 0 < b
  | _ => False

/-- Every level that can be drawn is positive. -/
def LevelPos : SpreadArg → Prop
  | .num x => 0 < x
  | .tuple [a, b] => 0 < a ∧ 0 < b
  | _ => False

/-- The levels that a noise level argument allows. -/
def InLevel : SpreadArg → ℝ → Prop
  | .num x, y => y = x
  | .tuple [a, b], y => y ∈ Set.uIcc a b
  | _, _ => False

theorem drawSpreads_ok (ok : rng.Ok) {s : SpreadArg} {n : Nat} {g g' : G} {l : List ℝ}
    (h : drawSpreads rng s n g = .ok (l, g')) : l.length = n ∧ ∀ x ∈ l, InLevel s x := by
  match s, h with
  | .num x, h =>
    cases Rand.pure_ok.1 h
    exact ⟨List.length_replicate, fun y hy => (List.mem_replicate.1 hy).2⟩
  | .tuple [a, b], h =>
    have h : logDistribution rng.toRng a b n g = .ok (l, g') := h
    obtain ⟨h1, h2⟩ := logDistribution_ok ok.toOk h
    exact ⟨by exact_mod_cast h1, h2⟩
  | .tuple [], h => exact ((Rand.fail_ok (g := g)).1 h).elim
  | .tuple [_], h => exact ((Rand.fail_ok (g := g)).1 h).elim
  | .tuple (_ :: _ :: _ :: _), h => exact ((Rand.fail_ok (g := g)).1 h).elim
  | .other, h => exact ((Rand.fail_ok (g := g)).1 h).elim

theorem logDistribution_total {a b : ℝ} (ha : 0 < a) (hb : 0 < b) (n : Nat) (g : G) :
    ∃ l g', logDistribution rng.toRng a b n g = .ok (l, g') := by
  unfold logDistribution
  rw [if_neg (by push Not; exact ⟨ha, hb⟩)]
  refine Rand.bind_total ⟨(rng.uniform (Real.logb 10 a) (Real.logb 10 b) n g).1,
    (rng.uniform (Real.logb 10 a) (Real.logb 10 b) n g).2, ?_⟩ fun u g1 _ => ⟨_, _, rfl⟩
  unfold drawUniform
  rw [if_neg (by omega), Int.toNat_natCast]

theorem drawSpreads_total {s : SpreadArg} (hs : LevelOk s) (n : Nat) (g : G) :
    ∃ l g', drawSpreads rng s n g = .ok (l, g') := by
  match s, hs with
  | .num x, _ => exact ⟨_, _, rfl⟩
  | .tuple [a, b], hs => exact logDistribution_total hs.1 hs.2 n g

theorem InLevel.pos {s : SpreadArg} (hs : LevelPos s) {x : ℝ} (h : InLevel s x) : 0 < x := by
  match s, hs, h with
  | .num y, hs, h => rw [show x = y from h]; exact hs
  | .tuple [a, b], hs, h =>
    rcases Set.mem_uIcc.1 (show x ∈ Set.uIcc a b from h) with h | h
    · exact hs.1.trans_le h.1
    · exact hs.2.trans_le h.1

theorem LevelPos.ok {s : SpreadArg} (hs : LevelPos s) : LevelOk s := by
  match s, hs with
  | .num y, hs => trivial
  | .tuple [a, b], hs => exact hs

/-- What a successful call of a level noise function consists of. -/
theorem level_ok (ok : rng.Ok) {row : ℝ → List ℝ → Rand G (List ℝ)} {x y : NArr} {s : SpreadArg} {g g' : G}
    {spreads : List ℝ} (h : applyLevelNoise row rng x s g = .ok ((y, spreads), g')) :
    spreads.length = (curves x).length ∧ (∀ l ∈ spreads, InLevel s l) ∧
    ∃ rs, List.Forall₂ (fun p r => ∃ g1 g2, row p.2 p.1 g1 = .ok (r, g2)) ((curves x).zip spreads) rs ∧
      ((∃ v r, x = .d1 v ∧ y = .d1 r ∧ rs = [r]) ∨
       (∃ w rows, x = .d2 w rows ∧ rows ≠ [] ∧ y = .d2 w rs) ∨
       (∃ w, x = .d2 w [] ∧ y = .d1 [] ∧ rs = [])) := by
  match x, h with
  | .other, h => exact ((Rand.fail_ok (g := g)).1 h).elim
  | .d1 v, h =>
    obtain ⟨sp, g1, h1, h⟩ := Rand.bind_ok.1 h
    obtain ⟨l, g2, h2, h⟩ := Rand.bind_ok.1 h
    obtain ⟨r, g3, h3, h⟩ := Rand.bind_ok.1 h
    cases Rand.pure_ok.1 h
    obtain ⟨hl, hin⟩ := drawSpreads_ok ok h1
    obtain ⟨s0, rfl⟩ := List.length_eq_one_iff.1 hl
    have hs0 : s0 = l := by
      have := (Rand.ofRes_ok.1 h2).1
      simpa [Py.getItem, normIdx] using this
    subst hs0
    exact ⟨by simp [curves], hin, [r], List.Forall₂.cons ⟨_, _, h3⟩ .nil, .inl ⟨v, r, rfl, rfl, rfl⟩⟩
  | .d2 w [v], h =>
    obtain ⟨sp, g1, h1, h⟩ := Rand.bind_ok.1 h
    obtain ⟨l, g2, h2, h⟩ := Rand.bind_ok.1 h
    obtain ⟨r, g3, h3, h⟩ := Rand.bind_ok.1 h
    cases Rand.pure_ok.1 h
    obtain ⟨hl, hin⟩ := drawSpreads_ok ok h1
    obtain ⟨s0, rfl⟩ := List.length_eq_one_iff.1 hl
    have hs0 : s0 = l := by
      have := (Rand.ofRes_ok.1 h2).1
      simpa [Py.getItem, normIdx] using this
    subst hs0
    exact ⟨by simp [curves], hin, [r], List.Forall₂.cons ⟨_, _, h3⟩ .nil, .inr (.inl ⟨w, [v], rfl, by simp, rfl⟩)⟩
  | .d2 w [], h =>
    obtain ⟨sp, g1, h1, h⟩ := Rand.bind_ok.1 h
    obtain ⟨rs, g2, h2, h⟩ := Rand.bind_ok.1 h
    cases Rand.pure_ok.1 h
    obtain ⟨hl, hin⟩ := drawSpreads_ok ok h1
    have hr := Rand.mapM_ok h2
    cases hr
    exact ⟨hl, hin, [], .nil, .inr (.inr ⟨w, rfl, by simp [npArrayOfRows], rfl⟩)⟩
  | .d2 w (v :: v' :: vs), h =>
    obtain ⟨sp, g1, h1, h⟩ := Rand.bind_ok.1 h
    obtain ⟨rs, g2, h2, h⟩ := Rand.bind_ok.1 h
    cases Rand.pure_ok.1 h
    obtain ⟨hl, hin⟩ := drawSpreads_ok ok h1
    have hr := Rand.mapM_ok h2
    refine ⟨hl, hin, rs, hr, .inr (.inl ⟨w, _, rfl, by simp, ?_⟩)⟩
    have hne : rs ≠ [] := by
      rintro rfl
      have := hr.length_eq
      simp [hl] at this
    simp [npArrayOfRows, hne]

theorem level_total (ok : rng.Ok) {row : ℝ → List ℝ → Rand G (List ℝ)} {x : NArr} {s : SpreadArg}
    (hs : LevelOk s) (hx : x ≠ .other)
    (hr : ∀ v ∈ curves x, ∀ l, InLevel s l → ∀ g, ∃ r g', row l v g = .ok (r, g')) (g : G) :
    ∃ r g', applyLevelNoise row rng x s g = .ok (r, g') := by
  match x, hx, hr with
  | .d1 v, _, hr =>
    refine Rand.bind_total (drawSpreads_total hs 1 g) fun sp g1 h1 => ?_
    obtain ⟨hl, hin⟩ := drawSpreads_ok ok h1
    obtain ⟨s0, rfl⟩ := List.length_eq_one_iff.1 hl
    refine Rand.bind_total ⟨s0, g1, rfl⟩ fun l g2 h2 => ?_
    have hs0 : s0 = l := by
      have := (Rand.ofRes_ok.1 h2).1
      simpa [Py.getItem, normIdx] using this
    subst hs0
    exact Rand.bind_total (hr v (by simp [curves]) s0 (hin s0 (by simp)) g2) fun r g3 _ => ⟨_, _, rfl⟩
  | .d2 w [v], _, hr =>
    refine Rand.bind_total (drawSpreads_total hs 1 g) fun sp g1 h1 => ?_
    obtain ⟨hl, hin⟩ := drawSpreads_ok ok h1
    obtain ⟨s0, rfl⟩ := List.length_eq_one_iff.1 hl
    refine Rand.bind_total ⟨s0, g1, rfl⟩ fun l g2 h2 => ?_
    have hs0 : s0 = l := by
      have := (Rand.ofRes_ok.1 h2).1
      simpa [Py.getItem, normIdx] using this
    subst hs0
    exact Rand.bind_total (hr v (by simp [curves]) s0 (hin s0 (by simp)) g2) fun r g3 _ => ⟨_, _, rfl⟩
  | .d2 w [], _, hr =>
    refine Rand.bind_total (drawSpreads_total hs _ g) fun sp g1 h1 => ?_
    exact Rand.bind_total ⟨[], g1, rfl⟩ fun r g3 _ => ⟨_, _, rfl⟩
  | .d2 w (v :: v' :: vs), _, hr =>
    refine Rand.bind_total (drawSpreads_total hs _ g) fun sp g1 h1 => ?_
    obtain ⟨hl, hin⟩ := drawSpreads_ok ok h1
    refine Rand.bind_total (Rand.mapM_total (fun p hp g => ?_) g1) fun r g3 _ => ⟨_, _, rfl⟩
    have hp' := List.of_mem_zip (show (p.1, p.2) ∈ _ from hp)
    exact hr p.1 hp'.1 p.2 (hin _ hp'.2) g

theorem shotRow_ok (ok : rng.Ok) {sp : ℝ} {v r : List ℝ} {g g' : G} (h : shotRow rng sp v g = .ok (r, g')) :
    r.length = v.length ∧ ∃ d : List ℝ, d = (rng.normalEach (v.map fun c => (c, Real.sqrt (c * sp))) g).1 ∧
      r = d.map fun x => max x (1e-16) := by
  unfold shotRow at h
  split_ifs at h with hneg
  · exact (Rand.fail_ok.1 h).elim
  · cases h
    exact ⟨by simp [ok.normalEach_length], _, rfl, rfl⟩

theorem poissonRow_ok (ok : rng.Ok) {sp : ℝ} {v r : List ℝ} {g g' : G} (h : poissonRow rng sp v g = .ok (r, g')) :
    r.length = v.length ∧ ∃ d : List ℝ, r = d.map fun x => max x (1e-16) := by
  unfold poissonRow at h
  split_ifs at h with hneg h0
  · exact (Rand.fail_ok.1 h).elim
  · exact (Rand.fail_ok.1 h).elim
  · cases h
    refine ⟨by simp [ok.poissonEach_length], (rng.poissonEach (v.map fun c => c * sp) g).1.map fun (k : ℕ) => (k : ℝ) / sp, ?_⟩
    rw [List.map_map]
    rfl

/-! ### C28 -/

theorem level_shape (ok : rng.Ok) {row : ℝ → List ℝ → Rand G (List ℝ)} {x y : NArr} {s : SpreadArg} {g g' : G}
    {spreads : List ℝ} (h : applyLevelNoise row rng x s g = .ok ((y, spreads), g')) (hw : x.Wf)
    (hr : ∀ l v r g g', row l v g = .ok (r, g') → r.length = v.length) (hc : curves x ≠ []) :
    y.shape = x.shape ∧ y.Wf := by
  obtain ⟨hl, -, rs, hf, hy⟩ := level_ok ok h
  rcases hy with ⟨v, r, rfl, rfl, rfl⟩ | ⟨w, rows, rfl, hne, rfl⟩ | ⟨w, rfl, rfl, rfl⟩
  · obtain ⟨s0, rfl⟩ := List.length_eq_one_iff.1 hl
    obtain ⟨g1, g2, h1⟩ := (List.forall₂_cons.1 hf).1
    exact ⟨by simp [NArr.shape, hr _ _ _ _ _ h1], trivial⟩
  · have hlen : rs.length = rows.length := by
      have := hf.length_eq
      simp only [curves] at this hl
      simp [List.length_zip, hl] at this
      exact this.symm
    refine ⟨by simp [NArr.shape, hlen], fun r hrm => ?_⟩
    obtain ⟨i, hi, rfl⟩ := List.getElem_of_mem hrm
    have hiz : i < ((curves (.d2 w rows)).zip spreads).length := by rw [hf.length_eq]; exact hi
    obtain ⟨g1, g2, h1⟩ := hf.get hiz hi
    have := hr _ _ _ _ _ h1
    simp only [List.get_eq_getElem] at this
    rw [this]
    refine hw _ ?_
    simp only [List.getElem_zip, curves]
    exact List.getElem_mem _
  · exact (hc rfl).elim

/-- C28 for shot noise: the shape is preserved for a single curve and for every batch with at least one
curve. -/
theorem C28_shot (ok : rng.Ok) (x y : NArr) (s : SpreadArg) (g g' : G) (spreads : List ℝ) (hw : x.Wf)
    (hc : curves x ≠ []) (h : applyShotNoise rng x s g = .ok ((y, spreads), g')) :
    y.shape = x.shape ∧ y.Wf :=
  level_shape ok h hw (fun _ _ _ _ _ h => (shotRow_ok ok h).1) hc

/-- C28 for Poisson noise. -/
theorem C28_poisson (ok : rng.Ok) (x y : NArr) (s : SpreadArg) (g g' : G) (spreads : List ℝ) (hw : x.Wf)
    (hc : curves x ≠ []) (h : applyPoissonNoise rng x s g = .ok ((y, spreads), g')) :
    y.shape = x.shape ∧ y.Wf :=
  level_shape ok h hw (fun _ _ _ _ _ h => (poissonRow_ok ok h).1) hc

/-- Without curves the level noise functions return an array of another shape. -/
theorem C28_shot_empty (ok : rng.Ok) (w : Nat) (y : NArr) (s : SpreadArg) (g g' : G) (spreads : List ℝ)
    (h : applyShotNoise rng (.d2 w []) s g = .ok ((y, spreads), g')) : y.shape = [0] := by
  obtain ⟨hl, -, rs, hf, hy⟩ := level_ok ok h
  rcases hy with ⟨v, r, h1, -, -⟩ | ⟨w, rows, h1, hne, -⟩ | ⟨w, -, rfl, -⟩
  · cases h1
  · cases h1; exact (hne rfl).elim
  · rfl

theorem uniformRow_ok (ok : rng.Ok) {lo hi : ℝ} {v r : List ℝ} {g g' : G}
    (h : (do
      let u ← drawUniform rng.toRng lo hi v.length
      return List.zipWith (· * ·) v u : Rand G (List ℝ)) g = .ok (r, g')) :
    ∃ u : List ℝ, u.length = v.length ∧ (∀ f ∈ u, f ∈ Set.uIcc lo hi) ∧ r = List.zipWith (· * ·) v u := by
  obtain ⟨u, g1, h1, h⟩ := Rand.bind_ok.1 h
  cases Rand.pure_ok.1 h
  obtain ⟨a, b, _⟩ := drawUniform_ok ok.toOk h1
  exact ⟨u, by exact_mod_cast a, b, rfl⟩

/-- What a call of `apply_uniform_noise` consists of: every value is multiplied by its own factor. -/
theorem uniform_ok (ok : rng.Ok) {x y : NArr} {lo hi : ℝ} {g g' : G}
    (h : applyUniformNoise rng x lo hi g = .ok (y, g')) :
    ∃ rs, List.Forall₂ (fun v r => ∃ u : List ℝ, u.length = v.length ∧ (∀ f ∈ u, f ∈ Set.uIcc lo hi) ∧
        r = List.zipWith (· * ·) v u) (curves x) rs ∧
      ((∃ v r, x = .d1 v ∧ y = .d1 r ∧ rs = [r]) ∨ (∃ w rows, x = .d2 w rows ∧ y = .d2 w rs)) := by
  match x, h with
  | .other, h => exact ((Rand.fail_ok (g := g)).1 h).elim
  | .d1 v, h =>
    obtain ⟨u, g1, h1, h⟩ := Rand.bind_ok.1 h
    cases Rand.pure_ok.1 h
    obtain ⟨a, b, _⟩ := drawUniform_ok ok.toOk h1
    exact ⟨[_], .cons ⟨u, by exact_mod_cast a, b, rfl⟩ .nil, .inl ⟨v, _, rfl, rfl, rfl⟩⟩
  | .d2 w rows, h =>
    obtain ⟨rs, g1, h1, h⟩ := Rand.bind_ok.1 h
    cases Rand.pure_ok.1 h
    refine ⟨rs, (Rand.mapM_ok h1).imp fun v r ⟨g1, g2, h⟩ => uniformRow_ok ok h, .inr ⟨w, rows, rfl, rfl⟩⟩

theorem forall₂_mem_right {α β : Type} {R : α → β → Prop} {l : List α} {l' : List β}
    (h : List.Forall₂ R l l') {b : β} (hb : b ∈ l') : ∃ a ∈ l, R a b := by
  induction h with
  | nil => simp at hb
  | cons hab _ ih =>
    rcases List.mem_cons.1 hb with rfl | hb
    · exact ⟨_, by simp, hab⟩
    · obtain ⟨a, ha, hr⟩ := ih hb
      exact ⟨a, by simp [ha], hr⟩

/-- C28 for uniform noise, for every number of curves. -/
theorem C28_uniform (ok : rng.Ok) (x y : NArr) (lo hi : ℝ) (g g' : G) (hw : x.Wf)
    (h : applyUniformNoise rng x lo hi g = .ok (y, g')) : y.shape = x.shape ∧ y.Wf := by
  obtain ⟨rs, hf, hy⟩ := uniform_ok ok h
  rcases hy with ⟨v, r, rfl, rfl, rfl⟩ | ⟨w, rows, rfl, rfl⟩
  · obtain ⟨u, hu, -, rfl⟩ := (List.forall₂_cons.1 hf).1
    exact ⟨by simp [NArr.shape, hu], trivial⟩
  · refine ⟨by simp [NArr.shape, ← hf.length_eq, curves], fun r hr => ?_⟩
    obtain ⟨v, hv, u, hu, -, rfl⟩ := forall₂_mem_right hf hr
    simp [hu, hw v hv]

/-- What a call of `apply_scaling_factor` consists of: one factor per curve. -/
theorem scaling_ok (ok : rng.Ok) {x y : NArr} {lo hi : ℝ} {g g' : G}
    (h : applyScalingFactor rng x lo hi g = .ok (y, g')) :
    ∃ rs, List.Forall₂ (fun v r => ∃ f : ℝ, f ∈ Set.uIcc lo hi ∧ r = v.map (· * f)) (curves x) rs ∧
      ((∃ r, rs = [r] ∧ y = .d1 r) ∨ (∃ w rows, x = .d2 w rows ∧ rs.length ≠ 1 ∧ y = .d2 w rs)) := by
  have key : ∀ (rows : List (List ℝ)) (s : List ℝ), s.length = rows.length → (∀ f ∈ s, f ∈ Set.uIcc lo hi) →
      List.Forall₂ (fun v r => ∃ f : ℝ, f ∈ Set.uIcc lo hi ∧ r = v.map (· * f)) rows
        (List.zipWith (fun v f => v.map (· * f)) rows s) := by
    intro rows
    induction rows with
    | nil => intro s hs _; simp
    | cons v rows ih =>
      intro s hs hm
      cases s with
      | nil => simp at hs
      | cons f s =>
        exact .cons ⟨f, hm f (by simp), rfl⟩ (ih s (by simpa using hs) fun f hf => hm f (by simp [hf]))
  match x, h with
  | .other, h =>
    unfold applyScalingFactor at h
    obtain ⟨p, g1, h1, h⟩ := Rand.bind_ok.1 h
    exact (Rand.fail_ok.1 h1).elim
  | .d1 v, h =>
    unfold applyScalingFactor at h
    obtain ⟨p, g1, h1, h⟩ := Rand.bind_ok.1 h
    cases Rand.pure_ok.1 h1
    obtain ⟨s, g2, h2, h⟩ := Rand.bind_ok.1 h
    obtain ⟨a, b, _⟩ := drawUniform_ok ok.toOk h2
    have a : s.length = 1 := by exact_mod_cast a
    obtain ⟨f, rfl⟩ := List.length_eq_one_iff.1 a
    cases Rand.pure_ok.1 h
    exact ⟨[_], .cons ⟨f, b f (by simp), rfl⟩ .nil, .inl ⟨_, rfl, rfl⟩⟩
  | .d2 w rows, h =>
    unfold applyScalingFactor at h
    obtain ⟨p, g1, h1, h⟩ := Rand.bind_ok.1 h
    cases Rand.pure_ok.1 h1
    obtain ⟨s, g2, h2, h⟩ := Rand.bind_ok.1 h
    obtain ⟨a, b, _⟩ := drawUniform_ok ok.toOk h2
    have a : s.length = rows.length := by exact_mod_cast a
    have hk := key rows s a b
    refine ⟨_, hk, ?_⟩
    generalize hz : List.zipWith (fun v f => v.map (· * f)) rows s = z at h
    rcases z with _ | ⟨z1, _ | ⟨z2, zs⟩⟩
    · cases Rand.pure_ok.1 h; exact .inr ⟨w, rows, rfl, by simp, rfl⟩
    · cases Rand.pure_ok.1 h; exact .inl ⟨z1, rfl, rfl⟩
    · cases Rand.pure_ok.1 h; exact .inr ⟨w, rows, rfl, by simp, rfl⟩

/-- C28 for the scaling factor, except for a batch of one curve. -/
theorem C28_scaling_partial (ok : rng.Ok) (x y : NArr) (lo hi : ℝ) (g g' : G) (hw : x.Wf)
    (hone : ∀ w v, x ≠ .d2 w [v]) (h : applyScalingFactor rng x lo hi g = .ok (y, g')) :
    y.shape = x.shape ∧ y.Wf := by
  obtain ⟨rs, hf, hy⟩ := scaling_ok ok h
  rcases hy with ⟨r, rfl, rfl⟩ | ⟨w, rows, rfl, -, rfl⟩
  · match x, hf, hone with
    | .d1 v, hf, _ =>
      obtain ⟨f, -, rfl⟩ := (List.forall₂_cons.1 hf).1
      exact ⟨by simp [NArr.shape], trivial⟩
    | .d2 w [v], _, hone => exact (hone w v rfl).elim
    | .d2 w [], hf, _ => cases hf
    | .d2 w (_ :: _ :: _), hf, _ => cases hf with | cons _ h => cases h
    | .other, hf, _ => cases hf
  · refine ⟨by simp [NArr.shape, ← hf.length_eq, curves], fun r hr => ?_⟩
    obtain ⟨v, hv, f, -, rfl⟩ := forall₂_mem_right hf hr
    simp [hw v hv]

/-- C28 fails for the scaling factor and a batch of one curve: the batch dimension is lost. -/
theorem C28_scaling_one (ok : rng.Ok) (w : Nat) (v : List ℝ) (hv : v.length = w) (y : NArr) (lo hi : ℝ) (g g' : G)
    (h : applyScalingFactor rng (.d2 w [v]) lo hi g = .ok (y, g')) :
    y.shape = [w] ∧ y.shape ≠ (NArr.d2 w [v]).shape := by
  obtain ⟨rs, hf, hy⟩ := scaling_ok ok h
  rcases hy with ⟨r, rfl, rfl⟩ | ⟨w, rows, he, hl, rfl⟩
  · obtain ⟨f, -, rfl⟩ := (List.forall₂_cons.1 hf).1
    simp [NArr.shape, hv]
  · have := hf.length_eq
    simp [curves] at this
    omega

/-- C28 for the background: one row per curve, one value per point, one level per curve. -/
theorem C28_background (ok : rng.Ok) (n m : Nat) (level : SpreadArg) (rel : ℝ) (g g' : G)
    (bg : List (List ℝ)) (means : List ℝ) (h : generateBackground rng n m level rel g = .ok ((bg, means), g')) :
    bg.length = n ∧ (∀ r ∈ bg, r.length = m) ∧ means.length = n ∧ ∀ x ∈ means, InLevel level x := by
  obtain ⟨ms, g1, h1, h⟩ := Rand.bind_ok.1 h
  obtain ⟨rs, g2, h2, h⟩ := Rand.bind_ok.1 h
  cases Rand.pure_ok.1 h
  obtain ⟨hl, hin⟩ := drawSpreads_ok ok h1
  have hf := Rand.mapM_ok h2
  refine ⟨by rw [← hf.length_eq, hl], fun r hr => ?_, hl, hin⟩
  obtain ⟨x, hx, g3, g4, h3⟩ := forall₂_mem_right hf hr
  unfold normalRow at h3
  split_ifs at h3
  · exact (Rand.fail_ok.1 h3).elim
  · have := congrArg (fun p => p.1.length) (Except.ok.inj h3)
    simp only [ok.normalEach_length, List.length_replicate] at this
    exact this.symm

/-! ### C29 -/

/-- Every value of every curve is at least `1e-16`. -/
def AtLeastFloor (x : NArr) : Prop := ∀ v ∈ curves x, ∀ c ∈ v, (1e-16 : ℝ) ≤ c

theorem level_floor (ok : rng.Ok) {row : ℝ → List ℝ → Rand G (List ℝ)} {x y : NArr} {s : SpreadArg} {g g' : G}
    {spreads : List ℝ} (h : applyLevelNoise row rng x s g = .ok ((y, spreads), g'))
    (hr : ∀ l v r g g', row l v g = .ok (r, g') → ∀ c ∈ r, (1e-16 : ℝ) ≤ c) :
    AtLeastFloor y ∧ spreads.length = (curves x).length ∧ ∀ l ∈ spreads, InLevel s l := by
  obtain ⟨hl, hin, rs, hf, hy⟩ := level_ok ok h
  have hall : ∀ r ∈ rs, ∀ c ∈ r, (1e-16 : ℝ) ≤ c := fun r hrm => by
    obtain ⟨p, -, g1, g2, h1⟩ := forall₂_mem_right hf hrm
    exact hr _ _ _ _ _ h1
  refine ⟨fun v hv => ?_, hl, hin⟩
  rcases hy with ⟨v', r, rfl, rfl, rfl⟩ | ⟨w, rows, rfl, hne, rfl⟩ | ⟨w, rfl, rfl, rfl⟩
  · exact hall v hv
  · exact hall v hv
  · simp only [curves, List.mem_singleton] at hv
    subst hv
    simp

/-- C29 for shot noise: every returned value is at least `1e-16` and one level per curve, within the
requested range, is reported. -/
theorem C29_shot (ok : rng.Ok) (x y : NArr) (s : SpreadArg) (g g' : G) (spreads : List ℝ)
    (h : applyShotNoise rng x s g = .ok ((y, spreads), g')) :
    AtLeastFloor y ∧ spreads.length = (curves x).length ∧ ∀ l ∈ spreads, InLevel s l := by
  refine level_floor ok h fun l v r g g' h c hc => ?_
  obtain ⟨-, d, -, rfl⟩ := shotRow_ok ok h
  obtain ⟨z, -, rfl⟩ := List.mem_map.1 hc
  exact le_max_right _ _

/-- C29 for Poisson noise. -/
theorem C29_poisson (ok : rng.Ok) (x y : NArr) (s : SpreadArg) (g g' : G) (spreads : List ℝ)
    (h : applyPoissonNoise rng x s g = .ok ((y, spreads), g')) :
    AtLeastFloor y ∧ spreads.length = (curves x).length ∧ ∀ l ∈ spreads, InLevel s l := by
  refine level_floor ok h fun l v r g g' h c hc => ?_
  obtain ⟨-, d, rfl⟩ := poissonRow_ok ok h
  obtain ⟨z, -, rfl⟩ := List.mem_map.1 hc
  exact le_max_right _ _

theorem shotRow_total {sp : ℝ} (hs : 0 ≤ sp) {v : List ℝ} (hv : ∀ c ∈ v, 0 ≤ c) (g : G) :
    ∃ r g', shotRow rng sp v g = .ok (r, g') := by
  unfold shotRow
  rw [if_neg]
  · exact ⟨_, _, rfl⟩
  · rintro ⟨c, hc, h⟩
    exact absurd (mul_nonneg (hv c hc) hs) (not_le.2 h)

theorem poissonRow_total {sp : ℝ} (hs : 0 < sp) {v : List ℝ} (hv : ∀ c ∈ v, 0 ≤ c) (g : G) :
    ∃ r g', poissonRow rng sp v g = .ok (r, g') := by
  unfold poissonRow
  rw [if_neg, if_neg hs.ne']
  · exact ⟨_, _, rfl⟩
  · rintro ⟨c, hc, h⟩
    exact absurd (mul_nonneg (hv c hc) hs.le) (not_le.2 h)

/-- C29: for non-negative curves and positive levels both functions always return. -/
theorem C29_total (ok : rng.Ok) (x : NArr) (s : SpreadArg) (hx : x ≠ .other) (hs : LevelPos s)
    (hv : ∀ v ∈ curves x, ∀ c ∈ v, 0 ≤ c) (g : G) :
    (∃ r g', applyShotNoise rng x s g = .ok (r, g')) ∧ (∃ r g', applyPoissonNoise rng x s g = .ok (r, g')) :=
  ⟨level_total ok hs.ok hx (fun v hvm _ hl g => shotRow_total (hl.pos hs).le (hv v hvm) g) g,
   level_total ok hs.ok hx (fun v hvm _ hl g => poissonRow_total (hl.pos hs) (hv v hvm) g) g⟩

/-- The hypotheses of `C29_total` hold for a curve that falls to zero and a range of levels. -/
example : LevelPos (.tuple [1e-8, 1e-6]) ∧ ∀ v ∈ curves (.d1 [1, 0.5, 0]), ∀ c ∈ v, (0 : ℝ) ≤ c := by
  constructor
  · simp only [LevelPos]; norm_num
  · simp [curves]; norm_num

/-! ### C27 and C30: the steps of the noise generators -/

/-- `r` is a noisy version of the curve `c`: drawn with mean `c` and the standard deviation of shot noise
with a level from the range, cut off at `1e-16`; without a range it is the curve itself. -/
def ShotOf (rng : NoiseRng G) (range : Option (List ℝ)) (c r : List ℝ) : Prop :=
  match range with
  | none => r = c
  | some l => ∃ level g, InLevel (.tuple l) level ∧
      r = (rng.normalEach (c.map fun x => (x, Real.sqrt (x * level))) g).1.map fun x => max x (1e-16)

/-- `r` is the curve `c` with a background whose mean is from the range. -/
def BackgroundOf (rng : NoiseRng G) (range : Option (List ℝ)) (rel : ℝ) (width : Nat) (c r : List ℝ) : Prop :=
  match range with
  | none => r = c
  | some l => ∃ mean g, InLevel (.tuple l) mean ∧
      r = List.zipWith (· + ·) c (rng.normalEach (List.replicate width (mean, rel * mean)) g).1

/-- Both limits of an optional range are positive. -/
def RangePos (range : Option (List ℝ)) : Prop := ∀ l, range = some l → LevelPos (.tuple l)

theorem forall₂_zip_left {α β γ : Type} {R : α × β → γ → Prop} {a : List α} {b : List β} {c : List γ}
    (hl : b.length = a.length) (h : List.Forall₂ R (a.zip b) c) :
    List.Forall₂ (fun x z => ∃ y ∈ b, R (x, y) z) a c := by
  induction a generalizing b c with
  | nil => cases h; exact .nil
  | cons x a ih =>
    cases b with
    | nil => simp at hl
    | cons y b =>
      cases h with
      | cons h1 h2 =>
        exact .cons ⟨y, by simp, h1⟩ ((ih (by simpa using hl) h2).imp fun x z ⟨y, hy, h⟩ => ⟨y, by simp [hy], h⟩)

theorem shotStep_ok (ok : rng.Ok) {mode : PyStr} (hm : mode.isLit singleS = true) {range : Option (List ℝ)}
    {w : Nat} {rows : List (List ℝ)} (hne : rows ≠ []) {g g' : G} {y : NArr}
    (h : shotStep rng mode range (.d2 w rows) g = .ok (y, g')) :
    ∃ rs, y = .d2 w rs ∧ List.Forall₂ (fun c r => ShotOf rng range c r ∧ r.length = c.length) rows rs := by
  cases range with
  | none =>
    cases Rand.pure_ok.1 h
    exact ⟨rows, rfl, List.forall₂_same.2 fun c _ => ⟨rfl, rfl⟩⟩
  | some l =>
    unfold shotStep at h
    rw [hm] at h
    simp only [if_true] at h
    rw [Rand.bind_ok] at h
    obtain ⟨⟨y', sp⟩, g1, h1, h⟩ := h
    cases Rand.pure_ok.1 h
    obtain ⟨hl, hin, rs, hf, hy⟩ := level_ok ok h1
    have hf' := forall₂_zip_left hl hf
    rcases hy with ⟨v, r, h2, -, -⟩ | ⟨w', rows', h2, -, h3⟩ | ⟨w', h2, -, -⟩
    · cases h2
    · cases h2
      refine ⟨rs, h3, hf'.imp ?_⟩
      rintro c r ⟨lv, hlv, g1, g2, h⟩
      obtain ⟨hlen, d, rfl, rfl⟩ := shotRow_ok ok h
      exact ⟨⟨lv, g1, hin lv hlv, rfl⟩, hlen⟩
    · cases h2; exact (hne rfl).elim

theorem shotStep_total (ok : rng.Ok) {mode : PyStr} (hm : mode.isLit singleS = true) {range : Option (List ℝ)}
    (hr : RangePos range) {w : Nat} {rows : List (List ℝ)} (hv : ∀ v ∈ rows, ∀ c ∈ v, 0 ≤ c) (g : G) :
    ∃ y g', shotStep rng mode range (.d2 w rows) g = .ok (y, g') := by
  cases range with
  | none => exact ⟨_, _, rfl⟩
  | some l =>
    unfold shotStep
    rw [hm]
    simp only [if_true]
    exact Rand.bind_total (C29_total ok (.d2 w rows) _ (by simp) (hr l rfl) hv g).1 fun r g1 _ => ⟨_, _, rfl⟩

theorem addRows_eq {w : Nat} {rows bg : List (List ℝ)} (h1 : rows.length = bg.length) (h2 : ∀ r ∈ bg, r.length = w) :
    addRows (.d2 w rows) bg = .ok (.d2 w (List.zipWith (List.zipWith (· + ·)) rows bg)) := by
  exact if_pos ⟨h1, h2⟩

theorem background_rows (ok : rng.Ok) {n m : Nat} {level : SpreadArg} {rel : ℝ} {g g' : G}
    {bg : List (List ℝ)} {means : List ℝ} (h : generateBackground rng n m level rel g = .ok ((bg, means), g')) :
    ∀ r ∈ bg, ∃ mean g, InLevel level mean ∧ r = (rng.normalEach (List.replicate m (mean, rel * mean)) g).1 := by
  unfold generateBackground at h
  rw [Rand.bind_ok] at h
  obtain ⟨ms, g1, h1, h⟩ := h
  rw [Rand.bind_ok] at h
  obtain ⟨rs, g2, h2, h⟩ := h
  cases Rand.pure_ok.1 h
  intro r hr
  obtain ⟨x, hx, g3, g4, h3⟩ := forall₂_mem_right (Rand.mapM_ok h2) hr
  unfold normalRow at h3
  split_ifs at h3
  · exact (Rand.fail_ok.1 h3).elim
  · refine ⟨x, g3, (drawSpreads_ok ok h1).2 x hx, ?_⟩
    have := congrArg (fun p => p.1) (Except.ok.inj h3)
    exact this.symm

theorem forall₂_zipWith {α β γ : Type} {f : α → β → γ} {P : β → Prop} {a : List α} {b : List β}
    (hl : a.length = b.length) (hb : ∀ y ∈ b, P y) :
    List.Forall₂ (fun x z => ∃ y, P y ∧ z = f x y) a (List.zipWith f a b) := by
  induction a generalizing b with
  | nil => simp
  | cons x a ih =>
    cases b with
    | nil => simp at hl
    | cons y b =>
      exact .cons ⟨y, hb y (by simp), rfl⟩ (ih (by simpa using hl) fun y hy => hb y (by simp [hy]))

theorem backgroundStep_ok (ok : rng.Ok) {mode : PyStr} (hm : mode.isLit singleS = true) {range : Option (List ℝ)}
    {rel : ℝ} {w : Nat} {rows : List (List ℝ)} (hw : ∀ r ∈ rows, r.length = w) {g g' : G} {y : NArr}
    (h : backgroundStep rng mode range rel w (.d2 w rows) g = .ok (y, g')) :
    ∃ rs, y = .d2 w rs ∧ List.Forall₂ (fun c r => BackgroundOf rng range rel w c r) rows rs ∧
      ∀ r ∈ rs, r.length = w := by
  cases range with
  | none =>
    cases Rand.pure_ok.1 h
    exact ⟨rows, rfl, List.forall₂_same.2 fun c _ => rfl, hw⟩
  | some l =>
    unfold backgroundStep at h
    rw [hm] at h
    simp only [if_true] at h
    rw [Rand.bind_ok] at h
    obtain ⟨⟨bg, means⟩, g1, h1, h⟩ := h
    obtain ⟨b1, b2, -⟩ := C28_background ok _ _ _ _ _ _ _ _ h1
    have hb := background_rows ok h1
    dsimp only [NArr.len] at b1 h
    rw [addRows_eq b1.symm b2] at h
    cases (Rand.ofRes_ok.1 h).1
    have hf := forall₂_zipWith (f := List.zipWith (fun x y : ℝ => x + y)) b1.symm
      (fun y hy => And.intro (hb y hy) (b2 y hy))
    refine ⟨_, rfl, hf.imp ?_, fun r hr => ?_⟩
    · rintro c r ⟨y, ⟨⟨mean, g, hin, rfl⟩, -⟩, rfl⟩
      exact ⟨mean, g, hin, rfl⟩
    · obtain ⟨c, hc, y, ⟨-, hy⟩, rfl⟩ := forall₂_mem_right hf hr
      simp [hw c hc, hy]

theorem generateBackground_total (ok : rng.Ok) {n m : Nat} {level : SpreadArg} (hl : LevelPos level) {rel : ℝ}
    (hr : 0 ≤ rel) (g : G) : ∃ r g', generateBackground rng n m level rel g = .ok (r, g') := by
  refine Rand.bind_total (drawSpreads_total hl.ok n g) fun ms g1 h1 => ?_
  refine Rand.bind_total (Rand.mapM_total (fun x hx g => ?_) g1) fun rs g2 _ => ⟨_, _, rfl⟩
  unfold normalRow
  rw [if_neg]
  · exact ⟨_, _, rfl⟩
  · rintro ⟨p, hp, hneg⟩
    rw [(List.mem_replicate.1 hp).2] at hneg
    exact absurd (mul_nonneg hr (((drawSpreads_ok ok h1).2 x hx).pos hl).le) (not_le.2 hneg)

theorem backgroundStep_total (ok : rng.Ok) {mode : PyStr} (hm : mode.isLit singleS = true)
    {range : Option (List ℝ)} (hr : RangePos range) {rel : ℝ} (hrel : 0 ≤ rel) {w : Nat} {rows : List (List ℝ)}
    (g : G) : ∃ y g', backgroundStep rng mode range rel w (.d2 w rows) g = .ok (y, g') := by
  cases range with
  | none => exact ⟨_, _, rfl⟩
  | some l =>
    unfold backgroundStep
    rw [hm]
    simp only [if_true]
    refine Rand.bind_total (generateBackground_total ok (hr l rfl) hrel g) fun r g1 h1 => ?_
    obtain ⟨b1, b2, -⟩ := C28_background ok _ _ _ _ _ _ r.1 r.2 h1
    dsimp only [NArr.len] at b1 ⊢
    rw [addRows_eq b1.symm b2]
    exact ⟨_, _, rfl⟩

theorem standardizeArr_eq {m sd : List ℝ} {rows : List (List ℝ)} {w : Nat} (hm : m.length = w) (hs : sd.length = w)
    (hr : ∀ r ∈ rows, r.length = w) :
    standardizeArr m sd (.d2 w rows) =
      .ok (.d2 w (rows.map fun r => List.zipWith (· / ·) (List.zipWith (· - ·) r m) sd)) := by
  unfold standardizeArr
  simp only
  rw [bcastRows_eq (fun r h => by rw [hr r h, hm]), bind_ok, bcastRows_eq, bind_ok, List.map_map, hm]
  · rfl
  · intro r h
    obtain ⟨r', h', rfl⟩ := List.mem_map.1 h
    simp [hr r' h', hm, hs]

/-- The setting of a trained generator: consistent data and a fitted preprocessor. -/
structure GenSetting (rng : NoiseRng G) (refl labels : List (List ℝ)) (width batch : Nat) (shuffle : Bool)
    (s : Gen) (m sd : List ℝ) (i : Nat) : Prop where
  reached : Reached rng refl labels width batch shuffle s
  pairs : labels.length = refl.length
  rows : ∀ r ∈ refl, r.length = width
  batchPos : 1 ≤ batch
  mean : m.length = width
  std : sd.length = width
  index : i < s.len

theorem forall₂_comp {α β γ : Type} {R : α → β → Prop} {S : β → γ → Prop} {a : List α} {b : List β} {c : List γ}
    (h1 : List.Forall₂ R a b) (h2 : List.Forall₂ S b c) : List.Forall₂ (fun x z => ∃ y, R x y ∧ S y z) a c := by
  induction h1 generalizing c with
  | nil => cases h2; exact .nil
  | cons h _ ih => cases h2 with | cons h' h2 => exact .cons ⟨_, h, h'⟩ (ih h2)

theorem forall₂_map {α β γ : Type} {f : β → γ} {R : α → β → Prop} {a : List α} {b : List β}
    (h : List.Forall₂ R a b) : List.Forall₂ (fun x z => ∃ y, R x y ∧ z = f y) a (b.map f) := by
  induction h with
  | nil => exact .nil
  | cons h _ ih => exact .cons ⟨_, h, rfl⟩ ih

theorem setting_rows (ok : rng.Ok) {refl labels : List (List ℝ)} {width batch : Nat} {shuffle : Bool} {s : Gen}
    {m sd : List ℝ} {i : Nat} (h : GenSetting rng refl labels width batch shuffle s m sd i) :
    s.width = width ∧ ∃ x y, takeRows s.refl (s.batchIndexes i) = .ok x ∧
      takeRows s.labels (s.batchIndexes i) = .ok y ∧ x ≠ [] ∧ x.length = batch ∧ (s.batchIndexes i).Nodup ∧
      List.Forall₂ (fun j r => refl[j]? = some r) (s.batchIndexes i) x ∧
      List.Forall₂ (fun j r => labels[j]? = some r) (s.batchIndexes i) y ∧
      (∀ r ∈ x, r ∈ refl) := by
  obtain ⟨hi, -⟩ := reached_inv ok h.reached
  obtain ⟨hlt, hnd⟩ := batchIndexes_lt ok h.reached i
  obtain ⟨x, hx, fx⟩ := takeRows_ok (rows := refl) hlt
  obtain ⟨y, hy, fy⟩ := takeRows_ok (rows := labels) (fun j hj => by rw [h.pairs]; exact hlt j hj)
  have hlen := (C26_epoch ok refl labels width batch shuffle s h.reached h.batchPos).2.1 i h.index
  have hxl : x.length = batch := by rw [← fx.length_eq, hlen]
  refine ⟨hi.widthEq, x, y, by rw [hi.reflEq, hx], by rw [hi.labelsEq, hy], ?_, hxl, hnd, fx, fy, fun r hr => ?_⟩
  · rintro rfl
    have := h.batchPos
    simp at hxl
    omega
  · obtain ⟨j, -, hj⟩ := forall₂_mem_right fx hr
    exact List.mem_of_getElem? hj

/-- C27 for the noise generator in the mode `'single'`: every batch that is returned consists of a
two-dimensional input array and labels, both of distinct training samples in the same order; each input
row is the standardized noisy version of the curve of its sample. -/
theorem C27_noise (ok : rng.Ok) (refl labels : List (List ℝ)) (width batch : Nat) (shuffle : Bool) (s : Gen)
    (m sd : List ℝ) (i : Nat) (hs : GenSetting rng refl labels width batch shuffle s m sd i) (c : NoiseCfg)
    (hc : c.mode.isLit singleS = true) (g g' : G) (x : NArr) (y : List (List ℝ))
    (h : s.noisyItem rng c ⟨some m, some sd⟩ i g = .ok ((x, y), g')) :
    ∃ (samples : List Nat) (rows : List (List ℝ)), x = .d2 width rows ∧ samples.length = batch ∧ samples.Nodup ∧
      List.Forall₂ (fun j r => labels[j]? = some r) samples y ∧
      List.Forall₂ (fun j r => ∃ curve r1 r2, refl[j]? = some curve ∧ ShotOf rng c.noise curve r1 ∧
        BackgroundOf rng c.background c.rel width r1 r2 ∧
        r = List.zipWith (· / ·) (List.zipWith (· - ·) r2 m) sd) samples rows := by
  obtain ⟨hw, x0, y0, hx, hy, hne, hxl, hnd, fx, fy, hmem⟩ := setting_rows ok hs
  unfold Gen.noisyItem at h
  have e : (⟨some m, some sd⟩ : IPState).hasSaved = .ok true := by simp [IPState.hasSaved]
  simp only [e, hx, hy, hw, Option.getD_some] at h
  rw [Rand.bind_ok] at h
  obtain ⟨x1, g1, h1, h⟩ := h
  cases (Rand.ofRes_ok.1 h1).1
  rw [Rand.bind_ok] at h
  obtain ⟨x2, g2, h2, h⟩ := h
  obtain ⟨rs, rfl, hf1⟩ := shotStep_ok ok hc hne h2
  rw [Rand.bind_ok] at h
  obtain ⟨x3, g3, h3, h⟩ := h
  obtain ⟨rs2, rfl, hf2, hl2⟩ := backgroundStep_ok ok hc (fun r hr => by
    obtain ⟨c', hc', -, hl⟩ := forall₂_mem_right hf1 hr
    rw [hl]; exact hs.rows _ (hmem _ hc')) h3
  rw [Rand.bind_ok] at h
  obtain ⟨x4, g4, h4, h⟩ := h
  rw [standardizeArr_eq hs.mean hs.std hl2] at h4
  cases (Rand.ofRes_ok.1 h4).1
  rw [Rand.bind_ok] at h
  obtain ⟨y1, g5, h5, h⟩ := h
  cases (Rand.ofRes_ok.1 h5).1
  cases Rand.pure_ok.1 h
  refine ⟨_, _, rfl, by rw [fx.length_eq, hxl], hnd, fy, ?_⟩
  refine (forall₂_map (forall₂_comp (forall₂_comp fx hf1) hf2)).imp ?_
  rintro j r ⟨r2, ⟨r1, ⟨curve, hcv, hsh, -⟩, hbg⟩, rfl⟩
  exact ⟨curve, r1, r2, hcv, hsh, hbg, rfl⟩

/-- C30 for the mode `'single'`: for every choice of noise and background ranges with positive limits (or
none), non-negative curves and every random outcome, every batch is produced, and has the full shape. -/
theorem C30_single_partial (ok : rng.Ok) (refl labels : List (List ℝ)) (width batch : Nat) (shuffle : Bool) (s : Gen)
    (m sd : List ℝ) (i : Nat) (hs : GenSetting rng refl labels width batch shuffle s m sd i) (c : NoiseCfg)
    (hc : c.mode.isLit singleS = true) (hn : RangePos c.noise) (hb : RangePos c.background) (hrel : 0 ≤ c.rel)
    (hpos : ∀ r ∈ refl, ∀ v ∈ r, 0 ≤ v) (g : G) :
    ∃ x y g', s.noisyItem rng c ⟨some m, some sd⟩ i g = .ok ((x, y), g') ∧
      x.shape = [batch, width] ∧ y.length = batch := by
  obtain ⟨hw, x0, y0, hx, hy, hne, hxl, hnd, fx, fy, hmem⟩ := setting_rows ok hs
  have ht : ∃ p g', s.noisyItem rng c ⟨some m, some sd⟩ i g = .ok (p, g') := by
    unfold Gen.noisyItem
    have e : (⟨some m, some sd⟩ : IPState).hasSaved = .ok true := by simp [IPState.hasSaved]
    simp only [e, hx, hy, hw, Option.getD_some]
    refine Rand.bind_total ⟨x0, g, rfl⟩ fun x1 g1 h1 => ?_
    cases (Rand.ofRes_ok.1 h1).1
    refine Rand.bind_total (shotStep_total ok hc hn (fun v hv => hpos v (hmem v hv)) g1) fun x2 g2 h2 => ?_
    obtain ⟨rs, rfl, hf1⟩ := shotStep_ok ok hc hne h2
    refine Rand.bind_total (backgroundStep_total ok hc hb hrel g2) fun x3 g3 h3 => ?_
    obtain ⟨rs2, rfl, hf2, hl2⟩ := backgroundStep_ok ok hc (fun r hr => by
      obtain ⟨c', hc', -, hl⟩ := forall₂_mem_right hf1 hr
      rw [hl]; exact hs.rows _ (hmem _ hc')) h3
    rw [standardizeArr_eq hs.mean hs.std hl2]
    exact ⟨_, _, rfl⟩
  obtain ⟨⟨x, y⟩, g', h⟩ := ht
  obtain ⟨samples, rows, rfl, hl, -, hfy, hfx⟩ :=
    C27_noise ok refl labels width batch shuffle s m sd i hs c hc g g' x y h
  refine ⟨_, y, g', h, ?_, ?_⟩
  · simp only [NArr.shape, ← hfx.length_eq, hl]
  · rw [← hfy.length_eq, hl]

theorem fail_of_spread_other (x : NArr) (hx : x ≠ .other) (g : G) :
    applyShotNoise rng x .other g = .error .typeError := by
  match x, hx with
  | .d1 v, _ => rfl
  | .d2 w [], _ => rfl
  | .d2 w [v], _ => rfl
  | .d2 w (_ :: _ :: _), _ => rfl

theorem bind_error {α β : Type} {x : Rand G α} {f : α → Rand G β} {g : G} {e : PyErr} (h : x g = .error e) :
    (x >>= f) g = .error e := by
  show (x g >>= fun p => f p.1 p.2) = _
  rw [h]
  rfl

theorem bind_error' {α β : Type} {x : Rand G α} {f : α → Rand G β} {g g' : G} {a : α} {e : PyErr}
    (h : x g = .ok (a, g')) (h' : f a g' = .error e) : (x >>= f) g = .error e := by
  show (x g >>= fun p => f p.1 p.2) = _
  rw [h]
  exact h'

/-- C30 fails for the mode `'batch'`: as soon as a noise range or a background range is set, no batch is
produced; the code raises `TypeError` for every data set and every random outcome. -/
theorem C30_batch (ok : rng.Ok) (refl labels : List (List ℝ)) (width batch : Nat) (shuffle : Bool) (s : Gen)
    (m sd : List ℝ) (i : Nat) (hs : GenSetting rng refl labels width batch shuffle s m sd i) (c : NoiseCfg)
    (hc : c.mode = ⟨batchS, true⟩) (hn : RangePos c.noise) (hb : RangePos c.background)
    (hset : c.noise ≠ none ∨ c.background ≠ none) (g : G) :
    s.noisyItem rng c ⟨some m, some sd⟩ i g = .error .typeError := by
  obtain ⟨hw, x0, y0, hx, hy, hne, hxl, hnd, fx, fy, hmem⟩ := setting_rows ok hs
  have hl1 : c.mode.isLit singleS = false := by rw [hc]; decide
  have hl2 : c.mode.isLit batchS = true := by rw [hc]; decide
  unfold Gen.noisyItem
  have e : (⟨some m, some sd⟩ : IPState).hasSaved = .ok true := by simp [IPState.hasSaved]
  simp only [e, hx, hy, hw, Option.getD_some]
  refine bind_error' (a := x0) (g' := g) rfl ?_
  cases hcn : c.noise with
  | some l =>
    refine bind_error ?_
    unfold shotStep
    rw [hl1, hl2]
    simp only [Bool.false_eq_true, if_false, if_true]
    have hl := hn l hcn
    match l, hl with
    | [a, b], hl =>
      obtain ⟨u, g1, h1⟩ := logDistribution_total (rng := rng) hl.1 hl.2 1 g
      exact bind_error' h1 (bind_error (fail_of_spread_other _ (by simp) _))
  | none =>
    refine bind_error' (a := .d2 width x0) (g' := g) rfl ?_
    cases hcb : c.background with
    | none => rcases hset with h | h <;> exact (h (by assumption)).elim
    | some l =>
      refine bind_error ?_
      unfold backgroundStep
      rw [hl1, hl2]
      simp only [Bool.false_eq_true, if_false, if_true]
      have hl := hb l hcb
      match l, hl with
      | [a, b], hl =>
        obtain ⟨u, g1, h1⟩ := logDistribution_total (rng := rng) hl.1 hl.2 1 g
        exact bind_error' h1 (bind_error (bind_error rfl))

/-- C30 and string identity: a mode with the right characters that is not the interned literal (for
instance read from a file) is rejected when a range is set. -/
theorem C30_mode_identity (ok : rng.Ok) (refl labels : List (List ℝ)) (width batch : Nat) (shuffle : Bool) (s : Gen)
    (m sd : List ℝ) (i : Nat) (hs : GenSetting rng refl labels width batch shuffle s m sd i) (c : NoiseCfg)
    (hc : c.mode.literal = false) (hset : c.noise ≠ none ∨ c.background ≠ none) (g : G) :
    s.noisyItem rng c ⟨some m, some sd⟩ i g = .error .valueError := by
  obtain ⟨hw, x0, y0, hx, hy, hne, hxl, hnd, fx, fy, hmem⟩ := setting_rows ok hs
  have hl : ∀ v, c.mode.isLit v = false := fun v => by unfold PyStr.isLit; rw [hc]; rfl
  unfold Gen.noisyItem
  have e : (⟨some m, some sd⟩ : IPState).hasSaved = .ok true := by simp [IPState.hasSaved]
  simp only [e, hx, hy, hw, Option.getD_some]
  refine bind_error' (a := x0) (g' := g) rfl ?_
  cases hcn : c.noise with
  | some l =>
    refine bind_error ?_
    unfold shotStep
    rw [hl, hl]
    rfl
  | none =>
    refine bind_error' (a := .d2 width x0) (g' := g) rfl ?_
    cases hcb : c.background with
    | none => rcases hset with h | h <;> exact (h (by assumption)).elim
    | some l =>
      refine bind_error ?_
      unfold backgroundStep
      rw [hl, hl]
      rfl

/-! ### The uniform noise generator -/

/-- `r` is the curve `c` with every value multiplied by a factor from `noise` and by one common factor from
`scaling`. -/
def ScaledOf (noise scaling : ℝ × ℝ) (c r : List ℝ) : Prop :=
  ∃ (u : List ℝ) (f : ℝ), u.length = c.length ∧ (∀ x ∈ u, x ∈ Set.uIcc noise.1 noise.2) ∧
    f ∈ Set.uIcc scaling.1 scaling.2 ∧ r = (List.zipWith (· * ·) c u).map (· * f)

theorem uniformItem_rows (ok : rng.Ok) {refl labels : List (List ℝ)} {width batch : Nat} {shuffle : Bool} {s : Gen}
    {m sd : List ℝ} {i : Nat} (hs : GenSetting rng refl labels width batch shuffle s m sd i)
    {noise scaling : ℝ × ℝ} {g g' : G} {x : NArr} {y : List (List ℝ)}
    (h : s.uniformItem rng noise scaling m sd i g = .ok ((x, y), g')) :
    ∃ (samples : List Nat) (rs : List (List ℝ)) (x3 : NArr), samples.length = batch ∧ samples.Nodup ∧
      List.Forall₂ (fun j r => labels[j]? = some r) samples y ∧
      List.Forall₂ (fun j r => (∃ curve, refl[j]? = some curve ∧ ScaledOf noise scaling curve r) ∧
        r.length = width) samples rs ∧
      standardizeArr m sd x3 = .ok x ∧
      ((∃ r, rs = [r] ∧ x3 = .d1 r) ∨ (rs.length ≠ 1 ∧ x3 = .d2 width rs)) := by
  obtain ⟨hw, x0, y0, hx, hy, hne, hxl, hnd, fx, fy, hmem⟩ := setting_rows ok hs
  unfold Gen.uniformItem at h
  simp only [hx, hy, hw] at h
  rw [Rand.bind_ok] at h
  obtain ⟨x1, g1, h1, h⟩ := h
  cases (Rand.ofRes_ok.1 h1).1
  rw [Rand.bind_ok] at h
  obtain ⟨x2, g2, h2, h⟩ := h
  rw [Rand.bind_ok] at h
  obtain ⟨x3, g3, h3, h⟩ := h
  rw [Rand.bind_ok] at h
  obtain ⟨x4, g4, h4, h⟩ := h
  rw [Rand.bind_ok] at h
  obtain ⟨y1, g5, h5, h⟩ := h
  cases (Rand.ofRes_ok.1 h5).1
  cases Rand.pure_ok.1 h
  obtain ⟨rs1, hf1, hy1⟩ := uniform_ok ok h2
  rcases hy1 with ⟨v, r, h6, -, -⟩ | ⟨w', rows, h6, rfl⟩
  · cases h6
  cases h6
  obtain ⟨rs2, hf2, hy2⟩ := scaling_ok ok h3
  refine ⟨_, rs2, x3, by rw [fx.length_eq, hxl], hnd, fy, ?_, (Rand.ofRes_ok.1 h4).1, ?_⟩
  · refine (forall₂_comp (forall₂_comp fx hf1) hf2).imp ?_
    rintro j r ⟨r2, ⟨curve, hcv, u, hu, hum, rfl⟩, f, hf, rfl⟩
    refine ⟨⟨curve, hcv, u, f, hu, hum, hf, rfl⟩, ?_⟩
    simp [hu, hs.rows _ (List.mem_of_getElem? hcv)]
  · rcases hy2 with h7 | ⟨w, rows, h7, h8, h9⟩
    · exact .inl h7
    · cases h7; exact .inr ⟨h8, h9⟩

/-- C27 for the uniform noise generator and batches of at least two samples. -/
theorem C27_uniform_partial (ok : rng.Ok) (refl labels : List (List ℝ)) (width batch : Nat) (shuffle : Bool) (s : Gen)
    (m sd : List ℝ) (i : Nat) (hs : GenSetting rng refl labels width batch shuffle s m sd i) (h2 : 2 ≤ batch)
    (noise scaling : ℝ × ℝ) (g g' : G) (x : NArr) (y : List (List ℝ))
    (h : s.uniformItem rng noise scaling m sd i g = .ok ((x, y), g')) :
    ∃ (samples : List Nat) (rows : List (List ℝ)), x = .d2 width rows ∧ samples.length = batch ∧ samples.Nodup ∧
      List.Forall₂ (fun j r => labels[j]? = some r) samples y ∧
      List.Forall₂ (fun j r => ∃ curve r1, refl[j]? = some curve ∧ ScaledOf noise scaling curve r1 ∧
        r = List.zipWith (· / ·) (List.zipWith (· - ·) r1 m) sd) samples rows := by
  obtain ⟨samples, rs, x3, hl, hnd, fy, hf, hst, hx3⟩ := uniformItem_rows ok hs h
  rcases hx3 with ⟨r, rfl, rfl⟩ | ⟨-, rfl⟩
  · have := hf.length_eq
    simp at this
    omega
  · rw [standardizeArr_eq hs.mean hs.std (fun r hr => by
      obtain ⟨j, -, -, hj⟩ := forall₂_mem_right hf hr; exact hj)] at hst
    cases hst
    refine ⟨samples, _, rfl, hl, hnd, fy, (forall₂_map hf).imp ?_⟩
    rintro j r ⟨r1, ⟨⟨curve, hcv, hsc⟩, -⟩, rfl⟩
    exact ⟨curve, r1, hcv, hsc, rfl⟩

/-- C27 fails for the uniform noise generator with a batch size of one: the input has no batch dimension
(shape `(m,)`), while the labels have one row. -/
theorem C27_uniform_one (ok : rng.Ok) (refl labels : List (List ℝ)) (width : Nat) (shuffle : Bool) (s : Gen)
    (m sd : List ℝ) (i : Nat) (hs : GenSetting rng refl labels width 1 shuffle s m sd i)
    (noise scaling : ℝ × ℝ) (g g' : G) (x : NArr) (y : List (List ℝ))
    (h : s.uniformItem rng noise scaling m sd i g = .ok ((x, y), g')) :
    x.shape = [width] ∧ y.length = 1 := by
  obtain ⟨samples, rs, x3, hl, hnd, fy, hf, hst, hx3⟩ := uniformItem_rows ok hs h
  refine ⟨?_, by rw [← fy.length_eq, hl]⟩
  rcases hx3 with ⟨r, rfl, rfl⟩ | ⟨h1, rfl⟩
  · have hr : r.length = width := by
      obtain ⟨j, -, -, hj⟩ := forall₂_mem_right hf (show r ∈ [r] by simp)
      exact hj
    unfold standardizeArr bcast at hst
    simp only [hr, hs.mean, hs.std, List.length_zipWith, min_self, if_true, bind_ok] at hst
    cases hst
    simp [NArr.shape, hr, hs.mean, hs.std]
  · exact (h1 (by rw [← hf.length_eq, hl])).elim

/-- A concrete setting: three curves with two points, batches of two without shuffling. -/
example (rng : NoiseRng G) (g : G) : GenSetting rng [[1, 2], [3, 4], [5, 6]] [[7], [8], [9]] 2 2 false
    ⟨[[1, 2], [3, 4], [5, 6]], 2, [[7], [8], [9]], 2, false, [0, 1, 2]⟩ [1, 2] [3, 4] 0 where
  reached := ⟨g, _, g, rfl, .none _⟩
  pairs := rfl
  rows := by simp
  batchPos := by omega
  mean := rfl
  std := rfl
  index := by decide

/-! ### C78: the logarithmic generator -/

/-- C78 without a background: for a noise range with positive limits and non-negative curves, the
logarithmic generator returns finite non-negative inputs of full shape for every random outcome. -/
theorem C78_log_partial (ok : rng.Ok) (refl labels : List (List ℝ)) (width batch : Nat) (shuffle : Bool) (s : Gen)
    (m sd : List ℝ) (i : Nat) (hs : GenSetting rng refl labels width batch shuffle s m sd i) (c : NoiseCfg)
    (hc : c.mode.isLit singleS = true) (l : List ℝ) (hcn : c.noise = some l) (hn : RangePos c.noise)
    (hb : c.background = none) (hpos : ∀ r ∈ refl, ∀ v ∈ r, 0 ≤ v) (g : G) :
    ∃ x y g', s.logItem rng c i g = .ok ((x, y), g') ∧ x.shape = [batch, width] ∧ y.length = batch ∧
      ∀ r ∈ curves x, ∀ v ∈ r, 0 ≤ v := by
  obtain ⟨hw, x0, y0, hx, hy, hne, hxl, hnd, fx, fy, hmem⟩ := setting_rows ok hs
  obtain ⟨x2, g2, h2⟩ := shotStep_total (w := width) ok hc hn (fun v hv => hpos v (hmem v hv)) g
  obtain ⟨rs, rfl, hf1⟩ := shotStep_ok ok hc hne h2
  have hfl : ¬ ∃ r ∈ rs, ∃ c ∈ r, c ≤ (0 : ℝ) := by
    rintro ⟨r, hr, v, hv, hle⟩
    obtain ⟨cv, -, hsh, -⟩ := forall₂_mem_right hf1 hr
    rw [hcn] at hsh
    obtain ⟨lv, g3, -, rfl⟩ := hsh
    obtain ⟨z, -, rfl⟩ := List.mem_map.1 hv
    have := le_max_right z (1e-16 : ℝ)
    norm_num at this hle
  have hls : logScale (.d2 width rs) = .ok (.d2 width (rs.map fun r => r.map fun c => |Real.logb 10 c / 10|)) :=
    if_neg hfl
  refine ⟨.d2 width (rs.map fun r => r.map fun c => |Real.logb 10 c / 10|), y0, g2, ?_, ?_, ?_, ?_⟩
  · unfold Gen.logItem
    simp only [hx, hy, hw]
    refine Rand.bind_ok.2 ⟨x0, g, rfl, ?_⟩
    refine Rand.bind_ok.2 ⟨_, g2, h2, ?_⟩
    rw [hb]
    refine Rand.bind_ok.2 ⟨_, g2, rfl, ?_⟩
    rw [hls]
    rfl
  · simp [NArr.shape, ← hf1.length_eq, hxl]
  · rw [← fy.length_eq, fx.length_eq, hxl]
  · intro r hr v hv
    simp only [curves, List.mem_map] at hr
    obtain ⟨r', -, rfl⟩ := hr
    obtain ⟨z, -, rfl⟩ := List.mem_map.1 hv
    exact abs_nonneg _

/-- C27 and C78 for the logarithmic generator: every batch that is returned consists of inputs and labels of distinct
training samples in the same order; each input is `|log10(I) / 10|` for the noisy intensity `I` of its sample, and all
of these intensities are positive. -/
theorem C78_values (ok : rng.Ok) (refl labels : List (List ℝ)) (width batch : Nat) (shuffle : Bool) (s : Gen)
    (m sd : List ℝ) (i : Nat) (hs : GenSetting rng refl labels width batch shuffle s m sd i) (c : NoiseCfg)
    (hc : c.mode.isLit singleS = true) (g g' : G) (x : NArr) (y : List (List ℝ))
    (h : s.logItem rng c i g = .ok ((x, y), g')) :
    ∃ (samples : List Nat) (rows : List (List ℝ)), x = .d2 width rows ∧ samples.length = batch ∧ samples.Nodup ∧
      List.Forall₂ (fun j r => labels[j]? = some r) samples y ∧
      List.Forall₂ (fun j r => ∃ curve r1 r2, refl[j]? = some curve ∧ ShotOf rng c.noise curve r1 ∧
        BackgroundOf rng c.background c.rel width r1 r2 ∧ (∀ v ∈ r2, 0 < v) ∧
        r = r2.map fun (v : ℝ) => |Real.logb 10 v / 10|) samples rows := by
  obtain ⟨hw, x0, y0, hx, hy, hne, hxl, hnd, fx, fy, hmem⟩ := setting_rows ok hs
  unfold Gen.logItem at h
  simp only [hx, hy, hw] at h
  rw [Rand.bind_ok] at h
  obtain ⟨x1, g1, h1, h⟩ := h
  cases (Rand.ofRes_ok.1 h1).1
  rw [Rand.bind_ok] at h
  obtain ⟨x2, g2, h2, h⟩ := h
  obtain ⟨rs, rfl, hf1⟩ := shotStep_ok ok hc hne h2
  rw [Rand.bind_ok] at h
  obtain ⟨x3, g3, h3, h⟩ := h
  obtain ⟨rs2, rfl, hf2, hl2⟩ := backgroundStep_ok ok hc (fun r hr => by
    obtain ⟨c', hc', -, hl⟩ := forall₂_mem_right hf1 hr
    rw [hl]; exact hs.rows _ (hmem _ hc')) h3
  rw [Rand.bind_ok] at h
  obtain ⟨x4, g4, h4, h⟩ := h
  have h4 := (Rand.ofRes_ok.1 h4).1
  by_cases hneg : ∃ r ∈ rs2, ∃ c ∈ r, c ≤ (0 : ℝ)
  · unfold logScale at h4
    simp only at h4
    rw [if_pos hneg] at h4
    cases h4
  unfold logScale at h4
  simp only at h4
  rw [if_neg hneg] at h4
  cases h4
  rw [Rand.bind_ok] at h
  obtain ⟨y1, g5, h5, h⟩ := h
  cases (Rand.ofRes_ok.1 h5).1
  cases Rand.pure_ok.1 h
  refine ⟨_, _, rfl, by rw [fx.length_eq, hxl], hnd, fy, ?_⟩
  have hpos : ∀ r ∈ rs2, ∀ v ∈ r, 0 < v := by
    intro r hr v hv
    by_contra hle
    exact hneg ⟨r, hr, v, hv, not_lt.1 hle⟩
  have hf3 : List.Forall₂ (fun a b => BackgroundOf rng c.background c.rel width a b ∧ ∀ v ∈ b, 0 < v) rs rs2 := by
    clear h4 h h3 h2 hl2 hneg hf1
    induction hf2 with
    | nil => exact .nil
    | cons hab _ ih => exact .cons ⟨hab, hpos _ (by simp)⟩ (ih fun r hr => hpos r (by simp [hr]))
  refine (forall₂_map (forall₂_comp (forall₂_comp fx hf1) hf3)).imp ?_
  rintro j r ⟨r2, ⟨r1, ⟨curve, hcv, hsh, -⟩, hbg, hp⟩, rfl⟩
  exact ⟨curve, r1, r2, hcv, hsh, hbg, hp, rfl⟩

/-- A generator whose normal values are below zero by more than their mean: allowed, since normal values are
unbounded. -/
noncomputable def lowRng : NoiseRng Unit where
  uniform a _ n g := (List.replicate n a, g)
  normal m _ n g := (List.replicate n m, g)
  shuffle l g := (l, g)
  normalEach l g := (l.map fun p => p.1 - 100 * p.2, g)
  poissonEach l g := (l.map fun _ => 0, g)
  shuffleIdx l g := (l, g)

theorem lowRng_ok : lowRng.Ok where
  uniform_length _ _ _ _ := List.length_replicate
  uniform_mem a b n g x hx := by rw [(List.mem_replicate.1 hx).2]; exact Set.left_mem_uIcc
  normal_length _ _ _ _ := List.length_replicate
  shuffle_perm _ _ := List.Perm.refl _
  normalEach_length _ _ := by simp [lowRng]
  poissonEach_length _ _ := by simp [lowRng]
  shuffleIdx_perm _ _ := List.Perm.refl _

/-- C78 fails with a background: the background is normally distributed and can be negative, and it is
added after the noise was cut off at `1e-16`; the logarithm is then not finite. -/
theorem C78_background_counterexample :
    (⟨[[1e-9]], 1, [[7]], 1, false, [0]⟩ : Gen).logItem lowRng
      ⟨⟨singleS, true⟩, none, some [1e-6, 1e-6], 1 / 10⟩ 0 () = .error .nanResult := by
  have e1 : ((10 : ℝ) ^ Real.logb 10 (1e-6 : ℝ)) = 1e-6 :=
    Real.rpow_logb (by norm_num) (by norm_num) (by norm_num)
  have hs : (⟨singleS, true⟩ : PyStr).isLit singleS = true := by decide
  have hl : logDistribution lowRng.toRng 1e-6 1e-6 (1 : Nat) () = .ok ([1e-6], ()) := by
    unfold logDistribution
    rw [if_neg (by norm_num)]
    refine Rand.bind_ok.2 ⟨[Real.logb 10 1e-6], (), rfl, ?_⟩
    rw [List.map_singleton, e1]
    rfl
  have hbg : generateBackground lowRng 1 1 (.tuple [1e-6, 1e-6]) (1 / 10) () =
      .ok (([[1e-6 - 100 * (1 / 10 * 1e-6)]], [1e-6]), ()) := by
    refine Rand.bind_ok.2 ⟨[1e-6], (), hl, ?_⟩
    refine Rand.bind_ok.2 ⟨[[1e-6 - 100 * (1 / 10 * 1e-6)]], (), ?_, rfl⟩
    rw [List.mapM_cons]
    refine Rand.bind_ok.2 ⟨[1e-6 - 100 * (1 / 10 * 1e-6)], (), ?_, rfl⟩
    unfold normalRow
    rw [if_neg]
    · rfl
    · rintro ⟨p, hp, h⟩
      rw [(List.mem_replicate.1 hp).2] at h
      norm_num at h
  unfold Gen.logItem
  refine bind_error' (a := [[1e-9]]) (g' := ()) rfl ?_
  refine bind_error' (a := .d2 1 [[1e-9]]) (g' := ()) rfl ?_
  refine bind_error' (a := .d2 1 [[1e-9 + (1e-6 - 100 * (1 / 10 * 1e-6))]]) (g' := ()) ?_ ?_
  · unfold backgroundStep
    rw [hs]
    simp only [if_true]
    refine Rand.bind_ok.2 ⟨_, (), hbg, ?_⟩
    have := addRows_eq (w := 1) (rows := [[(1e-9 : ℝ)]]) (bg := [[1e-6 - 100 * (1 / 10 * 1e-6)]]) rfl (by simp)
    simp only [this]
    rfl
  · have : logScale (.d2 1 [[1e-9 + (1e-6 - 100 * (1 / 10 * 1e-6))]]) = .error .nanResult :=
      if_pos ⟨_, List.mem_singleton.2 rfl, _, List.mem_singleton.2 rfl, by norm_num⟩
    rw [this]
    rfl

/-- C27: a batch is refused if the preprocessor has not been fitted, or only half. -/
theorem C27_unfitted (s : Gen) (c : NoiseCfg) (ip : IPState) (h : ip.mean = none ∨ ip.std = none) (i : Nat) (g : G) :
    s.noisyItem rng c ip i g = .error .valueError := by
  obtain ⟨m, sd⟩ := ip
  unfold Gen.noisyItem IPState.hasSaved
  cases m <;> cases sd <;> simp at h <;> rfl

end Verif.Props
