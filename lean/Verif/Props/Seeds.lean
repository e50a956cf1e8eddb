import Verif.Model.Seeds

/-!
# C117: random seeds
-/

namespace Verif.Props
open Verif.Py Verif.Model
variable {G : Type}

/-- The statements use no generators but those named in `known` and those they make themselves. -/
def ClosedOps : List Nat → List (GenOp G) → Prop
  | _, [] => True
  | known, .make k _ _ _ :: ops => ClosedOps (k :: known) ops
  | known, .labels k _ _ :: ops => k ∈ known ∧ ClosedOps known ops
  | known, .simulate k _ _ _ :: ops => k ∈ known ∧ ClosedOps known ops
  | known, .other _ :: ops => ClosedOps known ops

/-- The statements do not mention the name `k`. -/
def Avoids (k : Nat) : List (GenOp G) → Prop
  | [] => True
  | .make j _ _ _ :: ops => j ≠ k ∧ Avoids k ops
  | .labels j _ _ :: ops => j ≠ k ∧ Avoids k ops
  | .simulate j _ _ _ :: ops => j ≠ k ∧ Avoids k ops
  | .other _ :: ops => Avoids k ops

/-- How a program ended. -/
def failure {α : Type} : Res α → Option PyErr
  | .error e => some e
  | .ok _ => none

theorem run_agree (w : GenWorld G) (ops : List (GenOp G)) (known : List Nat) (h : ClosedOps known ops) (st st' : GenStore) (g : G)
    (ha : ∀ k ∈ known, st k = st' k) :
    (runGen w ops st g).2 = (runGen w ops st' g).2 ∧ failure (runGen w ops st g).1 = failure (runGen w ops st' g).1 := by
  induction ops generalizing known st st' g with
  | nil => exact ⟨rfl, rfl⟩
  | cons op ops ih =>
    cases op with
    | make k q s seed =>
      simp only [runGen, GenOp.run]
      cases applySeed w seed g with
      | error e => exact ⟨rfl, rfl⟩
      | ok g1 =>
        have := ih (k :: known) h (Function.update st k (some ⟨q, s⟩)) (Function.update st' k (some ⟨q, s⟩)) g1 (by
          intro j hj
          by_cases hjk : j = k
          · subst hjk; rw [Function.update_self, Function.update_self]
          · rw [Function.update_of_ne hjk, Function.update_of_ne hjk]
            exact ha j ((List.mem_cons.1 hj).resolve_left hjk))
        exact ⟨congrArg (GenOut.nothing :: ·) this.1, this.2⟩
    | labels k n d =>
      obtain ⟨hk, h⟩ := h
      simp only [runGen, GenOp.run, GenStore.get, ha k hk]
      cases st' k with
      | none => exact ⟨rfl, rfl⟩
      | some o =>
        simp only [bind_ok]
        cases generateRandomLabels w.rng o.sample n d g with
        | error e => exact ⟨rfl, rfl⟩
        | ok r =>
          have := ih known h st st' r.2 ha
          exact ⟨congrArg (GenOut.labels r.1 :: ·) this.1, this.2⟩
    | simulate k t sp e =>
      obtain ⟨hk, h⟩ := h
      simp only [runGen, GenOp.run, GenStore.get, ha k hk]
      cases st' k with
      | none => exact ⟨rfl, rfl⟩
      | some o =>
        simp only [bind_ok]
        cases simulateReflectivity w.rng w.refl1d w.pf o.q t sp e g with
        | error e => exact ⟨rfl, rfl⟩
        | ok r =>
          have := ih known h st st' r.2 ha
          exact ⟨congrArg (GenOut.curves r.1 :: ·) this.1, this.2⟩
    | other f =>
      simp only [runGen, GenOp.run]
      have := ih known h st st' (f g) ha
      exact ⟨congrArg (GenOut.nothing :: ·) this.1, this.2⟩

theorem run_append (w : GenWorld G) (a b : List (GenOp G)) (st st1 : GenStore) (g g1 : G) (h : (runGen w a st g).1 = .ok (st1, g1)) :
    (runGen w (a ++ b) st g).1 = (runGen w b st1 g1).1 ∧ (runGen w (a ++ b) st g).2 = (runGen w a st g).2 ++ (runGen w b st1 g1).2 := by
  induction a generalizing st g with
  | nil => cases h; exact ⟨rfl, rfl⟩
  | cons op a ih =>
    simp only [runGen, List.cons_append] at h ⊢
    cases hr : op.run w st g with
    | error e => rw [hr] at h; cases h
    | ok r =>
      rw [hr] at h
      simp only at h ⊢
      have := ih r.1 r.2.1 h
      exact ⟨this.1, by rw [this.2, List.cons_append]⟩

/-- C117: everything that is generated after a generator was made with a seed is the same in all programs, whatever they did
before and wherever their random numbers started, as long as only generators made from then on are used. -/
theorem C117_reproducible (w : GenWorld G) (k : Nat) (q : List ℝ) (s : SampleV ℝ) (seed : Int) (rest : List (GenOp G)) (hrest : ClosedOps [k] rest)
    (before before' : List (GenOp G)) (st st' st1 st1' : GenStore) (g g' g1 g1' : G) (h : (runGen w before st g).1 = .ok (st1, g1))
    (h' : (runGen w before' st' g').1 = .ok (st1', g1')) :
    ∃ out, (runGen w (before ++ .make k q s (some seed) :: rest) st g).2 = (runGen w before st g).2 ++ out ∧
      (runGen w (before' ++ .make k q s (some seed) :: rest) st' g').2 = (runGen w before' st' g').2 ++ out ∧
      failure (runGen w (before ++ .make k q s (some seed) :: rest) st g).1 =
        failure (runGen w (before' ++ .make k q s (some seed) :: rest) st' g').1 := by
  obtain ⟨a1, a2⟩ := run_append w before (.make k q s (some seed) :: rest) st st1 g g1 h
  obtain ⟨b1, b2⟩ := run_append w before' (.make k q s (some seed) :: rest) st' st1' g' g1' h'
  refine ⟨_, a2, ?_, ?_⟩
  · rw [b2]
    congr 1
    simp only [runGen, GenOp.run, applySeed]
    cases w.seed seed with
    | error e => rfl
    | ok g2 =>
      exact congrArg (GenOut.nothing :: ·) (run_agree w rest [k] hrest _ _ g2 (by
        intro j hj
        cases List.mem_singleton.1 hj
        rw [Function.update_self, Function.update_self])).1
  · rw [a1, b1]
    simp only [runGen, GenOp.run, applySeed]
    cases w.seed seed with
    | error e => rfl
    | ok g2 =>
      exact (run_agree w rest [k] hrest _ _ g2 (by
        intro j hj
        cases List.mem_singleton.1 hj
        rw [Function.update_self, Function.update_self])).2

theorem run_avoids (w : GenWorld G) (ops : List (GenOp G)) (k : Nat) (h : Avoids k ops) (st st' : GenStore) (g : G)
    (ha : ∀ j, j ≠ k → st j = st' j) :
    (runGen w ops st g).2 = (runGen w ops st' g).2 ∧ failure (runGen w ops st g).1 = failure (runGen w ops st' g).1 := by
  induction ops generalizing st st' g with
  | nil => exact ⟨rfl, rfl⟩
  | cons op ops ih =>
    cases op with
    | make j q s seed =>
      simp only [runGen, GenOp.run]
      cases applySeed w seed g with
      | error e => exact ⟨rfl, rfl⟩
      | ok g1 =>
        have := ih h.2 (Function.update st j (some ⟨q, s⟩)) (Function.update st' j (some ⟨q, s⟩)) g1 (by
          intro i hi
          by_cases hij : i = j
          · subst hij; rw [Function.update_self, Function.update_self]
          · rw [Function.update_of_ne hij, Function.update_of_ne hij]; exact ha i hi)
        exact ⟨congrArg (GenOut.nothing :: ·) this.1, this.2⟩
    | labels j n d =>
      obtain ⟨hk, h⟩ := h
      simp only [runGen, GenOp.run, GenStore.get, ha j hk]
      cases st' j with
      | none => exact ⟨rfl, rfl⟩
      | some o =>
        simp only [bind_ok]
        cases generateRandomLabels w.rng o.sample n d g with
        | error e => exact ⟨rfl, rfl⟩
        | ok r =>
          have := ih h st st' r.2 ha
          exact ⟨congrArg (GenOut.labels r.1 :: ·) this.1, this.2⟩
    | simulate j t sp e =>
      obtain ⟨hk, h⟩ := h
      simp only [runGen, GenOp.run, GenStore.get, ha j hk]
      cases st' j with
      | none => exact ⟨rfl, rfl⟩
      | some o =>
        simp only [bind_ok]
        cases simulateReflectivity w.rng w.refl1d w.pf o.q t sp e g with
        | error e => exact ⟨rfl, rfl⟩
        | ok r =>
          have := ih h st st' r.2 ha
          exact ⟨congrArg (GenOut.curves r.1 :: ·) this.1, this.2⟩
    | other f =>
      simp only [runGen, GenOp.run]
      have := ih h st st' (f g) ha
      exact ⟨congrArg (GenOut.nothing :: ·) this.1, this.2⟩

/-- C117: making a generator without a seed does not disturb the others: all later values are the same as without it. -/
theorem C117_unseeded (w : GenWorld G) (k : Nat) (q : List ℝ) (s : SampleV ℝ) (rest : List (GenOp G)) (h : Avoids k rest) (st : GenStore) (g : G) :
    (runGen w (.make k q s none :: rest) st g).2 = .nothing :: (runGen w rest st g).2 ∧
      failure (runGen w (.make k q s none :: rest) st g).1 = failure (runGen w rest st g).1 := by
  have := run_avoids w rest k h (Function.update st k (some ⟨q, s⟩)) st g fun j hj => Function.update_of_ne hj _ _
  exact ⟨congrArg (GenOut.nothing :: ·) this.1, this.2⟩

/-- C117: seeds are not private: making any further generator with the same seed makes the first one repeat its labels. -/
theorem C117_repeats (w : GenWorld G) (j k : Nat) (hjk : j ≠ k) (q q' : List ℝ) (s s' : SampleV ℝ) (seed : Int) (n : Int) (d : DistArgs)
    (st : GenStore) (g g0 g1 : G) (f : Frame (Num ℝ)) (hs : w.seed seed = .ok g0) (hf : generateRandomLabels w.rng s n d g0 = .ok (f, g1)) :
    (runGen w [.make j q s (some seed), .labels j n d, .make k q' s' (some seed), .labels j n d] st g).2 =
      [.nothing, .labels f, .nothing, .labels f] := by
  have e1 : ∀ st : GenStore, (Function.update st j (some ⟨q, s⟩)) j = some (GenObj.mk q s) := fun st => Function.update_self ..
  have e2 : (Function.update (Function.update st j (some ⟨q, s⟩)) k (some ⟨q', s'⟩)) j = some (GenObj.mk q s) := by
    rw [Function.update_of_ne hjk, Function.update_self]
  simp only [runGen, GenOp.run, applySeed, hs, bind_ok, GenStore.get, e1, hf, e2, pure, Except.pure]

/-! ### Generators share their random numbers -/

/-- Random numbers for the example: the first uniform number is the lower limit, all later ones are the upper limit; the state
counts the numbers drawn. -/
def countRng : Rng Nat where
  uniform a b n g := ((List.range n).map fun (i : Nat) => if g + i = 0 then a else b, g + n)
  normal m _ n g := (List.replicate n m, g + n)
  shuffle l g := (l, g + l.length)

theorem countRng_ok : countRng.Ok where
  uniform_length a b n g := by simp [countRng]
  uniform_mem a b n g x hx := by
    obtain ⟨i, -, rfl⟩ := List.mem_map.1 hx
    split
    · exact Set.left_mem_uIcc
    · exact Set.right_mem_uIcc
  normal_length m s n g := by simp [countRng]
  shuffle_perm l g := .refl l

def sldW : Str := "sld".toList
def roughnessW : Str := "roughness".toList
def thicknessW : Str := "thickness".toList

/-- A film whose SLD is variable, on a substrate. -/
def seedSample : SampleV ℝ :=
  { ambient := ⟨.ambient, ['a'], none, none, some (.const (.real 0) (some sldW))⟩
    substrate := ⟨.substrate, ['b'], none, some (.const (.real 1) (some roughnessW)), some (.const (.real 20) (some sldW))⟩
    layers := [⟨.layer, ['f'], some (.const (.real 10) (some thicknessW)), some (.const (.real 1) (some roughnessW)),
      some (.range (.real 1) (.real 2) (some sldW))⟩] }

def seedDist : DistArgs := ⟨.uniform, none, none⟩

theorem seed_sld (g : Nat) : (Param.range (.real 1) (.real 2) (some sldW)).sample countRng 1 seedDist g =
    .ok ([.real (if g = 0 then 1 else 2)], g + 1) := by
  simp only [Param.sample]
  rw [if_pos (show (Num.real (1 : ℝ)).im = 0 ∧ (Num.real (2 : ℝ)).im = 0 from ⟨rfl, rfl⟩)]
  rw [show (if g = 0 then (1 : ℝ) else 2) = if g + 0 = 0 then 1 else 2 from rfl]
  rfl

theorem seed_roughness (g : Nat) : generateRoughness countRng seedDist (.const (.real 1) (some roughnessW)) [.real 10] g =
    .ok ([.real 1], g) := by
  have h : adjustRoughness countRng seedDist 1 1 10 1 = pure 1 := by
    unfold adjustRoughness maxRoughness
    rw [if_neg (by norm_num), if_pos (by norm_num)]
  have h2 : adjustRoughnesses countRng seedDist 1 1 [10] [1] g = .ok ([1], g) := by
    unfold adjustRoughnesses
    rw [h]
    rfl
  show (adjustRoughnesses countRng seedDist 1 1 [10] [1] g >>= _) = _
  rw [h2]
  rfl

/-- The labels that are drawn, and the state afterwards. -/
def seedFrame (g : Nat) : Frame (Num ℝ) :=
  [("f_thickness".toList, [.real 10]), ("b_roughness".toList, [.real 1]), ("f_roughness".toList, [.real 1]), ("b_sld".toList, [.real 20]),
   ("f_sld".toList, [.real (if g = 0 then 1 else 2)]), ("a_sld".toList, [.real 0])]

theorem seed_labels (g : Nat) : generateRandomLabels countRng seedSample 1 seedDist g = .ok (seedFrame g, g + 1) := by
  have hn : seedSample.labelNames = .ok ["f_thickness".toList, "b_roughness".toList, "f_roughness".toList, "b_sld".toList, "f_sld".toList,
      "a_sld".toList] := by
    have hc : (Param.range (.real 1) (.real 2) (some sldW) : Param ℝ).copy = .ok (.range (.real 1) (.real 2) (some sldW)) := by
      show (do if ← (Num.real (1 : ℝ)).ge (.real 2) then _ else _ : Res (Param ℝ)) = _
      rw [show (Num.real (1 : ℝ)).ge (.real 2) = .ok false from congrArg Except.ok (decide_eq_false (by norm_num))]
      rfl
    unfold SampleV.labelNames SampleV.slds SampleV.structure_ seedSample
    simp only [List.cons_append, List.nil_append, mapM_cons, hc]
    rfl
  have hb : labelStep countRng 1 seedDist [] seedSample.substrate g =
      .ok ([("b_sld".toList, [.real 20]), ("b_roughness".toList, [.real 1])], g) := rfl
  have hf : ∀ l ∈ seedSample.layers, labelStep countRng 1 seedDist [("b_sld".toList, [.real 20]), ("b_roughness".toList, [.real 1])] l g =
      .ok ([("b_sld".toList, [.real 20]), ("b_roughness".toList, [.real 1]), ("f_sld".toList, [.real (if g = 0 then 1 else 2)]),
        ("f_thickness".toList, [.real 10]), ("f_roughness".toList, [.real 1])], g + 1) := by
    intro l hl
    cases List.mem_singleton.1 hl
    show (Param.sample countRng 1 seedDist _ g >>= _) = _
    rw [seed_sld, bind_ok]
    show (generateRoughness countRng seedDist _ [.real 10] (g + 1) >>= _) = _
    rw [seed_roughness, bind_ok]
    rfl
  unfold generateRandomLabels
  rw [if_neg (by norm_num)]
  refine Rand.bind_ok.2 ⟨_, g, Rand.ofRes_ok.2 ⟨hn, rfl⟩, ?_⟩
  refine Rand.bind_ok.2 ⟨_, g + 1, Rand.bind_ok.2 ⟨_, g, hb, Rand.bind_ok.2 ⟨_, g + 1, hf _ List.mem_cons_self, Rand.bind_ok.2 ⟨_, g + 1, rfl, rfl⟩⟩⟩, ?_⟩
  rfl

/-- The world of the example: every number is a seed and sets the count to it. -/
def countWorld : GenWorld Nat := ⟨countRng, fun n => if n < 0 then .error .valueError else .ok n.toNat, none, fun _ => none⟩

/-- C117: generators share their random numbers: what a generator with a seed returns changes when labels of another generator
are generated in between. -/
theorem C117_shared : ∃ (w : GenWorld Nat) (s : SampleV ℝ) (d : DistArgs) (f f' : Frame (Num ℝ)), w.rng.Ok ∧ f ≠ f' ∧ ∀ st g,
    (runGen w [.make 0 [] s (some 0), .make 1 [] s none, .labels 0 1 d] st g).2 = [.nothing, .nothing, .labels f] ∧
    (runGen w [.make 0 [] s (some 0), .make 1 [] s none, .labels 1 1 d, .labels 0 1 d] st g).2 =
      [.nothing, .nothing, .labels f, .labels f'] := by
  refine ⟨countWorld, seedSample, seedDist, seedFrame 0, seedFrame 1, countRng_ok, ?_, ?_⟩
  · intro h
    have h : (seedFrame 0).get "f_sld".toList = (seedFrame 1).get "f_sld".toList := by rw [h]
    have h : (Except.ok [Num.real (1 : ℝ)] : Res _) = .ok [Num.real 2] := h
    simp at h
  · intro st g
    have e : ∀ g, generateRandomLabels countWorld.rng seedSample 1 seedDist g = .ok (seedFrame g, g + 1) := seed_labels
    have s0 : countWorld.seed 0 = .ok 0 := rfl
    have a0 : (Function.update (Function.update st 0 (some (GenObj.mk [] seedSample))) 1 (some ⟨[], seedSample⟩)) 0 = some ⟨[], seedSample⟩ := by
      rw [Function.update_of_ne (by decide), Function.update_self]
    have a1 : (Function.update (Function.update st 0 (some (GenObj.mk [] seedSample))) 1 (some ⟨[], seedSample⟩)) 1 = some ⟨[], seedSample⟩ :=
      Function.update_self ..
    constructor
    · simp only [runGen, GenOp.run, applySeed, s0, bind_ok, GenStore.get, a0, e, pure, Except.pure]
    · simp only [runGen, GenOp.run, applySeed, s0, bind_ok, GenStore.get, a0, a1, e, pure, Except.pure]

/-- The hypotheses of `C117_reproducible` and `C117_repeats` can be met: one program starts with other labels, both go on with
labels of the new generator. -/
example (st : GenStore) (g : Nat) : ClosedOps [0] [GenOp.labels (G := Nat) 0 1 seedDist, .make 1 [] seedSample none, .labels 1 1 seedDist] ∧
    (∃ st1 g1, (runGen countWorld [.make 5 [] seedSample (some 3), .labels 5 1 seedDist] st g).1 = .ok (st1, g1)) ∧
    (∃ st1 g1, (runGen countWorld [] st g).1 = .ok (st1, g1)) ∧
    ∃ g0 f g1, countWorld.seed 0 = .ok g0 ∧ generateRandomLabels countWorld.rng seedSample 1 seedDist g0 = .ok (f, g1) := by
  refine ⟨⟨by decide, by decide, trivial⟩, ⟨Function.update st 5 (some ⟨[], seedSample⟩), 4, ?_⟩, ⟨_, _, rfl⟩, ⟨0, _, _, rfl, seed_labels 0⟩⟩
  have e : ∀ g, generateRandomLabels countWorld.rng seedSample 1 seedDist g = .ok (seedFrame g, g + 1) := seed_labels
  have s0 : countWorld.seed 3 = .ok 3 := rfl
  simp only [runGen, GenOp.run, applySeed, s0, bind_ok, GenStore.get, Function.update_self, e, pure, Except.pure]

end Verif.Props
