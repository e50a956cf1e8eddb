import Verif.Model.Networks
import Verif.Lemmas.Except
import Mathlib.Algebra.Order.BigOperators.Group.List
import Mathlib.Algebra.BigOperators.Ring.List

/-!
# C96: predicted labels
-/

namespace Verif.Props
open Verif.Py Verif.Model

theorem out_length {l : NetLayer} {x : List ℝ} {n : Nat} (h1 : l.weights.length = n) (h2 : l.bias.length = n) :
    (l.out x).length = n := by
  unfold NetLayer.out
  split <;> simp [h1, h2]

/-- The output has as many values as the last layer has units. -/
theorem netOut_length {shape : List (Nat × Bool)} {net : List NetLayer} {n m : Nat} {a : Bool} (h : HasShape n (shape ++ [(m, a)]) net)
    (x : List ℝ) : (netOut net x).length = m := by
  induction shape generalizing n net x with
  | nil =>
    obtain ⟨l, rest, rfl, -, h1, h2, -, h3⟩ := h
    cases h3
    exact out_length h1 h2
  | cons s shape ih =>
    obtain ⟨l, rest, rfl, -, -, -, -, h3⟩ := h
    exact ih h3 (l.out x)

/-- C96, table: for curves of the trained length and as many names as the network has outputs, `predict_labels` returns a table with
the names as columns and one row per curve, in their order: value `k` of row `i` is output `k` of the network for curve `i` alone. -/
theorem C96_labels (shape : List (Nat × Bool)) (nin nout : Nat) (act : Bool) (net : List NetLayer)
    (hnet : HasShape nin (shape ++ [(nout, act)]) net) (names : List Str) (hn : names.length = nout) (rows : List (List ℝ))
    (h0 : rows ≠ []) (h1 : ∀ r ∈ rows, r.length = nin) :
    ∃ f, predictLabels nin nout net names (.matrix rows) = .ok f ∧ f.columns = names ∧ (∀ c ∈ f, c.2.length = rows.length) ∧
      ∀ (i k : Nat) (r : List ℝ), rows[i]? = some r → k < nout → ∃ c v, f[k]? = some c ∧ c.2[i]? = some v ∧ (netOut net r)[k]? = some v := by
  have hp : netPredict nin net rows = .ok (rows.map (netOut net)) := by
    unfold netPredict
    rw [if_neg]
    rintro (h | ⟨r, hr, h⟩)
    · exact h0 h
    · exact h (h1 r hr)
  refine ⟨names.zipIdx.map fun (p : Str × Nat) => (p.1, (rows.map (netOut net)).map fun (r : List ℝ) => r.getD p.2 0), ?_, ?_, ?_, ?_⟩
  · show (do let out ← netPredict nin net rows; ErrorArg.toFrame names (.array nout out)) = _
    rw [hp, bind_ok]
    exact if_pos hn.symm
  · unfold Frame.columns
    rw [List.map_map]
    exact List.zipIdx_map_fst ..
  · intro c hc
    obtain ⟨p, -, rfl⟩ := List.mem_map.1 hc
    simp
  · intro i k r hr hk
    have hk' : k < names.length := hn ▸ hk
    have hl := netOut_length hnet r
    refine ⟨(names[k], (rows.map (netOut net)).map fun (r : List ℝ) => r.getD k 0), (netOut net r)[k]'(hl ▸ hk), ?_, ?_, ?_⟩
    · rw [List.getElem?_map, List.getElem?_zipIdx, List.getElem?_eq_getElem hk']
      simp
    · simp only [List.getElem?_map, hr, Option.map_some, Option.some.injEq]
      rw [List.getD_eq_getElem?_getD, List.getElem?_eq_getElem (hl ▸ hk)]
      rfl
    · exact List.getElem?_eq_getElem _

/-- C96: a single curve is treated as an array with one row. -/
theorem C96_single (nin nout : Nat) (net : List NetLayer) (names : List Str) (x : List ℝ) :
    predictLabels nin nout net names (.vector x) = predictLabels nin nout net names (.matrix [x]) := rfl

/-- C96: everything else is rejected: no curves, a curve of another length, another number of names. -/
theorem C96_rejects (nin nout : Nat) (net : List NetLayer) (names : List Str) (a : CurveArg) (f : Frame ℝ)
    (h : predictLabels nin nout net names a = .ok f) :
    names.length = nout ∧ ∃ rows, rows ≠ [] ∧ (∀ r ∈ rows, r.length = nin) ∧
      (a = .matrix rows ∨ (∃ x, rows = [x] ∧ a = .vector x) ∨ ∃ x, rows = [[x]] ∧ a = .scalar x) := by
  unfold predictLabels at h
  obtain ⟨rows, hr, h⟩ := bind_eq_ok.1 h
  obtain ⟨out, ho, h⟩ := bind_eq_ok.1 h
  refine ⟨?_, rows, ?_⟩
  · by_contra hw
    have : ErrorArg.toFrame names (.array nout out) = .error .valueError := if_neg fun h' => hw h'.symm
    rw [this] at h
    cases h
  · unfold netPredict at ho
    split at ho
    · cases ho
    · rename_i hc
      refine ⟨fun h0 => hc (Or.inl h0), fun r hr' => ?_, ?_⟩
      · by_contra hne
        exact hc (Or.inr ⟨r, hr', hne⟩)
      · cases a with
        | scalar x => cases hr; exact Or.inr (Or.inr ⟨x, rfl, rfl⟩)
        | vector x => cases hr; exact Or.inr (Or.inl ⟨x, rfl, rfl⟩)
        | matrix rs => cases hr; exact Or.inl rfl
        | higher => cases hr
        | ragged => cases hr

theorem netOut_relu {shape : List (Nat × Bool)} {net : List NetLayer} {n m : Nat} (h : HasShape n (shape ++ [(m, true)]) net)
    (x : List ℝ) : ∀ v ∈ netOut net x, 0 ≤ v := by
  induction shape generalizing n net x with
  | nil =>
    obtain ⟨l, rest, rfl, hr, -, -, -, h3⟩ := h
    cases h3
    intro v hv
    have hv : v ∈ l.out x := hv
    unfold NetLayer.out at hv
    rw [if_pos (by simpa using hr)] at hv
    obtain ⟨y, -, rfl⟩ := List.mem_map.1 hv
    exact le_max_right _ _
  | cons s shape ih =>
    obtain ⟨l, rest, rfl, -, -, -, -, h3⟩ := h
    exact ih h3 (l.out x)

/-- C96, `SimpleModel`: whatever it learned, its predictions are not negative. -/
theorem C96_simple_nonneg (nin nout : Nat) (net : List NetLayer) (h : HasShape nin (simpleShape nout) net) (x : List ℝ) :
    (netOut net x).length = nout ∧ ∀ v ∈ netOut net x, 0 ≤ v := by
  have h' : HasShape nin ([(400, true), (800, true), (400, true), (300, true), (200, true), (100, true)] ++ [(nout, true)]) net := h
  exact ⟨netOut_length h' x, netOut_relu h' x⟩

/-- C96 is false for negative labels and `SimpleModel`: for a label with a negative value, the squared error of every network is at
least the square of this value. -/
theorem C96_simple_negative (nin nout : Nat) (net : List NetLayer) (h : HasShape nin (simpleShape nout) net) (x y : List ℝ)
    (k : Nat) (v : ℝ) (hk : y[k]? = some v) (hv : v < 0) (hy : y.length = nout) :
    ∃ p, (netOut net x)[k]? = some p ∧ v ^ 2 ≤ (p - v) ^ 2 := by
  obtain ⟨h1, h2⟩ := C96_simple_nonneg nin nout net h x
  obtain ⟨hk', -⟩ := List.getElem?_eq_some_iff.1 hk
  have hkp : k < (netOut net x).length := by omega
  refine ⟨_, List.getElem?_eq_getElem hkp, ?_⟩
  have := h2 _ (List.getElem_mem hkp)
  nlinarith

/-- A layer that ignores its input. -/
def constLayer (n : Nat) (b : List ℝ) (relu : Bool) : NetLayer := ⟨b.map fun _ => List.replicate n 0, b, relu⟩

theorem constLayer_out (n : Nat) (b : List ℝ) (relu : Bool) (hb : relu = true → ∀ v ∈ b, 0 ≤ v) (x : List ℝ) :
    (constLayer n b relu).out x = b := by
  have hz : ∀ (m : Nat) (x : List ℝ), (List.zipWith (· * ·) (List.replicate m (0 : ℝ)) x).sum = 0 := by
    intro m
    induction m with
    | zero => simp
    | succ m ih => intro x; cases x <;> simp [List.replicate_succ, ih]
  have e : List.zipWith (fun (w : List ℝ) (b : ℝ) => (List.zipWith (· * ·) w x).sum + b) (b.map fun _ => List.replicate n 0) b = b := by
    clear hb
    induction b with
    | nil => rfl
    | cons a b ih => rw [List.map_cons, List.zipWith_cons_cons, ih, hz, zero_add]
  unfold NetLayer.out constLayer
  simp only [e]
  split
  · rename_i hr
    conv_rhs => rw [← List.map_id b]
    exact List.map_congr_left fun v hv => max_eq_left (hb hr v hv)
  · rfl

/-- A network that returns a given vector. -/
def constNet : Nat → List (Nat × Bool) → List ℝ → Bool → List NetLayer
  | n, [], y, act => [constLayer n y act]
  | n, s :: shape, y, act => constLayer n (List.replicate s.1 0) s.2 :: constNet s.1 shape y act

theorem constNet_spec (n : Nat) (shape : List (Nat × Bool)) (y : List ℝ) (act : Bool) (hy : act = true → ∀ v ∈ y, 0 ≤ v) :
    HasShape n (shape ++ [(y.length, act)]) (constNet n shape y act) ∧ ∀ x, netOut (constNet n shape y act) x = y := by
  induction shape generalizing n with
  | nil =>
    refine ⟨⟨_, [], rfl, rfl, by simp [constLayer], by simp [constLayer], ?_, rfl⟩, fun x => ?_⟩
    · intro w hw
      simp only [constLayer, List.mem_map] at hw
      obtain ⟨_, _, rfl⟩ := hw
      simp
    · exact constLayer_out n y act hy x
  | cons s shape ih =>
    obtain ⟨i1, i2⟩ := ih s.1
    refine ⟨⟨_, _, rfl, rfl, by simp [constLayer], by simp [constLayer], ?_, i1⟩, fun x => ?_⟩
    · intro w hw
      simp only [constLayer, List.mem_map] at hw
      obtain ⟨_, _, rfl⟩ := hw
      simp
    · exact i2 _

/-- C96: labels without negative values are within the reach of `SimpleModel`, and all labels within the reach of the network of
`Trainer`. -/
theorem C96_reachable (nin : Nat) (y : List ℝ) :
    (∃ net, HasShape nin (trainerShape y.length) net ∧ ∀ x, netOut net x = y) ∧
    ((∀ v ∈ y, 0 ≤ v) → ∃ net, HasShape nin (simpleShape y.length) net ∧ ∀ x, netOut net x = y) := by
  refine ⟨?_, fun hy => ?_⟩
  · obtain ⟨h1, h2⟩ := constNet_spec nin [(500, true), (500, true), (500, true)] y false (by simp)
    exact ⟨_, h1, h2⟩
  · obtain ⟨h1, h2⟩ := constNet_spec nin [(400, true), (800, true), (400, true), (300, true), (200, true), (100, true)] y true fun _ => hy
    exact ⟨_, h1, h2⟩

/-- The hypotheses of C96 are satisfiable: a network of `Trainer` for two q values and one label. -/
example : ∃ net f, HasShape 2 (trainerShape 1) net ∧ predictLabels 2 1 net [['d']] (.matrix [[1, 2], [3, 4]]) = .ok f ∧ f.columns = [['d']] := by
  obtain ⟨⟨net, h, -⟩, -⟩ := C96_reachable 2 [-5]
  obtain ⟨f, h1, h2, -⟩ := C96_labels [(500, true), (500, true), (500, true)] 2 1 false net h [['d']] rfl [[1, 2], [3, 4]] (by simp) (by simp)
  exact ⟨net, f, h, h1, h2⟩

end Verif.Props
