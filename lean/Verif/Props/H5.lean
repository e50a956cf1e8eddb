import Verif.Props.FileNames
import Verif.Lemmas.Except
import Mathlib.Order.Bounds.Basic
import Mathlib.Data.Real.Basic

/-!
# C69, C70, C71: training data in HDF5 files
-/

namespace Verif.Props
open Verif.Py Verif.Model
variable {V : Type}

/-! ## Vocabulary of the statements -/

/-- The value that belongs to the last pair with the given key. -/
def lastOf {κ α : Type} [DecidableEq κ] (ws : List (κ × α)) (k : κ) : Option α :=
  (ws.reverse.find? fun w => w.1 = k).map Prod.snd

/-- The member `name` of the file `path`. -/
def contents (d : Disk V) (path name : Str) : Option (Node V) := (d path).bind fun f => f name

/-- The attribute `key` of the group `info` of a file. -/
def attrOf (f : H5File V) (key : Str) : Option Attr :=
  match f "info".toList with
  | some (.group g) => g key
  | _ => none

/-- The attribute `key` of the group `info` of the file `path`. -/
def infoAttr (d : Disk V) (path key : Str) : Option Attr := (d path).bind fun f => attrOf f key

/-- What a call saves, by file and member name. -/
def savedMembers : SaveCall V → List ((Str × Str) × Node V)
  | .data f q r t _ =>
    [((ensureH5Extension f, "q_values".toList), .dataset q),
     ((ensureH5Extension f, "reflectivity".toList), .dataset r),
     ((ensureH5Extension f, "labels".toList), .table t)]
  | .noise f a l =>
    [((ensureH5Extension f, "shot_noise".toList), .dataset a),
     ((ensureH5Extension f, "shot_noise_levels".toList), .dataset l)]
  | .background f a l =>
    [((ensureH5Extension f, "background".toList), .dataset a),
     ((ensureH5Extension f, "background_levels".toList), .dataset l)]

/-- The attributes that a call saves, by file and key. -/
def savedAttrs : SaveCall V → List ((Str × Str) × Attr)
  | .data f _ _ t n => (infoAttrs t n).map fun (a : Str × Attr) => ((ensureH5Extension f, a.1), a.2)
  | _ => []

/-- `info` is not taken by something that is not a group. -/
def InfoFree (f : H5File V) : Prop :=
  f "info".toList = none ∨ ∃ g, f "info".toList = some (.group g)

/-- A history of save calls. -/
def runCalls : List (SaveCall V) → Disk V → Disk V
  | [], d => d
  | c :: cs, d => runCalls cs (c.run d).1

/-! ## Running primitives -/

theorem runSteps_append {F : Type} {a b : List (F → Res F)} {f f' : F}
    (h : runSteps a f = (f', none)) : runSteps (a ++ b) f = runSteps b f' := by
  induction a generalizing f with
  | nil => simp only [runSteps] at h; cases h; rfl
  | cons s a ih =>
    simp only [List.cons_append, runSteps] at h ⊢
    cases hs : s f with
    | ok g => rw [hs] at h; exact ih h
    | error e => rw [hs] at h; cases h

theorem run_override (name : Str) (v : V) (f : H5File V) :
    runSteps (overrideSteps name v) f = (Function.update f name (some (.dataset v)), none) := by
  unfold overrideSteps
  simp only [runSteps, delIfPresent]
  cases h : f name with
  | none => simp [createDataset, h]
  | some w => simp [delNode, h, createDataset]

theorem run_setAttrs (l : List (Str × Attr)) (f : H5File V) (g : Str → Option Attr)
    (h : f nInfo = some (.group g)) :
    runSteps (l.map fun (a : Str × Attr) => setAttr nInfo a.1 a.2) f =
      (Function.update f nInfo (some (.group
        (l.foldl (fun g (a : Str × Attr) => Function.update g a.1 (some a.2)) g))), none) := by
  induction l generalizing f g with
  | nil =>
    simp only [List.map_nil, runSteps, List.foldl_nil, ← h, Function.update_eq_self]
  | cons a l ih =>
    simp only [List.map_cons, runSteps, setAttr, h, List.foldl_cons]
    rw [ih _ (Function.update g a.1 (some a.2)) (by simp)]
    simp

theorem lastOf_append {κ α : Type} [DecidableEq κ] (a b : List (κ × α)) (k : κ) :
    lastOf (a ++ b) k = (lastOf b k).or (lastOf a k) := by
  unfold lastOf
  rw [List.reverse_append, List.find?_append]
  cases List.find? (fun w => decide (w.1 = k)) b.reverse <;> simp

theorem lastOf_cons {κ α : Type} [DecidableEq κ] (a : κ × α) (b : List (κ × α)) (k : κ) :
    lastOf (a :: b) k = (lastOf b k).or (if a.1 = k then some a.2 else none) := by
  have := lastOf_append [a] b k
  simp only [List.singleton_append] at this
  rw [this]
  congr 1
  unfold lastOf
  by_cases h : a.1 = k <;> simp [h]

theorem foldl_update_eq (l : List (Str × Attr)) (g : Str → Option Attr) (k : Str) :
    (l.foldl (fun g (a : Str × Attr) => Function.update g a.1 (some a.2)) g) k = (lastOf l k).or (g k) := by
  induction l generalizing g with
  | nil => rfl
  | cons a l ih =>
    rw [List.foldl_cons, ih, lastOf_cons]
    by_cases h : a.1 = k
    · subst h; cases lastOf l a.1 <;> simp
    · cases lastOf l k <;> simp [h, Function.update_of_ne (Ne.symm h)]

theorem run_requireInfo {f : H5File V} (h : InfoFree f) :
    ∃ g, runSteps [requireGroup nInfo] f = (Function.update f nInfo (some (.group g)), none) ∧
      ∀ k, g k = attrOf f k := by
  rcases h with h | ⟨g, h⟩
  · refine ⟨fun _ => none, ?_, ?_⟩
    · have h' : f nInfo = none := h
      simp [runSteps, requireGroup, h']
    · intro k; unfold attrOf; rw [h]
  · refine ⟨g, ?_, ?_⟩
    · have h' : f nInfo = some (.group g) := h
      simp only [runSteps, requireGroup, h']
      rw [← h', Function.update_eq_self]
    · intro k; unfold attrOf; rw [h]

/-- The content of the file after `save_data_as_h5`. -/
theorem run_saveData {f : H5File V} (h : InfoFree f) (q r : V) (t : Frame ℝ) (n : Int) :
    ∃ g, (∀ k, g k = (lastOf (infoAttrs t n) k).or (attrOf f k)) ∧
      runSteps (saveDataSteps q r t n) f =
        (Function.update (Function.update (Function.update (Function.update f nQ (some (.dataset q)))
          nInfo (some (.group g))) nReflectivity (some (.dataset r))) nLabels (some (.table t)), none) := by
  have hne : nInfo ≠ nQ := by decide
  have hf1 : InfoFree (Function.update f nQ (some (.dataset q))) := by
    unfold InfoFree
    rw [show "info".toList = nInfo from rfl, Function.update_of_ne hne]
    exact h
  have ha : ∀ k, attrOf (Function.update f nQ (some (.dataset q))) k = attrOf f k := by
    intro k
    unfold attrOf
    rw [show "info".toList = nInfo from rfl, Function.update_of_ne hne]
  obtain ⟨g, hg, hk⟩ := run_requireInfo hf1
  refine ⟨(infoAttrs t n).foldl (fun g (a : Str × Attr) => Function.update g a.1 (some a.2)) g, ?_, ?_⟩
  · intro k; rw [foldl_update_eq, hk, ha]
  · unfold saveDataSteps
    rw [List.append_assoc, List.append_assoc, List.append_assoc,
      runSteps_append (run_override nQ q f), runSteps_append hg,
      runSteps_append (run_setAttrs _ _ g (by simp)), runSteps_append (run_override _ _ _)]
    simp [runSteps, toHdfSteps]

theorem run_two (a b : Str) (v w : V) (f : H5File V) :
    runSteps (overrideSteps a v ++ overrideSteps b w) f =
      (Function.update (Function.update f a (some (.dataset v))) b (some (.dataset w)), none) := by
  rw [runSteps_append (run_override _ _ _), run_override]

theorem openAppend_apply (d : Disk V) (p n : Str) : openAppend d p n = contents d p n := by
  unfold openAppend contents
  cases d p <;> rfl

theorem openAppend_attr (d : Disk V) (p k : Str) : attrOf (openAppend d p) k = infoAttr d p k := by
  unfold openAppend infoAttr
  cases d p <;> rfl

/-! ## C69 -/

/-- The file that a call works on has no foreign member `info`. -/
def CallOk (c : SaveCall V) (d : Disk V) : Prop := InfoFree (openAppend d (ensureH5Extension c.file))

/-- One call: it succeeds, each member of each file other than `info` holds what the call saved under
its name, or what it held before; the same for the attributes of `info`. -/
theorem call_effect (c : SaveCall V) (d : Disk V) (h : CallOk c d) :
    (c.run d).2 = none ∧
    (∀ p n, n ≠ "info".toList →
      contents (c.run d).1 p n = (lastOf (savedMembers c) (p, n)).or (contents d p n)) ∧
    (∀ p k, infoAttr (c.run d).1 p k = (lastOf (savedAttrs c) (p, k)).or (infoAttr d p k)) ∧
    (∀ p, InfoFree (openAppend d p) → InfoFree (openAppend (c.run d).1 p)) := by
  have key : ∀ (F : H5File V), runSteps c.steps (openAppend d (ensureH5Extension c.file)) = (F, none) →
      (∀ n, n ≠ "info".toList → F n = (lastOf (savedMembers c) (ensureH5Extension c.file, n)).or
        (contents d (ensureH5Extension c.file) n)) →
      (∀ k, attrOf F k = (lastOf (savedAttrs c) (ensureH5Extension c.file, k)).or
        (infoAttr d (ensureH5Extension c.file) k)) → InfoFree F →
      (∀ p n, p ≠ ensureH5Extension c.file → lastOf (savedMembers c) (p, n) = none) →
      (∀ p n, p ≠ ensureH5Extension c.file → lastOf (savedAttrs c) (p, n) = none) →
      (c.run d).2 = none ∧
      (∀ p n, n ≠ "info".toList →
        contents (c.run d).1 p n = (lastOf (savedMembers c) (p, n)).or (contents d p n)) ∧
      (∀ p k, infoAttr (c.run d).1 p k = (lastOf (savedAttrs c) (p, k)).or (infoAttr d p k)) ∧
      (∀ p, InfoFree (openAppend d p) → InfoFree (openAppend (c.run d).1 p)) := by
    intro F hF h1 h2 h3 h4 h5
    have hr : c.run d = (Function.update d (ensureH5Extension c.file) (some F), none) := by
      simp only [SaveCall.run, hF]
    rw [hr]
    refine ⟨rfl, ?_, ?_, ?_⟩
    · intro p n hn
      by_cases hp : p = ensureH5Extension c.file
      · subst hp; simp only [contents, Function.update_self, Option.bind_some]; exact h1 n hn
      · rw [h4 p n hp]; simp [contents, Function.update_of_ne hp]
    · intro p k
      by_cases hp : p = ensureH5Extension c.file
      · subst hp; simp only [infoAttr, Function.update_self, Option.bind_some]; exact h2 k
      · rw [h5 p k hp]; simp [infoAttr, Function.update_of_ne hp]
    · intro p hp'
      by_cases hp : p = ensureH5Extension c.file
      · subst hp; simpa [openAppend] using h3
      · simpa [openAppend, Function.update_of_ne hp] using hp'
  have other : ∀ {α : Type} (l : List ((Str × Str) × α)) (path p n : Str), (∀ w ∈ l, w.1.1 = path) →
      p ≠ path → lastOf l (p, n) = none := by
    intro α l path p n hl hp
    unfold lastOf
    rw [List.find?_eq_none.2]
    · rfl
    · intro w hw hc
      apply hp
      rw [← hl w (List.mem_reverse.1 hw)]
      have : w.1 = (p, n) := by simpa using hc
      rw [this]
  cases c with
  | data file q r t n =>
    obtain ⟨g, hg, hF⟩ := run_saveData (f := openAppend d (ensureH5Extension file)) h q r t n
    refine key _ hF ?_ ?_ ?_ ?_ ?_
    · intro m hm
      have hm' : m ≠ nInfo := hm
      simp only [SaveCall.file, savedMembers, lastOf_cons]
      rw [show "q_values".toList = nQ from rfl, show "reflectivity".toList = nReflectivity from rfl,
        show "labels".toList = nLabels from rfl]
      by_cases h1 : m = nLabels
      · subst h1; simp [lastOf]
      · by_cases h2 : m = nReflectivity
        · subst h2; simp [lastOf, Function.update_of_ne h1, Ne.symm h1]
        · by_cases h3 : m = nQ
          · subst h3
            simp [lastOf, Function.update_of_ne h1, Function.update_of_ne h2, Function.update_of_ne hm', Ne.symm h1, Ne.symm h2]
          · simp [lastOf, Function.update_of_ne h1, Function.update_of_ne h2, Function.update_of_ne hm',
              Function.update_of_ne h3, Ne.symm h1, Ne.symm h2, Ne.symm h3, openAppend_apply]
    · intro k
      have e1 : nInfo ≠ nLabels := by decide
      have e2 : nInfo ≠ nReflectivity := by decide
      have e : attrOf (Function.update (Function.update (Function.update (Function.update
          (openAppend d (ensureH5Extension file)) nQ (some (.dataset q)))
          nInfo (some (.group g))) nReflectivity (some (.dataset r))) nLabels (some (.table t))) k = g k := by
        unfold attrOf
        rw [show "info".toList = nInfo from rfl, Function.update_of_ne e1, Function.update_of_ne e2,
          Function.update_self]
      rw [e, hg, openAppend_attr]
      simp only [SaveCall.file, savedAttrs]
      congr 1
      unfold lastOf
      rw [← List.map_reverse, List.find?_map, Option.map_map]
      simp [Function.comp_def]
    · right
      refine ⟨g, ?_⟩
      have e1 : nInfo ≠ nLabels := by decide
      have e2 : nInfo ≠ nReflectivity := by decide
      rw [show "info".toList = nInfo from rfl, Function.update_of_ne e1, Function.update_of_ne e2,
          Function.update_self]
    · intro p m hp
      exact other _ _ p m (by simp [savedMembers, SaveCall.file]) hp
    · intro p m hp
      refine other _ _ p m ?_ hp
      intro w hw
      simp only [savedAttrs, List.mem_map] at hw
      obtain ⟨a, -, rfl⟩ := hw
      rfl
  | noise file a l =>
    refine key _ (run_two _ _ _ _ _) ?_ ?_ ?_ ?_ ?_
    · intro m hm
      simp only [SaveCall.file, savedMembers, lastOf_cons]
      rw [show "shot_noise".toList = nShotNoise from rfl,
        show "shot_noise_levels".toList = nShotNoiseLevels from rfl]
      by_cases h1 : m = nShotNoiseLevels
      · subst h1; simp [lastOf]
      · by_cases h2 : m = nShotNoise
        · subst h2; simp [lastOf, Function.update_of_ne h1, Ne.symm h1]
        · simp [lastOf, Function.update_of_ne h1, Function.update_of_ne h2, Ne.symm h1, Ne.symm h2, openAppend_apply]
    · intro k
      have e1 : nInfo ≠ nShotNoise := by decide
      have e2 : nInfo ≠ nShotNoiseLevels := by decide
      rw [← openAppend_attr]
      unfold attrOf
      rw [show "info".toList = nInfo from rfl, Function.update_of_ne e2, Function.update_of_ne e1]
      simp [savedAttrs, lastOf, SaveCall.file]
    · have e1 : nInfo ≠ nShotNoise := by decide
      have e2 : nInfo ≠ nShotNoiseLevels := by decide
      unfold InfoFree
      rw [show "info".toList = nInfo from rfl, Function.update_of_ne e2, Function.update_of_ne e1]
      exact h
    · intro p m hp
      exact other _ _ p m (by simp [savedMembers, SaveCall.file]) hp
    · intro p m hp; rfl
  | background file a l =>
    refine key _ (run_two _ _ _ _ _) ?_ ?_ ?_ ?_ ?_
    · intro m hm
      simp only [SaveCall.file, savedMembers, lastOf_cons]
      rw [show "background".toList = nBackground from rfl,
        show "background_levels".toList = nBackgroundLevels from rfl]
      by_cases h1 : m = nBackgroundLevels
      · subst h1; simp [lastOf]
      · by_cases h2 : m = nBackground
        · subst h2; simp [lastOf, Function.update_of_ne h1, Ne.symm h1]
        · simp [lastOf, Function.update_of_ne h1, Function.update_of_ne h2, Ne.symm h1, Ne.symm h2, openAppend_apply]
    · intro k
      have e1 : nInfo ≠ nBackground := by decide
      have e2 : nInfo ≠ nBackgroundLevels := by decide
      rw [← openAppend_attr]
      unfold attrOf
      rw [show "info".toList = nInfo from rfl, Function.update_of_ne e2, Function.update_of_ne e1]
      simp [savedAttrs, lastOf, SaveCall.file]
    · have e1 : nInfo ≠ nBackground := by decide
      have e2 : nInfo ≠ nBackgroundLevels := by decide
      unfold InfoFree
      rw [show "info".toList = nInfo from rfl, Function.update_of_ne e2, Function.update_of_ne e1]
      exact h
    · intro p m hp
      exact other _ _ p m (by simp [savedMembers, SaveCall.file]) hp
    · intro p m hp; rfl

/-- C69: after any history of save calls on files without a foreign member `info`, every member of
every file holds the last value saved under its name, or its original content if nothing was saved
under that name; the same holds for every attribute of `info`; and no call fails. -/
theorem C69_history (cs : List (SaveCall V)) (d : Disk V) (h : ∀ p, InfoFree (openAppend d p)) :
    (∀ p n, n ≠ "info".toList →
      contents (runCalls cs d) p n = (lastOf (cs.flatMap savedMembers) (p, n)).or (contents d p n)) ∧
    (∀ p k, infoAttr (runCalls cs d) p k =
      (lastOf (cs.flatMap savedAttrs) (p, k)).or (infoAttr d p k)) ∧
    (∀ pre c post, cs = pre ++ c :: post → (c.run (runCalls pre d)).2 = none) := by
  induction cs generalizing d with
  | nil =>
    refine ⟨fun p n _ => rfl, fun p k => rfl, ?_⟩
    intro pre c post e
    simp at e
  | cons c cs ih =>
    obtain ⟨h0, h1, h2, h3⟩ := call_effect c d (h _)
    obtain ⟨i1, i2, i3⟩ := ih (c.run d).1 fun p => h3 p (h p)
    refine ⟨?_, ?_, ?_⟩
    · intro p n hn
      rw [runCalls, i1 p n hn, h1 p n hn, List.flatMap_cons, lastOf_append]
      cases lastOf (cs.flatMap savedMembers) (p, n) <;> simp
    · intro p k
      rw [runCalls, i2, h2, List.flatMap_cons, lastOf_append]
      cases lastOf (cs.flatMap savedAttrs) (p, k) <;> simp
    · intro pre c' post e
      cases pre with
      | nil =>
        simp only [List.nil_append, List.cons.injEq] at e
        rw [← e.1]; exact h0
      | cons b pre =>
        simp only [List.cons_append, List.cons.injEq] at e
        rw [← e.1]
        exact i3 pre c' post e.2

/-- C69: saving noise or background changes nothing but the two data sets of that kind in that
file, whatever the file contains. -/
theorem C69_frame (c : SaveCall V) (d : Disk V)
    (hc : (∃ f a l, c = .noise f a l) ∨ ∃ f a l, c = .background f a l) :
    (c.run d).2 = none ∧
    ∀ p n, (∀ w ∈ savedMembers c, w.1 ≠ (p, n)) → contents (c.run d).1 p n = contents d p n := by
  have key : ∀ (file a b : Str) (v w : V), c.file = file → c.steps = overrideSteps a v ++ overrideSteps b w →
      (c.run d).2 = none ∧ ∀ p n, (ensureH5Extension file, a) ≠ (p, n) → (ensureH5Extension file, b) ≠ (p, n) →
        contents (c.run d).1 p n = contents d p n := by
    intro file a b v w hf hs
    have hr : c.run d = (Function.update d (ensureH5Extension file) (some (Function.update
        (Function.update (openAppend d (ensureH5Extension file)) a (some (.dataset v))) b (some (.dataset w)))), none) := by
      simp only [SaveCall.run, hs, run_two, hf]
    rw [hr]
    refine ⟨rfl, ?_⟩
    intro p n h1 h2
    by_cases hp : p = ensureH5Extension file
    · subst hp
      have h1' : n ≠ a := fun e => h1 (by rw [e])
      have h2' : n ≠ b := fun e => h2 (by rw [e])
      rw [← openAppend_apply d]
      simp [contents, Function.update_of_ne h1', Function.update_of_ne h2']
    · simp [contents, Function.update_of_ne hp]
  rcases hc with ⟨f, a, l, rfl⟩ | ⟨f, a, l, rfl⟩
  · obtain ⟨k1, k2⟩ := key f nShotNoise nShotNoiseLevels a l rfl rfl
    refine ⟨k1, fun p n h => k2 p n ?_ ?_⟩
    · exact h ((ensureH5Extension f, nShotNoise), .dataset a) (by simp [savedMembers]; left; rfl)
    · exact h ((ensureH5Extension f, nShotNoiseLevels), .dataset l) (by simp [savedMembers]; right; rfl)
  · obtain ⟨k1, k2⟩ := key f nBackground nBackgroundLevels a l rfl rfl
    refine ⟨k1, fun p n h => k2 p n ?_ ?_⟩
    · exact h ((ensureH5Extension f, nBackground), .dataset a) (by simp [savedMembers]; left; rfl)
    · exact h ((ensureH5Extension f, nBackgroundLevels), .dataset l) (by simp [savedMembers]; right; rfl)

/-- The hypothesis of `C69_history` holds for an empty disk, and the statement then says what is
expected for two noise calls on names that are completed to the same file. -/
example (a b c e : V) :
    contents (runCalls [.noise "f".toList a b, .noise "f.h5".toList c e] fun _ => none)
      "f.h5".toList "shot_noise".toList = some (.dataset c) := by
  obtain ⟨h, -, -⟩ := C69_history [.noise "f".toList a b, .noise "f.h5".toList c e] (fun _ => none)
    (fun p => .inl rfl)
  rw [h _ _ (by decide)]
  have e1 : ensureH5Extension "f".toList = "f.h5".toList := by decide
  have e2 : ensureH5Extension "f.h5".toList = "f.h5".toList := by decide
  simp only [List.flatMap_cons, savedMembers, e1, e2, lastOf_append, lastOf_cons]
  simp [lastOf]

end Verif.Props
