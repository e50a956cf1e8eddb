import Verif.Props.Plots
import Verif.Props.ImageOrder

/-!
# C112: the detectors of a scan and the place of their files
-/

namespace Verif.Props
open Verif.Py Verif.Model Verif.Spec

/-! ### Specification -/

/-- The detectors, in the order in which they are looked for, and the words by which the columns of each are recognised. -/
def detectorWords : List (Str × List Str) :=
  [("lambda".toList, ["lambda".toList]), ("p100k".toList, ["p100k".toList]), ("p300k".toList, ["p300k".toList]),
    ("eiger".toList, ["eiger".toList]),
    ("mythen".toList, ["mythint".toList, "mythmax".toList, "mythroi1".toList, "mythroi2".toList]),
    ("pe".toList, ["pe_roi".toList, "pe_trigger".toList])]

/-- The column contains one of the words. -/
def HasWord (col : Str) (ws : List Str) : Prop := ∃ w ∈ ws, w <:+: col

/-- The column belongs to the detector. -/
def NamesDetector (col d : Str) : Prop := ∃ ws, (d, ws) ∈ detectorWords ∧ HasWord col ws

/-- The order of texts by code points. -/
def TextLe (a b : Str) : Prop := a <+: b ∨ ∃ p s t c d, a = p ++ c :: s ∧ b = p ++ d :: t ∧ c.toNat < d.toNat

/-- The path of a mythen file of the scan. -/
def MythenFile (dir name p : Str) : Prop :=
  ∃ n, '/' ∉ n ∧ p = dir ++ "/".toList ++ name ++ "/mythen/".toList ++ name ++ n ++ ".raw".toList

theorem mapM_ok_all {α β : Type} {f : α → Res β} {l : List α} (h : ∀ a ∈ l, ∃ b, f a = .ok b) : ∃ r, l.mapM f = .ok r := by
  induction l with
  | nil => exact ⟨[], rfl⟩
  | cons a l ih =>
    obtain ⟨b, hb⟩ := h a (by simp)
    obtain ⟨r, hr⟩ := ih fun x hx => h x (by simp [hx])
    exact ⟨b :: r, by rw [mapM_cons, hb, bind_ok, hr]; rfl⟩

/-! ### The flags -/

theorem hasWord_one {col w : Str} : HasWord col [w] ↔ contains col w = true := by
  unfold HasWord
  rw [contains_iff]
  simp

theorem hasWord_two {col v w : Str} : HasWord col [v, w] ↔ (contains col v || contains col w) = true := by
  unfold HasWord
  rw [Bool.or_eq_true, contains_iff, contains_iff]
  simp

theorem hasWord_four {col a b c d : Str} :
    HasWord col [a, b, c, d] ↔ (contains col a || contains col b || contains col c || contains col d) = true := by
  unfold HasWord
  rw [Bool.or_eq_true, Bool.or_eq_true, Bool.or_eq_true, contains_iff, contains_iff, contains_iff, contains_iff]
  simp [or_assoc]

/-- The column belongs to detector number `i` and to none before it. -/
def FirstWord (i : Nat) (col : Str) : Prop :=
  (∃ d ws, detectorWords[i]? = some (d, ws) ∧ HasWord col ws) ∧
    ∀ j < i, ∀ d ws, detectorWords[j]? = some (d, ws) → ¬ HasWord col ws

theorem flags_fold {get : DetFlags → Bool} {P : Str → Prop}
    (h : ∀ f col, get (flagStep f col) = true ↔ get f = true ∨ P col) :
    ∀ (cols : List Str) (f : DetFlags), get (cols.foldl flagStep f) = true ↔ get f = true ∨ ∃ col ∈ cols, P col
  | [], f => by simp
  | c :: cols, f => by
    rw [List.foldl_cons, flags_fold h cols, h]
    simp [or_assoc]

/-- What the step does to each flag. -/
theorem flagStep_flags (f : DetFlags) (col : Str) :
    ((flagStep f col).lambda = true ↔ f.lambda = true ∨ FirstWord 0 col) ∧
    ((flagStep f col).p100k = true ↔ f.p100k = true ∨ FirstWord 1 col) ∧
    ((flagStep f col).p300k = true ↔ f.p300k = true ∨ FirstWord 2 col) ∧
    ((flagStep f col).eiger = true ↔ f.eiger = true ∨ FirstWord 3 col) ∧
    ((flagStep f col).mythen = true ↔ f.mythen = true ∨ FirstWord 4 col) ∧
    ((flagStep f col).pe = true ↔ f.pe = true ∨ FirstWord 5 col) := by
  have e : ∀ (i : Nat) (p : Str × List Str), detectorWords[i]? = some p → (FirstWord i col ↔ HasWord col p.2 ∧
      ∀ j < i, ∀ d ws, detectorWords[j]? = some (d, ws) → ¬ HasWord col ws) := by
    intro i p hp
    unfold FirstWord
    refine and_congr_left fun _ => ⟨?_, fun h => ⟨p.1, p.2, hp, h⟩⟩
    rintro ⟨d, ws, h1, h2⟩
    rw [h1] at hp
    cases hp
    exact h2
  have below : ∀ (i : Nat) (p : Str × List Str) (P : Prop), detectorWords[i]? = some p →
      ((∀ j < i + 1, ∀ d ws, detectorWords[j]? = some (d, ws) → ¬ HasWord col ws) ↔
        (∀ j < i, ∀ d ws, detectorWords[j]? = some (d, ws) → ¬ HasWord col ws) ∧ ¬ HasWord col p.2) := by
    intro i p _ hp
    refine ⟨fun h => ⟨fun j hj => h j (by omega), h i (by omega) p.1 p.2 hp⟩, fun h j hj d ws hd => ?_⟩
    rcases Nat.lt_succ_iff_lt_or_eq.1 hj with hj | rfl
    · exact h.1 j hj d ws hd
    · rw [hp] at hd
      cases hd
      exact h.2
  have zero : (∀ j < 0, ∀ d ws, detectorWords[j]? = some (d, ws) → ¬ HasWord col ws) ↔ True :=
    ⟨fun _ => trivial, fun _ j hj => absurd hj (by omega)⟩
  rw [e 0 _ rfl, e 1 _ rfl, e 2 _ rfl, e 3 _ rfl, e 4 _ rfl, e 5 _ rfl, below 4 _ True rfl, below 3 _ True rfl, below 2 _ True rfl,
    below 1 _ True rfl, below 0 _ True rfl, zero]
  show (_ ↔ _ ∨ HasWord col [lambdaKey] ∧ True) ∧ (_ ↔ _ ∨ HasWord col [p100kKey] ∧ True ∧ ¬ HasWord col [lambdaKey]) ∧
    (_ ↔ _ ∨ HasWord col ["p300k".toList] ∧ (True ∧ ¬ HasWord col [lambdaKey]) ∧ ¬ HasWord col [p100kKey]) ∧
    (_ ↔ _ ∨ HasWord col [eigerKey] ∧ ((True ∧ ¬ HasWord col [lambdaKey]) ∧ ¬ HasWord col [p100kKey]) ∧ ¬ HasWord col ["p300k".toList]) ∧
    (_ ↔ _ ∨ HasWord col ["mythint".toList, "mythmax".toList, "mythroi1".toList, "mythroi2".toList] ∧
      (((True ∧ ¬ HasWord col [lambdaKey]) ∧ ¬ HasWord col [p100kKey]) ∧ ¬ HasWord col ["p300k".toList]) ∧ ¬ HasWord col [eigerKey]) ∧
    (_ ↔ _ ∨ HasWord col ["pe_roi".toList, "pe_trigger".toList] ∧
      ((((True ∧ ¬ HasWord col [lambdaKey]) ∧ ¬ HasWord col [p100kKey]) ∧ ¬ HasWord col ["p300k".toList]) ∧ ¬ HasWord col [eigerKey]) ∧
      ¬ HasWord col ["mythint".toList, "mythmax".toList, "mythroi1".toList, "mythroi2".toList])
  rw [hasWord_one, hasWord_one, hasWord_one, hasWord_one, hasWord_two, hasWord_four]
  unfold flagStep
  generalize contains col lambdaKey = a
  generalize contains col p100kKey = b
  generalize contains col "p300k".toList = c
  generalize contains col eigerKey = d
  generalize (contains col "mythint".toList || contains col "mythmax".toList || contains col "mythroi1".toList
      || contains col "mythroi2".toList) = m
  generalize (contains col "pe_roi".toList || contains col "pe_trigger".toList) = p
  obtain ⟨f1, f2, f3, f4, f5, f6⟩ := f
  cases a <;> cases b <;> cases c <;> cases d <;> cases m <;> cases p <;> simp

theorem mem_detectorList (f : DetFlags) (d : Str) :
    d ∈ detectorList f ↔ (f.lambda = true ∧ d = "lambda".toList) ∨ (f.p100k = true ∧ d = "p100k".toList) ∨
      (f.p300k = true ∧ d = "p300k".toList) ∨ (f.eiger = true ∧ d = "eiger".toList) ∨ (f.mythen = true ∧ d = "mythen".toList) ∨
      (f.pe = true ∧ d = "pe".toList) := by
  have e : ∀ (b : Bool) (k : Str), d ∈ (if b then [k] else []) ↔ b = true ∧ d = k := by
    intro b k
    cases b <;> simp
  unfold detectorList
  rw [List.mem_append, List.mem_append, List.mem_append, List.mem_append, List.mem_append, e, e, e, e, e, e]
  rw [or_assoc, or_assoc, or_assoc, or_assoc]
  exact Iff.rfl

theorem detFlags_iff (cols : List Str) :
    ((detFlags cols).lambda = true ↔ ∃ col ∈ cols, FirstWord 0 col) ∧ ((detFlags cols).p100k = true ↔ ∃ col ∈ cols, FirstWord 1 col) ∧
    ((detFlags cols).p300k = true ↔ ∃ col ∈ cols, FirstWord 2 col) ∧ ((detFlags cols).eiger = true ↔ ∃ col ∈ cols, FirstWord 3 col) ∧
    ((detFlags cols).mythen = true ↔ ∃ col ∈ cols, FirstWord 4 col) ∧ ((detFlags cols).pe = true ↔ ∃ col ∈ cols, FirstWord 5 col) := by
  have h := flagStep_flags
  unfold detFlags
  refine ⟨?_, ?_, ?_, ?_, ?_, ?_⟩
  · rw [flags_fold (get := DetFlags.lambda) fun f c => (h f c).1]; simp
  · rw [flags_fold (get := DetFlags.p100k) fun f c => (h f c).2.1]; simp
  · rw [flags_fold (get := DetFlags.p300k) fun f c => (h f c).2.2.1]; simp
  · rw [flags_fold (get := DetFlags.eiger) fun f c => (h f c).2.2.2.1]; simp
  · rw [flags_fold (get := DetFlags.mythen) fun f c => (h f c).2.2.2.2.1]; simp
  · rw [flags_fold (get := DetFlags.pe) fun f c => (h f c).2.2.2.2.2]; simp

theorem detectorWords_cases {i : Nat} {d : Str} {ws : List Str} (h : detectorWords[i]? = some (d, ws)) :
    (i = 0 ∧ d = "lambda".toList) ∨ (i = 1 ∧ d = "p100k".toList) ∨ (i = 2 ∧ d = "p300k".toList) ∨ (i = 3 ∧ d = "eiger".toList) ∨
      (i = 4 ∧ d = "mythen".toList) ∨ (i = 5 ∧ d = "pe".toList) := by
  match i, h with
  | 0, h => cases h; exact Or.inl ⟨rfl, rfl⟩
  | 1, h => cases h; exact Or.inr (Or.inl ⟨rfl, rfl⟩)
  | 2, h => cases h; exact Or.inr (Or.inr (Or.inl ⟨rfl, rfl⟩))
  | 3, h => cases h; exact Or.inr (Or.inr (Or.inr (Or.inl ⟨rfl, rfl⟩)))
  | 4, h => cases h; exact Or.inr (Or.inr (Or.inr (Or.inr (Or.inl ⟨rfl, rfl⟩))))
  | 5, h => cases h; exact Or.inr (Or.inr (Or.inr (Or.inr (Or.inr ⟨rfl, rfl⟩))))
  | i + 6, h => cases h

/-- C112: a detector is in the list exactly if a column has one of its words and no word of a detector before it;
the list has the fixed order and no detector twice. -/
theorem C112_detectors (cols : List Str) :
    (∀ d, d ∈ detectorList (detFlags cols) ↔ ∃ (i : Nat) (ws : List Str), detectorWords[i]? = some (d, ws) ∧ ∃ col ∈ cols, HasWord col ws ∧
      ∀ j < i, ∀ e vs, detectorWords[j]? = some (e, vs) → ¬ HasWord col vs) ∧
    (detectorList (detFlags cols)).Sublist (detectorWords.map Prod.fst) := by
  constructor
  · intro d
    have conv : ∀ (i : Nat) (k : Str) (ks : List Str), detectorWords[i]? = some (k, ks) → ((∃ col ∈ cols, FirstWord i col) ∧ d = k ↔
        ∃ ws, detectorWords[i]? = some (d, ws) ∧ ∃ col ∈ cols, HasWord col ws ∧
          ∀ j < i, ∀ e vs, detectorWords[j]? = some (e, vs) → ¬ HasWord col vs) := by
      intro i k ks hk
      constructor
      · rintro ⟨⟨col, hc, ⟨d', ws, h1, h2⟩, h3⟩, rfl⟩
        rw [hk] at h1
        cases h1
        exact ⟨ks, hk, col, hc, h2, h3⟩
      · rintro ⟨ws, h1, col, hc, h2, h3⟩
        rw [hk] at h1
        cases h1
        exact ⟨⟨col, hc, ⟨_, _, hk, h2⟩, h3⟩, rfl⟩
    obtain ⟨a0, a1, a2, a3, a4, a5⟩ := detFlags_iff cols
    rw [mem_detectorList, a0, a1, a2, a3, a4, a5, conv 0 _ _ rfl, conv 1 _ _ rfl, conv 2 _ _ rfl, conv 3 _ _ rfl, conv 4 _ _ rfl, conv 5 _ _ rfl]
    constructor
    · rintro (h | h | h | h | h | h) <;> exact ⟨_, h⟩
    · rintro ⟨i, ws, h, h'⟩
      rcases detectorWords_cases h with ⟨rfl, -⟩ | ⟨rfl, -⟩ | ⟨rfl, -⟩ | ⟨rfl, -⟩ | ⟨rfl, -⟩ | ⟨rfl, -⟩
      · exact Or.inl ⟨ws, h, h'⟩
      · exact Or.inr (Or.inl ⟨ws, h, h'⟩)
      · exact Or.inr (Or.inr (Or.inl ⟨ws, h, h'⟩))
      · exact Or.inr (Or.inr (Or.inr (Or.inl ⟨ws, h, h'⟩)))
      · exact Or.inr (Or.inr (Or.inr (Or.inr (Or.inl ⟨ws, h, h'⟩))))
      · exact Or.inr (Or.inr (Or.inr (Or.inr (Or.inr ⟨ws, h, h'⟩))))
  · have e : ∀ (b : Bool) (k : Str), (if b then [k] else []).Sublist [k] := by
      intro b k
      cases b
      · exact List.nil_sublist _
      · exact List.Sublist.refl _
    exact ((((((e _ _).append (e _ _)).append (e _ _)).append (e _ _)).append (e _ _)).append (e _ _))

/-- C112: if no column belongs to two detectors, the list holds exactly the detectors that have a column. -/
theorem C112_unambiguous (cols : List Str) (hu : ∀ col ∈ cols, ∀ d e, NamesDetector col d → NamesDetector col e → d = e) (d : Str) :
    d ∈ detectorList (detFlags cols) ↔ ∃ col ∈ cols, NamesDetector col d := by
  rw [(C112_detectors cols).1]
  constructor
  · rintro ⟨i, ws, h1, col, hc, h2, -⟩
    exact ⟨col, hc, ws, List.mem_of_getElem? h1, h2⟩
  · rintro ⟨col, hc, ws, h1, h2⟩
    obtain ⟨i, hi⟩ := List.mem_iff_getElem?.1 h1
    refine ⟨i, ws, hi, col, hc, h2, fun j hj e vs he hv => ?_⟩
    obtain rfl := hu col hc d e ⟨ws, h1, h2⟩ ⟨vs, List.mem_of_getElem? he, hv⟩
    have hn : ((detectorWords.map Prod.fst)).Nodup := by decide
    have h3 : (detectorWords.map Prod.fst)[i]? = some d := by rw [List.getElem?_map, hi]; rfl
    have h4 : (detectorWords.map Prod.fst)[j]? = some d := by rw [List.getElem?_map, he]; rfl
    have := (List.getElem?_inj (List.getElem?_eq_some_iff.1 h3).1 hn).1 (h3.trans h4.symm)
    omega

/-! ### The images -/

theorem mem_keys_dictSet {β : Type} {d : List (Str × β)} {k : Str} {v : β} (x : Str) :
    x ∈ (dictSet d k v).map Prod.fst ↔ x = k ∨ x ∈ d.map Prod.fst := by
  induction d with
  | nil => simp [dictSet]
  | cons p d ih =>
    obtain ⟨k', v'⟩ := p
    unfold dictSet
    split
    · rename_i h
      subst h
      simp
    · rw [List.map_cons, List.mem_cons, ih, List.map_cons, List.mem_cons]
      tauto

theorem whenFlag_keys {b : Bool} {g : P08Scan → Res P08Scan} {s r : P08Scan} {k : Str} (h : whenFlag b g s = .ok r)
    (hg : ∀ s r, g s = .ok r → ∀ x, x ∈ r.imageData.map Prod.fst ↔ x = k ∨ x ∈ s.imageData.map Prod.fst) (x : Str) :
    x ∈ r.imageData.map Prod.fst ↔ (b = true ∧ x = k) ∨ x ∈ s.imageData.map Prod.fst := by
  unfold whenFlag at h
  cases b with
  | false => cases h; simp
  | true => rw [hg s r h]; simp

theorem addNexus_keys (det : Str) (file : Option (List Img)) (s r : P08Scan) (h : s.addNexus det file = .ok r) (x : Str) :
    x ∈ r.imageData.map Prod.fst ↔ x = det ∨ x ∈ s.imageData.map Prod.fst := by
  unfold P08Scan.addNexus at h
  obtain ⟨l, -, h⟩ := bind_eq_ok.1 h
  obtain ⟨m, -, h⟩ := bind_eq_ok.1 h
  cases h
  exact mem_keys_dictSet x

theorem addPilatus_keys (disk : List (Str × Img)) (dir name : Str) (s r : P08Scan) (h : s.addPilatus disk dir name = .ok r) (x : Str) :
    x ∈ r.imageData.map Prod.fst ↔ x = p100kKey ∨ x ∈ s.imageData.map Prod.fst := by
  unfold P08Scan.addPilatus at h
  obtain ⟨l, -, h⟩ := bind_eq_ok.1 h
  obtain ⟨m, -, h⟩ := bind_eq_ok.1 h
  cases h
  exact mem_keys_dictSet x

theorem addMythen_keys (disk : List (Str × List ℝ)) (dir name : Str) (s r : P08Scan) (h : s.addMythen disk dir name = .ok r) (x : Str) :
    x ∈ r.imageData.map Prod.fst ↔ x = mythenKey ∨ x ∈ s.imageData.map Prod.fst := by
  unfold P08Scan.addMythen at h
  obtain ⟨l, -, h⟩ := bind_eq_ok.1 h
  cases h
  exact mem_keys_dictSet x

/-- C112: images are loaded for exactly the detectors of the list other than `p300k` and `pe`, for which there is no
loader. -/
theorem C112_images (s r : P08Scan) (disk : ImageDisk) (dir name : Str) (f : DetFlags) (he : s.imageData = [])
    (h : s.loadImages disk dir name f = .ok r) (d : Str) :
    d ∈ r.imageData.map Prod.fst ↔ d ∈ detectorList f ∧ d ≠ "p300k".toList ∧ d ≠ "pe".toList := by
  unfold P08Scan.loadImages at h
  obtain ⟨s1, h1, h⟩ := bind_eq_ok.1 h
  obtain ⟨s2, h2, h⟩ := bind_eq_ok.1 h
  obtain ⟨s3, h3, h4⟩ := bind_eq_ok.1 h
  rw [whenFlag_keys h4 (addMythen_keys _ _ _), whenFlag_keys h3 (addNexus_keys _ _), whenFlag_keys h2 (addPilatus_keys _ _ _),
    whenFlag_keys h1 (addNexus_keys _ _), he, mem_detectorList]
  constructor
  · rintro (⟨h, rfl⟩ | ⟨h, rfl⟩ | ⟨h, rfl⟩ | ⟨h, rfl⟩ | h)
    · exact ⟨Or.inr (Or.inr (Or.inr (Or.inr (Or.inl ⟨h, rfl⟩)))), by decide, by decide⟩
    · exact ⟨Or.inr (Or.inr (Or.inr (Or.inl ⟨h, rfl⟩))), by decide, by decide⟩
    · exact ⟨Or.inr (Or.inl ⟨h, rfl⟩), by decide, by decide⟩
    · exact ⟨Or.inl ⟨h, rfl⟩, by decide, by decide⟩
    · cases h
  · rintro ⟨h | h | h | h | h | h, h5, h6⟩
    · exact Or.inr (Or.inr (Or.inr (Or.inl h)))
    · exact Or.inr (Or.inr (Or.inl h))
    · exact absurd h.2 h5
    · exact Or.inr (Or.inl h)
    · exact Or.inl h
    · exact absurd h.2 h6

/-! ### Mythen files -/

theorem strLe_iff : ∀ a b : Str, strLe a b = true ↔ TextLe a b
  | [], b => by
    rw [strLe]
    exact ⟨fun _ => Or.inl (List.nil_prefix), fun _ => rfl⟩
  | a :: s, [] => by
    rw [strLe]
    refine ⟨fun h => (by cases h), ?_⟩
    rintro (h | ⟨p, s', t, c, d, -, h, -⟩)
    · cases List.prefix_nil.1 h
    · cases p <;> simp at h
  | a :: s, b :: t => by
    rw [strLe, Bool.or_eq_true, Bool.and_eq_true, strLe_iff s t, decide_eq_true_eq, beq_iff_eq]
    constructor
    · rintro (h | ⟨h, h'⟩)
      · exact Or.inr ⟨[], s, t, a, b, rfl, rfl, h⟩
      · obtain rfl : a = b := Char.toNat_inj.1 h
        rcases h' with h' | ⟨p, s', t', c, d, rfl, rfl, h'⟩
        · exact Or.inl (List.prefix_cons_inj a |>.2 h')
        · exact Or.inr ⟨a :: p, s', t', c, d, rfl, rfl, h'⟩
    · rintro (h | ⟨p, s', t', c, d, h1, h2, h3⟩)
      · obtain ⟨rfl, h'⟩ := List.cons_prefix_cons.1 h
        exact Or.inr ⟨rfl, Or.inl h'⟩
      · cases p with
        | nil => cases h1; cases h2; exact Or.inl h3
        | cons e p =>
          cases h1
          cases h2
          exact Or.inr ⟨rfl, Or.inr ⟨p, s', t', c, d, rfl, rfl, h3⟩⟩

theorem mythen_match (dir name p : Str) :
    imageMatch (detectorDir dir name mythenKey ++ name) rawExt p = true ↔ MythenFile dir name p := by
  have hpre : detectorDir dir name mythenKey ++ name = dir ++ "/".toList ++ name ++ "/mythen/".toList ++ name := by
    unfold detectorDir
    simp only [List.append_assoc]
    rfl
  unfold imageMatch MythenFile
  rw [hpre]
  simp only [Bool.and_eq_true, List.all_eq_true, bne_iff_ne, ne_eq, startsWith_iff]
  constructor
  · rintro ⟨⟨⟨x, rfl⟩, h2⟩, h3⟩
    rw [List.drop_left] at h2 h3
    obtain ⟨y, hy⟩ := h2
    have : x = y.reverse ++ rawExt := by
      have := congrArg List.reverse hy
      rw [List.reverse_append, List.reverse_reverse, List.reverse_reverse] at this
      exact this.symm
    subst this
    refine ⟨y.reverse, fun h => h3 '/' (List.mem_append_left _ h) rfl, ?_⟩
    rw [← List.append_assoc]
    rfl
  · rintro ⟨n, hn, rfl⟩
    refine ⟨⟨⟨n ++ ".raw".toList, by simp only [List.append_assoc]⟩, ?_⟩, ?_⟩
    · rw [List.append_assoc _ n, List.drop_left]
      exact ⟨n.reverse, (List.reverse_append (as := n) (bs := rawExt)).symm⟩
    · rw [List.append_assoc _ n, List.drop_left]
      intro c hc
      rcases List.mem_append.1 hc with h | h
      · rintro rfl; exact hn h
      · rintro rfl; revert h; decide

/-- The sorted list of the mythen files. -/
def mythenFiles (disk : List (Str × List ℝ)) (dir name : Str) : List Str :=
  ((disk.map Prod.fst).filter (imageMatch (detectorDir dir name mythenKey ++ name) rawExt)).mergeSort strLe

theorem mem_mythenFiles {disk : List (Str × List ℝ)} {dir name p : Str} :
    p ∈ mythenFiles disk dir name ↔ p ∈ disk.map Prod.fst ∧ MythenFile dir name p := by
  unfold mythenFiles
  rw [List.mem_mergeSort, List.mem_filter, mythen_match]

theorem load1D_ok {disk : List (Str × List ℝ)} {p : Str} {l : List ℝ} :
    load1D disk p = .ok l ↔ dictGet disk p = .ok l ∧ 2 ≤ l.length := by
  unfold load1D
  constructor
  · intro h
    obtain ⟨l', h1, h⟩ := bind_eq_ok.1 h
    split at h
    · cases h
    · cases h
      exact ⟨h1, by omega⟩
  · rintro ⟨h1, h2⟩
    rw [h1, bind_ok, if_neg (by omega)]

/-- C112: the lines of the mythen detector are the second columns of its files, one for every file, in the order of
the names of the files; all have the same length. -/
theorem C112_mythen (disk : List (Str × List ℝ)) (dir name : Str) (lines : List (List ℝ)) (h : loadMythen disk dir name = .ok lines) :
    ∃ files : List Str, (∀ p, p ∈ files ↔ p ∈ disk.map Prod.fst ∧ MythenFile dir name p) ∧ files.Pairwise TextLe ∧
      ((disk.map Prod.fst).Nodup → files.Nodup) ∧
      List.Forall₂ (fun (p : Str) (l : List ℝ) => dictGet disk p = .ok l) files lines ∧
      ∃ n, 2 ≤ n ∧ ∀ l ∈ lines, l.length = n := by
  refine ⟨mythenFiles disk dir name, fun p => mem_mythenFiles, ?_, fun hn => ?_, ?_⟩
  · refine (List.pairwise_mergeSort (le := strLe) strLe_trans strLe_total _).imp fun hab => (strLe_iff _ _).1 hab
  · exact ((List.mergeSort_perm _ _).nodup_iff).2 (hn.filter _)
  · unfold loadMythen at h
    obtain ⟨f, -, h⟩ := bind_eq_ok.1 h
    obtain ⟨first, h1, h⟩ := bind_eq_ok.1 h
    have h2 : List.Forall₂ (fun (p : Str) (l : List ℝ) => dictGet disk p = .ok l ∧ l.length = first.length) (mythenFiles disk dir name) lines := by
      refine (mapM_ok_iff.1 h).imp fun p l hp => ?_
      obtain ⟨l', h3, h4⟩ := bind_eq_ok.1 hp
      unfold storeLine at h4
      split at h4
      · cases h4
        exact ⟨(load1D_ok.1 h3).1, by assumption⟩
      · cases h4
    refine ⟨h2.imp fun _ _ h => h.1, first.length, (load1D_ok.1 h1).2, fun l hl => ?_⟩
    obtain ⟨p, -, hp⟩ := forall₂_mem_right h2 hl
    exact hp.2

/-- C112: mythen files with the same number of lines, at least two, are loaded. -/
theorem C112_mythen_loads (disk : List (Str × List ℝ)) (dir name : Str) (n : Nat) (hn : 2 ≤ n)
    (hex : ∃ p ∈ disk.map Prod.fst, MythenFile dir name p)
    (hl : ∀ p l, MythenFile dir name p → dictGet disk p = .ok l → l.length = n) : ∃ lines, loadMythen disk dir name = .ok lines := by
  have hall : ∀ p ∈ mythenFiles disk dir name, ∃ l, load1D disk p = .ok l ∧ l.length = n := by
    intro p hp
    obtain ⟨h1, h2⟩ := mem_mythenFiles.1 hp
    obtain ⟨l, hl'⟩ := dictGet_of_mem h1
    exact ⟨l, load1D_ok.2 ⟨hl', by rw [hl p l h2 hl']; exact hn⟩, hl p l h2 hl'⟩
  obtain ⟨p, h1, h2⟩ := hex
  have hp : p ∈ mythenFiles disk dir name := mem_mythenFiles.2 ⟨h1, h2⟩
  obtain ⟨f, fs, hfs⟩ := List.exists_cons_of_ne_nil (List.ne_nil_of_mem hp)
  obtain ⟨first, hf, hfl⟩ := hall f (by rw [hfs]; exact List.mem_cons_self ..)
  obtain ⟨r, hr⟩ := mapM_ok_all (f := fun (p : Str) => do
      let l ← load1D disk p
      storeLine first l) (l := mythenFiles disk dir name) fun p hp => by
    obtain ⟨l, hl1, hl2⟩ := hall p hp
    refine ⟨l, ?_⟩
    show load1D disk p >>= _ = _
    rw [hl1, bind_ok]
    unfold storeLine
    rw [if_pos (by omega)]
  refine ⟨r, ?_⟩
  unfold loadMythen
  change (do
      let f ← getItem (mythenFiles disk dir name) 0
      let first ← load1D disk f
      (mythenFiles disk dir name).mapM fun (p : Str) => do
        let l ← load1D disk p
        storeLine first l) = _
  have h0 : getItem (mythenFiles disk dir name) 0 = .ok f := by rw [hfs]; rfl
  rw [h0, bind_ok, hf, bind_ok]
  exact hr

/-- C112: mythen files with different numbers of lines are refused, as is a folder without files. -/
theorem C112_mythen_refused (disk : List (Str × List ℝ)) (dir name : Str) :
    ((∀ p l, MythenFile dir name p → dictGet disk p = .ok l → 2 ≤ l.length) →
      (∃ p q k l, MythenFile dir name p ∧ MythenFile dir name q ∧ dictGet disk p = .ok k ∧ dictGet disk q = .ok l ∧ k.length ≠ l.length) →
      loadMythen disk dir name = .error .valueError) ∧
    ((∀ p ∈ disk.map Prod.fst, ¬ MythenFile dir name p) → loadMythen disk dir name = .error .indexError) := by
  have e : loadMythen disk dir name = (do
      let f ← getItem (mythenFiles disk dir name) 0
      let first ← load1D disk f
      (mythenFiles disk dir name).mapM fun (p : Str) => do
        let l ← load1D disk p
        storeLine first l) := rfl
  constructor
  · rintro h2 ⟨p, q, k, l, hp, hq, hk, hl, hne⟩
    have hall : ∀ p ∈ mythenFiles disk dir name, ∃ l, load1D disk p = .ok l := by
      intro p hp
      obtain ⟨h1, h3⟩ := mem_mythenFiles.1 hp
      obtain ⟨l, hl'⟩ := dictGet_of_mem h1
      exact ⟨l, load1D_ok.2 ⟨hl', h2 p l h3 hl'⟩⟩
    have mp : p ∈ mythenFiles disk dir name := mem_mythenFiles.2 ⟨dictGet_mem hk, hp⟩
    have mq : q ∈ mythenFiles disk dir name := mem_mythenFiles.2 ⟨dictGet_mem hl, hq⟩
    obtain ⟨f, fs, hfs⟩ := List.exists_cons_of_ne_nil (List.ne_nil_of_mem mp)
    obtain ⟨first, hf⟩ := hall f (by rw [hfs]; exact List.mem_cons_self ..)
    have h0 : getItem (mythenFiles disk dir name) 0 = .ok f := by rw [hfs]; rfl
    rw [e, h0, bind_ok, hf, bind_ok]
    have step : ∀ (p : Str) (k : List ℝ), load1D disk p = .ok k → (load1D disk p >>= fun l => storeLine first l) =
        if k.length = first.length then .ok k else .error .valueError := by
      intro p k hk
      rw [hk, bind_ok]
      rfl
    have hk' := load1D_ok.2 ⟨hk, h2 p k hp hk⟩
    have hl' := load1D_ok.2 ⟨hl, h2 q l hq hl⟩
    refine mapM_fails (fun a ha => ?_) ?_
    · obtain ⟨m, hm⟩ := hall a ha
      rw [step a m hm]
      split
      · exact Or.inl ⟨m, rfl⟩
      · exact Or.inr rfl
    · by_cases hc : k.length = first.length
      · exact ⟨q, mq, by rw [step q l hl', if_neg (by omega)]⟩
      · exact ⟨p, mp, by rw [step p k hk', if_neg hc]⟩
  · intro h
    have : mythenFiles disk dir name = [] := List.eq_nil_iff_forall_not_mem.2 fun p hp =>
      h p (mem_mythenFiles.1 hp).1 (mem_mythenFiles.1 hp).2
    rw [e, this]
    rfl

/-! ### The place of the files -/

theorem takeWhile_sep {c : Char} {a b : Str} (h : c ∉ a) : (a ++ c :: b).takeWhile (· ≠ c) = a ∧ (a ++ c :: b).dropWhile (· ≠ c) = c :: b := by
  induction a with
  | nil => simp
  | cons x a ih =>
    have hx : x ≠ c := fun hx => h (by simp [hx])
    obtain ⟨h1, h2⟩ := ih fun hc => h (List.mem_cons_of_mem _ hc)
    simp only [ne_eq, decide_not] at h1 h2 ⊢
    simp [hx, h1, h2]

theorem takeWhile_none {c : Char} {a : Str} (h : c ∉ a) : a.takeWhile (· ≠ c) = a := by
  rw [List.takeWhile_eq_self_iff]
  intro x hx
  simp only [ne_eq, decide_not, Bool.not_eq_true', decide_eq_false_iff_not]
  rintro rfl
  exact h hx

/-- C112: the files of a scan that is given with its folder are looked for next to it, in a folder with its name
without the extension. -/
theorem C112_folder (dir base ext : Str) (hb : '/' ∉ base) (he : '/' ∉ ext) (hd : '.' ∉ ext) :
    scanDir (dir ++ '/' :: base ++ '.' :: ext) = dir ∧ scanName (dir ++ '/' :: base ++ '.' :: ext) = base := by
  have hlast : '/' ∉ base ++ '.' :: ext := by
    simp only [List.mem_append, List.mem_cons, not_or]
    exact ⟨hb, by decide, he⟩
  have e : dir ++ '/' :: base ++ '.' :: ext = dir ++ '/' :: (base ++ '.' :: ext) := by simp
  have er : (dir ++ '/' :: (base ++ '.' :: ext)).reverse = (base ++ '.' :: ext).reverse ++ '/' :: dir.reverse := by simp
  have hr : '/' ∉ (base ++ '.' :: ext).reverse := by rw [List.mem_reverse]; exact hlast
  obtain ⟨h1, h2⟩ := takeWhile_sep (b := dir.reverse) hr
  constructor
  · unfold scanDir
    rw [e, if_pos (by simp), er, h2, List.drop_one, List.tail_cons, List.reverse_reverse]
  · unfold scanName
    rw [e, er, h1]
    simp only [List.reverse_reverse]
    have h3 : (base ++ '.' :: ext).reverse = ext.reverse ++ '.' :: base.reverse := by simp
    obtain ⟨-, h4⟩ := takeWhile_sep (c := '.') (a := ext.reverse) (b := base.reverse) (by rw [List.mem_reverse]; exact hd)
    rw [if_pos (by simp), h3, h4, List.drop_one, List.tail_cons, List.reverse_reverse]

/-- C112, why the folder is needed: the files of a scan given by its bare name are looked for in a folder that has the
name of the scan file. -/
theorem C112_bare (file : Str) (h : '/' ∉ file) (detector : Str) :
    detectorDir (scanDir file) (scanName file) detector = file ++ "/".toList ++ scanName file ++ "/".toList ++ detector ++ "/".toList := by
  have : scanDir file = file := by unfold scanDir; rw [if_neg h]
  rw [this]
  rfl

/-- The hypotheses of `C112_unambiguous` are met by the columns of a scan with two detectors. -/
example : (∀ col ∈ ["tt".toList, "p100k_roi1".toList, "mythroi1".toList], ∀ d e, NamesDetector col d → NamesDetector col e → d = e) ∧
    detectorList (detFlags ["tt".toList, "p100k_roi1".toList, "mythroi1".toList]) = ["p100k".toList, "mythen".toList] := by
  refine ⟨?_, by decide⟩
  have key : ∀ col ∈ ["tt".toList, "p100k_roi1".toList, "mythroi1".toList], ∀ p ∈ detectorWords, ∀ q ∈ detectorWords,
      (∃ w ∈ p.2, contains col w = true) → (∃ w ∈ q.2, contains col w = true) → p.1 = q.1 := by decide
  rintro col hc d e ⟨ws, h1, w, hw, hi⟩ ⟨vs, h2, v, hv, hj⟩
  exact key col hc _ h1 _ h2 ⟨w, hw, contains_iff.2 hi⟩ ⟨v, hv, contains_iff.2 hj⟩

/-- The hypotheses of `C112_mythen` and of `C112_mythen_loads` are met by two files with three lines. -/
example : ∃ lines, loadMythen [("d/s/mythen/s_2.raw".toList, [4, 5, 6]), ("d/s/mythen/s_1.raw".toList, [1, 2, 3])] "d".toList "s".toList = .ok lines := by
  refine C112_mythen_loads _ _ _ 3 (by omega) ⟨"d/s/mythen/s_1.raw".toList, by decide, "_1".toList, by decide, rfl⟩ ?_
  intro p l hp hl
  unfold dictGet at hl
  split at hl
  · cases hl; rfl
  · unfold dictGet at hl
    split at hl
    · cases hl; rfl
    · cases hl

end Verif.Props
