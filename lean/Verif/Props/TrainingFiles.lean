import Verif.Model.TrainingFiles
import Verif.Props.Results
import Verif.Props.FileNames

/-!
# C97: the files of a training
-/

namespace Verif.Props
open Verif.Py Verif.Model Verif.Spec

/-! ### Time stamps -/

/-- The fields are those of a date with a year of four digits. -/
structure ValidTime (t : DateTime) : Prop where
  year : 1000 ≤ t.year ∧ t.year < 10000
  month : t.month < 100
  day : t.day < 100
  hour : t.hour < 100
  minute : t.minute < 100
  second : t.second < 100

/-- The fields from the year to the second. -/
def timeFields (t : DateTime) : List Nat := [t.year, t.month, t.day, t.hour, t.minute, t.second]

/-- The first field that differs is smaller, or none differs. -/
def NotLater : List Nat → List Nat → Prop
  | [], _ => True
  | _ :: _, [] => False
  | a :: l, b :: m => a < b ∨ a = b ∧ NotLater l m

/-- The digit. -/
def dig (n : Nat) : Char := Char.ofNat (48 + n)

theorem dig_toNat {n : Nat} (h : n < 10) : (dig n).toNat = 48 + n := by
  unfold dig
  interval_cases n <;> rfl

theorem natStr_one {n : Nat} (h : n < 10) : natStr n = [dig n] := by
  unfold natStr
  rw [if_pos h]
  rfl

theorem natStr_step {n : Nat} (h : 10 ≤ n) : natStr n = natStr (n / 10) ++ [dig (n % 10)] := by
  conv_lhs => unfold natStr
  rw [if_neg (by omega)]
  rfl

theorem twoDigits_eq {n : Nat} (h : n < 100) : twoDigits n = [dig (n / 10), dig (n % 10)] := by
  unfold twoDigits
  by_cases h1 : n < 10
  · rw [natStr_one h1, Nat.div_eq_of_lt h1, Nat.mod_eq_of_lt h1]
    rfl
  · rw [natStr_step (by omega), natStr_one (by omega)]
    rfl

theorem year_eq {n : Nat} (h1 : 1000 ≤ n) (h2 : n < 10000) :
    natStr n = [dig (n / 1000), dig (n / 100 % 10), dig (n / 10 % 10), dig (n % 10)] := by
  rw [natStr_step (by omega), natStr_step (by omega), natStr_step (by omega), natStr_one (by omega)]
  simp only [Nat.div_div_eq_div_mul]
  rfl

/-- Comparison of strings that start with a digit. -/
theorem strLe_dig {a b : Nat} (ha : a < 10) (hb : b < 10) (s t : Str) :
    strLe (dig a :: s) (dig b :: t) = true ↔ a < b ∨ a = b ∧ strLe s t = true := by
  rw [strLe, dig_toNat ha, dig_toNat hb]
  simp

theorem strLe_dash (s t : Str) : strLe ('-' :: s) ('-' :: t) = true ↔ strLe s t = true := by
  rw [strLe]
  simp

theorem strLe_two {a b : Nat} (ha : a < 100) (hb : b < 100) (s t : Str) :
    strLe (twoDigits a ++ s) (twoDigits b ++ t) = true ↔ a < b ∨ a = b ∧ strLe s t = true := by
  rw [twoDigits_eq ha, twoDigits_eq hb]
  simp only [List.cons_append, List.nil_append]
  rw [strLe_dig (by omega) (by omega), strLe_dig (by omega) (by omega)]
  constructor
  · rintro (h | ⟨h, h' | ⟨h', h''⟩⟩)
    · left; omega
    · left; omega
    · right; exact ⟨by omega, h''⟩
  · rintro (h | ⟨rfl, h⟩)
    · by_cases h1 : a / 10 < b / 10
      · exact Or.inl h1
      · exact Or.inr ⟨by omega, Or.inl (by omega)⟩
    · exact Or.inr ⟨rfl, Or.inr ⟨rfl, h⟩⟩

theorem strLe_year {a b : Nat} (ha : 1000 ≤ a ∧ a < 10000) (hb : 1000 ≤ b ∧ b < 10000) (s t : Str) :
    strLe (natStr a ++ s) (natStr b ++ t) = true ↔ a < b ∨ a = b ∧ strLe s t = true := by
  rw [year_eq ha.1 ha.2, year_eq hb.1 hb.2]
  simp only [List.cons_append, List.nil_append]
  rw [strLe_dig (by omega) (by omega), strLe_dig (by omega) (by omega), strLe_dig (by omega) (by omega),
    strLe_dig (by omega) (by omega)]
  constructor
  · rintro (h | ⟨h, h' | ⟨h', h'' | ⟨h'', h3 | ⟨h3, h4⟩⟩⟩⟩)
    · left; omega
    · left; omega
    · left; omega
    · left; omega
    · right; exact ⟨by omega, h4⟩
  · rintro (h | ⟨rfl, h⟩)
    · by_cases h1 : a / 1000 < b / 1000
      · exact Or.inl h1
      by_cases h2 : a / 100 % 10 < b / 100 % 10
      · exact Or.inr ⟨by omega, Or.inl h2⟩
      by_cases h3 : a / 10 % 10 < b / 10 % 10
      · exact Or.inr ⟨by omega, Or.inr ⟨by omega, Or.inl h3⟩⟩
      · exact Or.inr ⟨by omega, Or.inr ⟨by omega, Or.inr ⟨by omega, Or.inl (by omega)⟩⟩⟩
    · exact Or.inr ⟨rfl, Or.inr ⟨rfl, Or.inr ⟨rfl, Or.inr ⟨rfl, h⟩⟩⟩⟩

/-- The default time stamp. -/
def stampOf (t : DateTime) : Str :=
  natStr t.year ++ '-' :: twoDigits t.month ++ '-' :: twoDigits t.day ++ '-' ::
    (twoDigits t.hour ++ twoDigits t.minute ++ twoDigits t.second)

theorem makeTimestamp_ymd (t : DateTime) : makeTimestamp "YMD".toList t = .ok (stampOf t) := by
  unfold makeTimestamp
  rw [if_neg (by decide), if_neg (by decide), if_pos rfl]
  rfl

theorem strLe_nil : strLe [] [] = true := rfl

/-- C97, order: the default time stamps of two times compare as strings like the times (up to the second). -/
theorem C97_order (a b : DateTime) (ha : ValidTime a) (hb : ValidTime b) :
    ∃ s t, makeTimestamp "YMD".toList a = .ok s ∧ makeTimestamp "YMD".toList b = .ok t ∧
      (strLe s t = true ↔ NotLater (timeFields a) (timeFields b)) := by
  refine ⟨_, _, makeTimestamp_ymd a, makeTimestamp_ymd b, ?_⟩
  unfold stampOf
  have e : ∀ s : Str, s = s ++ [] := by simp
  simp only [List.append_assoc, List.cons_append]
  rw [e (twoDigits a.second), e (twoDigits b.second)]
  rw [strLe_year ha.year hb.year, strLe_dash, strLe_two ha.month hb.month, strLe_dash, strLe_two ha.day hb.day, strLe_dash,
    strLe_two ha.hour hb.hour, strLe_two ha.minute hb.minute, strLe_two ha.second hb.second]
  simp only [strLe_nil, timeFields, NotLater]

theorem notLater_antisymm {l m : List Nat} (h1 : NotLater l m) (h2 : NotLater m l) : l = m := by
  induction l generalizing m with
  | nil => cases m with
    | nil => rfl
    | cons => exact h2.elim
  | cons a l ih => cases m with
    | nil => exact h1.elim
    | cons b m =>
      rcases h1 with h1 | ⟨rfl, h1⟩
      · rcases h2 with h2 | ⟨h2, -⟩ <;> omega
      · rcases h2 with h2 | ⟨-, h2⟩
        · omega
        · rw [ih h1 h2]

theorem notLater_refl (l : List Nat) : NotLater l l := by
  induction l with
  | nil => trivial
  | cons a l ih => exact Or.inr ⟨rfl, ih⟩

/-- C97: two default time stamps agree exactly if the times agree up to the second. -/
theorem C97_stamps (a b : DateTime) (ha : ValidTime a) (hb : ValidTime b) :
    makeTimestamp "YMD".toList a = makeTimestamp "YMD".toList b ↔ timeFields a = timeFields b := by
  obtain ⟨s, t, h1, h2, h3⟩ := C97_order a b ha hb
  obtain ⟨t', s', h4, h5, h6⟩ := C97_order b a hb ha
  rw [h2] at h4
  rw [h1] at h5
  cases h4
  cases h5
  rw [h1, h2]
  constructor
  · intro h
    cases h
    have hr : strLe s s = true := by
      clear h1 h2 h3 h6
      induction s with
      | nil => rfl
      | cons c s ih => simp [strLe, ih]
    exact notLater_antisymm (h3.1 hr) (h6.1 hr)
  · intro h
    have : stampOf a = stampOf b := by
      simp only [timeFields, List.cons.injEq, and_true] at h
      obtain ⟨e1, e2, e3, e4, e5, e6⟩ := h
      unfold stampOf
      rw [e1, e2, e3, e4, e5, e6]
    rw [← h1, ← h2, makeTimestamp_ymd, makeTimestamp_ymd, this]

/-- C97: other styles than the three known ones are rejected. -/
theorem C97_style (style : Str) (t : DateTime) (h : style ∉ ["DMY".toList, "MDY".toList, "YMD".toList]) :
    makeTimestamp style t = .error .keyError := by
  simp only [List.mem_cons, List.not_mem_nil, or_false, not_or] at h
  unfold makeTimestamp
  rw [if_neg h.1, if_neg h.2.1, if_neg h.2.2]

/-! ### Directories -/

theorem stamp_chars (t : DateTime) : '/' ∉ stampOf t ∧ '.' ∉ stampOf t := by
  have key : ∀ c ∈ stampOf t, IsDigit c ∨ c = '-' := by
    have h2 : ∀ n, ∀ c ∈ twoDigits n, IsDigit c := fun n => (padded_spec _ n).1
    intro c hc
    unfold stampOf at hc
    simp only [List.mem_append, List.mem_cons] at hc
    rcases hc with ((hc | hc | hc) | hc | hc) | hc | (hc | hc) | hc
    · exact Or.inl ((natStr_spec _).2.1 c hc)
    · exact Or.inr hc
    · exact Or.inl (h2 _ c hc)
    · exact Or.inr hc
    · exact Or.inl (h2 _ c hc)
    · exact Or.inr hc
    · exact Or.inl (h2 _ c hc)
    · exact Or.inl (h2 _ c hc)
    · exact Or.inl (h2 _ c hc)
  constructor
  · intro h
    rcases key _ h with h | h
    · revert h; unfold IsDigit; decide
    · revert h; decide
  · intro h
    rcases key _ h with h | h
    · revert h; unfold IsDigit; decide
    · revert h; decide

/-- Without a dot in the last component nothing is stripped. -/
theorem strip_keeps {d n : Str} (hd : d = [] ∨ ∃ d', d = d' ++ ['/']) (hn : '/' ∉ n) (hdot : '.' ∉ n) :
    stripFileExtension (d ++ n) = d ++ n := by
  refine C73_strip_keeps _ ?_
  rintro ⟨d1, b, e, h⟩
  have hb : '/' ∉ b ++ '.' :: e := by
    simp only [List.mem_append, List.mem_cons, not_or]
    exact ⟨h.stem, by decide, h.ext.1⟩
  have h1 := dir_rfind hd hn
  have h2 := dir_rfind h.dir hb
  have heq : d1 ++ (b ++ '.' :: e) = d ++ n := by rw [h.eq]; simp
  rw [heq, h1] at h2
  have h3 := List.append_inj heq (by exact_mod_cast h2.symm)
  exact hdot (by rw [← h3.2]; simp)

theorem pathJoin_eq {a n : Str} (hn : '/' ∉ n) :
    pathJoin a n = if a.isEmpty || a.getLast? == some '/' then a ++ n else a ++ '/' :: n := by
  unfold pathJoin
  split
  · exact absurd (List.mem_cons_self ..) hn
  · rfl

/-- A joined path is a directory part and the name. -/
theorem pathJoin_split (a : Str) {n : Str} (hn : '/' ∉ n) : ∃ d, (d = [] ∨ ∃ d', d = d' ++ ['/']) ∧ pathJoin a n = d ++ n := by
  rw [pathJoin_eq hn]
  rcases List.eq_nil_or_concat a with rfl | ⟨b, c, rfl⟩
  · exact ⟨[], Or.inl rfl, rfl⟩
  · by_cases hc : c = '/'
    · subst hc
      exact ⟨b ++ ['/'], Or.inr ⟨b, rfl⟩, by simp⟩
    · refine ⟨b ++ [c] ++ ['/'], Or.inr ⟨b ++ [c], rfl⟩, ?_⟩
      rw [if_neg (by simp [hc])]
      simp

theorem pathJoin_isDir (a : Str) {n : Str} (hn : '/' ∉ n) (h0 : n ≠ []) : IsDir (pathJoin a n) := by
  obtain ⟨d, -, h⟩ := pathJoin_split a hn
  rw [h]
  rcases List.eq_nil_or_concat n with rfl | ⟨b, c, rfl⟩
  · exact (h0 rfl).elim
  · refine Or.inr ⟨d ++ b, c, by simp, ?_⟩
    rintro rfl
    simp at hn

theorem strip_join (a : Str) {n : Str} (hn : '/' ∉ n) (hdot : '.' ∉ n) : stripFileExtension (pathJoin a n) = pathJoin a n := by
  obtain ⟨d, hd, h⟩ := pathJoin_split a hn
  rw [h]
  exact strip_keeps hd hn hdot

/-- Nothing that exists is changed, and no file is created. -/
def KeepsFiles (fs fs' : Fs) : Prop := (∀ p k, fs p = some k → fs' p = some k) ∧ ∀ p, fs' p = some .file → fs p = some .file

open Classical in
theorem create_spec {fs fs' : Fs} {d : Str} (hs : stripFileExtension d = d) (h : createSaveDirectory fs d = .ok fs') :
    KeepsFiles fs fs' ∧ (fs' d = some .dir ∨ fs d = some .file) := by
  unfold createSaveDirectory at h
  simp only [hs] at h
  split at h
  · rename_i k hk
    cases h
    refine ⟨⟨fun _ _ h => h, fun _ h => h⟩, ?_⟩
    cases k with
    | dir => exact Or.inl hk
    | file => exact Or.inr hk
  · rename_i hk
    unfold makedirs at h
    split at h
    · cases h
    · rename_i hno
      cases h
      refine ⟨⟨fun p k hp => ?_, fun p hp => ?_⟩, Or.inl (if_pos (Or.inl rfl))⟩
      · show (if p = d ∨ IsAncestor p d then some FsKind.dir else fs p) = some k
        by_cases hpp : p = d ∨ IsAncestor p d
        · rw [if_pos hpp]
          rcases hpp with rfl | hpp
          · rw [hk] at hp; cases hp
          · cases k with
            | dir => rfl
            | file => exact (hno ⟨p, hpp, hp⟩).elim
        · rw [if_neg hpp]; exact hp
      · have hp : (if p = d ∨ IsAncestor p d then some FsKind.dir else fs p) = some .file := hp
        by_cases hpp : p = d ∨ IsAncestor p d
        · rw [if_pos hpp] at hp; cases hp
        · rw [if_neg hpp] at hp; exact hp

theorem create_exists {fs : Fs} {d : Str} (hs : stripFileExtension d = d) (h : ∀ q, IsAncestor q d → fs q ≠ some .file) :
    ∃ fs', createSaveDirectory fs d = .ok fs' := by
  unfold createSaveDirectory
  simp only [hs]
  split
  · exact ⟨_, rfl⟩
  · unfold makedirs
    rw [if_neg]
    · exact ⟨_, rfl⟩
    · rintro ⟨q, hq, hf⟩
      exact h q hq hf

/-- The log directory and the path of the checkpoint. -/
def logDirOf (dir : Str) (t : DateTime) : Str := pathJoin (modelSubdirectory dir graphsS) (stampOf t)
def savePathOf (dir : Str) (t : DateTime) : Str := pathJoin (modelSubdirectory dir modelsS) (stampOf t ++ h5S)

theorem setup_iff (fs : Fs) (dir : Str) (now : DateTime) (s : Setup) :
    setupTraining fs dir now = .ok s ↔ ∃ fs1, createSaveDirectory fs (logDirOf dir now) = .ok fs1 ∧
      createSaveDirectory fs1 (modelSubdirectory dir modelsS) = .ok s.fs ∧ s.logDir = logDirOf dir now ∧
      s.savePath = savePathOf dir now ∧ s.stamp = stampOf now := by
  unfold setupTraining
  rw [makeTimestamp_ymd, bind_ok]
  unfold makeLogDirectory makeSavePath
  constructor
  · intro h
    obtain ⟨p1, h1, h⟩ := bind_eq_ok.1 h
    obtain ⟨fs1, h2, h1⟩ := bind_eq_ok.1 h1
    cases h1
    obtain ⟨p2, h3, h⟩ := bind_eq_ok.1 h
    obtain ⟨fs2, h4, h3⟩ := bind_eq_ok.1 h3
    cases h3
    cases h
    exact ⟨fs1, h2, h4, rfl, rfl, rfl⟩
  · rintro ⟨fs1, h1, h2, h3, h4, h5⟩
    unfold logDirOf at h1
    obtain ⟨a, b, c, d⟩ := s
    subst h3 h4 h5
    simp only [h1, bind_ok, pure_bind]
    simp only at h2
    rw [h2]
    rfl

theorem modelsS_chars : '/' ∉ modelsS ∧ '.' ∉ modelsS ∧ modelsS ≠ [] := by decide

theorem savePath_inDir (dir : Str) (t : DateTime) :
    InDir (modelSubdirectory dir modelsS) (stampOf t ++ h5S) (savePathOf dir t) := by
  refine pathJoin_inDir (pathJoin_isDir _ modelsS_chars.1 modelsS_chars.2.2) ?_
  rw [List.mem_append, not_or]
  exact ⟨(stamp_chars t).1, by decide⟩

/-- C97, directories: if the preparation of a training succeeds, the log directory and the directory of the checkpoint exist (unless a
file of that name was there before), nothing that existed is changed, and the checkpoint is named by the time stamp. -/
theorem C97_setup (fs : Fs) (dir : Str) (now : DateTime) (s : Setup) (h : setupTraining fs dir now = .ok s) :
    makeTimestamp "YMD".toList now = .ok s.stamp ∧ KeepsFiles fs s.fs ∧
    (s.fs s.logDir = some .dir ∨ fs s.logDir = some .file) ∧
    (s.fs (dirname s.savePath) = some .dir ∨ fs (dirname s.savePath) = some .file) ∧
    InDir (dirname s.savePath) (s.stamp ++ ".h5".toList) s.savePath := by
  obtain ⟨fs1, h1, h2, h3, h4, h5⟩ := (setup_iff fs dir now s).1 h
  have hl := strip_join (modelSubdirectory dir graphsS) (stamp_chars now).1 (stamp_chars now).2
  have hm : stripFileExtension (modelSubdirectory dir modelsS) = modelSubdirectory dir modelsS :=
    strip_join _ modelsS_chars.1 modelsS_chars.2.1
  obtain ⟨k1, k2⟩ := create_spec hl h1
  obtain ⟨k3, k4⟩ := create_spec hm h2
  have hin := savePath_inDir dir now
  have hdn := dirname_of_inDir hin
  rw [h4, h5, h3, hdn]
  refine ⟨makeTimestamp_ymd now, ⟨fun p k hp => k3.1 p k (k1.1 p k hp), fun p hp => k1.2 p (k3.2 p hp)⟩, ?_, ?_, hin⟩
  · rcases k2 with k2 | k2
    · exact Or.inl (k3.1 _ _ k2)
    · exact Or.inr k2
  · rcases k4 with k4 | k4
    · exact Or.inl k4
    · exact Or.inr (k1.2 _ k4)

/-- C97: the preparation succeeds if no file is in the way of the two directories. -/
theorem C97_succeeds (fs : Fs) (dir : Str) (now : DateTime) (h : ∀ p, fs p ≠ some .file) : ∃ s, setupTraining fs dir now = .ok s := by
  have hl := strip_join (modelSubdirectory dir graphsS) (stamp_chars now).1 (stamp_chars now).2
  have hm : stripFileExtension (modelSubdirectory dir modelsS) = modelSubdirectory dir modelsS :=
    strip_join _ modelsS_chars.1 modelsS_chars.2.1
  obtain ⟨fs1, h1⟩ := create_exists hl fun q _ => h q
  obtain ⟨k1, -⟩ := create_spec hl h1
  obtain ⟨fs2, h2⟩ := create_exists hm fun q _ hq => h q (k1.2 q hq)
  exact ⟨⟨fs2, _, _, _⟩, (setup_iff _ _ _ _).2 ⟨fs1, h1, h2, rfl, rfl, rfl⟩⟩

/-- `stem` is the file name without its extension. -/
def IsStem (name stem : Str) : Prop :=
  (∃ e, SplitName name [] stem e) ∨ (¬ ∃ d b e, SplitName name d b e) ∧ stem = name

theorem isStem_strip {name stem : Str} (h : IsStem name stem) : stripFileExtension name = stem := by
  rcases h with ⟨e, h⟩ | ⟨h, rfl⟩
  · simpa using C73_strip h
  · exact C73_strip_keeps _ h

theorem basename_of {d n : Str} (hd : d = [] ∨ ∃ d', d = d' ++ ['/']) (hn : '/' ∉ n) : basename (d ++ n) = n := by
  unfold basename
  rw [List.reverse_append, List.takeWhile_append_of_pos]
  · rcases hd with rfl | ⟨d', rfl⟩
    · simp
    · simp
  · intro c hc
    have : c ≠ '/' := by rintro rfl; exact hn (List.mem_reverse.1 hc)
    simpa using this

/-- C97, location: the checkpoints of the model `name` in the directory `d` are in `d/stem/models`, where the stem is the name
without its extension, and are named by the time stamp. -/
theorem C97_path (fs : Fs) (d name stem : Str) (now : DateTime) (s : Setup) (hn : '/' ∉ name) (hs : IsStem name stem) (h0 : stem ≠ [])
    (hd : ∃ e c, d = e ++ [c] ∧ c ≠ '/') :
    (setupTraining fs (d ++ '/' :: name) now = .ok s → s.savePath = d ++ '/' :: stem ++ "/models/".toList ++ s.stamp ++ ".h5".toList) ∧
    (setupTraining fs name now = .ok s → s.savePath = stem ++ "/models/".toList ++ s.stamp ++ ".h5".toList) := by
  have hstem : '/' ∉ stem := by
    rcases hs with ⟨e, h⟩ | ⟨-, rfl⟩
    · exact h.stem
    · exact hn
  have hst := isStem_strip hs
  have hlast : ∃ e c, stem = e ++ [c] ∧ c ≠ '/' := by
    rcases List.eq_nil_or_concat stem with rfl | ⟨b, c, rfl⟩
    · exact (h0 rfl).elim
    · exact ⟨b, c, by simp, by rintro rfl; simp at hstem⟩
  have hjoin : ∀ a x : Str, (∃ e c, a = e ++ [c] ∧ c ≠ '/') → '/' ∉ x → pathJoin a x = a ++ '/' :: x := by
    rintro _ x ⟨e, c, rfl, hc⟩ hx
    rw [pathJoin_eq hx, if_neg (by simp [hc])]
  have hts : '/' ∉ stampOf now ++ h5S := by
    rw [List.mem_append, not_or]
    exact ⟨(stamp_chars now).1, by decide⟩
  have hmod : ∀ a : Str, ∃ e c, a ++ '/' :: modelsS = e ++ [c] ∧ c ≠ '/' := fun a =>
    ⟨a ++ "/model".toList, 's', by simp [modelsS], by decide⟩
  have fin : ∀ a : Str, a ++ '/' :: modelsS ++ '/' :: (stampOf now ++ h5S) = a ++ "/models/".toList ++ stampOf now ++ ".h5".toList := by
    intro a
    simp [modelsS, h5S]
  constructor
  · intro h
    obtain ⟨fs1, -, -, -, h4, h5⟩ := (setup_iff fs _ now s).1 h
    rw [h4, h5]
    have hdn : dirname (d ++ '/' :: name) = d := dirname_of_inDir (name := name) ⟨hn, Or.inr (Or.inr ⟨hd, rfl⟩)⟩
    have hbn : basename (d ++ '/' :: name) = name := by
      have := basename_of (d := d ++ ['/']) (n := name) (Or.inr ⟨d, rfl⟩) hn
      simpa using this
    unfold savePathOf modelSubdirectory
    rw [hdn, hbn, hst, hjoin d stem hd hstem]
    have : ∃ e c, d ++ '/' :: stem = e ++ [c] ∧ c ≠ '/' := by
      obtain ⟨e, c, he, hc⟩ := hlast
      exact ⟨d ++ '/' :: e, c, by rw [he]; simp, hc⟩
    rw [hjoin _ modelsS this modelsS_chars.1, hjoin _ _ (hmod _) hts, fin]
  · intro h
    obtain ⟨fs1, -, -, -, h4, h5⟩ := (setup_iff fs _ now s).1 h
    rw [h4, h5]
    have hdn : dirname name = [] := dirname_of_inDir (name := name) ⟨hn, Or.inl ⟨rfl, rfl⟩⟩
    have hbn : basename name = name := by simpa using basename_of (d := []) (n := name) (Or.inl rfl) hn
    unfold savePathOf modelSubdirectory
    rw [hdn, hbn, hst]
    have : pathJoin [] stem = stem := by
      rw [pathJoin_eq hstem]
      rfl
    rw [this, hjoin _ modelsS hlast modelsS_chars.1, hjoin _ _ (hmod _) hts, fin]

/-- C97, distinct files: two trainings of a model use the same checkpoint exactly if they start in the same second. -/
theorem C97_distinct (fs fs' : Fs) (dir : Str) (a b : DateTime) (ha : ValidTime a) (hb : ValidTime b) (s t : Setup)
    (hs : setupTraining fs dir a = .ok s) (ht : setupTraining fs' dir b = .ok t) :
    s.savePath = t.savePath ↔ timeFields a = timeFields b := by
  obtain ⟨-, -, -, -, h1, -⟩ := (setup_iff _ _ _ _).1 hs
  obtain ⟨-, -, -, -, h2, -⟩ := (setup_iff _ _ _ _).1 ht
  rw [h1, h2, ← C97_stamps a b ha hb, makeTimestamp_ymd, makeTimestamp_ymd]
  constructor
  · intro h
    have hA := (savePath_inDir dir a)
    have hB := (savePath_inDir dir b)
    have ea : ∀ t, ∃ d, (d = [] ∨ ∃ d', d = d' ++ ['/']) ∧ savePathOf dir t = d ++ (stampOf t ++ h5S) := fun t =>
      pathJoin_split _ (savePath_inDir dir t).1
    obtain ⟨da, hda, e1⟩ := ea a
    obtain ⟨db, hdb, e2⟩ := ea b
    have e3 := basename_of hda hA.1
    have e4 := basename_of hdb hB.1
    rw [← e1, h, e2, e4] at e3
    rw [List.append_cancel_right e3]
  · intro h
    unfold savePathOf
    rw [Except.ok.inj h]

/-- C97 is false for model names with a dot: everything behind the last dot is taken as extension, so that models whose names differ
only there share their files, e.g. `film_v1.2` and `film_v1.3`. -/
theorem C97_extension (d b e e' : Str) (now : DateTime) (n n' : Str) (h : SplitName n [] b e) (h' : SplitName n' [] b e') (fs fs' : Fs)
    (hd : ∃ x c, d = x ++ [c] ∧ c ≠ '/') (s s' : Setup) (hs : setupTraining fs (d ++ '/' :: n) now = .ok s)
    (hs' : setupTraining fs' (d ++ '/' :: n') now = .ok s') : s.savePath = s'.savePath := by
  have hb : b ≠ [] := by
    obtain ⟨c, hc, -⟩ := h.proper
    exact List.ne_nil_of_mem hc
  have key : ∀ {n e : Str}, SplitName n [] b e → '/' ∉ n := by
    intro n e h
    rw [h.eq]
    simp only [List.nil_append, List.mem_append, List.mem_cons, not_or]
    exact ⟨h.stem, by decide, h.ext.1⟩
  rw [(C97_path fs d n b now s (key h) (Or.inl ⟨e, h⟩) hb hd).1 hs, (C97_path fs' d n' b now s' (key h') (Or.inl ⟨e', h'⟩) hb hd).1 hs']
  obtain ⟨-, -, -, -, -, h1⟩ := (setup_iff _ _ _ _).1 hs
  obtain ⟨-, -, -, -, -, h2⟩ := (setup_iff _ _ _ _).1 hs'
  rw [h1, h2]

/-- The hypotheses hold: `film_v1.2` and `film_v1.3` in the directory `m`, in an empty file system. -/
example : SplitName "film_v1.2".toList [] "film_v1".toList "2".toList ∧ SplitName "film_v1.3".toList [] "film_v1".toList "3".toList ∧
    ValidTime ⟨2021, 4, 1, 12, 30, 59, 1⟩ ∧ (∃ s, setupTraining (fun _ => none) "m/film_v1.2".toList ⟨2021, 4, 1, 12, 30, 59, 1⟩ = .ok s) := by
  refine ⟨⟨by decide, .inl rfl, by decide, ⟨'f', by decide⟩, by decide, by decide⟩,
    ⟨by decide, .inl rfl, by decide, ⟨'f', by decide⟩, by decide, by decide⟩, ⟨by decide, by decide, by decide, by decide, by decide, by decide⟩,
    C97_succeeds _ _ _ (by simp)⟩

end Verif.Props
