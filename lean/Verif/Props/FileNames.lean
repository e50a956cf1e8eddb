import Verif.Model.H5

/-!
# C73: file name helpers
-/

namespace Verif.Props
open Verif.Py Verif.Model

/-- The name ends in one of the two recognised extensions. -/
def HasH5Ext (f : Str) : Prop := ∃ g : Str, f = g ++ ['.', 'h', '5'] ∨ f = g ++ ['.', 'h', 'd', 'f', '5']

theorem hasH5Ext_iff (f : Str) : (endsWith f extH5 || endsWith f extHdf5) = true ↔ HasH5Ext f := by
  simp only [endsWith, Bool.or_eq_true, List.isSuffixOf_iff_suffix, HasH5Ext, extH5, extHdf5]
  constructor
  · rintro (⟨g, h⟩ | ⟨g, h⟩)
    · exact ⟨g, .inl h.symm⟩
    · exact ⟨g, .inr h.symm⟩
  · rintro ⟨g, h | h⟩
    · exact .inl ⟨g, h.symm⟩
    · exact .inr ⟨g, h.symm⟩

theorem ensure_of_ext {f : Str} (h : HasH5Ext f) : ensureH5Extension f = f := by
  unfold ensureH5Extension
  rw [(hasH5Ext_iff f).2 h]
  rfl

theorem ensure_of_not_ext {f : Str} (h : ¬ HasH5Ext f) : ensureH5Extension f = f ++ ['.', 'h', '5'] := by
  unfold ensureH5Extension
  have : (endsWith f extH5 || endsWith f extHdf5) = false := by
    rw [← hasH5Ext_iff] at h
    simpa using h
  rw [this]
  rfl

/-- C73: the result always has an extension, names that have one are kept, the function is
idempotent, and it is injective on names without extension. -/
theorem C73_ensure (f : Str) :
    HasH5Ext (ensureH5Extension f) ∧
    (HasH5Ext f → ensureH5Extension f = f) ∧
    (¬ HasH5Ext f → ensureH5Extension f = f ++ ['.', 'h', '5']) ∧
    ensureH5Extension (ensureH5Extension f) = ensureH5Extension f ∧
    (∀ g, ¬ HasH5Ext f → ¬ HasH5Ext g → ensureH5Extension f = ensureH5Extension g → f = g) := by
  have h1 : HasH5Ext (ensureH5Extension f) := by
    by_cases h : HasH5Ext f
    · rw [ensure_of_ext h]; exact h
    · rw [ensure_of_not_ext h]; exact ⟨f, .inl rfl⟩
  refine ⟨h1, ensure_of_ext, ensure_of_not_ext, ensure_of_ext h1, ?_⟩
  intro g hf hg e
  rw [ensure_of_not_ext hf, ensure_of_not_ext hg] at e
  exact List.append_cancel_right e

/-- Two different names can be completed to the same file only if one is the other with `.h5`. -/
theorem C73_collisions (f g : Str) (h : ensureH5Extension f = ensureH5Extension g) :
    f = g ∨ f = g ++ ['.', 'h', '5'] ∨ g = f ++ ['.', 'h', '5'] := by
  by_cases hf : HasH5Ext f <;> by_cases hg : HasH5Ext g
  · rw [ensure_of_ext hf, ensure_of_ext hg] at h; exact .inl h
  · rw [ensure_of_ext hf, ensure_of_not_ext hg] at h; exact .inr (.inl h)
  · rw [ensure_of_not_ext hf, ensure_of_ext hg] at h; exact .inr (.inr h.symm)
  · exact .inl ((C73_ensure f).2.2.2.2 g hf hg h)

example : ¬ HasH5Ext "data/train".toList := by
  rw [← hasH5Ext_iff]; decide

/-! ## Stripping the extension -/

theorem rfind_not_mem {c : Char} {s : Str} (h : c ∉ s) : rfind c s = -1 := by
  induction s with
  | nil => rfl
  | cons x s ih =>
    simp only [List.mem_cons, not_or] at h
    simp only [rfind, ih h.2]
    rw [if_neg (by decide), if_neg (Ne.symm h.1)]

theorem rfind_mem {c : Char} {a b : Str} (h : c ∉ b) : rfind c (a ++ c :: b) = a.length := by
  induction a with
  | nil => simp [rfind, rfind_not_mem h]
  | cons x a ih =>
    simp only [List.cons_append, rfind, ih, List.length_cons, Nat.cast_add, Nat.cast_one]
    rw [if_pos (by positivity)]

theorem last_split (c : Char) (s : Str) : c ∉ s ∨ ∃ a b : Str, s = a ++ c :: b ∧ c ∉ b := by
  induction s with
  | nil => left; simp
  | cons x s ih =>
    rcases ih with h | ⟨a, b, h1, h2⟩
    · by_cases hx : x = c
      · right; exact ⟨[], s, by simp [hx], h⟩
      · left; simp [h, Ne.symm hx]
    · right; exact ⟨x :: a, b, by simp [h1], h2⟩

/-- `p` is made of a directory part `d` (empty or ending in a slash), the stem `b` of the final
component, which contains a character other than a dot, and an extension `e`. -/
structure SplitName (p d b e : Str) : Prop where
  eq : p = d ++ b ++ '.' :: e
  dir : d = [] ∨ ∃ d', d = d' ++ ['/']
  stem : '/' ∉ b
  proper : ∃ c ∈ b, c ≠ '.'
  ext : '/' ∉ e ∧ '.' ∉ e

theorem dir_rfind {d r : Str} (hd : d = [] ∨ ∃ d', d = d' ++ ['/']) (hr : '/' ∉ r) :
    rfind '/' (d ++ r) + 1 = d.length := by
  rcases hd with rfl | ⟨d', rfl⟩
  · simp [rfind_not_mem hr]
  · have : d' ++ ['/'] ++ r = d' ++ '/' :: r := by simp
    rw [this, rfind_mem hr]
    simp

/-- C73: if the final component has a stem and an extension, exactly the extension (from its last
dot on) is removed. -/
theorem C73_strip {p d b e : Str} (h : SplitName p d b e) : stripFileExtension p = d ++ b := by
  have hr : '/' ∉ b ++ '.' :: e := by
    simp only [List.mem_append, List.mem_cons, not_or]
    exact ⟨h.stem, by decide, h.ext.1⟩
  have h1 := dir_rfind h.dir hr
  have h2 : rfind '.' (d ++ b ++ '.' :: e) = (d ++ b).length := rfind_mem h.ext.2
  have hp : p = d ++ (b ++ '.' :: e) := by rw [h.eq, List.append_assoc]
  rw [← hp] at h1
  rw [← h.eq] at h2
  obtain ⟨c, hc, hne⟩ := h.proper
  have hb : 0 < b.length := List.length_pos_of_mem hc
  unfold stripFileExtension
  have ht : p.take (d ++ b).length = d ++ b := by rw [h.eq, List.take_left]
  simp only [h1, h2, Int.toNat_natCast, ht]
  rw [if_pos]
  refine ⟨?_, ?_⟩
  · have := h1; simp only [List.length_append]; push_cast; omega
  · simp only [List.drop_left, List.any_eq_true]
    exact ⟨c, hc, by simpa using hne⟩

/-- C73: otherwise the name is returned unchanged: no dot in the final component, or only leading
dots (`.bashrc`). -/
theorem C73_strip_keeps (p : Str) (h : ¬ ∃ d b e, SplitName p d b e) : stripFileExtension p = p := by
  unfold stripFileExtension
  simp only
  rw [if_neg]
  rintro ⟨hlt, hany⟩
  apply h
  rcases last_split '.' p with hn | ⟨a, e, he, hne⟩
  · rw [rfind_not_mem hn] at hlt
    have : -1 ≤ rfind '/' p := by
      rcases last_split '/' p with h' | ⟨x, y, rfl, h'⟩
      · rw [rfind_not_mem h']
      · rw [rfind_mem h']; omega
    omega
  · have hdot : rfind '.' p = a.length := by rw [he]; exact rfind_mem hne
    rw [hdot] at hlt hany
    have hta : p.take a.length = a := by rw [he]; simp
    simp only [Int.toNat_natCast, hta] at hany
    rcases last_split '/' p with hs | ⟨x, y, hxy, hy⟩
    · rw [rfind_not_mem hs] at hany
      rw [he] at hs
      simp only [List.mem_append, List.mem_cons, not_or] at hs
      refine ⟨[], a, e, by simpa using he, .inl rfl, hs.1, ?_, hs.2.2, hne⟩
      simpa using hany
    · have hsl : rfind '/' p = x.length := by rw [hxy]; exact rfind_mem hy
      rw [hsl] at hlt hany
      have hle : (x ++ ['/']).length ≤ a.length := by simp; omega
      have hpre : x ++ ['/'] <+: a := by
        apply List.prefix_of_prefix_length_le (l₃ := p) _ _ hle
        · exact ⟨y, by simp [hxy]⟩
        · exact ⟨'.' :: e, he.symm⟩
      obtain ⟨b, hb⟩ := hpre
      have hyb : y = b ++ '.' :: e := by
        have h1 : (x ++ ['/']) ++ y = (x ++ ['/']) ++ (b ++ '.' :: e) := by
          rw [← List.append_assoc, hb, ← he, hxy]; simp
        exact List.append_cancel_left h1
      rw [hyb] at hy
      simp only [List.mem_append, List.mem_cons, not_or] at hy
      refine ⟨x ++ ['/'], b, e, by rw [hb]; exact he, .inr ⟨x, rfl⟩, hy.1, ?_, hy.2.2, hne⟩
      have e1 : ((x.length : Int) + 1).toNat = (x ++ ['/']).length := by simp
      rw [e1, ← hb, List.drop_left] at hany
      simpa using hany

/-- C73: completing a name and stripping it again gives the name back, if it has no extension and a
proper final component. -/
theorem C73_strip_ensure (d b : Str) (hd : d = [] ∨ ∃ d', d = d' ++ ['/']) (hb : '/' ∉ b)
    (hp : ∃ c ∈ b, c ≠ '.') (hx : ¬ HasH5Ext (d ++ b)) :
    stripFileExtension (ensureH5Extension (d ++ b)) = d ++ b := by
  rw [ensure_of_not_ext hx]
  exact C73_strip (e := ['h', '5']) ⟨rfl, hd, hb, hp, by decide, by decide⟩

example : SplitName "data.v1/run.2.h5".toList "data.v1/".toList "run.2".toList "h5".toList :=
  ⟨by decide, .inr ⟨"data.v1".toList, by decide⟩, by decide, ⟨'r', by decide⟩, by decide, by decide⟩

example : ¬ ∃ d b e, SplitName ".bashrc".toList d b e := by
  rintro ⟨d, b, e, h⟩
  have h1 := C73_strip h
  have h2 : stripFileExtension ".bashrc".toList = ".bashrc".toList := by decide
  rw [h2] at h1
  have := congrArg List.length (h.eq.symm.trans h1)
  simp at this

end Verif.Props
