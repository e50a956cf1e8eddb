import Verif.Model.Helpers
import Verif.Spec.Printing
import Verif.Spec.Sample
import Verif.Props.FioHeader
import Verif.Props.Preprocessing

/-!
# C105: printed samples and subscription
-/

namespace Verif.Props
open Verif.Py Verif.Model Verif.Spec
variable {K : Type}

/-! ### Lines -/

/-- Lines joined with line feeds. -/
def joinNl : List Str → Str
  | [] => []
  | [x] => x
  | x :: y :: r => x ++ '\n' :: joinNl (y :: r)

theorem joinNl_append {a b : List Str} (ha : a ≠ []) (hb : b ≠ []) : joinNl (a ++ b) = joinNl a ++ '\n' :: joinNl b := by
  induction a with
  | nil => exact absurd rfl ha
  | cons x a ih =>
    cases a with
    | nil =>
      cases b with
      | nil => exact absurd rfl hb
      | cons y b => rfl
    | cons z a =>
      have := ih (by simp)
      show x ++ '\n' :: joinNl (z :: (a ++ b)) = (x ++ '\n' :: joinNl (z :: a)) ++ '\n' :: joinNl b
      rw [show z :: (a ++ b) = z :: a ++ b from rfl, this]
      simp

theorem cut_at {c : Char} {x y a b : Str} (hx : c ∉ x) (hy : c ∉ y) (h : x ++ c :: a = y ++ c :: b) : x = y ∧ a = b := by
  induction x generalizing y with
  | nil =>
    cases y with
    | nil => exact ⟨rfl, by simpa using h⟩
    | cons d y =>
      simp only [List.nil_append, List.cons_append, List.cons.injEq] at h
      exact absurd (by rw [← h.1]; simp) hy
  | cons d x ih =>
    cases y with
    | nil =>
      simp only [List.nil_append, List.cons_append, List.cons.injEq] at h
      exact absurd (by rw [h.1]; simp) hx
    | cons e y =>
      simp only [List.cons_append, List.cons.injEq] at h
      obtain ⟨i1, i2⟩ := ih (fun hc => hx (by simp [hc])) (fun hc => hy (by simp [hc])) h.2
      exact ⟨by rw [h.1, i1], i2⟩

theorem joinNl_inj {a b : List Str} (ha : ∀ x ∈ a, '\n' ∉ x) (hb : ∀ x ∈ b, '\n' ∉ x) (na : a ≠ []) (nb : b ≠ [])
    (h : joinNl a = joinNl b) : a = b := by
  induction a generalizing b with
  | nil => exact absurd rfl na
  | cons x a ih =>
    cases b with
    | nil => exact absurd rfl nb
    | cons y b =>
      cases a with
      | nil =>
        cases b with
        | nil => rw [show x = y from h]
        | cons z b =>
          have : x = y ++ '\n' :: joinNl (z :: b) := h
          exact absurd (by rw [this]; simp) (ha x (by simp))
      | cons w a =>
        cases b with
        | nil =>
          have : x ++ '\n' :: joinNl (w :: a) = y := h
          exact absurd (by rw [← this]; simp) (hb y (by simp))
        | cons z b =>
          obtain ⟨h1, h2⟩ := cut_at (ha x (by simp)) (hb y (by simp)) (show x ++ '\n' :: joinNl (w :: a) = y ++ '\n' :: joinNl (z :: b) from h)
          rw [h1, ih (fun v hv => ha v (by simp [hv])) (fun v hv => hb v (by simp [hv])) (by simp) (by simp) h2]

theorem intercalate_joinNl (l : List Str) : List.intercalate ['\n'] l = joinNl l := by
  induction l with
  | nil => rfl
  | cons x l ih =>
    cases l with
    | nil => simp [joinNl]
    | cons y l =>
      rw [List.intercalate_cons_cons, ih]
      simp [joinNl]

/-! ### The text of a sample -/

theorem show_valueText (num : Num K → Str) (p : Param K) : p.show num = valueText num p := by
  cases p <;> simp [Param.show, valueText]

theorem words : ambientText = ambientMark ∧ substrateText = substrateMark ∧ thicknessLine = tHead ∧ roughnessLine = rHead ∧
    sldLine = dHead ∧ lengthUnitText = lengthTail ∧ sldUnitText = dTail := ⟨rfl, rfl, rfl, rfl, rfl, rfl, rfl⟩

section
variable [LinearOrder K] [Zero K]

/-- C105: the printed sample. The lines are: the ambient medium with its density; for every layer, from the top to the bottom, a
head line with the index of the layer in `layers` and its name, and one line each for thickness, roughness and density; the
substrate with its roughness and density. -/
theorem C105_printed (num : Num K → Str) (s : SampleV K) (h : SampleRegular s) :
    ∃ (a b r : Param K) (d : List (Param K)), s.ambient.sld = some a ∧ s.substrate.roughness = some r ∧ s.substrate.sld = some b ∧
      s.layers.map LayerV.sld = d.map some ∧
      s.show num = List.intercalate ['\n'] (
        ((s.ambient.name ++ ambientMark) :: valueLines num none none a) ++
        ((s.layers.zip d).zipIdx.reverse.flatMap fun (x : (LayerV K × Param K) × Nat) =>
          layerHead (natStr x.2) x.1.1.name ::
            valueLines num x.1.1.thickness x.1.1.roughness x.1.2) ++
        ((s.substrate.name ++ substrateMark) :: valueLines num none (some r) b)) := by
  obtain ⟨w1, w2, w3, w4, w5, w6, w7⟩ := words
  obtain ⟨a, ha, -⟩ := h.ambient.sld
  obtain ⟨r, hr, -⟩ := h.substrate.roughness
  obtain ⟨b, hb, -⟩ := h.substrate.sld
  have hd : ∃ d : List (Param K), s.layers.map LayerV.sld = d.map some := by
    have := h.layers
    generalize s.layers = ls at this
    induction ls with
    | nil => exact ⟨[], rfl⟩
    | cons l ls ih =>
      obtain ⟨p, hp, -⟩ := (this l (by simp)).sld
      obtain ⟨d, hd⟩ := ih fun x hx => this x (by simp [hx])
      exact ⟨p :: d, by simp [hp, hd]⟩
  obtain ⟨d, hd⟩ := hd
  refine ⟨a, b, r, d, ha, hr, hb, hd, ?_⟩
  rw [intercalate_joinNl]
  have eamb : s.ambient.show num = joinNl ((s.ambient.name ++ ambientMark) :: valueLines num none none a) := by
    unfold LayerV.show
    rw [h.ambient.kind, ha]
    simp only [showAttr, show_valueText]
    simp only [valueLines, Option.toList, List.map_nil, List.nil_append, joinNl]
    simp only [w1, w5, w7, List.append_assoc, List.cons_append, List.nil_append]
  have esub : s.substrate.show num = joinNl ((s.substrate.name ++ substrateMark) :: valueLines num none (some r) b) := by
    unfold LayerV.show
    rw [h.substrate.kind, hr, hb]
    simp only [showAttr, show_valueText]
    simp only [valueLines, Option.toList, List.map_nil, List.map_cons, List.nil_append, List.singleton_append, joinNl]
    simp only [w2, w4, w5, w6, w7, List.append_assoc, List.cons_append, List.nil_append]
  unfold SampleV.show
  rw [eamb, esub]
  -- the loop
  have hloop : ∀ (L : List ((LayerV K × Param K) × Nat)) (pre : List Str), pre ≠ [] →
      (∀ x ∈ L, FilmRegular x.1.1 ∧ x.1.1.sld = some x.1.2) →
      (L.map fun (x : (LayerV K × Param K) × Nat) => (x.1.1, x.2)).foldl (fun (out : Str) (p : LayerV K × Nat) =>
        out ++ ('[' :: natStr p.2 ++ [']', ' '] ++ p.1.show num ++ ['\n'])) (joinNl pre ++ ['\n']) =
      joinNl (pre ++ L.flatMap fun (x : (LayerV K × Param K) × Nat) =>
          layerHead (natStr x.2) x.1.1.name ::
            valueLines num x.1.1.thickness x.1.1.roughness x.1.2) ++ ['\n'] := by
    intro L
    induction L with
    | nil => intro pre _ _; simp
    | cons x L ih =>
      intro pre hpre hx
      obtain ⟨hf, hsx⟩ := hx x (by simp)
      obtain ⟨pt, hpt, -⟩ := hf.thickness
      obtain ⟨pr, hpr, -⟩ := hf.roughness
      have eL : '[' :: natStr x.2 ++ [']', ' '] ++ x.1.1.show num =
          joinNl (layerHead (natStr x.2) x.1.1.name ::
            valueLines num x.1.1.thickness x.1.1.roughness x.1.2) := by
        have ek : x.1.1.show num = x.1.1.name ++ [':'] ++ ['\n'] ++ (thicknessLine ++ showAttr num x.1.1.thickness ++ lengthUnitText) ++
            ['\n'] ++ (roughnessLine ++ showAttr num x.1.1.roughness ++ lengthUnitText) ++ ['\n'] ++
            (sldLine ++ showAttr num x.1.1.sld ++ sldUnitText) := by
          unfold LayerV.show
          rcases hf.kind with hk | hk <;> rw [hk]
        rw [ek, hpt, hpr, hsx]
        simp only [showAttr, show_valueText]
        simp only [valueLines, Option.toList, List.map_nil, List.map_cons, List.nil_append, List.cons_append, joinNl]
        simp only [w3, w4, w5, w6, w7, layerHead, List.append_assoc, List.cons_append, List.nil_append]
      rw [List.map_cons, List.foldl_cons]
      have e2 : joinNl pre ++ ['\n'] ++ ('[' :: natStr x.2 ++ [']', ' '] ++ x.1.1.show num ++ ['\n']) =
          joinNl (pre ++ (layerHead (natStr x.2) x.1.1.name ::
            valueLines num x.1.1.thickness x.1.1.roughness x.1.2)) ++ ['\n'] := by
        rw [joinNl_append hpre (by simp), ← eL]
        simp
      rw [e2, ih _ (by simp) (fun y hy => hx y (by simp [hy])), List.flatMap_cons, List.append_assoc]
  have hzip : s.layers.zipIdx.reverse = ((s.layers.zip d).zipIdx.reverse).map fun (x : (LayerV K × Param K) × Nat) => (x.1.1, x.2) := by
    rw [List.map_reverse]
    congr 1
    have hl : s.layers.length = d.length := by simpa using congrArg List.length hd
    have : s.layers = (s.layers.zip d).map Prod.fst := by rw [List.map_fst_zip]; exact hl.le
    conv_lhs => rw [this, List.zipIdx_map]
    rfl
  rw [hzip, hloop _ _ (by simp) ?_]
  · rw [joinNl_append (a := _ ++ _) (b := _ :: _) (by rw [List.cons_append]; exact List.cons_ne_nil _ _) (List.cons_ne_nil _ _)]
    simp only [List.append_assoc, List.singleton_append]
  · intro x hx
    rw [List.mem_reverse] at hx
    have hx1 : x.1 ∈ s.layers.zip d := by
      have := List.mem_map_of_mem (f := Prod.fst) hx
      rwa [List.zipIdx_map_fst] at this
    refine ⟨h.layers _ (List.of_mem_zip hx1).1, ?_⟩
    obtain ⟨i, hi⟩ := List.mem_iff_getElem?.1 hx1
    obtain ⟨g1, g2⟩ := List.getElem?_zip_eq_some.1 hi
    have := congrArg (fun (l : List (Option (Param K))) => l[i]?) hd
    simp only [List.getElem?_map, g1, g2, Option.map_some, Option.some.injEq] at this
    exact this

/-! ### The printed text determines the sample -/

omit [LinearOrder K] in
theorem valueText_inj {num : Num K → Str} (hcomma : ∀ v, ',' ∉ num v)
    (hinj : ∀ a b, num a = num b → a.re = b.re ∧ a.im = b.im) {p p' : Param K} (h : valueText num p = valueText num p') :
    SameValues p p' := by
  cases p with
  | const v n =>
    cases p' with
    | const v' n' =>
      obtain ⟨h1, h2⟩ := hinj v v' h
      exact ⟨rfl, h1, h2, h1, h2⟩
    | range a b n' =>
      have : ',' ∈ num v := by
        rw [show num v = '(' :: num a ++ ',' :: ' ' :: num b ++ [')'] from h]
        simp
      exact absurd this (hcomma v)
  | range a b n =>
    cases p' with
    | const v' n' =>
      have : ',' ∈ num v' := by
        rw [show num v' = '(' :: num a ++ ',' :: ' ' :: num b ++ [')'] from h.symm]
        simp
      exact absurd this (hcomma v')
    | range a' b' n' =>
      have h' : '(' :: num a ++ ',' :: ' ' :: num b ++ [')'] = '(' :: num a' ++ ',' :: ' ' :: num b' ++ [')'] := h
      simp only [List.cons_append, List.append_assoc, List.cons.injEq, true_and] at h'
      obtain ⟨h1, h2⟩ := cut_at (hcomma a) (hcomma a') h'
      simp only [List.cons.injEq, true_and] at h2
      have h3 := List.append_cancel_right h2
      obtain ⟨i1, i2⟩ := hinj a a' h1
      obtain ⟨j1, j2⟩ := hinj b b' h3
      exact ⟨rfl, i1, i2, j1, j2⟩

omit [LinearOrder K] [Zero K] in
theorem valueText_nl {num : Num K → Str} (hnl : ∀ v, '\n' ∉ num v) (p : Param K) : '\n' ∉ valueText num p := by
  cases p with
  | const v _ => exact hnl v
  | range a b _ =>
    simp only [valueText, List.cons_append, List.append_assoc, List.mem_cons, List.mem_append, List.not_mem_nil, not_or, or_false]
    exact ⟨by decide, hnl a, by decide, by decide, hnl b, by decide⟩

theorem words_nl : '\n' ∉ tHead ∧ '\n' ∉ rHead ∧ '\n' ∉ dHead ∧ '\n' ∉ lengthTail ∧ '\n' ∉ dTail ∧ '\n' ∉ ambientMark ∧
    '\n' ∉ substrateMark := by decide

omit [LinearOrder K] [Zero K] in
theorem valueLines_nl {num : Num K → Str} (hnl : ∀ v, '\n' ∉ num v) (t r : Option (Param K)) (d : Param K) :
    ∀ x ∈ valueLines num t r d, '\n' ∉ x := by
  obtain ⟨w1, w2, w3, w4, w5, -, -⟩ := words_nl
  intro x hx
  simp only [valueLines, List.mem_append, List.mem_map, Option.mem_toList, List.mem_singleton] at hx
  rcases hx with (⟨p, -, rfl⟩ | ⟨p, -, rfl⟩) | rfl
  · simp only [List.mem_append, not_or]
    exact ⟨⟨w1, valueText_nl hnl _⟩, w4⟩
  · simp only [List.mem_append, not_or]
    exact ⟨⟨w2, valueText_nl hnl _⟩, w4⟩
  · simp only [List.mem_append, not_or]
    exact ⟨⟨w3, valueText_nl hnl _⟩, w5⟩

theorem flatMap_blocks {α : Type} {n : Nat} {f : α → List Str} {l l' : List α} (hf : ∀ a ∈ l, (f a).length = n)
    (hg : ∀ a ∈ l', (f a).length = n) (hl : l.length = l'.length) (h : l.flatMap f = l'.flatMap f) : l.map f = l'.map f := by
  induction l generalizing l' with
  | nil => cases l' with
    | nil => rfl
    | cons _ _ => cases hl
  | cons a l ih => cases l' with
    | nil => cases hl
    | cons b l' =>
      rw [List.flatMap_cons, List.flatMap_cons] at h
      obtain ⟨h1, h2⟩ := List.append_inj h (by rw [hf a (by simp), hg b (by simp)])
      rw [List.map_cons, List.map_cons, h1, ih (fun x hx => hf x (by simp [hx])) (fun x hx => hg x (by simp [hx]))
        (by simpa using hl) h2]

theorem flatMap_length {α : Type} {n : Nat} {f : α → List Str} {l : List α} (hf : ∀ a ∈ l, (f a).length = n) :
    (l.flatMap f).length = l.length * n := by
  induction l with
  | nil => simp
  | cons a l ih =>
    rw [List.flatMap_cons, List.length_append, hf a (by simp), ih fun x hx => hf x (by simp [hx]), List.length_cons]
    ring

/-- C105: the printed text determines the sample. If the texts of numbers contain neither commas nor line feeds and different
numbers have different texts, and no part has a line feed in its name, then two samples with the same printed text have the same
number of layers, and at each position the same name and the same values. -/
theorem C105_unique (num : Num K → Str) (hnl : ∀ v, '\n' ∉ num v) (hcomma : ∀ v, ',' ∉ num v)
    (hinj : ∀ a b, num a = num b → a.re = b.re ∧ a.im = b.im) (s s' : SampleV K) (h : SampleRegular s) (h' : SampleRegular s')
    (hn : ∀ n ∈ partNames s, '\n' ∉ n) (hn' : ∀ n ∈ partNames s', '\n' ∉ n) (he : s.show num = s'.show num) :
    SamePart s.ambient s'.ambient ∧ SamePart s.substrate s'.substrate ∧ List.Forall₂ SamePart s.layers s'.layers := by
  obtain ⟨a, b, r, d, ha, hr, hb, hd, e⟩ := C105_printed num s h
  obtain ⟨a', b', r', d', ha', hr', hb', hd', e'⟩ := C105_printed num s' h'
  rw [e, e', intercalate_joinNl, intercalate_joinNl] at he
  obtain ⟨-, -, -, -, -, w6, w7⟩ := words_nl
  have hlines : ∀ (s : SampleV K) (a b r : Param K) (d : List (Param K)), (∀ n ∈ partNames s, '\n' ∉ n) →
      ∀ x ∈ ((s.ambient.name ++ ambientMark) :: valueLines num none none a) ++
        ((s.layers.zip d).zipIdx.reverse.flatMap fun (x : (LayerV K × Param K) × Nat) =>
          layerHead (natStr x.2) x.1.1.name :: valueLines num x.1.1.thickness x.1.1.roughness x.1.2) ++
        ((s.substrate.name ++ substrateMark) :: valueLines num none (some r) b), '\n' ∉ x := by
    intro s a b r d hn x hx
    simp only [partNames, List.mem_cons, List.mem_append, List.mem_map, List.not_mem_nil, or_false] at hn
    simp only [List.mem_append, List.mem_cons, List.mem_flatMap, List.mem_reverse] at hx
    rcases hx with ((rfl | hx) | ⟨y, hy, rfl | hx⟩) | rfl | hx
    · simp only [List.mem_append, not_or]
      exact ⟨hn _ (.inr (.inr rfl)), w6⟩
    · exact valueLines_nl hnl _ _ _ x hx
    · have hx1 : y.1 ∈ s.layers.zip d := by
        have := List.mem_map_of_mem (f := Prod.fst) hy
        rwa [List.zipIdx_map_fst] at this
      have hdig : '\n' ∉ natStr y.2 := fun hc => absurd ((natStr_spec y.2).2.1 _ hc) (by unfold IsDigit; decide)
      simp only [layerHead, List.cons_append, List.mem_cons, List.mem_append, List.append_assoc, List.not_mem_nil, or_false, not_or]
      exact ⟨by decide, hdig, by decide, by decide, hn _ (.inr (.inl ⟨_, (List.of_mem_zip hx1).1, rfl⟩)), by decide⟩
    · exact valueLines_nl hnl _ _ _ x hx
    · simp only [List.mem_append, not_or]
      exact ⟨hn _ (.inl rfl), w7⟩
    · exact valueLines_nl hnl _ _ _ x hx
  have hl := joinNl_inj (hlines s a b r d hn) (hlines s' a' b' r' d' hn') (by simp) (by simp) he
  have hlen : s.layers.length = d.length := by simpa using congrArg List.length hd
  have hlen' : s'.layers.length = d'.length := by simpa using congrArg List.length hd'
  have hreg : ∀ (s : SampleV K) (d : List (Param K)), SampleRegular s → s.layers.map LayerV.sld = d.map some →
      ∀ x ∈ (s.layers.zip d).zipIdx.reverse, ∃ t r, x.1.1.thickness = some t ∧ x.1.1.roughness = some r ∧ x.1.1.sld = some x.1.2 := by
    intro s d h hd x hx
    rw [List.mem_reverse] at hx
    have hx1 : x.1 ∈ s.layers.zip d := by
      have := List.mem_map_of_mem (f := Prod.fst) hx
      rwa [List.zipIdx_map_fst] at this
    have hf := h.layers _ (List.of_mem_zip hx1).1
    obtain ⟨t, ht, -⟩ := hf.thickness
    obtain ⟨r, hr, -⟩ := hf.roughness
    obtain ⟨i, hi⟩ := List.mem_iff_getElem?.1 hx1
    obtain ⟨g1, g2⟩ := List.getElem?_zip_eq_some.1 hi
    have := congrArg (fun (l : List (Option (Param K))) => l[i]?) hd
    simp only [List.getElem?_map, g1, g2, Option.map_some, Option.some.injEq] at this
    exact ⟨t, r, ht, hr, this⟩
  have hfour : ∀ (s : SampleV K) (d : List (Param K)), SampleRegular s → s.layers.map LayerV.sld = d.map some →
      ∀ x ∈ (s.layers.zip d).zipIdx.reverse, (layerHead (natStr x.2) x.1.1.name ::
        valueLines num x.1.1.thickness x.1.1.roughness x.1.2).length = 4 := by
    intro s d h hd x hx
    obtain ⟨t, r, ht, hr, -⟩ := hreg s d h hd x hx
    rw [ht, hr]
    simp [valueLines]
  obtain ⟨k1, k2⟩ := List.append_inj' hl (by simp [valueLines])
  obtain ⟨k3, k4⟩ := List.append_inj k1 (by simp [valueLines])
  have hcount : s.layers.length = s'.layers.length := by
    have := congrArg List.length k4
    rw [flatMap_length (hfour s d h hd), flatMap_length (hfour s' d' h' hd')] at this
    simp only [List.length_reverse, List.length_zipIdx, List.length_zip] at this
    omega
  have k5 := flatMap_blocks (hfour s d h hd) (hfour s' d' h' hd') (by simp; omega) k4
  rw [List.map_reverse, List.map_reverse, List.reverse_inj] at k5
  have single : ∀ {p p' : Param K} {x y : Str}, x ++ valueText num p ++ y = x ++ valueText num p' ++ y → SameValues p p' := by
    intro p p' x y hxy
    exact valueText_inj hcomma hinj (List.append_cancel_left (List.append_cancel_right hxy))
  refine ⟨?_, ?_, ?_⟩
  · simp only [valueLines, Option.toList, List.map_nil, List.nil_append, List.cons.injEq, and_true] at k3
    refine ⟨List.append_cancel_right k3.1, ?_, ?_, ?_⟩
    · rw [h.ambient.thickness, h'.ambient.thickness]; trivial
    · rw [h.ambient.roughness, h'.ambient.roughness]; trivial
    · rw [ha, ha']; exact single k3.2
  · simp only [valueLines, Option.toList, List.map_nil, List.map_cons, List.nil_append, List.cons_append, List.cons.injEq, and_true] at k2
    refine ⟨List.append_cancel_right k2.1, ?_, ?_, ?_⟩
    · rw [h.substrate.thickness, h'.substrate.thickness]; trivial
    · rw [hr, hr']; exact single k2.2.1
    · rw [hb, hb']; exact single k2.2.2
  · rw [List.forall₂_iff_get]
    refine ⟨hcount, fun i h1 h2 => ?_⟩
    have hd1 : i < d.length := by omega
    have hd2 : i < d'.length := by omega
    have m1 : ((s.layers[i], d[i]), i) ∈ (s.layers.zip d).zipIdx := by
      rw [List.mk_mem_zipIdx_iff_getElem?, List.getElem?_zip_eq_some]
      exact ⟨List.getElem?_eq_getElem h1, List.getElem?_eq_getElem hd1⟩
    have m2 : ((s'.layers[i], d'[i]), i) ∈ (s'.layers.zip d').zipIdx := by
      rw [List.mk_mem_zipIdx_iff_getElem?, List.getElem?_zip_eq_some]
      exact ⟨List.getElem?_eq_getElem h2, List.getElem?_eq_getElem hd2⟩
    have k6 := congrArg (fun (l : List (List Str)) => l[i]?) k5
    have z1 : (s.layers.zip d).zipIdx[i]? = some ((s.layers[i], d[i]), i) := by
      rw [List.getElem?_zipIdx, List.getElem?_zip_eq_some (z := (s.layers[i], d[i])) |>.2 ⟨List.getElem?_eq_getElem h1, List.getElem?_eq_getElem hd1⟩]
      simp
    have z2 : (s'.layers.zip d').zipIdx[i]? = some ((s'.layers[i], d'[i]), i) := by
      rw [List.getElem?_zipIdx, List.getElem?_zip_eq_some (z := (s'.layers[i], d'[i])) |>.2 ⟨List.getElem?_eq_getElem h2, List.getElem?_eq_getElem hd2⟩]
      simp
    simp only [List.getElem?_map, z1, z2, Option.map_some, Option.some.injEq] at k6
    obtain ⟨t, r, ht, hr, hs⟩ := hreg s d h hd _ (List.mem_reverse.2 m1)
    obtain ⟨t', r', ht', hr', hs'⟩ := hreg s' d' h' hd' _ (List.mem_reverse.2 m2)
    simp only at ht hr hs ht' hr' hs'
    rw [ht, hr, ht', hr'] at k6
    simp only [valueLines, Option.toList, List.map_nil, List.map_cons, List.nil_append, List.cons_append, List.cons.injEq, and_true] at k6
    obtain ⟨n1, n2, n3, n4⟩ := k6
    simp only [List.get_eq_getElem]
    refine ⟨?_, ?_, ?_, ?_⟩
    · unfold layerHead at n1
      have := List.append_cancel_right n1
      have := List.append_cancel_left this
      simpa using this
    · rw [ht, ht']; exact single n2
    · rw [hr, hr']; exact single n3
    · rw [hs, hs']; exact single n4

/-! ### Subscription -/

omit [Zero K] in
/-- C105: `sample[0]` is the substrate, `sample[i + 1]` the layer with the index `i` (the one printed as `[i]` and used by
`rename_layer`, `swap_layers` and `move_layer`), `sample[-1]` the ambient medium; the length counts all parts; other integers
below the length count from the top, and the rest raises `IndexError`. -/
theorem C105_subscription (s : SampleV K) :
    s.len = s.layers.length + 2 ∧ s.item 0 = .ok s.substrate ∧ s.item (-1) = .ok s.ambient ∧
    (∀ (i : Nat) (l : LayerV K), s.layers[i]? = some l → s.item ((i : Int) + 1) = .ok l ∧
      s.item ((i : Int) - s.layers.length - 1) = .ok l) ∧
    (∀ k : Int, (s.len : Int) ≤ k ∨ k < -(s.len : Int) → s.item k = .error .indexError) := by
  have hlen : s.len = s.layers.length + 2 := by
    unfold SampleV.len SampleV.structure_
    simp
  have hst : ∀ i : Nat, s.structure_[i]? = if i = 0 then some s.substrate else if i ≤ s.layers.length then s.layers[i - 1]?
      else if i = s.layers.length + 1 then some s.ambient else none := by
    intro i
    unfold SampleV.structure_
    cases i with
    | zero => rfl
    | succ i =>
      rw [if_neg (by omega)]
      simp only [List.cons_append, List.nil_append, List.getElem?_cons_succ, Nat.add_sub_cancel]
      rw [List.getElem?_append]
      split_ifs with h1 h2 h3
      · rfl
      · omega
      · omega
      · omega
      · have : i = s.layers.length := by omega
        rw [this]; simp
      · rw [List.getElem?_eq_none]; simp; omega
  have key : ∀ (k : Int) (n : Nat) (l : LayerV K), normIdx s.structure_.length k = some n → s.structure_[n]? = some l → s.item k = .ok l := by
    intro k n l h1 h2
    unfold SampleV.item
    rw [getItem_eq_ok_iff]
    exact ⟨n, h1, h2⟩
  have hlen' : s.structure_.length = s.layers.length + 2 := hlen
  refine ⟨hlen, key 0 0 _ ?_ (by rw [hst]; simp), key (-1) (s.layers.length + 1) _ ?_ (by rw [hst]; simp), ?_, ?_⟩
  · rw [hlen']; simp [normIdx]
  · rw [hlen']; unfold normIdx; simp; omega
  · intro i l hi
    have hlt : i < s.layers.length := (List.getElem?_eq_some_iff.1 hi).1
    constructor
    · refine key _ (i + 1) _ ?_ ?_
      · rw [hlen']
        have : ((i : Int) + 1) = ((i + 1 : Nat) : Int) := by push_cast; ring
        rw [this, normIdx_nat (by omega)]
      · rw [hst, if_neg (by omega), if_pos (by omega)]
        simpa using hi
    · refine key _ (i + 1) _ ?_ ?_
      · rw [hlen']
        unfold normIdx
        rw [if_neg (by omega), if_pos (by omega)]
        congr 1
        omega
      · rw [hst, if_neg (by omega), if_pos (by omega)]
        simpa using hi
  · intro k hk
    rw [hlen] at hk
    unfold SampleV.item getItem
    have : normIdx s.structure_.length k = none := by
      rw [hlen']
      unfold normIdx
      split_ifs <;> first | rfl | (exfalso; push_cast at *; omega)
    rw [this]

/-- C105: the printed index is not the subscript. For every sample with a layer, the layer printed as `[0]` is `sample[1]`, and
`sample[0]` is the substrate, which is printed without an index. -/
theorem C105_printed_index (s : SampleV K) (h : SampleRegular s) (l : LayerV K) (hl : s.layers[0]? = some l) :
    s.item 1 = .ok l ∧ s.item 0 = .ok s.substrate ∧ l ≠ s.substrate := by
  obtain ⟨-, h2, -, h4, -⟩ := C105_subscription s
  refine ⟨(h4 0 l hl).1, h2, fun he => ?_⟩
  have hf := h.layers l (List.mem_of_getElem? hl)
  have hs := h.substrate.kind
  rw [← he] at hs
  rcases hf.kind with hk | hk <;> rw [hk] at hs <;> cases hs

end

/-- The hypotheses of `C105_unique` hold for a way of printing numbers. -/
example : ∃ num : Num Nat → Str, (∀ v, '\n' ∉ num v) ∧ (∀ v, ',' ∉ num v) ∧
    ∀ a b, num a = num b → a.re = b.re ∧ a.im = b.im := by
  have dig : ∀ n, ∀ c ∈ natStr n, IsDigit c := fun n => (natStr_spec n).2.1
  have nd : ∀ c : Char, ¬IsDigit c → ∀ n, c ∉ natStr n := fun c h n hc => h (dig n c hc)
  refine ⟨fun v => natStr v.re ++ '+' :: natStr v.im ++ ['j'], fun v => ?_, fun v => ?_, fun a b h => ?_⟩
  · simp only [List.append_assoc, List.cons_append, List.mem_append, List.mem_cons, List.not_mem_nil, or_false, not_or]
    exact ⟨nd _ (by unfold IsDigit; decide) _, by decide, nd _ (by unfold IsDigit; decide) _, by decide⟩
  · simp only [List.append_assoc, List.cons_append, List.mem_append, List.mem_cons, List.not_mem_nil, or_false, not_or]
    exact ⟨nd _ (by unfold IsDigit; decide) _, by decide, nd _ (by unfold IsDigit; decide) _, by decide⟩
  · simp only [List.append_assoc, List.cons_append] at h
    obtain ⟨h1, h2⟩ := cut_at (nd '+' (by unfold IsDigit; decide) _) (nd '+' (by unfold IsDigit; decide) _) h
    exact ⟨natStr_inj h1, natStr_inj (List.append_cancel_right h2)⟩

/-- A regular sample with a layer, as assumed by the theorems on printing. -/
example : SampleRegular (prepSample 0 1) ∧ (∀ n ∈ partNames (prepSample 0 1), '\n' ∉ n) ∧ (prepSample 0 1).layers ≠ [] := by
  refine ⟨prepSample_regular (by norm_num), ?_, by simp [prepSample]⟩
  intro n hn
  have : partNames (prepSample 0 1) = ["Si".toList, "film".toList, "air".toList] := rfl
  rw [this] at hn
  revert hn n
  decide

end Verif.Props
