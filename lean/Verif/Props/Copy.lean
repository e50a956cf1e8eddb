import Verif.Model.Heap
import Verif.Lemmas.Except
import Verif.Lemmas.PyList
import Verif.Props.Reorder
import Verif.Props.Dict

/-!
# C10: copies are independent
-/

set_option linter.unusedSectionVars false

namespace Verif.Props
open Verif.Py Verif.Model Verif.Spec
variable {K : Type} [LinearOrder K] [Zero K]

/-- A set of references is closed when everything referred to from it belongs to it. -/
def Closed (h : Heap K) (own : Addr → Prop) : Prop :=
  ∀ x, own x → ∀ o, h.obj x = some o → ∀ y ∈ o.ptrs, own y

/-- Only allocated objects are referred to. -/
def Allocated (h : Heap K) (own : Addr → Prop) : Prop := ∀ x, own x → x < h.next

/-- `own` after some allocations between `h` and `h'`. -/
def grow (own : Addr → Prop) (h h' : Heap K) : Addr → Prop :=
  fun x => own x ∨ (h.next ≤ x ∧ x < h'.next)

/-- `h'` arises from `h` by changes inside `own` and by new objects, which only refer to `own` and to
new objects. -/
structure Framed (own : Addr → Prop) (h h' : Heap K) : Prop where
  next_le : h.next ≤ h'.next
  same : ∀ x, x < h.next → ¬ own x → h'.obj x = h.obj x
  closed : Closed h' (grow own h h')
  allocated : Allocated h' (grow own h h')

theorem Framed.refl {own : Addr → Prop} {h : Heap K} (hc : Closed h own) (ha : Allocated h own) :
    Framed own h h := by
  have e : ∀ x, grow own h h x → own x := by
    rintro x (hx | hx)
    · exact hx
    · omega
  exact ⟨le_refl _, fun _ _ _ => rfl, fun x hx o ho y hy => Or.inl (hc x (e x hx) o ho y hy),
    fun x hx => ha x (e x hx)⟩

theorem Framed.trans {own : Addr → Prop} {h h1 h2 : Heap K} (f1 : Framed own h h1)
    (f2 : Framed (grow own h h1) h1 h2) : Framed own h h2 := by
  have e : ∀ x, grow (grow own h h1) h1 h2 x ↔ grow own h h2 x := by
    have := f1.next_le
    have := f2.next_le
    intro x; simp only [grow]
    constructor
    · rintro ((h | h) | h)
      · exact Or.inl h
      · right; omega
      · right; omega
    · rintro (h | h)
      · exact Or.inl (Or.inl h)
      · by_cases hx : x < h1.next
        · left; right; omega
        · right; omega
  refine ⟨le_trans f1.next_le f2.next_le, ?_, ?_, ?_⟩
  · intro x hx hn
    rw [f2.same x (lt_of_lt_of_le hx f1.next_le), f1.same x hx hn]
    rintro (h' | h')
    · exact hn h'
    · omega
  · intro x hx o ho y hy
    exact (e y).1 (f2.closed x ((e x).2 hx) o ho y hy)
  · intro x hx
    exact f2.allocated x ((e x).2 hx)

theorem framed_write {own : Addr → Prop} {h : Heap K} (hc : Closed h own) (ha : Allocated h own)
    {a : Addr} {o : Obj K} (hown : own a) (ho : ∀ y ∈ o.ptrs, own y) : Framed own h (h.write a o) := by
  have e : ∀ x, grow own h (h.write a o) x → own x := by
    rintro x (hx | hx)
    · exact hx
    · simp [Heap.write] at hx; omega
  refine ⟨le_refl _, ?_, ?_, fun x hx => ha x (e x hx)⟩
  · intro x _ hn
    have : x ≠ a := by rintro rfl; exact hn hown
    simp [Heap.write, this]
  · intro x hx o' ho' y hy
    left
    simp only [Heap.write] at ho'
    split_ifs at ho' with hxa
    · simp only [Option.some.injEq] at ho'
      subst ho'
      exact ho y hy
    · exact hc x (e x hx) o' ho' y hy

theorem framed_alloc {own : Addr → Prop} {h : Heap K} (hc : Closed h own) (ha : Allocated h own)
    {o : Obj K} (ho : ∀ y ∈ o.ptrs, own y) : Framed own h (h.alloc o).2 := by
  refine ⟨by simp [Heap.alloc], ?_, ?_, ?_⟩
  · intro x hx _
    have : x ≠ h.next := by omega
    simp [Heap.alloc, this]
  · intro x hx o' ho' y hy
    left
    simp only [Heap.alloc] at ho'
    split_ifs at ho' with hxa
    · simp only [Option.some.injEq] at ho'
      subst ho'
      exact ho y hy
    · rcases hx with hx | hx
      · exact hc x hx o' ho' y hy
      · simp [Heap.alloc] at hx; omega
  · rintro x (hx | hx)
    · have := ha x hx; simp [Heap.alloc]; omega
    · exact hx.2

/-- The result of a computation that allocates: everything reachable from the result is new. -/
structure FreshRes (h : Heap K) (a : Addr) (h' : Heap K) : Prop where
  lt : h.next ≤ a ∧ a < h'.next
  framed : Framed (fun _ => False) h h'

theorem closed_false (h : Heap K) : Closed h (fun _ => False) := fun _ hx => hx.elim
theorem allocated_false (h : Heap K) : Allocated h (fun _ => False) := fun _ hx => hx.elim

theorem Framed.weaken {own : Addr → Prop} {h h' : Heap K} (f : Framed (fun _ => False) h h')
    (hc : Closed h own) (ha : Allocated h own) : Framed own h h' := by
  refine ⟨f.next_le, fun x hx _ => f.same x hx id, ?_, ?_⟩
  · rintro x (hx | hx) o ho y hy
    · left
      rw [f.same x (ha x hx) id] at ho
      exact hc x hx o ho y hy
    · rcases f.closed x (Or.inr hx) o ho y hy with hy | hy
      · exact hy.elim
      · exact Or.inr hy
  · rintro x (hx | hx)
    · exact lt_of_lt_of_le (ha x hx) f.next_le
    · exact hx.2

theorem framed_alloc_false {h h1 : Heap K} (f : Framed (fun _ => False) h h1) {o : Obj K}
    (ho : ∀ y ∈ o.ptrs, h.next ≤ y ∧ y < h1.next) :
    FreshRes h (h1.alloc o).1 (h1.alloc o).2 := by
  refine ⟨⟨f.next_le, by simp [Heap.alloc]⟩, f.trans ?_⟩
  exact framed_alloc f.closed f.allocated fun y hy => Or.inr (ho y hy)

theorem framed_seq {h h1 h2 : Heap K} (f1 : Framed (fun _ => False) h h1)
    (f2 : Framed (fun _ => False) h1 h2) : Framed (fun _ => False) h h2 :=
  f1.trans (f2.weaken f1.closed f1.allocated)

/-! ### Reading is stable under frames -/

theorem copy_eq {p q : Param K} (h : p.copy = .ok q) : q = p := by
  cases p with
  | range a b n => exact (mk_ok h).1
  | const v n => cases h; rfl

theorem readParam_same {h h' : Heap K} {a : Addr} (e : h'.obj a = h.obj a) :
    h'.readParam a = h.readParam a := by unfold Heap.readParam; rw [e]

theorem readAttr_same {h h' : Heap K} {a : Option Addr} (e : ∀ x ∈ a.toList, h'.obj x = h.obj x) :
    h'.readAttr a = h.readAttr a := by
  cases a with
  | none => rfl
  | some a => simp only [Heap.readAttr]; rw [readParam_same (e a (by simp))]

theorem readLayer_same {h h' : Heap K} {own : Addr → Prop} (hc : Closed h own)
    (e : ∀ x, own x → h'.obj x = h.obj x) {a : Addr} (ha : own a) : h'.readLayer a = h.readLayer a := by
  unfold Heap.readLayer
  rw [e a ha]
  cases ho : h.obj a with
  | none => rfl
  | some o =>
    cases o with
    | layer k n t r s =>
      have hp := hc a ha _ ho
      simp only [Obj.ptrs, List.mem_append] at hp
      simp only
      rw [readAttr_same (fun x hx => e x (hp x (Or.inl (Or.inl hx)))),
        readAttr_same (fun x hx => e x (hp x (Or.inl (Or.inr hx)))),
        readAttr_same (fun x hx => e x (hp x (Or.inr hx)))]
    | param p => rfl
    | sample a b ls => rfl

theorem optMapM_congr {α β : Type} {f g : α → Option β} {l : List α} (h : ∀ a ∈ l, f a = g a) :
    l.mapM f = l.mapM g := by
  induction l with
  | nil => rfl
  | cons a l ih =>
    simp only [List.mapM_cons]
    rw [h a (by simp), ih fun b hb => h b (by simp [hb])]

/-- What a sample reports only depends on the objects of a closed set containing it. -/
theorem readSample_same {h h' : Heap K} {own : Addr → Prop} (hc : Closed h own)
    (e : ∀ x, own x → h'.obj x = h.obj x) {a : Addr} (ha : own a) : h'.readSample a = h.readSample a := by
  unfold Heap.readSample
  rw [e a ha]
  cases ho : h.obj a with
  | none => rfl
  | some o =>
    cases o with
    | sample amb sub ls =>
      have hp := hc a ha _ ho
      simp only [Obj.ptrs, List.mem_cons] at hp
      simp only
      rw [readLayer_same hc e (hp amb (Or.inl rfl)), readLayer_same hc e (hp sub (Or.inr (Or.inl rfl))),
        optMapM_congr fun x hx => readLayer_same hc e (hp x (Or.inr (Or.inr hx)))]
    | param p => rfl
    | layer k n t r s => rfl

/-! ### The copy -/

theorem copyParam_spec {h h' : Heap K} {a c : Addr} (hr : h.copyParam a = .ok (c, h')) :
    FreshRes h c h' ∧ ∃ p, h.readParam a = some p ∧ h'.readParam c = some p := by
  unfold Heap.copyParam at hr
  cases hp : h.readParam a with
  | none => rw [hp] at hr; cases hr
  | some p =>
    rw [hp] at hr
    obtain ⟨q, hq, hr2⟩ := bind_eq_ok.1 hr
    clear hr
    have := copy_eq hq
    subst this
    cases hr2
    refine ⟨⟨⟨le_refl _, by simp⟩, ?_⟩, q, rfl, ?_⟩
    · exact framed_alloc (closed_false h) (allocated_false h) (by simp [Obj.ptrs])
    · simp [Heap.readParam]

theorem FreshRes.seq {h h1 h2 : Heap K} {a b : Addr} (f1 : FreshRes h a h1) (f2 : FreshRes h1 b h2) :
    FreshRes h b h2 :=
  ⟨⟨le_trans f1.framed.next_le f2.lt.1, f2.lt.2⟩, framed_seq f1.framed f2.framed⟩

theorem copyParam2_spec {h h' : Heap K} {a : Option Addr} {c : Addr} (hr : h.copyParam2 a = .ok (c, h')) :
    FreshRes h c h' ∧ ∃ p, h.readAttr a = some (some p) ∧ h'.readParam c = some p := by
  unfold Heap.copyParam2 at hr
  cases a with
  | none => cases hr
  | some a =>
    obtain ⟨⟨b, h1⟩, h2, hr⟩ := bind_eq_ok.1 hr
    obtain ⟨f1, p, hp, hp'⟩ := copyParam_spec h2
    obtain ⟨f2, q, hq, hq'⟩ := copyParam_spec hr
    rw [hp'] at hq
    cases hq
    exact ⟨f1.seq f2, p, by simp [Heap.readAttr, hp], hq'⟩

/-- The object has no attributes its class does not define. -/
def AttrsMatch (h : Heap K) (a : Addr) : Prop :=
  ∀ k n t r s, h.obj a = some (.layer k n t r s) →
    (k = .substrate → t = none) ∧ (k = .ambient → t = none ∧ r = none)

theorem readAttr_frame {h h' : Heap K} (f : Framed (fun _ => False) h h') {a : Option Addr}
    {p : Option (Option (Param K))} (hw : ∀ x ∈ a.toList, x < h.next) (hr : h.readAttr a = p) :
    h'.readAttr a = p := by
  rw [← hr]
  exact readAttr_same fun x hx => f.same x (hw x hx) id

theorem readParam_frame {h h' : Heap K} (f : Framed (fun _ => False) h h') {a : Addr}
    (hw : a < h.next) : h'.readParam a = h.readParam a := readParam_same (f.same a hw id)

theorem alloc_framed (h : Heap K) (own : Addr → Prop) (hc : Closed h own) (ha : Allocated h own)
    (o : Obj K) (ho : ∀ y ∈ o.ptrs, own y) : Framed own h (h.alloc o).2 := framed_alloc hc ha ho

theorem checkNonneg_unit {h : Heap K} {a : Addr} {u : Unit} (_ : h.checkNonneg a = .ok u) : True := trivial

/-- After allocating `o`, the other addresses are read as before. -/
theorem alloc_obj_lt (h : Heap K) (o : Obj K) {x : Addr} (hx : x < h.next) :
    (h.alloc o).2.obj x = h.obj x := by
  have : x ≠ h.next := by omega
  simp [Heap.alloc, this]

theorem alloc_inj {h h' : Heap K} {o : Obj K} {c : Addr}
    (hr : (pure (h.alloc o) : Res (Addr × Heap K)) = .ok (c, h')) :
    c = (h.alloc o).1 ∧ h' = (h.alloc o).2 := by
  have : h.alloc o = (c, h') := Except.ok.inj hr
  rw [this]
  exact ⟨rfl, rfl⟩

theorem copyLayer_spec {h h' : Heap K} {a c : Addr} (hm : AttrsMatch h a) (hall : Closed h (· < h.next))
    (ha : a < h.next) (hr : h.copyLayer a = .ok (c, h')) :
    FreshRes h c h' ∧ ∃ l, h.readLayer a = some l ∧ h'.readLayer c = some l := by
  unfold Heap.copyLayer at hr
  cases ho : h.obj a with
  | none => rw [ho] at hr; cases hr
  | some o =>
    rw [ho] at hr
    cases o with
    | param p => cases hr
    | sample _ _ _ => cases hr
    | layer k n t r s =>
      have hp := hall a ha _ ho
      simp only [Obj.ptrs, List.mem_append] at hp
      have hpt : ∀ x ∈ t.toList, x < h.next := fun x hx => hp x (Or.inl (Or.inl hx))
      have hpr : ∀ x ∈ r.toList, x < h.next := fun x hx => hp x (Or.inl (Or.inr hx))
      have hps : ∀ x ∈ s.toList, x < h.next := fun x hx => hp x (Or.inr hx)
      have film : ∀ (kk : LayerKind), kk = k → (do
            let (t, h) ← h.copyParam2 t
            let (r, h) ← h.copyParam2 r
            let (s, h) ← h.copyParam2 s
            h.checkNonneg t
            h.checkNonneg r
            return h.alloc (.layer kk n (some t) (some r) (some s)) : Res (Addr × Heap K)) = .ok (c, h') →
          FreshRes h c h' ∧ ∃ l, h.readLayer a = some l ∧ h'.readLayer c = some l := by
        clear hr
        intro kk hkk hr
        subst hkk
        obtain ⟨⟨t', h1⟩, e1, hr⟩ := bind_eq_ok.1 hr
        dsimp only at hr
        obtain ⟨⟨r', h2⟩, e2, hr⟩ := bind_eq_ok.1 hr
        dsimp only at hr
        obtain ⟨⟨s', h3⟩, e3, hr⟩ := bind_eq_ok.1 hr
        dsimp only at hr
        obtain ⟨_, _, hr⟩ := bind_eq_ok.1 hr
        obtain ⟨_, _, hr⟩ := bind_eq_ok.1 hr
        obtain ⟨rfl, rfl⟩ := alloc_inj hr
        obtain ⟨f1, pt, at1, pt'⟩ := copyParam2_spec e1
        obtain ⟨f2, pr, ar1, pr'⟩ := copyParam2_spec e2
        obtain ⟨f3, ps, as1, ps'⟩ := copyParam2_spec e3
        have g12 := framed_seq f1.framed f2.framed
        have g13 := framed_seq g12 f3.framed
        have n1 := f1.framed.next_le
        have n2 := f2.framed.next_le
        have n3 := f3.framed.next_le
        have l1 := f1.lt
        have l2 := f2.lt
        have l3 := f3.lt
        refine ⟨framed_alloc_false g13 ?_, ⟨kk, n, some pt, some pr, some ps⟩, ?_, ?_⟩
        · intro y hy
          simp only [Obj.ptrs, Option.toList_some, List.mem_append, List.mem_singleton] at hy
          rcases hy with (rfl | rfl) | rfl <;> omega
        · unfold Heap.readLayer
          rw [ho]
          simp only
          rw [at1]
          have : h.readAttr r = some (some pr) := by
            rw [← ar1]; exact (readAttr_frame f1.framed hpr rfl).symm
          rw [this]
          have : h.readAttr s = some (some ps) := by
            rw [← as1]; exact (readAttr_frame g12 hps rfl).symm
          rw [this]
          rfl
        · unfold Heap.readLayer
          have eo : (h3.alloc (.layer kk n (some t') (some r') (some s'))).2.obj
              (h3.alloc (.layer kk n (some t') (some r') (some s'))).1 =
              some (.layer kk n (some t') (some r') (some s')) := by simp [Heap.alloc]
          rw [eo]
          simp only [Heap.readAttr]
          rw [readParam_same (alloc_obj_lt h3 _ (x := t') (by omega)),
            readParam_same (alloc_obj_lt h3 _ (x := r') (by omega)),
            readParam_same (alloc_obj_lt h3 _ (x := s') (by omega)),
            readParam_frame f3.framed (a := r') (by omega), pr',
            readParam_frame f3.framed (a := t') (by omega),
            readParam_frame f2.framed (a := t') (by omega), pt', ps']
          rfl
      cases k with
      | layer => exact film .layer rfl hr
      | constantLayer => exact film .constantLayer rfl hr
      | substrate =>
        have ht := (hm _ _ _ _ _ ho).1 rfl
        subst ht
        simp only at hr
        obtain ⟨⟨r', h2⟩, e2, hr⟩ := bind_eq_ok.1 hr
        dsimp only at hr
        obtain ⟨⟨s', h3⟩, e3, hr⟩ := bind_eq_ok.1 hr
        dsimp only at hr
        obtain ⟨_, _, hr⟩ := bind_eq_ok.1 hr
        obtain ⟨rfl, rfl⟩ := alloc_inj hr
        obtain ⟨f2, pr, ar1, pr'⟩ := copyParam2_spec e2
        obtain ⟨f3, ps, as1, ps'⟩ := copyParam2_spec e3
        have g13 := framed_seq f2.framed f3.framed
        have n2 := f2.framed.next_le
        have n3 := f3.framed.next_le
        have l2 := f2.lt
        have l3 := f3.lt
        refine ⟨framed_alloc_false g13 ?_, ⟨.substrate, n, none, some pr, some ps⟩, ?_, ?_⟩
        · intro y hy
          simp only [Obj.ptrs, Option.toList_some, Option.toList_none, List.mem_append,
            List.mem_singleton, List.not_mem_nil, false_or] at hy
          rcases hy with rfl | rfl <;> omega
        · unfold Heap.readLayer
          rw [ho]
          simp only
          rw [ar1]
          have : h.readAttr s = some (some ps) := by
            rw [← as1]; exact (readAttr_frame f2.framed hps rfl).symm
          rw [this]
          rfl
        · unfold Heap.readLayer
          have eo : (h3.alloc (.layer .substrate n none (some r') (some s'))).2.obj
              (h3.alloc (.layer .substrate n none (some r') (some s'))).1 =
              some (.layer .substrate n none (some r') (some s')) := by simp [Heap.alloc]
          rw [eo]
          simp only [Heap.readAttr]
          rw [readParam_same (alloc_obj_lt h3 _ (x := r') (by omega)),
            readParam_same (alloc_obj_lt h3 _ (x := s') (by omega)),
            readParam_frame f3.framed (a := r') (by omega), pr', ps']
          rfl
      | ambient =>
        obtain ⟨ht, hr'⟩ := (hm _ _ _ _ _ ho).2 rfl
        subst ht hr'
        simp only at hr
        obtain ⟨⟨s', h3⟩, e3, hr⟩ := bind_eq_ok.1 hr
        dsimp only at hr
        obtain ⟨rfl, rfl⟩ := alloc_inj hr
        obtain ⟨f3, ps, as1, ps'⟩ := copyParam2_spec e3
        have n3 := f3.framed.next_le
        have l3 := f3.lt
        refine ⟨framed_alloc_false f3.framed ?_, ⟨.ambient, n, none, none, some ps⟩, ?_, ?_⟩
        · intro y hy
          simp only [Obj.ptrs, Option.toList_some, Option.toList_none, List.mem_append,
            List.mem_singleton, List.not_mem_nil, false_or] at hy
          subst hy; omega
        · unfold Heap.readLayer
          rw [ho]
          simp only
          rw [as1]
          rfl
        · unfold Heap.readLayer
          have eo : (h3.alloc (.layer .ambient n none none (some s'))).2.obj
              (h3.alloc (.layer .ambient n none none (some s'))).1 =
              some (.layer .ambient n none none (some s')) := by simp [Heap.alloc]
          rw [eo]
          simp only [Heap.readAttr]
          rw [readParam_same (alloc_obj_lt h3 _ (x := s') (by omega)), ps']
          rfl

/-- Everything refers to allocated objects only. -/
def HeapOk (h : Heap K) : Prop := Closed h (· < h.next)

theorem HeapOk.frame {h h' : Heap K} (hk : HeapOk h) (f : Framed (fun _ => False) h h') : HeapOk h' := by
  have := f.weaken (own := (· < h.next)) hk (fun x hx => hx)
  intro x hx o ho y hy
  have hx' : grow (· < h.next) h h' x := by
    by_cases h1 : x < h.next
    · exact Or.inl h1
    · exact Or.inr ⟨by omega, hx⟩
  exact this.allocated y (this.closed x hx' o ho y hy)

theorem AttrsMatch.frame {h h' : Heap K} {a : Addr} (hm : AttrsMatch h a) (ha : a < h.next)
    (f : Framed (fun _ => False) h h') : AttrsMatch h' a := by
  intro k n t r s ho
  rw [f.same a ha id] at ho
  exact hm k n t r s ho

theorem readLayer_frame {h h' : Heap K} (hk : HeapOk h) (f : Framed (fun _ => False) h h') {a : Addr}
    (ha : a < h.next) : h'.readLayer a = h.readLayer a :=
  readLayer_same hk (fun x hx => f.same x hx id) ha

theorem copyLayers_spec {h h' : Heap K} {as cs : List Addr} (hk : HeapOk h)
    (hm : ∀ a ∈ as, a < h.next ∧ AttrsMatch h a) (hr : h.copyLayers as = .ok (cs, h')) :
    Framed (fun _ => False) h h' ∧ (∀ c ∈ cs, h.next ≤ c ∧ c < h'.next) ∧
      ∃ ls, as.mapM h.readLayer = some ls ∧ cs.mapM h'.readLayer = some ls := by
  induction as generalizing h cs with
  | nil =>
    cases hr
    exact ⟨Framed.refl (closed_false _) (allocated_false _), by simp, [], rfl, rfl⟩
  | cons a as ih =>
    unfold Heap.copyLayers at hr
    obtain ⟨⟨b, h1⟩, e1, hr⟩ := bind_eq_ok.1 hr
    dsimp only at hr
    obtain ⟨⟨bs, h2⟩, e2, hr⟩ := bind_eq_ok.1 hr
    dsimp only at hr
    cases hr
    obtain ⟨ha, hma⟩ := hm a (by simp)
    obtain ⟨f1, l, hl, hl'⟩ := copyLayer_spec hma hk ha e1
    have hk1 := hk.frame f1.framed
    obtain ⟨f2, hb, ls, hls, hls'⟩ := ih hk1 (fun x hx => by
      obtain ⟨hx1, hx2⟩ := hm x (by simp [hx])
      exact ⟨lt_of_lt_of_le hx1 f1.framed.next_le, hx2.frame hx1 f1.framed⟩) e2
    have hlt := f1.lt
    have n1 := f1.framed.next_le
    have n2 := f2.next_le
    refine ⟨framed_seq f1.framed f2, ?_, l :: ls, ?_, ?_⟩
    · intro c hc
      rcases List.mem_cons.1 hc with rfl | hc
      · omega
      · have := hb c hc; omega
    · have : as.mapM h.readLayer = some ls := by
        rw [← hls]
        refine optMapM_congr fun x hx => ?_
        exact (readLayer_frame hk f1.framed (hm x (by simp [hx])).1).symm
      simp [List.mapM_cons, hl, this]
    · have : h'.readLayer b = some l := by
        rw [← hl']; exact readLayer_frame hk1 f2 hlt.2
      simp [List.mapM_cons, this, hls']

/-- The layer objects of a sample are allocated and have no attributes foreign to their class. -/
def SampleOk (h : Heap K) (s : Addr) : Prop :=
  s < h.next ∧ ∀ amb sub ls, h.obj s = some (.sample amb sub ls) →
    ∀ a ∈ amb :: sub :: ls, AttrsMatch h a

theorem copySample_spec {h h' : Heap K} {s c : Addr} (hk : HeapOk h) (hs : SampleOk h s)
    (hr : h.copySample s = .ok (c, h')) :
    FreshRes h c h' ∧ ∃ v, h.readSample s = some v ∧ h'.readSample c = some v := by
  unfold Heap.copySample at hr
  cases ho : h.obj s with
  | none => rw [ho] at hr; cases hr
  | some o =>
    rw [ho] at hr
    cases o with
    | param p => cases hr
    | layer _ _ _ _ _ => cases hr
    | sample amb sub ls =>
      have hp := hk s hs.1 _ ho
      simp only [Obj.ptrs] at hp
      have hm := hs.2 _ _ _ ho
      simp only at hr
      obtain ⟨⟨amb', h1⟩, e1, hr⟩ := bind_eq_ok.1 hr
      dsimp only at hr
      obtain ⟨⟨sub', h2⟩, e2, hr⟩ := bind_eq_ok.1 hr
      dsimp only at hr
      obtain ⟨⟨ls', h3⟩, e3, hr⟩ := bind_eq_ok.1 hr
      dsimp only at hr
      obtain ⟨rfl, rfl⟩ := alloc_inj hr
      have wa := hp amb (by simp)
      have wb := hp sub (by simp)
      obtain ⟨f1, la, hla, hla'⟩ := copyLayer_spec (hm amb (by simp)) hk wa e1
      have hk1 := hk.frame f1.framed
      have n1 := f1.framed.next_le
      obtain ⟨f2, lb, hlb, hlb'⟩ := copyLayer_spec ((hm sub (by simp)).frame wb f1.framed) hk1
        (by omega) e2
      have hk2 := hk1.frame f2.framed
      have g2 := framed_seq f1.framed f2.framed
      have n2 := f2.framed.next_le
      obtain ⟨f3, hb, lv, hlv, hlv'⟩ := copyLayers_spec hk2 (fun x hx => by
        have hx1 := hp x (by simp [hx])
        exact ⟨by omega, (hm x (by simp [hx])).frame hx1 g2⟩) e3
      have hk3 := hk2.frame f3
      have g3 := framed_seq g2 f3
      have n3 := f3.next_le
      have l1 := f1.lt
      have l2 := f2.lt
      have hfin : FreshRes h (h3.alloc (.sample amb' sub' ls')).1 (h3.alloc (.sample amb' sub' ls')).2 := by
        refine framed_alloc_false g3 ?_
        intro y hy
        simp only [Obj.ptrs, List.mem_cons] at hy
        rcases hy with rfl | rfl | hy
        · omega
        · omega
        · have := hb y hy; omega
      refine ⟨hfin, ⟨la, lb, lv⟩, ?_, ?_⟩
      · unfold Heap.readSample
        rw [ho]
        simp only
        rw [hla]
        have e : h.readLayer sub = some lb := by
          rw [← hlb]; exact (readLayer_frame hk f1.framed wb).symm
        rw [e]
        have e : ls.mapM h.readLayer = some lv := by
          rw [← hlv]
          exact optMapM_congr fun x hx => (readLayer_frame hk g2 (hp x (by simp [hx]))).symm
        rw [e]
        rfl
      · unfold Heap.readSample
        have eo : (h3.alloc (.sample amb' sub' ls')).2.obj (h3.alloc (.sample amb' sub' ls')).1 =
            some (.sample amb' sub' ls') := by simp [Heap.alloc]
        rw [eo]
        simp only
        have fa : ∀ x, x < h3.next → (h3.alloc (.sample amb' sub' ls')).2.obj x = h3.obj x :=
          fun x hx => alloc_obj_lt h3 _ hx
        rw [readLayer_same hk3 fa (a := amb') (by omega), readLayer_same hk3 fa (a := sub') (by omega)]
        have e : ls'.mapM (h3.alloc (.sample amb' sub' ls')).2.readLayer = some lv := by
          rw [← hlv']
          exact optMapM_congr fun x hx => readLayer_same hk3 fa (hb x hx).2
        rw [e]
        have e : h3.readLayer amb' = some la := by
          rw [← hla', readLayer_frame hk2 f3 (by omega), readLayer_frame hk1 f2.framed l1.2]
        rw [e]
        have e : h3.readLayer sub' = some lb := by
          rw [← hlb', readLayer_frame hk2 f3 l2.2]
        rw [e]
        rfl

/-! ### Mutation histories -/

theorem framed_setLayerName {own : Addr → Prop} {h : Heap K} (hc : Closed h own) (ha : Allocated h own)
    {l : Addr} (hl : own l) (name : Str) : Framed own h (h.setLayerName l name) := by
  unfold Heap.setLayerName
  cases ho : h.obj l with
  | none => exact Framed.refl hc ha
  | some o =>
    cases o with
    | layer k n t r s => exact framed_write hc ha hl fun y hy => hc l hl _ ho y hy
    | param p => exact Framed.refl hc ha
    | sample _ _ _ => exact Framed.refl hc ha

theorem mem_of_move {ls : List Addr} {i j : Int} {x : Addr} (hx : x ∈ (moveLayer ls i j).2) : x ∈ ls := by
  unfold moveLayer at hx
  split_ifs at hx with h1 h2
  · cases hg : getItem ls i with
    | error e => simpa [hg] using hx
    | ok y =>
      have hy := getItem_mem hg
      have sub : ∀ z ∈ insertAt ls (j + 1) y, z ∈ ls := by
        intro z hz
        have := (insert_perm ls (j + 1) y).mem_iff.1 hz
        rcases List.mem_cons.1 this with rfl | h
        · exact hy
        · exact h
      simp only [hg] at hx
      cases hg2 : getItem (insertAt ls (j + 1) y) i with
      | error e => simp only [hg2] at hx; exact sub x hx
      | ok w =>
        simp only [hg2, remove] at hx
        split_ifs at hx
        · exact sub x (List.mem_of_mem_erase hx)
        · exact sub x hx
  · cases hg : getItem ls i with
    | error e => simpa [hg] using hx
    | ok y =>
      have hy := getItem_mem hg
      simp only [hg, remove, if_pos hy] at hx
      have := (insert_perm (ls.erase y) j y).mem_iff.1 hx
      rcases List.mem_cons.1 this with rfl | h
      · exact hy
      · exact List.mem_of_mem_erase h
  · exact hx

/-- One operation by a client that only uses references from `own` changes nothing outside `own`. -/
theorem framed_step {own : Addr → Prop} {h : Heap K} (hc : Closed h own) (ha : Allocated h own)
    (hk : HeapOk h) (op : Mut K) (hop : ∀ x ∈ op.args, own x)
    (hcopy : ∀ s, op = .copySample s → SampleOk h s) : Framed own h (h.step op) := by
  have rf := Framed.refl hc ha
  cases op with
  | renameLayer s i name =>
    have hs : own s := hop s (by simp [Mut.args])
    simp only [Heap.step, Heap.renameLayer]
    cases ho : h.obj s with
    | none => exact rf
    | some o =>
      cases o with
      | sample a b ls =>
        simp only
        cases hg : getItem ls i with
        | error e => exact rf
        | ok l =>
          refine framed_setLayerName hc ha ?_ name
          exact hc s hs _ ho l (by simp [Obj.ptrs, getItem_mem hg])
      | _ => exact rf
  | setLayerName l name => exact framed_setLayerName hc ha (hop l (by simp [Mut.args])) name
  | setMin p v =>
    have hp : own p := hop p (by simp [Mut.args])
    simp only [Heap.step]
    split
    · exact framed_write hc ha hp (by simp [Obj.ptrs])
    · exact rf
  | setMax p v =>
    have hp : own p := hop p (by simp [Mut.args])
    simp only [Heap.step]
    split
    · exact framed_write hc ha hp (by simp [Obj.ptrs])
    · exact rf
  | setParamName p name =>
    have hp : own p := hop p (by simp [Mut.args])
    simp only [Heap.step]
    split
    · exact framed_write hc ha hp (by simp [Obj.ptrs])
    · exact rf
  | setAttr l f p =>
    have hl : own l := hop l (by simp [Mut.args])
    have hp : own p := hop p (by simp [Mut.args])
    simp only [Heap.step]
    cases ho : h.obj l with
    | none => cases f <;> exact rf
    | some o =>
      cases o with
      | param _ => cases f <;> exact rf
      | sample _ _ _ => cases f <;> exact rf
      | layer k n t r s =>
        have hq := hc l hl _ ho
        simp only [Obj.ptrs, List.mem_append] at hq
        cases f
        all_goals
          refine framed_write hc ha hl fun y hy => ?_
          simp only [Obj.ptrs, Option.toList_some, List.mem_append, List.mem_singleton] at hy
        · rcases hy with (rfl | hy) | hy
          · exact hp
          · exact hq y (Or.inl (Or.inr hy))
          · exact hq y (Or.inr hy)
        · rcases hy with (hy | rfl) | hy
          · exact hq y (Or.inl (Or.inl hy))
          · exact hp
          · exact hq y (Or.inr hy)
        · rcases hy with (hy | hy) | rfl
          · exact hq y (Or.inl (Or.inl hy))
          · exact hq y (Or.inl (Or.inr hy))
          · exact hp
  | swap s i j =>
    have hs : own s := hop s (by simp [Mut.args])
    simp only [Heap.step]
    cases ho : h.obj s with
    | none => exact rf
    | some o =>
      cases o with
      | sample a b ls =>
        have hq := hc s hs _ ho
        simp only [Obj.ptrs, List.mem_cons] at hq
        refine framed_write hc ha hs fun y hy => ?_
        simp only [Obj.ptrs, List.mem_cons] at hy
        rw [(swap_perm ls i j).mem_iff] at hy
        exact hq y hy
      | _ => exact rf
  | move s i j =>
    have hs : own s := hop s (by simp [Mut.args])
    simp only [Heap.step]
    cases ho : h.obj s with
    | none => exact rf
    | some o =>
      cases o with
      | sample a b ls =>
        have hq := hc s hs _ ho
        simp only [Obj.ptrs, List.mem_cons] at hq
        refine framed_write hc ha hs fun y hy => ?_
        simp only [Obj.ptrs, List.mem_cons] at hy
        rcases hy with hy | hy | hy
        · exact hq y (Or.inl hy)
        · exact hq y (Or.inr (Or.inl hy))
        · exact hq y (Or.inr (Or.inr (mem_of_move hy)))
      | _ => exact rf
  | addLayer s l i =>
    have hs : own s := hop s (by simp [Mut.args])
    have hl : own l := hop l (by simp [Mut.args])
    simp only [Heap.step]
    cases ho : h.obj s with
    | none => exact rf
    | some o =>
      cases o with
      | sample a b ls =>
        have hq := hc s hs _ ho
        simp only [Obj.ptrs, List.mem_cons] at hq
        simp only
        cases hadd : addLayer ls l i with
        | error e => exact rf
        | ok ls' =>
          refine framed_write hc ha hs fun y hy => ?_
          simp only [Obj.ptrs, List.mem_cons] at hy
          rcases hy with hy | hy | hy
          · exact hq y (Or.inl hy)
          · exact hq y (Or.inr (Or.inl hy))
          · have : y = l ∨ y ∈ ls := by
              cases i with
              | next => cases hadd; simpa [or_comm] using hy
              | int i => cases hadd; simpa using (insert_perm ls i l).mem_iff.1 hy
              | other => cases hadd
            rcases this with rfl | hy
            · exact hl
            · exact hq y (Or.inr (Or.inr hy))
      | _ => exact rf
  | setSubstrate s l =>
    have hs : own s := hop s (by simp [Mut.args])
    have hl : own l := hop l (by simp [Mut.args])
    simp only [Heap.step]
    cases ho : h.obj s with
    | none => exact rf
    | some o =>
      cases o with
      | sample a b ls =>
        have hq := hc s hs _ ho
        simp only [Obj.ptrs, List.mem_cons] at hq
        refine framed_write hc ha hs fun y hy => ?_
        simp only [Obj.ptrs, List.mem_cons] at hy
        rcases hy with hy | rfl | hy
        · exact hq y (Or.inl hy)
        · exact hl
        · exact hq y (Or.inr (Or.inr hy))
      | _ => exact rf
  | setAmbient s l =>
    have hs : own s := hop s (by simp [Mut.args])
    have hl : own l := hop l (by simp [Mut.args])
    simp only [Heap.step]
    cases ho : h.obj s with
    | none => exact rf
    | some o =>
      cases o with
      | sample a b ls =>
        have hq := hc s hs _ ho
        simp only [Obj.ptrs, List.mem_cons] at hq
        refine framed_write hc ha hs fun y hy => ?_
        simp only [Obj.ptrs, List.mem_cons] at hy
        rcases hy with rfl | hy | hy
        · exact hl
        · exact hq y (Or.inr (Or.inl hy))
        · exact hq y (Or.inr (Or.inr hy))
      | _ => exact rf
  | assignLayers s ls' =>
    have hs : own s := hop s (by simp [Mut.args])
    simp only [Heap.step]
    cases ho : h.obj s with
    | none => exact rf
    | some o =>
      cases o with
      | sample a b ls =>
        have hq := hc s hs _ ho
        simp only [Obj.ptrs, List.mem_cons] at hq
        refine framed_write hc ha hs fun y hy => ?_
        simp only [Obj.ptrs, List.mem_cons] at hy
        rcases hy with hy | hy | hy
        · exact hq y (Or.inl hy)
        · exact hq y (Or.inr (Or.inl hy))
        · exact hop y (by simp [Mut.args, hy])
      | _ => exact rf
  | newParam p => exact framed_alloc hc ha (by simp [Obj.ptrs])
  | newLayer k n t r s => exact framed_alloc hc ha fun y hy => hop y hy
  | newSample a b =>
    refine framed_alloc hc ha fun y hy => ?_
    exact hop y (by simpa [Mut.args, Obj.ptrs] using hy)
  | copySample s =>
    simp only [Heap.step]
    cases hr : h.copySample s with
    | error e => exact rf
    | ok r =>
      obtain ⟨c, h'⟩ := r
      exact (copySample_spec hk (hcopy s rfl) hr).1.framed.weaken hc ha

/-- A client history: every operation only uses references the client owns, i.e. references from its
closed set or obtained by its own allocations. -/
inductive Run : (Addr → Prop) → Heap K → List (Mut K) → (Addr → Prop) → Heap K → Prop
  | nil (own h) : Run own h [] own h
  | cons {own own' h h'} {op : Mut K} {ops} (hop : ∀ x ∈ op.args, own x)
      (hcopy : ∀ s, op = .copySample s → SampleOk h s)
      (rest : Run (grow own h (h.step op)) (h.step op) ops own' h') : Run own h (op :: ops) own' h'

/-- Whatever a client does with its own references, objects it has no access to keep their state. -/
theorem Run.same {own own' : Addr → Prop} {h h' : Heap K} {ops : List (Mut K)}
    (hrun : Run own h ops own' h') (hc : Closed h own) (ha : Allocated h own) (hk : HeapOk h)
    (other : Addr → Prop) (hdisj : ∀ x, other x → x < h.next ∧ ¬ own x) :
    ∀ x, other x → h'.obj x = h.obj x := by
  induction hrun with
  | nil => intro x _; rfl
  | @cons own own' h h' op ops hop hcopy _ ih =>
    have f := framed_step hc ha hk op hop hcopy
    intro x hx
    have hkk : HeapOk (h.step op) := by
      have f' := framed_step (own := (· < h.next)) hk (fun _ h => h) hk op
        (fun x hx => ha x (hop x hx)) hcopy
      intro x hx o ho y hy
      have hx' : grow (· < h.next) h (h.step op) x := by
        by_cases h1 : x < h.next
        · exact Or.inl h1
        · exact Or.inr ⟨by omega, hx⟩
      exact f'.allocated y (f'.closed x hx' o ho y hy)
    rw [ih f.closed f.allocated hkk (fun y hy => ?_) x hx, f.same x (hdisj x hx).1 (hdisj x hx).2]
    refine ⟨lt_of_lt_of_le (hdisj y hy).1 f.next_le, ?_⟩
    rintro (h1 | h1)
    · exact (hdisj y hy).2 h1
    · have := (hdisj y hy).1; omega

/-- C10: after `c = s.copy()` the copy reports what the original reports. Afterwards no history of
mutations through the original or any other object that existed before the copy (`old`) changes what
the copy reports, and no history of mutations through the copy changes what the original reports. -/
theorem C10_copy_independent (h h' : Heap K) (s c : Addr) (hk : HeapOk h) (hs : SampleOk h s)
    (hr : h.copySample s = .ok (c, h')) :
    (∃ v, h.readSample s = some v ∧ h'.readSample c = some v ∧ h'.readSample s = some v) ∧
    (∀ ops own' h'', Run (· < h.next) h' ops own' h'' → h''.readSample c = h'.readSample c) ∧
    (∀ ops own' h'', Run (fun x => h.next ≤ x ∧ x < h'.next) h' ops own' h'' →
      h''.readSample s = h'.readSample s) := by
  obtain ⟨⟨hlt, f⟩, v, hv, hv'⟩ := copySample_spec hk hs hr
  have hk' := hk.frame f
  have hnew : Closed h' (fun x => h.next ≤ x ∧ x < h'.next) := by
    intro x hx o ho y hy
    rcases f.closed x (Or.inr hx) o ho y hy with h1 | h1
    · exact h1.elim
    · exact h1
  have hold : Closed h' (· < h.next) := by
    intro x hx o ho y hy
    rw [f.same x hx id] at ho
    exact hk x hx o ho y hy
  have hs' : h'.readSample s = h.readSample s :=
    readSample_same hk (fun x hx => f.same x hx id) hs.1
  refine ⟨⟨v, hv, hv', by rw [hs', hv]⟩, ?_, ?_⟩
  · intro ops own' h'' hrun
    refine readSample_same hnew ?_ hlt
    refine hrun.same hold (fun x hx => lt_of_lt_of_le hx f.next_le) hk' _ ?_
    intro x hx
    exact ⟨hx.2, by simp only [not_lt]; exact hx.1⟩
  · intro ops own' h'' hrun
    refine readSample_same hold ?_ hs.1
    refine hrun.same hnew (fun x hx => hx.2) hk' _ ?_
    intro x hx
    exact ⟨lt_of_lt_of_le hx f.next_le, fun h => by have := h.1; omega⟩

/-! ### Instance: a sample whose layer list contains the same object twice -/

/-- A heap with one constant film layer used twice. -/
def exampleHeap : Heap Int :=
  ⟨8, fun x => match x with
    | 0 => some (.param (.const (.real 0) (some "sld".toList)))
    | 1 => some (.layer .ambient "air".toList none none (some 0))
    | 2 => some (.param (.const (.real 1) (some "roughness".toList)))
    | 3 => some (.param (.const (.real 20) (some "sld".toList)))
    | 4 => some (.layer .substrate "Si".toList none (some 2) (some 3))
    | 5 => some (.param (.range (.real 10) (.real 20) (some "thickness".toList)))
    | 6 => some (.layer .layer "film".toList (some 5) (some 2) (some 3))
    | 7 => some (.sample 1 4 [6, 6])
    | _ => none⟩

theorem exampleHeap_ok : HeapOk exampleHeap := by
  intro x hx o ho y hy
  have h0 : x < 8 := hx
  show y < 8
  rcases x with _|_|_|_|_|_|_|_|x <;> simp [exampleHeap] at ho <;> subst ho <;> simp [Obj.ptrs] at hy <;> omega

theorem exampleHeap_sampleOk : SampleOk exampleHeap 7 := by
  refine ⟨by decide, ?_⟩
  intro amb sub ls ho a ha
  simp only [exampleHeap, Option.some.injEq, Obj.sample.injEq] at ho
  obtain ⟨rfl, rfl, rfl⟩ := ho
  simp only [List.mem_cons, List.not_mem_nil, or_false] at ha
  intro k n t r s ho
  rcases ha with rfl | rfl | rfl | rfl <;> simp only [exampleHeap, Option.some.injEq, Obj.layer.injEq] at ho <;>
    obtain ⟨rfl, rfl, rfl, rfl, rfl⟩ := ho <;> simp

/-- The copy of the example sample and the heap afterwards. -/
def exampleCopied : Addr × Heap Int :=
  match exampleHeap.copySample 7 with
  | .ok r => r
  | .error _ => (0, exampleHeap)

example : exampleHeap.copySample 7 = .ok (exampleCopied.1, exampleCopied.2) := rfl

/-- After copying the example, a client of the original renames a layer and changes a limit. -/
example : ∃ own', Run (· < exampleHeap.next) exampleCopied.2
    [.renameLayer 7 1 "x".toList, .setMin 5 (.real 0)] own'
    ((exampleCopied.2.step (.renameLayer 7 1 "x".toList)).step (.setMin 5 (.real 0))) := by
  refine ⟨_, Run.cons ?_ (by simp) (Run.cons ?_ (by simp) (Run.nil _ _))⟩
  · simp [Mut.args, exampleHeap]
  · intro x hx
    left
    simp [Mut.args] at hx
    subst hx
    decide

example : ((exampleCopied.2.step (.renameLayer 7 1 "x".toList)).readSample 7).map
    (fun v => v.layers.map (·.name)) = some ["x".toList, "x".toList] := rfl

theorem copyAttr_eq {p : Param K} (h : ParamValid p) : copyAttr (some p) = .ok (.param p) := by
  unfold copyAttr
  simp only
  rw [copy_of_valid h]
  rfl

theorem setParameter_param {p : Param K} (h : ParamValid p) (n : Str) :
    setParameter (.param p) n = .ok (some p) ∧ setParameterConstant (.param p) n = .ok (some p) := by
  unfold setParameter setParameterConstant
  simp only
  rw [copy_of_valid h]
  exact ⟨rfl, rfl⟩

theorem checkNonneg_eq {p : Param K} (h : p.min.ltZero = .ok false) : checkNonneg (some p) = .ok p := by
  unfold checkNonneg
  simp only
  rw [h]
  rfl

/-- C10: the copy of a sample built by the documented constructors succeeds and has the same classes, names,
parameters and order of layers. -/
theorem C10_copy_equal (s : SampleV K) (h : SampleRegular s) : s.copy = .ok s := by
  have hfilm : ∀ l ∈ s.layers, l.copy = .ok l := by
    intro l hl
    obtain ⟨hk, ⟨t, h1, ⟨-, v1⟩, z1⟩, ⟨r, h2, ⟨-, v2⟩, z2⟩, ⟨d, h3, -, v3⟩⟩ := h.layers l hl
    obtain ⟨kd, nm, tt, rr, ss⟩ := l
    simp only at hk h1 h2 h3
    subst h1 h2 h3
    rcases hk with rfl | rfl
    · unfold LayerV.copy mkLayer
      simp only [copyAttr_eq v1, copyAttr_eq v2, copyAttr_eq v3, bind_ok, (setParameter_param v1 _).1,
        (setParameter_param v2 _).1, (setParameter_param v3 _).1, checkNonneg_eq z1, checkNonneg_eq z2]
      rfl
    · unfold LayerV.copy mkConstantLayer
      simp only [copyAttr_eq v1, copyAttr_eq v2, copyAttr_eq v3, bind_ok, (setParameter_param v1 _).2,
        (setParameter_param v2 _).2, (setParameter_param v3 _).2, checkNonneg_eq z1, checkNonneg_eq z2]
      rfl
  have hsub : s.substrate.copy = .ok s.substrate := by
    obtain ⟨hk, h1, ⟨r, h2, ⟨-, v2⟩, z2⟩, ⟨d, h3, -, v3⟩⟩ := h.substrate
    generalize s.substrate = l at *
    obtain ⟨kd, nm, tt, rr, ss⟩ := l
    simp only at hk h1 h2 h3
    subst hk h1 h2 h3
    unfold LayerV.copy mkSubstrate
    simp only [copyAttr_eq v2, copyAttr_eq v3, bind_ok, (setParameter_param v2 _).2, (setParameter_param v3 _).2,
      checkNonneg_eq z2]
    rfl
  have hamb : s.ambient.copy = .ok s.ambient := by
    obtain ⟨hk, h1, h2, ⟨d, h3, -, v3⟩⟩ := h.ambient
    generalize s.ambient = l at *
    obtain ⟨kd, nm, tt, rr, ss⟩ := l
    simp only at hk h1 h2 h3
    subst hk h1 h2 h3
    unfold LayerV.copy mkAmbient
    simp only [copyAttr_eq v3, bind_ok, (setParameter_param v3 _).2]
    rfl
  unfold SampleV.copy
  rw [hsub, hamb, mapM_eq_ok_map (f := LayerV.copy) (g := id) hfilm]
  simp only [bind_ok, List.map_id]
  rfl

/-! ## C03: renaming -/

/-- C03: `rename_layer` with an in-range index renames the addressed layer object and changes no other
object; with an out-of-range index it raises `IndexError` and changes nothing. -/
theorem C03_rename (h : Heap K) (s amb sub : Addr) (ls : List Addr)
    (hs : h.obj s = some (.sample amb sub ls)) (i : Int) (name : Str) :
    (¬ (-(ls.length : Int) ≤ i ∧ i < ls.length) →
      h.renameLayer s i name = (.error .indexError, h)) ∧
    (∀ k, normIdx ls.length i = some k → ∀ l, ls[k]? = some l → ∀ kd n t r sl,
      h.obj l = some (.layer kd n t r sl) →
      (h.renameLayer s i name).1 = .ok () ∧
      (h.renameLayer s i name).2.obj l = some (.layer kd name t r sl) ∧
      ∀ x, x ≠ l → (h.renameLayer s i name).2.obj x = h.obj x) := by
  constructor
  · intro hi
    have : getItem ls i = .error .indexError := by rw [getItem_error_iff]; exact hi
    simp [Heap.renameLayer, hs, this]
  · intro k hk l hl kd n t r sl ho
    have : getItem ls i = .ok l := by rw [getItem_eq_ok_iff]; exact ⟨k, hk, hl⟩
    simp only [Heap.renameLayer, hs, this, Heap.setLayerName, ho, Heap.write, if_true, true_and]
    intro x hx
    simp [hx]

end Verif.Props
