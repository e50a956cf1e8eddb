import Verif.Props.Images

/-!
# C86: removing doubled points before and after loading images
-/

namespace Verif.Props
open Verif.Py Verif.Model

/-- What `remove_double` does to a scan without images whose points have not been removed yet. -/
theorem removeDouble_fresh {s : P08Scan} (hd : s.doublesRemoved = false) :
    s.removeDouble = do
      let pos ← getItem s.motors 0
      let data ← s.data.mapM fun (p : Str × List (Option ℝ)) => do return (p.1, ← npDelete p.2 (removed pos))
      let motors ← s.motors.mapM fun (m : List (Option ℝ)) => npDelete m (removed pos)
      let imgs ← s.imageData.mapM fun (p : Str × Stack) => do return (p.1, ← p.2.delete (removed pos))
      return { s with data := data, motors := motors, imageData := imgs, removeIdxes := some (removed pos), doublesRemoved := true } := by
  unfold P08Scan.removeDouble
  rw [hd]
  rfl

/-- The names of the columns do not change. -/
theorem mapM_delete_keys {idxes : List Nat} {d d' : List (Str × List (Option ℝ))}
    (h : d.mapM (fun (p : Str × List (Option ℝ)) => (do return (p.1, ← npDelete p.2 idxes) : Res _)) = .ok d') :
    d'.map Prod.fst = d.map Prod.fst := by
  induction d generalizing d' with
  | nil => cases h; rfl
  | cons p d ih =>
    rw [mapM_cons, bind_eq_ok] at h
    obtain ⟨q, hq, h⟩ := h
    rw [bind_eq_ok] at h hq
    obtain ⟨ds, hds, h⟩ := h
    obtain ⟨c, -, hq⟩ := hq
    cases h
    cases hq
    rw [List.map_cons, List.map_cons, ih hds]

theorem optColumn_none {data : List (Str × List (Option ℝ))} {name : Str} :
    optColumn data name = none ↔ name ∉ data.map Prod.fst := by
  unfold optColumn
  constructor
  · intro h hm
    obtain ⟨v, hv⟩ := dictGet_of_mem hm
    rw [hv] at h
    cases h
  · intro h
    rw [dictGet_not_mem h]

theorem addNexus_none (s : P08Scan) (det : Str) : s.addNexus det none = .error .osError := rfl

theorem addNexus_noIndex {s : P08Scan} {det : Str} (h : det ++ indexSuffix ∉ s.data.map Prod.fst) (st : List Img) :
    s.addNexus det (some st) = (do
      let l ← s.thin st
      return { s with imageData := dictSet s.imageData det (.images l) }) := by
  unfold P08Scan.addNexus
  rw [C85_nexus_no_index st s.data det (optColumn_none.2 h), bind_ok]

/-- The lambda and eiger files of a scan. -/
def nexusFiles (disk : ImageDisk) (f : DetFlags) : List (Str × Option (List Img)) :=
  (if f.lambda then [(lambdaKey, disk.lambdaFile)] else []) ++ (if f.eiger then [(eigerKey, disk.eigerFile)] else [])

/-- One of the files. -/
def nexusStack (t : P08Scan) : Option (List Img) → Res Stack
  | none => .error .osError
  | some st => do return .images (← t.thin st)

/-- One of the files, with the name of the detector. -/
def namedStack (t : P08Scan) (p : Str × Option (List Img)) : Res (Str × Stack) := do
  let st ← nexusStack t p.2
  return (p.1, st)

theorem addNexus_eq {t : P08Scan} {det : Str} (h : det ++ indexSuffix ∉ t.data.map Prod.fst) (file : Option (List Img)) :
    t.addNexus det file = do
      let p ← nexusStack t file
      return { t with imageData := dictSet t.imageData det p } := by
  cases file with
  | none => rfl
  | some st =>
    rw [addNexus_noIndex h]
    unfold nexusStack
    simp only
    cases t.thin st <;> rfl

theorem loadImages_nexus {t : P08Scan} {disk : ImageDisk} {dir name : Str} {f : DetFlags} (he : t.imageData = [])
    (hp : f.p100k = false) (hm : f.mythen = false) (h1 : lambdaKey ++ indexSuffix ∉ t.data.map Prod.fst)
    (h2 : eigerKey ++ indexSuffix ∉ t.data.map Prod.fst) :
    t.loadImages disk dir name f = do
      let l ← (nexusFiles disk f).mapM (namedStack t)
      return { t with imageData := l } := by
  obtain ⟨cmd, mn, mo, po, data, im, ri, dr⟩ := t
  simp only at he h1 h2
  subst he
  obtain ⟨fl, fp, _, fe, fm, _⟩ := f
  simp only at hp hm
  subst hp hm
  unfold P08Scan.loadImages whenFlag nexusFiles namedStack
  cases fl <;> cases fe <;> simp only [if_true, Bool.false_eq_true, if_false, bind_ok, List.append_nil, List.nil_append, List.cons_append, mapM_ok_nil, mapM_cons]
  · rfl
  · rw [addNexus_eq h2]
    cases nexusStack _ _ <;> rfl
  · rw [addNexus_eq h1]
    cases nexusStack _ _ <;> rfl
  · rw [addNexus_eq h1]
    cases nexusStack _ _ with
    | error e => rfl
    | ok p =>
      simp only [bind_ok, pure_bind]
      rw [addNexus_eq h2]
      change (nexusStack ⟨cmd, mn, mo, po, data, [], ri, dr⟩ disk.eigerFile >>= _) >>= _ = _
      cases nexusStack ⟨cmd, mn, mo, po, data, [], ri, dr⟩ disk.eigerFile with
      | error e => rfl
      | ok q => rfl

theorem mapM_bind_mapM {α β γ : Type} (f : α → Res β) (g : β → Res γ) (l : List α) (r : List γ) :
    (l.mapM f >>= fun x => x.mapM g) = .ok r ↔ l.mapM (fun a => f a >>= g) = .ok r := by
  induction l generalizing r with
  | nil => exact Iff.rfl
  | cons a l ih =>
    rw [mapM_cons, mapM_cons]
    cases hf : f a with
    | error e => simp only [bind_error]
    | ok b =>
      simp only [bind_ok]
      cases hg : g b with
      | error e =>
        simp only [bind_error]
        cases l.mapM f with
        | error e => simp only [bind_error, reduceCtorEq]
        | ok bs =>
          simp only [bind_ok, pure_bind, mapM_cons, hg, bind_error]
      | ok c =>
        simp only [bind_ok]
        constructor
        · intro h
          cases hl : l.mapM f with
          | error e => rw [hl] at h; cases h
          | ok bs =>
            rw [hl] at h
            simp only [bind_ok, pure_bind, mapM_cons, hg] at h
            rw [bind_eq_ok] at h
            obtain ⟨cs, hcs, h⟩ := h
            rw [(ih cs).1 (by rw [hl, bind_ok, hcs]), bind_ok, h]
        · intro h
          rw [bind_eq_ok] at h
          obtain ⟨cs, hcs, h⟩ := h
          have := (ih cs).2 hcs
          cases hl : l.mapM f with
          | error e => rw [hl] at this; cases this
          | ok bs =>
            rw [hl, bind_ok] at this
            simp only [bind_ok, pure_bind, mapM_cons, hg]
            rw [this, bind_ok, h]

/-- C86: for lambda and eiger detectors without an index column it makes no difference whether the doubled
points are removed before or after the images are loaded. -/
theorem C86_order_partial (s : P08Scan) (disk : ImageDisk) (dir name : Str) (f : DetFlags)
    (hd : s.doublesRemoved = false) (hi : s.removeIdxes = none) (he : s.imageData = [])
    (hp : f.p100k = false) (hm : f.mythen = false) (h1 : lambdaKey ++ indexSuffix ∉ s.data.map Prod.fst)
    (h2 : eigerKey ++ indexSuffix ∉ s.data.map Prod.fst) (r : P08Scan) :
    (s.loadImages disk dir name f >>= P08Scan.removeDouble) = .ok r ↔
      (s.removeDouble >>= fun s => s.loadImages disk dir name f) = .ok r := by
  rw [loadImages_nexus he hp hm h1 h2, removeDouble_fresh hd, he]
  cases hpos : getItem s.motors 0 with
  | error e =>
    simp only [bind_error]
    constructor
    · intro h
      rw [bind_eq_ok] at h
      obtain ⟨t, ht, h⟩ := h
      rw [bind_eq_ok] at ht
      obtain ⟨l, hl, ht⟩ := ht
      cases ht
      rw [removeDouble_fresh (s := { s with imageData := l }) hd] at h
      simp only [hpos, bind_error] at h
      cases h
    · intro h; cases h
  | ok pos =>
    simp only [bind_ok]
    cases hdata : s.data.mapM (fun (p : Str × List (Option ℝ)) => (do return (p.1, ← npDelete p.2 (removed pos)) : Res _)) with
    | error e =>
      simp only [bind_error]
      constructor
      · intro h
        rw [bind_eq_ok] at h
        obtain ⟨t, ht, h⟩ := h
        rw [bind_eq_ok] at ht
        obtain ⟨l, hl, ht⟩ := ht
        cases ht
        rw [removeDouble_fresh (s := { s with imageData := l }) hd] at h
        simp only [hpos, bind_ok] at h
        rw [hdata, bind_error] at h
        cases h
      · intro h; cases h
    | ok data =>
      simp only [bind_ok]
      cases hmot : s.motors.mapM (fun (m : List (Option ℝ)) => npDelete m (removed pos)) with
      | error e =>
        simp only [bind_error]
        constructor
        · intro h
          rw [bind_eq_ok] at h
          obtain ⟨t, ht, h⟩ := h
          rw [bind_eq_ok] at ht
          obtain ⟨l, hl, ht⟩ := ht
          cases ht
          rw [removeDouble_fresh (s := { s with imageData := l }) hd] at h
          simp only [hpos, bind_ok] at h
          rw [hdata, bind_ok, hmot, bind_error] at h
          cases h
        · intro h; cases h
      | ok motors =>
        simp only [bind_ok, mapM_ok_nil, pure_bind]
        have hk := mapM_delete_keys hdata
        rw [loadImages_nexus rfl hp hm (by rw [hk]; exact h1) (by rw [hk]; exact h2)]
        have hcomp : ∀ p, (namedStack s p >>= fun (p : Str × Stack) => (do return (p.1, ← p.2.delete (removed pos)) : Res _)) =
            namedStack { s with data := data, motors := motors, imageData := [], removeIdxes := some (removed pos), doublesRemoved := true } p := by
          rintro ⟨d, st⟩
          unfold namedStack
          cases st with
          | none => rfl
          | some st =>
            unfold nexusStack P08Scan.thin
            simp only [hi, bind_ok, pure_bind, Stack.delete]
        have hA : ∀ l : List (Str × Stack), P08Scan.removeDouble { s with imageData := l } = (do
            let imgs ← l.mapM fun (p : Str × Stack) => (do return (p.1, ← p.2.delete (removed pos)) : Res _)
            return { s with data := data, motors := motors, imageData := imgs, removeIdxes := some (removed pos), doublesRemoved := true }) := by
          intro l
          rw [removeDouble_fresh (s := { s with imageData := l }) hd]
          simp only [hpos, bind_ok]
          rw [hdata, bind_ok, hmot, bind_ok]
        simp only [bind_assoc, pure_bind]
        simp only [hA]
        rw [← bind_assoc]
        constructor
        · intro h
          rw [bind_eq_ok] at h
          obtain ⟨imgs, himgs, h⟩ := h
          have := (mapM_bind_mapM _ _ _ _).1 himgs
          simp only [hcomp] at this
          rw [this, bind_ok]
          exact h
        · intro h
          rw [bind_eq_ok] at h
          obtain ⟨imgs, himgs, h⟩ := h
          have := (mapM_bind_mapM (namedStack s) (fun (p : Str × Stack) => (do return (p.1, ← p.2.delete (removed pos)) : Res _))
            (nexusFiles disk f) imgs).2 (by simp only [hcomp]; exact himgs)
          rw [this, bind_ok]
          exact h

theorem npDelete_shorter {α : Type} {l out : List α} {idxes : List Nat} (hne : idxes ≠ []) (h : npDelete l idxes = .ok out) :
    out.length < l.length := by
  obtain ⟨hlt, ks, h1, h2, h3⟩ := npDelete_spec h
  rw [← h3.length_eq]
  obtain ⟨i, is, rfl⟩ := List.exists_cons_of_ne_nil hne
  have hnd : (i :: ks).Nodup := List.nodup_cons.2 ⟨fun hi => ((h2 i).1 hi).2 List.mem_cons_self, h1.imp fun h => Nat.ne_of_lt h⟩
  have hsub : (i :: ks) ⊆ List.range l.length := by
    intro k hk
    rw [List.mem_range]
    rcases List.mem_cons.1 hk with rfl | hk
    · exact hlt _ List.mem_cons_self
    · exact ((h2 k).1 hk).1
  have := (hnd.subperm hsub).length_le
  rw [List.length_cons, List.length_range] at this
  omega

/-- C86 is false for pilatus detectors with an index column: after doubled points have been removed, the
points are removed a second time from the images, so that there are fewer images than points. -/
theorem C86_pilatus_twice (s r : P08Scan) (disk : List (Str × Img)) (dir name : Str) (index : List (Option ℝ)) (idxes : List Nat)
    (hi : s.removeIdxes = some idxes) (hne : idxes ≠ []) (hidx : pilatusIndex s.data = some index)
    (h : s.addPilatus disk dir name = .ok r) :
    ∃ l, dictGet r.imageData p100kKey = .ok (.images l) ∧ r.data = s.data ∧ l.length < index.length := by
  unfold P08Scan.addPilatus at h
  rw [bind_eq_ok] at h
  obtain ⟨l, hl, h⟩ := h
  rw [bind_eq_ok] at h
  obtain ⟨l', hl', h⟩ := h
  cases h
  obtain ⟨imgs, first, -, -, hlen⟩ := C85_pilatus_exact disk dir name s.data index hidx l hl
  unfold P08Scan.thin at hl'
  rw [hi] at hl'
  simp only at hl'
  have hlt := npDelete_shorter hne hl'
  refine ⟨l', ?_, rfl, by omega⟩
  have : ∀ (d : List (Str × Stack)) (k : Str) (v : Stack), dictGet (dictSet d k v) k = .ok v := by
    intro d k v
    induction d with
    | nil => rw [dictSet, dictGet, if_pos rfl]
    | cons p d ih =>
      obtain ⟨k', v'⟩ := p
      unfold dictSet
      split
      · rw [dictGet, if_pos rfl]
      · rename_i hk
        rw [dictGet, if_neg hk, ih]
  exact this _ _ _

/-- The hypotheses of `C86_pilatus_twice` are met: three points with images are left after one has been removed. -/
example : ∃ (s r : P08Scan) (index : List (Option ℝ)) (idxes : List Nat), s.removeIdxes = some idxes ∧ idxes ≠ [] ∧
    pilatusIndex s.data = some index ∧ index.length = 3 ∧ s.addPilatus (exampleDisk true) ['d'] ['s'] = .ok r := by
  let index : List (Option ℝ) := [some ((1 : Nat) : ℝ), some ((2 : Nat) : ℝ), some ((3 : Nat) : ℝ)]
  let data : List (Str × List (Option ℝ)) := [(p100kKey ++ indexSuffix, index)]
  have hidx : pilatusIndex data = some index := rfl
  obtain ⟨out, h1, h2⟩ := C85_pilatus_partial (exampleDisk true) ['d'] ['s'] data index hidx (by simp [index]) [1] (by
    intro f hf
    simp only [exampleDisk, if_true, List.cons_append, List.nil_append, List.mem_cons, List.not_mem_nil, or_false] at hf
    rcases hf with rfl | rfl | rfl <;> rfl) (by
    obtain ⟨h1, h3, h2⟩ := exampleDisk_get true
    intro x hx
    simp only [index, List.mem_cons, List.not_mem_nil, or_false] at hx
    rcases hx with rfl | rfl | rfl
    exacts [⟨_, h1⟩, ⟨_, h2 rfl⟩, ⟨_, h3⟩])
  have hlen : out.length = 3 := h2.length_eq.symm
  let s : P08Scan := { cmd := [], motorNames := [], motors := [], positions := [], data := data, imageData := [], removeIdxes := some [1] }
  cases h3 : npDelete out [1] with
  | error e =>
    unfold npDelete at h3
    rw [if_pos (by intro i hi; rw [List.mem_singleton.1 hi, hlen]; decide)] at h3
    cases h3
  | ok l =>
    refine ⟨s, { s with imageData := dictSet s.imageData p100kKey (.images l) }, index, [1], rfl, by simp, hidx, rfl, ?_⟩
    unfold P08Scan.addPilatus P08Scan.thin
    rw [show loadPilatus (exampleDisk true) ['d'] ['s'] s.data p100kKey = .ok out from h1, bind_ok]
    change (npDelete out [1] >>= _) = _
    rw [h3]
    rfl

/-- The hypotheses of `C86_order_partial` are met by a scan with a doubled point and two lambda images, and
both orders succeed with one image. -/
example : ∃ (s r : P08Scan) (disk : ImageDisk) (f : DetFlags), s.doublesRemoved = false ∧ s.removeIdxes = none ∧
    s.imageData = [] ∧ f.p100k = false ∧ f.mythen = false ∧ lambdaKey ++ indexSuffix ∉ s.data.map Prod.fst ∧
    eigerKey ++ indexSuffix ∉ s.data.map Prod.fst ∧ (s.loadImages disk [] [] f >>= P08Scan.removeDouble) = .ok r ∧
    r.imageData.map (fun p => Stack.count p.2) = [1] := by
  let s : P08Scan := { cmd := [], motorNames := [ttKey], motors := [[some 1, some 1]], positions := [], data := [], imageData := [] }
  have hrem : removed [some (1 : ℝ), some 1] = [0] := by
    simp [removed, doubleIdxes, samePos]
  refine ⟨s, { s with motors := [[some 1]], imageData := [(lambdaKey, .images [[[2]]])], removeIdxes := some [0], doublesRemoved := true },
    { lambdaFile := some [[[1]], [[2]]], eigerFile := none, pilatus := [], mythen := [] }, { lambda := true }, rfl, rfl, rfl, rfl, rfl,
    by simp [s], by simp [s], ?_, rfl⟩
  rw [loadImages_nexus rfl rfl rfl (by simp [s]) (by simp [s])]
  change P08Scan.removeDouble { s with imageData := [(lambdaKey, .images [[[1]], [[2]]])] } = _
  rw [removeDouble_fresh rfl]
  change (do
      let data ← ([] : List (Str × List (Option ℝ))).mapM fun (p : Str × List (Option ℝ)) => (do return (p.1, ← npDelete p.2 (removed [some (1 : ℝ), some 1])) : Res _)
      let motors ← [[some (1 : ℝ), some 1]].mapM fun (m : List (Option ℝ)) => npDelete m (removed [some (1 : ℝ), some 1])
      let imgs ← [(lambdaKey, Stack.images [[[1]], [[2]]])].mapM fun (p : Str × Stack) => (do return (p.1, ← p.2.delete (removed [some (1 : ℝ), some 1])) : Res _)
      return { s with data := data, motors := motors, imageData := imgs, removeIdxes := some (removed [some (1 : ℝ), some 1]), doublesRemoved := true }) = _
  rw [hrem]
  rfl

/-- C86 is false for mythen detectors: the images do not depend on the points that have been removed. -/
theorem C86_mythen (s t : P08Scan) (disk : List (Str × List ℝ)) (dir name : Str) (h : s.imageData = t.imageData) :
    (s.addMythen disk dir name).map P08Scan.imageData = (t.addMythen disk dir name).map P08Scan.imageData := by
  unfold P08Scan.addMythen
  rw [h]
  cases loadMythen disk dir name <;> rfl

end Verif.Props
