import Verif.Props.Growing
import Verif.Model.Fitters

/-!
# C121: scans and fits depend on their own lines
-/

namespace Verif.Props
open Verif.Py Verif.Model Verif.Spec

/-- C121: a scan is read from its own lines. Whatever stands before and after them in the file, the loaded scan (or the exception) is
that of a file with these lines alone, if the same number does not occur again further down. -/
theorem C121_isolated (a b c : Nat) (before lines after : List Str) (p q s : SpecParser) (hb : BlankEnd before) (hl : BlankEnd lines)
    (hp : SpecParser.init a before = .ok p) (hq : SpecParser.init b lines = .ok q) (hs : SpecParser.init c after = .ok s) :
    ∃ r, SpecParser.init (a + (b + c)) (before ++ (lines ++ after)) = .ok r ∧ ∀ n : Int, (q.index.get n).isOk = true → (s.index.get n).isOk = false →
      ∀ (pf : Str → Option ℝ) (l : SpecLoader) (front back : Option Int),
        SpecLoader.loadScan pf { l with parser := r } n front back = SpecLoader.loadScan pf { l with parser := q } n front back := by
  obtain ⟨t, ht, h1⟩ := C119_append b c lines after q s hl hq hs
  obtain ⟨r, hr, -⟩ := C119_append a (b + c) before (lines ++ after) p t hb hp ht
  refine ⟨r, hr, fun n hn hn' pf l front back => ?_⟩
  have e1 := C119_load a (b + c) before (lines ++ after) p t r hb hp ht hr pf l front back n
  have e2 := C119_load b c lines after q s t hl hq hs ht pf l front back n
  have hok : (t.index.get n).isOk = true := by
    have hse : ¬ ∃ e, s.index.get n = .ok e := by
      rintro ⟨e, he⟩
      rw [he] at hn'
      cases hn'
    have := ((h1 n).2 hse).info
    cases hg : q.index.get n with
    | error x => rw [hg] at hn; cases hn
    | ok e =>
      rw [hg] at this
      cases ht' : t.index.get n with
      | ok _ => rfl
      | error _ => rw [ht'] at this; cases this
  rw [hok, if_pos rfl] at e1
  rw [hn', if_neg (by simp)] at e2
  exact e1.trans e2

theorem fitBody_congr {pf : Str → Option ℝ} {f : SpecFitter} {l l' : SpecLoader} {n : Int} {a : FitArgs}
    (h : l.loadScan pf n a.front a.back = l'.loadScan pf n a.front a.back) (d : Draws) :
    SpecFitter.fitBody pf { f with specLoader := some l } n a d = SpecFitter.fitBody pf { f with specLoader := some l' } n a d := by
  unfold SpecFitter.fitBody SpecFitter.getScan
  simp only [h]

/-- C121: after lines were appended to the file, a fit of a scan with the same settings and random numbers returns what the fit
of the shorter file returned (parameters, curves, exception), unless the scan number occurs in the new lines, in which case the fit is
that of the new lines alone. -/
theorem C121_fit (a b : Nat) (old new : List Str) (p q r : SpecParser) (hb : BlankEnd old) (hp : SpecParser.init a old = .ok p)
    (hq : SpecParser.init b new = .ok q) (hr : SpecParser.init (a + b) (old ++ new) = .ok r) (pf : Str → Option ℝ) (f : SpecFitter)
    (l : SpecLoader) (n : Int) (args : FitArgs) (d : Draws) :
    SpecFitter.fitBody pf { f with specLoader := some { l with parser := r } } n args d =
      if (q.index.get n).isOk then SpecFitter.fitBody pf { f with specLoader := some { l with parser := q } } n args d
      else SpecFitter.fitBody pf { f with specLoader := some { l with parser := p } } n args d := by
  have h := C119_load a b old new p q r hb hp hq hr pf l args.front args.back n
  split_ifs with hc
  · rw [if_pos hc] at h
    exact fitBody_congr h d
  · rw [if_neg hc] at h
    exact fitBody_congr h d

/-- C121 for ranges: if none of the fitted numbers occurs in the new lines, `fit_range` returns the same series as before. -/
theorem C121_fit_range (a b : Nat) (old new : List Str) (p q r : SpecParser) (hb : BlankEnd old) (hp : SpecParser.init a old = .ok p)
    (hq : SpecParser.init b new = .ok q) (hr : SpecParser.init (a + b) (old ++ new) = .ok r) (pf : Str → Option ℝ) (f : SpecFitter)
    (l : SpecLoader) (ns : List Int) (hn : ∀ n ∈ ns, (q.index.get n).isOk = false) (args : FitArgs) (d : Nat → Draws) :
    SpecFitter.fitRangeBody pf { f with specLoader := some { l with parser := r } } ns args d =
      SpecFitter.fitRangeBody pf { f with specLoader := some { l with parser := p } } ns args d := by
  have h : ∀ n ∈ ns, SpecLoader.loadScan pf { l with parser := r } n args.front args.back = SpecLoader.loadScan pf { l with parser := p } n args.front args.back := by
    intro n hm
    have h := C119_load a b old new p q r hb hp hq hr pf l args.front args.back n
    rwa [hn n hm, if_neg (by simp)] at h
  unfold SpecFitter.fitRangeBody
  have : loadScans (fun (n : Int) => SpecLoader.loadScan pf { l with parser := r } n args.front args.back) ns =
      loadScans (fun (n : Int) => SpecLoader.loadScan pf { l with parser := p } n args.front args.back) ns := by
    clear hn
    induction ns with
    | nil => rfl
    | cons n ns ih =>
      simp only [loadScans]
      rw [h n (by simp), ih fun m hm => h m (by simp [hm])]
  simp only [this]

theorem index_mono {lines : List Str} {limit from_ : Nat} {idx r : ScanIndex} (h : indexScans limit lines from_ idx = .ok r) (k : Nat) :
    indexScans (limit + k) lines from_ idx = .ok r := by
  induction limit generalizing from_ idx with
  | zero => cases h
  | succ limit ih =>
    rw [Nat.succ_add, indexScans]
    rw [indexScans] at h
    cases hs : searchForNextScan lines from_ with
    | none => rw [hs] at h; exact h
    | some start =>
      rw [hs] at h
      simp only at h ⊢
      obtain ⟨⟨s, i⟩, h1, h⟩ := bind_eq_ok.1 h
      rw [h1, bind_ok]
      simp only at h ⊢
      cases hn : s.number with
      | none => rw [hn] at h; cases h
      | some n =>
        rw [hn] at h
        simp only at h ⊢
        obtain ⟨m, h2, h⟩ := bind_eq_ok.1 h
        rw [h2, bind_ok]
        exact ih h

theorem init_mono {limit : Nat} {file : List Str} {p : SpecParser} (h : SpecParser.init limit file = .ok p) (k : Nat) :
    SpecParser.init (limit + k) file = .ok p := by
  unfold SpecParser.init at h ⊢
  obtain ⟨idx, h1, h2⟩ := bind_eq_ok.1 h
  exact bind_eq_ok.2 ⟨idx, index_mono h1 k, h2⟩

/-- C121 for `set_file`: a fitter on which `set_file` is called before the file grows and again afterwards fits every scan that is not
in the new lines as before, alone and in ranges. `limit` is the same number of nested calls every time. -/
theorem C121_set_file (limit : Nat) (w w' : World) (f : SpecFitter) (name : Str) (old new : List Str) (q : SpecParser) (hb : BlankEnd old)
    (hw : w.read name = some old) (hw' : w'.read name = some (old ++ new)) (hq : SpecParser.init limit new = .ok q)
    (h : (SpecFitter.setFile limit w f name).2 = .ok ()) (h' : (SpecFitter.setFile limit w' f name).2 = .ok ()) (pf : Str → Option ℝ)
    (args : FitArgs) :
    (∀ (n : Int) (d : Draws), (q.index.get n).isOk = false →
      (SpecFitter.fit limit pf w' (SpecFitter.setFile limit w' f name).1 n args d false).2 =
        (SpecFitter.fit limit pf w (SpecFitter.setFile limit w f name).1 n args d false).2) ∧
    ∀ (ns : List Int) (d : Nat → Draws), (∀ n ∈ ns, (q.index.get n).isOk = false) →
      (SpecFitter.fitRange limit pf w' (SpecFitter.setFile limit w' f name).1 ns args d false).2 =
        (SpecFitter.fitRange limit pf w (SpecFitter.setFile limit w f name).1 ns args d false).2 := by
  unfold SpecFitter.setFile newSpecLoader at h h' ⊢
  cases hi : f.importParams with
  | none => rw [hi] at h; cases h
  | some i =>
    cases hf : f.footprint with
    | none => rw [hi, hf] at h; cases h
    | some g =>
      rw [hi, hf] at h h'
      simp only [hw, hw'] at h h' ⊢
      cases hp : SpecParser.init limit old with
      | error e => rw [hp] at h; cases h
      | ok p =>
        cases hr : SpecParser.init limit (old ++ new) with
        | error e => rw [hr] at h'; cases h'
        | ok r =>
          have hr' := init_mono hr limit
          refine ⟨fun n d hn => ?_, fun ns d hn => ?_⟩
          · have := C121_fit limit limit old new p q r hb hp hq hr' pf { f with fileName := some name }
              ⟨p, i.angleColumns, i.intensityColumn, g.wavelength, g.beamWidth, g.sampleLength, g.beamShape, g.normalizeTo,
                i.attenuatorColumn, i.divisionColumn⟩ n args d
            rw [hn, if_neg (by simp)] at this
            exact this
          · exact C121_fit_range limit limit old new p q r hb hp hq hr' pf { f with fileName := some name }
              ⟨p, i.angleColumns, i.intensityColumn, g.wavelength, g.beamWidth, g.sampleLength, g.beamShape, g.normalizeTo,
                i.attenuatorColumn, i.divisionColumn⟩ ns hn args d

/-- The hypotheses of `C121_set_file` and `C121_isolated` hold for the files of the examples. -/
example (images : Str → List Str → Res (List (Str × Stack))) (i : SpecImport) (g : SpecFootprint) :
    ∃ (w w' : World) (f : SpecFitter) (q : SpecParser), w.read ['f'] = some (growOld ++ [[]]) ∧
      w'.read ['f'] = some (growOld ++ [[]] ++ growNew) ∧ SpecParser.init 5 growNew = .ok q ∧ (q.index.get 1).isOk = false ∧
      (q.index.get 2).isOk = true ∧ (SpecFitter.setFile 5 w f ['f']).2 = .ok () ∧ (SpecFitter.setFile 5 w' f ['f']).2 = .ok () :=
  ⟨⟨[(['f'], growOld ++ [[]])], images⟩, ⟨[(['f'], growOld ++ [[]] ++ growNew)], images⟩,
    { importParams := some i, footprint := some g, model := none, curve := none, fileName := none, specLoader := none, loader := none },
    _, rfl, rfl, rfl, rfl, rfl, rfl, rfl⟩

end Verif.Props
