import Verif.Props.Fitters

/-!
# Concrete fits, and C81 to C83
-/

namespace Verif.Props
open Verif.Py Verif.Model Verif.Spec

/-! ### A fit that works -/

/-- A fit without refinement and optimization. -/
noncomputable def plainArgs : FitArgs := { polish := false, optimizeQ := false }

/-- The toy model fits every scan of positive intensities without footprint parameters and normalization. -/
theorem toy_fitScan (sc : Scan) (d : Draws) (h1 : sc.beamWidth = none) (h2 : sc.normalizeTo = none) (h3 : sc.wavelength ≠ 0)
    (h4 : PositiveCurve sc.raw) (h5 : sc.raw.length = sc.angle.length) (h6 : sc.raw ≠ []) :
    ∃ r, fitScan true (some (.trained (toyEnv (prepSample 0 1)))) (some (toyEnv (prepSample 0 1))) sc plainArgs d = .ok r ∧
      r.corrected = sc.raw ∧ r.number = sc.number := by
  have hc : Scan.correctedIntensity { sc with angle := sc.angle.map fun (x : ℝ) => x + plainArgs.thetaOffset } = .ok sc.raw := by
    unfold Scan.correctedIntensity Scan.correctFootprint Scan.normalize
    simp only [h1, h2]
  obtain ⟨q, hq, hql⟩ : ∃ q, Scan.q { sc with angle := sc.angle.map fun (x : ℝ) => x + plainArgs.thetaOffset } = .ok q ∧
      q.length = sc.angle.length := by
    unfold Scan.q angleToQ
    simp only
    rw [if_neg h3]
    exact ⟨_, rfl, by simp⟩
  have hqne : q ≠ [] := by
    intro h
    rw [h] at hql
    exact h6 (List.length_eq_zero_iff.1 (by rw [h5, ← hql]; rfl))
  obtain ⟨idx, hi⟩ := qIndices_ok (env := toyEnv (prepSample 0 1)) (q := q) (by simp [toyEnv]) hqne
  have hpos : finite (sc.raw.map fun (r : ℝ) => if 0 < r then some (Real.logb 10 r) else none) = .ok (sc.raw.map (Real.logb 10)) := by
    unfold finite
    rw [mapM_eq_ok_map (g := fun (o : Option ℝ) => o.getD 0)]
    · rw [List.map_map]
      congr 1
      apply List.map_congr_left
      intro x hx
      simp [h4 x hx]
    · intro o ho
      obtain ⟨x, hx, rfl⟩ := List.mem_map.1 ho
      rw [if_pos (h4 x hx)]
      rfl
  obtain ⟨row, hrow, hrl⟩ : ∃ row, interpReflectivity [1, 2] q sc.raw = .ok row ∧ row.length = 2 := by
    unfold interpReflectivity
    rw [hpos, bind_ok]
    unfold npInterp
    rw [if_neg (by simp [hql, h5, hqne])]
    exact ⟨_, rfl, by simp⟩
  have hin : (toyEnv (prepSample 0 1)).networkInput [sc.raw] q plainArgs.dq plainArgs.factor = .ok [row] := by
    unfold FitEnv.networkInput FitEnv.interpolate
    have e1 : plainArgs.dq = 0 := rfl
    have e2 : plainArgs.factor = 1 := rfl
    have e3 : (toyEnv (prepSample 0 1)).trainedQ = [1, 2] := rfl
    rw [e1, e2, e3]
    simp only [mul_one, add_zero, List.map_id', List.map_cons, List.map_nil]
    rw [mapM_cons, hrow]
    rfl
  obtain ⟨t, u, p1, -, p3, -⟩ := toyEnv_predict (prepSample 0 1) (prepSample_regular (by norm_num)) (prepSample_names _ _) _ _ _ _ _ _ _ _
    (prepSample_used 0 1) [row] (by intro r hr; rw [List.mem_singleton.1 hr]; exact hrl)
  have hsim : (toyEnv (prepSample 0 1)).simulate q t = .ok (List.replicate t.rows (List.replicate q.length (some 1))) := rfl
  have hfit : (toyEnv (prepSample 0 1)).fitCurve [sc.raw] q plainArgs.options d.shifts d.scalings =
      .ok ⟨t, some [List.replicate q.length (some 1)], none, none⟩ := by
    unfold FitEnv.fitCurve
    rw [hi, bind_ok]
    have : (toyEnv (prepSample 0 1)).networkInput [sc.raw] q plainArgs.options.dq plainArgs.options.factor = .ok [row] := hin
    simp only
    rw [this, bind_ok]
    show ((.ok none : Res (Option (List ℝ))) >>= _) = _
    rw [bind_ok]
    show ((.ok none : Res (Option (List ℝ × Table))) >>= _) = _
    rw [bind_ok]
    show ((toyEnv (prepSample 0 1)).predict [row] >>= _) = _
    rw [p1, bind_ok]
    show ((.ok t : Res Table) >>= _) = _
    rw [bind_ok]
    show ((toyEnv (prepSample 0 1)).simulate q t >>= _) >>= _ = _
    rw [hsim, bind_ok, p3]
    rfl
  refine ⟨⟨sc.number, sc.timestamp, sc.raw, q, List.replicate q.length (some 1), [1, 2].map fun (x : ℝ) => x - plainArgs.dq, t, none,
    prepSample 0 1⟩, ?_, rfl, rfl⟩
  unfold fitScan
  simp only
  rw [hc, bind_ok, hq, bind_ok, hfit, bind_ok]
  show ((.ok (List.replicate q.length (some 1)) : Res (List (Option ℝ))) >>= _) = _
  rw [bind_ok]
  show ((.ok none : Res (Option ℝ)) >>= _) = _
  rw [bind_ok]
  unfold makeResult
  simp only
  rw [if_pos (by rw [p3]; rfl)]
  rfl

/-! ### Stale data -/

/-- A SPEC file with one scan. -/
def demoLines : List Str :=
  ["#S 1 a2scan".toList, "#D Mon".toList, "#L tth  det".toList, "1 3".toList, "2 5".toList, []]

/-- The file without scans and with a scan. -/
def demoWorld (lines : List Str) : World := ⟨[(['f'], lines)], fun _ _ => .ok []⟩

/-- The calls before a fit. -/
noncomputable def demoSetup : List (FitterEvent SpecImport SpecFootprint) :=
  [.setModel (some (.trained (toyEnv (prepSample 0 1)))) none, .setImport ⟨["tth".toList], "det".toList, none, none⟩,
   .setFootprint ⟨1, none, none, none, none⟩]

def demoParser : SpecParser := ⟨demoLines, [(1, ⟨0, 4, "a2scan".toList, some "Mon".toList, some 2⟩)]⟩

theorem demo_parse : SpecParser.init 10 demoLines = .ok demoParser := rfl

noncomputable def demoTable : NumTable ℝ :=
  ⟨["tth".toList, "det".toList], [[((1 : Int) : ℝ), ((3 : Int) : ℝ)], [((2 : Int) : ℝ), ((5 : Int) : ℝ)]]⟩

theorem demo_extract : demoParser.extractScan intTokens 1 = .ok demoTable := rfl

/-- The loader made from the file with the scan. -/
noncomputable def demoLoader : SpecLoader :=
  ⟨demoParser, ["tth".toList], "det".toList, 1, none, none, none, none, none, none⟩

theorem demo_loader : newSpecLoader 10 (demoWorld demoLines) (some ['f']) (some ⟨["tth".toList], "det".toList, none, none⟩)
    (some ⟨1, none, none, none, none⟩) = .ok demoLoader := by
  have hr : (demoWorld demoLines).read ['f'] = some demoLines := rfl
  unfold newSpecLoader
  simp only
  rw [hr]
  simp only
  rw [demo_parse, bind_ok]
  rfl

theorem demo_empty_loader : newSpecLoader 10 (demoWorld []) (some ['f']) (some ⟨["tth".toList], "det".toList, none, none⟩)
    (some ⟨1, none, none, none, none⟩) = .ok { demoLoader with parser := ⟨[], []⟩ } := rfl

theorem demo_load : ∃ sc, demoLoader.loadScan intTokens 1 none none = .ok sc ∧ sc.raw = [((3 : Int) : ℝ), ((5 : Int) : ℝ)] ∧
    sc.angle.length = 2 ∧ sc.wavelength = 1 ∧ sc.beamWidth = none ∧ sc.normalizeTo = none ∧ sc.number = 1 := by
  refine ⟨Scan.mk' 1 (sumAbs [[((1 : Int) : ℝ), ((2 : Int) : ℝ)]]) [((3 : Int) : ℝ), ((5 : Int) : ℝ)] 1 none none none none
    (some "Mon".toList), ?_, rfl, ?_, rfl, rfl, rfl, rfl⟩
  · have hx : demoLoader.parser.extractScan intTokens 1 = .ok demoTable := demo_extract
    unfold SpecLoader.loadScan
    rw [hx]
    simp only
    rw [if_pos (by decide)]
    have h1 : demoLoader.parser.index.get 1 = .ok ⟨0, 4, "a2scan".toList, some "Mon".toList, some 2⟩ := rfl
    have h2 : demoLoader.angleColumns.mapM demoTable.column = .ok [[((1 : Int) : ℝ), ((2 : Int) : ℝ)]] := rfl
    have h3 : ∀ x, demoLoader.intensity demoTable x = .ok [((3 : Int) : ℝ), ((5 : Int) : ℝ)] := fun _ => rfl
    rw [h1, bind_ok]
    show ((.ok "Mon".toList : Res Str) >>= fun time => (demoLoader.angleColumns.mapM demoTable.column) >>= _) = _
    rw [bind_ok, h2, bind_ok, h3, bind_ok]
    rfl
  · simp [Scan.mk', replaceZeros, sumAbs]

/-- The scan of the file can be fitted. -/
theorem demo_fit (d : Draws) (f : SpecFitter) (hm : f.model = some (.trained (toyEnv (prepSample 0 1))))
    (hc : f.curve = some (toyEnv (prepSample 0 1))) (hl : f.specLoader = some demoLoader) :
    ∃ r, SpecFitter.fitBody intTokens f 1 plainArgs d = .ok r ∧ r.corrected = [3, 5] ∧ r.number = 1 := by
  obtain ⟨sc, h1, h2, h3, h4, h5, h6, h7⟩ := demo_load
  obtain ⟨r, k1, k2, k3⟩ := toy_fitScan sc d h5 h6 (by rw [h4]; norm_num)
    (by rw [h2]; intro x hx; simp at hx; rcases hx with rfl | rfl <;> norm_num) (by rw [h2, h3]; rfl) (by rw [h2]; simp)
  refine ⟨r, ?_, ?_, ?_⟩
  · unfold SpecFitter.fitBody SpecFitter.getScan
    rw [hl]
    have h1' : demoLoader.loadScan intTokens 1 plainArgs.front plainArgs.back = .ok sc := h1
    simp only
    rw [h1']
    simp only
    rw [bind_ok, hm, hc]
    exact k1
  · rw [k2, h2]
    norm_num
  · rw [k3, h7]

/-- C59 is false for `SpecFitter`: after `set_file` the file receives a scan, `fit` with a reload says that there is none, and a
loader made from the present file can be used to fit it. -/
theorem C59_false (load : Str → Res FitEnv) (d : Draws) :
    let trace := demoSetup ++ [.setFile ['f'], .world (demoWorld demoLines)]
    let s := trace.foldl (SpecFitter.step 10 intTokens load) (demoWorld [], {})
    s.1 = demoWorld demoLines ∧ (SpecFitter.fit 10 intTokens s.1 s.2 1 plainArgs d true).2 = .error .notReflectivityScan ∧
    ∃ l r, newSpecLoader 10 s.1 s.2.fileName s.2.importParams s.2.footprint = .ok l ∧
      SpecFitter.fitBody intTokens { model := s.2.model, curve := s.2.curve, specLoader := some l } 1 plainArgs d = .ok r := by
  intro trace s
  have hs : s = (demoWorld demoLines, ⟨some (.trained (toyEnv (prepSample 0 1))), some (toyEnv (prepSample 0 1)),
      some ⟨["tth".toList], "det".toList, none, none⟩, some ⟨1, none, none, none, none⟩, none,
      some { demoLoader with parser := ⟨[], []⟩ }, some ['f']⟩) := rfl
  rw [hs]
  refine ⟨rfl, ?_, demoLoader, ?_⟩
  · unfold SpecFitter.fit SpecFitter.withReload SpecFitter.reloadLoader
    simp only
    rw [if_pos trivial, demo_loader]
    rfl
  · obtain ⟨r, hr, -⟩ := demo_fit d ⟨some (.trained (toyEnv (prepSample 0 1))), some (toyEnv (prepSample 0 1)), none, none, none,
      some demoLoader, none⟩ rfl rfl rfl
    exact ⟨r, demo_loader, hr⟩

/-- The hypotheses of `C64_network_input` are met: setting everything up for the file with the scan, `fit` succeeds. -/
example (load : Str → Res FitEnv) (d : Draws) : ∃ trace r, NoForeign trace ∧
    (SpecFitter.fit 10 intTokens (trace.foldl (SpecFitter.step 10 intTokens load) (demoWorld demoLines, {})).1
        (trace.foldl (SpecFitter.step 10 intTokens load) (demoWorld demoLines, {})).2 1 plainArgs d true).2 = .ok r ∧
    r.corrected = [3, 5] ∧ plainArgs.factor = 1 ∧ plainArgs.polish = false := by
  refine ⟨demoSetup ++ [.setFile ['f']], ?_⟩
  have hs : (demoSetup ++ [FitterEvent.setFile ['f']]).foldl (SpecFitter.step 10 intTokens load) (demoWorld demoLines, {}) =
      (demoWorld demoLines, ⟨some (.trained (toyEnv (prepSample 0 1))), some (toyEnv (prepSample 0 1)),
      some ⟨["tth".toList], "det".toList, none, none⟩, some ⟨1, none, none, none, none⟩, none, some demoLoader, some ['f']⟩) := by
    have h : (demoSetup ++ [FitterEvent.setFile ['f']]).foldl (SpecFitter.step 10 intTokens load) (demoWorld demoLines, {}) =
      (demoWorld demoLines, (SpecFitter.setFile 10 (demoWorld demoLines) ⟨some (.trained (toyEnv (prepSample 0 1))),
        some (toyEnv (prepSample 0 1)), some ⟨["tth".toList], "det".toList, none, none⟩, some ⟨1, none, none, none, none⟩, none, none, none⟩
        ['f']).1) := rfl
    rw [h]
    unfold SpecFitter.setFile
    simp only
    rw [demo_loader]
  rw [hs]
  obtain ⟨r, hr, hc, -⟩ := demo_fit d ⟨some (.trained (toyEnv (prepSample 0 1))), some (toyEnv (prepSample 0 1)),
      some ⟨["tth".toList], "det".toList, none, none⟩, some ⟨1, none, none, none, none⟩, some demoLoader, some demoLoader, some ['f']⟩ rfl rfl rfl
  refine ⟨r, ?_, ?_, hc, rfl, rfl⟩
  · intro p he
    simp [demoSetup] at he
  · unfold SpecFitter.fit SpecFitter.withReload SpecFitter.reloadLoader
    simp only
    rw [if_pos trivial, demo_loader]
    exact hr

/-! ### C81: missing scans -/

/-- C81 for `FioFitter`: without a file for the number, and for scans that are no reflectivity scans, `fit` returns `None`. -/
theorem C81_fio_partial (pf : Str → Option (Option ℝ)) (w : World) (f : FioFitter) (l : FioLoader) (hl : f.loader = some l) (n : Int)
    (a : FitArgs) (d : Draws) :
    (w.read (fioName l.stem n) = none → FioFitter.fitBody pf w f n a d = .ok none) ∧
    ((∃ sc, l.extractScan pf w.read w.images n = .ok (sc, false)) → FioFitter.fitBody pf w f n a d = .ok none) := by
  constructor
  · intro h
    have hx : l.loadScan pf w.read w.images n a.front a.back a.roi FioFitter.p100k = .error .fileNotFoundError := by
      unfold FioLoader.loadScan FioLoader.extractScan
      simp only
      rw [h]
      rfl
    unfold FioFitter.fitBody FioFitter.getScan
    rw [hl]
    simp only
    rw [hx]
    rfl
  · rintro ⟨sc, h⟩
    have hx : l.loadScan pf w.read w.images n a.front a.back a.roi FioFitter.p100k = .error .notReflectivityScan := by
      unfold FioLoader.loadScan
      rw [h, bind_ok]
      rfl
    unfold FioFitter.fitBody FioFitter.getScan
    rw [hl]
    simp only
    rw [hx]
    rfl

/-- C81 misleads for `FioFitter`: an existing reflectivity scan for which a name in the settings is wrong is also reported as
missing. -/
theorem C81_fio_misreported (pf : Str → Option (Option ℝ)) (w : World) (f : FioFitter) (l : FioLoader) (hl : f.loader = some l) (n : Int)
    (a : FitArgs) (d : Draws) (sc : P08Scan) (h : l.extractScan pf w.read w.images n = .ok (sc, true)) (e : ℝ) (he : e ≠ 0)
    (h1 : dictGet sc.positions energyKey = .ok (some e)) (h2 : dictGet sc.data l.ttCounter = .error .keyError) :
    FioFitter.fitBody pf w f n a d = .ok none := by
  have hx : l.loadScan pf w.read w.images n a.front a.back a.roi FioFitter.p100k = .error .keyError := by
    unfold FioLoader.loadScan
    rw [h, bind_ok]
    simp only
    rw [if_pos trivial]
    unfold FioLoader.load
    rw [h1, bind_ok, show finite [some e] = .ok [e] from rfl, bind_ok, show getItem [e] 0 = .ok e from rfl, bind_ok]
    simp only
    rw [if_neg he]
    unfold numColumn
    rw [h2]
    rfl
  unfold FioFitter.fitBody FioFitter.getScan
  rw [hl]
  simp only
  rw [hx]
  rfl

/-- C81 is false for `SpecFitter`: for every number without a scan, `fit` raises. -/
theorem C81_spec_raises (pf : Str → Option ℝ) (f : SpecFitter) (l : SpecLoader) (hl : f.specLoader = some l) (n : Int)
    (a : FitArgs) (d : Draws) (h : ∀ e, (n, e) ∉ l.parser.index) :
    SpecFitter.fitBody pf f n a d = .error .notReflectivityScan := by
  have hg : l.parser.index.get n = .error .keyError := by
    unfold ScanIndex.get
    have : l.parser.index.find? (fun (p : Int × ScanEntry) => p.1 = n) = none := by
      rw [List.find?_eq_none]
      rintro ⟨m, e⟩ hm he
      simp only [decide_eq_true_eq] at he
      subst he
      exact h e hm
    rw [this]
  have hx : l.parser.extractScan pf n = .error .keyError := by
    unfold SpecParser.extractScan SpecParser.columnNames SpecParser.headerLine
    rw [hg]
    rfl
  unfold SpecFitter.fitBody SpecFitter.getScan SpecLoader.loadScan
  rw [hl]
  simp only
  rw [hx]
  rfl

/-- C81 is false for `SpecFitter`: the handler of `KeyError` itself raises. -/
theorem C81_spec_handler (pf : Str → Option ℝ) (f : SpecFitter) (l : SpecLoader) (hl : f.specLoader = some l) (n : Int)
    (a : FitArgs) (d : Draws) (h : l.loadScan pf n a.front a.back = .error .keyError) :
    SpecFitter.fitBody pf f n a d = .error .attributeError := by
  unfold SpecFitter.fitBody SpecFitter.getScan
  rw [hl]
  simp only
  rw [h]
  rfl

/-- C81 is false for `SpecFitter`: no call of `fit` returns `None`, and fits of missing numbers exist. -/
example (pf : Str → Option ℝ) (a : FitArgs) (d : Draws) :
    SpecFitter.fitBody pf { specLoader := some demoLoader } 2 a d = .error .notReflectivityScan :=
  C81_spec_raises pf _ demoLoader rfl 2 a d (by
    intro e he
    simp [demoLoader, demoParser] at he)

/-! ### C82: options -/

theorem bestShift_none {env : FitEnv} {corrected : List (List ℝ)} {q : List ℝ} {o : FitEnv.Options} {s1 s2 : Nat → List ℝ}
    {out : FitEnv.Output} (h : env.fitCurve corrected q o s1 s2 = .ok out) : out.bestShift = none ↔ o.optimizeQ = false := by
  unfold FitEnv.fitCurve at h
  obtain ⟨⟨lo, hi⟩, -, h⟩ := bind_eq_ok.1 h
  obtain ⟨rows, -, h⟩ := bind_eq_ok.1 h
  obtain ⟨best, hb, h⟩ := bind_eq_ok.1 h
  obtain ⟨scaled, -, h⟩ := bind_eq_ok.1 h
  obtain ⟨p, -, h⟩ := bind_eq_ok.1 h
  obtain ⟨p', -, h⟩ := bind_eq_ok.1 h
  obtain ⟨refl, -, h⟩ := bind_eq_ok.1 h
  simp only [pure, Except.pure, Except.ok.injEq] at h
  subst h
  simp only
  unfold FitEnv.qStep at hb
  cases ho : o.optimizeQ with
  | false =>
    rw [ho] at hb
    simp at hb
    simp [← hb]
  | true =>
    rw [ho] at hb
    simp only [if_true] at hb
    obtain ⟨x, -, hb⟩ := bind_eq_ok.1 hb
    obtain ⟨y, -, hb⟩ := bind_eq_ok.1 hb
    simp only [pure, Except.pure, Except.ok.injEq] at hb
    simp [← hb]

/-- C82 for `SpecFitter`: the reported shift is missing exactly if it was not optimized. -/
theorem C82_spec (pf : Str → Option ℝ) (f : SpecFitter) (n : Int) (a : FitArgs) (d : Draws) (r : FitResult)
    (h : SpecFitter.fitBody pf f n a d = .ok r) : r.bestShift = none ↔ a.optimizeQ = false := by
  unfold SpecFitter.fitBody at h
  obtain ⟨sc, -, h⟩ := bind_eq_ok.1 h
  obtain ⟨env, m, c, q, out, refl, shift, -, -, -, -, h3, -, h5, -, rfl⟩ := fitScan_ok h
  have hb := bestShift_none h3
  simp only
  rw [show a.optimizeQ = a.options.optimizeQ from rfl, ← hb]
  unfold firstShift at h5
  cases hs : out.bestShift with
  | none =>
    rw [hs] at h5
    simp at h5
    simp [← h5]
  | some l =>
    rw [hs] at h5
    simp only at h5
    obtain ⟨x, -, h5⟩ := bind_eq_ok.1 h5
    simp only [pure, Except.pure, Except.ok.injEq] at h5
    simp [← h5]

/-- C82 is false for `FioFitter`: without optimization of the shift, a fit that works otherwise raises `TypeError`. -/
theorem C82_fio_raises (model : Option ModelArg) (curve : Option FitEnv) (sc : Scan) (a : FitArgs) (d : Draws) (r : FitResult)
    (ha : a.optimizeQ = false) (h : fitScan true model curve sc a d = .ok r) : fitScan false model curve sc a d = .error .typeError := by
  obtain ⟨env, m, c, q, out, refl, shift, rfl, rfl, h1, h2, h3, h4, h5, h6, rfl⟩ := fitScan_ok h
  have hb := (bestShift_none h3).2 ha
  unfold fitScan
  simp only
  rw [h1, bind_ok, h2, bind_ok, h3, bind_ok, h4, bind_ok, hb]
  rfl

/-- C82 is false for `FioFitter`: no call without optimization of the shift returns a result. -/
theorem C82_fio_never (pf : Str → Option (Option ℝ)) (w : World) (f : FioFitter) (n : Int) (a : FitArgs) (d : Draws) (r : FitResult)
    (ha : a.optimizeQ = false) : FioFitter.fitBody pf w f n a d ≠ .ok (some r) := by
  intro h
  unfold FioFitter.fitBody at h
  obtain ⟨sc, -, h⟩ := bind_eq_ok.1 h
  cases sc with
  | none => cases h
  | some sc =>
    obtain ⟨env, m, c, q, out, refl, shift, -, -, -, -, h3, -, h5, -, -⟩ := fitScan_ok (fitLoaded_ok h)
    have hb := (bestShift_none h3).2 ha
    rw [hb] at h5
    cases h5

/-- C82 for `FioFitter` with optimization of the shift: the handling of the result does not differ from that of `SpecFitter`. -/
theorem C82_fio_partial (model : Option ModelArg) (curve : Option FitEnv) (sc : Scan) (a : FitArgs) (d : Draws)
    (ha : a.optimizeQ = true) : fitScan false model curve sc a d = fitScan true model curve sc a d := by
  unfold fitScan
  cases curve with
  | none => rfl
  | some env =>
    simp only
    cases Scan.correctedIntensity { sc with angle := sc.angle.map fun (x : ℝ) => x + a.thetaOffset } with
    | error e => rfl
    | ok c =>
      cases Scan.q { sc with angle := sc.angle.map fun (x : ℝ) => x + a.thetaOffset } with
      | error e => rfl
      | ok q =>
        simp only [bind_ok]
        cases ho : env.fitCurve [c] q a.options d.shifts d.scalings with
        | error e => rfl
        | ok out =>
          have hb := bestShift_none ho
          simp only [bind_ok]
          cases firstCurve out.refl with
          | error e => rfl
          | ok refl =>
            simp only [bind_ok]
            cases hs : out.bestShift with
            | none =>
              have := hb.1 hs
              rw [show a.options.optimizeQ = a.optimizeQ from rfl, ha] at this
              cases this
            | some l => rfl

/-- The hypotheses of `C82_fio_raises` are met by the demonstration file. -/
example (d : Draws) : ∃ sc r, plainArgs.optimizeQ = false ∧
    fitScan true (some (.trained (toyEnv (prepSample 0 1)))) (some (toyEnv (prepSample 0 1))) sc plainArgs d = .ok r := by
  obtain ⟨sc, h1, h2, h3, h4, h5, h6, h7⟩ := demo_load
  obtain ⟨r, k1, -⟩ := toy_fitScan sc d h5 h6 (by rw [h4]; norm_num)
    (by rw [h2]; intro x hx; simp at hx; rcases hx with rfl | rfl <;> norm_num) (by rw [h2, h3]; rfl) (by rw [h2]; simp)
  exact ⟨sc, r, rfl, k1⟩

/-! ### C83: ranges of scans -/

theorem loadScan_number {l : SpecLoader} {pf : Str → Option ℝ} {n : Int} {front back : Option Int} {sc : Scan}
    (h : l.loadScan pf n front back = .ok sc) : sc.number = n := by
  unfold SpecLoader.loadScan at h
  split at h <;> try cases h
  split at h
  · obtain ⟨e, -, h⟩ := bind_eq_ok.1 h
    obtain ⟨t, -, h⟩ := bind_eq_ok.1 h
    obtain ⟨c, -, h⟩ := bind_eq_ok.1 h
    obtain ⟨i, -, h⟩ := bind_eq_ok.1 h
    simp only [pure, Except.pure, Except.ok.injEq] at h
    rw [← h]
    rfl
  · cases h

theorem zipIdx_mapM {α β : Type} (g : α → Nat → Res β) (l : List α) (r : List β) :
    (l.zipIdx.mapM fun (p : α × Nat) => g p.1 p.2) = .ok r ↔
      r.length = l.length ∧ ∀ (k : Nat) (x : α), l[k]? = some x → ∃ y, r[k]? = some y ∧ g x k = .ok y := by
  rw [mapM_ok_iff, List.forall₂_iff_get]
  constructor
  · rintro ⟨h1, h2⟩
    rw [List.length_zipIdx] at h1
    refine ⟨h1.symm, fun k x hx => ?_⟩
    obtain ⟨hk, rfl⟩ := List.getElem?_eq_some_iff.1 hx
    have := h2 k (by simpa using hk) (by omega)
    exact ⟨r[k]'(by omega), List.getElem?_eq_getElem _, by simpa using this⟩
  · rintro ⟨h1, h2⟩
    refine ⟨by simp [h1], fun k hk hk' => ?_⟩
    rw [List.length_zipIdx] at hk
    obtain ⟨y, hy, hgy⟩ := h2 k _ (List.getElem?_eq_getElem hk)
    obtain ⟨hk2, hy2⟩ := List.getElem?_eq_some_iff.1 hy
    rw [← hy2] at hgy
    simpa using hgy

/-- C83 for `SpecFitter`: `fit_range` succeeds exactly if every number is loaded or is no reflectivity scan, every loaded scan can be
fitted, and the results can be collected; the results are those of individual fits in the order of the request. -/
theorem C83_spec (pf : Str → Option ℝ) (f : SpecFitter) (ns : List Int) (a : FitArgs) (d : Nat → Draws) (s : Series) (hl : f.specLoader ≠ none) :
    let found := ns.filter fun (n : Int) => (SpecFitter.getScan pf f n a).toOption.isSome
    SpecFitter.fitRangeBody pf f ns a d = .ok s ↔
      (∀ n ∈ ns, (∃ sc, SpecFitter.getScan pf f n a = .ok sc) ∨ SpecFitter.getScan pf f n a = .error .notReflectivityScan) ∧
      ∃ rs : List FitResult, rs.length = found.length ∧
        (∀ (k : Nat) (n : Int), found[k]? = some n → ∃ r, rs[k]? = some r ∧ r.number = n ∧
          SpecFitter.fitBody pf f n { a with optimizeScaling := false } (d k) = .ok r) ∧
        Series.init rs = .ok s := by
  intro found
  obtain ⟨l, hl⟩ := Option.ne_none_iff_exists'.1 hl
  have hget : ∀ n b, b.front = a.front → b.back = a.back → ∀ sc, SpecFitter.getScan pf f n b = .ok sc ↔ l.loadScan pf n a.front a.back = .ok sc := by
    intro n b h1 h2 sc
    unfold SpecFitter.getScan
    rw [hl]
    simp only
    rw [h1, h2]
    split
    · rename_i h
      rw [h]
      simp
    · rfl
  have herr : ∀ n, SpecFitter.getScan pf f n a = .error .notReflectivityScan ↔ l.loadScan pf n a.front a.back = .error .notReflectivityScan := by
    intro n
    unfold SpecFitter.getScan
    rw [hl]
    simp only
    split
    · rename_i h
      rw [h]
      simp
    · rfl
  have hfound : ∀ n, (SpecFitter.getScan pf f n a).toOption = (l.loadScan pf n a.front a.back).toOption := by
    intro n
    have := hget n a rfl rfl
    cases hg : SpecFitter.getScan pf f n a with
    | error e =>
      cases hx : l.loadScan pf n a.front a.back with
      | error e' => rfl
      | ok sc =>
        have h2 := (this sc).2 hx
        rw [hg] at h2
        cases h2
    | ok sc => rw [(this sc).1 hg]
  have hlist : ∀ ns : List Int, (ns.filterMap fun (n : Int) => (l.loadScan pf n a.front a.back).toOption).map (fun (sc : Scan) => l.loadScan pf sc.number a.front a.back)
      = (ns.filterMap fun (n : Int) => (l.loadScan pf n a.front a.back).toOption).map Except.ok ∧
      (ns.filterMap fun (n : Int) => (l.loadScan pf n a.front a.back).toOption).map Scan.number =
        ns.filter fun (n : Int) => (l.loadScan pf n a.front a.back).toOption.isSome := by
    intro ns
    induction ns with
    | nil => simp
    | cons n ns ih =>
      rcases hx : l.loadScan pf n a.front a.back with e | sc
      · simpa [hx, Except.toOption, List.filterMap_cons, List.filter_cons] using ih
      · have hnum := loadScan_number hx
        simp only [List.filterMap_cons, hx, Except.toOption, List.map_cons, hnum, List.filter_cons, Option.isSome_some, if_true]
        exact ⟨congrArg _ ih.1, congrArg _ ih.2⟩
  have hF : found = ns.filter fun (n : Int) => (l.loadScan pf n a.front a.back).toOption.isSome := by
    show (ns.filter _) = _
    congr 1
    funext n
    rw [hfound]
  have hscan : ∀ (scans : List Scan), scans = (ns.filterMap fun (n : Int) => (l.loadScan pf n a.front a.back).toOption) →
      ∀ rs, (scans.zipIdx.mapM fun (p : Scan × Nat) => fitScan true f.model f.curve p.1 { a with optimizeScaling := false } (d p.2)) = .ok rs ↔
        rs.length = found.length ∧ ∀ (k : Nat) (n : Int), found[k]? = some n → ∃ r, rs[k]? = some r ∧ r.number = n ∧
          SpecFitter.fitBody pf f n { a with optimizeScaling := false } (d k) = .ok r := by
    intro scans hs rs
    have e1 := (hlist ns).1
    have e2 := (hlist ns).2
    rw [← hs] at e1 e2
    rw [← hF] at e2
    rw [zipIdx_mapM (fun (sc : Scan) (k : Nat) => fitScan true f.model f.curve sc { a with optimizeScaling := false } (d k)), ← e2]
    have hk : ∀ (k : Nat) (sc : Scan), scans[k]? = some sc → l.loadScan pf sc.number a.front a.back = .ok sc := by
      intro k sc hk
      have := congrArg (fun (x : List (Res Scan)) => x[k]?) e1
      simp only [List.getElem?_map, hk, Option.map_some, Option.some.injEq] at this
      exact this
    have hb : ∀ (k : Nat) (sc : Scan), scans[k]? = some sc → SpecFitter.fitBody pf f sc.number { a with optimizeScaling := false } (d k) =
        fitScan true f.model f.curve sc { a with optimizeScaling := false } (d k) := by
      intro k sc h
      unfold SpecFitter.fitBody
      rw [(hget sc.number { a with optimizeScaling := false } rfl rfl sc).2 (hk k sc h), bind_ok]
    rw [List.length_map]
    refine and_congr Iff.rfl ⟨fun h k n hn => ?_, fun h k sc hsc => ?_⟩
    · rw [List.getElem?_map] at hn
      obtain ⟨sc, hsc, rfl⟩ := Option.map_eq_some_iff.1 hn
      obtain ⟨r, h1, h2⟩ := h k sc hsc
      refine ⟨r, h1, ?_, by rw [hb k sc hsc, h2]⟩
      obtain ⟨_, _, _, _, _, _, _, -, -, -, -, -, -, -, -, rfl⟩ := fitScan_ok h2
      rfl
    · obtain ⟨r, h1, -, h2⟩ := h k sc.number (by rw [List.getElem?_map, hsc]; rfl)
      exact ⟨r, h1, by rw [← hb k sc hsc, h2]⟩
  unfold SpecFitter.fitRangeBody
  rw [hl]
  simp only
  constructor
  · intro h
    obtain ⟨scans, h1, h⟩ := bind_eq_ok.1 h
    obtain ⟨rs, h2, h⟩ := bind_eq_ok.1 h
    obtain ⟨h3, h4⟩ := (C54_order _ _ _).1 h1
    refine ⟨fun n hn => ?_, rs, ?_⟩
    · rcases h3 n hn with ⟨sc, h5⟩ | h5
      · exact Or.inl ⟨sc, (hget n a rfl rfl sc).2 h5⟩
      · exact Or.inr ((herr n).2 h5)
    · obtain ⟨h5, h6⟩ := (hscan scans h4 rs).1 h2
      exact ⟨h5, h6, h⟩
  · rintro ⟨h1, rs, h2, h3, h4⟩
    refine bind_eq_ok.2 ⟨_, (C54_order _ _ _).2 ⟨fun n hn => ?_, rfl⟩, bind_eq_ok.2 ⟨rs, (hscan _ rfl rs).2 ⟨h2, h3⟩, h4⟩⟩
    rcases h1 n hn with ⟨sc, h5⟩ | h5
    · exact Or.inl ⟨sc, (hget n a rfl rfl sc).1 h5⟩
    · exact Or.inr ((herr n).1 h5)

/-- C83 for `FioFitter`: `fit_range` succeeds exactly if `fit` returns a result or `None` for every number and the results can be
collected; the results are those of individual fits in the order of the request. -/
theorem C83_fio (pf : Str → Option (Option ℝ)) (w : World) (f : FioFitter) (ns : List Int) (a : FitArgs) (d : Nat → Draws) (s : Series) :
    FioFitter.fitRangeBody pf w f ns a d = .ok s ↔
      ∃ os : List (Option FitResult), os.length = ns.length ∧
        (∀ (k : Nat) (n : Int), ns[k]? = some n → ∃ o, os[k]? = some o ∧ FioFitter.fitBody pf w f n a (d k) = .ok o) ∧
        Series.init (os.filterMap id) = .ok s := by
  unfold FioFitter.fitRangeBody
  rw [bind_eq_ok]
  constructor
  · rintro ⟨os, h1, h2⟩
    obtain ⟨h3, h4⟩ := (zipIdx_mapM (fun (n : Int) (k : Nat) => FioFitter.fitBody pf w f n a (d k)) ns os).1 h1
    exact ⟨os, h3, h4, h2⟩
  · rintro ⟨os, h1, h2, h3⟩
    exact ⟨os, (zipIdx_mapM (fun (n : Int) (k : Nat) => FioFitter.fitBody pf w f n a (d k)) ns os).2 ⟨h1, h2⟩, h3⟩

/-- C83 is false for ranges without reflectivity scans: instead of an empty series `ValueError` is raised. -/
theorem C83_empty (pf : Str → Option ℝ) (pf' : Str → Option (Option ℝ)) (w : World) (ns : List Int) (a : FitArgs) (d : Nat → Draws) :
    (∀ (f : SpecFitter) (l : SpecLoader), f.specLoader = some l → (∀ n ∈ ns, l.loadScan pf n a.front a.back = .error .notReflectivityScan) →
      SpecFitter.fitRangeBody pf f ns a d = .error .valueError) ∧
    ∀ f : FioFitter, (∀ (k : Nat) (n : Int), ns[k]? = some n → FioFitter.fitBody pf' w f n a (d k) = .ok none) →
      FioFitter.fitRangeBody pf' w f ns a d = .error .valueError := by
  constructor
  · intro f l hl h
    unfold SpecFitter.fitRangeBody
    rw [hl]
    simp only
    have : loadScans (fun (n : Int) => l.loadScan pf n a.front a.back) ns = .ok [] := by
      refine (C54_order _ _ _).2 ⟨fun n hn => Or.inr (h n hn), ?_⟩
      symm
      rw [List.filterMap_eq_nil_iff]
      intro n hn
      rw [h n hn]
      rfl
    rw [this]
    rfl
  · intro f h
    unfold FioFitter.fitRangeBody
    have : (ns.zipIdx.mapM fun (p : Int × Nat) => FioFitter.fitBody pf' w f p.1 a (d p.2)) = .ok (ns.map fun _ => none) := by
      refine (zipIdx_mapM (fun (n : Int) (k : Nat) => FioFitter.fitBody pf' w f n a (d k)) ns _).2 ⟨by simp, fun k n hn => ?_⟩
      exact ⟨none, by rw [List.getElem?_map, hn]; rfl, h k n hn⟩
    rw [this, bind_ok]
    have : (ns.map fun _ => (none : Option FitResult)).filterMap id = [] := by
      rw [List.filterMap_eq_nil_iff]
      simp
    rw [this]
    rfl

/-- A range with a missing number: the fit of the remaining one is collected. -/
example (d : Nat → Draws) : ∃ s, SpecFitter.fitRangeBody intTokens ⟨some (.trained (toyEnv (prepSample 0 1))),
    some (toyEnv (prepSample 0 1)), none, none, none, some demoLoader, none⟩ [2, 1] plainArgs d = .ok s ∧ s.numbers = [1] := by
  obtain ⟨r, h1, -, h3⟩ := demo_fit (d 0) ⟨some (.trained (toyEnv (prepSample 0 1))), some (toyEnv (prepSample 0 1)), none, none, none,
    some demoLoader, none⟩ rfl rfl rfl
  obtain ⟨sc, k1, -⟩ := demo_load
  have g1 : SpecFitter.getScan intTokens ⟨some (.trained (toyEnv (prepSample 0 1))),
    some (toyEnv (prepSample 0 1)), none, none, none, some demoLoader, none⟩ 1 plainArgs = .ok sc := by
    unfold SpecFitter.getScan
    have k1' : demoLoader.loadScan intTokens 1 plainArgs.front plainArgs.back = .ok sc := k1
    simp only
    rw [k1']
  have g2 : SpecFitter.getScan intTokens ⟨some (.trained (toyEnv (prepSample 0 1))),
    some (toyEnv (prepSample 0 1)), none, none, none, some demoLoader, none⟩ 2 plainArgs = .error .notReflectivityScan := rfl
  refine ⟨⟨[r], [r.number], [r.timestamp], [r.corrected], [r.qInput], [r.predicted], [r.qPrediction], r.params, [r.bestShift], r.sample⟩,
    (C83_spec _ _ _ _ _ _ (by simp)).2 ⟨?_, [r], ?_, ?_, rfl⟩, by rw [h3]⟩
  · intro n hn
    simp at hn
    rcases hn with rfl | rfl
    · exact Or.inr g2
    · exact Or.inl ⟨sc, g1⟩
  · simp [g1, g2, Except.toOption]
  · intro k n hn
    simp only [List.filter_cons, g1, g2, Except.toOption, List.filter_nil] at hn
    rcases k with _ | k
    · simp at hn
      subst hn
      exact ⟨r, rfl, h3, h1⟩
    · simp at hn

/-! ### C84: the list of scans -/

theorem mem_intRange (lo hi n : Int) : n ∈ intRange lo hi ↔ lo ≤ n ∧ n < hi := by
  unfold intRange
  rw [List.mem_map]
  constructor
  · rintro ⟨k, hk, rfl⟩
    rw [List.mem_range] at hk
    omega
  · rintro ⟨h1, h2⟩
    exact ⟨(n - lo).toNat, by rw [List.mem_range]; omega, by omega⟩

theorem intRange_sorted (lo hi : Int) : (intRange lo hi).Pairwise (· < ·) := by
  unfold intRange
  rw [List.pairwise_map]
  exact (List.pairwise_lt_range).imp (by intro a b h; omega)

theorem showNumbers_spec {keys : List Int} {lo hi : Option Int} {ns : List Int} (h : showNumbers keys lo hi = .ok ns) :
    ns.Pairwise (· < ·) ∧ ∀ n, n ∈ ns ↔ (∀ a, lo = some a → a ≤ n) ∧ (∀ b, hi = some b → n ≤ b) ∧ (∃ k ∈ keys, k ≤ n) ∧ ∃ k ∈ keys, n ≤ k := by
  unfold showNumbers at h
  split at h
  · rename_i mx mn h1 h2
    obtain ⟨a1, a2⟩ := List.max?_eq_some_iff.1 h1
    obtain ⟨b1, b2⟩ := List.min?_eq_some_iff.1 h2
    simp only [Except.ok.injEq] at h
    subst h
    refine ⟨intRange_sorted _ _, fun n => ?_⟩
    have e1 : (∃ k ∈ keys, k ≤ n) ↔ mn ≤ n := ⟨fun ⟨k, hk, h⟩ => le_trans (b2 k hk) h, fun h => ⟨mn, b1, h⟩⟩
    have e2 : (∃ k ∈ keys, n ≤ k) ↔ n ≤ mx := ⟨fun ⟨k, hk, h⟩ => le_trans h (a2 k hk), fun h => ⟨mx, a1, h⟩⟩
    rw [mem_intRange, e1, e2]
    cases lo <;> cases hi <;> simp <;> omega
  · cases h

theorem dictGet_missing {β : Type} {info : List (Int × β)} {m : Int} {e : PyErr} (h : dictGet info m = .error e) :
    m ∉ info.map Prod.fst := by
  induction info with
  | nil => simp
  | cons p info ih =>
    obtain ⟨k, v⟩ := p
    rw [dictGet] at h
    split at h
    · cases h
    · rename_i hne
      rw [List.map_cons, List.mem_cons]
      rintro (hk | hk)
      · exact hne hk.symm
      · exact ih h hk

/-- C84 for `FioFitter`: the entries are in increasing order, there is one for every number within the limits and between the first
and the last scan, and it says whether there is such a scan. -/
theorem C84_fio (pf : Str → Option (Option ℝ)) (w : World) (f : FioFitter) (lo hi : Option Int) (out : List (ScanLine FioInfo))
    (h : FioFitter.showBody pf w f lo hi = .ok out) :
    ∃ l info, f.loader = some l ∧ w.scanInfo pf l.stem = .ok info ∧ (out.map ScanLine.number).Pairwise (· < ·) ∧
      (∀ n, n ∈ out.map ScanLine.number ↔ (∀ a, lo = some a → a ≤ n) ∧ (∀ b, hi = some b → n ≤ b) ∧
        (∃ k ∈ info.map Prod.fst, k ≤ n) ∧ ∃ k ∈ info.map Prod.fst, n ≤ k) ∧
      (∀ n i, .found n i ∈ out → dictGet info n = .ok i) ∧ ∀ n, .notFound n ∈ out → n ∉ info.map Prod.fst := by
  unfold FioFitter.showBody at h
  cases hl : f.loader with
  | none => rw [hl] at h; cases h
  | some l =>
    rw [hl] at h
    simp only at h
    obtain ⟨info, h1, h⟩ := bind_eq_ok.1 h
    obtain ⟨ns, h2, h⟩ := bind_eq_ok.1 h
    simp only [pure, Except.pure, Except.ok.injEq] at h
    subst h
    have hn : (ns.map (fioLine info)).map ScanLine.number = ns := by
      rw [List.map_map]
      conv_rhs => rw [← List.map_id ns]
      apply List.map_congr_left
      intro n _
      simp only [Function.comp, fioLine]
      split <;> rfl
    obtain ⟨k1, k2⟩ := showNumbers_spec h2
    refine ⟨l, info, rfl, h1, by rw [hn]; exact k1, by rw [hn]; exact k2, ?_, ?_⟩
    · intro n i hm
      obtain ⟨m, -, he⟩ := List.mem_map.1 hm
      unfold fioLine at he
      split at he
      · cases he
      · rename_i e hd
        injection he with e1 e2
        rw [← e1, ← e2]
        exact hd
    · intro n hm hk
      obtain ⟨m, -, he⟩ := List.mem_map.1 hm
      unfold fioLine at he
      split at he
      · rename_i e hd
        injection he with e1
        subst e1
        exact dictGet_missing hd hk
      · cases he

/-- C84 for `SpecFitter` and scans with a `#D` line. -/
theorem C84_spec_partial (f : SpecFitter) (lo hi : Option Int) (out : List (ScanLine (Str × Str)))
    (h : f.showBody lo hi = .ok out) :
    ∃ l, f.specLoader = some l ∧ (out.map ScanLine.number).Pairwise (· < ·) ∧
      (∀ n, n ∈ out.map ScanLine.number ↔ (∀ a, lo = some a → a ≤ n) ∧ (∀ b, hi = some b → n ≤ b) ∧
        (∃ k ∈ l.parser.index.map Prod.fst, k ≤ n) ∧ ∃ k ∈ l.parser.index.map Prod.fst, n ≤ k) ∧
      (∀ n c t, .found n (c, t) ∈ out → ∃ e, l.parser.index.get n = .ok e ∧ e.command = some c ∧ e.time = some t) ∧
      ∀ n, .notFound n ∈ out → ∀ e, l.parser.index.get n = .ok e → e.command = none ∨ e.time = none := by
  unfold SpecFitter.showBody at h
  cases hl : f.specLoader with
  | none => rw [hl] at h; cases h
  | some l =>
    rw [hl] at h
    simp only at h
    obtain ⟨ns, h2, h⟩ := bind_eq_ok.1 h
    simp only [pure, Except.pure, Except.ok.injEq] at h
    subst h
    have hn : (ns.map l.parser.line).map ScanLine.number = ns := by
      rw [List.map_map]
      conv_rhs => rw [← List.map_id ns]
      apply List.map_congr_left
      intro n _
      simp only [Function.comp, SpecParser.line]
      split
      · rfl
      · split <;> rfl
    obtain ⟨k1, k2⟩ := showNumbers_spec h2
    refine ⟨l, rfl, by rw [hn]; exact k1, by rw [hn]; exact k2, ?_, ?_⟩
    · intro n c t hm
      obtain ⟨m, -, he⟩ := List.mem_map.1 hm
      unfold SpecParser.line at he
      split at he
      · cases he
      · rename_i e hd
        split at he
        · rename_i c' t' hc ht
          injection he with e1 e2
          injection e2 with e2 e3
          subst e1 e2 e3
          exact ⟨e, hd, hc, ht⟩
        · cases he
    · intro n hm e hg
      obtain ⟨m, -, he⟩ := List.mem_map.1 hm
      unfold SpecParser.line at he
      split at he
      · rename_i e' hd
        injection he with e1
        subst e1
        rw [hd] at hg
        cases hg
      · rename_i e' hd
        split at he
        · cases he
        · rename_i hne
          injection he with e1
          subst e1
          rw [hd] at hg
          injection hg with hg
          subst hg
          by_contra hcon
          push Not at hcon
          obtain ⟨c, hc⟩ := Option.ne_none_iff_exists'.1 hcon.1
          obtain ⟨t, ht⟩ := Option.ne_none_iff_exists'.1 hcon.2
          exact hne c t hc ht

/-- C84 is false for `SpecFitter`: a scan without a `#D` line is listed as not found, although it can be looked up. -/
theorem C84_hidden : ∃ (p : SpecParser), SpecParser.init 10 ["#S 1 a2scan".toList, "#L tth  det".toList, "1 3".toList, []] = .ok p ∧
    (∃ t, p.extractScan intTokens 1 = .ok t) ∧
    SpecFitter.showBody { specLoader := some { demoLoader with parser := p } } none none = .ok [.notFound 1] :=
  ⟨⟨["#S 1 a2scan".toList, "#L tth  det".toList, "1 3".toList, []], [(1, ⟨0, 2, "a2scan".toList, none, some 1⟩)]⟩, rfl,
    ⟨⟨["tth".toList, "det".toList], [[((1 : Int) : ℝ), ((3 : Int) : ℝ)]]⟩, rfl⟩, rfl⟩

/-- C84: without a file nothing is listed. -/
theorem C84_no_file (pf : Str → Option (Option ℝ)) (w : World) (lo hi : Option Int) :
    (∀ f : SpecFitter, f.specLoader = none → f.showBody lo hi = .error .attributeError) ∧
    ∀ f : FioFitter, f.loader = none → FioFitter.showBody pf w f lo hi = .error .attributeError := by
  constructor
  · intro f h
    unfold SpecFitter.showBody
    rw [h]
  · intro f h
    unfold FioFitter.showBody
    rw [h]

/-- C84: a file without scans cannot be listed. -/
theorem C84_empty (f : SpecFitter) (l : SpecLoader) (hl : f.specLoader = some l) (h : l.parser.index = []) (lo hi : Option Int) :
    f.showBody lo hi = .error .valueError := by
  unfold SpecFitter.showBody
  rw [hl]
  simp only
  rw [h]
  rfl

/-- The list for the demonstration file. -/
example : SpecFitter.showBody { specLoader := some demoLoader } (some (-3)) (some 8) = .ok [.found 1 ("a2scan".toList, "Mon".toList)] := rfl

end Verif.Props
