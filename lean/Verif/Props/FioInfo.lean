import Verif.Props.P08
import Verif.Props.FitterCases

/-!
# C53, C54, C81, C84: which .fio scans count as reflectivity scans

A scan counts as a reflectivity scan if and only if both motor names occur in its command. The theorems say so in terms of
`List.IsInfix`, for the listing (`scan_info`), the loader (`load_scan`) and the fitter (`fit`, `show_scans`).
-/

namespace Verif.Props
open Verif.Py Verif.Model Verif.Spec

theorem isTheta2Theta_ok {theta tt : Str} {c : Option Str} {r : Bool} (h : isTheta2Theta theta tt c = .ok r) :
    ∃ s, c = some s ∧ (r = true ↔ theta <:+: s ∧ tt <:+: s) := by
  cases c with
  | none => cases h
  | some s =>
    unfold isTheta2Theta at h
    simp only [Except.ok.injEq] at h
    subst h
    exact ⟨s, rfl, by rw [Bool.and_eq_true, contains_iff, contains_iff]⟩

theorem dictGet_dictSet {κ β : Type} [DecidableEq κ] (d : List (κ × β)) (k : κ) (v : β) (n : κ) :
    dictGet (dictSet d k v) n = if k = n then .ok v else dictGet d n := by
  induction d with
  | nil => rfl
  | cons p d ih =>
    obtain ⟨k', v'⟩ := p
    rw [dictSet]
    by_cases h : k' = k
    · rw [if_pos h, dictGet, dictGet]
      subst h
      split <;> rfl
    · rw [if_neg h, dictGet, dictGet, ih]
      by_cases h1 : k' = n
      · rw [if_pos h1, if_neg (fun hk : k = n => h (h1.trans hk.symm)), if_pos h1]
      · rw [if_neg h1, if_neg h1]

theorem dictSet_mem_keys {κ β : Type} [DecidableEq κ] (d : List (κ × β)) (k : κ) (v : β) (n : κ) :
    n ∈ (dictSet d k v).map Prod.fst ↔ n = k ∨ n ∈ d.map Prod.fst := by
  induction d with
  | nil => simp [dictSet]
  | cons p d ih =>
    obtain ⟨k', v'⟩ := p
    rw [dictSet]
    by_cases h : k' = k
    · rw [if_pos h]
      subst h
      simp only [List.map_cons, List.mem_cons]
      tauto
    · rw [if_neg h]
      simp only [List.map_cons, List.mem_cons] at ih ⊢
      rw [ih]
      tauto

/-- The flag and the file of an entry belong to a listed file. -/
def InfoOf (theta tt : Str) (command : Str → Res (Option Str)) (file : Str) (i : FioInfo) : Prop :=
  i.file = file ∧ ∃ c, command file = .ok (some c) ∧ (i.reflectivity = true ↔ theta <:+: c ∧ tt <:+: c)

/-- Different numbers have different files. -/
theorem fioName_inj {stem : Str} {m n : Int} (h : fioName stem m = fioName stem n) : m = n := by
  have h1 := C53_number stem m
  rw [h, C53_number] at h1
  cases h1
  rfl

theorem scanInfo_fold {theta tt : Str} {command : Str → Res (Option Str)} (l : List (Int × Str)) :
    ∀ (d out : List (Int × FioInfo)), l.foldlM (fun d (p : Int × Str) => do
        let c ← command p.2
        let r ← isTheta2Theta theta tt c
        return dictSet d p.1 (⟨p.2, r⟩ : FioInfo)) d = .ok out →
      (∀ n, n ∈ out.map Prod.fst ↔ n ∈ d.map Prod.fst ∨ n ∈ l.map Prod.fst) ∧
      ∀ n i, dictGet out n = .ok i → dictGet d n = .ok i ∨ ∃ f, (n, f) ∈ l ∧ InfoOf theta tt command f i := by
  induction l with
  | nil =>
    intro d out h
    cases h
    exact ⟨fun n => by simp, fun n i h => .inl h⟩
  | cons p l ih =>
    intro d out h
    obtain ⟨k, f⟩ := p
    rw [List.foldlM_cons] at h
    obtain ⟨d', h1, h⟩ := bind_eq_ok.1 h
    obtain ⟨c, hc, h1⟩ := bind_eq_ok.1 h1
    obtain ⟨r, hr, h1⟩ := bind_eq_ok.1 h1
    cases h1
    obtain ⟨k1, k2⟩ := ih _ _ h
    obtain ⟨s, rfl, hs⟩ := isTheta2Theta_ok hr
    constructor
    · intro n
      rw [k1, dictSet_mem_keys, List.map_cons, List.mem_cons]
      tauto
    · intro n i hi
      rcases k2 n i hi with hi | ⟨g, hg, hi⟩
      · rw [dictGet_dictSet] at hi
        split at hi
        · rename_i hk
          cases hi
          simp only at hk
          subst hk
          exact .inr ⟨f, List.mem_cons_self .., rfl, s, hc, hs⟩
        · exact .inl hi
      · exact .inr ⟨g, List.mem_cons_of_mem _ hg, hi⟩

theorem zip_of_forall₂ {stem : Str} {fs : List Str} {ns : List Int} (h : List.Forall₂ (fun f n => f = fioName stem n) fs ns) :
    (ns.zip fs).map Prod.fst = ns ∧ ∀ n f, (n, f) ∈ ns.zip fs → f = fioName stem n := by
  induction h with
  | nil => exact ⟨rfl, by simp⟩
  | cons e _ ih =>
    refine ⟨by rw [List.zip_cons_cons, List.map_cons, ih.1], ?_⟩
    intro n f hm
    rw [List.zip_cons_cons, List.mem_cons] at hm
    rcases hm with hm | hm
    · injection hm with h1 h2
      rw [h1, h2, e]
    · exact ih.2 n f hm

/-- C53, scan information: if all files with the prefix belong to the experiment, the dictionary has exactly the numbers of the
existing files as keys; every entry names the file of its number, and its flag is set exactly if the command in this file contains
both motor names. -/
theorem C53_info_partial (stem theta tt : Str) (files : List Str) (command : Str → Res (Option Str))
    (h : ∀ f ∈ files, fioMatch stem f = true → ∃ n, f = fioName stem n) (info : List (Int × FioInfo))
    (hi : fioScanInfo stem theta tt files command = .ok info) :
    (∀ n, n ∈ info.map Prod.fst ↔ fioName stem n ∈ files) ∧
    ∀ n i, dictGet info n = .ok i → i.file = fioName stem n ∧ ∃ c, command (fioName stem n) = .ok (some c) ∧
      (i.reflectivity = true ↔ theta <:+: c ∧ tt <:+: c) := by
  obtain ⟨ns, h1, h2, h3⟩ := C53_listing_partial stem files h
  unfold fioScanInfo at hi
  rw [h1, bind_ok] at hi
  obtain ⟨k1, k2⟩ := scanInfo_fold _ _ _ hi
  obtain ⟨z1, z2⟩ := zip_of_forall₂ h2
  constructor
  · intro n
    rw [k1, z1, ← h3]
    simp
  · intro n i hd
    rcases k2 n i hd with hd | ⟨f, hf, ho⟩
    · cases hd
    · rw [z2 n f hf] at ho
      exact ho

/-- The listing succeeds exactly if every file can be read and has a command. -/
theorem scanInfo_fold_total {theta tt : Str} {command : Str → Res (Option Str)} (l : List (Int × Str))
    (h : ∀ p ∈ l, ∃ c, command p.2 = .ok (some c)) :
    ∀ (d : List (Int × FioInfo)), ∃ out, l.foldlM (fun d (p : Int × Str) => do
        let c ← command p.2
        let r ← isTheta2Theta theta tt c
        return dictSet d p.1 (⟨p.2, r⟩ : FioInfo)) d = .ok out := by
  induction l with
  | nil => exact fun d => ⟨d, rfl⟩
  | cons p l ih =>
    intro d
    obtain ⟨c, hc⟩ := h p (List.mem_cons_self ..)
    obtain ⟨out, ho⟩ := ih (fun q hq => h q (List.mem_cons_of_mem _ hq)) (dictSet d p.1 ⟨p.2, contains c theta && contains c tt⟩)
    refine ⟨out, ?_⟩
    rw [List.foldlM_cons, hc]
    exact ho

/-- C53: the scan information of such a folder exists if every file of the experiment can be read and has a command. -/
theorem C53_info_exists (stem theta tt : Str) (files : List Str) (command : Str → Res (Option Str))
    (h : ∀ f ∈ files, fioMatch stem f = true → ∃ n, f = fioName stem n)
    (hc : ∀ n, fioName stem n ∈ files → ∃ c, command (fioName stem n) = .ok (some c)) :
    ∃ info, fioScanInfo stem theta tt files command = .ok info := by
  obtain ⟨ns, h1, h2, h3⟩ := C53_listing_partial stem files h
  unfold fioScanInfo
  rw [h1, bind_ok]
  apply scanInfo_fold_total
  rintro ⟨n, f⟩ hp
  have hf := (zip_of_forall₂ h2).2 n f hp
  have hn : n ∈ ns := (List.of_mem_zip hp).1
  subst hf
  exact hc n ((h3 n).1 hn)

/-- The hypotheses of `C53_info_partial` are met by a folder with two scans of which one is a reflectivity scan. -/
example : ∃ info, fioScanInfo ['a'] omS ttS [fioName ['a'] 1, fioName ['a'] 2]
      (fun f => .ok (some (if f = fioName ['a'] 1 then "dscan om 0 1 tt 0 2".toList else "ascan om 0 1".toList))) = .ok info ∧
    dictGet info 1 = .ok ⟨fioName ['a'] 1, true⟩ ∧ dictGet info 2 = .ok ⟨fioName ['a'] 2, false⟩ := by
  obtain ⟨info, h⟩ := C53_info_exists ['a'] omS ttS [fioName ['a'] 1, fioName ['a'] 2]
    (fun f => .ok (some (if f = fioName ['a'] 1 then "dscan om 0 1 tt 0 2".toList else "ascan om 0 1".toList)))
    (by
      intro f hf _
      simp only [List.mem_cons, List.not_mem_nil, or_false] at hf
      rcases hf with rfl | rfl
      · exact ⟨_, rfl⟩
      · exact ⟨_, rfl⟩)
    (fun n _ => ⟨_, rfl⟩)
  obtain ⟨k1, k2⟩ := C53_info_partial _ _ _ _ _ (by
      intro f hf _
      simp only [List.mem_cons, List.not_mem_nil, or_false] at hf
      rcases hf with rfl | rfl
      · exact ⟨_, rfl⟩
      · exact ⟨_, rfl⟩) info h
  refine ⟨info, h, ?_, ?_⟩
  · obtain ⟨⟨a, b⟩, hv⟩ := dictGet_of_mem ((k1 1).2 (by simp))
    obtain ⟨e1, c, hc, e2⟩ := k2 1 _ hv
    rw [hv]
    simp only at e1 e2
    have hb : b = true := by
      rw [e2]
      have : c = "dscan om 0 1 tt 0 2".toList := by
        rw [if_pos rfl] at hc
        cases hc
        rfl
      rw [this]
      exact ⟨by decide, by decide⟩
    rw [e1, hb]
  · obtain ⟨⟨a, b⟩, hv⟩ := dictGet_of_mem ((k1 2).2 (by simp))
    obtain ⟨e1, c, hc, e2⟩ := k2 2 _ hv
    rw [hv]
    simp only at e1 e2
    have hb : b = false := by
      rw [← Bool.not_eq_true, e2]
      have : c = "ascan om 0 1".toList := by
        rw [if_neg (fun hh => absurd (fioName_inj hh) (by decide))] at hc
        cases hc
        rfl
      rw [this]
      exact fun hh => absurd hh.2 (by decide)
    rw [e1, hb]

/-! ### C54: the loader -/

/-- C54 for .fio scans: `load_scan` rejects a scan that can be read exactly if one of the motor names does not occur in its command;
otherwise the scan is loaded. -/
theorem C54_fio_skipped (pf : Str → Option (Option ℝ)) (files : Str → Option (List Str))
    (images : Str → List Str → Res (List (Str × Stack))) (s : FioLoader) (n : Int) (sc : P08Scan)
    (hs : p08Load pf (images (fioName s.stem n)) (files (fioName s.stem n)) = .ok sc)
    (front back : Option Int) (roi : Option (List Int)) (det : Str) :
    (¬ (s.theta <:+: sc.cmd ∧ s.twoTheta <:+: sc.cmd) →
      s.loadScan pf files images n front back roi det = .error .notReflectivityScan) ∧
    (s.theta <:+: sc.cmd ∧ s.twoTheta <:+: sc.cmd →
      s.loadScan pf files images n front back roi det = s.load sc n front back roi det) := by
  have hx : ∀ r, isTheta2Theta s.theta s.twoTheta (some sc.cmd) = .ok r →
      s.extractScan pf files images n = .ok (sc, r) := by
    intro r hr
    unfold FioLoader.extractScan
    simp only
    rw [hs, bind_ok, hr]
    rfl
  have hr := hx _ rfl
  obtain ⟨c, hc, hf⟩ := isTheta2Theta_ok (theta := s.theta) (tt := s.twoTheta) (c := some sc.cmd) rfl
  cases hc
  unfold FioLoader.loadScan
  rw [hr, bind_ok]
  simp only
  constructor
  · intro hn
    rw [if_neg (fun h => hn (hf.1 h))]
  · intro hn
    rw [if_pos (hf.2 hn)]

/-- C54 for .fio scans: a scan without one of the motors is omitted from the list, a scan with both motors that loads is kept. -/
theorem C54_fio_list (pf : Str → Option (Option ℝ)) (files : Str → Option (List Str))
    (images : Str → List Str → Res (List (Str × Stack))) (s : FioLoader) (n : Int) (ns : List Int) (sc : P08Scan)
    (hs : p08Load pf (images (fioName s.stem n)) (files (fioName s.stem n)) = .ok sc)
    (front back : Option Int) (roi : Option (List Int)) (det : Str) :
    (¬ (s.theta <:+: sc.cmd ∧ s.twoTheta <:+: sc.cmd) →
      loadScans (fun n => s.loadScan pf files images n front back roi det) (n :: ns) =
        loadScans (fun n => s.loadScan pf files images n front back roi det) ns) ∧
    (s.theta <:+: sc.cmd ∧ s.twoTheta <:+: sc.cmd → ∀ r rs, s.load sc n front back roi det = .ok r →
      loadScans (fun n => s.loadScan pf files images n front back roi det) ns = .ok rs →
      loadScans (fun n => s.loadScan pf files images n front back roi det) (n :: ns) = .ok (r :: rs)) := by
  obtain ⟨h1, h2⟩ := C54_fio_skipped pf files images s n sc hs front back roi det
  constructor
  · intro hn
    rw [loadScans, h1 hn]
  · intro hn r rs hr hrs
    rw [loadScans, h2 hn, hr, hrs]
    rfl

/-- A scan file with two motors and one with one motor can be read, as `C54_fio_skipped` and `C81_fio_command` assume. -/
theorem fio_demo : (∃ sc, p08Load (fun _ => none) (fun _ => .ok []) (some ["%c".toList, "mesh om 0 1 tt 0 2".toList]) = .ok sc ∧
      omS <:+: sc.cmd ∧ ttS <:+: sc.cmd) ∧
    ∃ sc, p08Load (fun _ => none) (fun _ => .ok []) (some ["%c".toList, "mesh om 0 1".toList]) = .ok sc ∧
      ¬ (omS <:+: sc.cmd ∧ ttS <:+: sc.cmd) :=
  ⟨⟨⟨"mesh om 0 1 tt 0 2".toList, [], [], [], [], [], none, false⟩, rfl, by decide, by decide⟩,
    ⟨"mesh om 0 1".toList, [], [], [], [], [], none, false⟩, rfl, fun h => absurd h.2 (by decide)⟩

/-! ### C81 and C84: the fitter -/

/-- C81 for `FioFitter`: `fit` returns `None` for every scan whose command lacks one of the motors. -/
theorem C81_fio_command (pf : Str → Option (Option ℝ)) (w : World) (f : FioFitter) (l : FioLoader) (hl : f.loader = some l) (n : Int)
    (a : FitArgs) (d : Draws) (sc : P08Scan) (hs : p08Load pf (w.images (fioName l.stem n)) (w.read (fioName l.stem n)) = .ok sc)
    (hc : ¬ (l.theta <:+: sc.cmd ∧ l.twoTheta <:+: sc.cmd)) : FioFitter.fitBody pf w f n a d = .ok none := by
  unfold FioFitter.fitBody FioFitter.getScan
  rw [hl]
  simp only
  rw [(C54_fio_skipped pf w.read w.images l n sc hs _ _ _ _).1 hc]
  rfl

/-- C84 for `FioFitter`: if all files with the prefix belong to the experiment, every line of `show_scans` for a scan names the file of its
number, which exists, and marks the scan as a reflectivity scan exactly if `om` and `tt` occur in its command; the other lines belong to numbers
without a file. -/
theorem C84_fio_flag_partial (pf : Str → Option (Option ℝ)) (w : World) (f : FioFitter) (lo hi : Option Int)
    (out : List (ScanLine FioInfo)) (h : FioFitter.showBody pf w f lo hi = .ok out) (l : FioLoader) (hl : f.loader = some l)
    (hp : ∀ p ∈ w.files, fioMatch l.stem p.1 = true → ∃ n, p.1 = fioName l.stem n) :
    (∀ n i, .found n i ∈ out → i.file = fioName l.stem n ∧ fioName l.stem n ∈ w.files.map Prod.fst ∧
      ∃ c, w.command pf (fioName l.stem n) = .ok (some c) ∧ (i.reflectivity = true ↔ omS <:+: c ∧ ttS <:+: c)) ∧
    ∀ n, .notFound n ∈ out → fioName l.stem n ∉ w.files.map Prod.fst := by
  obtain ⟨l', info, hl', h1, -, -, h2, h3⟩ := C84_fio pf w f lo hi out h
  rw [hl] at hl'
  cases hl'
  have hp' : ∀ g ∈ w.files.map Prod.fst, fioMatch l.stem g = true → ∃ n, g = fioName l.stem n := by
    intro g hg hm
    obtain ⟨p, hpm, rfl⟩ := List.mem_map.1 hg
    exact hp p hpm hm
  obtain ⟨k1, k2⟩ := C53_info_partial _ _ _ _ _ hp' info h1
  constructor
  · intro n i hm
    have hd := h2 n i hm
    obtain ⟨e1, e2⟩ := k2 n i hd
    refine ⟨e1, (k1 n).1 ?_, e2⟩
    by_contra hk
    have : ∀ (info : List (Int × FioInfo)), n ∉ info.map Prod.fst → dictGet info n = .error .keyError := by
      intro info
      induction info with
      | nil => intro _; rfl
      | cons q info ih =>
        obtain ⟨k, v⟩ := q
        intro hq
        rw [List.map_cons, List.mem_cons, not_or] at hq
        rw [dictGet, if_neg (fun hh => hq.1 hh.symm)]
        exact ih hq.2
    rw [this info hk] at hd
    cases hd
  · intro n hm hf
    exact h3 n hm ((k1 n).2 hf)

/-- A folder with a scan of both motors and one of a single motor. -/
def demoFolder : World :=
  ⟨[(fioName ['a'] 1, ["%c".toList, "mesh om 0 1 tt 0 2".toList]), (fioName ['a'] 2, ["%c".toList, "mesh om 0 1".toList])], fun _ _ => .ok []⟩

theorem demoFolder_commands : demoFolder.command (fun _ => none) (fioName ['a'] 1) = .ok (some "mesh om 0 1 tt 0 2".toList) ∧
    demoFolder.command (fun _ => none) (fioName ['a'] 2) = .ok (some "mesh om 0 1".toList) := by
  have h : ¬ (fioName ['a'] 1 = fioName ['a'] 2) := fun h => absurd (fioName_inj h) (by decide)
  have h1 : demoFolder.read (fioName ['a'] 1) = some ["%c".toList, "mesh om 0 1 tt 0 2".toList] := by
    unfold World.read demoFolder
    rw [List.find?_cons_of_pos (by exact decide_eq_true rfl)]
    rfl
  have h2 : demoFolder.read (fioName ['a'] 2) = some ["%c".toList, "mesh om 0 1".toList] := by
    unfold World.read demoFolder
    rw [List.find?_cons_of_neg (by simpa using h), List.find?_cons_of_pos (by exact decide_eq_true rfl)]
    rfl
  unfold World.command
  rw [h1, h2]
  exact ⟨rfl, rfl⟩

theorem demoFolder_files : ∀ p ∈ demoFolder.files, ∃ n, (n = 1 ∨ n = 2) ∧ p.1 = fioName ['a'] n := by
  intro p hp
  unfold demoFolder at hp
  simp only [List.mem_cons, List.not_mem_nil, or_false] at hp
  rcases hp with rfl | rfl
  · exact ⟨1, .inl rfl, rfl⟩
  · exact ⟨2, .inr rfl, rfl⟩

/-- The hypotheses of `C84_fio_flag_partial` are met by this folder; the two scans are told apart. -/
example (l : FioLoader) (hl : l.stem = ['a']) :
    (∀ p ∈ demoFolder.files, fioMatch l.stem p.1 = true → ∃ n, p.1 = fioName l.stem n) ∧
    ∃ out, FioFitter.showBody (fun _ => none) demoFolder { loader := some l } none none = .ok out ∧
      (∃ i, .found 1 i ∈ out ∧ i.reflectivity = true) ∧ ∃ i, .found 2 i ∈ out ∧ i.reflectivity = false := by
  have hp : ∀ p ∈ demoFolder.files, fioMatch l.stem p.1 = true → ∃ n, p.1 = fioName l.stem n := by
    intro p hp _
    obtain ⟨n, -, h⟩ := demoFolder_files p hp
    exact ⟨n, by rw [hl, h]⟩
  have hp' : ∀ g ∈ demoFolder.files.map Prod.fst, fioMatch ['a'] g = true → ∃ n, g = fioName ['a'] n := by
    intro g hg _
    obtain ⟨p, hpm, rfl⟩ := List.mem_map.1 hg
    obtain ⟨n, -, h⟩ := demoFolder_files p hpm
    exact ⟨n, h⟩
  obtain ⟨info, h⟩ := C53_info_exists ['a'] omS ttS (demoFolder.files.map Prod.fst) (demoFolder.command fun _ => none) hp' (by
    intro n hn
    obtain ⟨p, hpm, he⟩ := List.mem_map.1 hn
    obtain ⟨m, hm, h⟩ := demoFolder_files p hpm
    rw [← he, h]
    rcases hm with rfl | rfl
    · exact ⟨_, demoFolder_commands.1⟩
    · exact ⟨_, demoFolder_commands.2⟩)
  obtain ⟨k1, k2⟩ := C53_info_partial _ _ _ _ _ hp' info h
  have m1 : (1 : Int) ∈ info.map Prod.fst := (k1 1).2 (by unfold demoFolder; simp)
  have m2 : (2 : Int) ∈ info.map Prod.fst := (k1 2).2 (by unfold demoFolder; simp)
  have hns : ∃ ns, showNumbers (info.map Prod.fst) none none = .ok ns := by
    unfold showNumbers
    generalize hk : info.map Prod.fst = ks at m1
    cases ks with
    | nil => cases m1
    | cons k ks => exact ⟨_, rfl⟩
  obtain ⟨ns, hns⟩ := hns
  obtain ⟨-, hm⟩ := showNumbers_spec hns
  refine ⟨hp, ns.map (fioLine info), ?_, ?_⟩
  · unfold FioFitter.showBody World.scanInfo
    simp only
    rw [hl, h, bind_ok, hns]
    rfl
  · constructor
    · obtain ⟨i, hi⟩ := dictGet_of_mem m1
      obtain ⟨-, c, hc, hf⟩ := k2 1 i hi
      rw [demoFolder_commands.1] at hc
      cases hc
      refine ⟨i, List.mem_map.2 ⟨1, (hm 1).2 ⟨by simp, by simp, ⟨1, m1, le_refl _⟩, ⟨1, m1, le_refl _⟩⟩, ?_⟩, hf.2 ⟨by decide, by decide⟩⟩
      unfold fioLine
      rw [hi]
    · obtain ⟨i, hi⟩ := dictGet_of_mem m2
      obtain ⟨-, c, hc, hf⟩ := k2 2 i hi
      rw [demoFolder_commands.2] at hc
      cases hc
      refine ⟨i, List.mem_map.2 ⟨2, (hm 2).2 ⟨by simp, by simp, ⟨2, m2, le_refl _⟩, ⟨2, m2, le_refl _⟩⟩, ?_⟩, ?_⟩
      · unfold fioLine
        rw [hi]
      · rw [← Bool.not_eq_true, hf]
        exact fun hh => absurd hh.2 (by decide)

end Verif.Props
