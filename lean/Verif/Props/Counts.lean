import Verif.Props.Loaders
import Verif.Props.Simulate
import Verif.Model.Fitters

/-!
# C115: the unit of the measured intensity does not matter
-/

namespace Verif.Props
open Verif.Py Verif.Model

/-- All values multiplied by `c`. -/
noncomputable def times (c : ℝ) (l : List ℝ) : List ℝ := l.map fun (x : ℝ) => c * x

/-- A scan with all intensities multiplied by `c`. -/
noncomputable def countTimes (c : ℝ) (s : Scan) : Scan := { s with raw := times c s.raw }

theorem map_bind {α β γ : Type} (g : α → β) (x : Res α) (f : β → Res γ) : (Except.map g x >>= f) = x >>= fun a => f (g a) := by
  cases x <;> rfl

theorem bind_map {α β γ : Type} (g : β → γ) (x : Res α) (f : α → Res β) : Except.map g (x >>= f) = x >>= fun a => Except.map g (f a) := by
  cases x <;> rfl

theorem ew_left {α β γ : Type} (f : α → β → γ) (g : α → α) (h : γ → γ) (hf : ∀ x y, f (g x) y = h (f x y)) (a : List α) (b : List β) :
    ew f (a.map g) b = Except.map (List.map h) (ew f a b) := by
  unfold ew
  rw [List.length_map]
  split
  · rw [List.zipWith_map_left]
    show _ = Except.ok (List.map h _)
    rw [List.map_zipWith]
    simp only [hf]
  · rcases a with _ | ⟨x, _ | ⟨x', a⟩⟩ <;> rcases b with _ | ⟨y, _ | ⟨y', b⟩⟩ <;> simp [hf, Except.map]

theorem ew_right {α β γ : Type} (f : α → β → γ) (g : β → β) (h : γ → γ) (hf : ∀ x y, f x (g y) = h (f x y)) (a : List α) (b : List β) :
    ew f a (b.map g) = Except.map (List.map h) (ew f a b) := by
  unfold ew
  rw [List.length_map]
  split
  · rw [List.zipWith_map_right]
    show _ = Except.ok (List.map h _)
    rw [List.map_zipWith]
    simp only [hf]
  · rcases a with _ | ⟨x, _ | ⟨x', a⟩⟩ <;> rcases b with _ | ⟨y, _ | ⟨y', b⟩⟩ <;> simp [hf, Except.map]

theorem finite_map {α : Type} (g : α → α) (l : List (Option α)) : finite (l.map (Option.map g)) = Except.map (List.map g) (finite l) := by
  unfold finite
  induction l with
  | nil => rfl
  | cons o l ih =>
    rw [List.map_cons, mapM_cons, mapM_cons, ih]
    cases o with
    | none => rfl
    | some a =>
      simp only [Option.map_some, bind_ok]
      cases List.mapM (m := Res) _ l <;> rfl

theorem slice_map {α β : Type} (f : α → β) (l : List α) (lo hi : Option Int) : slice (l.map f) lo hi = (slice l lo hi).map f := by
  unfold slice
  simp only [List.length_map, List.map_take, List.map_drop]

theorem getItem_map {α β : Type} (f : α → β) (l : List α) (i : Int) : getItem (l.map f) i = Except.map f (getItem l i) := by
  unfold getItem
  rw [List.length_map]
  cases normIdx l.length i with
  | none => rfl
  | some k =>
    simp only [List.getElem?_map]
    cases l[k]? <;> rfl

theorem fdiv_left (c x y : ℝ) : fdiv (c * x) y = (fdiv x y).map fun (z : ℝ) => c * z := by
  unfold fdiv
  split
  · rfl
  · rw [Option.map_some, mul_div_assoc]

theorem fdiv_right {c : ℝ} (hc : c ≠ 0) (x y : ℝ) : fdiv x (c * y) = (fdiv x y).map fun (z : ℝ) => c⁻¹ * z := by
  unfold fdiv
  by_cases h : y = 0
  · rw [if_pos h, if_pos (by rw [h, mul_zero])]
    rfl
  · rw [if_neg h, if_neg (mul_ne_zero hc h), Option.map_some]
    congr 1
    field_simp

theorem fdiv_both {c : ℝ} (hc : c ≠ 0) (x y : ℝ) : fdiv (c * x) (c * y) = fdiv x y := by
  unfold fdiv
  by_cases h : y = 0
  · rw [if_pos h, if_pos (by rw [h, mul_zero])]
  · rw [if_neg h, if_neg (mul_ne_zero hc h), mul_div_mul_left _ _ hc]

theorem times_times (a b : ℝ) (l : List ℝ) : times a (times b l) = times (a * b) l := by
  unfold times
  rw [List.map_map]
  refine List.map_congr_left fun x _ => ?_
  simp [mul_assoc]

/-! ### The steps of loading -/

theorem atten_left (c : ℝ) (i a : List ℝ) : applyAttenuation (times c i) a = Except.map (times c) (applyAttenuation i a) :=
  ew_left _ _ _ (fun x y => mul_assoc c x y) i a

theorem atten_right (c : ℝ) (i a : List ℝ) : applyAttenuation i (times c a) = Except.map (times c) (applyAttenuation i a) :=
  ew_right _ _ _ (fun x y => mul_left_comm x c y) i a

theorem discStep_times {c : ℝ} (hc : c ≠ 0) (angle I : List ℝ) (i : Nat) :
    discStep angle (times c I) i = Except.map (times c) (discStep angle I i) := by
  unfold discStep times
  rw [bind_map]
  congr 1
  funext a
  rw [bind_map]
  congr 1
  funext b
  split
  · rw [getItem_map, getItem_map, map_bind, bind_map]
    congr 1
    funext x
    rw [map_bind, bind_map]
    congr 1
    funext y
    rw [fdiv_both hc]
    cases fdiv x y with
    | none => rfl
    | some f =>
      show Except.ok _ = Except.ok _
      congr 1
      beta_reduce
      rw [List.map_append, List.map_take, ← List.map_drop, List.map_map, List.map_map]
      congr 1
      refine List.map_congr_left fun z _ => ?_
      simp [mul_assoc]
  · rfl

theorem foldlM_map {α β : Type} (g : β → β) (f : β → α → Res β) (h : ∀ b a, f (g b) a = Except.map g (f b a)) :
    ∀ (l : List α) (b : β), l.foldlM f (g b) = Except.map g (l.foldlM f b)
  | [], _ => rfl
  | a :: l, b => by
    rw [List.foldlM_cons, List.foldlM_cons, h, map_bind, bind_map]
    congr 1
    funext b'
    exact foldlM_map g f h l b'

theorem disc_times {c : ℝ} (hc : c ≠ 0) (I angle : List ℝ) :
    correctDiscontinuities (times c I) angle = Except.map (times c) (correctDiscontinuities I angle) :=
  foldlM_map _ _ (fun b a => discStep_times hc angle b a) _ _

theorem trim_times (c : ℝ) (angle i : List ℝ) (front back : Option Int) :
    trim angle (times c i) front back = ((trim angle i front back).1, times c (trim angle i front back).2) := by
  unfold trim trimBack trimFront times
  cases back <;> cases front <;> simp [slice_map]

theorem npMax_times {c : ℝ} (hc : 0 < c) (l : List ℝ) : npMax (times c l) = Except.map (fun (x : ℝ) => c * x) (npMax l) := by
  cases l with
  | nil => rfl
  | cons a l =>
    show Except.ok _ = Except.ok _
    congr 1
    beta_reduce
    induction l generalizing a with
    | nil => rfl
    | cons b l ih =>
      rw [List.map_cons, List.foldl_cons, List.foldl_cons, ← ih]
      rw [mul_max_of_nonneg _ _ hc.le]

theorem max_times {c : ℝ} (hc : 0 < c) (i : List ℝ) : normalizeToMax (times c i) = normalizeToMax i := by
  unfold normalizeToMax
  rw [npMax_times hc, map_bind]
  congr 1
  funext m
  unfold times
  rw [List.map_map]
  congr 1
  exact List.map_congr_left fun x _ => fdiv_both hc.ne' x m

theorem first_times {c : ℝ} (hc : c ≠ 0) (i : List ℝ) : normalizeToFirst (times c i) = normalizeToFirst i := by
  unfold normalizeToFirst times
  rw [getItem_map, map_bind]
  congr 1
  funext m
  rw [List.map_map]
  congr 1
  exact List.map_congr_left fun x _ => fdiv_both hc x m

/-! ### Scans and fits -/

/-- C115: with a normalization the corrected intensity does not depend on the unit of the raw one; errors are the same, too. -/
theorem C115_corrected (s : Scan) (hn : s.normalizeTo ≠ none) (c : ℝ) (hc : 0 < c) :
    (countTimes c s).correctedIntensity = s.correctedIntensity := by
  have hnorm : ∀ i, (countTimes c s).normalize (times c i) = s.normalize i := by
    intro i
    obtain ⟨k, hk⟩ := Option.ne_none_iff_exists'.1 hn
    unfold Scan.normalize countTimes
    simp only [hk]
    split
    · exact max_times hc i
    · split
      · exact first_times hc.ne' i
      · rfl
  have hfoot : (countTimes c s).correctFootprint = Except.map (times c) s.correctFootprint := by
    unfold Scan.correctFootprint countTimes
    simp only
    split
    · unfold applyFootprint
      rw [bind_map]
      congr 1
      funext f
      exact ew_left _ _ _ (fun x y => mul_assoc c x y) _ f
    · rfl
  unfold Scan.correctedIntensity
  rw [hfoot]
  cases s.correctFootprint with
  | ok i => exact hnorm i
  | error e => cases e <;> first | rfl | exact hnorm s.raw

/-- C115: a fit of a normalized scan does not depend on the unit of its intensities: the results are equal in every entry. -/
theorem C115_fit (checked : Bool) (model : Option ModelArg) (curve : Option FitEnv) (s : Scan) (hn : s.normalizeTo ≠ none) (c : ℝ)
    (hc : 0 < c) (a : FitArgs) (d : Draws) : fitScan checked model curve (countTimes c s) a d = fitScan checked model curve s a d := by
  unfold fitScan
  cases curve with
  | none => rfl
  | some env =>
    have := C115_corrected { s with angle := s.angle.map fun (x : ℝ) => x + a.thetaOffset } hn c hc
    unfold countTimes at this
    unfold countTimes
    simp only
    simp only at this
    rw [this]
    rfl

/-! ### SPEC files -/

/-- The tables agree up to units: the intensities are multiplied by `c`, the attenuation factors by `a`, the divisors by `d`. -/
structure SameUpToUnits (l : SpecLoader) (t t' : NumTable ℝ) (c a d : ℝ) : Prop where
  columns : t'.columns = t.columns
  angles : ∀ name ∈ l.angleColumns, t'.column name = t.column name
  intensity : t'.column l.intensityColumn = Except.map (times c) (t.column l.intensityColumn)
  attenuator : ∀ name, l.attenuatorColumn = some name → t'.column name = Except.map (times a) (t.column name)
  division : ∀ name, l.divisionColumn = some name → t'.column name = Except.map (times d) (t.column name)

/-- The factor between the intensities. -/
noncomputable def unitFactor (l : SpecLoader) (c a d : ℝ) : ℝ :=
  (if l.divisionColumn = none then 1 else d⁻¹) * ((if l.attenuatorColumn = none then 1 else a) * c)

theorem times_one (l : List ℝ) : times 1 l = l := by
  unfold times
  simp

theorem map_id_res {α : Type} (g : α → α) (h : ∀ a, g a = a) (x : Res α) : Except.map g x = x := by
  cases x with
  | error => rfl
  | ok a => exact congrArg Except.ok (h a)

theorem map_map_res {α β γ : Type} (g : β → γ) (f : α → β) (x : Res α) : Except.map g (Except.map f x) = Except.map (fun a => g (f a)) x := by
  cases x <;> rfl

theorem attenuate_times (l : SpecLoader) (t t' : NumTable ℝ) {c a d : ℝ} (ha : a ≠ 0) (hc : c ≠ 0) (h : SameUpToUnits l t t' c a d)
    (angle i : List ℝ) : l.attenuate t' angle (times c i) =
      Except.map (times ((if l.attenuatorColumn = none then 1 else a) * c)) (l.attenuate t angle i) := by
  unfold SpecLoader.attenuate
  cases hk : l.attenuatorColumn with
  | none =>
    show Except.ok _ = Except.ok _
    rw [if_pos rfl, one_mul]
  | some k =>
    simp only
    rw [h.attenuator k hk, map_bind, bind_map, if_neg (by simp)]
    congr 1
    funext att
    rw [atten_right, atten_left, map_map_res, map_bind, bind_map]
    congr 1
    funext j
    rw [times_times, disc_times (mul_ne_zero ha hc)]

theorem divide_times (l : SpecLoader) (t t' : NumTable ℝ) {c a d e : ℝ} (hd : d ≠ 0) (h : SameUpToUnits l t t' c a d) (i : List ℝ) :
    l.divide t' (times e i) = Except.map (times ((if l.divisionColumn = none then 1 else d⁻¹) * e)) (l.divide t i) := by
  unfold SpecLoader.divide
  cases hk : l.divisionColumn with
  | none =>
    show Except.ok _ = Except.ok _
    rw [if_pos rfl, one_mul]
  | some k =>
    simp only
    rw [h.division k hk, map_bind, bind_map, if_neg (by simp)]
    congr 1
    funext div
    have e1 := ew_left fdiv (fun (x : ℝ) => e * x) (Option.map fun (x : ℝ) => e * x) (fun x y => fdiv_left e x y) i (times d div)
    have e2 := ew_right fdiv (fun (x : ℝ) => d * x) (Option.map fun (x : ℝ) => d⁻¹ * x) (fun x y => fdiv_right hd x y) i div
    unfold times at e1 ⊢
    rw [e1, e2, map_bind, map_bind, bind_map]
    congr 1
    funext r
    rw [finite_map, finite_map, map_map_res]
    congr 1
    funext l'
    rw [List.map_map]
    refine List.map_congr_left fun x _ => ?_
    simp only [Function.comp_apply]
    ring

/-- C115: loading a scan from a file in other units gives the same scan with its intensities in other units. -/
theorem C115_spec_scan (pf : Str → Option ℝ) (l l' : SpecLoader) (n : Int) (front back : Option Int) (t t' : NumTable ℝ)
    (hl : l' = { l with parser := l'.parser }) (ht : l.parser.extractScan pf n = .ok t) (ht' : l'.parser.extractScan pf n = .ok t')
    (htime : (l'.parser.index.get n >>= ScanEntry.timeOf) = (l.parser.index.get n >>= ScanEntry.timeOf)) (c a d : ℝ) (hc : 0 < c) (ha : 0 < a)
    (hd : 0 < d) (h : SameUpToUnits l t t' c a d) :
    0 < unitFactor l c a d ∧
    l'.loadScan pf n front back = Except.map (countTimes (unitFactor l c a d)) (l.loadScan pf n front back) := by
  refine ⟨?_, ?_⟩
  · unfold unitFactor
    split <;> split <;> positivity
  have hi : ∀ angle, l'.intensity t' angle = Except.map (times (unitFactor l c a d)) (l.intensity t angle) := by
    intro angle
    rw [hl]
    unfold SpecLoader.intensity
    simp only
    rw [h.intensity, map_bind, bind_map]
    congr 1
    funext i
    rw [show ∀ x y, SpecLoader.attenuate { l with parser := l'.parser } x y = l.attenuate x y from fun _ _ => rfl,
      show ∀ x, SpecLoader.divide { l with parser := l'.parser } x = l.divide x from fun _ => rfl,
      attenuate_times l t t' ha.ne' hc.ne' h, map_bind, bind_map]
    congr 1
    funext j
    exact divide_times l t t' hd.ne' h j
  have ea : l'.angleColumns = l.angleColumns := by rw [hl]
  have hcols : l'.angleColumns.mapM t'.column = l.angleColumns.mapM t.column := by
    rw [ea]
    exact mapM_congr fun x hx => h.angles x hx
  unfold SpecLoader.loadScan
  rw [ht, ht']
  simp only
  rw [ea, h.columns]
  split
  · rw [← ea, hcols]
    have e1 : ∀ {β : Type} (p : SpecParser) (f : Str → Res β), (do let e ← p.index.get n; let time ← e.timeOf; f time) =
        ((p.index.get n >>= ScanEntry.timeOf) >>= f) := by
      intro β p f
      cases p.index.get n <;> rfl
    rw [e1, e1, htime, bind_map]
    congr 1
    funext time
    rw [bind_map, ea]
    congr 1
    funext cols
    rw [hi, map_bind, bind_map]
    congr 1
    funext i
    rw [trim_times, hl]
    rfl
  · rfl

/-- C115: so a fit of a normalized SPEC scan does not depend on the units of counts, attenuation factors and monitor. -/
theorem C115_spec (pf : Str → Option ℝ) (f f' : SpecFitter) (l l' : SpecLoader) (n : Int) (args : FitArgs) (draws : Draws) (t t' : NumTable ℝ)
    (hf : f.specLoader = some l) (hf' : f'.specLoader = some l') (hm : f'.model = f.model) (hcv : f'.curve = f.curve)
    (hl : l' = { l with parser := l'.parser }) (hn : l.normalizeTo ≠ none) (ht : l.parser.extractScan pf n = .ok t)
    (ht' : l'.parser.extractScan pf n = .ok t')
    (htime : (l'.parser.index.get n >>= ScanEntry.timeOf) = (l.parser.index.get n >>= ScanEntry.timeOf)) (c a d : ℝ) (hc : 0 < c) (ha : 0 < a)
    (hd : 0 < d) (h : SameUpToUnits l t t' c a d) : f'.fitBody pf n args draws = f.fitBody pf n args draws := by
  obtain ⟨hpos, hs⟩ := C115_spec_scan pf l l' n args.front args.back t t' hl ht ht' htime c a d hc ha hd h
  unfold SpecFitter.fitBody SpecFitter.getScan
  rw [hf, hf']
  simp only
  rw [hs, hm, hcv]
  cases hld : l.loadScan pf n args.front args.back with
  | error e => cases e <;> rfl
  | ok s =>
    have hns : s.normalizeTo = l.normalizeTo := by
      unfold SpecLoader.loadScan at hld
      rw [ht] at hld
      simp only at hld
      split at hld
      · obtain ⟨_, -, hld⟩ := bind_eq_ok.1 hld
        obtain ⟨_, -, hld⟩ := bind_eq_ok.1 hld
        obtain ⟨_, -, hld⟩ := bind_eq_ok.1 hld
        obtain ⟨_, -, hld⟩ := bind_eq_ok.1 hld
        cases hld
        rfl
      · cases hld
    show fitScan true f.model f.curve (countTimes _ s) args draws = fitScan true f.model f.curve s args draws
    exact C115_fit true f.model f.curve s (hns ▸ hn) _ hpos args draws

/-- The hypotheses can be met: a file with twice the counts, five times the attenuation factors and a monitor that counts three
times as much. -/
example (parser : SpecParser) : SameUpToUnits
    ⟨parser, [['t']], ['i'], 1, none, none, none, some maxS, some ['a'], some ['m']⟩
    ⟨[['t'], ['i'], ['a'], ['m']], [[1, 10, 1, 4], [2, 20, 3, 4]]⟩ ⟨[['t'], ['i'], ['a'], ['m']], [[1, 20, 5, 12], [2, 40, 15, 12]]⟩ 2 5 3 where
  columns := rfl
  angles := by
    intro name h
    rw [List.mem_singleton.1 h]
    rfl
  intensity := by
    show Except.ok ([20, 40] : List ℝ) = Except.ok (times 2 [10, 20])
    simp [times]; norm_num
  attenuator := by
    intro name h
    cases h
    show Except.ok ([5, 15] : List ℝ) = Except.ok (times 5 [1, 3])
    simp [times]; norm_num
  division := by
    intro name h
    cases h
    show Except.ok ([12, 12] : List ℝ) = Except.ok (times 3 [4, 4])
    simp [times]; norm_num

/-! ### P08 scans -/

/-- A stack with all pixels multiplied by `c`. -/
noncomputable def stackTimes (c : ℝ) : Stack → Stack
  | .images l => .images (l.map fun (i : List (List ℝ)) => i.map (times c))
  | .lines l => .lines (l.map (times c))

/-- The scans agree except that the counts in the column `roi` and in the images are multiplied by `c`. -/
structure SameUpToCounts (s : FioLoader) (sc sc' : P08Scan) (c : ℝ) : Prop where
  positions : sc'.positions = sc.positions
  keys : sc'.data.map Prod.fst = sc.data.map Prod.fst
  others : ∀ name, name ≠ s.roiName → dictGet sc'.data name = dictGet sc.data name
  counts : dictGet sc'.data s.roiName = Except.map (List.map (Option.map fun (x : ℝ) => c * x)) (dictGet sc.data s.roiName)
  images : sc'.imageData = sc.imageData.map fun (p : Str × Stack) => (p.1, stackTimes c p.2)

theorem sum_times (c : ℝ) (l : List ℝ) : (times c l).sum = c * l.sum := by
  unfold times
  rw [List.sum_map_mul_left]
  simp

theorem roiSum1_times (c : ℝ) (i : List ℝ) (r : Option (List Int)) : roiSum1 (times c i) r = Except.map (fun (x : ℝ) => c * x) (roiSum1 i r) := by
  cases r with
  | none => exact congrArg Except.ok (sum_times c i)
  | some r =>
    unfold roiSum1
    simp only
    rw [bind_map]
    congr 1
    funext x0
    rw [bind_map]
    congr 1
    funext x1
    refine congrArg Except.ok ?_
    rw [times, slice_map]
    exact sum_times c _

theorem roiSum2_times (c : ℝ) (i : List (List ℝ)) (r : Option (List Int)) :
    roiSum2 (i.map (times c)) r = Except.map (fun (x : ℝ) => c * x) (roiSum2 i r) := by
  cases r with
  | none =>
    refine congrArg Except.ok ?_
    beta_reduce
    rw [List.map_map, ← sum_times, times, List.map_map]
    congr 1
    exact List.map_congr_left fun row _ => sum_times c row
  | some r =>
    unfold roiSum2
    simp only
    rw [bind_map]
    congr 1
    funext y0
    rw [bind_map]
    congr 1
    funext y1
    rw [bind_map]
    congr 1
    funext x0
    rw [bind_map]
    congr 1
    funext x1
    refine congrArg Except.ok ?_
    beta_reduce
    rw [slice_map, List.map_map, ← sum_times, times, List.map_map]
    congr 1
    refine List.map_congr_left fun row _ => ?_
    simp only [Function.comp_apply]
    rw [times, slice_map]
    exact sum_times c _

/-- A dictionary of curves multiplied by `c`. -/
noncomputable def dictTimes (c : ℝ) (d : List (Str × List ℝ)) : List (Str × List ℝ) := d.map fun (p : Str × List ℝ) => (p.1, times c p.2)

theorem dictGet_values {β γ : Type} (g : β → γ) (d : List (Str × β)) (k : Str) :
    dictGet (d.map fun (p : Str × β) => (p.1, g p.2)) k = Except.map g (dictGet d k) := by
  induction d with
  | nil => rfl
  | cons p d ih =>
    rw [List.map_cons, dictGet, dictGet]
    split
    · rfl
    · exact ih

theorem dictSet_values {β γ : Type} (g : β → γ) (d : List (Str × β)) (k : Str) (v : β) :
    dictSet (d.map fun (p : Str × β) => (p.1, g p.2)) k (g v) = (dictSet d k v).map fun (p : Str × β) => (p.1, g p.2) := by
  induction d with
  | nil => rfl
  | cons p d ih =>
    rw [List.map_cons, dictSet, dictSet]
    split
    · rfl
    · rw [ih]
      rfl

theorem dictAppend_times (c : ℝ) (d : List (Str × List ℝ)) (k : Str) (x : ℝ) :
    dictAppend (dictTimes c d) k (c * x) = Except.map (dictTimes c) (dictAppend d k x) := by
  unfold dictAppend dictTimes
  rw [dictGet_values, map_bind, bind_map]
  congr 1
  funext l
  refine congrArg Except.ok ?_
  beta_reduce
  rw [← dictSet_values]
  congr 1
  unfold times
  simp

theorem foldlM_map2 {α α' β : Type} (g : β → β) (k : α → α') (f : β → α → Res β) (f' : β → α' → Res β)
    (h : ∀ b a, f' (g b) (k a) = Except.map g (f b a)) : ∀ (l : List α) (b : β), (l.map k).foldlM f' (g b) = Except.map g (l.foldlM f b)
  | [], _ => rfl
  | a :: l, b => by
    rw [List.map_cons, List.foldlM_cons, List.foldlM_cons, h, map_bind, bind_map]
    congr 1
    funext b'
    exact foldlM_map2 g k f f' h l b'

theorem roiLoop_times {α : Type} (c : ℝ) (g : α → α) (sum : α → Option (List Int) → Res ℝ)
    (h : ∀ i r, sum (g i) r = Except.map (fun (x : ℝ) => c * x) (sum i r)) (rois : List (Str × List Int)) (stack : List α) :
    roiLoop sum rois (stack.map g) = Except.map (dictTimes c) (roiLoop sum rois stack) := by
  have e0 : ∀ (l : List (Str × Option (List Int))) (d : List (Str × List ℝ)),
      l.foldl (fun d (p : Str × Option (List Int)) => dictSet d p.1 []) (dictTimes c d) =
        dictTimes c (l.foldl (fun d (p : Str × Option (List Int)) => dictSet d p.1 []) d) := by
    intro l
    induction l with
    | nil => intro d; rfl
    | cons p l ih =>
      intro d
      rw [List.foldl_cons, List.foldl_cons, ← ih]
      congr 1
      exact dictSet_values (times c) d p.1 []
  unfold roiLoop
  have e1 := e0 (roiKeys rois) []
  rw [show dictTimes c [] = [] from rfl] at e1
  conv_lhs => rw [e1]
  refine foldlM_map2 (dictTimes c) g _ _ (fun d i => ?_) stack _
  have := foldlM_map2 (dictTimes c) id (fun d (p : Str × Option (List Int)) => do
      let v ← sum i p.2
      dictAppend d p.1 v) (fun d (p : Str × Option (List Int)) => do
      let v ← sum (g i) p.2
      dictAppend d p.1 v) (fun d p => ?_) (roiKeys rois) d
  · rw [List.map_id] at this
    exact this
  · simp only [id]
    rw [h, map_bind, bind_map]
    congr 1
    funext v
    exact dictAppend_times c d p.1 v

theorem roiTable_times (c : ℝ) (rois : List (Str × List Int)) (st : Stack) :
    (stackTimes c st).roiTable rois = Except.map (dictTimes c) (st.roiTable rois) := by
  cases st with
  | images l => exact roiLoop_times c _ _ (roiSum2_times c) rois l
  | lines l => exact roiLoop_times c _ _ (roiSum1_times c) rois l

theorem roiAttenuate_times (c : ℝ) (atten : Option (List ℝ)) (l : List ℝ) :
    roiAttenuate atten (times c l) = Except.map (times c) (roiAttenuate atten l) := by
  cases atten with
  | none =>
    refine congrArg Except.ok ?_
    simp [times]
  | some a => exact ew_left _ _ _ (fun x y => mul_assoc c x y) l a

theorem mapM_map2 {α α' β β' : Type} (k : α → α') (g : β → β') (f : α → Res β) (f' : α' → Res β')
    (h : ∀ a, f' (k a) = Except.map g (f a)) (l : List α) : (l.map k).mapM f' = Except.map (List.map g) (l.mapM f) := by
  induction l with
  | nil => rfl
  | cons a l ih =>
    rw [List.map_cons, mapM_cons, mapM_cons, h, ih, map_bind, bind_map]
    congr 1
    funext b
    cases List.mapM f l <;> rfl

theorem numColumn_congr {d d' : List (Str × List (Option ℝ))} {name : Str} (h : dictGet d' name = dictGet d name) :
    numColumn d' name = numColumn d name := by
  unfold numColumn
  rw [h]

theorem extractRois_times {s : FioLoader} {sc sc' : P08Scan} {c : ℝ} (h : SameUpToCounts s sc sc' c) (hr : s.roiName ≠ attenKey)
    (rois : List (Str × List Int)) :
    extractRois sc' rois = Except.map (List.map fun (p : Str × List (Str × List ℝ)) => (p.1, dictTimes c p.2)) (extractRois sc rois) := by
  have ha : roiAtten sc' = roiAtten sc := by
    unfold roiAtten
    rw [h.keys, numColumn_congr (h.others _ hr.symm)]
  unfold extractRois
  rw [ha, h.images, bind_map]
  congr 1
  funext atten
  refine mapM_map2 (fun (p : Str × Stack) => (p.1, stackTimes c p.2)) _ _ _ (fun p => ?_) _
  simp only
  rw [roiTable_times, map_bind, bind_map]
  congr 1
  funext d
  rw [bind_map]
  have := mapM_map2 (fun (p : Str × List ℝ) => (p.1, times c p.2)) (fun (p : Str × List ℝ) => (p.1, times c p.2))
    (fun (q : Str × List ℝ) => do return (q.1, ← roiAttenuate atten q.2)) (fun (q : Str × List ℝ) => do return (q.1, ← roiAttenuate atten q.2))
    (fun q => by
      simp only
      rw [roiAttenuate_times, map_bind, bind_map]
      rfl) d
  unfold dictTimes
  rw [this, map_bind]
  rfl

theorem rawIntensity_times {s : FioLoader} {sc sc' : P08Scan} {c : ℝ} (h : SameUpToCounts s sc sc' c) (hr : s.roiName ≠ attenKey)
    (roi : Option (List Int)) (detector : Str) :
    s.rawIntensity sc' roi detector = Except.map (times c) (s.rawIntensity sc roi detector) := by
  unfold FioLoader.rawIntensity
  cases roi with
  | none =>
    simp only
    unfold numColumn
    rw [h.counts, map_bind, bind_map]
    congr 1
    funext l
    exact finite_map _ l
  | some r =>
    simp only
    rw [extractRois_times h hr, map_bind, bind_map]
    congr 1
    funext d
    rw [dictGet_values, map_bind, bind_map]
    congr 1
    funext i
    exact dictGet_values (times c) i customRoi

/-- C115: a P08 scan with other counts is loaded as the same scan with other counts, from a counter or from the images. -/
theorem C115_fio_scan (s : FioLoader) (sc sc' : P08Scan) (c : ℝ) (hc : 0 < c) (h : SameUpToCounts s sc sc' c) (hr : s.roiName ≠ attenKey)
    (hr1 : s.roiName ≠ s.ttCounter) (hr2 : s.attenuator ≠ some s.roiName) (n : Int) (front back : Option Int) (roi : Option (List Int))
    (detector : Str) : s.load sc' n front back roi detector = Except.map (countTimes c) (s.load sc n front back roi detector) := by
  unfold FioLoader.load
  rw [h.positions, bind_map]
  congr 1
  funext e
  rw [bind_map]
  congr 1
  funext energy
  rw [bind_map]
  congr 1
  funext energy
  split
  · rfl
  · rw [numColumn_congr (h.others _ hr1.symm), bind_map]
    congr 1
    funext angle
    rw [rawIntensity_times h hr, map_bind, bind_map]
    congr 1
    funext i
    have ha : s.attenuate sc' angle (times c i) = Except.map (times c) (s.attenuate sc angle i) := by
      unfold FioLoader.attenuate
      cases hk : s.attenuator with
      | none => rfl
      | some k =>
        simp only
        rw [numColumn_congr (h.others k (fun e => hr2 (by rw [hk, e]))), bind_map]
        congr 1
        funext att
        rw [atten_left, map_bind, bind_map]
        congr 1
        funext j
        exact disc_times hc.ne' j angle
    rw [ha, map_bind, bind_map]
    congr 1
    funext j
    cases s.division with
    | some _ => rfl
    | none =>
      simp only
      rw [trim_times]
      rfl

/-- C115: so the fit of a P08 scan with a normalization does not depend on the unit of the counts. -/
theorem C115_fio (f : FioFitter) (s : FioLoader) (sc sc' : P08Scan) (c : ℝ) (hc : 0 < c) (h : SameUpToCounts s sc sc' c)
    (hn : s.normalizeTo ≠ none) (hr : s.roiName ≠ attenKey) (hr1 : s.roiName ≠ s.ttCounter) (hr2 : s.attenuator ≠ some s.roiName) (n : Int)
    (a : FitArgs) (d : Draws) (detector : Str) (scan scan' : Scan) (h1 : s.load sc n a.front a.back a.roi detector = .ok scan)
    (h2 : s.load sc' n a.front a.back a.roi detector = .ok scan') :
    f.fitLoaded (some scan') a d = f.fitLoaded (some scan) a d := by
  rw [C115_fio_scan s sc sc' c hc h hr hr1 hr2, h1] at h2
  have h2 : countTimes c scan = scan' := Except.ok.inj h2
  have hns : scan.normalizeTo = s.normalizeTo := by
    unfold FioLoader.load at h1
    obtain ⟨_, -, h1⟩ := bind_eq_ok.1 h1
    obtain ⟨_, -, h1⟩ := bind_eq_ok.1 h1
    obtain ⟨_, -, h1⟩ := bind_eq_ok.1 h1
    split at h1
    · cases h1
    · obtain ⟨_, -, h1⟩ := bind_eq_ok.1 h1
      obtain ⟨_, -, h1⟩ := bind_eq_ok.1 h1
      obtain ⟨_, -, h1⟩ := bind_eq_ok.1 h1
      split at h1
      · cases h1
      · cases h1
        rfl
  unfold FioFitter.fitLoaded
  simp only
  rw [← h2, C115_fit false f.model f.curve scan (hns ▸ hn) c hc]

/-- The default loader meets the conditions on the column names. -/
example : defaultFioImport.roiName ≠ attenKey ∧ defaultFioImport.roiName ≠ defaultFioImport.ttCounter ∧
    defaultFioImport.attenuator ≠ some defaultFioImport.roiName := by decide

/-- C115: without a normalization the results keep the unit: the corrected intensity is scaled along. -/
theorem C115_unnormalized (s : Scan) (hn : s.normalizeTo = none) (c : ℝ) :
    (countTimes c s).correctedIntensity = Except.map (times c) s.correctedIntensity := by
  have hfoot : (countTimes c s).correctFootprint = Except.map (times c) s.correctFootprint := by
    unfold Scan.correctFootprint countTimes
    simp only
    split
    · unfold applyFootprint
      rw [bind_map]
      congr 1
      funext f
      exact ew_left _ _ _ (fun x y => mul_assoc c x y) _ f
    · rfl
  have hnorm : ∀ i, (countTimes c s).normalize (times c i) = Except.map (times c) (s.normalize i) := by
    intro i
    unfold Scan.normalize countTimes
    simp only [hn]
    rfl
  unfold Scan.correctedIntensity
  rw [hfoot]
  cases s.correctFootprint with
  | ok i => exact hnorm i
  | error e => cases e <;> first | rfl | exact hnorm s.raw

end Verif.Props
