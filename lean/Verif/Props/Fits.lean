import Verif.Model.Fits
import Verif.Props.Peaks
import Verif.Props.Plots
import Verif.Props.FioInfo

/-!
# C101: fits of peaks to a scan

What the fits minimise, and what they draw.
-/

namespace Verif.Props
open Verif.Py Verif.Model Verif.Spec

/-! ### Residuals -/

/-- All residuals are zero. -/
def NoResidual (r : Res (List (Option ℝ))) : Prop := ∃ l, r = .ok l ∧ ∀ o ∈ l, o = some 0

theorem olog10_inj {a b : ℝ} (ha : 0 < a) (hb : 0 < b) : Real.logb 10 a = Real.logb 10 b ↔ a = b :=
  (Real.logb_injOn_pos (by norm_num)).eq_iff ha hb

theorem logdiff_zero {y : ℝ} (hy : 0 < y) (a : Option ℝ) : osub (olog10 a) (olog10 (some y)) = some 0 ↔ a = some y := by
  cases a with
  | none => simp [olog10, osub]
  | some a =>
    by_cases ha : 0 < a
    · simp only [olog10, if_pos ha, if_pos hy, osub, Option.some.injEq, sub_eq_zero]
      exact olog10_inj ha hy
    · simp only [olog10, if_neg ha, if_pos hy, osub, Option.some.injEq]
      constructor
      · intro h; cases h
      · rintro rfl; exact absurd hy ha

theorem oabs_zero (o : Option ℝ) : oabs o = some 0 ↔ o = some 0 := by
  cases o <;> simp [oabs]

theorem oscale_zero {w : ℝ} (hw : w ≠ 0) (o : Option ℝ) : oscale w o = some 0 ↔ o = some 0 := by
  cases o <;> simp [oscale, hw]

theorem oshift_eq (c y : ℝ) (o : Option ℝ) : oshift c o = some y ↔ o = some (y - c) := by
  cases o with
  | none => simp [oshift]
  | some x =>
    simp only [oshift, Option.some.injEq]
    constructor <;> intro h <;> linarith

theorem zipWith_all {α β γ : Type} {f : α → β → γ} {P : γ → Prop} {a : List α} {b : List β} (h : a.length = b.length) :
    (∀ c ∈ List.zipWith f a b, P c) ↔ List.Forall₂ (fun x y => P (f x y)) a b := by
  induction a generalizing b with
  | nil =>
    cases b with
    | nil => simp
    | cons y b => simp at h
  | cons x a ih =>
    cases b with
    | nil => simp at h
    | cons y b =>
      rw [List.zipWith_cons_cons, List.forall_mem_cons, List.forall₂_cons, ih (by simpa using h)]

theorem forall₂_eq_map {a : List (Option ℝ)} {b : List ℝ} {g : ℝ → ℝ} :
    List.Forall₂ (fun (x : Option ℝ) (y : ℝ) => x = some (g y)) a b ↔ a = b.map fun (y : ℝ) => some (g y) := by
  constructor
  · intro h
    induction h with
    | nil => rfl
    | cons h _ ih => rw [h, ih, List.map_cons]
  · rintro rfl
    induction b with
    | nil => exact .nil
    | cons y b ih => exact .cons rfl ih

theorem forall₂_imp_right {α β : Type} {R S : α → β → Prop} {l : List α} {r : List β} (h : List.Forall₂ R l r)
    (hi : ∀ a b, b ∈ r → R a b → S a b) : List.Forall₂ S l r := by
  induction h with
  | nil => exact .nil
  | cons h _ ih => exact .cons (hi _ _ (by simp) h) (ih fun a b ha => hi a b (by simp [ha]))

/-- Residuals that vanish exactly for the values `g y`. -/
theorem residual_zero {xs i : List ℝ} (hlen : xs.length = i.length) {model : ℝ → Res (Option ℝ)} {f : Option ℝ → ℝ → Option ℝ} {g : ℝ → ℝ}
    (hf : ∀ y ∈ i, ∀ a, f a y = some 0 ↔ a = some (g y)) :
    NoResidual (do let l ← xs.mapM model; ew f l i) ↔ xs.mapM model = .ok (i.map fun (y : ℝ) => some (g y)) := by
  cases hm : xs.mapM model with
  | error e =>
    constructor
    · rintro ⟨l, h, -⟩; cases h
    · intro h; cases h
  | ok l =>
    have hl : l.length = i.length := by rw [← (mapM_ok_iff.1 hm).length_eq, hlen]
    rw [bind_ok]
    unfold ew NoResidual
    rw [if_pos hl]
    have e : (∃ r, Except.ok (ε := PyErr) (List.zipWith f l i) = .ok r ∧ ∀ o ∈ r, o = some 0) ↔
        ∀ o ∈ List.zipWith f l i, o = some 0 := by
      constructor
      · rintro ⟨r, h, h'⟩; cases h; exact h'
      · intro h; exact ⟨_, rfl, h⟩
    rw [e, zipWith_all (P := fun o => o = some 0) hl]
    have e2 : List.Forall₂ (fun (x : Option ℝ) (y : ℝ) => f x y = some 0) l i ↔ List.Forall₂ (fun (x : Option ℝ) (y : ℝ) => x = some (g y)) l i := by
      constructor
      · intro h
        exact forall₂_imp_right h fun x y hy hxy => (hf y hy x).1 hxy
      · intro h
        exact forall₂_imp_right h fun x y hy hxy => (hf y hy x).2 hxy
    rw [e2, forall₂_eq_map]
    constructor
    · rintro rfl; rfl
    · intro h; exact Except.ok.inj h

/-- C101, `simpleFit`: for positive intensities the residuals vanish for exactly those parameters whose curve is the measured one. -/
theorem C101_simple_residual (xs i : List ℝ) (hlen : xs.length = i.length) (hpos : ∀ y ∈ i, 0 < y) (p : List ℝ) :
    NoResidual (simpleResidual xs i p) ↔ xs.mapM (multiGaussAt p) = .ok (i.map fun (y : ℝ) => some y) := by
  refine residual_zero (g := fun y => y) hlen fun y hy a => ?_
  rw [oabs_zero]
  exact logdiff_zero (hpos y hy) a

/-- The weight of a position: `1 + h` between the limits, 1 elsewhere. -/
noncomputable def weightSpec (lo hi h x : ℝ) : ℝ := open Classical in if lo ≤ x ∧ x ≤ hi then 1 + h else 1

theorem fitWeight_eq (lo hi h x : ℝ) : fitWeight [lo, hi, h] x = .ok (weightSpec lo hi h x) := by
  show Except.ok (h * heaviside (x - lo) * heaviside (-x + hi) + 1) = _
  congr 1
  unfold heaviside weightSpec
  by_cases h1 : lo ≤ x <;> by_cases h2 : x ≤ hi
  · rw [if_neg (by linarith), if_neg (by linarith), if_pos ⟨h1, h2⟩]; ring
  · rw [if_neg (by linarith), if_pos (by linarith), if_neg fun h => h2 h.2]; ring
  · rw [if_pos (by linarith), if_neg (show ¬(lo ≤ x ∧ x ≤ hi) from fun h => h1 h.1)]; ring
  · rw [if_pos (by linarith), if_neg (show ¬(lo ≤ x ∧ x ≤ hi) from fun h => h1 h.1)]; ring

/-- C101, `gaussLorentzianFit`: with weights that are not zero and intensities above `-1` the residuals vanish for exactly those
parameters whose curve is the measured one. -/
theorem C101_gauss_lorentz_residual (xs i : List ℝ) (lo hi h : ℝ) (hh : h ≠ -1) (hlen : xs.length = i.length) (hpos : ∀ y ∈ i, -1 < y)
    (p : List ℝ) :
    NoResidual (gaussLorentzResidual (some [lo, hi, h]) xs i p) ↔ xs.mapM (gaussLorentzAt p) = .ok (i.map fun (y : ℝ) => some y) := by
  have hw : ∀ x, weightSpec lo hi h x ≠ 0 := by
    intro x
    unfold weightSpec
    split
    · intro h'; apply hh; linarith
    · norm_num
  rw [← residual_zero (g := fun y => y) (f := fun (a : Option ℝ) (y : ℝ) => oabs (osub (olog10 (oshift 1 a)) (olog10 (some (y + 1))))) hlen
    (fun y hy a => by
      rw [oabs_zero, logdiff_zero (by have := hpos y hy; linarith), oshift_eq, add_sub_cancel_right])]
  unfold gaussLorentzResidual
  simp only [Option.getD_some]
  have e : xs.mapM (fitWeight [lo, hi, h]) = .ok (xs.map (weightSpec lo hi h)) :=
    mapM_eq_ok_map fun x _ => fitWeight_eq lo hi h x
  rw [e, bind_ok]
  cases hm : xs.mapM (gaussLorentzAt p) with
  | error e => rfl
  | ok l =>
    have hl : l.length = i.length := by rw [← (mapM_ok_iff.1 hm).length_eq, hlen]
    simp only [bind_ok]
    unfold ew
    rw [if_pos hl, bind_ok, if_pos (by rw [List.length_map, List.length_zipWith, hl, Nat.min_self, hlen])]
    unfold NoResidual
    have g1 : ∀ l : List (Option ℝ), (∃ r, Except.ok (ε := PyErr) l = .ok r ∧ ∀ o ∈ r, o = some 0) ↔ ∀ o ∈ l, o = some 0 := by
      intro l
      constructor
      · rintro ⟨r, h, h'⟩; cases h; exact h'
      · intro h; exact ⟨_, rfl, h⟩
    rw [g1, g1]
    have hlen2 : xs.length = (List.zipWith (fun (a : Option ℝ) (y : ℝ) => oabs (osub (olog10 (oshift 1 a)) (olog10 (some (y + 1))))) l i).length := by
      rw [List.length_zipWith, hl, Nat.min_self, hlen]
    generalize List.zipWith (fun (a : Option ℝ) (y : ℝ) => oabs (osub (olog10 (oshift 1 a)) (olog10 (some (y + 1))))) l i = r at hlen2
    clear hm hl e hlen g1
    induction xs generalizing r with
    | nil =>
      cases r with
      | nil => simp
      | cons o r => simp at hlen2
    | cons x xs ih =>
      cases r with
      | nil => simp at hlen2
      | cons o r =>
        rw [List.map_cons, List.zipWith_cons_cons, List.forall_mem_cons, List.forall_mem_cons, oscale_zero (hw x)]
        exact and_congr_right fun _ => ih r (by simpa using hlen2)

/-- Without weights the default is used, which is 1 everywhere. -/
theorem C101_default_weight (xs i : List ℝ) (p : List ℝ) :
    gaussLorentzResidual none xs i p = gaussLorentzResidual (some [0, 1, 0]) xs i p ∧ ∀ x, fitWeight [0, 1, 0] x = .ok 1 := by
  refine ⟨rfl, fun x => ?_⟩
  rw [fitWeight_eq]
  unfold weightSpec
  split <;> norm_num

/-- C101 is false for `multiVoigtFit`: its residuals vanish for exactly those parameters whose curve lies 0.9 below the measured one. -/
theorem C101_voigt_residual (xs i : List ℝ) (hlen : xs.length = i.length) (hpos : ∀ y ∈ i, 0 ≤ y) (p : List ℝ) :
    NoResidual (voigtResidual xs i p) ↔ xs.mapM (multiVoigtAt p) = .ok (i.map fun (y : ℝ) => some (y - 0.9)) := by
  refine residual_zero (g := fun y => y - 0.9) hlen fun y hy a => ?_
  have := hpos y hy
  rw [logdiff_zero (by linarith), oshift_eq]
  have e : y + 0.1 - 1 = y - 0.9 := by norm_num; ring
  rw [e]

/-- C101: the parameters that describe the data exactly are not a zero of the residuals of `multiVoigtFit`. -/
theorem C101_voigt_biased (xs i : List ℝ) (hlen : xs.length = i.length) (hne : i ≠ []) (hpos : ∀ y ∈ i, 0 ≤ y) (p : List ℝ)
    (hp : xs.mapM (multiVoigtAt p) = .ok (i.map fun (y : ℝ) => some y)) : ¬ NoResidual (voigtResidual xs i p) := by
  rw [C101_voigt_residual xs i hlen hpos, hp]
  intro h
  obtain ⟨y, i, rfl⟩ := List.exists_cons_of_ne_nil hne
  simp only [List.map_cons, Except.ok.injEq, List.cons.injEq, Option.some.injEq] at h
  linarith [h.1]

/-! ### The curves that are drawn -/

theorem addCurves_new {c l : Curves} (h : ((c ++ l).map Prod.fst).Nodup) : addCurves c l = c ++ l := by
  induction l generalizing c with
  | nil => simp [addCurves]
  | cons p l ih =>
    unfold addCurves at ih ⊢
    rw [List.foldl_cons]
    have hp : p.1 ∉ c.map Prod.fst := by
      rw [List.map_append, List.nodup_append] at h
      intro hm
      exact h.2.2 _ hm _ (List.mem_cons_self ..) rfl
    rw [dictSet_new _ hp, ih (by simpa using h)]
    simp

/-- The data of the fit: positions and intensity, with the attenuation, in the region. -/
theorem fitData_spec {s : P08Scan} {det : Str} {roi : List Int} {N : Nat} {a : Nat → ℝ} {st : Stack} {xs : List ℝ} {rest : List (List (Option ℝ))}
    (hroi : 4 ≤ roi.length) (ha : AttenAt s N a) (hs : ∀ p ∈ s.imageData, Stack.count p.2 = N)
    (hst : dictGet s.imageData det = .ok st) (hx : s.motors = xs.map some :: rest) (hnames : s.motorNames ≠ []) :
    ∃ i, fitData s det roi = .ok (xs, i) ∧ i.length = N ∧
      ∀ k < N, i.getD k 0 = Stack.sums st (fun img => InRegion img roi) (fun img => InLineRegion img roi) k * a k := by
  obtain ⟨i, h1, h2, h3⟩ := roiOf_spec (s := s) (det := det) (key := fitRoi) (by decide) hroi ha hs hst
  refine ⟨i, ?_, h2, h3⟩
  obtain ⟨n, ns, hn⟩ := List.exists_cons_of_ne_nil hnames
  unfold fitData
  have e1 : getItem s.motors 0 = .ok (xs.map some) := by rw [hx]; rfl
  have e2 : getItem s.motorNames 0 = .ok n := by rw [hn]; rfl
  have e3 : finite (xs.map some) = .ok xs := by
    unfold finite
    rw [mapM_ok_iff, List.forall₂_map_left_iff]
    exact List.forall₂_same.2 fun _ _ => rfl
  rw [h1, bind_ok, e1, bind_ok, e2, bind_ok, e3]
  rfl

/-- The residuals can be computed at the start values. -/
theorem simpleResidual_ok {xs i : List ℝ} (hlen : xs.length = i.length) {p : List ℝ} {l : List (Option ℝ)} (h : xs.mapM (multiGaussAt p) = .ok l) :
    ∃ r, simpleResidual xs i p = .ok r ∧ r.length = xs.length := by
  have hl := (mapM_ok_iff.1 h).length_eq
  unfold simpleResidual
  rw [h, bind_ok]
  unfold ew
  rw [if_pos (by omega)]
  exact ⟨_, rfl, by rw [List.length_zipWith]; omega⟩

/-- A parameter list for `_multi_gauss` can be evaluated everywhere. -/
theorem multiGauss_total (ps : List (ℝ × ℝ × ℝ)) (b x : ℝ) : ∃ o, multiGaussAt (gaussParams ps b) x = .ok o := by
  have key : ∀ n ≤ ps.length, ∃ o, addPeaks gaussAt 3 (gaussParams ps b) x (List.range n) = .ok o := by
    intro n
    induction n with
    | zero => exact fun _ => ⟨_, rfl⟩
    | succ n ih =>
      intro hn
      obtain ⟨o, ho⟩ := ih (by omega)
      unfold addPeaks at ho ⊢
      rw [List.range_succ, List.foldlM_append, ho, bind_ok, List.foldlM_cons]
      unfold gaussParams
      rw [slice_block 3 _ (by
        intro l hl
        obtain ⟨a, -, rfl⟩ := List.mem_map.1 hl
        rfl) [b] n _ (by rw [List.getElem?_map, List.getElem?_eq_getElem (by omega)]; rfl)]
      simp only [List.cons_append, List.nil_append]
      rw [gaussAt_eq]
      exact ⟨_, rfl⟩
  have hlen : (gaussParams ps b).length / 3 = ps.length := by
    unfold gaussParams
    rw [List.length_append, flatten_length_const 3 _ (by
      intro l hl
      obtain ⟨a, -, rfl⟩ := List.mem_map.1 hl
      rfl), List.length_map, List.length_singleton]
    omega
  obtain ⟨o, ho⟩ := key ps.length le_rfl
  unfold multiGaussAt
  rw [hlen, ho, bind_ok]
  have : getItem (gaussParams ps b) (-1) = .ok b := getItem_last _ _
  rw [this]
  exact ⟨_, rfl⟩

/-- C101, `simpleFit`: the region and the first motor give the data; the Gauss peaks of the list are the start values. With the
parameters that the search returns, the fit is their sum and the background, and the curve of every peak is this peak
and the background, under the name of the peak; names must be different and not `data` or `fit`. -/
theorem C101_simple_fit (search : Search) (s : P08Scan) (det : Str) (roi : List Int) (N : Nat) (a : Nat → ℝ) (st : Stack) (xs : List ℝ)
    (rest : List (List (Option ℝ))) (peaks : List (Str × Peak)) (start : List (ℝ × ℝ × ℝ)) (names : List Str) (b0 : ℝ)
    (ps : List (ℝ × ℝ × ℝ)) (b : ℝ)
    (hroi : 4 ≤ roi.length) (ha : AttenAt s N a) (hs : ∀ p ∈ s.imageData, Stack.count p.2 = N)
    (hst : dictGet s.imageData det = .ok st) (hx : s.motors = xs.map some :: rest) (hN : xs.length = N) (hnames : s.motorNames ≠ [])
    (hstart : gaussStart peaks = .ok (gaussParams start b0, names)) (hen : (gaussParams start b0).length ≤ N)
    (hsearch : ∀ i, fitData s det roi = .ok (xs, i) → search (simpleResidual xs i) (gaussParams start b0) = gaussParams ps b) (hps : ps.length = names.length) (hne : ∀ p ∈ ps, p.1 ≠ 0)
    (hnd : (dataLabel :: fitLabel :: names).Nodup) :
    ∃ d, simpleFit search s det roi peaks = .ok d ∧ d.map Prod.fst = dataLabel :: fitLabel :: names ∧
      (∃ i : List ℝ, dictGet d dataLabel = .ok (i.map some) ∧ i.length = N ∧
        ∀ k < N, i.getD k 0 = Stack.sums st (fun img => InRegion img roi) (fun img => InLineRegion img roi) k * a k) ∧
      dictGet d fitLabel = .ok (xs.map fun (x : ℝ) => some (gaussSum ps x + b)) ∧
      ∀ (k : Nat) (n : Str) (p : ℝ × ℝ × ℝ), names[k]? = some n → ps[k]? = some p →
        dictGet d n = .ok (xs.map fun (x : ℝ) => some (gaussPeak p.1 p.2.1 p.2.2 x + b)) := by
  obtain ⟨i, h1, h2, h3⟩ := fitData_spec hroi ha hs hst hx hnames
  obtain ⟨m1, -, -, m4⟩ := C90_multi_gauss ps b hne
  -- the start values
  obtain ⟨l0, hl0⟩ : ∃ l, xs.mapM (multiGaussAt (gaussParams start b0)) = .ok l := by
    obtain ⟨l, hl, -⟩ := mapM_exists (f := multiGaussAt (gaussParams start b0)) (R := fun _ _ => True) (l := xs)
      fun x _ => by
        obtain ⟨o, ho⟩ := multiGauss_total start b0 x
        exact ⟨o, ho, trivial⟩
    exact ⟨l, hl⟩
  obtain ⟨r, hr1, hr2⟩ := simpleResidual_ok (i := i) (by omega) hl0
  have hfit : xs.mapM (multiGaussAt (gaussParams ps b)) = .ok (xs.map fun (x : ℝ) => some (gaussSum ps x + b)) :=
    mapM_eq_ok_map fun x _ => m1 x
  have hsingle : names.zipIdx.mapM (fun (n : Str × Nat) => peakCurve (singleGaussAt (gaussParams ps b) n.2) xs n.1) =
      .ok (names.zipIdx.map fun (n : Str × Nat) => (n.1, xs.map fun (x : ℝ) =>
        some (gaussPeak (ps.getD n.2 (0, 0, 0)).1 (ps.getD n.2 (0, 0, 0)).2.1 (ps.getD n.2 (0, 0, 0)).2.2 x + b))) := by
    refine mapM_eq_ok_map fun n hn => ?_
    have hlt : n.2 < ps.length := by
      rw [hps]
      have := List.mem_zipIdx hn
      omega
    unfold peakCurve
    rw [mapM_eq_ok_map fun x _ => m4 x n.2 (ps.getD n.2 (0, 0, 0)) (by rw [getD_lt hlt]; exact List.getElem?_eq_getElem hlt)]
    rfl
  have hk : (names.zipIdx.map fun (n : Str × Nat) => (n.1, xs.map fun (x : ℝ) =>
        some (gaussPeak (ps.getD n.2 (0, 0, 0)).1 (ps.getD n.2 (0, 0, 0)).2.1 (ps.getD n.2 (0, 0, 0)).2.2 x + b))).map Prod.fst = names := by
    rw [List.map_map]
    exact List.zipIdx_map_fst 0 names
  generalize hcur : (names.zipIdx.map fun (n : Str × Nat) => (n.1, xs.map fun (x : ℝ) =>
        some (gaussPeak (ps.getD n.2 (0, 0, 0)).1 (ps.getD n.2 (0, 0, 0)).2.1 (ps.getD n.2 (0, 0, 0)).2.2 x + b))) = cur at *
  have hdk : ([(dataLabel, i.map some), (fitLabel, xs.map fun (x : ℝ) => some (gaussSum ps x + b))] ++ cur).map Prod.fst =
      dataLabel :: fitLabel :: names := by
    rw [List.map_append, hk]
    rfl
  have hnodup : (([(dataLabel, i.map some), (fitLabel, xs.map fun (x : ℝ) => some (gaussSum ps x + b))] ++ cur).map Prod.fst).Nodup := by
    rw [hdk]
    exact hnd
  refine ⟨[(dataLabel, i.map some), (fitLabel, xs.map fun (x : ℝ) => some (gaussSum ps x + b))] ++ cur, ?_, hdk, ⟨i, ?_, h2, h3⟩, ?_, ?_⟩
  · unfold simpleFit leastsq
    rw [h1, bind_ok, hstart, bind_ok]
    simp only
    rw [hr1, bind_ok, if_neg (by omega), bind_ok, hsearch i h1, hfit, bind_ok, hsingle, bind_ok, addCurves_new hnodup]
    unfold plotCurves
    rw [if_pos]
    intro c hc
    rcases List.mem_append.1 hc with hc | hc
    · simp only [List.mem_cons, List.not_mem_nil, or_false] at hc
      rcases hc with rfl | rfl <;> simp [h2, hN]
    · rw [← hcur] at hc
      obtain ⟨n, -, rfl⟩ := List.mem_map.1 hc
      simp
  · exact dictGet_nodup hnodup (by simp)
  · exact dictGet_nodup hnodup (by simp)
  · intro k n p hn hp
    refine dictGet_nodup hnodup (List.mem_append_right _ ?_)
    rw [← hcur]
    refine List.mem_map.2 ⟨(n, k), ?_, ?_⟩
    · rw [List.mem_zipIdx_iff_getElem?]
      exact hn
    · simp [hp]

/-- The gauss and the Lorentz peak with the background, by the type of the peak. -/
noncomputable def typeCurve (w g i s m j b : ℝ) (type : Str) (x : ℝ) : ℝ :=
  if type = gaussType then gaussPeak s m j x + b else lorentzPeak w g i x + b

theorem gaussLorentzSingle_eq {w g i s m j b : ℝ} (h1 : g * w ≠ 0) (h2 : s ≠ 0) (type : Str) (x : ℝ) :
    gaussLorentzSingle [w, g, i, s, m, j, b] type x = .ok (some (typeCurve w g i s m j b type x)) := by
  have e : gaussLorentzSingle [w, g, i, s, m, j, b] type x =
      if type = gaussType then gaussAt [s, m, j, b] x else lorentzAt [w, g, i, b] x := rfl
  rw [e]
  unfold typeCurve
  by_cases h : type = gaussType
  · rw [if_pos h, if_pos h, gaussAt_eq, if_neg h2]
  · rw [if_neg h, if_neg h, lorentzAt_eq, if_neg (lorentz_pos h1 x).ne']

theorem gaussLorentz_total {p : List ℝ} (hp : p.length = 7) (x : ℝ) : ∃ o, gaussLorentzAt p x = .ok o := by
  match p, hp with
  | [w, g, i, s, m, j, b], _ =>
    have h : gaussLorentzAt [w, g, i, s, m, j, b] x = (do
      let l ← lorentzAt [w, g, i, 0] x
      let g ← gaussAt [s, m, j, 0] x
      return oadd (oadd (oadd (some 0) l) g) (some b)) := rfl
    rw [h, lorentzAt_eq, gaussAt_eq]
    exact ⟨_, rfl⟩

theorem gaussLorentzResidual_ok {xs i : List ℝ} (hlen : xs.length = i.length) {p : List ℝ} (hp : p.length = 7) (lo hi h : ℝ) :
    ∃ r, gaussLorentzResidual (some [lo, hi, h]) xs i p = .ok r ∧ r.length = xs.length := by
  obtain ⟨l, hl, hl'⟩ := mapM_exists (f := gaussLorentzAt p) (R := fun _ _ => True) (l := xs) fun x _ => by
    obtain ⟨o, ho⟩ := gaussLorentz_total hp x
    exact ⟨o, ho, trivial⟩
  have hll := hl'.length_eq
  unfold gaussLorentzResidual
  rw [Option.getD_some, mapM_eq_ok_map fun x _ => fitWeight_eq lo hi h x, bind_ok, hl, bind_ok]
  unfold ew
  rw [if_pos (by omega), bind_ok, if_pos (by rw [List.length_map, List.length_zipWith]; omega)]
  exact ⟨_, rfl, by rw [List.length_zipWith, List.length_map, List.length_zipWith]; omega⟩

/-- C101, `gaussLorentzianFit`: the data, the fit, the curve of the start values and both peaks with the background are drawn under
their names. -/
theorem C101_gauss_lorentz_fit (search : Search) (s : P08Scan) (det : Str) (roi : List Int) (N : Nat) (a : Nat → ℝ) (st : Stack) (xs : List ℝ)
    (rest : List (List (Option ℝ))) (peaks : List (Str × Peak)) (lo hi h : ℝ) (w0 g0 i0 s0 m0 j0 b0 w g i' s' m j b : ℝ)
    (hroi : 4 ≤ roi.length) (ha : AttenAt s N a) (hs : ∀ p ∈ s.imageData, Stack.count p.2 = N)
    (hst : dictGet s.imageData det = .ok st) (hx : s.motors = xs.map some :: rest) (hN : xs.length = N) (hnames : s.motorNames ≠ [])
    (hstart : gaussLorentzStart peaks = .ok [w0, g0, i0, s0, m0, j0, b0]) (hen : 7 ≤ N)
    (hw0 : g0 * w0 ≠ 0) (hs0 : s0 ≠ 0) (hw : g * w ≠ 0) (hs' : s' ≠ 0)
    (hsearch : ∀ i, fitData s det roi = .ok (xs, i) → search (gaussLorentzResidual (some [lo, hi, h]) xs i) [w0, g0, i0, s0, m0, j0, b0] =
      [w, g, i', s', m, j, b])
    (htypes : ∀ k ∈ peaks, k.2.type = gaussType ∨ k.2.type = lorentzType)
    (hnd : (dataLabel :: fitLabel :: startLabel :: peaks.map Prod.fst).Nodup) :
    ∃ d, gaussLorentzFit search s det roi peaks (some [lo, hi, h]) = .ok d ∧
      d.map Prod.fst = dataLabel :: fitLabel :: startLabel :: peaks.map Prod.fst ∧
      (∃ i : List ℝ, dictGet d dataLabel = .ok (i.map some) ∧ i.length = N ∧
        ∀ k < N, i.getD k 0 = Stack.sums st (fun img => InRegion img roi) (fun img => InLineRegion img roi) k * a k) ∧
      dictGet d fitLabel = .ok (xs.map fun (x : ℝ) => some (lorentzPeak w g i' x + gaussPeak s' m j x + b)) ∧
      dictGet d startLabel = .ok (xs.map fun (x : ℝ) => some (lorentzPeak w0 g0 i0 x + gaussPeak s0 m0 j0 x + b0)) ∧
      (∀ k ∈ peaks, k.2.type = gaussType → dictGet d k.1 = .ok (xs.map fun (x : ℝ) => some (gaussPeak s' m j x + b))) ∧
      (∀ k ∈ peaks, k.2.type = lorentzType → dictGet d k.1 = .ok (xs.map fun (x : ℝ) => some (lorentzPeak w g i' x + b))) := by
  obtain ⟨i, h1, h2, h3⟩ := fitData_spec hroi ha hs hst hx hnames
  obtain ⟨r, hr1, hr2⟩ := gaussLorentzResidual_ok (xs := xs) (i := i) (by omega) (p := [w0, g0, i0, s0, m0, j0, b0]) rfl lo hi h
  have hfit : xs.mapM (gaussLorentzAt [w, g, i', s', m, j, b]) = .ok (xs.map fun (x : ℝ) => some (lorentzPeak w g i' x + gaussPeak s' m j x + b)) :=
    mapM_eq_ok_map fun x _ => (C90_gauss_lorentzian w g i' s' m j b hw hs').1 x
  have hbef : xs.mapM (gaussLorentzAt [w0, g0, i0, s0, m0, j0, b0]) =
      .ok (xs.map fun (x : ℝ) => some (lorentzPeak w0 g0 i0 x + gaussPeak s0 m0 j0 x + b0)) :=
    mapM_eq_ok_map fun x _ => (C90_gauss_lorentzian w0 g0 i0 s0 m0 j0 b0 hw0 hs0).1 x
  have hfil : gaussLorentzPeaks peaks = peaks := by
    unfold gaussLorentzPeaks
    rw [List.filter_eq_self]
    intro k hk
    exact decide_eq_true (htypes k hk)
  have hsingle : peaks.mapM (fun (k : Str × Peak) => peakCurve (gaussLorentzSingle [w, g, i', s', m, j, b] k.2.type) xs k.1) =
      .ok (peaks.map fun (k : Str × Peak) => (k.1, xs.map fun (x : ℝ) => some (typeCurve w g i' s' m j b k.2.type x))) := by
    refine mapM_eq_ok_map fun k _ => ?_
    unfold peakCurve
    rw [mapM_eq_ok_map fun x _ => gaussLorentzSingle_eq hw hs' k.2.type x]
    rfl
  have hk : (peaks.map fun (k : Str × Peak) => (k.1, xs.map fun (x : ℝ) => some (typeCurve w g i' s' m j b k.2.type x))).map Prod.fst =
      peaks.map Prod.fst := by
    rw [List.map_map]
    rfl
  generalize hcur : (peaks.map fun (k : Str × Peak) => (k.1, xs.map fun (x : ℝ) => some (typeCurve w g i' s' m j b k.2.type x))) = cur at *
  have hdk : ([(dataLabel, i.map some), (fitLabel, xs.map fun (x : ℝ) => some (lorentzPeak w g i' x + gaussPeak s' m j x + b)),
      (startLabel, xs.map fun (x : ℝ) => some (lorentzPeak w0 g0 i0 x + gaussPeak s0 m0 j0 x + b0))] ++ cur).map Prod.fst =
      dataLabel :: fitLabel :: startLabel :: peaks.map Prod.fst := by
    rw [List.map_append, hk]
    rfl
  have hnodup := hdk ▸ hnd
  refine ⟨[(dataLabel, i.map some), (fitLabel, xs.map fun (x : ℝ) => some (lorentzPeak w g i' x + gaussPeak s' m j x + b)),
      (startLabel, xs.map fun (x : ℝ) => some (lorentzPeak w0 g0 i0 x + gaussPeak s0 m0 j0 x + b0))] ++ cur, ?_, hdk, ⟨i, ?_, h2, h3⟩, ?_, ?_, ?_, ?_⟩
  · unfold gaussLorentzFit leastsq
    rw [h1, bind_ok, hstart, bind_ok]
    simp only
    rw [hr1, bind_ok, if_neg (by simp only [List.length_cons, List.length_nil]; omega), bind_ok, hsearch i h1, hfit, bind_ok, hbef, bind_ok, hfil,
      hsingle, bind_ok, addCurves_new hnodup]
    unfold plotCurves
    rw [if_pos]
    intro c hc
    rcases List.mem_append.1 hc with hc | hc
    · simp only [List.mem_cons, List.not_mem_nil, or_false] at hc
      rcases hc with rfl | rfl | rfl <;> simp [h2, hN]
    · rw [← hcur] at hc
      obtain ⟨n, -, rfl⟩ := List.mem_map.1 hc
      simp
  · exact dictGet_nodup hnodup (by simp)
  · exact dictGet_nodup hnodup (by simp)
  · exact dictGet_nodup hnodup (by simp)
  · intro k hk ht
    refine dictGet_nodup hnodup (List.mem_append_right _ ?_)
    rw [← hcur]
    refine List.mem_map.2 ⟨k, hk, ?_⟩
    simp only [typeCurve, if_pos ht]
  · intro k hk ht
    refine dictGet_nodup hnodup (List.mem_append_right _ ?_)
    rw [← hcur]
    refine List.mem_map.2 ⟨k, hk, ?_⟩
    have : ¬ k.2.type = gaussType := by rw [ht]; decide
    simp only [typeCurve, if_neg this]

theorem singleVoigt_eq {ps : List Voigt} {b : ℝ} (hs : ∀ v ∈ ps, v.gaussWidth ≠ 0 ∧ v.lorentzWidth * v.pos ≠ 0) {k : Nat} {v : Voigt}
    (hk : ps[k]? = some v) (x : ℝ) : singleVoigtAt (voigtParams ps b) k x = .ok (some (v.at x + b)) := by
  unfold singleVoigtAt
  have e : getItem (voigtParams ps b) (-1) = .ok b := getItem_last _ _
  rw [e, bind_ok]
  unfold voigtParams
  rw [slice_block 5 _ (by
    intro l hl
    obtain ⟨a, -, rfl⟩ := List.mem_map.1 hl
    rfl) [b] k _ (by rw [List.getElem?_map, hk]; rfl)]
  exact voigtAt_eq v b x (hs v (List.mem_of_getElem? hk)).1 (hs v (List.mem_of_getElem? hk)).2

/-- C101, `multiVoigtFit`: if the search succeeds, the data, the start curve, the curve of the result and every peak with the background
are drawn under their names. -/
theorem C101_voigt_fit (search : Residual → List ℝ → Option (List ℝ)) (s : P08Scan) (det : Str) (roi : List Int) (N : Nat) (a : Nat → ℝ)
    (st : Stack) (xs : List ℝ) (rest : List (List (Option ℝ))) (peaks : List (Str × Peak)) (start ps : List Voigt) (names : List Str) (b0 b : ℝ)
    (hroi : 4 ≤ roi.length) (ha : AttenAt s N a) (hs : ∀ p ∈ s.imageData, Stack.count p.2 = N)
    (hst : dictGet s.imageData det = .ok st) (hx : s.motors = xs.map some :: rest) (hN : xs.length = N) (hnames : s.motorNames ≠ [])
    (hstart : voigtStart peaks = .ok (voigtParams start b0, names))
    (hsearch : ∀ i, fitData s det roi = .ok (xs, i) → search (voigtResidual xs i) (voigtParams start b0) = some (voigtParams ps b))
    (hps : ps.length = names.length) (hne0 : ∀ v ∈ start, v.gaussWidth ≠ 0 ∧ v.lorentzWidth * v.pos ≠ 0)
    (hne : ∀ v ∈ ps, v.gaussWidth ≠ 0 ∧ v.lorentzWidth * v.pos ≠ 0)
    (hnd : (dataLabel :: beforeLabel :: logLabel :: names).Nodup) :
    ∃ d, multiVoigtFit search s det roi peaks = .ok (some d) ∧ d.map Prod.fst = dataLabel :: beforeLabel :: logLabel :: names ∧
      (∃ i : List ℝ, dictGet d dataLabel = .ok (i.map some) ∧ i.length = N ∧
        ∀ k < N, i.getD k 0 = Stack.sums st (fun img => InRegion img roi) (fun img => InLineRegion img roi) k * a k) ∧
      dictGet d beforeLabel = .ok (xs.map fun (x : ℝ) => some ((start.map fun (v : Voigt) => v.at x).sum + b0)) ∧
      dictGet d logLabel = .ok (xs.map fun (x : ℝ) => some ((ps.map fun (v : Voigt) => v.at x).sum + b)) ∧
      ∀ (k : Nat) (n : Str) (v : Voigt), names[k]? = some n → ps[k]? = some v →
        dictGet d n = .ok (xs.map fun (x : ℝ) => some (v.at x + b)) := by
  obtain ⟨i, h1, h2, h3⟩ := fitData_spec hroi ha hs hst hx hnames
  have hbef : xs.mapM (multiVoigtAt (voigtParams start b0)) = .ok (xs.map fun (x : ℝ) => some ((start.map fun (v : Voigt) => v.at x).sum + b0)) :=
    mapM_eq_ok_map fun x _ => C90_multi_voigt start b0 hne0 x
  have hfit : xs.mapM (multiVoigtAt (voigtParams ps b)) = .ok (xs.map fun (x : ℝ) => some ((ps.map fun (v : Voigt) => v.at x).sum + b)) :=
    mapM_eq_ok_map fun x _ => C90_multi_voigt ps b hne x
  have hres : ∃ r, voigtResidual xs i (voigtParams start b0) = .ok r := by
    unfold voigtResidual ew
    rw [hbef, bind_ok, if_pos (by rw [List.length_map]; omega)]
    exact ⟨_, rfl⟩
  obtain ⟨r, hr⟩ := hres
  let val : Nat → ℝ → ℝ := fun k x => (ps[k]?.map fun (v : Voigt) => v.at x + b).getD 0
  have hsingle : names.zipIdx.mapM (fun (n : Str × Nat) => peakCurve (singleVoigtAt (voigtParams ps b) n.2) xs n.1) =
      .ok (names.zipIdx.map fun (n : Str × Nat) => (n.1, xs.map fun (x : ℝ) => some (val n.2 x))) := by
    refine mapM_eq_ok_map fun n hn => ?_
    have hlt : n.2 < ps.length := by
      rw [hps]
      have := List.mem_zipIdx hn
      omega
    have hg : ps[n.2]? = some ps[n.2] := List.getElem?_eq_getElem hlt
    unfold peakCurve
    rw [mapM_eq_ok_map (g := fun (x : ℝ) => some (val n.2 x)) fun x _ => by
      rw [singleVoigt_eq hne hg x]
      simp only [val, hg, Option.map_some, Option.getD_some]]
    rfl
  have hk : (names.zipIdx.map fun (n : Str × Nat) => (n.1, xs.map fun (x : ℝ) => some (val n.2 x))).map Prod.fst = names := by
    rw [List.map_map]
    exact List.zipIdx_map_fst 0 names
  generalize hcur : (names.zipIdx.map fun (n : Str × Nat) => (n.1, xs.map fun (x : ℝ) => some (val n.2 x))) = cur at *
  have hdk : ([(dataLabel, i.map some), (beforeLabel, xs.map fun (x : ℝ) => some ((start.map fun (v : Voigt) => v.at x).sum + b0)),
      (logLabel, xs.map fun (x : ℝ) => some ((ps.map fun (v : Voigt) => v.at x).sum + b))] ++ cur).map Prod.fst =
      dataLabel :: beforeLabel :: logLabel :: names := by
    rw [List.map_append, hk]
    rfl
  have hnodup := hdk ▸ hnd
  refine ⟨[(dataLabel, i.map some), (beforeLabel, xs.map fun (x : ℝ) => some ((start.map fun (v : Voigt) => v.at x).sum + b0)),
      (logLabel, xs.map fun (x : ℝ) => some ((ps.map fun (v : Voigt) => v.at x).sum + b))] ++ cur, ?_, hdk, ⟨i, ?_, h2, h3⟩, ?_, ?_, ?_⟩
  · have hc : curveFit search (voigtResidual xs i) (voigtParams start b0) = .ok (voigtParams ps b) := by
      unfold curveFit
      rw [hr, bind_ok, hsearch i h1]
    unfold multiVoigtFit
    rw [h1, bind_ok, hstart, bind_ok]
    simp only
    rw [hc]
    simp only
    unfold voigtCurves
    rw [hbef, bind_ok, hfit, bind_ok, hsingle, bind_ok, addCurves_new hnodup]
    unfold plotCurves
    rw [if_pos]
    · rfl
    intro c hc
    rcases List.mem_append.1 hc with hc | hc
    · simp only [List.mem_cons, List.not_mem_nil, or_false] at hc
      rcases hc with rfl | rfl | rfl <;> simp [h2, hN]
    · rw [← hcur] at hc
      obtain ⟨n, -, rfl⟩ := List.mem_map.1 hc
      simp
  · exact dictGet_nodup hnodup (by simp)
  · exact dictGet_nodup hnodup (by simp)
  · exact dictGet_nodup hnodup (by simp)
  · intro k n v hn hv
    refine dictGet_nodup hnodup (List.mem_append_right _ ?_)
    rw [← hcur]
    refine List.mem_map.2 ⟨(n, k), ?_, ?_⟩
    · rw [List.mem_zipIdx_iff_getElem?]
      exact hn
    · simp [val, hv]

/-- C101, start of `multiVoigtFit`: the parameters of the Voigt peaks and the background of the last entry. -/
theorem C101_voigt_start (peaks : List (Str × Peak)) (last : Str × Peak) (b : ℝ) (hl : peaks.getLast? = some last)
    (hb : last.2.params[5]? = some b) (h5 : ∀ k ∈ peaks, k.2.type = voigtType → 5 ≤ k.2.params.length) :
    voigtStart peaks = .ok (voigtParams ((peaks.filter fun (k : Str × Peak) => k.2.type = voigtType).map fun (k : Str × Peak) =>
        ⟨k.2.params.getD 0 0, k.2.params.getD 1 0, k.2.params.getD 2 0, k.2.params.getD 3 0, k.2.params.getD 4 0⟩) b,
      (peaks.filter fun (k : Str × Peak) => k.2.type = voigtType).map Prod.fst) := by
  unfold voigtStart
  rw [hl]
  simp only
  have hg : getItem last.2.params 5 = .ok b := by
    obtain ⟨hlt, he⟩ := List.getElem?_eq_some_iff.1 hb
    rw [show (5 : Int) = ((5 : Nat) : Int) from rfl, getItem_nat hlt, he]
  rw [hg, bind_ok]
  unfold voigtParams
  congr 4
  rw [List.map_map]
  refine List.map_congr_left fun k hk => ?_
  have h := h5 k (List.mem_filter.1 hk).1 (by simpa using (List.mem_filter.1 hk).2)
  show slice k.2.params (some 0) (some 5) = [k.2.params.getD 0 0, k.2.params.getD 1 0, k.2.params.getD 2 0, k.2.params.getD 3 0, k.2.params.getD 4 0]
  generalize k.2.params = l at h
  match l, h with
  | p0 :: p1 :: p2 :: p3 :: p4 :: l, _ => simp [slice, sliceBound]

/-- C101: the fit is the sum of the curves that are drawn for its peaks, without the background that all but one of them contain. -/
theorem C101_sum (ps : List (ℝ × ℝ × ℝ)) (b x : ℝ) :
    gaussSum ps x + b = (ps.map fun (p : ℝ × ℝ × ℝ) => gaussPeak p.1 p.2.1 p.2.2 x + b).sum - ((ps.length : ℝ) - 1) * b := by
  unfold gaussSum
  induction ps with
  | nil => simp
  | cons p ps ih =>
    rw [List.map_cons, List.map_cons, List.sum_cons, List.sum_cons, List.length_cons]
    push_cast
    linarith

/-- C101 is false for a peak that is called `data`: its curve replaces the measured one. -/
theorem C101_overwritten (i fit l : List (Option ℝ)) :
    dictGet (addCurves [(dataLabel, i), (fitLabel, fit)] [(dataLabel, l)]) dataLabel = .ok l := by
  have : addCurves [(dataLabel, i), (fitLabel, fit)] [(dataLabel, l)] = dictSet [(dataLabel, i), (fitLabel, fit)] dataLabel l := rfl
  rw [this, dictGet_dictSet, if_pos rfl]

/-- C101 is false for `multiFit`: no call succeeds, as the function given to `curve_fit` has its arguments in the wrong order. -/
theorem C101_multi_fails (search : (ℝ → Res (List (Option ℝ))) → ℝ) (s : P08Scan) (det : Str) (roi : List Int) (peaks : List (Str × Peak)) :
    ∃ e, multiFit search s det roi peaks = .error e := by
  unfold multiFit
  cases fitData s det roi with
  | error e => exact ⟨e, rfl⟩
  | ok d =>
    rw [bind_ok]
    cases gaussStart peaks with
    | error e => exact ⟨e, rfl⟩
    | ok st => exact ⟨.typeError, rfl⟩

/-- C101: with good data and peaks it is a `TypeError`. -/
theorem C101_multi_type_error (search : (ℝ → Res (List (Option ℝ))) → ℝ) (s : P08Scan) (det : Str) (roi : List Int) (peaks : List (Str × Peak))
    (d : List ℝ × List ℝ) (st : List ℝ × List Str) (h1 : fitData s det roi = .ok d) (h2 : gaussStart peaks = .ok st) :
    multiFit search s det roi peaks = .error .typeError := by
  unfold multiFit
  rw [h1, bind_ok, h2]
  rfl

/-- C101: `multiVoigtFit` hides every error of the search: nothing is drawn and the call succeeds. -/
theorem C101_voigt_silent (search : Residual → List ℝ → Option (List ℝ)) (s : P08Scan) (det : Str) (roi : List Int) (peaks : List (Str × Peak))
    (d : List ℝ × List ℝ) (st : List ℝ × List Str) (h1 : fitData s det roi = .ok d) (h2 : voigtStart peaks = .ok st)
    (h3 : (∃ e, voigtResidual d.1 d.2 st.1 = .error e) ∨ search (voigtResidual d.1 d.2) st.1 = none) :
    multiVoigtFit search s det roi peaks = .ok none := by
  unfold multiVoigtFit
  rw [h1, bind_ok, h2, bind_ok]
  have : ∃ e, curveFit search (voigtResidual d.1 d.2) st.1 = .error e := by
    unfold curveFit
    rcases h3 with ⟨e, he⟩ | h3
    · exact ⟨e, by rw [he]; rfl⟩
    · cases voigtResidual d.1 d.2 st.1 with
      | error e => exact ⟨e, rfl⟩
      | ok l =>
        rw [bind_ok, h3]
        exact ⟨_, rfl⟩
  obtain ⟨e, he⟩ := this
  rw [he]

/-- C101, `diff_func`: for positive arrays of the same length it is zero exactly for equal arrays. -/
theorem C101_diff (x y : List ℝ) (hlen : x.length = y.length) (hx : ∀ v ∈ x, 0 < v) (hy : ∀ v ∈ y, 0 < v) :
    ∃ v, diffFunc x y = .ok (some v) ∧ 0 ≤ v ∧ (v = 0 ↔ x = y) := by
  unfold diffFunc ew
  rw [if_pos hlen, bind_ok]
  have key : ∀ (c : ℝ), 0 ≤ c → ∃ v, (List.zipWith (fun (x y : ℝ) => oabs (osub (olog10 (some x)) (olog10 (some y)))) x y).foldl oadd (some c) =
      some v ∧ c ≤ v ∧ (v = c ↔ x = y) := by
    induction x generalizing y with
    | nil =>
      intro c _
      cases y with
      | nil => exact ⟨c, rfl, le_rfl, by simp⟩
      | cons b y => simp at hlen
    | cons a x ih =>
      intro c hc
      cases y with
      | nil => simp at hlen
      | cons b y =>
        have ha := hx a (by simp)
        have hb := hy b (by simp)
        obtain ⟨v, h1, h2, h3⟩ := ih y (by simpa using hlen) (fun v h => hx v (by simp [h])) (fun v h => hy v (by simp [h]))
          (c + |Real.logb 10 a - Real.logb 10 b|) (by positivity)
        refine ⟨v, ?_, ?_, ?_⟩
        · rw [List.zipWith_cons_cons, List.foldl_cons]
          simp only [olog10, if_pos ha, if_pos hb, osub, oabs, oadd]
          exact h1
        · have := abs_nonneg (Real.logb 10 a - Real.logb 10 b)
          linarith
        · have h0 := abs_nonneg (Real.logb 10 a - Real.logb 10 b)
          constructor
          · intro hv
            have e : |Real.logb 10 a - Real.logb 10 b| = 0 := by linarith
            have e1 := (olog10_inj ha hb).1 (sub_eq_zero.1 (abs_eq_zero.1 e))
            rw [e1, h3.1 (by linarith)]
          · rintro he
            obtain ⟨rfl, rfl⟩ := List.cons.inj he
            rw [h3.2 rfl]
            simp
  obtain ⟨v, h1, h2, h3⟩ := key 0 le_rfl
  exact ⟨v, by rw [h1]; rfl, h2, h3⟩

/-! ### Examples -/

/-- The hypotheses of `C101_simple_fit` are met: two images and a list without Gauss peaks, where only the background is fitted. -/
example : ∃ d, simpleFit (fun _ _ => gaussParams [] 7) examplePlot "p100k".toList [0, 0, 2, 1] [("bg".toList, ⟨"none".toList, [0, 0, 0, 5]⟩)] = .ok d ∧
    dictGet d fitLabel = .ok [some 7, some 7] := by
  obtain ⟨d, h1, -, -, h4, -⟩ := C101_simple_fit (fun _ _ => gaussParams [] 7) examplePlot "p100k".toList [0, 0, 2, 1] 2
    (fun k => if k = 0 then 1 else 3) (.images [[[1, 2], [3, 4]], [[5, 6], [7, 8]]]) [1, 2] []
    [("bg".toList, ⟨"none".toList, [0, 0, 0, 5]⟩)] [] [] 5 [] 7 (by decide) exampleP08_atten (by
      intro p hp
      rw [List.mem_singleton.1 hp]
      rfl) rfl rfl rfl (by decide) rfl (by decide) (fun _ _ => rfl) rfl (by simp) (by decide)
  refine ⟨d, h1, h4.trans ?_⟩
  simp [gaussSum]

end Verif.Props
