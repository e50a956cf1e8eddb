import Verif.Spec.Sampling
import Verif.Spec.Sample
import Verif.Props.Labels

/-!
# C14, C15, C16, C17, C18: sampling and random labels
-/

namespace Verif.Props
open Verif.Py Verif.Model Verif.Spec
variable {G : Type} {rng : Rng G}

/-! ### The generator used in the instances -/

/-- A generator returning the lower limit and normal values `off` standard deviations below the mean. -/
noncomputable def constRng (off : ℝ) : Rng Unit where
  uniform a _ n g := (List.replicate n a, g)
  normal m s n g := (List.replicate n (m - off * s), g)
  shuffle l g := (l, g)

theorem constRng_ok (off : ℝ) : (constRng off).Ok where
  uniform_length a b n g := by simp [constRng]
  uniform_mem a b n g x hx := by
    simp only [constRng, List.mem_replicate] at hx
    rw [hx.2]; exact Set.left_mem_uIcc
  normal_length m s n g := by simp [constRng]
  shuffle_perm l g := List.Perm.refl _

/-! ### Single draws -/

theorem drawUniform_ok (ok : rng.Ok) {a b : ℝ} {n : Int} {g g' : G} {xs : List ℝ}
    (h : drawUniform rng a b n g = .ok (xs, g')) :
    (xs.length : Int) = n ∧ (∀ x ∈ xs, x ∈ Set.uIcc a b) ∧ 0 ≤ n ∧ xs = (rng.uniform a b n.toNat g).1 ∧
      g' = (rng.uniform a b n.toNat g).2 := by
  unfold drawUniform at h
  split_ifs at h with hn
  have he := Except.ok.inj h
  have h1 := ok.uniform_length a b n.toNat g
  have h2 := ok.uniform_mem a b n.toNat g
  rw [he] at h1 h2 ⊢
  refine ⟨?_, h2, by omega, rfl, rfl⟩
  simp only at h1
  omega

theorem drawUniform_of_nonneg (rng : Rng G) (a b : ℝ) {n : Int} (hn : 0 ≤ n) (g : G) :
    drawUniform rng a b n g = .ok ((rng.uniform a b n.toNat g).1, (rng.uniform a b n.toNat g).2) := by
  unfold drawUniform
  rw [if_neg (by omega)]

theorem drawNormal_ok (ok : rng.Ok) {m s : ℝ} {n : Int} {g g' : G} {xs : List ℝ}
    (h : drawNormal rng m s n g = .ok (xs, g')) :
    (xs.length : Int) = n ∧ 0 ≤ n ∧ 0 ≤ s ∧ xs = (rng.normal m s n.toNat g).1 ∧
      g' = (rng.normal m s n.toNat g).2 := by
  unfold drawNormal at h
  split_ifs at h with hn
  simp only [not_or, not_lt] at hn
  have he := Except.ok.inj h
  have h1 := ok.normal_length m s n.toNat g
  rw [he] at h1 ⊢
  refine ⟨?_, hn.1, hn.2, rfl, rfl⟩
  simp only at h1
  omega

theorem foldValue_eq_reflect (mn mx x : ℝ) : foldValue mn mx x = reflect mn mx x := by
  unfold foldValue reflect
  split_ifs <;> ring

theorem reflect_mem_iff {mn mx : ℝ} (h : mn ≤ mx) (x : ℝ) :
    (mn ≤ reflect mn mx x ∧ reflect mn mx x ≤ mx) ↔ (2 * mn - mx ≤ x ∧ x ≤ 2 * mx - mn) := by
  unfold reflect
  split_ifs with h1 h2
  · constructor
    · rintro ⟨a, b⟩; constructor <;> linarith
    · rintro ⟨a, b⟩; constructor <;> linarith
  · constructor
    · rintro ⟨a, b⟩; constructor <;> linarith
    · rintro ⟨a, b⟩; constructor <;> linarith
  · constructor
    · rintro ⟨a, b⟩; constructor <;> linarith
    · rintro ⟨a, b⟩; constructor <;> linarith

theorem drawShuffle_ok (ok : rng.Ok) {l xs : List ℝ} {g g' : G}
    (h : drawShuffle rng l g = .ok (xs, g')) : xs.Perm l := by
  have := ok.shuffle_perm l g
  rwa [Except.ok.inj h] at this

theorem map_foldValue (mn mx : ℝ) (l : List ℝ) : l.map (foldValue mn mx) = l.map (reflect mn mx) :=
  List.map_congr_left fun x _ => foldValue_eq_reflect mn mx x

/-- What a successful bolstered draw consists of. -/
theorem bolstered_ok (ok : rng.Ok) {mn mx f w : ℝ} {n : Int} {g g' : G} {xs : List ℝ}
    (h : bolstered rng mn mx n f w g = .ok (xs, g')) :
    ∃ lower u upper g1 g2, 0 ≤ nBolster n f ∧ 0 ≤ n - 2 * nBolster n f ∧ 0 ≤ (mx - mn) * w ∧
      lower = (rng.normal mn ((mx - mn) * w) (nBolster n f).toNat g1).1 ∧
      u = (rng.uniform mn mx (n - 2 * nBolster n f).toNat g).1 ∧
      upper = (rng.normal mx ((mx - mn) * w) (nBolster n f).toNat g2).1 ∧
      xs.Perm (lower.map (reflect mn mx) ++ u ++ upper.map (reflect mn mx)) ∧
      (lower.length : Int) = nBolster n f ∧ (upper.length : Int) = nBolster n f ∧
      (u.length : Int) = n - 2 * nBolster n f ∧ ∀ x ∈ u, x ∈ Set.uIcc mn mx := by
  unfold bolstered at h
  obtain ⟨u, g1, hu, h⟩ := Rand.bind_ok.1 h
  obtain ⟨lo, g2, hl, h⟩ := Rand.bind_ok.1 h
  obtain ⟨up, g3, hp, h⟩ := Rand.bind_ok.1 h
  obtain ⟨u1, u2, u3, u4, _⟩ := drawUniform_ok ok hu
  obtain ⟨l1, l2, l3, l4, _⟩ := drawNormal_ok ok hl
  obtain ⟨p1, p2, p3, p4, _⟩ := drawNormal_ok ok hp
  have hx := drawShuffle_ok ok h
  rw [map_foldValue, map_foldValue] at hx
  exact ⟨lo, u, up, g1, g2, l2, u3, l3, l4, u4, p4, hx, l1, p1, u1, u2⟩

theorem bolstered_length (ok : rng.Ok) {mn mx f w : ℝ} {n : Int} {g g' : G} {xs : List ℝ}
    (h : bolstered rng mn mx n f w g = .ok (xs, g')) : (xs.length : Int) = n := by
  obtain ⟨lo, u, up, _, _, _, _, _, _, _, _, hp, h1, h2, h3, _⟩ := bolstered_ok ok h
  rw [hp.length_eq]
  simp only [List.length_append, List.length_map]
  omega

theorem logDistribution_ok (ok : rng.Ok) {mn mx : ℝ} {n : Int} {g g' : G} {xs : List ℝ}
    (h : logDistribution rng mn mx n g = .ok (xs, g')) :
    (xs.length : Int) = n ∧ ∀ x ∈ xs, x ∈ Set.uIcc mn mx := by
  unfold logDistribution at h
  split_ifs at h with hpos
  · exact (Rand.fail_ok.1 h).elim
  · simp only [not_or, not_le] at hpos
    obtain ⟨u, g1, hu, h⟩ := Rand.bind_ok.1 h
    obtain ⟨u1, u2, _, _, _⟩ := drawUniform_ok ok hu
    have he := Rand.pure_ok.1 h
    simp only [Prod.mk.injEq] at he
    obtain ⟨rfl, rfl⟩ := he
    refine ⟨by simpa using u1, ?_⟩
    intro x hx
    obtain ⟨y, hy, rfl⟩ := List.mem_map.1 hx
    have hy := u2 y hy
    rw [Set.mem_uIcc] at hy ⊢
    have key : ∀ a : ℝ, 0 < a → (10 : ℝ) ^ Real.logb 10 a = a := fun a ha =>
      Real.rpow_logb (by norm_num) (by norm_num) ha
    rcases hy with ⟨h1, h2⟩ | ⟨h1, h2⟩
    · left
      rw [← key mn hpos.1, ← key mx hpos.2]
      exact ⟨Real.rpow_le_rpow_of_exponent_le (by norm_num) (by assumption),
        Real.rpow_le_rpow_of_exponent_le (by norm_num) (by assumption)⟩
    · right
      rw [← key mn hpos.1, ← key mx hpos.2]
      exact ⟨Real.rpow_le_rpow_of_exponent_le (by norm_num) (by assumption),
        Real.rpow_le_rpow_of_exponent_le (by norm_num) (by assumption)⟩

/-! ## C15 -/

/-- C15: every distribution type returns exactly the requested number of values. -/
theorem C15_count (ok : rng.Ok) (d : DistArgs) (n : Int) (mn mx : ℝ) (g g' : G) (xs : List ℝ)
    (h : sampleDistribution rng n mn mx d g = .ok (xs, g')) : (xs.length : Int) = n := by
  obtain ⟨kind, fr, wd⟩ := d
  cases kind with
  | uniform => exact (drawUniform_ok ok h).1
  | logarithmic => exact (logDistribution_ok ok h).1
  | other => simp [sampleDistribution, Rand.fail] at h
  | bolstered =>
    cases fr with
    | none => simp [sampleDistribution, Rand.fail] at h
    | some f =>
      cases wd with
      | none => simp [sampleDistribution, Rand.fail] at h
      | some w => exact bolstered_length ok h

theorem nBolster_bounds {n : Int} (hn : 0 ≤ n) {f : ℝ} (hf : 0 ≤ f) (hf1 : f ≤ 1) :
    0 ≤ nBolster n f ∧ 0 ≤ n - 2 * nBolster n f := by
  have hn' : (0 : ℝ) ≤ n := by exact_mod_cast hn
  constructor
  · exact Int.floor_nonneg.2 (by positivity)
  · have h1 : ((nBolster n f : Int) : ℝ) ≤ n * f / 2 := Int.floor_le _
    have h2 : (n : ℝ) * f ≤ n * 1 := mul_le_mul_of_nonneg_left hf1 hn'
    have h3 : ((2 * nBolster n f : Int) : ℝ) ≤ n := by push_cast; linarith
    have : 2 * nBolster n f ≤ n := by exact_mod_cast h3
    omega

/-- The bolstered distribution does not raise. -/
theorem bolstered_total (rng : Rng G) {mn mx f w : ℝ} {n : Int} (hn : 0 ≤ n) (hf : 0 ≤ f) (hf1 : f ≤ 1)
    (hw : 0 ≤ w) (hm : mn ≤ mx) (g : G) : ∃ xs g', bolstered rng mn mx n f w g = .ok (xs, g') := by
  obtain ⟨h1, h2⟩ := nBolster_bounds hn hf hf1
  have hs : ¬ ((mx - mn) * w < 0) := not_lt.2 (mul_nonneg (sub_nonneg.2 hm) hw)
  have hN : ∀ m g, ∃ xs g', drawNormal rng m ((mx - mn) * w) (nBolster n f) g = .ok (xs, g') := by
    intro m g
    unfold drawNormal
    rw [if_neg (by simp only [not_or]; exact ⟨by omega, hs⟩)]
    exact ⟨_, _, rfl⟩
  unfold bolstered
  refine Rand.bind_total ⟨_, _, drawUniform_of_nonneg rng mn mx h2 g⟩ fun u g1 _ => ?_
  refine Rand.bind_total (hN _ _) fun lo g2 _ => ?_
  exact Rand.bind_total (hN _ _) fun up g3 _ => ⟨_, _, rfl⟩

/-- C15: for every bolster fraction in `[0, 1]` and non-negative width, bolstering returns `n` values: as
many values drawn around the lower as around the upper limit, namely `⌊n f / 2⌋` each (reflected at the
limits), the others uniform. -/
theorem C15_bolstered_symmetric (ok : rng.Ok) (n : Nat) (f w mn mx : ℝ) (hf : 0 ≤ f) (hf1 : f ≤ 1)
    (hw : 0 ≤ w) (hm : mn ≤ mx) (g : G) :
    ∃ xs g' k m g1 g2, sampleDistribution rng n mn mx ⟨.bolstered, some f, some w⟩ g = .ok (xs, g') ∧
      xs.length = n ∧ k = ⌊(n : ℝ) * f / 2⌋₊ ∧ k + m + k = n ∧
      xs.Perm ((rng.normal mn ((mx - mn) * w) k g1).1.map (reflect mn mx) ++ (rng.uniform mn mx m g).1 ++
        (rng.normal mx ((mx - mn) * w) k g2).1.map (reflect mn mx)) ∧
      (rng.normal mn ((mx - mn) * w) k g1).1.length = k ∧
      (rng.normal mx ((mx - mn) * w) k g2).1.length = k := by
  obtain ⟨xs, g', h⟩ := bolstered_total rng (n := (n : Int)) (by omega) hf hf1 hw hm g
  have hl := bolstered_length ok h
  obtain ⟨lo, u, up, g1, g2, hb, hu, hs, rfl, rfl, rfl, hp, h1, h2, h3, _⟩ := bolstered_ok ok h
  refine ⟨xs, g', (nBolster n f).toNat, (n - 2 * nBolster n f).toNat, g1, g2, h, by omega, ?_, by omega,
    hp, ok.normal_length _ _ _ _, ok.normal_length _ _ _ _⟩
  unfold nBolster
  rw [← Int.floor_toNat]
  simp

example : ∃ xs g', sampleDistribution (constRng 1) 20 0 1 ⟨.bolstered, some 0.15, some 0.1⟩ () =
    .ok (xs, g') ∧ xs.length = 20 := by
  obtain ⟨xs, g', _, _, _, _, h, h', _⟩ := C15_bolstered_symmetric (constRng_ok 1) 20 0.15 0.1 0 1
    (by norm_num) (by norm_num) (by norm_num) (by norm_num) ()
  exact ⟨xs, g', h, h'⟩

/-! ## C14 -/

/-- C14, bolstered: all values lie in the range exactly when every normal draw lies within one span of
the range. -/
theorem C14_bolstered_iff (ok : rng.Ok) (n : Int) (f w mn mx : ℝ) (hm : mn ≤ mx) (g g' : G) (xs : List ℝ)
    (h : sampleDistribution rng n mn mx ⟨.bolstered, some f, some w⟩ g = .ok (xs, g')) :
    ∃ k g1 g2, k = ⌊(n : ℝ) * f / 2⌋₊ ∧
      ((∀ x ∈ xs, mn ≤ x ∧ x ≤ mx) ↔
        ∀ x ∈ (rng.normal mn ((mx - mn) * w) k g1).1 ++ (rng.normal mx ((mx - mn) * w) k g2).1,
          2 * mn - mx ≤ x ∧ x ≤ 2 * mx - mn) := by
  obtain ⟨lo, u, up, g1, g2, hb, _, hs, rfl, rfl, rfl, hp, _, _, _, hu⟩ := bolstered_ok ok h
  refine ⟨(nBolster n f).toNat, g1, g2, ?_, ?_⟩
  · unfold nBolster
    rw [← Int.floor_toNat]
  · rw [forall_congr' fun x => by rw [hp.mem_iff]]
    simp only [List.mem_append, List.mem_map]
    constructor
    · intro hall x hx
      rw [← reflect_mem_iff hm]
      refine hall _ ?_
      rcases hx with hx | hx
      · exact Or.inl (Or.inl ⟨x, hx, rfl⟩)
      · exact Or.inr ⟨x, hx, rfl⟩
    · rintro hall x ((⟨y, hy, rfl⟩ | hx) | ⟨y, hy, rfl⟩)
      · rw [reflect_mem_iff hm]; exact hall y (Or.inl hy)
      · have := hu x hx
        rwa [Set.uIcc_of_le hm, Set.mem_Icc] at this
      · rw [reflect_mem_iff hm]; exact hall y (Or.inr hy)

/-- All distribution types stay between the limits if the distribution is tame. -/
theorem sampleDistribution_mem (ok : rng.Ok) {d : DistArgs} (ht : Tame rng d) {n : Int} {mn mx : ℝ}
    (hm : d.kind = .bolstered → mn ≤ mx) {g g' : G} {xs : List ℝ}
    (h : sampleDistribution rng n mn mx d g = .ok (xs, g')) : ∀ x ∈ xs, x ∈ Set.uIcc mn mx := by
  obtain ⟨kind, fr, wd⟩ := d
  cases kind with
  | uniform => exact (drawUniform_ok ok h).2.1
  | logarithmic => exact (logDistribution_ok ok h).2
  | other => simp [sampleDistribution, Rand.fail] at h
  | bolstered =>
    replace hm := hm rfl
    cases fr with
    | none => simp [sampleDistribution, Rand.fail] at h
    | some f =>
      cases wd with
      | none => simp [sampleDistribution, Rand.fail] at h
      | some w =>
        obtain ⟨c, hc, hc0, hcw⟩ := ht rfl
        have hcw := hcw w rfl
        obtain ⟨_, _, _, _, _, _, _, hs, _⟩ := bolstered_ok ok h
        obtain ⟨k, g1, g2, _, hiff⟩ := C14_bolstered_iff ok n f w mn mx hm g g' xs h
        rw [Set.uIcc_of_le hm]
        refine hiff.2 ?_
        have hb : c * ((mx - mn) * w) ≤ mx - mn := by
          have := mul_le_mul_of_nonneg_left hcw (sub_nonneg.2 hm)
          linarith
        intro x hx
        rcases List.mem_append.1 hx with hx | hx
        · have := hc _ _ _ _ hs x hx
          rw [abs_le] at this
          constructor <;> linarith [this.1, this.2]
        · have := hc _ _ _ _ hs x hx
          rw [abs_le] at this
          constructor <;> linarith [this.1, this.2]

theorem sample_real (x y : ℝ) (nm : Option Str) (n : Int) (d : DistArgs) :
    (Param.range (.real x) (.real y) nm).sample rng n d = (do
      let v ← sampleDistribution rng n x y d
      return v.map Num.real) := by
  simp only [Param.sample, Num.im, and_self, if_true]

theorem sample_complex {a b : Num ℝ} {nm : Option Str} (hr : ¬ ∃ x y, a = .real x ∧ b = .real y) {n : Int}
    {d : DistArgs} {g g' : G} {xs : List (Num ℝ)} (h : (Param.range a b nm).sample rng n d g = .ok (xs, g')) :
    ∃ v v2 g1, sampleDistribution rng n a.re b.re d g = .ok (v, g1) ∧
      sampleDistribution rng n a.im b.im d g1 = .ok (v2, g') ∧ xs = List.zipWith (Num.cplx true) v v2 := by
  simp only [Param.sample] at h
  split_ifs at h with him
  · exfalso
    cases a with
    | real a =>
      cases b with
      | real b => exact hr ⟨_, _, rfl, rfl⟩
      | cplx np c e => exact Rand.fail_ok.1 h
    | cplx np c e => exact Rand.fail_ok.1 h
  · obtain ⟨v, g1, hd, h⟩ := Rand.bind_ok.1 h
    obtain ⟨v2, g2, hd2, h⟩ := Rand.bind_ok.1 h
    have := Rand.pure_ok.1 h
    simp only [Prod.mk.injEq] at this
    obtain ⟨rfl, rfl⟩ := this
    exact ⟨v, v2, g1, hd, hd2, rfl⟩

theorem sample_length (ok : rng.Ok) {p : Param ℝ} {d : DistArgs} {n : Int} {g g' : G} {xs : List (Num ℝ)}
    (h : p.sample rng n d g = .ok (xs, g')) : (xs.length : Int) = n := by
  cases p with
  | const v nm =>
    simp only [Param.sample] at h
    split_ifs at h with hn
    · exact (Rand.fail_ok.1 h).elim
    · have := Rand.pure_ok.1 h
      simp only [Prod.mk.injEq] at this
      rw [this.1]; simp; omega
  | range a b nm =>
    by_cases hr : ∃ x y, a = .real x ∧ b = .real y
    · obtain ⟨x, y, rfl, rfl⟩ := hr
      rw [sample_real] at h
      obtain ⟨v, g1, hd, h⟩ := Rand.bind_ok.1 h
      have := Rand.pure_ok.1 h
      simp only [Prod.mk.injEq] at this
      rw [this.1]
      simpa using C15_count ok _ _ _ _ _ _ _ hd
    · obtain ⟨v, v2, g1, hd, hd2, rfl⟩ := sample_complex hr h
      have e1 := C15_count ok _ _ _ _ _ _ _ hd
      have e2 := C15_count ok _ _ _ _ _ _ _ hd2
      rw [List.length_zipWith]
      omega

/-- Sampling a parameter with ordered limits (or a constant). -/
theorem sample_inRange (ok : rng.Ok) {p : Param ℝ} {d : DistArgs}
    (hp : p.isConst = true ∨ (Tame rng d ∧ (d.kind = .bolstered → Ordered p)) ) {n : Int} {g g' : G}
    {xs : List (Num ℝ)} (hv : ParamValid p) (h : p.sample rng n d g = .ok (xs, g')) :
    ∀ v ∈ xs, InRange p v := by
  cases p with
  | const v nm =>
    simp only [Param.sample] at h
    split_ifs at h with hn
    · exact (Rand.fail_ok.1 h).elim
    · have := Rand.pure_ok.1 h
      simp only [Prod.mk.injEq] at this
      rw [this.1]
      intro x hx
      exact (List.mem_replicate.1 hx).2
  | range a b nm =>
    obtain ⟨ht, ho⟩ := hp.resolve_left (by simp [Param.isConst])
    by_cases hr : ∃ x y, a = .real x ∧ b = .real y
    · obtain ⟨x, y, rfl, rfl⟩ := hr
      rw [sample_real] at h
      obtain ⟨v, g1, hd, h⟩ := Rand.bind_ok.1 h
      have := Rand.pure_ok.1 h
      simp only [Prod.mk.injEq] at this
      rw [this.1]
      have hab : x ≤ y := by
        simp only [ParamValid, Num.ge, Except.ok.injEq, decide_eq_false_iff_not, not_le] at hv
        exact hv.le
      intro z hz
      obtain ⟨w, hw, rfl⟩ := List.mem_map.1 hz
      have hmem := sampleDistribution_mem ok ht (fun _ => hab) hd w hw
      rw [Set.uIcc_of_le hab] at hmem
      exact ⟨w, rfl, hmem.1, hmem.2⟩
    · obtain ⟨v, v2, g1, hd, hd2, rfl⟩ := sample_complex hr h
      intro x hx
      have m1 := sampleDistribution_mem ok ht (fun hb => (ho hb).1) hd
      have m2 := sampleDistribution_mem ok ht (fun hb => (ho hb).2) hd2
      obtain ⟨i, hi, rfl⟩ := List.mem_iff_getElem.1 hx
      rw [List.getElem_zipWith]
      have r1 := m1 _ (List.getElem_mem (l := v) (n := i) (by simp at hi; omega))
      have r2 := m2 _ (List.getElem_mem (l := v2) (n := i) (by simp at hi; omega))
      cases a with
      | real a =>
        cases b with
        | real b => exact absurd ⟨_, _, rfl, rfl⟩ hr
        | cplx np c e => exact ⟨_, _, rfl, r1, r2⟩
      | cplx np c e => exact ⟨_, _, rfl, r1, r2⟩

/-- C14: sampling a real parameter returns values in `[min, max]`, and a constant returns the constant.
Partial: for the bolstered distribution this needs the normal draws to stay within `1 / width` standard
deviations (`Tame`), which the code does not enforce, see `C14_bolstered_leaves_range`. -/
theorem C14_in_range_partial (ok : rng.Ok) (a b : ℝ) (hab : a < b) (nm : Option Str) (d : DistArgs)
    (ht : Tame rng d) (n : Int) (g g' : G) (xs : List (Num ℝ))
    (h : (Param.range (.real a) (.real b) nm).sample rng n d g = .ok (xs, g')) :
    ∀ v ∈ xs, ∃ x, v = .real x ∧ a ≤ x ∧ x ≤ b :=
  sample_inRange ok (p := .range (.real a) (.real b) nm)
    (Or.inr ⟨ht, fun _ => ⟨hab.le, by simp [Num.im]⟩⟩)
    (by simp [ParamValid, Num.ge, hab]) h

/-- C14: constants return the constant, for every distribution type. -/
theorem C14_constant (ok : rng.Ok) (c : Num ℝ) (nm : Option Str) (d : DistArgs) (n : Int) (g g' : G)
    (xs : List (Num ℝ)) (h : (Param.const c nm).sample rng n d g = .ok (xs, g')) :
    (xs.length : Int) = n ∧ ∀ v ∈ xs, v = c :=
  ⟨sample_length ok h, sample_inRange ok (p := .const c nm) (Or.inl rfl) trivial h⟩

theorem dist_witness : sampleDistribution (constRng 20) 20 0 1 ⟨.bolstered, some 0.15, some 0.1⟩ () =
    .ok (([2] ++ List.replicate 18 0 ++ [1] : List ℝ), ()) := by
  have hnb : nBolster 20 0.15 = 1 := by
    unfold nBolster; rw [Int.floor_eq_iff]; norm_num
  show bolstered (constRng 20) 0 1 20 0.15 0.1 () = _
  unfold bolstered
  rw [hnb]
  refine Rand.bind_ok.2 ⟨List.replicate 18 0, (), ?_, Rand.bind_ok.2 ⟨[-2], (), ?_,
    Rand.bind_ok.2 ⟨[-1], (), ?_, ?_⟩⟩⟩
  · simp [drawUniform, constRng]
  · simp only [drawNormal, constRng]
    norm_num
  · simp only [drawNormal, constRng]
    norm_num
  · simp only [drawShuffle, constRng, foldValue, List.map_cons, List.map_nil]
    norm_num

theorem sample_witness : (Param.range (.real 0) (.real 1) none).sample (constRng 20) 20
    ⟨.bolstered, some 0.15, some 0.1⟩ () =
    .ok (([2] ++ List.replicate 18 0 ++ [1] : List ℝ).map Num.real, ()) := by
  rw [sample_real]
  exact Rand.bind_ok.2 ⟨[2] ++ List.replicate 18 0 ++ [1], (), dist_witness, rfl⟩

/-- The C14 claim fails for the default bolstered distribution: a draw twenty standard deviations off
is reflected to the far side of the range. -/
theorem C14_bolstered_leaves_range :
    ∃ (r : Rng Unit) (xs : List (Num ℝ)) (g' : Unit), r.Ok ∧
      (Param.range (.real 0) (.real 1) none).sample r 20 ⟨.bolstered, some 0.15, some 0.1⟩ () = .ok (xs, g') ∧
      Num.real 2 ∈ xs :=
  ⟨constRng 20, _, (), constRng_ok 20, sample_witness, by simp⟩

/-- The hypotheses of `C14_in_range_partial` hold for the default settings when no draw is further than
ten standard deviations off. -/
example : Tame (constRng 10) ⟨.bolstered, some 0.15, some 0.1⟩ := by
  intro _
  refine ⟨10, ?_, by norm_num, ?_⟩
  · intro m s n g hs x hx
    simp only [constRng, List.mem_replicate] at hx
    rw [hx.2, abs_le]
    constructor <;> linarith
  · rintro w ⟨⟩; norm_num

/-! ## C18 -/

theorem zipWith_fst {α β : Type} {l : List α} {m : List β} (h : l.length = m.length) :
    List.zipWith (fun a _ => a) l m = l := by
  induction l generalizing m with
  | nil => rfl
  | cons a l ih =>
    cases m with
    | nil => simp at h
    | cons b m => simp only [List.zipWith_cons_cons, ih (by simpa using h)]

theorem zipWith_snd {α β : Type} {l : List α} {m : List β} (h : l.length = m.length) :
    List.zipWith (fun _ b => b) l m = m := by
  induction l generalizing m with
  | nil => cases m <;> simp_all
  | cons a l ih =>
    cases m with
    | nil => simp at h
    | cons b m => simp only [List.zipWith_cons_cons, ih (by simpa using h)]

/-- C18: sampling a complex range returns numbers whose real part lies between the real parts and whose
imaginary part lies between the imaginary parts of the limits; the two parts come from two separate
draws. Partial: for the bolstered distribution the normal draws must be bounded (`Tame`) and the limits
ordered in both parts (with reversed imaginary parts that distribution raises, see
`C18_reversed_raises`). -/
theorem C18_rectangle_partial (ok : rng.Ok) (a b : Num ℝ) (nm : Option Str) (hc : a.im ≠ 0 ∨ b.im ≠ 0)
    (d : DistArgs) (ht : Tame rng d) (ho : d.kind = .bolstered → a.re ≤ b.re ∧ a.im ≤ b.im)
    (n : Int) (g g' : G) (xs : List (Num ℝ))
    (h : (Param.range a b nm).sample rng n d g = .ok (xs, g')) :
    (∀ v ∈ xs, ∃ x y, v = .cplx true x y ∧ x ∈ Set.uIcc a.re b.re ∧ y ∈ Set.uIcc a.im b.im) ∧
    ∃ re im g1, sampleDistribution rng n a.re b.re d g = .ok (re, g1) ∧
      sampleDistribution rng n a.im b.im d g1 = .ok (im, g') ∧
      xs.map Num.re = re ∧ xs.map Num.im = im := by
  have hr : ¬ ∃ x y, a = .real x ∧ b = .real y := by
    rintro ⟨x, y, rfl, rfl⟩
    simp [Num.im] at hc
  obtain ⟨v, v2, g1, hd, hd2, rfl⟩ := sample_complex hr h
  have e1 := C15_count ok _ _ _ _ _ _ _ hd
  have e2 := C15_count ok _ _ _ _ _ _ _ hd2
  have hl : v.length = v2.length := by omega
  refine ⟨?_, v, v2, g1, hd, hd2, ?_, ?_⟩
  · intro x hx
    have m1 := sampleDistribution_mem ok ht (fun hb => (ho hb).1) hd
    have m2 := sampleDistribution_mem ok ht (fun hb => (ho hb).2) hd2
    obtain ⟨i, hi, rfl⟩ := List.mem_iff_getElem.1 hx
    rw [List.getElem_zipWith]
    exact ⟨_, _, rfl, m1 _ (List.getElem_mem (l := v) (n := i) (by simp at hi; omega)),
      m2 _ (List.getElem_mem (l := v2) (n := i) (by simp at hi; omega))⟩
  · rw [List.map_zipWith]
    simp only [Num.re]
    exact zipWith_fst hl
  · rw [List.map_zipWith]
    simp only [Num.im]
    exact zipWith_snd hl

/-- The bolstered distribution (the default of `generate_random_labels`) raises `ValueError` for every
complex range whose imaginary limits are in reversed order, although `Parameter` accepts it (C11). -/
theorem C18_reversed_raises (rng : Rng G) (n : Nat) (f w : ℝ) (hf : 0 ≤ f) (hf1 : f ≤ 1) (hw : 0 < w)
    (a b : Num ℝ) (nm : Option Str) (hre : a.re ≤ b.re) (him : b.im < a.im) (g : G) :
    (Param.range a b nm).sample rng n ⟨.bolstered, some f, some w⟩ g = .error .valueError := by
  obtain ⟨xs, g1, h1⟩ := bolstered_total rng (n := (n : Int)) (by omega) hf hf1 hw.le hre g
  obtain ⟨hb, hu⟩ := nBolster_bounds (n := (n : Int)) (by omega) hf hf1
  have hneg : (b.im - a.im) * w < 0 := mul_neg_of_neg_of_pos (by linarith) hw
  have h2 : bolstered rng a.im b.im n f w g1 = .error .valueError := by
    unfold bolstered
    show (drawUniform rng a.im b.im (n - 2 * nBolster n f) g1 >>= _) = _
    rw [drawUniform_of_nonneg rng _ _ hu]
    show (drawNormal rng a.im ((b.im - a.im) * w) (nBolster n f) _ >>= _) = _
    unfold drawNormal
    rw [if_pos (Or.inr hneg)]
    rfl
  have hne : ¬ (a.im = 0 ∧ b.im = 0) := by rintro ⟨e1, e2⟩; rw [e1, e2] at him; exact lt_irrefl _ him
  simp only [Param.sample, if_neg hne, sampleDistribution]
  show (bolstered rng a.re b.re n f w g >>= _) = _
  rw [h1]
  show (bolstered rng a.im b.im n f w g1 >>= _) = _
  rw [h2]
  rfl

/-- The C18 claim fails for the default bolstered distribution like that of C14: both parts of a value leave the rectangle. -/
theorem C18_leaves_rectangle :
    ∃ (r : Rng Unit) (xs : List (Num ℝ)) (g' : Unit), r.Ok ∧
      (Param.range (.real 0) (.cplx true 1 1) none).sample r 20 ⟨.bolstered, some 0.15, some 0.1⟩ () = .ok (xs, g') ∧
      Num.cplx true 2 2 ∈ xs := by
  refine ⟨constRng 20, List.zipWith (Num.cplx true) ([2] ++ List.replicate 18 0 ++ [1]) ([2] ++ List.replicate 18 0 ++ [1]), (),
    constRng_ok 20, ?_, by simp⟩
  simp only [Param.sample]
  rw [if_neg (by simp [Num.im])]
  exact Rand.bind_ok.2 ⟨_, (), dist_witness, Rand.bind_ok.2 ⟨_, (), dist_witness, rfl⟩⟩

/-- A range with reversed imaginary limits (`C18_reversed_raises`) is accepted by the constructor. -/
example : Param.mk (.cplx true 1 5 : Num ℝ) (.cplx true 2 1) none =
    .ok (.range (.cplx true 1 5) (.cplx true 2 1) none) := by
  simp [Param.mk, Num.ge, Num.isNp, Num.re]

/-! ## C16 -/

theorem asReals_cons {v : Num ℝ} {l : List (Num ℝ)} {r : List ℝ} (h : asReals (v :: l) = .ok r) :
    ∃ x xs, v = .real x ∧ r = x :: xs ∧ asReals l = .ok xs := by
  unfold asReals at h
  rw [mapM_cons] at h
  obtain ⟨x, hx, h1⟩ := bind_eq_ok.1 h
  obtain ⟨xs, hxs, h2⟩ := bind_eq_ok.1 h1
  cases v with
  | real y =>
    cases hx
    exact ⟨x, xs, rfl, (Except.ok.inj h2).symm, hxs⟩
  | cplx np a b => cases hx

theorem asReals_ok {l : List (Num ℝ)} {r : List ℝ} (h : asReals l = .ok r) : l = r.map Num.real := by
  induction l generalizing r with
  | nil => cases h; rfl
  | cons v l ih =>
    obtain ⟨x, xs, rfl, rfl, h1⟩ := asReals_cons h
    rw [ih h1]; rfl

theorem asReals_map (l : List ℝ) : asReals (l.map Num.real) = .ok l := by
  unfold asReals
  rw [List.mapM_map]
  have := mapM_eq_ok_map (f := fun x => (Except.ok x : Res ℝ)) (g := id) (l := l) (fun a _ => rfl)
  rw [List.map_id] at this
  exact this

/-- A single value drawn between `mn` and `m` never leaves that interval, for every distribution type and
every bolster setting: with one value there is no bolstering. -/
theorem single_draw (ok : rng.Ok) {d : DistArgs} {mn m : ℝ} (hm : mn ≤ m) {g g' : G} {xs : List ℝ}
    (h : sampleDistribution rng 1 mn m d g = .ok (xs, g')) : ∀ x ∈ xs, mn ≤ x ∧ x ≤ m := by
  by_cases hk : d.kind = .bolstered
  · obtain ⟨kind, fr, wd⟩ := d
    simp only at hk
    subst hk
    cases fr with
    | none => simp [sampleDistribution, Rand.fail] at h
    | some f =>
      cases wd with
      | none => simp [sampleDistribution, Rand.fail] at h
      | some w =>
        obtain ⟨lo, u, up, g1, g2, hb, hu, hs, h1, h2, h3, hp, l1, l2, l3, hmem⟩ := bolstered_ok ok h
        have hz : nBolster 1 f = 0 := by omega
        have e1 : lo = [] := List.length_eq_zero_iff.1 (by omega)
        have e2 : up = [] := List.length_eq_zero_iff.1 (by omega)
        subst e1 e2
        intro x hx
        have : x ∈ u := by simpa using hp.mem_iff.1 hx
        have := hmem x this
        rwa [Set.uIcc_of_le hm, Set.mem_Icc] at this
  · have ht : Tame rng d := fun h => absurd h hk
    have := sampleDistribution_mem ok ht (fun hh => absurd hh hk) h
    rwa [Set.uIcc_of_le hm] at this

theorem adjustRoughness_ok (ok : rng.Ok) {d : DistArgs} {mn mx t r v : ℝ} {g g' : G}
    (h : adjustRoughness rng d mn mx t r g = .ok (v, g')) :
    (mn ≤ v ∧ v ≤ max mn (t / 2) ∧ (mn ≤ mx → v ≤ mx)) ∨ (v = r ∧ mx < t / 2 ∧ mn ≤ t / 2) := by
  unfold adjustRoughness maxRoughness at h
  split_ifs at h with h1 h2
  · have := Rand.pure_ok.1 h
    simp only [Prod.mk.injEq] at this
    obtain ⟨rfl, rfl⟩ := this
    exact Or.inl ⟨le_refl _, le_max_left _ _, id⟩
  · have := Rand.pure_ok.1 h
    simp only [Prod.mk.injEq] at this
    exact Or.inr ⟨this.1, h2, not_lt.1 h1⟩
  · obtain ⟨xs, g1, hd, h⟩ := Rand.bind_ok.1 h
    have hm := single_draw ok (not_lt.1 h1) hd
    have hl := C15_count ok _ _ _ _ _ _ _ hd
    match xs, hl, hm, h with
    | [x], _, hm, h =>
      have := Rand.pure_ok.1 h
      simp only [Prod.mk.injEq] at this
      obtain ⟨rfl, rfl⟩ := this
      have := hm v (by simp)
      exact Or.inl ⟨this.1, le_max_of_le_right this.2, fun _ => le_trans this.2 (not_lt.1 h2)⟩

theorem adjustRoughnesses_ok (ok : rng.Ok) {d : DistArgs} {mn mx : ℝ} (hm : mn ≤ mx) {ts rs vs : List ℝ}
    {g g' : G} (hl : rs.length = ts.length) (h : adjustRoughnesses rng d mn mx ts rs g = .ok (vs, g')) :
    vs.length = ts.length ∧
    ((∀ r ∈ rs, mn ≤ r ∧ r ≤ mx) →
      List.Forall₂ (fun t v => mn ≤ v ∧ v ≤ mx ∧ v ≤ max mn (t / 2)) ts vs) := by
  induction ts generalizing rs vs g with
  | nil =>
    have := Rand.pure_ok.1 h
    simp only [Prod.mk.injEq] at this
    obtain ⟨rfl, rfl⟩ := this
    cases vs with
    | nil => exact ⟨rfl, fun _ => .nil⟩
    | cons _ _ => simp at hl
  | cons t ts ih =>
    cases rs with
    | nil => simp at hl
    | cons r rs =>
      unfold adjustRoughnesses at h
      obtain ⟨v, g1, hv, h⟩ := Rand.bind_ok.1 h
      obtain ⟨vs', g2, hvs, h⟩ := Rand.bind_ok.1 h
      have := Rand.pure_ok.1 h
      simp only [Prod.mk.injEq] at this
      obtain ⟨rfl, rfl⟩ := this
      obtain ⟨i1, i2⟩ := ih (by simpa using hl) hvs
      refine ⟨by simp [i1], fun hr => .cons ?_ (i2 fun x hx => hr x (by simp [hx]))⟩
      have hr := hr r (by simp)
      rcases adjustRoughness_ok ok hv with ⟨a, b, c⟩ | ⟨rfl, b, c⟩
      · exact ⟨a, c hm, b⟩
      · exact ⟨hr.1, hr.2, le_max_of_le_right (le_trans hr.2 b.le)⟩

theorem inRange_real {p : Param ℝ} {mn mx : ℝ} (h1 : p.min = .real mn) (h2 : p.max = .real mx) (x : ℝ) :
    InRange p (.real x) ↔ mn ≤ x ∧ x ≤ mx := by
  cases p with
  | const c nm =>
    simp only [Param.min, Param.max] at h1 h2
    subst h1
    cases h2
    simp only [InRange, Num.real.injEq]
    constructor
    · rintro rfl; exact ⟨le_refl _, le_refl _⟩
    · rintro ⟨a, b⟩; exact le_antisymm b a
  | range a b nm =>
    simp only [Param.min, Param.max] at h1 h2
    subst h1 h2
    simp [InRange]

theorem valid_le {p : Param ℝ} {mn mx : ℝ} (hv : ParamValid p) (h1 : p.min = .real mn)
    (h2 : p.max = .real mx) : mn ≤ mx := by
  cases p with
  | const c nm =>
    simp only [Param.min, Param.max] at h1 h2
    rw [h1] at h2; cases h2; exact le_refl _
  | range a b nm =>
    simp only [Param.min, Param.max] at h1 h2
    subst h1 h2
    simp only [ParamValid, Num.ge, Except.ok.injEq, decide_eq_false_iff_not, not_le] at hv
    exact hv.le

/-- Facts about the generated roughness of one layer. -/
theorem generateRoughness_ok (ok : rng.Ok) {d : DistArgs} {p : Param ℝ} (hv : ParamValid p)
    {ts vs : List (Num ℝ)} {g g' : G} (h : generateRoughness rng d p ts g = .ok (vs, g')) :
    vs.length = ts.length ∧ (p.isConst = true ∨ Tame rng d →
      List.Forall₂ (fun t v => InRange p v ∧ RoughBound p t v) ts vs) := by
  unfold generateRoughness at h
  obtain ⟨rs, g1, hrs, h⟩ := Rand.bind_ok.1 h
  obtain ⟨t, g2, ht, h⟩ := Rand.bind_ok.1 h
  obtain ⟨r, g3, hr, h⟩ := Rand.bind_ok.1 h
  have ht := asReals_ok (Rand.ofRes_ok.1 ht).1
  have hr := asReals_ok (Rand.ofRes_ok.1 hr).1
  simp only at ht hr
  have hlen := sample_length ok hrs
  have hreal : ∃ mn mx, p.min = .real mn ∧ p.max = .real mx := by
    cases hmn : p.min with
    | cplx _ _ _ => simp only [hmn] at h; exact (Rand.fail_ok.1 h).elim
    | real mn =>
      cases hmx : p.max with
      | cplx _ _ _ => simp only [hmn, hmx] at h; exact (Rand.fail_ok.1 h).elim
      | real mx => exact ⟨mn, mx, rfl, rfl⟩
  · obtain ⟨mn, mx, hmn, hmx⟩ := hreal
    simp only [hmn, hmx] at h
    obtain ⟨w, g4, hw, h⟩ := Rand.bind_ok.1 h
    have := Rand.pure_ok.1 h
    simp only [Prod.mk.injEq] at this
    obtain ⟨rfl, rfl⟩ := this
    have hle := valid_le hv hmn hmx
    have hl : r.length = t.length := by
      rw [hr, ht] at hlen; simp at hlen; exact hlen
    obtain ⟨e1, e2⟩ := adjustRoughnesses_ok ok hle hl hw
    refine ⟨by rw [ht]; simp [e1], fun hsafe => ?_⟩
    have hin : ∀ x ∈ r, mn ≤ x ∧ x ≤ mx := by
      intro x hx
      rw [← inRange_real hmn hmx]
      refine sample_inRange ok ?_ hv hrs _ (by rw [hr]; exact List.mem_map.2 ⟨x, hx, rfl⟩)
      rcases hsafe with h | h
      · exact Or.inl h
      · refine Or.inr ⟨h, fun _ => ?_⟩
        cases p with
        | const c nm => trivial
        | range a b nm =>
          simp only [Param.min, Param.max] at hmn hmx
          subst hmn hmx
          exact ⟨hle, le_refl _⟩
    rw [ht, List.forall₂_map_left_iff, List.forall₂_map_right_iff]
    refine (e2 hin).imp fun a b hab => ?_
    exact ⟨(inRange_real hmn hmx b).2 ⟨hab.1, hab.2.1⟩, mn, a, b, hmn, rfl, rfl, hab.2.2⟩

/-- C16: each generated roughness is at most `max(roughness.min, thickness / 2)` and in its range, and a
constant roughness stays constant (whatever the distribution). Partial: for a range with the bolstered
distribution the normal draws must be bounded (`Tame`), see `C16_roughness_exceeds`. -/
theorem C16_roughness_partial (ok : rng.Ok) (d : DistArgs) (p : Param ℝ) (hv : ParamValid p)
    (hs : p.isConst = true ∨ Tame rng d) (thickness rough : List (Num ℝ)) (g g' : G)
    (h : generateRoughness rng d p thickness g = .ok (rough, g')) :
    rough.length = thickness.length ∧
    ∀ (i : Nat) (t v : Num ℝ), thickness[i]? = some t → rough[i]? = some v → InRange p v ∧
      ∃ mn x y, p.min = .real mn ∧ t = .real x ∧ v = .real y ∧ y ≤ max mn (x / 2) := by
  obtain ⟨h1, h2⟩ := generateRoughness_ok ok hv h
  refine ⟨h1, fun i t v ht hv' => ?_⟩
  have := List.forall₂_iff_get.1 (h2 hs)
  obtain ⟨hi, rfl⟩ := List.getElem?_eq_some_iff.1 ht
  obtain ⟨hi', rfl⟩ := List.getElem?_eq_some_iff.1 hv'
  exact this.2 i hi hi'

theorem adjustRoughnesses_keep (rng : Rng G) (d : DistArgs) {mn mx : ℝ} {ts rs : List ℝ} (g : G)
    (hl : ts.length = rs.length) (ht : ∀ t ∈ ts, mn ≤ t / 2 ∧ mx < t / 2) :
    adjustRoughnesses rng d mn mx ts rs g = .ok (rs, g) := by
  induction ts generalizing rs with
  | nil => rfl
  | cons t ts ih =>
    cases rs with
    | nil => simp at hl
    | cons r rs =>
      unfold adjustRoughnesses
      refine Rand.bind_ok.2 ⟨r, g, ?_, Rand.bind_ok.2 ⟨rs, g, ih (by simpa using hl)
        fun x hx => ht x (by simp [hx]), rfl⟩⟩
      have := ht t (by simp)
      unfold adjustRoughness maxRoughness
      rw [if_neg (not_lt.2 this.1), if_pos this.2]
      rfl

/-- The C16 claim fails for the default bolstered distribution: for a roughness range `[0, 1]` and
layers of thickness 2.5 a roughness of 2 can be generated, more than the maximum and more than half the
thickness. -/
theorem C16_roughness_exceeds :
    ∃ (r : Rng Unit) (rough : List (Num ℝ)), r.Ok ∧
      generateRoughness r ⟨.bolstered, some 0.15, some 0.1⟩ (.range (.real 0) (.real 1) none)
        (List.replicate 20 (.real 2.5)) () = .ok (rough, ()) ∧ Num.real 2 ∈ rough := by
  refine ⟨constRng 20, ([2] ++ List.replicate 18 0 ++ [1] : List ℝ).map Num.real, constRng_ok 20, ?_, by simp⟩
  unfold generateRoughness
  refine Rand.bind_ok.2 ⟨([2] ++ List.replicate 18 0 ++ [1] : List ℝ).map Num.real, (),
    by rw [List.length_replicate]; exact sample_witness, ?_⟩
  refine Rand.bind_ok.2 ⟨List.replicate 20 2.5, (), ?_, ?_⟩
  · refine Rand.ofRes_ok.2 ⟨?_, rfl⟩
    have := asReals_map (List.replicate 20 2.5)
    simpa using this
  refine Rand.bind_ok.2 ⟨[2] ++ List.replicate 18 0 ++ [1], (), ?_, ?_⟩
  · exact Rand.ofRes_ok.2 ⟨asReals_map _, rfl⟩
  refine Rand.bind_ok.2 ⟨[2] ++ List.replicate 18 0 ++ [1], (), ?_, rfl⟩
  refine adjustRoughnesses_keep _ _ _ (by simp) ?_
  intro t ht
  rw [(List.mem_replicate.1 ht).2]
  norm_num

end Verif.Props
