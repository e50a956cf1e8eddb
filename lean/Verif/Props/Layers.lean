import Verif.Spec.Sample
import Verif.Lemmas.Except
import Verif.Props.Labels

/-!
# C11 – C13: constructors
-/

set_option linter.unusedSectionVars false

namespace Verif.Props
open Verif.Py Verif.Model Verif.Spec
variable {K : Type} [LinearOrder K] [Zero K]

/-! ## C11 -/

/-- A real-valued constructor argument: a number or a range. -/
inductive RealArg (K : Type) where
  | const (x : K)
  | range (a b : K)

namespace RealArg
/-- How the argument is passed. -/
def toArg : RealArg K → Arg K
  | const x => .scalar (.num (.real x))
  | range a b => .iter [.num (.real a), .num (.real b)]
/-- Lower limit. -/
def lo : RealArg K → K
  | const x => x
  | range a _ => a
/-- Upper limit. -/
def hi : RealArg K → K
  | const x => x
  | range _ b => b
/-- A range must be ordered. -/
def Ok : RealArg K → Prop
  | const _ => True
  | range a b => a < b
/-- Is it a single number? -/
def IsConst : RealArg K → Prop
  | const _ => True
  | range _ _ => False
end RealArg

/-- C11: `Parameter(a, b)` exists iff `a < b`, otherwise `ValueError`. -/
theorem C11_parameter (a b : K) (n : Option Str) :
    (a < b → ∃ p, Param.mk (.real a) (.real b) n = .ok p ∧ p.min = .real a ∧ p.max = .real b) ∧
    (¬ a < b → Param.mk (.real a) (.real b) n = .error .valueError) := by
  constructor
  · intro h
    refine ⟨.range (.real a) (.real b) n, ?_, rfl, rfl⟩
    simp [Param.mk, Num.ge, not_le.2 h]
  · intro h
    simp [Param.mk, Num.ge, not_lt.1 h]

/-- What `_set_parameter` makes of a valid real argument. -/
def RealArg.param (nm : Str) : RealArg K → Param K
  | .const x => .const (.real x) (some nm)
  | .range a b => .range (.real a) (.real b) (some nm)

theorem setParameter_real (r : RealArg K) (nm : Str) :
    (r.Ok → setParameter r.toArg nm = .ok (some (r.param nm))) ∧
    (¬ r.Ok → setParameter r.toArg nm = .error .valueError) := by
  cases r with
  | const x => simp [RealArg.Ok, RealArg.toArg, RealArg.param, setParameter, ifDictToComplex]
  | range a b =>
    have h := C11_parameter a b (some nm)
    have e : setParameter (RealArg.range a b).toArg nm =
        (do return some (← Param.mk (.real a) (.real b) (some nm)) : Res (Option (Param K))) := rfl
    rw [e]
    constructor
    · intro hok
      simp only [RealArg.Ok] at hok
      simp [Param.mk, Num.ge, not_le.2 hok, RealArg.param, pure, Except.pure]
    · intro hok
      simp only [RealArg.Ok] at hok
      rw [h.2 hok]; rfl

theorem checkNonneg_ok_of {r : RealArg K} (nm : Str) (h : 0 ≤ r.lo) :
    checkNonneg (some (r.param nm)) = .ok (r.param nm) := by
  cases r <;> simp only [RealArg.lo] at h <;>
    simp [checkNonneg, RealArg.param, Param.min, Num.ltZero, not_lt.2 h]

theorem checkNonneg_error_of {r : RealArg K} (nm : Str) (h : ¬ 0 ≤ r.lo) :
    checkNonneg (some (r.param nm)) = .error .valueError := by
  cases r <;> simp only [RealArg.lo] at h <;>
    simp [checkNonneg, RealArg.param, Param.min, Num.ltZero, not_le.1 h]

/-- When a layer may be constructed. -/
def LayerOk (t r s : RealArg K) : Prop := t.Ok ∧ r.Ok ∧ s.Ok ∧ 0 ≤ t.lo ∧ 0 ≤ r.lo

/-- C11: `Layer(name, t, r, s)` with real arguments exists iff all ranges are ordered and thickness
and roughness have non-negative lower limits; it then reports exactly the given limits. Otherwise
`ValueError`. -/
theorem C11_layer (name : Str) (t r s : RealArg K) :
    (LayerOk t r s → ∃ l, mkLayer name t.toArg r.toArg s.toArg = .ok l ∧ l.name = name ∧
      l.ranges = .ok [("min_thickness".toList, .real t.lo), ("max_thickness".toList, .real t.hi),
        ("min_roughness".toList, .real r.lo), ("max_roughness".toList, .real r.hi),
        ("min_sld".toList, .real s.lo), ("max_sld".toList, .real s.hi)]) ∧
    (¬ LayerOk t r s → mkLayer name t.toArg r.toArg s.toArg = .error .valueError) := by
  constructor
  · rintro ⟨h1, h2, h3, h4, h5⟩
    refine ⟨⟨.layer, name, some (t.param "thickness".toList), some (r.param "roughness".toList),
      some (s.param "sld".toList)⟩, ?_, rfl, ?_⟩
    · unfold mkLayer
      rw [(setParameter_real t _).1 h1, (setParameter_real r _).1 h2, (setParameter_real s _).1 h3]
      simp only [bind_ok]
      rw [checkNonneg_ok_of _ h4, checkNonneg_ok_of _ h5]
      rfl
    · cases t <;> cases r <;> cases s <;> rfl
  · intro h
    unfold mkLayer
    by_cases h1 : t.Ok
    · rw [(setParameter_real t _).1 h1]
      by_cases h2 : r.Ok
      · rw [(setParameter_real r _).1 h2]
        by_cases h3 : s.Ok
        · rw [(setParameter_real s _).1 h3]
          simp only [bind_ok]
          by_cases h4 : 0 ≤ t.lo
          · have h5 : ¬ 0 ≤ r.lo := fun h5 => h ⟨h1, h2, h3, h4, h5⟩
            rw [checkNonneg_ok_of _ h4, checkNonneg_error_of _ h5]; rfl
          · rw [checkNonneg_error_of _ h4]; rfl
        · rw [(setParameter_real s _).2 h3]; rfl
      · rw [(setParameter_real r _).2 h2]; rfl
    · rw [(setParameter_real t _).2 h1]; rfl

/-- C11: a `Substrate` with real constants exists iff its roughness is not negative, and reports the
given values. -/
theorem C11_substrate (name : Str) (r s : K) :
    (0 ≤ r → ∃ l, mkSubstrate name (RealArg.const r).toArg (RealArg.const s).toArg = .ok l ∧
      l.name = name ∧ l.ranges = .ok [("min_roughness".toList, .real r), ("max_roughness".toList, .real r),
        ("min_sld".toList, .real s), ("max_sld".toList, .real s)]) ∧
    (¬ 0 ≤ r → mkSubstrate name (RealArg.const r).toArg (RealArg.const s).toArg = .error .valueError) := by
  have key : mkSubstrate name (RealArg.const r).toArg (RealArg.const s).toArg = (do
      let r ← checkNonneg (some ((RealArg.const r).param "roughness".toList))
      return ⟨.substrate, name, none, some r, some ((RealArg.const s).param "sld".toList)⟩ :
        Res (LayerV K)) := rfl
  rw [key]
  constructor
  · intro h
    rw [checkNonneg_ok_of (r := .const r) _ h]
    exact ⟨_, rfl, rfl, rfl⟩
  · intro h
    rw [checkNonneg_error_of (r := .const r) _ h]; rfl

/-- C11: a `ConstantLayer` with real constants exists iff thickness and roughness are not negative. -/
theorem C11_constant_layer (name : Str) (t r s : K) :
    (0 ≤ t ∧ 0 ≤ r → ∃ l, mkConstantLayer name (RealArg.const t).toArg (RealArg.const r).toArg
        (RealArg.const s).toArg = .ok l ∧ l.name = name ∧
      l.ranges = .ok [("min_thickness".toList, .real t), ("max_thickness".toList, .real t),
        ("min_roughness".toList, .real r), ("max_roughness".toList, .real r),
        ("min_sld".toList, .real s), ("max_sld".toList, .real s)]) ∧
    (¬ (0 ≤ t ∧ 0 ≤ r) → mkConstantLayer name (RealArg.const t).toArg (RealArg.const r).toArg
        (RealArg.const s).toArg = .error .valueError) := by
  have key : mkConstantLayer name (RealArg.const t).toArg (RealArg.const r).toArg
      (RealArg.const s).toArg = (do
      let t ← checkNonneg (some ((RealArg.const t).param "thickness".toList))
      let r ← checkNonneg (some ((RealArg.const r).param "roughness".toList))
      return ⟨.constantLayer, name, some t, some r, some ((RealArg.const s).param "sld".toList)⟩ :
        Res (LayerV K)) := rfl
  rw [key]
  constructor
  · rintro ⟨h1, h2⟩
    rw [checkNonneg_ok_of (r := .const t) _ h1, checkNonneg_ok_of (r := .const r) _ h2]
    exact ⟨_, rfl, rfl, rfl⟩
  · intro h
    by_cases h1 : 0 ≤ t
    · have h2 : ¬ 0 ≤ r := fun h2 => h ⟨h1, h2⟩
      rw [checkNonneg_ok_of (r := .const t) _ h1, checkNonneg_error_of (r := .const r) _ h2]; rfl
    · rw [checkNonneg_error_of (r := .const t) _ h1]; rfl

example : LayerOk (K := Int) (.range 10 20) (.const 3) (.range (-5) 7) := by
  simp [LayerOk, RealArg.Ok, RealArg.lo]

/-! ### Everything the constructors return is regular (also for complex arguments) -/

/-- The argument is not a ready-made `Parameter` object. -/
def Plain : Arg K → Prop
  | .param _ => False
  | _ => True

theorem mk_ok {a b : Num K} {n : Option Str} {p : Param K} (h : Param.mk a b n = .ok p) :
    p = .range a b n ∧ a.ge b = .ok false := by
  unfold Param.mk at h
  obtain ⟨c, hc, h⟩ := bind_eq_ok.1 h
  cases c
  · simp at h; exact ⟨h.symm, hc⟩
  · simp at h

theorem setParameter_regular {a : Arg K} {nm : Str} {p : Option (Param K)} (ha : Plain a)
    (h : setParameter a nm = .ok p) : ∃ q, p = some q ∧ ParamRegular nm q := by
  cases a with
  | param _ => exact ha.elim
  | iter l =>
    simp only [setParameter] at h
    obtain ⟨x, -, h⟩ := bind_eq_ok.1 h
    obtain ⟨y, -, h⟩ := bind_eq_ok.1 h
    obtain ⟨q, hq, h⟩ := bind_eq_ok.1 h
    obtain ⟨rfl, hv⟩ := mk_ok hq
    cases h
    exact ⟨_, rfl, rfl, hv⟩
  | scalar v =>
    cases h
    exact ⟨_, rfl, rfl, trivial⟩

theorem checkNonneg_ok {p : Option (Param K)} {q : Param K} (h : checkNonneg p = .ok q) :
    p = some q ∧ q.min.ltZero = .ok false := by
  cases p with
  | none => simp [checkNonneg] at h
  | some p =>
    simp only [checkNonneg] at h
    obtain ⟨c, hc, h⟩ := bind_eq_ok.1 h
    cases c
    · simp at h; subst h; exact ⟨rfl, hc⟩
    · simp at h

/-- C11: every `Layer` built from numbers or ranges, real or complex, is regular. -/
theorem C11_layer_regular (name : Str) (t r s : Arg K) (ht : Plain t) (hr : Plain r) (hs : Plain s)
    (l : LayerV K) (h : mkLayer name t r s = .ok l) : FilmRegular l := by
  unfold mkLayer at h
  obtain ⟨t', h1, h⟩ := bind_eq_ok.1 h
  obtain ⟨r', h2, h⟩ := bind_eq_ok.1 h
  obtain ⟨s', h3, h⟩ := bind_eq_ok.1 h
  obtain ⟨t'', h4, h⟩ := bind_eq_ok.1 h
  obtain ⟨r'', h5, h⟩ := bind_eq_ok.1 h
  cases h
  obtain ⟨tq, rfl, htq⟩ := setParameter_regular ht h1
  obtain ⟨rq, rfl, hrq⟩ := setParameter_regular hr h2
  obtain ⟨sq, rfl, hsq⟩ := setParameter_regular hs h3
  obtain ⟨ht1, ht2⟩ := checkNonneg_ok h4
  obtain ⟨hr1, hr2⟩ := checkNonneg_ok h5
  cases ht1; cases hr1
  exact ⟨Or.inl rfl, ⟨_, rfl, htq, ht2⟩, ⟨_, rfl, hrq, hr2⟩, ⟨_, rfl, hsq⟩⟩

/-- A constant argument: a single number, real or complex. -/
def Scalar : Arg K → Prop
  | .scalar _ => True
  | _ => False

theorem setParameterConstant_scalar {a : Arg K} {nm : Str} (ha : Scalar a) :
    ∃ v, setParameterConstant a nm = .ok (some (.const v (some nm))) := by
  cases a with
  | param _ => exact ha.elim
  | iter _ => exact ha.elim
  | scalar v => exact ⟨_, rfl⟩

/-- C11: every `ConstantLayer` built from numbers is regular and constant. -/
theorem C11_constant_regular (name : Str) (t r s : Arg K) (ht : Scalar t) (hr : Scalar r)
    (hs : Scalar s) (l : LayerV K) (h : mkConstantLayer name t r s = .ok l) : FilmRegular l := by
  obtain ⟨tv, ht⟩ := setParameterConstant_scalar (nm := "thickness".toList) ht
  obtain ⟨rv, hr⟩ := setParameterConstant_scalar (nm := "roughness".toList) hr
  obtain ⟨sv, hs⟩ := setParameterConstant_scalar (nm := "sld".toList) hs
  unfold mkConstantLayer at h
  rw [ht, hr, hs] at h
  simp only [bind_ok] at h
  obtain ⟨t'', h4, h⟩ := bind_eq_ok.1 h
  obtain ⟨r'', h5, h⟩ := bind_eq_ok.1 h
  cases h
  obtain ⟨ht1, ht2⟩ := checkNonneg_ok h4
  obtain ⟨hr1, hr2⟩ := checkNonneg_ok h5
  cases ht1; cases hr1
  exact ⟨Or.inr rfl, ⟨_, rfl, ⟨rfl, trivial⟩, ht2⟩, ⟨_, rfl, ⟨rfl, trivial⟩, hr2⟩,
    ⟨_, rfl, ⟨rfl, trivial⟩⟩⟩

/-- C11: every `Substrate` built from numbers is regular. -/
theorem C11_substrate_regular (name : Str) (r s : Arg K) (hr : Scalar r) (hs : Scalar s)
    (l : LayerV K) (h : mkSubstrate name r s = .ok l) : SubstrateRegular l := by
  obtain ⟨rv, hr⟩ := setParameterConstant_scalar (nm := "roughness".toList) hr
  obtain ⟨sv, hs⟩ := setParameterConstant_scalar (nm := "sld".toList) hs
  unfold mkSubstrate at h
  rw [hr, hs] at h
  simp only [bind_ok] at h
  obtain ⟨r'', h5, h⟩ := bind_eq_ok.1 h
  cases h
  obtain ⟨hr1, hr2⟩ := checkNonneg_ok h5
  cases hr1
  exact ⟨rfl, rfl, ⟨_, rfl, ⟨rfl, trivial⟩, hr2⟩, ⟨_, rfl, ⟨rfl, trivial⟩⟩⟩

/-- C11: every `AmbientLayer` built from a number is regular. -/
theorem C11_ambient_regular (name : Str) (s : Arg K) (hs : Scalar s)
    (l : LayerV K) (h : mkAmbient name s = .ok l) : AmbientRegular l := by
  obtain ⟨sv, hs⟩ := setParameterConstant_scalar (nm := "sld".toList) hs
  unfold mkAmbient at h
  rw [hs] at h
  cases h
  exact ⟨rfl, rfl, rfl, ⟨_, rfl, ⟨rfl, trivial⟩⟩⟩

/-! ## C12 -/

/-- The parameters of a layer object are constants (missing attributes aside). -/
def AllConst (l : LayerV K) : Prop :=
  (∀ p, l.thickness = some p → p.isConst) ∧ (∀ p, l.roughness = some p → p.isConst) ∧
  ∃ p, l.sld = some p ∧ p.isConst

theorem setParameterConstant_plain {a : Arg K} {nm : Str} (ha : Plain a) :
    (∃ v, setParameterConstant a nm = .ok (some (.const v (some nm)))) ∨
    (¬ Scalar a ∧ setParameterConstant a nm = .ok none) := by
  cases a with
  | param _ => exact ha.elim
  | iter _ => exact Or.inr ⟨id, rfl⟩
  | scalar v => exact Or.inl ⟨_, rfl⟩

/-- C12 (partial): a constant layer built from numbers or ranges is constant or the constructor
raises, provided the SLD is a number. Missing: an SLD given as a range is silently stored as `None`
(`C12_range_sld_accepted`). -/
theorem C12_constant_partial (name : Str) (t r s : Arg K) (ht : Plain t) (hr : Plain r) (hs : Scalar s) :
    (∀ l, mkConstantLayer name t r s = .ok l → AllConst l ∧ Scalar t ∧ Scalar r) ∧
    (∀ l, mkSubstrate name r s = .ok l → AllConst l ∧ Scalar r) ∧
    (∀ l, mkAmbient name s = .ok l → AllConst l) := by
  obtain ⟨sv, hs⟩ := setParameterConstant_scalar (nm := "sld".toList) hs
  refine ⟨?_, ?_, ?_⟩
  · intro l h
    unfold mkConstantLayer at h
    rcases setParameterConstant_plain (nm := "thickness".toList) ht with ⟨tv, e⟩ | ⟨-, e⟩
    · rcases setParameterConstant_plain (nm := "roughness".toList) hr with ⟨rv, e'⟩ | ⟨-, e'⟩
      · rw [e, e', hs] at h
        simp only [bind_ok] at h
        obtain ⟨t'', h4, h⟩ := bind_eq_ok.1 h
        obtain ⟨r'', h5, h⟩ := bind_eq_ok.1 h
        cases h
        obtain ⟨h6, -⟩ := checkNonneg_ok h4
        obtain ⟨h7, -⟩ := checkNonneg_ok h5
        cases h6; cases h7
        refine ⟨⟨fun p hp => by cases hp; rfl, fun p hp => by cases hp; rfl, _, rfl, rfl⟩, ?_, ?_⟩
        · cases t with
          | param p => exact ht.elim
          | iter l => cases e
          | scalar v => trivial
        · cases r with
          | param p => exact hr.elim
          | iter l => cases e'
          | scalar v => trivial
      · rw [e, e', hs] at h
        simp only [bind_ok] at h
        obtain ⟨t'', h4, h⟩ := bind_eq_ok.1 h
        cases h
    · rw [e] at h
      simp only [bind_ok] at h
      obtain ⟨_, _, h⟩ := bind_eq_ok.1 h
      obtain ⟨_, _, h⟩ := bind_eq_ok.1 h
      cases h
  · intro l h
    unfold mkSubstrate at h
    rcases setParameterConstant_plain (nm := "roughness".toList) hr with ⟨rv, e'⟩ | ⟨-, e'⟩
    · rw [e', hs] at h
      simp only [bind_ok] at h
      obtain ⟨r'', h5, h⟩ := bind_eq_ok.1 h
      cases h
      obtain ⟨h7, -⟩ := checkNonneg_ok h5
      cases h7
      refine ⟨⟨fun p hp => (by cases hp), fun p hp => by cases hp; rfl, _, rfl, rfl⟩, ?_⟩
      cases r with
        | param p => exact hr.elim
        | iter l => cases e'
        | scalar v => trivial
    · rw [e', hs] at h
      cases h
  · intro l h
    unfold mkAmbient at h
    rw [hs] at h
    cases h
    exact ⟨fun p hp => (by cases hp), fun p hp => (by cases hp), _, rfl, rfl⟩

/-- The full claim C12 does not hold for the code: a range of SLDs is accepted by `ConstantLayer`,
`Substrate` and `AmbientLayer`, and the object then has no SLD at all (`ranges` raises). -/
theorem C12_range_sld_accepted (name : Str) (t r : K) (ht : 0 ≤ t) (hr : 0 ≤ r) (a b : K) :
    (∃ l, mkConstantLayer name (RealArg.const t).toArg (RealArg.const r).toArg (RealArg.range a b).toArg
        = .ok l ∧ ¬ AllConst l ∧ l.ranges = .error .attributeError) ∧
    (∃ l, mkSubstrate name (RealArg.const r).toArg (RealArg.range a b).toArg = .ok l ∧ ¬ AllConst l ∧
      l.ranges = .error .attributeError) ∧
    (∃ l, mkAmbient name (RealArg.range a b).toArg = .ok l ∧ ¬ AllConst l ∧
      l.ranges = .error .attributeError) := by
  have e1 := checkNonneg_ok_of (r := .const t) "thickness".toList ht
  have e2 := checkNonneg_ok_of (r := .const r) "roughness".toList hr
  refine ⟨⟨⟨.constantLayer, name, some ((RealArg.const t).param "thickness".toList),
    some ((RealArg.const r).param "roughness".toList), none⟩, ?_, ?_, rfl⟩,
    ⟨⟨.substrate, name, none, some ((RealArg.const r).param "roughness".toList), none⟩, ?_, ?_, rfl⟩,
    ⟨⟨.ambient, name, none, none, none⟩, rfl, ?_, rfl⟩⟩
  · have : mkConstantLayer name (RealArg.const t).toArg (RealArg.const r).toArg
        (RealArg.range a b).toArg = (do
      let t ← checkNonneg (some ((RealArg.const t).param "thickness".toList))
      let r ← checkNonneg (some ((RealArg.const r).param "roughness".toList))
      return ⟨.constantLayer, name, some t, some r, none⟩ : Res (LayerV K)) := rfl
    rw [this, e1, e2]; rfl
  · rintro ⟨-, -, p, hp, -⟩; cases hp
  · have : mkSubstrate name (RealArg.const r).toArg (RealArg.range a b).toArg = (do
      let r ← checkNonneg (some ((RealArg.const r).param "roughness".toList))
      return ⟨.substrate, name, none, some r, none⟩ : Res (LayerV K)) := rfl
    rw [this, e2]; rfl
  · rintro ⟨-, -, p, hp, -⟩; cases hp
  · rintro ⟨-, -, p, hp, -⟩; cases hp

example : Plain (RealArg.range (1 : Int) 2).toArg ∧ Scalar (RealArg.const (1 : Int)).toArg :=
  ⟨trivial, trivial⟩

/-! ## C13 -/

/-- Number of non-constant layers. -/
def variableCount (l : List LayerKind) : Nat := l.countP fun k => k = .layer

theorem isConstantLayer_iff (k : LayerKind) : k.isConstantLayer = false ↔ k = .layer := by
  cases k <;> simp [LayerKind.isConstantLayer]

theorem variableCount_insertAt (l : List LayerKind) (i : Int) (k : LayerKind) :
    variableCount (insertAt l i k) = variableCount l + if k = .layer then 1 else 0 := by
  unfold variableCount
  have : (insertAt l i k).Perm (k :: l) := by
    unfold insertAt
    refine List.perm_middle.trans ?_
    rw [List.take_append_drop]
  rw [this.countP_eq, List.countP_cons]
  simp

theorem variableCount_addLayer (l : List LayerKind) (k : LayerKind) (i : AddIndex) (l' : List LayerKind)
    (h : addLayer l k i = .ok l') :
    variableCount l' = variableCount l + if k = .layer then 1 else 0 := by
  cases i with
  | next =>
    cases h
    unfold variableCount
    rw [List.countP_append, List.countP_cons]
    simp
  | int i => cases h; exact variableCount_insertAt l i k
  | other => cases h

/-- C13, one call: whatever the position, `add_layer` keeps the number of variable layers at most one
if the sample has no layers yet or its bottom layer is the variable one. -/
theorem C13_add_layer_step (l : List LayerKind) (k : Option LayerKind) (i : AddIndex) (l' : List LayerKind)
    (hl : l = [] ∨ l.head? = some .layer) (h1 : variableCount l ≤ 1)
    (h : losAddLayer l k i = .ok l') : variableCount l' ≤ 1 := by
  cases k with
  | none => cases h; exact h1
  | some k =>
    simp only [losAddLayer] at h
    split_ifs at h with hc hv
    · rw [variableCount_addLayer _ _ _ _ h]
      have : k ≠ .layer := by rintro rfl; simp [LayerKind.isConstantLayer] at hc
      simpa [this] using h1
    · rw [variableCount_addLayer _ _ _ _ h]
      rcases hl with rfl | hl
      · simp [variableCount]; split <;> omega
      · cases l with
        | nil => simp at hl
        | cons a l =>
          simp only [List.head?_cons, Option.some.injEq] at hl
          subst hl
          simp [hasVariableLayer, LayerKind.isConstantLayer] at hv

/-- C13 (partial): over any history of `add_layer` calls that put layers on top, at most one variable
layer enters the sample if the first layer added is the variable one. Missing: if the bottom layer is
constant, any number of variable layers is accepted (`C13_several_variable_layers`). -/
theorem C13_single_variable_partial (h : List (Option LayerKind)) :
    variableCount (losRun [.layer] (h.map fun k => (k, .next))) ≤ 1 := by
  have key : ∀ (h : List (Option LayerKind)) (l : List LayerKind), l.head? = some .layer →
      variableCount l ≤ 1 → variableCount (losRun l (h.map fun k => (k, .next))) ≤ 1 := by
    intro h
    induction h with
    | nil => intro l _ h1; exact h1
    | cons k h ih =>
      intro l hh h1
      simp only [List.map_cons, losRun]
      cases hr : losAddLayer l k .next with
      | error e => exact ih l hh h1
      | ok l' =>
        refine ih l' ?_ (C13_add_layer_step l k .next l' (Or.inr hh) h1 hr)
        cases k with
        | none => cases hr; exact hh
        | some k =>
          have : l' = l ++ [k] := by
            simp only [losAddLayer] at hr
            split_ifs at hr <;> (cases hr; rfl)
          subst this
          cases l with
          | nil => simp at hh
          | cons a l => simpa using hh
  exact key h _ rfl (by decide)

/-- The full claim C13 does not hold for the code: with a constant layer at the bottom, `n` variable
layers are accepted, for every `n`. -/
theorem C13_several_variable_layers (n : Nat) :
    variableCount (losRun [] ((some .constantLayer, .next) :: List.replicate n (some .layer, .next))) = n := by
  have key : ∀ (n : Nat) (l : List LayerKind), l.head? = some .constantLayer →
      variableCount (losRun l (List.replicate n (some .layer, .next))) = variableCount l + n := by
    intro n
    induction n with
    | zero => intro l _; rfl
    | succ n ih =>
      intro l hl
      rw [List.replicate_succ]
      simp only [losRun]
      cases l with
      | nil => simp at hl
      | cons a l =>
        simp only [List.head?_cons, Option.some.injEq] at hl
        subst hl
        have : losAddLayer (.constantLayer :: l) (some .layer) .next =
            .ok (.constantLayer :: l ++ [.layer]) := rfl
        rw [this]
        simp only
        rw [ih _ rfl]
        simp [variableCount]; omega
  have := key n [.constantLayer] rfl
  simpa [losRun, losAddLayer, LayerKind.isConstantLayer, addLayer, variableCount] using this

end Verif.Props
