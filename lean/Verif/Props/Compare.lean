import Verif.Model.Compare
import Verif.Lemmas.Except

/-!
# C93: comparison of constant parameters
-/

namespace Verif.Props
open Verif.Py Verif.Model

/-- The object stands for the real number `x`. -/
inductive IsReal (pf : Str → Option ℝ) : CmpArg → ℝ → Prop where
  | num (x : ℝ) : IsReal pf (.num (.real x)) x
  | const (x : ℝ) (n : Option Str) : IsReal pf (.param (.const (.real x) n)) x
  | str (s : Str) (x : ℝ) (h : pf s = some x) : IsReal pf (.str s) x

theorem isReal_float {pf : Str → Option ℝ} {o : CmpArg} {y : ℝ} (h : IsReal pf o y) : o.toFloat pf = .ok y := by
  cases h with
  | num => rfl
  | const => rfl
  | str s x h => simp [CmpArg.toFloat, h]

/-- C93 for real values: the comparisons of a constant parameter with a number, a constant parameter or a string that reads as a
number are the comparisons of the values, from both sides. -/
theorem C93_order_partial (pf : Str → Option ℝ) (x y : ℝ) (o : CmpArg) (h : IsReal pf o y) :
    constCompare pf .eq (.real x) o = .ok (decide (x = y)) ∧ constCompare pf .ne (.real x) o = .ok (decide (x ≠ y)) ∧
    constCompare pf .lt (.real x) o = .ok (decide (x < y)) ∧ constCompare pf .le (.real x) o = .ok (decide (x ≤ y)) ∧
    constCompare pf .gt (.real x) o = .ok (decide (x > y)) ∧ constCompare pf .ge (.real x) o = .ok (decide (x ≥ y)) ∧
    reflectedCompare pf .eq o (.real x) = .ok (decide (y = x)) ∧ reflectedCompare pf .ne o (.real x) = .ok (decide (y ≠ x)) ∧
    reflectedCompare pf .lt o (.real x) = .ok (decide (y < x)) ∧ reflectedCompare pf .le o (.real x) = .ok (decide (y ≤ x)) ∧
    reflectedCompare pf .gt o (.real x) = .ok (decide (y > x)) ∧ reflectedCompare pf .ge o (.real x) = .ok (decide (y ≥ x)) := by
  have hc : ∀ op, constCompare pf op (.real x) o = .ok (op.eval x y) := by
    intro op
    unfold constCompare
    rw [show (Num.real x).toFloat = .ok x from rfl, bind_ok, isReal_float h, bind_ok]
    rfl
  have hr : ∀ op, reflectedCompare pf op o (.real x) = .ok (op.swap.eval x y) := fun op => hc op.swap
  refine ⟨hc _, hc _, hc _, hc _, hc _, hc _, ?_, ?_, hr _, hr _, hr _, hr _⟩
  · rw [hr]
    simp [CmpOp.swap, CmpOp.eval, eq_comm]
  · rw [hr]
    simp [CmpOp.swap, CmpOp.eval, eq_comm]

/-- C93 is false for complex values: every comparison raises, also with an equal parameter. -/
theorem C93_complex (pf : Str → Option ℝ) (a b : ℝ) (op : CmpOp) (o : CmpArg) :
    constCompare pf op (.cplx false a b) o = .error .typeError ∧
    constCompare pf .eq (.cplx false a b) (.param (.const (.cplx false a b) none)) = .error .typeError :=
  ⟨rfl, rfl⟩

/-- C93 is false for numpy complex values: parameters that differ in the imaginary part are equal, and none is smaller. -/
theorem C93_numpy (pf : Str → Option ℝ) (a b c : ℝ) (n : Option Str) :
    constCompare pf .eq (.cplx true a b) (.param (.const (.cplx true a c) n)) = .ok true ∧
    constCompare pf .ne (.cplx true a b) (.param (.const (.cplx true a c) n)) = .ok false ∧
    constCompare pf .lt (.cplx true a b) (.param (.const (.cplx true a c) n)) = .ok false := by
  refine ⟨?_, ?_, ?_⟩
  · show Except.ok (decide (a = a)) = _
    simp
  · show Except.ok (decide (a ≠ a)) = _
    simp
  · show Except.ok (decide (a < a)) = _
    simp

/-- C93 is false for other objects: a test for equality with a parameter range or with `None` raises instead of returning `False`. -/
theorem C93_foreign (pf : Str → Option ℝ) (op : CmpOp) (x : ℝ) (lo hi : Num ℝ) (n : Option Str) :
    constCompare pf op (.real x) (.param (.range lo hi n)) = .error .typeError ∧
    constCompare pf op (.real x) .foreign = .error .typeError :=
  ⟨rfl, rfl⟩

/-- C93, the search in a list: it finds the parameter if an entry before the first range or foreign object has the value, and raises if
there is such an object and no entry before it has the value. -/
theorem C93_in_partial (pf : Str → Option ℝ) (x : ℝ) (l : List CmpArg) (ys : List ℝ) (h : List.Forall₂ (IsReal pf) l ys) :
    constIn pf (.real x) l = .ok (decide (x ∈ ys)) ∧
    ∀ rest, x ∉ ys → constIn pf (.real x) (l ++ .foreign :: rest) = .error .typeError ∧
      ∀ lo hi n, constIn pf (.real x) (l ++ .param (.range lo hi n) :: rest) = .error .typeError := by
  induction h with
  | nil => exact ⟨by simp [constIn], fun rest _ => ⟨rfl, fun _ _ _ => rfl⟩⟩
  | @cons o y l ys ho _ ih =>
    have hc := (C93_order_partial pf x y o ho).1
    constructor
    · unfold constIn
      rw [hc, bind_ok]
      by_cases hxy : x = y
      · simp [hxy]
      · rw [if_neg (by simpa using hxy), ih.1]
        simp [hxy]
    · intro rest hn
      simp only [List.mem_cons, not_or] at hn
      obtain ⟨h1, h2⟩ := hn
      have hf : ∀ m, constIn pf (.real x) (o :: m) = constIn pf (.real x) m := by
        intro m
        rw [constIn, hc, bind_ok, if_neg (by simpa using h1)]
      exact ⟨by rw [List.cons_append, hf]; exact (ih.2 rest h2).1, fun lo hi n => by rw [List.cons_append, hf]; exact (ih.2 rest h2).2 lo hi n⟩

/-- C93, conversion: `int` rounds towards zero. -/
theorem C93_int_partial (x : ℝ) : ∃ k : Int, constInt (.real x) = .ok k ∧ |(k : ℝ)| ≤ |x| ∧ |x - k| < 1 ∧ (0 ≤ x → 0 ≤ k) ∧ (x ≤ 0 → k ≤ 0) := by
  by_cases h : 0 ≤ x
  · refine ⟨⌊x⌋, by show Except.ok _ = _; rw [if_pos h], ?_, ?_, fun _ => Int.floor_nonneg.2 h, fun h' => ?_⟩
    · rw [abs_of_nonneg h, abs_of_nonneg (by exact_mod_cast Int.floor_nonneg.2 h)]
      exact Int.floor_le x
    · rw [abs_of_nonneg (sub_nonneg.2 (Int.floor_le x))]
      linarith [Int.lt_floor_add_one x]
    · obtain rfl : x = 0 := le_antisymm h' h
      simp
  · have h := not_le.1 h
    refine ⟨⌈x⌉, by show Except.ok _ = _; rw [if_neg h.not_ge], ?_, ?_, fun h' => absurd h' h.not_ge, fun _ => Int.ceil_le.2 (by simpa using h.le)⟩
    · have : (⌈x⌉ : ℝ) ≤ 0 := by exact_mod_cast Int.ceil_le.2 (by simpa using h.le)
      rw [abs_of_neg h, abs_of_nonpos this]
      linarith [Int.le_ceil x]
    · rw [abs_sub_comm, abs_of_nonneg (sub_nonneg.2 (Int.le_ceil x))]
      linarith [Int.ceil_lt_add_one x]

/-- C93, limits: those of a constant parameter cannot be assigned, both are its value; those of a range can be assigned without a check,
and a copy of a range with real limits is refused exactly if they are not increasing any more. -/
theorem C93_limits (v w : Num ℝ) (a b x : ℝ) (n : Option Str) :
    (Param.const w n).setMin v = .error .attributeError ∧ (Param.const w n).setMax v = .error .attributeError ∧
    (Param.const w n).min = w ∧ (Param.const w n).max = w ∧
    ((Param.range (.real a) (.real b) n).setMin (.real x) = .ok (.range (.real x) (.real b) n)) ∧
    ((Param.range (.real a) (.real b) n).setMax (.real x) = .ok (.range (.real a) (.real x) n)) ∧
    ((Param.range (.real x) (.real b) n).copy = if b ≤ x then .error .valueError else .ok (.range (.real x) (.real b) n)) := by
  refine ⟨rfl, rfl, rfl, rfl, rfl, rfl, ?_⟩
  show Param.mk _ _ _ = _
  unfold Param.mk
  show (do if ← Except.ok (decide (b ≤ x)) then Except.error PyErr.valueError else Except.ok _) = _
  rw [bind_ok]
  by_cases h : b ≤ x <;> simp [h]

/-- The parameter 2 is found behind 1 and the string `2`, but not behind a range. -/
example (pf : Str → Option ℝ) (h : pf ['2'] = some 2) :
    constIn pf (.real 2) [.num (.real 1), .str ['2']] = .ok true ∧
    constIn pf (.real 2) [.num (.real 1), .param (.range (.real 0) (.real 1) none), .str ['2']] = .error .typeError := by
  refine ⟨?_, ?_⟩
  · rw [(C93_in_partial pf 2 _ [1, 2] (.cons (.num 1) (.cons (.str _ 2 h) .nil))).1]
    simp
  · exact ((C93_in_partial pf 2 [.num (.real 1)] [1] (.cons (.num 1) .nil)).2 _ (by norm_num)).2 _ _ _

end Verif.Props
