import Verif.Lemmas.Except
import Mathlib.Data.Real.Basic
import Mathlib.Order.Interval.Set.UnorderedInterval

/-!
# Random numbers

`numpy.random` as a generator with an internal state `G`. Theorems quantify over every generator that
keeps the documented contract `Rng.Ok`, hence over every outcome.
-/

namespace Verif.Py

/-- The three draws used by the code: `np.random.uniform(a, b, n)`, `np.random.normal(mean, scale, n)`
and `np.random.shuffle(values)`. -/
structure Rng (G : Type) where
  uniform : ℝ → ℝ → Nat → G → List ℝ × G
  normal : ℝ → ℝ → Nat → G → List ℝ × G
  shuffle : List ℝ → G → List ℝ × G

/-- The contract of the draws: the number of values, uniform values lie between the two arguments,
shuffling permutes. Normal values are arbitrary. -/
structure Rng.Ok {G : Type} (r : Rng G) : Prop where
  uniform_length : ∀ a b n g, (r.uniform a b n g).1.length = n
  uniform_mem : ∀ a b n g, ∀ x ∈ (r.uniform a b n g).1, x ∈ Set.uIcc a b
  normal_length : ∀ m s n g, (r.normal m s n g).1.length = n
  shuffle_perm : ∀ l g, (r.shuffle l g).1.Perm l

/-- No normal value deviates by more than `k` standard deviations. -/
def Rng.NormalBounded {G : Type} (r : Rng G) (k : ℝ) : Prop :=
  ∀ m s n g, 0 ≤ s → ∀ x ∈ (r.normal m s n g).1, |x - m| ≤ k * s

/-- A computation that draws random numbers and may raise. -/
abbrev Rand (G α : Type) := StateT G (Except PyErr) α

namespace Rand
variable {G α β : Type}

/-- Raise. -/
def fail (e : PyErr) : Rand G α := fun _ => .error e

/-- Run a computation without randomness. -/
def ofRes (x : Res α) : Rand G α := fun g => x.map (·, g)

theorem bind_ok {x : Rand G α} {f : α → Rand G β} {g : G} {r : β × G} :
    (x >>= f) g = .ok r ↔ ∃ a g', x g = .ok (a, g') ∧ f a g' = .ok r := by
  show (x g >>= fun p => f p.1 p.2) = .ok r ↔ _
  rw [bind_eq_ok]
  constructor
  · rintro ⟨⟨a, g'⟩, h1, h2⟩; exact ⟨a, g', h1, h2⟩
  · rintro ⟨a, g', h1, h2⟩; exact ⟨(a, g'), h1, h2⟩

theorem bind_total {x : Rand G α} {f : α → Rand G β} {g : G} (h1 : ∃ a g', x g = .ok (a, g'))
    (h2 : ∀ a g', x g = .ok (a, g') → ∃ b g'', f a g' = .ok (b, g'')) :
    ∃ b g'', (x >>= f) g = .ok (b, g'') := by
  obtain ⟨a, g', ha⟩ := h1
  obtain ⟨b, g'', hb⟩ := h2 a g' ha
  exact ⟨b, g'', bind_ok.2 ⟨a, g', ha, hb⟩⟩

theorem pure_ok {a : α} {g : G} {r : α × G} : (pure a : Rand G α) g = .ok r ↔ r = (a, g) := by
  show Except.ok (a, g) = .ok r ↔ _
  rw [Except.ok.injEq, eq_comm]

theorem fail_ok {e : PyErr} {g : G} {r : α × G} : (fail e : Rand G α) g = .ok r ↔ False := by
  simp [fail]

theorem ofRes_ok {x : Res α} {g : G} {r : α × G} :
    (ofRes x : Rand G α) g = .ok r ↔ x = .ok r.1 ∧ r.2 = g := by
  obtain ⟨a, g'⟩ := r
  cases x <;> simp [ofRes, Except.map, eq_comm]

end Rand

/-- `np.random.uniform(a, b, n)`; a negative size raises. -/
def drawUniform {G : Type} (r : Rng G) (a b : ℝ) (n : Int) : Rand G (List ℝ) := fun g =>
  if n < 0 then .error .valueError else .ok (r.uniform a b n.toNat g)

/-- `np.random.normal(m, s, n)`; a negative size or scale raises. -/
noncomputable def drawNormal {G : Type} (r : Rng G) (m s : ℝ) (n : Int) : Rand G (List ℝ) := fun g =>
  if n < 0 ∨ s < 0 then .error .valueError else .ok (r.normal m s n.toNat g)

/-- `np.random.shuffle(values)`, returning the shuffled array. -/
def drawShuffle {G : Type} (r : Rng G) (l : List ℝ) : Rand G (List ℝ) := fun g => .ok (r.shuffle l g)

end Verif.Py
