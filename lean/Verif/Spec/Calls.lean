import Verif.Model.Calls

/-!
# What the arguments of a call mean
-/

namespace Verif.Spec
open Verif.Py Verif.Model

/-- A call that Python accepts: not more arguments than parameters, no unknown keyword, no parameter given twice, and none without a value. -/
structure CallOk (sig : Sig) (args : List ArgVal) (kw : Kwargs) : Prop where
  fits : args.length ≤ sig.length
  known : ∀ k v, (k, v) ∈ kw → ∃ d, (k, d) ∈ sig
  once : ∀ (i : ℕ) (k : Str) (d : Option ArgVal), i < args.length → sig[i]? = some (k, d) → ∀ v, (k, v) ∉ kw
  complete : ∀ (i : ℕ) (k : Str), args.length ≤ i → sig[i]? = some (k, none) → ∃ v, (k, v) ∈ kw

/-- The value of parameter `i` in a call: the argument at its position, else the keyword argument of its name, else its default. -/
inductive ArgIs (sig : Sig) (args : List ArgVal) (kw : Kwargs) (i : ℕ) : ArgVal → Prop where
  | position (v : ArgVal) : args[i]? = some v → ArgIs sig args kw i v
  | keyword (k : Str) (d : Option ArgVal) (v : ArgVal) : args.length ≤ i → sig[i]? = some (k, d) → (k, v) ∈ kw → ArgIs sig args kw i v
  | default (k : Str) (v : ArgVal) : args.length ≤ i → sig[i]? = some (k, some v) → (∀ w, (k, w) ∉ kw) → ArgIs sig args kw i v

end Verif.Spec
