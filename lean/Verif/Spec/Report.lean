import Verif.Model.BirthDeath
import Mathlib.Data.Rat.Defs
import Mathlib.Algebra.Field.Rat
import Mathlib.Algebra.Order.Ring.Unbundled.Rat

/-
Specification of the statistics of birth-death and of the report about them.
-/

namespace Bdld.Spec

/-- Counters after `t` steps with `walkers` walkers and birth-death every `stride` steps: no more successes than
attempts, and every walker does at most one attempt per step of birth-death. -/
structure SoundCounters (walkers stride t : Nat) (c : BdStats) : Prop where
  kills : c.killCount ≤ c.killAttempts
  dups : c.dupCount ≤ c.dupAttempts
  attempts : c.killAttempts + c.dupAttempts ≤ walkers * (t / stride)

/-- No counter is smaller than before. -/
structure CountersGrow (c c' : BdStats) : Prop where
  kills : c.killCount ≤ c'.killCount
  dups : c.dupCount ≤ c'.dupCount
  killAttempts : c.killAttempts ≤ c'.killAttempts
  dupAttempts : c.dupAttempts ≤ c'.dupAttempts

/-- `q` is `factor * part / whole`; it is missing if and only if `whole` is zero. -/
def IsQuotient (factor part whole : Nat) (q : Option ℚ) : Prop :=
  (q = none ↔ whole = 0) ∧ ∀ x, q = some x → x * whole = factor * part

/-- A percentage is between 0 and 100. -/
def IsPercentage (q : Option ℚ) : Prop := ∀ x, q = some x → 0 ≤ x ∧ x ≤ 100

end Bdld.Spec
