import Mathlib.Order.Basic
import Mathlib.Algebra.Group.Defs

/-
Specifications of the boundary conditions for one coordinate.
-/

namespace Bdld.Spec

/-- Reflective boundary for one coordinate: `x, m` are position and momentum before, `x', m'` after. -/
structure Reflects {F : Type} [LinearOrder F] [Neg F] (lo hi x m x' m' : F) : Prop where
  inside : lo ≤ x' ∧ x' ≤ hi
  keep : lo ≤ x → x ≤ hi → x' = x ∧ m' = m
  low : x < lo → x' = lo ∧ m' = -m
  high : hi < x → x' = hi ∧ m' = -m

/-- Periodic boundary for one coordinate: back in the range, shifted by a multiple of the length. -/
structure Wraps {F : Type} [LinearOrder F] [AddGroup F] (lo hi x m x' m' : F) : Prop where
  inside : lo ≤ x' ∧ x' ≤ hi
  shift : ∃ z : Int, x' = x + z • (hi - lo)
  mom : m' = m

end Bdld.Spec
