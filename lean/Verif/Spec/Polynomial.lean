import Mathlib.Data.Real.Basic
import Mathlib.Data.Fintype.Pi
import Mathlib.Algebra.BigOperators.Group.Finset.Basic

/-
Specification of polynomials in several variables.
-/

namespace Bdld.Spec

/-- The monomial with the given exponents. -/
def monomial {d : Nat} (e : Fin d → Nat) (x : Fin d → ℝ) : ℝ := ∏ k, x k ^ e k

/-- All multi-indices inside a shape. -/
def box {d : Nat} (shape : Fin d → Nat) : Finset (Fin d → Nat) :=
  Fintype.piFinset (fun k => Finset.range (shape k))

/-- The polynomial with coefficients `c` (only those inside the shape). -/
def polySum {d : Nat} (shape : Fin d → Nat) (c : (Fin d → Nat) → ℝ) (x : Fin d → ℝ) : ℝ :=
  ∑ e ∈ box shape, c e * monomial e x

/-- The value listed for the exponents `e` in a list of (exponents, value), the last one if there are
several, 0 if there is none. -/
def listedValue {d : Nat} (l : List ((Fin d → Nat) × ℝ)) (e : Fin d → Nat) : ℝ :=
  ((l.filter (fun p => p.1 = e)).getLast?.map Prod.snd).getD 0

end Bdld.Spec
