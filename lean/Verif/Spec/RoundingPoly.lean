import Verif.Spec.Rounding
import Verif.Spec.Polynomial
import Mathlib.Algebra.BigOperators.Fin

/-
Error bounds of polynomials.
-/

namespace Bdld.Spec

/-- Polynomial with the absolute values of the coefficients. -/
noncomputable def absPoly {d : Nat} (shape : Fin d → Nat) (c : (Fin d → Nat) → ℝ) (X : Fin d → ℝ) : ℝ :=
  polySum shape (fun e => |c e|) X

/-- Derivative along coordinate `k` of the polynomial with the absolute values of the coefficients. -/
noncomputable def absDer {d : Nat} (shape : Fin d → Nat) (c : (Fin d → Nat) → ℝ) (k : Fin d) (X : Fin d → ℝ) : ℝ :=
  ∑ e ∈ box shape, |c e| * ((e k : ℝ) * X k ^ (e k - 1) * ∏ j ∈ Finset.univ.erase k, X j ^ e j)

/-- Absolute error due to underflow: `τ` before, after the evaluation of the axes one after the other. -/
noncomputable def underflow (u η : ℝ) : (d : Nat) → (Fin d → Nat) → (Fin d → ℝ) → ℝ → ℝ
  | 0, _, _, τ => τ
  | d + 1, shape, X, τ => underflow u η d (Fin.tail shape) (Fin.tail X)
      ((1 + u) * (τ + η) * ∑ j ∈ Finset.range (shape 0), ((1 + u) ^ 2 * X 0) ^ j)

/-- Growth of relative errors: two roundings per coefficient along each axis. -/
noncomputable def growth (u : ℝ) {d : Nat} (shape : Fin d → Nat) : ℝ := (1 + u) ^ (2 * ∑ k, shape k)

/-- Error of the evaluation at given numbers of a polynomial with given coefficients. -/
noncomputable def polyErr (u η : ℝ) {d : Nat} (shape : Fin d → Nat) (c : (Fin d → Nat) → ℝ) (X : Fin d → ℝ) : ℝ :=
  (growth u shape - 1) * absPoly shape c X + underflow u η d shape X 0

end Bdld.Spec
