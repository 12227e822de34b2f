import Verif.Spec.RoundingRates

/-
Error bounds of free energies and free energy differences.
-/

namespace Bdld.Spec

noncomputable section

section
variable {F : Type} [Add F] [Sub F] [Mul F] [Div F] [Neg F] [LT F]

/-- Accuracy of the functions: relative error `er` of the exponential of numbers up to `R` in absolute value, relative error `lg` of the
logarithm, exact natural numbers up to `N`, and a sum of `n` numbers adds each of them once. -/
structure FesContract (A : Rounding F) (f : FloatFns F) where
  er : ℝ
  lg : ℝ
  R : ℝ
  N : Nat
  er_nonneg : 0 ≤ er
  lg_nonneg : 0 ≤ lg
  exp : ∀ a, A.fin a → |A.val a| ≤ R → A.fin (f.exp a) ∧ |A.val (f.exp a) - Real.exp (A.val a)| ≤ er * Real.exp (A.val a)
  log : ∀ a, A.fin a → 0 < A.val a → A.fin (f.log a) ∧ |A.val (f.log a) - Real.log (A.val a)| ≤ lg * |Real.log (A.val a)|
  ofNat : ∀ n ≤ N, A.fin (f.ofNat n) ∧ A.val (f.ofNat n) = n
  zero : A.fin f.zero ∧ A.val f.zero = 0
  order : ∀ n, 0 < n → (f.order n).leaves.Perm (List.range n)

/-- A number or infinity approximates an exact one. -/
def NearTop (A : Rounding F) (b : Bnd) : WithTop F → WithTop ℝ → Prop
  | some a, some x => Near A b a x
  | none, none => True
  | _, _ => False

/-- The number `a` approximates `x` with relative error `ε`. -/
def RelNear (A : Rounding F) (ε : ℝ) (a : F) (x : ℝ) : Prop := A.fin a ∧ |A.val a - x| ≤ ε * x

end

/-- Rounding errors of the operations, exponential and logarithm, `kT`, and a bound `L` of the logarithm of the number of counts. -/
structure FesBnd where
  u : ℝ
  η : ℝ
  er : ℝ
  lg : ℝ
  k : ℝ
  L : ℝ

section
variable (B : FesBnd)

/-- `-kT ln n`. -/
def FesBnd.raw : Bnd := (Bnd.exact B.k).mul B.u B.η ⟨B.lg * B.L, B.L⟩

/-- Free energy after subtracting the minimum. -/
def FesBnd.fes : Bnd := B.raw.add B.u B.raw

/-- Free energy over `kT`. -/
def FesBnd.arg : Bnd := B.fes.div B.u B.η B.k

/-- Relative error of the probability of a bin. -/
def FesBnd.prob : ℝ := 2 * B.arg.err + B.er * (1 + 2 * B.arg.err)

/-- Relative error of the probability of a state of at most `K` bins. -/
def FesBnd.state (K : Nat) : ℝ := (1 + B.prob) * (1 + B.u) ^ (K - 1) - 1

/-- Relative error of a quotient of probabilities before rounding it. -/
def FesBnd.quot (K : Nat) : ℝ := (B.state K + B.state K) / (1 - B.state K)

/-- Relative error of a quotient of probabilities. -/
def FesBnd.ratio (K : Nat) : ℝ := B.quot K + B.u * (1 + B.quot K) + B.η * Real.exp B.L

/-- Error of the logarithm of the quotient. -/
def FesBnd.log (K : Nat) : Bnd := ⟨B.ratio K / (1 - B.ratio K) + B.lg * (B.L + B.ratio K / (1 - B.ratio K)), B.L⟩

/-- Free energy difference. -/
def FesBnd.deltaF (K : Nat) : Bnd := (Bnd.exact B.k).mul B.u B.η (B.log K)

/-- No overflow in the free energies. -/
structure FesBnd.FesFits (Ω : ℝ) : Prop where
  raw : (Bnd.exact B.k).mulTop ⟨B.lg * B.L, B.L⟩ ≤ Ω
  fes : B.raw.addTop B.raw ≤ Ω

/-- No overflow in the free energy differences, and errors small enough for the bounds to hold. -/
structure FesBnd.Fits (K : Nat) (R Ω : ℝ) : Prop extends B.FesFits Ω where
  arg : B.fes.divTop B.k ≤ Ω
  small : B.arg.err ≤ 1
  range : B.arg.mag + B.arg.err ≤ R
  state : (1 + B.state K) * K ≤ Ω
  state_lt : B.state K < 1
  quot : Real.exp B.L * (1 + B.quot K) ≤ Ω
  ratio : B.ratio K < 1
  deltaF : (Bnd.exact B.k).mulTop (B.log K) ≤ Ω

end

end

end Bdld.Spec
