import Mathlib.Data.Real.Basic
import Mathlib.Algebra.Order.Group.Unbundled.Abs

/-
Contract of floating point arithmetic and propagation of error bounds.
-/

namespace Bdld.Spec

/-- Numbers with rounding: finite numbers have a real value; results of the basic operations of finite numbers are
rounded with relative error at most `u`, plus an absolute error at most `η` (underflow) for products and quotients, as long as
the exact result is at most `Ω` in absolute value (no overflow). IEEE doubles meet it with `u = 2^-53`, `η = 2^-1075` and `Ω` the
largest finite number. Nothing is said about infinities and NaN. -/
structure Rounding (F : Type) [Add F] [Sub F] [Mul F] [Div F] [Neg F] [LT F] where
  fin : F → Prop
  val : F → ℝ
  u : ℝ
  η : ℝ
  Ω : ℝ
  u_nonneg : 0 ≤ u
  η_nonneg : 0 ≤ η
  add : ∀ a b, fin a → fin b → |val a + val b| ≤ Ω → fin (a + b) ∧ |val (a + b) - (val a + val b)| ≤ u * |val a + val b|
  sub : ∀ a b, fin a → fin b → |val a - val b| ≤ Ω → fin (a - b) ∧ |val (a - b) - (val a - val b)| ≤ u * |val a - val b|
  mul : ∀ a b, fin a → fin b → |val a * val b| ≤ Ω →
    fin (a * b) ∧ |val (a * b) - val a * val b| ≤ u * |val a * val b| + η
  div : ∀ a b, fin a → fin b → val b ≠ 0 → |val a / val b| ≤ Ω →
    fin (a / b) ∧ |val (a / b) - val a / val b| ≤ u * |val a / val b| + η
  neg : ∀ a, fin a → fin (-a) ∧ val (-a) = -val a
  lt : ∀ a b, fin a → fin b → (a < b ↔ val a < val b)

variable {F : Type} [Add F] [Sub F] [Mul F] [Div F] [Neg F] [LT F]

/-- Bounds of a computed number: its error, and the absolute value of the exact number. -/
structure Bnd where
  err : ℝ
  mag : ℝ

/-- The number `a` approximates `x` within the bounds. -/
def Near (A : Rounding F) (b : Bnd) (a : F) (x : ℝ) : Prop := A.fin a ∧ |A.val a - x| ≤ b.err ∧ |x| ≤ b.mag

/-- Bounds of a number without error. -/
def Bnd.exact (m : ℝ) : Bnd := ⟨0, m⟩

/-- Bounds of a sum. -/
def Bnd.add (u : ℝ) (b c : Bnd) : Bnd := ⟨b.err + c.err + u * (b.mag + c.mag + b.err + c.err), b.mag + c.mag⟩

/-- Largest absolute value that can occur before rounding a sum. -/
def Bnd.addTop (b c : Bnd) : ℝ := b.mag + c.mag + b.err + c.err

/-- Bounds of a product. -/
def Bnd.mul (u η : ℝ) (b c : Bnd) : Bnd :=
  ⟨b.mag * c.err + c.mag * b.err + b.err * c.err + (u * ((b.mag + b.err) * (c.mag + c.err)) + η), b.mag * c.mag⟩

/-- Largest absolute value that can occur before rounding a product. -/
def Bnd.mulTop (b c : Bnd) : ℝ := (b.mag + b.err) * (c.mag + c.err)

/-- Bounds of a quotient by an exact positive number. -/
noncomputable def Bnd.div (u η : ℝ) (b : Bnd) (y : ℝ) : Bnd := ⟨b.err / y + (u * ((b.mag + b.err) / y) + η), b.mag / y⟩

/-- Largest absolute value that can occur before rounding the quotient. -/
noncomputable def Bnd.divTop (b : Bnd) (y : ℝ) : ℝ := (b.mag + b.err) / y

end Bdld.Spec
