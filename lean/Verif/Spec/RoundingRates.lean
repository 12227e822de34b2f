import Verif.Spec.Rounding
import Verif.Model.FloatRates

/-
Contract of the functions of numpy, and error bounds of the rates of the birth-death algorithm.
-/

namespace Bdld.Spec

noncomputable section

section
variable {F : Type} [Add F] [Sub F] [Mul F] [Div F] [Neg F] [LT F]

/-- Accuracy of the functions: absolute error `ex` of the exponential of numbers up to 1, relative error `lg` of the logarithm, exact
absolute values, comparisons and small integers, and a sum of `n` numbers adds each of them once. -/
structure FnContract (A : Rounding F) (f : FloatFns F) where
  ex : ℝ
  lg : ℝ
  ex_nonneg : 0 ≤ ex
  lg_nonneg : 0 ≤ lg
  exp : ∀ a, A.fin a → A.val a ≤ 1 → A.fin (f.exp a) ∧ |A.val (f.exp a) - Real.exp (A.val a)| ≤ ex
  log : ∀ a, A.fin a → 0 < A.val a → A.fin (f.log a) ∧ |A.val (f.log a) - Real.log (A.val a)| ≤ lg * |Real.log (A.val a)|
  abs : ∀ a, A.fin a → A.fin (f.abs a) ∧ A.val (f.abs a) = |A.val a|
  le : ∀ a b, A.fin a → A.fin b → (f.le a b = true ↔ A.val a ≤ A.val b)
  zero : A.fin f.zero ∧ A.val f.zero = 0
  one : A.fin f.one ∧ A.val f.one = 1
  isInf : ∀ a, A.fin a → f.isInf a = false
  order : ∀ n, 0 < n → (f.order n).leaves.Perm (List.range n)

end

/-- Bounds of a quotient; `lo` is a lower bound of the exact divisor. -/
def Bnd.quot (u η : ℝ) (b c : Bnd) (lo : ℝ) : Bnd :=
  ⟨b.err / (lo - c.err) + b.mag * c.err / ((lo - c.err) * lo) + (u * ((b.mag + b.err) / (lo - c.err)) + η), b.mag / lo⟩

/-- Largest absolute value before rounding. -/
def Bnd.quotTop (b c : Bnd) (lo : ℝ) : ℝ := (b.mag + b.err) / (lo - c.err)

/-- Bounds of a sum of `n` numbers in any order. -/
def Bnd.sum (u : ℝ) (n : Nat) (b : Bnd) : Bnd := ⟨((1 + u) ^ (n - 1) - 1) * (n * (b.mag + b.err)) + n * b.err, n * b.mag⟩

/-- Largest absolute value before rounding. -/
def Bnd.sumTop (u : ℝ) (n : Nat) (b : Bnd) : ℝ := (1 + u) ^ (n - 1) * (n * (b.mag + b.err))

/-- Bounds of the product of `n` numbers from left to right. -/
def Bnd.prod (u η : ℝ) (n : Nat) (b : Bnd) : Bnd := (fun c => c.mul u η b)^[n - 1] b

/-- No overflow. -/
def Bnd.prodFits (u η Ω : ℝ) (n : Nat) (b : Bnd) : Prop := ∀ m < n - 1, ((fun c => c.mul u η b)^[m] b).mulTop b ≤ Ω

/-- Bounds of the exponential of a number that is not positive. -/
def Bnd.exp (ex : ℝ) (b : Bnd) : Bnd := ⟨3 * b.err + ex, 1⟩

/-- Bounds of the logarithm of a number not below `lo`, whose logarithm is at most `M` in absolute value. -/
def Bnd.log (lg lo M : ℝ) (b : Bnd) : Bnd := ⟨b.err / (lo - b.err) + lg * (M + b.err / (lo - b.err)), M⟩

/-- Bounds for the rates: of the constants, the position `X`, of the energy and of the correction for a given error of the position,
a lower bound `lo` of the density and a bound `M` of its logarithm. -/
structure RateBnd where
  height : Bnd
  width : Bnd
  widthLo : ℝ
  pref : Bnd
  invKt : Bnd
  dt : Bnd
  rateFac : Bnd
  X : ℝ
  energy : ℝ → Bnd
  approx : ℝ → Bnd
  lo : ℝ
  M : ℝ

section
variable (B : RateBnd) (u η ex lg : ℝ) (d n : Nat) (variant : ApproxVariant) (e : ℝ)

/-- Distance, squared distance, and squared distance over twice the squared bandwidth. -/
def RateBnd.dist : Bnd := Bnd.add u ⟨e, B.X⟩ ⟨e, B.X⟩
def RateBnd.sq : Bnd := (B.dist u e).mul u η (B.dist u e)
def RateBnd.arg : Bnd := (B.sq u η e).quot u η B.width B.widthLo

/-- Gaussian in one direction. -/
def RateBnd.gauss : Bnd := B.height.mul u η ((B.arg u η e).exp ex)

/-- Kernel: product of Gaussians, or Gaussian of the sum for more than 10000 walkers. -/
def RateBnd.kernel : Bnd :=
  if n ≤ 10000 then (B.gauss u η ex e).prod u η d else B.pref.mul u η (((B.arg u η e).sum u d).exp ex)

/-- Density. -/
def RateBnd.density : Bnd := ((B.kernel u η ex d n e).sum u n).div u η n

/-- What is added to the logarithm of the density. -/
def RateBnd.extra : Bnd := if variant = .mult then B.approx e else (B.energy e).mul u η B.invKt

/-- Rate before subtracting the average. -/
def RateBnd.raw : Bnd := ((B.density u η ex d n e).log lg B.lo B.M).add u (B.extra u η variant e)

/-- Rate after subtracting the average. -/
def RateBnd.centred : Bnd :=
  (B.raw u η ex lg d n variant e).add u (((B.raw u η ex lg d n variant e).sum u n).div u η n)

/-- Rate. -/
def RateBnd.rate : Bnd :=
  if variant = .add then (B.centred u η ex lg d n variant e).add u (B.approx e) else B.centred u η ex lg d n variant e

/-- Argument of the exponential in the probability. -/
def RateBnd.probArg : Bnd := ((B.rate u η ex lg d n variant e).mul u η B.dt).mul u η B.rateFac

/-- Probability. -/
def RateBnd.prob : Bnd := (Bnd.exact 1).add u ((B.probArg u η ex lg d n variant e).exp ex)

/-- No overflow, and errors small enough for the bounds to hold. -/
structure RateBnd.Fits (Ω : ℝ) : Prop where
  dist : Bnd.addTop ⟨e, B.X⟩ ⟨e, B.X⟩ ≤ Ω
  sq : (B.dist u e).mulTop (B.dist u e) ≤ Ω
  width : B.width.err < B.widthLo
  arg : (B.sq u η e).quotTop B.width B.widthLo ≤ Ω
  exp : (B.arg u η e).err ≤ 1
  gauss : B.height.mulTop ((B.arg u η e).exp ex) ≤ Ω
  prod : (B.gauss u η ex e).prodFits u η Ω d
  manual : 10000 < n → (B.arg u η e).sumTop u d ≤ Ω ∧ ((B.arg u η e).sum u d).err ≤ 1 ∧
    B.pref.mulTop (((B.arg u η e).sum u d).exp ex) ≤ Ω
  sum : (B.kernel u η ex d n e).sumTop u n ≤ Ω
  density : ((B.kernel u η ex d n e).sum u n).divTop n ≤ Ω
  log : (B.density u η ex d n e).err < B.lo
  energy : variant ≠ .mult → (B.energy e).mulTop B.invKt ≤ Ω
  raw : ((B.density u η ex d n e).log lg B.lo B.M).addTop (B.extra u η variant e) ≤ Ω
  total : (B.raw u η ex lg d n variant e).sumTop u n ≤ Ω
  mean : ((B.raw u η ex lg d n variant e).sum u n).divTop n ≤ Ω
  centred : (B.raw u η ex lg d n variant e).addTop (((B.raw u η ex lg d n variant e).sum u n).div u η n) ≤ Ω
  add : variant = .add → (B.centred u η ex lg d n variant e).addTop (B.approx e) ≤ Ω
  prob1 : (B.rate u η ex lg d n variant e).mulTop B.dt ≤ Ω
  prob2 : ((B.rate u η ex lg d n variant e).mul u η B.dt).mulTop B.rateFac ≤ Ω
  prob3 : (B.probArg u η ex lg d n variant e).err ≤ 1
  prob4 : (Bnd.exact 1).addTop ((B.probArg u η ex lg d n variant e).exp ex) ≤ Ω

end

end

end Bdld.Spec
