import Verif.Spec.Kernel
import Mathlib.MeasureTheory.Integral.Bochner.Basic
import Mathlib.MeasureTheory.Constructions.BorelSpace.Basic
import Mathlib.MeasureTheory.Constructions.BorelSpace.Real
import Mathlib.Probability.Independence.Basic

/-
Specification of the limit of many walkers: walkers drawn independently from one distribution, the smoothed density of
the distribution and the rates of the birth-death equation. Independent of the model.
-/

namespace Bdld.Spec

open MeasureTheory ProbabilityTheory

/-- Walkers `X 0`, `X 1`, … drawn (pairwise) independently from the distribution `ν`. -/
structure Sample {Ω : Type} [MeasurableSpace Ω] (P : Measure Ω) {d : Nat} (ν : Measure (Fin d → ℝ))
    (X : ℕ → Ω → Fin d → ℝ) : Prop where
  measurable : ∀ i, Measurable (X i)
  law : ∀ i, P.map (X i) = ν
  indep : Pairwise (fun i j => IndepFun (X i) (X j) P)

noncomputable section

/-- The distribution convolved with the kernel, `(K * ν)(x)`. -/
def smoothed {d : Nat} (bw : Fin d → ℝ) (ν : Measure (Fin d → ℝ)) (x : Fin d → ℝ) : ℝ := ∫ y, kernel bw (x - y) ∂ν

/-- The rate of the birth-death equation at `x` if the walkers have the distribution `ν`: the deviation of
`log (K * ν) + f` from its average. In the original form of the algorithm `f` is `U / kT`. -/
def limitRate {d : Nat} (bw : Fin d → ℝ) (ν : Measure (Fin d → ℝ)) (f : (Fin d → ℝ) → ℝ) (x : Fin d → ℝ) : ℝ :=
  Real.log (smoothed bw ν x) + f x - ∫ y, (Real.log (smoothed bw ν y) + f y) ∂ν

end

end Bdld.Spec
