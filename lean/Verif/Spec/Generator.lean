import Verif.Spec.Stationary
import Mathlib.Analysis.SpecialFunctions.Complex.CircleAddChar
import Mathlib.MeasureTheory.Measure.CharacteristicFunction.Basic

/-
Plane waves of position and momentum and the operators of the (backward) Fokker-Planck equations: the change per time of the mean of
a function of a walker with overdamped or underdamped Langevin dynamics.
-/

namespace Bdld.Spec

open Complex

noncomputable section

/-- Scalar product. -/
def dot {d : Nat} (k x : Fin d → ℝ) : ℝ := ∑ j, k j * x j

/-- Plane wave. -/
def wave {d : Nat} (k x : Fin d → ℝ) : ℂ := exp (I * dot k x)

/-- Partial derivative. -/
def partialD {d : Nat} (φ : (Fin d → ℝ) → ℂ) (j : Fin d) (x : Fin d → ℝ) : ℂ := deriv (fun t : ℝ => φ (Function.update x j t)) (x j)

/-- Overdamped dynamics at unit temperature with force field `f`: `f · ∇φ + Δφ`. -/
def smoluchowski {d : Nat} (f : (Fin d → ℝ) → Fin d → ℝ) (φ : (Fin d → ℝ) → ℂ) (x : Fin d → ℝ) : ℂ :=
  ∑ j, (f x j * partialD φ j x + partialD (partialD φ j) j x)

/-- Langevin dynamics with friction `γ` and temperature `kt`: `p/m · ∇ₓφ + f · ∇ₚφ - γ p · ∇ₚφ + γ m kt Δₚφ`. -/
def kramers {d : Nat} (f : (Fin d → ℝ) → Fin d → ℝ) (m γ kt : ℝ) (φ : Phase d → ℂ) (s : Phase d) : ℂ :=
  ∑ j, (s.2 j / m * partialD (fun x => φ (x, s.2)) j s.1 + (f s.1 j - γ * s.2 j) * partialD (fun p => φ (s.1, p)) j s.2 +
    γ * m * kt * partialD (partialD (fun p => φ (s.1, p)) j) j s.2)

end

end Bdld.Spec
