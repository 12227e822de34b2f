import Mathlib.Analysis.SpecialFunctions.Trigonometric.Basic

/-
Specification of the kernel density estimate and of the birth-death rates. Independent of the model.
-/

namespace Bdld.Spec

noncomputable section

/-- Density of the normal distribution with standard deviation `σ` and mean 0. -/
def normalPdf (σ x : ℝ) : ℝ := 1 / (σ * Real.sqrt (2 * Real.pi)) * Real.exp (-(x ^ 2 / (2 * σ ^ 2)))

/-- Product kernel. -/
def kernel {d : Nat} (bw x : Fin d → ℝ) : ℝ := ∏ k, normalPdf (bw k) (x k)

/-- Kernel density estimate of the walkers at a point: the average of the kernel over all walkers. -/
def kde {n d : Nat} (bw : Fin d → ℝ) (pos : Fin n → Fin d → ℝ) (x : Fin d → ℝ) : ℝ :=
  (∑ j, kernel bw (x - pos j)) / n

/-- `v` minus its average. -/
def centred {n : Nat} (v : Fin n → ℝ) (i : Fin n) : ℝ := v i - (∑ j, v j) / n

end

end Bdld.Spec
