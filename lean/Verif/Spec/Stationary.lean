import Verif.Spec.Path
import Mathlib.Probability.Distributions.Gaussian.Real
import Mathlib.MeasureTheory.Constructions.Pi
import Mathlib.MeasureTheory.Measure.Lebesgue.Basic

/-
Distributions of position and momentum of a walker, for the statements about stationary distributions.
-/

namespace Bdld.Spec

open MeasureTheory ProbabilityTheory

noncomputable section

/-- Total energy of a walker with potential energy `U`. -/
def hamiltonian {d : Nat} (U : (Fin d → ℝ) → ℝ) (m : ℝ) (s : Phase d) : ℝ := U s.1 + ∑ k, s.2 k ^ 2 / (2 * m)

/-- The canonical distribution (not normalised): density `exp(-H / kT)`. -/
def canonical {d : Nat} (U : (Fin d → ℝ) → ℝ) (m kt : ℝ) : Measure (Phase d) :=
  volume.withDensity (fun s => ENNReal.ofReal (Real.exp (-hamiltonian U m s / kt)))

/-- Independent normal numbers with means `a` and variances `v`. -/
def normals {d : Nat} (a v : Fin d → ℝ) : Measure (Fin d → ℝ) :=
  Measure.pi (fun k => gaussianReal (a k) (v k).toNNReal)

/-- Standard normal numbers. -/
abbrev standard (d : Nat) : Measure (Fin d → ℝ) := normals (fun _ => 0) (fun _ => 1)

/-- Distribution after a step that uses two vectors of standard normal numbers, independent of each other and of the
state before. -/
def afterStep {d : Nat} (step : (Fin d → ℝ) → (Fin d → ℝ) → Phase d → Phase d) (μ : Measure (Phase d)) :
    Measure (Phase d) :=
  ((μ.prod (standard d)).prod (standard d)).map (fun z => step z.1.2 z.2 z.1.1)

/-- The same for a step of the positions with one random vector. -/
def afterMove {d : Nat} (step : (Fin d → ℝ) → (Fin d → ℝ) → (Fin d → ℝ)) (μ : Measure (Fin d → ℝ)) :
    Measure (Fin d → ℝ) :=
  (μ.prod (standard d)).map (fun z => step z.2 z.1)

end

end Bdld.Spec
