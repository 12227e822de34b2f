import Verif.Spec.Stationary

/-
Walkers that forget where they started.
-/

namespace Bdld.Spec

open MeasureTheory

noncomputable section

/-- Two walkers in `S` that are moved with the same random numbers stay in `S`, and their distance `D` is at most multiplied by
`ρ`. -/
def Contracts {d : Nat} (step : (Fin d → ℝ) → (Fin d → ℝ) → Phase d → Phase d) (S : Set (Phase d)) (D : Phase d → Phase d → ℝ)
    (ρ : ℝ) : Prop :=
  ∀ n1 n2, ∀ s ∈ S, step n1 n2 s ∈ S ∧ ∀ t ∈ S, D (step n1 n2 s) (step n1 n2 t) ≤ ρ * D s t

/-- Position and momentum after `t` steps; step number `i` uses the random vectors `noise i 0` and `noise i 1`. -/
def moved {d : Nat} (step : (Fin d → ℝ) → (Fin d → ℝ) → Phase d → Phase d) (noise : Nat → Nat → Fin d → ℝ) : Nat → Phase d → Phase d
  | 0, s => s
  | t + 1, s => step (noise t 0) (noise t 1) (moved step noise t s)

/-- Mean of `f` after a step of a walker that is now in the state `s`. -/
def meanAfter {d : Nat} (step : (Fin d → ℝ) → (Fin d → ℝ) → Phase d → Phase d) (f : Phase d → ℝ) (s : Phase d) : ℝ :=
  ∫ n1, ∫ n2, f (step n1 n2 s) ∂(standard d) ∂(standard d)

end

end Bdld.Spec
