import Verif.Spec.Stationary
import Verif.Spec.Ledger

/-
Specification of long runs: probabilities that settle, steps counted by the histogram of a run, free energy differences.
-/

namespace Bdld.Spec

open MeasureTheory Filter Topology

/-- The probability that a walker that starts in `s` is in the region approaches `p`. -/
def Settles {d : Nat} (T : (Fin d → ℝ) → (Fin d → ℝ) → Phase d → Phase d) (A : Set (Fin d → ℝ)) (p : ℝ) (s : Phase d) : Prop :=
  Tendsto (fun t => ((afterStep T)^[t] (Measure.dirac s)).real (Prod.fst ⁻¹' A)) atTop (𝓝 p)

/-- No step more than twice. -/
def AtMostTwice (l : List ℕ) : Prop := ∀ t, l.count t ≤ 2

/-- The steps that the histogram with stride `s` counts in a run of `n` steps, if the trajectories have the write stride `W`
and are written to files or not: the steps of the complete blocks, and at the end of the run the last block again or the
incomplete block. -/
def countedSteps (file : Bool) (s W n : ℕ) : List ℕ :=
  if file then sampledSteps s 0 (n / W * W) ++ if W ∣ n then sampledSteps s (n - W) n else []
  else (List.range (n / W)).flatMap (fun b => relativeSteps s (b * W) ((b + 1) * W)) ++
    if W ∣ n then relativeSteps s (n - W) n else relativeSteps s (n / W * W) n

end Bdld.Spec
