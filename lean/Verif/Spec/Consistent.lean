import Verif.Spec.Options
import Verif.Spec.OutputSettings
import Verif.Spec.InputParser

/-
One-dimensional input without contradictions: conditions on the options, independent of how the program is set up.
-/

namespace Bdld.Spec

/-- The seed is not given or not negative. -/
def GoodSeed (o : Dict (OptVal ℝ)) : Prop := ∀ i, o.get? "seed" = some (.base (.int i)) → 0 ≤ i

/-- The positions `pos1`, `pos2`, … -/
def Starts (o : Dict (OptVal ℝ)) (choices : List (List ℝ)) : Prop :=
  Numbered o.get? "pos" "" (choices.map (fun p => .list (p.map .float)))

/-- Initial positions in one dimension: random, or given positions with one coordinate each, and as many non-negative fractions. -/
def GoodStart (o : Dict (OptVal ℝ)) : Prop :=
  o.get? "initial-distribution" = some (.base (.str "random-global")) ∨
  ∃ choices, Starts o choices ∧ (∀ p ∈ choices, p.length = 1) ∧
    (o.get? "initial-distribution" = some (.base (.str "random-pos")) ∧ choices ≠ [] ∨
     o.get? "initial-distribution" = some (.base (.str "fractions-pos")) ∧
      ∀ fractions : List ℝ, o.get? "fractions" = some (.list (fractions.map .float)) →
        (∀ x ∈ fractions, 0 ≤ x) ∧ 0 < fractions.sum ∧ choices.length = fractions.length)

/-- At least `k` states, each given by one minimum and one maximum. -/
def GoodStates (k : Nat) (o : Dict (OptVal ℝ)) : Prop :=
  ∃ mins maxs : List ℝ, Numbered o.get? "state" "-min" (mins.map (fun x => .list [.float x])) ∧
    Numbered o.get? "state" "-max" (maxs.map (fun x => .list [.float x])) ∧ k ≤ mins.length

/-- The minimum and maximum are in the given relation. -/
def GoodRange (rel : ℝ → ℝ → Prop) (o : Dict (OptVal ℝ)) : Prop :=
  ∀ lo hi, o.get? "min" = some (.base (.float lo)) → o.get? "max" = some (.base (.float hi)) → rel lo hi

/-- Input for a polynomial in one dimension without contradictions. -/
structure ConsistentLine (formats : List String) (terminal : Bool) (c : Input ℝ) : Prop where
  polynomial : c.potential.get? "type" = some (.base (.str "polynomial"))
  oneDim : c.potential.get? "n_dim" = some (.base (.int 1))
  coeffs : c.potential.get? "coeffs" ≠ some .none
  range : GoodRange (· < ·) c.potential
  ldSeed : GoodSeed c.ld
  particlesSeed : GoodSeed c.particles
  start : GoodStart c.particles
  bdSeed : ∀ o, c.birthDeath = some o → GoodSeed o
  bdWalkers : c.birthDeath.isSome → ∀ n, c.particles.get? "number" = some (.base (.int n)) → 2 ≤ n
  bdVariant : ∀ o, c.birthDeath = some o → KnownLabels o
  needsTrajectories : c.histogram.isSome → c.trajectories.isSome
  bins : ∀ o, c.histogram = some o → GoodRange (· ≤ ·) o
  output : ¬ BadOutput c
  plots : ∀ o, c.fes = some o → Plottable formats terminal o
  deltaF : ∀ o, c.deltaF = some o → GoodStates 2 o
  distribution : ∀ o, c.particleDistribution = some o → GoodStates 1 o

end Bdld.Spec
