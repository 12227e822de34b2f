import Verif.Model.Langevin
import Verif.Model.BirthDeath

/-
Langevin dynamics and birth-death for any kind of numbers, with the events of all steps.
-/

namespace Bdld.Spec

/-- Walkers, generators and counters. -/
structure Walkers (F : Type) (d : Nat) (R : Type) where
  particles : List (LdParticle F d)
  ldRng : R
  bdRng : R
  stats : BdStats

section
variable {F U B R : Type} {d : Nat} [Add F] [Sub F] [Mul F] [Div F] [Neg F] [LT F] [DecidableLT F]

/-- One step: Langevin dynamics, and birth-death in multiples of the stride. Returns the events. -/
def walkersStep (kind : LdKind) (ld : LdCfg F d) (normal : NormalOps R F d) (bd : BdCfg (LdParticle F d) B U) (ops : RngOps R U)
    (stride : Nat) (x : Walkers F d R) (step : Nat) : Except PyErr (List (Nat × Nat) × Walkers F d R) := do
  let y ← LdState.run kind ld normal ⟨x.particles, x.ldRng⟩
  if stride ∣ step then
    let z ← doBirthDeath bd ops ⟨y.particles, x.bdRng, x.stats⟩
    return (z.1, ⟨z.2.particles, y.rng, z.2.rng, z.2.stats⟩)
  else return ([], ⟨y.particles, y.rng, x.bdRng, x.stats⟩)

/-- Steps `1 … n` with the events of every step. -/
def walkersRun (kind : LdKind) (ld : LdCfg F d) (normal : NormalOps R F d) (bd : BdCfg (LdParticle F d) B U) (ops : RngOps R U)
    (stride : Nat) : Nat → Walkers F d R → Except PyErr (List (List (Nat × Nat)) × Walkers F d R)
  | 0, x => .ok ([], x)
  | n + 1, x => do
    let y ← walkersRun kind ld normal bd ops stride n x
    let z ← walkersStep kind ld normal bd ops stride y.2 (n + 1)
    return (y.1 ++ [z.1], z.2)

end

end Bdld.Spec
