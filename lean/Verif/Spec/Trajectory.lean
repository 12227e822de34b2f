import Verif.Model.Trajectory
import Verif.Spec.Schedule

/-
Vocabulary for the statements about trajectories: executing a schedule, and the expected rows.
-/

namespace Bdld
open Spec

/-- Execution of a schedule by the model: `tick` is `TrajectoryAction.run(step + 1)` with the particles
being in the state `hist (step + 1)`, `write` is `TrajectoryAction.write(step)` (as done by `final_run`). -/
def trajExec {F : Type _} (c : TrajCfg F) (hist : Nat → Snapshot F) :
    List Event → Nat → TrajState F → Except PyErr (TrajState F)
  | [], _, s => .ok s
  | .tick :: es, now, s => do
    let s' ← s.run c (now + 1) (hist (now + 1))
    trajExec c hist es (now + 1) s'
  | .write :: es, now, s => do
    let s' ← s.write c now
    trajExec c hist es now s'

/-- Specification of a row of the file of particle `i`: time, position and (if requested) momentum of
that particle at step `t`. -/
def trajRow {F : Type _} (timeOf : Nat → F) (hist : Nat → Snapshot F) (withMom : Bool) (i t : Nat) :
    List F :=
  timeOf t :: ((hist t).pos.getD i [] ++ if withMom then (hist t).mom.getD i [] else [])

/-- The histories considered: at every step there are as many particles as at the beginning. -/
def GoodHist {F : Type _} (c : TrajCfg F) (hist : Nat → Snapshot F) : Prop :=
  ∀ t, (hist t).pos.length = c.nParticles ∧ (hist t).mom.length = c.nParticles

end Bdld
