import Verif.Model.Main

/-
Specifications for the whole program.
-/

namespace Bdld.Spec

noncomputable section

/-! ### Schedule -/

/-- Section of the input file that belongs to an action; the Langevin dynamics is always there. -/
def sectionOf : ActName → String
  | .ld => "ld"
  | .birthDeath => "birth-death"
  | .trajectories => "trajectories"
  | .histogram => "histogram"
  | .fes => "fes"
  | .deltaF => "delta-f"
  | .particleDistribution => "particle-distribution"

/-- The fixed order of the actions. -/
def allActions : List ActName :=
  [.ld, .birthDeath, .trajectories, .histogram, .fes, .deltaF, .particleDistribution]

/-- The actions for the sections of an input file, in the fixed order. -/
def fileActions (cfg : List Section) : List ActName :=
  allActions.filter (fun a => cfg.any (fun s => decide (s.name = sectionOf a)))

/-- All actions of steps `1 … n` in order, then all final actions. -/
def schedule (acts : List ActName) (n : Nat) : List Event :=
  (List.range n).flatMap (fun t => acts.map (fun a => .run a (t + 1))) ++ acts.map (fun a => .final a n)

/-! ### Dynamics -/

/-- State of the dynamics alone: particles, generators, and the birth-death statistics. -/
structure Dyn (d : Nat) (R : Type) where
  particles : List (LdParticle ℝ d)
  ldRng : R
  bd : Option (BdRunState R)

/-- One step of a simulation without analysis: Langevin dynamics, then birth-death if requested. -/
def dynStep {d : Nat} {R : Type} (w : World R) (kind : LdKind) (ld : LdCfg ℝ d) (b : Option (BdAct d))
    (x : Dyn d R) (step : Nat) : Except PyErr (Dyn d R) := do
  let y ← LdState.run kind ld (w.normal d) ⟨x.particles, x.ldRng⟩
  match b, x.bd with
  | some b, some z => do
    let u ← bdRun b.cfg w.bdOps b.stride b.statsStride (⟨y.particles, z.rng, z.stats⟩, z.log) step
    return ⟨u.1.particles, y.rng, some ⟨u.1.rng, u.1.stats, u.2⟩⟩
  | _, _ => return ⟨y.particles, y.rng, x.bd⟩

/-- Steps `1 … n`. -/
def dynSteps {d : Nat} {R : Type} (w : World R) (kind : LdKind) (ld : LdCfg ℝ d) (b : Option (BdAct d)) :
    Nat → Dyn d R → Except PyErr (Dyn d R)
  | 0, x => .ok x
  | n + 1, x => do dynStep w kind ld b (← dynSteps w kind ld b n x) (n + 1)

/-- The walkers after step `t` of a simulation without analysis (those of the beginning if this step is never
reached because of an exception). -/
def walkersAt {d : Nat} {R : Type} (w : World R) (kind : LdKind) (ld : LdCfg ℝ d) (b : Option (BdAct d))
    (x : Dyn d R) (t : Nat) : List (LdParticle ℝ d) :=
  match dynSteps w kind ld b t x with
  | .ok y => y.particles
  | .error _ => x.particles

/-- At the end the statistics are reported, if this was not done during the simulation. -/
def dynFinal {d : Nat} {R : Type} (b : Option (BdAct d)) (x : Dyn d R) (step : Nat) : Dyn d R :=
  match b, x.bd with
  | some b, some z =>
    { x with bd := some { z with log := if truthyNat b.statsStride then z.log else z.log ++ [(step, z.stats)] } }
  | _, _ => x

/-- Input files with the same sections for the dynamics. -/
def SameDynamics (cfg cfg' : List Section) : Prop :=
  ∀ name ∈ ["ld", "potential", "particles", "birth-death"], findSection cfg name = findSection cfg' name

/-- The same world except for the contents of uninitialised arrays. -/
def SameButMemory {R : Type} (w w' : World R) : Prop := ∃ t p m f c, w' =
  { w with emptyTimes := t, emptyPositions := p, emptyMomentum := m, emptyDeltaF := f, emptyCounts := c }

/-- The result of the dynamics with the dimension. -/
structure AnyDyn (R : Type) where
  d : Nat
  dyn : Dyn d R

end

end Bdld.Spec
