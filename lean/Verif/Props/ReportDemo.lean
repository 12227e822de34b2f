import Verif.Props.Report
import Verif.Props.MainSimulationDemo

/-
C99 for a concrete run.
-/

namespace Bdld

open Spec

/-- Report of the example of C93 (two walkers with rate 0, one duplication): 1 of 2 attempts, no deaths. -/
example : ∃ a : AnySim Bool, mainProgram (demoWorld false) (some (demoFile "1")) = .finished a ∧
    ∃ z, a.sim.bd = some z ∧ statsOutput none z.log = [.report 1 ⟨1, 2, 0, 0⟩ (some 50) none none none] ∧
      statsOutput (some "stats") z.log = [.line [1, 1, 2, 0, 0]] := by
  obtain ⟨a, h1, _, z, h2, h3⟩ := demo_bd_log
  refine ⟨a, h1, z, h2, ?_, ?_⟩
  · rw [h3]
    simp [statsOutput, BdStats.print, quotientOrNan]
    norm_num
  · rw [h3]
    simp [statsOutput, BdStats.print, statsRow]

/-- The hypotheses of `main_counters` are met by this run. -/
example : ∃ (s : Sim 1 Bool) (s0 : Sim 1 Bool) (_ : FinishedRun (demoWorld false) (some (demoFile "1"))
      ⟨1, { kind := .overdamped, ld := demoLdCfg, bd := some demoBdAct }, s⟩ demoBdInput 1 s0),
    (demoWorld false).bdOps.Lawful ∧ demoBdInput.birthDeath = some (demoBdOpts 1) := by
  obtain ⟨s, s0, hr, _⟩ := demo_bd_run
  exact ⟨s, s0, hr, demoBdOps_lawful, rfl⟩

end Bdld
