import Verif.Props.ReportText
import Verif.Props.MainSimulationDemo

/-
C147 for a concrete run.
-/

namespace Bdld

open Spec

/-- The report of the example of C93: one of two attempts was successful, there was no death. -/
theorem demo_report (sh : Shows) (hsh : sh.digits4 = digits4Text) :
    ["After 1 time steps:", "Birth events: 1/2 (50.0%)", "Death events: 0/0 (nan%)",
      "Ratio birth/death: nan (succesful) / nan (attemps)", ""] <:+:
        (mainP sh (demoWorld false) (some (demoFile "1"))).out := by
  obtain ⟨a, h1, _, z, h2, h3⟩ := demo_bd_log
  obtain ⟨s, s0, hr, _⟩ := demo_bd_run
  have hfin := hr.finished
  rw [h1] at hfin
  cases hfin
  obtain ⟨z', g1, -, g3⟩ := main_records hr demoBdOps_lawful (demoBdOpts 1) rfl
  rw [h2] at g1
  cases g1
  have hsteps : reportSteps (demoBdOpts 1) 1 = [1] := rfl
  rw [h3, hsteps] at g3
  have hc : hr.counters 1 = ⟨1, 2, 0, 0⟩ := by
    injection g3 with g3
    injection g3 with _ g3
    exact g3.symm
  have hl := finished_output sh hr demoBdOps_lawful
  rw [hl]
  have key : finalLines sh 1 hr.counters (demoBdOpts 1) = ["After 1 time steps:", "Birth events: 1/2 (50.0%)",
      "Death events: 0/0 (nan%)", "Ratio birth/death: nan (succesful) / nan (attemps)", ""] := by
    rw [finalLines, if_pos (show natOption (demoBdOpts 1) "stats-stride" 0 = 0 from rfl), hc, statsLines,
      if_pos (show strOption (demoBdOpts 1) "stats-filename" = "" from rfl), hsh]
    decide +kernel
  rw [← key]
  exact ⟨_, ["Finished without errors"], rfl⟩

end Bdld
