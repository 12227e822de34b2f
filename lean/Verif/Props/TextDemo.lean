import Verif.Props.TextRun
import Verif.Props.MainOutput
import Verif.Props.MainSimulationDemo

/-
C113, C114, C115: concrete numbers and files.
-/

namespace Bdld
open Spec

/-! ### Numbers -/

example : fmtFixed 14 9 ((1 / 3 : ℚ) : WithTop ℚ) = "   0.333333333".toList := by decide +kernel

/-- Ties go to the even digit. -/
example : fmtFixed 8 2 ((-5 / 8 : ℚ) : WithTop ℚ) = "   -0.62".toList := by decide +kernel

/-- Numbers that need more room than the width get it. -/
example : fmtFixed 3 2 ((1234567 / 8 : ℚ) : WithTop ℚ) = "154320.88".toList := by decide +kernel

example : fmtFixed 14 9 (⊤ : WithTop ℚ) = "           inf".toList := by decide +kernel

/-- A table and what is read: -1.25 has become -1.2. -/
example : savetxt 5 1 [[((1 / 2 : ℚ) : WithTop ℚ), ⊤], [((-5 / 4 : ℚ) : WithTop ℚ), ((3 : ℚ) : WithTop ℚ)]] =
      "  0.5   inf\n -1.2   3.0\n".toList ∧
    readTable "#! FIELDS x fes\n  0.5   inf\n\n -1.2   3.0\n".toList =
      some [[((1 / 2 : ℚ) : WithTop ℚ), ⊤], [((-6 / 5 : ℚ) : WithTop ℚ), ((3 : ℚ) : WithTop ℚ)]] := by decide +kernel

/-- Something that is not a number is noticed. -/
example : readTable "1.0 x\n".toList = none ∧ readTable "1. 2\n".toList = none := by decide +kernel

/-! ### Files of a run -/

theorem fmtFixed_nat (w p n : Nat) : fmtFixed w p ((n : ℝ) : WithTop ℝ) = padLeft w (fixedPoint p (n * 10 ^ p)) := by
  have h : ¬ ((n : ℝ) < 0) := not_lt.2 (by positivity)
  show padLeft w (fixedSigned p (n : ℝ)) = _
  rw [fixedSigned, if_neg h, show (n : ℝ) * 10 ^ p = ((n * 10 ^ p : Nat) : ℝ) by push_cast; rfl, roundEven_natCast]

/-- Text of the file of the particle distribution in the example of C84. -/
example : ∃ a x, mainProgram (demoWorld true) (some (demoFileOut "1")) = .finished a ∧ a.sim.dist = some x ∧
    seriesText 14 9 (distFields 2) [("state_0", "[(0.0, 1.0)]"), ("state_1", "[(1.0, 2.0)]")] x.file =
      ("#! FIELDS n_particles_0 n_particles_1\n#! SET state_0 [(0.0, 1.0)]\n#! SET state_1 [(1.0, 2.0)]\n" ++
        "   1.000000000    1.000000000    2.000000000\n").toList := by
  obtain ⟨c, s, s0, h⟩ := demo_results1
  obtain ⟨x, h1, h2⟩ := main_distribution_partial h.run demoBdOps_lawful (demoStateOutOpts 1 "p") rfl _
    (demo_statesOut 1 "p") (by simp) (by rw [h.walkers]; exact Nat.succ_pos _) (by decide)
  refine ⟨_, x, h.run.finished, h1, ?_⟩
  have h3 : hasFilename (demoStateOutOpts 1 "p") = true := rfl
  have h4 : seriesStride (demoStateOutOpts 1 "p") = 1 := rfl
  have h5 : sampledSteps 1 0 1 = [1] := rfl
  have hx : x.file = [[((1 : Nat) : ℝ), ((1 : Nat) : ℝ), ((2 : Nat) : ℝ)]] := by
    rw [h2, seriesExact, h3, if_pos rfl, h4, if_neg one_ne_zero, h5]
    simp [h.path, walkersIn, InState, demoWalker, newParticle, List.countP_cons]
    norm_num
  rw [hx]
  simp only [seriesText, savetxt, savetxtRow, finiteRow, List.map_cons, List.map_nil, List.flatMap_cons, List.flatMap_nil]
  rw [show (WithTop.some ((1 : Nat) : ℝ)) = (((1 : Nat) : ℝ) : WithTop ℝ) from rfl,
    show (WithTop.some ((2 : Nat) : ℝ)) = (((2 : Nat) : ℝ) : WithTop ℝ) from rfl, fmtFixed_nat, fmtFixed_nat]
  decide +kernel

/-- The hypotheses of `distribution_text_partial`, `deltaF_text_partial` and `trajectory_text` are met by this run. -/
example : ∃ a config n s0, ∃ _ : FinishedRun (demoWorld true) (some (demoFileOut "1")) a config n s0,
    (∃ fs x files, potFields a.d = .ok fs ∧ a.sim.traj = some x ∧ x.files = some files ∧ files.length = 2 ∧
      ∀ i rows, files[i]? = some rows → ∃ table, readTable (trajText 14 9 fs false i rows) = some table) ∧
    (∃ x, a.sim.dist = some x ∧ readTable (seriesText 14 9 (distFields 2) [] x.file) =
      some [[((1 : ℚ) : WithTop ℚ), ((1 : ℚ) : WithTop ℚ), ((2 : ℚ) : WithTop ℚ)]]) := by
  obtain ⟨c, s, s0, h⟩ := demo_results1
  refine ⟨_, _, _, _, h.run, ?_, ?_⟩
  · obtain ⟨fs, x, files, h1, h2, h3, h4, h5⟩ := trajectory_text h.run demoBdOps_lawful demoTrajOutOpts rfl rfl 14 9
    refine ⟨fs, x, files, h1, h2, h3, by rw [h4, h.walkers]; rfl, fun i rows hi => ?_⟩
    obtain ⟨table, t, _⟩ := h5 i rows hi
    exact ⟨table, t⟩
  · obtain ⟨x, h1, h2⟩ := distribution_text_partial h.run demoBdOps_lawful (demoStateOutOpts 1 "p") rfl rfl _
      (demo_statesOut 1 "p") (by simp) (by rw [h.walkers]; exact Nat.succ_pos _) (by decide) [] (by simp) 14 9
    refine ⟨x, h1, h2.trans ?_⟩
    have h5 : seriesSteps (demoStateOutOpts 1 "p") 1 = [1] := rfl
    rw [h5]
    simp [h.path, InState, demoWalker, newParticle, List.countP_cons]
    norm_num

/-- Text of the statistics file in the example of C99. -/
example : ∃ a : AnySim Bool, mainProgram (demoWorld false) (some (demoFile "1")) = .finished a ∧
    ∃ z, a.sim.bd = some z ∧ statsText [("timestep", "0.0")] (statsOutput (some "stats") z.log) =
      ("#! FIELDS timestep dup_succ dup_attempts kill_succ kill_attempts\n#! SET timestep 0.0\n" ++ "1 1 2 0 0\n").toList := by
  obtain ⟨a, h1, _, z, h2, h3⟩ := demo_bd_log
  refine ⟨a, h1, z, h2, ?_⟩
  have h4 : statsOutput (some "stats") z.log = [.line [1, 1, 2, 0, 0]] := by
    rw [h3]
    simp [statsOutput, BdStats.print, statsRow]
  rw [h4]
  decide +kernel

/-! ### Times -/

/-- With the default format and the usual time step 0.005 the condition of `trajectory_times_partial` holds. -/
example : (1 : ℝ) < ((1 : Nat) : ℝ) * (5 / 1000) * 10 ^ 9 := by norm_num

example : printedTime 9 (5 / 1000) 3 = 15 / 1000 := by
  have : ((3 : Nat) : ℝ) * (5 / 1000) * 10 ^ 9 = ((15000000 : Nat) : ℝ) := by norm_num
  rw [printedTime, this, roundEven_natCast]
  norm_num

end Bdld
