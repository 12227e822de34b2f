import Verif.Props.DiskNames
import Verif.Props.LongerRunDemo

/-
C151 for the example of the repository, and for an input in which two actions write to the same file.
-/

namespace Bdld

open Spec

noncomputable section

variable {R : Type}

theorem example_baseNames : baseNames exampleInput = ["traj".toList, "delta_f".toList, "histo".toList, "fes".toList] := rfl

theorem example_plotBase : plotBase exampleInput = some "fes.png".toList := rfl

theorem example_clear : ClearNames exampleInput where
  distinct := by
    rw [example_baseNames]
    decide
  plot := by
    rw [example_baseNames, example_plotBase]
    intro u hu
    cases hu
    decide

/-- The example of the repository: the files on disk, whatever was there before. -/
theorem example_disk (w : World R) (hconv : w.conv = realConv) (hops : w.bdOps.Lawful) (hinit : w.init.Lawful)
    (hlin : LinearGriddata w) (hpng : saveable w.figFormats "fes.png" = true) (fs : FileSys DiskLine) :
    ∃ (a : AnySim R) (s0 : Sim a.d R) (hr : FinishedRun w (some exampleFile) a exampleInput 10000 s0) (fs' : FileSys DiskLine),
      execOps fs hr.ops = some fs' ∧
      (∀ i : Nat, i < 10 → ∃ rows, fs'.get ("traj".toList ++ '.' :: Nat.toDigits 10 i) = some (.header (.walker i) :: rows) ∧ rows.length = 2000) ∧
      (∃ h, a.sim.hist = some h ∧ fs'.get "histo".toList = some [.histogram h]) ∧
      (∃ f, fs'.get "fes".toList = some [.fes f]) ∧ ∃ f, fs'.get "fes_500".toList = some [.fes f] := by
  have hp : parseAll 1 w.conv (some exampleFile) = .ok exampleInput := by rw [hconv]; exact example_parse
  obtain ⟨a, ha⟩ := line_progress w (some exampleFile) exampleInput hp (example_consistent hpng w.terminal) hops hinit hlin
    (fun o ho => .inl (by cases ho; rfl))
  obtain ⟨config, n, s0, hr⟩ := main_run w _ a ha
  have e := hr.parse
  rw [hp] at e
  cases e
  obtain rfl : n = 10000 := by
    have := hr.steps
    cases this
    rfl
  obtain ⟨hd, _⟩ := (main_potential hr).oneDim rfl rfl
  have hlen : s0.particles.length = 10 := by
    obtain ⟨mass, number, m1, m2, m3, -⟩ := main_initial hr
    cases m2
    rw [(m3 rfl).2.2]
    simp
  obtain ⟨_, fs', h1, _, h2⟩ := main_disk_partial hr fs
  obtain ⟨k1, k2, k3, _⟩ := h2 (clear_names hr example_clear)
  have hfiles : hr.files = ((List.range 10).map (fun i => (walkerFile "traj".toList i, OutFile.walker i))) ++
      [("delta_f".toList, OutFile.deltaF)] := by
    unfold FinishedRun.files
    rw [hlen]
    rfl
  refine ⟨a, s0, hr, fs', h1, ?_, ?_, ?_, ?_⟩
  · intro i hi
    have hm : (walkerFile "traj".toList i, OutFile.walker i) ∈ hr.files := by
      rw [hfiles]
      exact List.mem_append_left _ (List.mem_map.2 ⟨i, List.mem_range.2 hi, rfl⟩)
    refine ⟨_, k1 _ hm, ?_⟩
    have hf : hasFilename exampleTrajOpts = true := rfl
    obtain ⟨x, e1, e2⟩ := main_trajectories hr hops exampleTrajOpts rfl
    rw [if_pos hf] at e2
    have hs : natOption exampleTrajOpts "stride" 1 = 5 := rfl
    simp only [Sim.fileRows, e1, e2, Option.getD_some, List.length_map, List.getD_eq_getElem?_getD, List.getElem?_map]
    rw [hlen, List.getElem?_range hi, hs]
    simp only [Option.map_some, Option.getD_some, List.length_map]
    rw [show 10000 = 2000 * 5 by norm_num, sampledSteps_multiples 5 (by norm_num)]
    simp
  · obtain ⟨_, _, h, y, _, e1, e2, _⟩ := main_histogram_files hr exampleTrajOpts exampleHistOpts rfl rfl
    refine ⟨h, e1, k2 (.inl hd) ("histo", h) ?_⟩
    rw [e2, gridFiles, if_pos (show hasFilename exampleHistOpts = true from rfl)]
    exact List.mem_append_right _ (List.mem_singleton.2 rfl)
  · obtain ⟨h, _, e2⟩ := main_fes_files hr exampleFesOpts rfl
    obtain ⟨v, hv⟩ : ∃ v, ("fes", v) ∈ a.sim.fesWrites := by
      rw [e2, gridFiles, if_pos (show hasFilename exampleFesOpts = true from rfl)]
      exact ⟨_, List.mem_append_right _ (List.mem_singleton.2 rfl)⟩
    exact ⟨v, k3 (.inl hd) ("fes", v) hv⟩
  · obtain ⟨h, _, e2⟩ := main_fes_files hr exampleFesOpts rfl
    obtain ⟨v, hv⟩ : ∃ v, ("fes_500", v) ∈ a.sim.fesWrites := by
      rw [e2, gridFiles, if_pos (show hasFilename exampleFesOpts = true from rfl)]
      refine ⟨_, List.mem_append_left _ (List.mem_map.2 ⟨500, ?_, rfl⟩)⟩
      rw [mem_sampledSteps]
      exact ⟨by norm_num, by norm_num, ⟨1, rfl⟩⟩
    exact ⟨v, k3 (.inl hd) ("fes_500", v) hv⟩

/-! ### Two actions with the same file -/

def sharedSec : Section := demoSection "particle-distribution"
  [("stride", "5"), ("state1-min", "-2.5"), ("state1-max", "0.0"), ("state2-min", "0.0"), ("state2-max", "2.5"),
    ("filename", "traj.0")]

/-- The distribution is written to the file of the first walker. -/
def sharedFile : List Section := [distLd "5", distPot, distPart, exampleTraj, sharedSec]

def sharedOpts : Dict (OptVal ℝ) :=
  [("stride", .base (.int 5)), ("filename", .base (.str "traj.0")), ("write-stride", .none), ("fmt", .none),
   ("state1-min", .list [.float (-5 / 2)]), ("state1-max", .list [.float 0]),
   ("state2-min", .list [.float 0]), ("state2-max", .list [.float (5 / 2)])]

def sharedInput : Input ℝ :=
  { distInput 5 with trajectories := some exampleTrajOpts, particleDistribution := some sharedOpts }

theorem shared_options : stateActionOptions sharedSec = .ok exampleStateOptions := rfl

set_option linter.unusedSimpArgs false in
theorem shared_parse : parseAll 1 realConv (some sharedFile) = .ok sharedInput := by
  have f1 : findSection sharedFile "ld" = some (distLd "5") := rfl
  have f2 : findSection sharedFile "potential" = some distPot := rfl
  have f3 : findSection sharedFile "particles" = some distPart := rfl
  have f4 : findSection sharedFile "birth-death" = none := rfl
  have f5 : findSection sharedFile "trajectories" = some exampleTraj := rfl
  have f6 : findSection sharedFile "histogram" = none := rfl
  have f7 : findSection sharedFile "fes" = none := rfl
  have f8 : findSection sharedFile "delta-f" = none := rfl
  have f9 : findSection sharedFile "particle-distribution" = some sharedSec := rfl
  have f0 : isOneDim examplePotOpts = true := rfl
  have h1 : parseLd realConv (distLd "5") = .ok (distInput 5).ld := by
    simp [distLd, distInput, demoSection, parseLd, InputOption.parse, opt, Dict.get?, List.lookup,
      InputOption.convert, ldOptions, parseSection, parseLoop, Dict.set, tf1, tf2, tf3, ti6, positive, positiveOrZero,
      gtZero, cmpNum, ok_bind, pure_eq_ok, callType, orValueError]
  have h2 : parsePotential realConv distPot = .ok examplePotOpts := by
    simp [distPot, examplePotOpts, demoSection, parsePotential, potentialOptions, polyOptions, InputOption.parse, opt,
      optList, Dict.get?, List.lookup, InputOption.convert, parseSection, parseLoop, Dict.set, tf4, tf5, tf6, tf7, tf8, tf9,
      tf10, ti3, sp1, positive, atMost3dim, atMost3dimInt, pyAnd, gtZero, cmpNum, ok_bind, pure_eq_ok, callType, orValueError]
  have h3 : parseParticles 1 realConv distPart = .ok (distInput 5).particles := by
    simp [distPart, distInput, demoSection, parseParticles, particlesOptions, InputOption.parse, opt, initialDistributions,
      oneOf, Dict.get?, List.lookup, InputOption.convert, parseSection, parseLoop, Dict.set, tf1, ti4, positive, gtZero,
      cmpNum, ok_bind, pure_eq_ok, callType, orValueError]
  have h4 : parseSection realConv sharedSec exampleStateOptions = .ok sharedOpts := by
    simp [sharedSec, sharedOpts, demoSection, exampleStateOptions, InputOption.parse, opt, Dict.get?, List.lookup,
      InputOption.convert, parseSection, parseLoop, Dict.set, tf4, tf5, tf13, sp3, sp4, sp5, ti6, positive, gtZero, cmpNum,
      ok_bind, pure_eq_ok, callType, orValueError, Except.map]
  simp [parseAll, requireSection, parseOptional, f1, f2, f3, f4, f5, f6, f7, f8, f9, f0, ok_bind, pure_eq_ok, h1, h2, h3,
    shared_options, h4, example_parseTraj]
  rfl

theorem shared_consistent (formats : List String) (terminal : Bool) : ConsistentLine formats terminal sharedInput :=
  { dist_consistent formats terminal 5 with
    needsTrajectories := fun _ => rfl
    output := by
      rintro (⟨o, ho, h⟩ | ⟨o, ho, h⟩ | ⟨o, ho, h⟩ | ⟨o, ho, h⟩)
      · cases ho
      · cases ho
      · cases ho
      · cases ho
        exact absurd h.2.1 (by simp [natOption, sharedOpts, Dict.get?, List.lookup])
    distribution := by
      intro o ho
      cases ho
      refine ⟨[-5 / 2, 0], [0, 5 / 2], ⟨?_, rfl⟩, ⟨?_, rfl⟩, by simp⟩
      all_goals
        intro i hi
        match i, hi with
        | 0, _ => rfl
        | 1, _ => rfl }

/-- C151 is false without the condition on the names: the program accepts an input in which the distribution has the
name of the file of the first walker. The file has the header of the distribution, and below it a row of the
trajectory (time and position) and one of the distribution (step and two numbers of walkers). -/
theorem main_disk_false (w : World R) (hconv : w.conv = realConv) (hops : w.bdOps.Lawful) (hinit : w.init.Lawful)
    (hlin : LinearGriddata w) (fs : FileSys DiskLine) :
    ∃ (a : AnySim R) (s0 : Sim a.d R) (hr : FinishedRun w (some sharedFile) a sharedInput 5 s0) (fs' : FileSys DiskLine),
      execOps fs hr.ops = some fs' ∧ ("traj.0".toList, OutFile.walker 0) ∈ hr.files ∧
      (a.sim.fileRows (.walker 0)).length = 1 ∧ (a.sim.fileRows .distribution).length = 1 ∧
      ∃ rows, fs'.get "traj.0".toList = some (.header .distribution :: rows) ∧
        rows.Perm (a.sim.fileRows (.walker 0) ++ a.sim.fileRows .distribution) := by
  have hp : parseAll 1 w.conv (some sharedFile) = .ok sharedInput := by rw [hconv]; exact shared_parse
  obtain ⟨a, ha⟩ := line_progress w _ _ hp (shared_consistent _ _) hops hinit hlin (fun o ho => by cases ho)
  obtain ⟨config, n, s0, hr⟩ := main_run w _ a ha
  have e := hr.parse
  rw [hp] at e
  cases e
  obtain rfl : n = 5 := by
    have := hr.steps
    cases this
    rfl
  obtain ⟨hd, _⟩ := (main_potential hr).oneDim rfl rfl
  have hlen : s0.particles.length = 10 := by
    obtain ⟨mass, number, m1, m2, m3, -⟩ := main_initial hr
    cases m2
    rw [(m3 rfl).2.2]
    simp
  obtain ⟨_, fs', h1, _⟩ := main_disk_partial hr fs
  have hfiles : hr.files = ((List.range 10).map (fun i => (walkerFile "traj".toList i, OutFile.walker i))) ++
      [("traj.0".toList, OutFile.distribution)] := by
    unfold FinishedRun.files
    rw [hlen]
    rfl
  have hnone : (gridOps a.sim).map Spec.FileOp.target = [] := by
    obtain ⟨_, _, _, _, _, _, _, h3, h4, _⟩ := setupOptional_parts w sharedInput _ _ _ _ rfl rfl hr.optional
    have e1 := simulate_noHist w a.cfg h3.1 5 s0 a.sim hr.sim hr.setup.histWrites
    have e2 := simulate_noFes w a.cfg h4.1 5 s0 a.sim hr.sim ⟨hr.setup.fesWrites, hr.setup.plots⟩
    rw [gridOps, e1, e2.1, e2.2]
    rfl
  refine ⟨a, s0, hr, fs', h1, ?_, ?_, ?_, ?_⟩
  · rw [hfiles]
    exact List.mem_append_left _ (List.mem_map.2 ⟨0, by simp, rfl⟩)
  · obtain ⟨x, e1, e2⟩ := main_trajectories hr hops exampleTrajOpts rfl
    rw [if_pos (show hasFilename exampleTrajOpts = true from rfl), hlen] at e2
    have hs : sampledSteps (natOption exampleTrajOpts "stride" 1) 0 5 = [5] := rfl
    simp only [Sim.fileRows, e1, e2, hs]
    rfl
  · obtain ⟨x, h1, h2⟩ := main_distribution hr hops sharedOpts rfl [[(-5 / 2, 0)], [(0, 5 / 2)]] (by rfl)
      (by rw [show a.d = 1 from hd]; simp) (by omega)
    have h3 : seriesFile sharedOpts 5 (fun t : Nat => (t : ℝ) :: walkersIn [[(-5 / 2, 0)], [(0, 5 / 2)]] (hr.path t))
        (((5 : Nat) : ℝ) :: walkersIn [[(-5 / 2, 0)], [(0, 5 / 2)]] (hr.path 5)) w.emptyCounts =
        (sampledSteps 5 0 5).map (fun t : Nat => (t : ℝ) :: walkersIn [[(-5 / 2, 0)], [(0, 5 / 2)]] (hr.path t)) := by
      have e1 : seriesStride sharedOpts = 5 := rfl
      have e2 : seriesWriteStride sharedOpts = 500 := rfl
      have e4 : emptyLastWrite sharedOpts 5 ↔ 0 < 5 % 500 ∧ 5 % 500 < 5 := Iff.rfl
      unfold seriesFile
      rw [if_pos (show hasFilename sharedOpts = true from rfl), e1, e2, if_neg (show ¬ (5 = 0) by norm_num),
        if_neg (mt e4.1 (by omega)), List.append_nil]
    simp only [Sim.fileRows, h1, h2, h3, List.length_map]
    rfl
  · obtain ⟨rows, e1, e2⟩ := disk_shared hr fs fs' h1 _ [] _ hfiles (by simp) (by rw [hnone]; simp)
    refine ⟨rows, e1, e2.trans (List.Perm.of_eq ?_)⟩
    rw [hfiles]
    have hfil : ((((List.range 10).map (fun i => (walkerFile "traj".toList i, OutFile.walker i))) ++
      [("traj.0".toList, OutFile.distribution)]).filter (fun g => decide (g.1 = "traj.0".toList))) =
      [("traj.0".toList, OutFile.walker 0), ("traj.0".toList, OutFile.distribution)] := by decide +kernel
    rw [hfil]
    simp

end

end Bdld
