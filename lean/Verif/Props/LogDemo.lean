import Verif.Props.LogRun
import Verif.Props.Dependencies
import Verif.Props.ExampleInput

/-
C134, C135: examples.
-/

set_option linter.unusedSimpArgs false

namespace Bdld
open Spec

noncomputable section

theorem demoSection_plain (name : String) (l : List (String × String)) : PlainSection (demoSection name l) := by
  intro key e h
  unfold demoSection Dict.get? at h
  dsimp only at h
  induction l with
  | nil => cases h
  | cons x l ih =>
    rw [List.map_cons, List.lookup_cons] at h
    split at h
    · cases h
    · exact ih h

/-! ### Faults -/

/-- A required section is missing. -/
theorem demo_log_section (detail : String → String → String) :
    mainProgram (demoWorld true) (some [demoLd, demoPot]) = .exit1 ∧
    mainLog detail "in" (demoWorld true) (some [demoLd, demoPot]) =
      some [errorRecord "Input file 'in': No section 'particles' found, but it is required"] := by
  have hp : parseAll 1 (demoWorld true).conv (some [demoLd, demoPot]) = .error (.sectionError "particles") := by
    have hc : (demoWorld true).conv = demoConv := rfl
    have f1 : findSection [demoLd, demoPot] "ld" = some demoLd := rfl
    have f2 : findSection [demoLd, demoPot] "potential" = some demoPot := rfl
    have f3 : findSection [demoLd, demoPot] "particles" = none := rfl
    simp only [hc, parseAll, requireSection, f1, f2, f3, pure_eq_ok, ok_bind, error_bind, demo_parseLd, demo_parsePot]
  refine ⟨by simp only [mainProgram, hp, raise, caughtInput, if_true], ?_⟩
  simp only [mainLog, hp, caughtInput, if_true, inputMessage]
  congr 3

/-- The number of steps is zero. -/
def demoLd0 : Section := demoSection "ld" [("type", "overdamped"), ("timestep", "0"), ("n_steps", "0"), ("seed", "1")]

theorem demo_log_option (detail : String → String → String) :
    mainProgram (demoWorld true) (some [demoLd0, demoPot, demoPart]) = .exit1 ∧
    mainLog detail "in" (demoWorld true) (some [demoLd0, demoPot, demoPart]) =
      some [errorRecord ("Input file 'in': Option 'n_steps' in section [ld]: " ++ detail "n_steps" "ld")] := by
  have hl : parseLd demoConv demoLd0 = .error (.optionError "n_steps" "ld") := by
    simp [demoLd0, demoSection, parseLd, InputOption.parse, opt, optList, Dict.get?, List.lookup, InputOption.convert, ldOptions,
      parseSection, parseLoop, Dict.set, demoConv, positive, positiveOrZero, gtZero, cmpNum, ok_bind, error_bind, pure_eq_ok, pyAnd,
      callType, orValueError, oneOf]
  have hp : parseAll 1 (demoWorld true).conv (some [demoLd0, demoPot, demoPart]) = .error (.optionError "n_steps" "ld") := by
    have hc : (demoWorld true).conv = demoConv := rfl
    have f1 : findSection [demoLd0, demoPot, demoPart] "ld" = some demoLd0 := rfl
    have f2 : findSection [demoLd0, demoPot, demoPart] "potential" = some demoPot := rfl
    have f3 : findSection [demoLd0, demoPot, demoPart] "particles" = some demoPart := rfl
    simp only [hc, parseAll, requireSection, f1, f2, f3, pure_eq_ok, ok_bind, error_bind, hl]
  refine ⟨by simp only [mainProgram, hp, raise, caughtInput, if_true], ?_⟩
  simp only [mainLog, hp, caughtInput, if_true, inputMessage, optionText, ← String.append_assoc]
  congr 3

/-- A histogram without trajectories. -/
theorem demo_log_key (detail : String → String → String) :
    mainProgram (demoWorld true) (some [demoLd, demoPot, demoPart, demoHist]) = .exit1 ∧
    mainLog detail "in" (demoWorld true) (some [demoLd, demoPot, demoPart, demoHist]) =
      some [errorRecord "Error: An action was specified that requires the 'trajectories' section in inputbut it was not found"] := by
  have f1 : findSection [demoLd, demoPot, demoPart, demoHist] "ld" = some demoLd := rfl
  have f2 : findSection [demoLd, demoPot, demoPart, demoHist] "potential" = some demoPot := rfl
  have f3 : findSection [demoLd, demoPot, demoPart, demoHist] "particles" = some demoPart := rfl
  have f4 : findSection [demoLd, demoPot, demoPart, demoHist] "birth-death" = none := rfl
  have f5 : findSection [demoLd, demoPot, demoPart, demoHist] "trajectories" = none := rfl
  have f6 : findSection [demoLd, demoPot, demoPart, demoHist] "histogram" = some demoHist := rfl
  have f7 : findSection [demoLd, demoPot, demoPart, demoHist] "fes" = none := rfl
  have f8 : findSection [demoLd, demoPot, demoPart, demoHist] "delta-f" = none := rfl
  have f9 : findSection [demoLd, demoPot, demoPart, demoHist] "particle-distribution" = none := rfl
  have hp : parseAll 1 (demoWorld true).conv (some [demoLd, demoPot, demoPart, demoHist]) =
      .ok { ld := demoLdOpts, potential := demoPotOpts, particles := demoPartOpts, histogram := some demoHistOpts } := by
    have hc : (demoWorld true).conv = demoConv := rfl
    simp only [hc, parseAll, requireSection, parseOptional, f1, f2, f3, f4, f5, f6, f7, f8, f9, ok_bind, pure_eq_ok,
      demo_parseLd, demo_parsePot, demo_parsePart, demo_parseHist, demo_oneDim]
  have hr := demo_required true { ld := demoLdOpts, potential := demoPotOpts, particles := demoPartOpts, histogram := some demoHistOpts }
    rfl rfl rfl
  refine ⟨by simp only [mainProgram, mainFrom, hp, hr, setupOptional, requireAction, ok_bind, error_bind, pure_eq_ok, raise, caughtSetup, if_true], ?_⟩
  have e : setupMessage detail "in" (.keyError "trajectories") =
      "Error: An action was specified that requires the 'trajectories' section in inputbut it was not found" := by
    change "Error: An action was specified that requires the '" ++ "trajectories" ++ "' section in inputbut it was not found" = _
    decide +kernel
  simp only [mainLog, hp, hr, setupOptional, requireAction, ok_bind, error_bind, pure_eq_ok, caughtSetup, if_true, e]

/-- Non-vacuity of `faults_reported`. -/
example (detail : String → String → String) : ∃ e text, Cause (demoWorld true).conv [demoLd0, demoPot, demoPart] e ∧
    mainLog detail "in" (demoWorld true) (some [demoLd0, demoPot, demoPart]) = some [errorRecord text] ∧
      ∀ word ∈ namesIn "in" e, Mentions text word :=
  faults_reported detail "in" (demoWorld true) _
    (by
      intro s hs
      simp only [List.mem_cons, List.not_mem_nil, or_false] at hs
      rcases hs with rfl | rfl | rfl <;> exact demoSection_plain _ _)
    (demo_log_option detail).1

/-! ### Finished runs -/

def demoTrajLog : Section := demoSection "trajectories" [("write-stride", "2")]

def demoHistLog : Section := demoSection "histogram" [("min", "0"), ("max", "2"), ("bins", "2"), ("reset", "1")]

def demoFesLog : Section := demoSection "fes" [("kt", "1"), ("stride", "1")]

/-- A histogram that is updated in every second step and reset after the first one, and an FES in every step. -/
def demoFileLog : List Section := [demoLd, demoPot, demoPart, demoTrajLog, demoHistLog, demoFesLog]

def demoTrajLogOpts : Dict (OptVal ℝ) :=
  [("filename", .none), ("stride", .none), ("momentum", .none), ("write-stride", .base (.int 2)), ("fmt", .none)]

def demoHistLogOpts : Dict (OptVal ℝ) :=
  [("stride", .none), ("reset", .list [.int 1]), ("filename", .none), ("write-stride", .none), ("fmt", .none),
   ("min", .base (.float 0)), ("max", .base (.float 2)), ("bins", .base (.int 2))]

def demoFesLogOpts : Dict (OptVal ℝ) :=
  [("kt", .base (.float 1)), ("stride", .base (.int 1)), ("filename", .none), ("write-stride", .none), ("fmt", .none),
   ("plot-stride", .none), ("plot-filename", .none), ("plot-domain", .none), ("plot-title", .none)]

def demoInputLog : Input ℝ :=
  { ld := demoLdOpts, potential := demoPotOpts, particles := demoPartOpts, trajectories := some demoTrajLogOpts,
    histogram := some demoHistLogOpts, fes := some demoFesLogOpts }

local macro "parse_demo" : tactic => `(tactic| simp [demoTrajLog, demoHistLog, demoFesLog, demoSection, InputOption.parse, opt,
  optList, Dict.get?, List.lookup, InputOption.convert, parseSection, parseLoop, Dict.set, demoConv,
  positive, allPositive, allM, positiveOrZero, gtZero, cmpNum, ok_bind, pure_eq_ok, pyAnd,
  pySplit, splitComma, callType, orValueError, oneOf, trajectoriesOptions, histogramOptions, fesOptions])

theorem demo_parse_log : parseAll 1 demoConv (some demoFileLog) = .ok demoInputLog := by
  have g1 : parseSection demoConv demoTrajLog trajectoriesOptions = .ok demoTrajLogOpts := by unfold demoTrajLogOpts; parse_demo
  have g2 : parseSection demoConv demoHistLog (histogramOptions true) = .ok demoHistLogOpts := by unfold demoHistLogOpts; parse_demo
  have g3 : parseSection demoConv demoFesLog fesOptions = .ok demoFesLogOpts := by unfold demoFesLogOpts; parse_demo
  have f1 : findSection demoFileLog "ld" = some demoLd := rfl
  have f2 : findSection demoFileLog "potential" = some demoPot := rfl
  have f3 : findSection demoFileLog "particles" = some demoPart := rfl
  have f4 : findSection demoFileLog "birth-death" = none := rfl
  have f5 : findSection demoFileLog "trajectories" = some demoTrajLog := rfl
  have f6 : findSection demoFileLog "histogram" = some demoHistLog := rfl
  have f7 : findSection demoFileLog "fes" = some demoFesLog := rfl
  have f8 : findSection demoFileLog "delta-f" = none := rfl
  have f9 : findSection demoFileLog "particle-distribution" = none := rfl
  simp [parseAll, requireSection, parseOptional, f1, f2, f3, f4, f5, f6, f7, f8, f9, ok_bind, pure_eq_ok,
    demo_parseLd, demo_parsePot, demo_parsePart, demo_oneDim, g1, g2, g3, demoInputLog]

def demoWorldLog : World Bool := withLinear (demoWorld true)

theorem demo_consistent_log : ConsistentLine demoWorldLog.figFormats demoWorldLog.terminal demoInputLog where
  polynomial := rfl
  oneDim := rfl
  coeffs := by simp [demoInputLog, demoPotOpts, Dict.get?, List.lookup]
  range := by
    intro lo hi h1 h2
    cases h1
    cases h2
    norm_num
  ldSeed := by
    intro i h
    cases h
    decide
  particlesSeed := by
    intro i h
    cases h
    decide
  start := by
    refine .inr ⟨[[1], [2]], ⟨?_, rfl⟩, by simp, .inr ⟨rfl, ?_⟩⟩
    · intro i hi
      match i, hi with
      | 0, _ => rfl
      | 1, _ => rfl
    · intro fr h
      match fr, h with
      | [x, y], h =>
        simp [demoInputLog, demoPartOpts, Dict.get?, List.lookup] at h
        obtain ⟨rfl, rfl⟩ := h
        norm_num
      | [], h => cases h
      | [x], h => cases h
      | x :: y :: z :: l, h => cases h
  bdSeed := by intro o h; cases h
  bdWalkers := by intro h; cases h
  bdVariant := by intro o h; cases h
  needsTrajectories := fun _ => rfl
  bins := by
    intro o ho lo hi h1 h2
    cases ho
    cases h1
    cases h2
    norm_num
  output := by
    rintro (⟨o, ho, h⟩ | ⟨o, ho, h⟩ | ⟨o, ho, h⟩ | ⟨o, ho, h⟩)
    · cases ho
      exact absurd h.1 (by simp [natOption, demoHistLogOpts, Dict.get?, List.lookup])
    · cases ho
      rcases h with ⟨h, _⟩ | ⟨h, _⟩
      · simp [natOption, demoFesLogOpts, Dict.get?, List.lookup] at h
      · simp [intOption, demoFesLogOpts, Dict.get?, List.lookup] at h
    · cases ho
    · cases ho
  plots := by
    intro o ho
    cases ho
    exact .inl rfl
  deltaF := by intro o ho; cases ho
  distribution := by intro o ho; cases ho

/-- The run comes to its end with a warning and a reset. -/
theorem demo_log_run (detail : String → String → String) : ∃ a, mainProgram demoWorldLog (some demoFileLog) = .finished a ∧
    (∃ l, mainLog detail "in" demoWorldLog (some demoFileLog) = some l ∧ ∃ r ∈ l, r.level = levelWarning) ∧
    ∃ l, mainLog detail "in" demoWorldLog (some demoFileLog) = some l ∧
      (l.filter (fun r => decide (r.level = levelInfo))).map LogRecord.text = ["Reset of histogram at step 1"] := by
  obtain ⟨a, ha⟩ := line_progress demoWorldLog (some demoFileLog) demoInputLog demo_parse_log demo_consistent_log demoBdOps_lawful
    ⟨fun _ _ _ h => ⟨le_rfl, h⟩, fun _ _ h => h⟩ (withLinear_ok _) (by intro o ho; cases ho)
  refine ⟨a, ha, ?_, ?_⟩
  all_goals
    obtain ⟨config, n, s0, hr⟩ := main_run demoWorldLog _ a ha
    have hp := hr.parse
    rw [show demoWorldLog.conv = demoConv from rfl, demo_parse_log] at hp
    cases hp
  · rw [warning_iff detail "in" hr ha demoTrajLogOpts demoHistLogOpts demoFesLogOpts rfl rfl rfl]
    simp [natOption, demoTrajLogOpts, demoFesLogOpts, Dict.get?, List.lookup]
  · obtain ⟨l, steps, h1, h2, h3, h4, _⟩ := log_resets detail "in" hr ha demoTrajLogOpts demoHistLogOpts rfl rfl [1] rfl
    refine ⟨l, h1, h2.trans ?_⟩
    have hn : n = 1 := by
      have := hr.steps
      simp [demoInputLog, demoLdOpts, Dict.get?, List.lookup] at this
      omega
    subst hn
    have : steps = [1] := by
      refine eq_of_strictIncr h3 (List.pairwise_singleton _ _) (fun t => ?_)
      rw [h4]
      simp only [List.mem_singleton]
      constructor
      · rintro ⟨_, _, h⟩
        exact_mod_cast h
      · rintro rfl
        exact ⟨by decide, le_refl _, rfl⟩
    rw [this]
    rfl

/-- **C135.** The shipped example has nothing to warn about and no resets. -/
theorem example_log {R : Type} {w : World R} {a : AnySim R} (hconv : w.conv = realConv)
    (h : mainText w (some exampleLines) = .finished a) (detail : String → String → String) (infile : String) :
    mainLog detail infile w (some exampleFile) = some [] := by
  obtain ⟨s0, hr⟩ := example_finished hconv h
  simp only [mainText, example_read] at h
  refine log_empty detail infile hr h exampleHistOpts rfl rfl ?_
  rw [warning_iff detail infile hr h exampleTrajOpts exampleHistOpts exampleFesOpts rfl rfl rfl]
  simp [natOption, exampleTrajOpts, exampleFesOpts, Dict.get?, List.lookup]

/-- Non-vacuity of `warning_meaning`: in the shipped example the FES in steps 100, 200, … is that of all steps so far. -/
example {R : Type} {w : World R} {a : AnySim R} (hconv : w.conv = realConv) (hops : w.bdOps.Lawful)
    (h : mainText w (some exampleLines) = .finished a) : ∀ t, 0 < t → t ≤ 10000 → 100 ∣ t → fesData exampleTrajOpts exampleFesOpts t = t := by
  obtain ⟨s0, hr⟩ := example_finished hconv h
  obtain ⟨-, hlen, -⟩ := example_system hconv hops h
  have h' := h
  simp only [mainText, example_read] at h'
  have e1 : hasFilename exampleTrajOpts = true := by simp [hasFilename, exampleTrajOpts, Dict.get?, List.lookup]
  have e2 : natOption exampleFesOpts "stride" 0 = 100 := by simp [natOption, exampleFesOpts, Dict.get?, List.lookup]
  have := (warning_meaning (fun _ _ => "") "" hr h' hops exampleTrajOpts exampleHistOpts exampleFesOpts rfl rfl rfl rfl
    (by rw [← (main_walkers hr hops).2, hlen]; decide) (.inl e1) (by rw [e2]; decide) (by rw [e2]; decide)).2.1 (by
      rw [example_log hconv h]
      rintro ⟨l, hl, r, hr, _⟩
      cases hl
      cases hr)
  rwa [e2] at this

end

end Bdld
