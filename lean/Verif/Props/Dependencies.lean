import Verif.Props.MainDemoFes

/-
Required sections and dependencies between actions (C59).
-/

set_option linter.unusedSectionVars false

namespace Bdld

open Spec

variable {R : Type} {d : Nat}

/-! ### Required sections -/

/-- C59: without an input file the program exits with code 1. -/
theorem missing_file (w : World R) : mainProgram w none = .exit1 := rfl

/-- C59: without one of the required sections the program exits with code 1, whatever else the file
contains. -/
theorem missing_section (w : World R) (cfg : List Section) (name : String)
    (hn : name ∈ ["ld", "potential", "particles"]) (h : findSection cfg name = none) :
    mainProgram w (some cfg) = .exit1 := by
  have key : ∃ x, parseAll (F := ℝ) 1 w.conv (some cfg) = .error (.sectionError x) := by
    simp only [parseAll, pure_eq_ok, ok_bind]
    cases h1 : findSection cfg "ld" with
    | none => exact ⟨"ld", by simp only [requireSection, h1, error_bind]⟩
    | some s1 =>
      cases h2 : findSection cfg "potential" with
      | none => exact ⟨"potential", by simp only [requireSection, h1, h2, ok_bind, error_bind]⟩
      | some s2 =>
        cases h3 : findSection cfg "particles" with
        | none => exact ⟨"particles", by simp only [requireSection, h1, h2, h3, ok_bind, error_bind]⟩
        | some s3 =>
          exfalso
          rcases List.mem_cons.1 hn with rfl | hn
          · rw [h1] at h; cases h
          rcases List.mem_cons.1 hn with rfl | hn
          · rw [h2] at h; cases h
          rw [List.mem_singleton.1 hn, h3] at h
          cases h
  obtain ⟨x, hx⟩ := key
  simp only [mainProgram, hx, raise, caughtInput, if_true]

/-! ### Dependencies -/

/-- The action that another one depends on. -/
def Spec.dependsOn : ActName → Option ActName
  | .histogram => some .trajectories
  | .fes => some .histogram
  | .deltaF => some .fes
  | _ => none

/-- C59: a simulation is only run if for each requested action also the one it depends on is requested. -/
theorem dependencies (w : World R) (cfg : List Section) (a : AnySim R)
    (h : mainProgram w (some cfg) = .finished a) (x y : ActName) (hd : dependsOn x = some y)
    (hx : findSection cfg (sectionOf x) ≠ none) : findSection cfg (sectionOf y) ≠ none := by
  obtain ⟨config, r, z, n, s, hp, hr, hz, _, _, rfl⟩ := main_inv w _ a h
  obtain ⟨c, sLd, sPot, sPart, e0, e1, e2, e3, e4, e5, e6, e7, e8, e9, e10, e11, e12⟩ :=
    parseAll_inv 1 (some cfg) config hp
  cases e0
  have hv := input_valid 1 one_pos (some cfg) config hp
  have some_iff : ∀ {name : String} {f : Section → Except PyErr (Dict (OptVal ℝ))} {o : Option (Dict (OptVal ℝ))},
      parseOptional cfg name f = .ok o → (o.isSome = true ↔ findSection cfg name ≠ none) := by
    intro name f o ho
    rcases parseOptional_ok ho with ⟨h1, h2⟩ | ⟨s, d, h1, _, h2⟩
    · rw [h1, h2]; simp
    · rw [h1, h2]; simp
  cases x <;> simp only [dependsOn, reduceCtorEq, Option.some.injEq] at hd <;> subst hd <;>
    simp only [sectionOf] at hx ⊢
  · rw [← some_iff e9] at hx
    rw [← some_iff e8]
    obtain ⟨c', s'⟩ := z
    obtain ⟨hc, hs⟩ := setupRequired_parts w config r hr
    obtain ⟨_, _, _, _, _, _, h2, h3, _⟩ := setupOptional_parts w config _ c' _ s' hc hs hz
    obtain ⟨o, ho⟩ := Option.isSome_iff_exists.1 hx
    rw [ho] at h3
    obtain ⟨t, _, ht, _⟩ := h3
    cases ht2 : config.trajectories with
    | none =>
      rw [ht2] at h2
      rw [h2.1] at ht
      cases ht
    | some _ => rfl
  · rw [← some_iff e10] at hx
    rw [← some_iff e9]
    exact hv.fesNeedsHistogram hx
  · rw [← some_iff e11] at hx
    rw [← some_iff e10]
    exact hv.deltaFNeedsFes hx

/-- C59: a histogram without trajectories ends the program with exit code 1 (if there is no other
problem). -/
theorem missing_trajectories (w : World R) (file : Option (List Section)) (config : Input ℝ) (r : AnySim R)
    (hp : parseAll 1 w.conv file = .ok config) (hr : setupRequired w config = .ok r)
    (hb : ∀ o, config.birthDeath = some o → ∃ b, setupBirthDeath w o r.cfg.ld = .ok b)
    (ht : config.trajectories = none) (hh : config.histogram ≠ none) : mainProgram w file = .exit1 := by
  obtain ⟨o, ho⟩ := Option.ne_none_iff_exists'.1 hh
  obtain ⟨hc, hs⟩ := setupRequired_parts w config r hr
  have hno : r.cfg.traj = none := by rw [hc]
  have key : setupOptional w config r.cfg r.sim = .error (.keyError "trajectories") := by
    unfold setupOptional
    cases hbd : config.birthDeath with
    | none => simp only [ht, ho, pure_eq_ok, ok_bind, requireAction, hno, error_bind]
    | some q =>
      obtain ⟨b, hb'⟩ := hb q hbd
      simp only [hb', ht, ho, pure_eq_ok, ok_bind, requireAction, hno, error_bind]
  simp only [mainProgram, hp, mainFrom, hr, key, raise, caughtSetup, if_true]

/-- An FES without histogram: the exception raised by the parser is not caught. -/
theorem missing_histogram_uncaught (w : World R) (cfg : List Section) (sLd sPot sPart sFes : Section)
    (ld potential particles : Dict (OptVal ℝ)) (bd tr : Option (Dict (OptVal ℝ)))
    (h1 : findSection cfg "ld" = some sLd) (h2 : findSection cfg "potential" = some sPot)
    (h3 : findSection cfg "particles" = some sPart) (h4 : parseLd w.conv sLd = .ok ld)
    (h5 : parsePotential w.conv sPot = .ok potential) (h6 : parseParticles 1 w.conv sPart = .ok particles)
    (h7 : parseOptional cfg "birth-death" (fun s => parseSection w.conv s (birthDeathOptions (isOneDim potential))) = .ok bd)
    (h8 : parseOptional cfg "trajectories" (fun s => parseSection w.conv s trajectoriesOptions) = .ok tr)
    (hh : findSection cfg "histogram" = none) (hf : findSection cfg "fes" = some sFes) :
    mainProgram w (some cfg) = .uncaught (.noSectionError "histogram") := by
  have key : parseAll 1 w.conv (some cfg) = .error (.noSectionError "histogram") := by
    have h9 : parseOptional cfg "histogram" (fun s => parseSection w.conv s (histogramOptions (isOneDim potential))) =
        .ok none := by simp only [parseOptional, hh]
    have h10 : parseOptional cfg "fes" (fun s =>
        if (none : Option (Dict (OptVal ℝ))).isNone then throw (.noSectionError "histogram")
        else parseSection w.conv s fesOptions) = .error (.noSectionError "histogram") := by
      simp only [parseOptional, hf]
      rfl
    simp only [parseAll, requireSection, pure_eq_ok, ok_bind, h1, h2, h3, h4, h5, h6, h7, h8, h9, h10, error_bind]
  simp only [mainProgram, key, raise, caughtInput]
  rfl

/-- C59 is false: an FES without histogram ends with an exception that is not caught. -/
theorem dependencies_false : ¬ ∀ (w : World Bool) (cfg : List Section) (x y : ActName),
    dependsOn x = some y → findSection cfg (sectionOf x) ≠ none → findSection cfg (sectionOf y) = none →
      mainProgram w (some cfg) = .exit1 := by
  intro h
  have h1 := h (demoWorld true) [demoLd, demoPot, demoPart, demoFes "1"] .fes .histogram rfl (by decide) (by decide)
  have h2 := missing_histogram_uncaught (demoWorld true) [demoLd, demoPot, demoPart, demoFes "1"] demoLd demoPot
    demoPart (demoFes "1") demoLdOpts demoPotOpts demoPartOpts none none rfl rfl rfl demo_parseLd demo_parsePot
    demo_parsePart rfl rfl rfl rfl
  rw [h1] at h2
  cases h2

/-- Non-vacuity: a file with histogram but without trajectories, and a finished simulation with all
dependencies. -/
example : mainProgram (demoWorld true) (some [demoLd, demoPot, demoPart, demoHist]) = .exit1 := by
  have f1 : findSection [demoLd, demoPot, demoPart, demoHist] "ld" = some demoLd := rfl
  have f2 : findSection [demoLd, demoPot, demoPart, demoHist] "potential" = some demoPot := rfl
  have f3 : findSection [demoLd, demoPot, demoPart, demoHist] "particles" = some demoPart := rfl
  have f4 : findSection [demoLd, demoPot, demoPart, demoHist] "birth-death" = none := rfl
  have f5 : findSection [demoLd, demoPot, demoPart, demoHist] "trajectories" = none := rfl
  have f6 : findSection [demoLd, demoPot, demoPart, demoHist] "histogram" = some demoHist := rfl
  have f7 : findSection [demoLd, demoPot, demoPart, demoHist] "fes" = none := rfl
  have f8 : findSection [demoLd, demoPot, demoPart, demoHist] "delta-f" = none := rfl
  have f9 : findSection [demoLd, demoPot, demoPart, demoHist] "particle-distribution" = none := rfl
  have hp : parseAll 1 (demoWorld true).conv (some [demoLd, demoPot, demoPart, demoHist]) =
      .ok { ld := demoLdOpts, potential := demoPotOpts, particles := demoPartOpts, histogram := some demoHistOpts } := by
    have hc : (demoWorld true).conv = demoConv := rfl
    simp only [hc, parseAll, requireSection, parseOptional, f1, f2, f3, f4, f5, f6, f7, f8, f9, ok_bind, pure_eq_ok,
      demo_parseLd, demo_parsePot, demo_parsePart, demo_parseHist, demo_oneDim]
  exact missing_trajectories (demoWorld true) _ _ _ hp (demo_required true _ rfl rfl rfl)
    (by intro o ho; cases ho) rfl (by simp)

end Bdld
