import Verif.Props.OutputSettings
import Verif.Props.MainOutput

/-
C112: examples.
-/

set_option linter.unusedSimpArgs false

namespace Bdld
open Spec

noncomputable section

/-- Values are calculated at every second step, but the file should be written at every step. -/
def demoDistBad : Section := demoSection "particle-distribution"
  [("stride", "2"), ("filename", "p"), ("write-stride", "1"), ("state1-min", "0"), ("state1-max", "1"), ("state2-min", "1"),
   ("state2-max", "2")]

def demoDistBadOpts : Dict (OptVal ℝ) :=
  [("stride", .base (.int 2)), ("filename", .base (.str "p")), ("write-stride", .base (.int 1)), ("fmt", .none),
   ("state1-min", .list [.float 0]), ("state1-max", .list [.float 1]),
   ("state2-min", .list [.float 1]), ("state2-max", .list [.float 2])]

def demoFileClash : List Section := [demoLd, demoPot, demoPart, demoDistBad]

def demoInputBad : Input ℝ :=
  { ld := demoLdOpts, potential := demoPotOpts, particles := demoPartOpts, particleDistribution := some demoDistBadOpts }

theorem demo_optionsDistBad : stateActionOptions demoDistBad = .ok demoStateOptions := rfl

theorem demo_parseDistBad : parseSection demoConv demoDistBad demoStateOptions = .ok demoDistBadOpts := by
  simp [demoDistBad, demoDistBadOpts, demoSection, InputOption.parse, opt, optList, Dict.get?, List.lookup, InputOption.convert,
    parseSection, parseLoop, Dict.set, demoConv, positive, allPositive, positiveOrZero, gtZero, cmpNum, ok_bind, pure_eq_ok, pyAnd,
    pySplit, splitComma, callType, orValueError, oneOf, demoStateOptions, numberedLoop, numKey, List.range, List.range.loop, repr1,
    repr2, repr3]

theorem demo_parse_clash : parseAll 1 demoConv (some demoFileClash) = .ok demoInputBad := by
  have f1 : findSection demoFileClash "ld" = some demoLd := rfl
  have f2 : findSection demoFileClash "potential" = some demoPot := rfl
  have f3 : findSection demoFileClash "particles" = some demoPart := rfl
  have f4 : findSection demoFileClash "birth-death" = none := rfl
  have f5 : findSection demoFileClash "trajectories" = none := rfl
  have f6 : findSection demoFileClash "histogram" = none := rfl
  have f7 : findSection demoFileClash "fes" = none := rfl
  have f8 : findSection demoFileClash "delta-f" = none := rfl
  have f9 : findSection demoFileClash "particle-distribution" = some demoDistBad := rfl
  simp only [parseAll, requireSection, parseOptional, f1, f2, f3, f4, f5, f6, f7, f8, f9, ok_bind, pure_eq_ok, demo_parseLd,
    demo_parsePot, demo_parsePart, demo_optionsDistBad, demo_parseDistBad, demoInputBad]

theorem demo_badOutput : BadOutput demoInputBad := by
  refine Or.inr (Or.inr (Or.inr ⟨demoDistBadOpts, rfl, ?_⟩))
  have h1 : natOption demoDistBadOpts "stride" 0 = 2 := rfl
  have h2 : natOption demoDistBadOpts "write-stride" 0 = 1 := rfl
  rw [BadSeriesOutput, h1, h2]
  exact ⟨by decide, by decide, Or.inr (by decide)⟩

/-- **C112.** For this input the whole program ends with an uncaught exception. -/
theorem demo_main_clash (e : Bool) : mainProgram (demoWorld e) (some demoFileClash) = .uncaught .valueError := by
  have hs : stateRanges demoDistBadOpts = .ok [[((0:ℝ), 1)], [(1, 2)]] := by
    simp [stateRanges, numberedDict, numberedLoop, numKey, demoDistBadOpts, Dict.get?, List.lookup, repr1, repr2, repr3,
      ok_bind, pure_eq_ok, Item.ofOptVal, minMaxToRanges, checkAllDims, Item.toList, checkDims, Item.len]
  have hv := input_valid 1 one_pos _ _ demo_parse_clash
  have hb : BadSeriesOutput demoDistBadOpts := by
    rcases demo_badOutput with ⟨o, h, _⟩ | ⟨o, h, _⟩ | ⟨o, h, _⟩ | ⟨o, h, hb⟩
    · cases h
    · cases h
    · cases h
    · cases h
      exact hb
  have h1 := (setupDistribution_rejects (demoWorld e) demoDistBadOpts (hv.particleDistribution _ rfl).toValidOutput _ hs).1 hb
  have hreq := demo_required e demoInputBad rfl rfl rfl
  have hc : (demoWorld e).conv = demoConv := rfl
  simp only [mainProgram, hc, demo_parse_clash, mainFrom, hreq]
  simp only [setupOptional, demoInputBad, ok_bind, pure_eq_ok, h1]
  rfl

/-- The theorem about the whole program applies. -/
example : ∃ r e, setupRequired (demoWorld true) demoInputBad = .ok r ∧
    setupOptional (demoWorld true) demoInputBad r.cfg r.sim = .error e := by
  rcases main_rejects_partial (demoWorld true) (some demoFileClash) demoInputBad demo_parse_clash demo_badOutput with
    ⟨e, h, _⟩ | ⟨r, e, h1, h2, _⟩
  · rw [demo_required true demoInputBad rfl rfl rfl] at h
    cases h
  · exact ⟨r, e, h1, h2⟩

end

end Bdld
