import Verif.Props.MainCorrection
import Verif.Props.MainDemo
import Verif.Props.MainProgress

/-
C105 for a concrete run: the constant potential on [0, 2] with the additive variant and linear interpolation.
-/

namespace Bdld

open Spec

noncomputable section

def lineWorld : World Bool := withLinear (demoWorld false)

def lineBd : Section := demoSection "birth-death"
  [("stride", "1"), ("approximation-variant", "additive"), ("kernel-bandwidth", "1"), ("seed", "1")]

def lineBdOpts : Dict (OptVal ℝ) :=
  [("stride", .base (.int 1)), ("correction-variant", .none), ("approximation-variant", .base (.str "additive")),
   ("exponential-factor", .none), ("recalculate-probabilities", .base (.bool false)), ("stats-stride", .none),
   ("stats-filename", .none), ("seed", .base (.int 1)), ("kernel-bandwidth", .base (.float 1))]

def lineFile : List Section := [demoLd, demoPot, demoPart, lineBd]

def lineInput : Input ℝ :=
  { ld := demoLdOpts, potential := demoPotOpts, particles := demoPartOpts, birthDeath := some lineBdOpts }

theorem line_parseBd : parseSection demoConv lineBd (birthDeathOptions true) = .ok lineBdOpts := by
  unfold lineBdOpts
  simp [lineBd, demoSection, InputOption.parse, opt, Dict.get?, List.lookup, InputOption.convert, parseSection, parseLoop,
    Dict.set, demoConv, positive, gtZero, cmpNum, ok_bind, pure_eq_ok, birthDeathOptions]

theorem line_parse : parseAll 1 demoConv (some lineFile) = .ok lineInput := by
  have f1 : findSection lineFile "ld" = some demoLd := rfl
  have f2 : findSection lineFile "potential" = some demoPot := rfl
  have f3 : findSection lineFile "particles" = some demoPart := rfl
  have f4 : findSection lineFile "birth-death" = some lineBd := rfl
  have f5 : findSection lineFile "trajectories" = none := rfl
  have f6 : findSection lineFile "histogram" = none := rfl
  have f7 : findSection lineFile "fes" = none := rfl
  have f8 : findSection lineFile "delta-f" = none := rfl
  have f9 : findSection lineFile "particle-distribution" = none := rfl
  simp only [parseAll, requireSection, parseOptional, f1, f2, f3, f4, f5, f6, f7, f8, f9, ok_bind, pure_eq_ok,
    demo_parseLd, demo_parsePot, demo_parsePart, line_parseBd, demo_oneDim]
  rfl

theorem line_required : setupRequired lineWorld lineInput =
    .ok ⟨1, { kind := .overdamped, ld := demoLdCfg }, { particles := [demoWalker 1, demoWalker 2], ldRng := true }⟩ :=
  demo_required false lineInput rfl rfl rfl

theorem line_setupBd : ∃ x, setupBirthDeath lineWorld lineBdOpts demoLdCfg = .ok x := by
  obtain ⟨g, g1, g2, g3, g4, g5, g6, g7⟩ := density_line ⟨0, 2, 1, 1, fun x => energyOfList demoLdCfg.pot [x]⟩ (by norm_num)
    (energyOfList demoLdCfg.pot) (fun _ => rfl)
  obtain ⟨m, m1, _⟩ := additive_line lineWorld (withLinear_ok _) _ (by norm_num) (by norm_num) g g2 g3 g4 g5 g6 g7
  have h1 : bdApproxGrid lineWorld demoLdCfg [1] .add = .ok (some m) := by
    unfold bdApproxGrid
    simp only
    rw [show bdProbDensity (energyOfList demoLdCfg.pot) 1 demoLdCfg.pot.ranges [1] demoLdCfg.kt = .ok g from g1]
    simp only [ok_bind]
    rw [m1]
    rfl
  clear g1 g3 g4 g5 g6 m1
  have h3 : approxFromStr "additive" = .ok .add := by decide
  have h2 : lineWorld.defaultRng .birthDeath (bdSeed (some 1)) = .ok true := rfl
  simp [setupBirthDeath, bdBandwidth, lineBdOpts, Dict.getItem, Dict.get?, List.lookup, ok_bind, pure_eq_ok,
    OptVal.asFloat, approxVariantOf, getApproxVariant, OptVal.asOptStr, truthyStr, OptVal.asOptStride,
    OptVal.asOptFloat, OptVal.asFlag, OptVal.asOptInt, h2, h1, h3]

/-- C105: there is a finished run with the additive variant, and its walkers are those of the simulation with the
explicit correction. -/
theorem line_run : ∃ (a : AnySim Bool) (n : Nat) (s0 : Sim a.d Bool) (k : Fin a.d)
    (hr : FinishedRun lineWorld (some lineFile) a lineInput n s0), a.d = 1 ∧ variantOf lineBdOpts = .add ∧
      ∀ t ≤ n, (hr.path t).map phaseOf = (runPath lineWorld lineInput
        (physicsOf a lineInput (fun x => (lineOf a.cfg.ld lineBdOpts 0 2).additiveAt (x k)))
        (s0.particles.map phaseOf) t).walkers := by
  obtain ⟨x, hx⟩ := line_setupBd
  have hopt : ∃ y, setupOptional lineWorld lineInput { kind := .overdamped, ld := demoLdCfg }
      { particles := [demoWalker 1, demoWalker 2], ldRng := true } = .ok y := by
    simp only [setupOptional, lineInput, hx, ok_bind, pure_eq_ok]
    exact ⟨_, rfl⟩
  obtain ⟨y, hy⟩ := hopt
  obtain ⟨s, hs⟩ := main_progress_partial lineWorld (some lineFile) lineInput _ y line_parse line_required hy demoBdOps_lawful
    (Or.inl rfl) (by
      intro o ho
      cases ho
      exact ⟨le_refl 2, Or.inl rfl⟩)
    (by intro h; simp [lineInput] at h) (by intro o st h; simp [lineInput] at h) (by intro o h; simp [lineInput] at h)
  obtain ⟨config, n, s0, hr⟩ := main_run _ _ _ hs
  have hp := hr.parse
  rw [show parseAll 1 lineWorld.conv (some lineFile) = .ok lineInput from line_parse] at hp
  cases hp
  refine ⟨_, n, s0, (0 : Fin 1), hr, rfl, rfl, fun t ht => ?_⟩
  have hc : y.1.ld = demoLdCfg := by
    simp only [setupOptional, lineInput, hx, ok_bind, pure_eq_ok] at hy
    cases hy
    rfl
  have := main_simulation_line hr demoBdOps_lawful (withLinear_ok _) lineBdOpts rfl rfl 0 2 (by simp only [hc]; rfl) (by norm_num)
    (0 : Fin 1) (by
      intro o ho hf
      cases ho
      simp [flagOption, lineBdOpts, Dict.get?, List.lookup] at hf) t ht
  exact this

end

end Bdld
