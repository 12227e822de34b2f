import Verif.Props.LongerRun
import Verif.Props.ExampleInput

/-
C149 for the example of the repository, with 500 instead of 10000 steps.
-/

namespace Bdld

open Spec

noncomputable section

def shortLd : Section := demoSection "ld"
  ([("type", "bussi-parinello"), ("timestep", "0.005"), ("friction", "10.0"), ("n_steps", "500")] ++ exampleShared)

/-- The example with 500 steps. -/
def shortFile : List Section := [shortLd, examplePot, examplePart, exampleBd, exampleTraj, exampleHist, exampleFes, exampleDf]

def shortInput : Input ℝ := { exampleInput with ld :=
  [("type", .base (.str "bussi-parinello")), ("timestep", .base (.float (1 / 200))), ("n_steps", .base (.int 500)),
   ("seed", .base (.int 632683)), ("kt", .base (.float 1)), ("friction", .base (.float 10))] }

theorem short_same : SameButSteps shortInput exampleInput where
  ld := by
    intro k hk
    simp only [shortInput, exampleInput, exampleLdOpts, Dict.get?, List.lookup]
    have : (k == "n_steps") = false := by simpa using hk
    rw [this]
  potential := rfl
  particles := rfl
  birthDeath := rfl
  trajectories := rfl
  histogram := rfl
  fes := rfl
  deltaF := rfl
  particleDistribution := rfl

set_option linter.unusedSimpArgs false in
theorem short_parse : parseAll 1 realConv (some shortFile) = .ok shortInput := by
  have f1 : findSection shortFile "ld" = some shortLd := rfl
  have f2 : findSection shortFile "potential" = some examplePot := rfl
  have f3 : findSection shortFile "particles" = some examplePart := rfl
  have f4 : findSection shortFile "birth-death" = some exampleBd := rfl
  have f5 : findSection shortFile "trajectories" = some exampleTraj := rfl
  have f6 : findSection shortFile "histogram" = some exampleHist := rfl
  have f7 : findSection shortFile "fes" = some exampleFes := rfl
  have f8 : findSection shortFile "delta-f" = some exampleDf := rfl
  have f9 : findSection shortFile "particle-distribution" = none := rfl
  have f0 : isOneDim examplePotOpts = true := rfl
  have hld : parseLd realConv shortLd = .ok shortInput.ld := by
    simp [shortLd, shortInput, exampleShared, demoSection, parseLd, InputOption.parse, opt, Dict.get?, List.lookup,
      InputOption.convert, ldOptions, parseSection, parseLoop, Dict.set, tf1, tf2, tf3, ti1, ti8, positive, positiveOrZero,
      gtZero, cmpNum, ok_bind, pure_eq_ok, callType, orValueError]
  simp [parseAll, requireSection, parseOptional, f1, f2, f3, f4, f5, f6, f7, f8, f9, f0, ok_bind, pure_eq_ok, hld,
    example_parsePot, example_parsePart, example_parseBd, example_parseTraj, example_parseHist, example_parseFes, example_parseDf,
    example_options]
  rfl

variable {R : Type}

/-- The numbers of steps do not matter for consistency. -/
theorem short_consistent {formats : List String} (h : saveable formats "fes.png" = true) (terminal : Bool) :
    ConsistentLine formats terminal shortInput :=
  { example_consistent h terminal with ldSeed := by intro i hi; cases hi; decide }

/-- Both runs finish, and those of 500 steps are the beginning of the others. -/
theorem short_demo (w : World R) (hconv : w.conv = realConv) (hops : w.bdOps.Lawful) (hinit : w.init.Lawful)
    (hlin : LinearGriddata w) (hpng : saveable w.figFormats "fes.png" = true) :
    ∃ (cfg : SimCfg 1) (sim sim' s0 : Sim 1 R),
      FinishedRun w (some shortFile) ⟨1, cfg, sim⟩ shortInput 500 s0 ∧
      FinishedRun w (some exampleFile) ⟨1, cfg, sim'⟩ exampleInput 10000 s0 ∧
      ∃ x x' fs fs', sim.traj = some x ∧ sim'.traj = some x' ∧ x.files = some fs ∧ x'.files = some fs' ∧
        fs.length = 10 ∧ fs'.length = 10 ∧ ∀ i : Nat, i < 10 → ∃ f f', fs[i]? = some f ∧ fs'[i]? = some f' ∧ f <+: f' ∧
          f.length = 100 ∧ f'.length = 2000 := by
  have hp' : parseAll 1 w.conv (some exampleFile) = .ok exampleInput := by rw [hconv]; exact example_parse
  have hp : parseAll 1 w.conv (some shortFile) = .ok shortInput := by rw [hconv]; exact short_parse
  obtain ⟨a, ha⟩ := line_progress w (some shortFile) shortInput hp (short_consistent hpng w.terminal) hops hinit hlin
    (fun o ho => .inl (by cases ho; rfl))
  obtain ⟨a', ha'⟩ := line_progress w (some exampleFile) exampleInput hp' (example_consistent hpng w.terminal) hops hinit hlin
    (fun o ho => .inl (by cases ho; rfl))
  obtain ⟨config, n, s0, hr⟩ := main_run w _ a ha
  obtain ⟨config', n', s0', hr'⟩ := main_run w _ a' ha'
  have e := hr.parse
  rw [hp] at e
  cases e
  have e' := hr'.parse
  rw [hp'] at e'
  cases e'
  obtain rfl : n = 500 := by
    have := hr.steps
    cases this
    rfl
  obtain rfl : n' = 10000 := by
    have := hr'.steps
    cases this
    rfl
  obtain ⟨hd, _⟩ := (main_potential hr).oneDim rfl rfl
  obtain ⟨d, cfg, sim⟩ := a
  simp only at hd
  subst hd
  obtain ⟨sim', rfl, hr2⟩ := longer_setup hr hr' short_same
  have hlen : s0.particles.length = 10 := by
    obtain ⟨mass, number, m1, m2, m3, -⟩ := main_initial hr
    cases m2
    rw [(m3 rfl).2.2]
    simp
  refine ⟨cfg, sim, sim', s0, hr, hr2, ?_⟩
  have hf : hasFilename exampleTrajOpts = true := rfl
  obtain ⟨x, h1, h2⟩ := main_trajectories hr hops exampleTrajOpts rfl
  obtain ⟨x', h1', h2'⟩ := main_trajectories hr2 hops exampleTrajOpts rfl
  rw [if_pos hf] at h2 h2'
  obtain ⟨y, y', fs, fs', k1, k2, k3, k4, k5⟩ := longer_trajectories hr hr2 (by norm_num) short_same hops exampleTrajOpts rfl hf
  have hs : natOption exampleTrajOpts "stride" 1 = 5 := rfl
  refine ⟨y, y', fs, fs', k1, k2, k3, k4, ?_, ?_, ?_⟩
  all_goals
    rw [show sim.traj = some x from h1] at k1
    rw [show sim'.traj = some x' from h1'] at k2
    cases k1
    cases k2
    rw [h2] at k3
    rw [h2'] at k4
    cases k3
    cases k4
  · simp [hlen]
  · simp [hlen]
  · intro i hi
    have hi' : i < s0.particles.length := by omega
    refine ⟨_, _, by rw [List.getElem?_map, List.getElem?_range hi']; rfl,
      by rw [List.getElem?_map, List.getElem?_range hi']; rfl, ?_, ?_, ?_⟩
    · beta_reduce
      rw [← sampledSteps_append _ (Nat.zero_le 500) (show 500 ≤ 10000 by norm_num), List.map_append]
      exact List.prefix_append _ _
    · rw [hs, List.length_map, show 500 = 100 * 5 by norm_num, sampledSteps_multiples 5 (by norm_num)]
      simp
    · rw [hs, List.length_map, show 10000 = 2000 * 5 by norm_num, sampledSteps_multiples 5 (by norm_num)]
      simp

/-! ### Files with a second copy of the last rows -/

def distLd (n : String) : Section := demoSection "ld"
  [("type", "bussi-parinello"), ("timestep", "0.005"), ("friction", "10.0"), ("kt", "1"), ("n_steps", n)]

def distPot : Section := demoSection "potential"
  [("type", "polynomial"), ("n_dim", "1"), ("coeffs", "0, 0.2, -4, 0, 1"), ("min", "-2.5"), ("max", "2.5")]

def distPart : Section := demoSection "particles" [("number", "10"), ("initial-distribution", "random-global")]

def distSec : Section := demoSection "particle-distribution"
  [("stride", "5"), ("state1-min", "-2.5"), ("state1-max", "0.0"), ("state2-min", "0.0"), ("state2-max", "2.5"),
    ("filename", "p")]

/-- Walkers in two states, every fifth step. -/
def distFile (n : String) : List Section := [distLd n, distPot, distPart, distSec]

def distOpts : Dict (OptVal ℝ) :=
  [("stride", .base (.int 5)), ("filename", .base (.str "p")), ("write-stride", .none), ("fmt", .none),
   ("state1-min", .list [.float (-5 / 2)]), ("state1-max", .list [.float 0]),
   ("state2-min", .list [.float 0]), ("state2-max", .list [.float (5 / 2)])]

def distInput (n : Int) : Input ℝ where
  ld := [("type", .base (.str "bussi-parinello")), ("timestep", .base (.float (1 / 200))), ("n_steps", .base (.int n)),
   ("seed", .none), ("kt", .base (.float 1)), ("friction", .base (.float 10))]
  potential := examplePotOpts
  particles := [("number", .base (.int 10)), ("mass", .base (.float 1)), ("seed", .none),
   ("initial-distribution", .base (.str "random-global"))]
  particleDistribution := some distOpts

theorem dist_options : stateActionOptions distSec = .ok exampleStateOptions := rfl

set_option linter.unusedSimpArgs false in
theorem dist_parse {n : String} {i : Int} (hn : realConv.toInt n = some i) (hi : 0 < i) :
    parseAll 1 realConv (some (distFile n)) = .ok (distInput i) := by
  have f1 : findSection (distFile n) "ld" = some (distLd n) := rfl
  have f2 : findSection (distFile n) "potential" = some distPot := rfl
  have f3 : findSection (distFile n) "particles" = some distPart := rfl
  have f4 : findSection (distFile n) "birth-death" = none := rfl
  have f5 : findSection (distFile n) "trajectories" = none := rfl
  have f6 : findSection (distFile n) "histogram" = none := rfl
  have f7 : findSection (distFile n) "fes" = none := rfl
  have f8 : findSection (distFile n) "delta-f" = none := rfl
  have f9 : findSection (distFile n) "particle-distribution" = some distSec := rfl
  have f0 : isOneDim examplePotOpts = true := rfl
  have h1 : parseLd realConv (distLd n) = .ok (distInput i).ld := by
    simp [distLd, distInput, demoSection, parseLd, InputOption.parse, opt, Dict.get?, List.lookup,
      InputOption.convert, ldOptions, parseSection, parseLoop, Dict.set, tf1, tf2, tf3, hn, hi, positive, positiveOrZero,
      gtZero, cmpNum, ok_bind, pure_eq_ok, callType, orValueError]
  have h2 : parsePotential realConv distPot = .ok examplePotOpts := by
    simp [distPot, examplePotOpts, demoSection, parsePotential, potentialOptions, polyOptions, InputOption.parse, opt,
      optList, Dict.get?, List.lookup, InputOption.convert, parseSection, parseLoop, Dict.set, tf4, tf5, tf6, tf7, tf8, tf9,
      tf10, ti3, sp1, positive, atMost3dim, atMost3dimInt, pyAnd, gtZero, cmpNum, ok_bind, pure_eq_ok, callType, orValueError]
  have h3 : parseParticles 1 realConv distPart = .ok (distInput i).particles := by
    simp [distPart, distInput, demoSection, parseParticles, particlesOptions, InputOption.parse, opt, initialDistributions,
      oneOf, Dict.get?, List.lookup, InputOption.convert, parseSection, parseLoop, Dict.set, tf1, ti4, positive, gtZero,
      cmpNum, ok_bind, pure_eq_ok, callType, orValueError]
  have h4 : (parseSection realConv distSec exampleStateOptions).map some = .ok (distInput i).particleDistribution := by
    simp [distSec, distInput, distOpts, demoSection, exampleStateOptions, InputOption.parse, opt, Dict.get?, List.lookup,
      InputOption.convert, parseSection, parseLoop, Dict.set, tf4, tf5, tf13, sp3, sp4, sp5, ti6, positive, gtZero, cmpNum,
      ok_bind, pure_eq_ok, callType, orValueError, Except.map]
  rcases h5 : parseSection realConv distSec exampleStateOptions with e | y
  · rw [h5] at h4; cases h4
  rw [h5] at h4
  simp [parseAll, requireSection, parseOptional, f1, f2, f3, f4, f5, f6, f7, f8, f9, f0, ok_bind, pure_eq_ok, h1, h2, h3,
    dist_options, h5]
  have h6 : (distInput i).particleDistribution = some y := (Except.ok.inj h4).symm
  rw [← h6]
  rfl

theorem dist_consistent (formats : List String) (terminal : Bool) (n : Int) :
    ConsistentLine formats terminal (distInput n) where
  polynomial := rfl
  oneDim := rfl
  coeffs := by intro h; cases h
  range := by
    intro lo hi h1 h2
    cases h1
    cases h2
    norm_num
  ldSeed := by intro i hi; cases hi
  particlesSeed := by intro i hi; cases hi
  start := .inl rfl
  bdSeed := by intro o ho; cases ho
  bdWalkers := by intro _ n hn; cases hn; decide
  bdVariant := by intro o ho; cases ho
  needsTrajectories := fun h => by cases h
  bins := by intro o ho; cases ho
  output := by
    rintro (⟨o, ho, h⟩ | ⟨o, ho, h⟩ | ⟨o, ho, h⟩ | ⟨o, ho, h⟩)
    · cases ho
    · cases ho
    · cases ho
    · cases ho
      exact absurd h.2.1 (by simp [natOption, distOpts, Dict.get?, List.lookup])
  plots := by intro o ho; cases ho
  deltaF := by intro o ho; cases ho
  distribution := by
    intro o ho
    cases ho
    refine ⟨[-5 / 2, 0], [0, 5 / 2], ⟨?_, rfl⟩, ⟨?_, rfl⟩, by simp⟩
    all_goals
      intro i hi
      match i, hi with
      | 0, _ => rfl
      | 1, _ => rfl

theorem dist_finished (w : World R) (hconv : w.conv = realConv) (hops : w.bdOps.Lawful) (hinit : w.init.Lawful)
    (hlin : LinearGriddata w) {s : String} {n : Nat} (hs : realConv.toInt s = some (n : Int)) (hn : 0 < n)
    (hl : n < 5 ∨ 5 ≤ n % 500) : ∃ (cfg : SimCfg 1) (sim s0 : Sim 1 R), FinishedRun w (some (distFile s)) ⟨1, cfg, sim⟩ (distInput n) n s0 ∧
      ∃ x, sim.dist = some x ∧ x.file.length = if n < 5 then 100 else (sampledSteps 5 0 n).length := by
  have hp : parseAll 1 w.conv (some (distFile s)) = .ok (distInput n) := by
    rw [hconv]; exact dist_parse hs (by exact_mod_cast hn)
  obtain ⟨⟨d, cfg, sim⟩, ha⟩ := line_progress w _ _ hp (dist_consistent _ _ _) hops hinit hlin (fun o ho => by cases ho)
  obtain ⟨config, m, s0, hr⟩ := main_run w _ _ ha
  have hp' := hr.parse
  rw [hp] at hp'
  cases hp'
  obtain rfl : n = m := by
    have h1 : (some (.base (.int (n : Int))) : Option (OptVal ℝ)) = some (.base (.int m)) := hr.steps
    simp only [Option.some.injEq, OptVal.base.injEq, BaseVal.int.injEq] at h1
    omega
  obtain ⟨hd, _⟩ := (main_potential hr).oneDim rfl rfl
  simp only at hd
  subst hd
  have hlen : s0.particles.length = 10 := by
    obtain ⟨mass, number, m1, m2, m3, -⟩ := main_initial hr
    cases m2
    rw [(m3 rfl).2.2]
    simp
  refine ⟨cfg, sim, s0, hr, ?_⟩
  obtain ⟨x, h1, h2⟩ := main_distribution hr hops distOpts rfl [[(-5 / 2, 0)], [(0, 5 / 2)]] (by rfl) (by simp) (by omega)
  refine ⟨x, h1, ?_⟩
  have e1 : seriesStride distOpts = 5 := rfl
  have e2 : seriesWriteStride distOpts = 500 := rfl
  rw [h2]
  have e4 : emptyLastWrite distOpts n ↔ 0 < n % 500 ∧ n % 500 < 5 := Iff.rfl
  unfold seriesFile
  rw [if_pos (show hasFilename distOpts = true from rfl), e1, e2, if_neg (show ¬ (5 = 0) by norm_num)]
  by_cases h5 : n < 5
  · have e3 : sampledSteps 5 0 n = [] := by
      refine List.eq_nil_iff_forall_not_mem.2 fun t ht => ?_
      rw [mem_sampledSteps] at ht
      have := Nat.le_of_dvd ht.1 ht.2.2
      omega
    rw [if_pos h5, e3, if_pos (e4.2 (by omega)), if_pos h5]
    simp
  · rw [if_neg h5, if_neg (mt e4.1 (by omega)), if_neg h5, List.append_nil, List.length_map]

/-- C149 fails for rows that are written twice (C84): after one step the file of the particle distribution has 100 rows
of uninitialised memory, after five steps one row. -/
theorem longer_distribution_false (w : World R) (hconv : w.conv = realConv) (hops : w.bdOps.Lawful) (hinit : w.init.Lawful)
    (hlin : LinearGriddata w) :
    ∃ (cfg : SimCfg 1) (sim sim' s0 : Sim 1 R) (x x' : SeriesState ℝ),
      FinishedRun w (some (distFile "1")) ⟨1, cfg, sim⟩ (distInput 1) 1 s0 ∧
      FinishedRun w (some (distFile "5")) ⟨1, cfg, sim'⟩ (distInput 5) 5 s0 ∧ SameButSteps (distInput 1) (distInput 5) ∧
      sim.dist = some x ∧ sim'.dist = some x' ∧ x.file.length = 100 ∧ x'.file.length = 1 ∧ ¬ x.file <+: x'.file := by
  have hc : SameButSteps (distInput 1) (distInput 5) := by
    refine ⟨fun k hk => ?_, rfl, rfl, rfl, rfl, rfl, rfl, rfl, rfl⟩
    simp only [distInput, Dict.get?, List.lookup]
    have : (k == "n_steps") = false := by simpa using hk
    rw [this]
  obtain ⟨cfg, sim, s0, hr, x, h1, h2⟩ := dist_finished w hconv hops hinit hlin ti3 (n := 1) one_pos (by norm_num)
  obtain ⟨cfg', sim', s0', hr', x', h1', h2'⟩ := dist_finished w hconv hops hinit hlin ti6 (n := 5) (by norm_num) (by norm_num)
  obtain ⟨sim'', e, hr''⟩ := longer_setup hr hr' hc
  cases e
  have k1 : x.file.length = 100 := by rw [h2]; decide
  have k2 : x'.file.length = 1 := by rw [h2']; decide
  refine ⟨cfg, sim, sim', s0, x, x', hr, hr'', hc, h1, h1', k1, k2, fun h => ?_⟩
  have := h.length_le
  omega

end

end Bdld
