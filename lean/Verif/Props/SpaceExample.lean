import Verif.Props.SpaceProgress
import Verif.Props.ExampleInput

/-
C126: the two-dimensional potentials of the documentation (`docs/potential.rst:82-124`) in complete input files.
-/

namespace Bdld
open Spec

noncomputable section

/-! ### Wolfe and Quapp -/

/-- An input file with the potential of Wolfe and Quapp. -/
def quappLines : List (List Char) :=
  ["[ld]", "type: overdamped", "timestep: 0.005", "n_steps: 100", "",
   "[potential]", "type: polynomial", "n_dim: 2", "coeffs-file: wolfe_quapp.coeffs", "min: -2.5, -2.5", "max: 2.5, 2.5", "",
   "[particles]", "number: 10", "initial-distribution: random-global", "",
   "[birth-death]", "stride: 5", "kernel-bandwidth: 0.3,0.3", "approximation-variant: add", "",
   "[trajectories]", "stride: 5", "filename: traj", "",
   "[histogram]", "bins: 10, 5", "min: -2.5, -2.5", "max: 2.5, 2.5", "",
   "[fes]", "kt: 1", "stride: 100", "filename: fes"].map String.toList

def quappLd : Section := demoSection "ld" [("type", "overdamped"), ("timestep", "0.005"), ("n_steps", "100")]

def quappPot : Section := demoSection "potential"
  [("type", "polynomial"), ("n_dim", "2"), ("coeffs-file", "wolfe_quapp.coeffs"), ("min", "-2.5, -2.5"), ("max", "2.5, 2.5")]

def quappPart : Section := demoSection "particles" [("number", "10"), ("initial-distribution", "random-global")]

def quappBd : Section := demoSection "birth-death" [("stride", "5"), ("kernel-bandwidth", "0.3,0.3"), ("approximation-variant", "add")]

def quappTraj : Section := demoSection "trajectories" [("stride", "5"), ("filename", "traj")]

def quappHist : Section := demoSection "histogram" [("bins", "10, 5"), ("min", "-2.5, -2.5"), ("max", "2.5, 2.5")]

def quappFes : Section := demoSection "fes" [("kt", "1"), ("stride", "100"), ("filename", "fes")]

/-- The sections of the file. -/
def quappFile : List Section := [quappLd, quappPot, quappPart, quappBd, quappTraj, quappHist, quappFes]

theorem quapp_read : readConfig quappLines = .ok quappFile := by decide +kernel

def quappLdOpts : Dict (OptVal ℝ) :=
  [("type", .base (.str "overdamped")), ("timestep", .base (.float (1 / 200))), ("n_steps", .base (.int 100)), ("seed", .none)]

def quappPotOpts : Dict (OptVal ℝ) :=
  [("type", .base (.str "polynomial")), ("n_dim", .base (.int 2)), ("coeffs-file", .base (.str "wolfe_quapp.coeffs")),
   ("min", .list ([-5 / 2, -5 / 2].map .float)), ("max", .list ([5 / 2, 5 / 2].map .float)), ("boundary-condition", .none)]

def quappPartOpts : Dict (OptVal ℝ) :=
  [("number", .base (.int 10)), ("mass", .base (.float 1)), ("seed", .none), ("initial-distribution", .base (.str "random-global"))]

def quappBdOpts : Dict (OptVal ℝ) :=
  [("stride", .base (.int 5)), ("correction-variant", .none), ("approximation-variant", .base (.str "add")),
   ("exponential-factor", .none), ("recalculate-probabilities", .base (.bool false)), ("stats-stride", .none),
   ("stats-filename", .none), ("seed", .none), ("kernel-bandwidth", .list ([3 / 10, 3 / 10].map .float))]

def quappHistOpts : Dict (OptVal ℝ) :=
  [("stride", .none), ("reset", .none), ("filename", .none), ("write-stride", .none), ("fmt", .none),
   ("min", .list ([-5 / 2, -5 / 2].map .float)), ("max", .list ([5 / 2, 5 / 2].map .float)), ("bins", .list ([10, 5].map .int))]

def quappFesOpts : Dict (OptVal ℝ) :=
  [("kt", .base (.float 1)), ("stride", .base (.int 100)), ("filename", .base (.str "fes")), ("write-stride", .none),
   ("fmt", .none), ("plot-stride", .none), ("plot-filename", .none), ("plot-domain", .none), ("plot-title", .none)]

/-- What the parser makes of the file. -/
def quappInput : Input ℝ where
  ld := quappLdOpts
  potential := quappPotOpts
  particles := quappPartOpts
  birthDeath := some quappBdOpts
  trajectories := some exampleTrajOpts
  histogram := some quappHistOpts
  fes := some quappFesOpts
  deltaF := none

theorem tg1 : realConv.toFloat " -2.5" = some (-5 / 2) := float_text (-5 / 2) (by decide +kernel) (by norm_num)
theorem tg2 : realConv.toFloat " 2.5" = some (5 / 2) := float_text (5 / 2) (by decide +kernel) (by norm_num)
theorem tg3 : realConv.toFloat "0.1" = some (1 / 10) := float_text (1 / 10) (by decide +kernel) (by norm_num)
theorem tg4 : realConv.toFloat "-0.5" = some (-1 / 2) := float_text (-1 / 2) (by decide +kernel) (by norm_num)
theorem tg5 : realConv.toFloat " 1.5" = some (3 / 2) := float_text (3 / 2) (by decide +kernel) (by norm_num)
theorem tg6 : realConv.toFloat "0.6" = some (3 / 5) := float_text (3 / 5) (by decide +kernel) (by norm_num)
theorem tg7 : realConv.toFloat "-1.5" = some (-3 / 2) := float_text (-3 / 2) (by decide +kernel) (by norm_num)
theorem tg8 : realConv.toFloat " 0.7" = some (7 / 10) := float_text (7 / 10) (by decide +kernel) (by norm_num)
theorem ui1 : realConv.toInt "2" = some 2 := by decide +kernel
theorem ui2 : realConv.toInt " 5" = some 5 := by decide +kernel
theorem sq1 : pySplit "-2.5, -2.5" = ["-2.5", " -2.5"] := by decide +kernel
theorem sq2 : pySplit "2.5, 2.5" = ["2.5", " 2.5"] := by decide +kernel
theorem sq3 : pySplit "0.3,0.3" = ["0.3", "0.3"] := by decide +kernel
theorem sq4 : pySplit "10, 5" = ["10", " 5"] := by decide +kernel
theorem sq5 : pySplit "-0.5, 1.5" = ["-0.5", " 1.5"] := by decide +kernel
theorem sq6 : pySplit "0.6, 0" = ["0.6", " 0"] := by decide +kernel
theorem sq7 : pySplit "1, 1" = ["1", " 1"] := by decide +kernel
theorem sq8 : pySplit "-1.5, 0.7" = ["-1.5", " 0.7"] := by decide +kernel
theorem sq9 : pySplit "1, 2.5" = ["1", " 2.5"] := by decide +kernel

local macro "parse_quapp" : tactic => `(tactic| simp [quappLd, quappPot, quappPart, quappBd, quappTraj, quappHist, quappFes,
  demoSection, parseLd, parsePotential, parseParticles, potentialOptions, polyOptions, InputOption.parse, opt,
  optList, Dict.get?, List.lookup, InputOption.convert, ldOptions, parseSection, parseLoop, Dict.set, tf1, tf2, tf4, tf5,
  tf9, tf10, tf11, ti2, ti3, ti4, ti5, ti6, tg1, tg2, tg3, tg4, tg5, tg6, tg7, tg8, ui1, ui2, sq1, sq2, sq3, sq4, sq5, sq6, sq7, sq8, sq9,
  positive, allPositive, positiveOrZero, gtZero, cmpNum, allM, ok_bind, pure_eq_ok, atMost3dim, atMost3dimInt, pyAnd,
  callType, orValueError, particlesOptions, initialDistributions, oneOf, numberedSection,
  numberedLoop, numKey, List.range, List.range.loop, birthDeathOptions, trajectoriesOptions, histogramOptions, fesOptions,
  repr1, repr2, repr3])

set_option linter.unusedSimpArgs false
theorem quapp_parseLd : parseLd realConv quappLd = .ok quappLdOpts := by unfold quappLdOpts; parse_quapp
theorem quapp_parsePot : parsePotential realConv quappPot = .ok quappPotOpts := by unfold quappPotOpts; parse_quapp
theorem quapp_parsePart : parseParticles 1 realConv quappPart = .ok quappPartOpts := by unfold quappPartOpts; parse_quapp
theorem quapp_parseBd : parseSection realConv quappBd (birthDeathOptions false) = .ok quappBdOpts := by unfold quappBdOpts; parse_quapp
theorem quapp_parseTraj : parseSection realConv quappTraj trajectoriesOptions = .ok exampleTrajOpts := by
  unfold exampleTrajOpts; parse_quapp
theorem quapp_parseHist : parseSection realConv quappHist (histogramOptions false) = .ok quappHistOpts := by
  unfold quappHistOpts; parse_quapp
theorem quapp_parseFes : parseSection realConv quappFes fesOptions = .ok quappFesOpts := by unfold quappFesOpts; parse_quapp

theorem quapp_parse : parseAll 1 realConv (some quappFile) = .ok quappInput := by
  have f1 : findSection quappFile "ld" = some quappLd := rfl
  have f2 : findSection quappFile "potential" = some quappPot := rfl
  have f3 : findSection quappFile "particles" = some quappPart := rfl
  have f4 : findSection quappFile "birth-death" = some quappBd := rfl
  have f5 : findSection quappFile "trajectories" = some quappTraj := rfl
  have f6 : findSection quappFile "histogram" = some quappHist := rfl
  have f7 : findSection quappFile "fes" = some quappFes := rfl
  have f8 : findSection quappFile "delta-f" = none := rfl
  have f9 : findSection quappFile "particle-distribution" = none := rfl
  have f0 : isOneDim quappPotOpts = false := rfl
  simp [parseAll, requireSection, parseOptional, f1, f2, f3, f4, f5, f6, f7, f8, f9, f0, ok_bind, pure_eq_ok, quapp_parseLd,
    quapp_parsePot, quapp_parsePart, quapp_parseBd, quapp_parseTraj, quapp_parseHist, quapp_parseFes, quappInput]

theorem floats_inj {a b : List ℝ} (h : (some (.list (a.map .float)) : Option (OptVal ℝ)) = some (.list (b.map .float))) : a = b := by
  simp only [Option.some.injEq, OptVal.list.injEq] at h
  exact List.map_injective_iff.2 (fun x y e => by cases e; rfl) h

theorem ints_inj {a b : List Int} (h : (some (.list (a.map .int)) : Option (OptVal ℝ)) = some (.list (b.map .int))) : a = b := by
  simp only [Option.some.injEq, OptVal.list.injEq] at h
  exact List.map_injective_iff.2 (fun x y e => by cases e; rfl) h

variable {R : Type}

/-- The file has no contradictions if the coefficient file is the one of the documentation. -/
theorem quapp_consistent {w : World R} {files : String → Option (List (List Char))} (hw : w.ReadsText files)
    (hf : files "wolfe_quapp.coeffs" = some wolfeQuappLines) : ConsistentSpace w 2 quappInput where
  potential := .inl ⟨rfl, rfl, .inl rfl, by
    intro name hname
    cases hname
    have hf' := hw "wolfe_quapp.coeffs"
    rw [hf] at hf'
    obtain ⟨rows, hg, hrows⟩ := genfromtxt_lines wolfeQuapp_lines
    obtain ⟨table, htab, hto⟩ := hf' rows hg
    exact ⟨table, htab, _, rowsOf_table hrows hto, by simp [realTerms, wolfeQuappTerms]⟩, by
    intro mins maxs h1 h2
    obtain rfl := floats_inj h1
    obtain rfl := floats_inj h2
    norm_num⟩
  ldSeed := by intro i hi; cases hi
  particlesSeed := by intro i hi; cases hi
  start := .inl rfl
  bdSeed := by intro o ho i hi; cases ho; cases hi
  bdWalkers := by intro _ n hn; cases hn; decide
  bdVariant := by
    intro o ho key hkey s hs
    cases ho
    simp only [List.mem_cons, List.not_mem_nil, or_false] at hkey
    rcases hkey with rfl | rfl
    · cases hs
    · have : labelOf quappBdOpts "approximation-variant" = some "add" := by
        simp [labelOf, quappBdOpts, Dict.get?, List.lookup]
      rw [this] at hs
      cases hs
      decide
  bandwidths := by
    intro o l ho hl
    cases ho
    obtain rfl := floats_inj hl
    rfl
  needsTrajectories := fun _ => rfl
  bins := by
    intro o l ho hl
    cases ho
    obtain rfl := ints_inj hl
    rfl
  binRange := by
    intro o ho mins maxs h1 h2
    cases ho
    obtain rfl := floats_inj h1
    obtain rfl := floats_inj h2
    norm_num
  output := by
    rintro (⟨o, ho, h⟩ | ⟨o, ho, h⟩ | ⟨o, ho, h⟩ | ⟨o, ho, h⟩)
    · cases ho
      exact absurd h.1 (by simp [natOption, quappHistOpts, Dict.get?, List.lookup])
    · cases ho
      rcases h with ⟨h, _⟩ | ⟨h, _⟩
      · simp [natOption, quappFesOpts, Dict.get?, List.lookup] at h
      · simp [intOption, quappFesOpts, Dict.get?, List.lookup] at h
    · cases ho
    · cases ho
  plots := by
    intro o ho
    cases ho
    exact .inl rfl
  noDeltaF := rfl
  distribution := by intro o ho; cases ho

/-- **C126.** The file is simulated to the end, with the potential of Wolfe and Quapp. -/
theorem quapp_runs (w : World R) (hconv : w.conv = realConv) (hops : w.bdOps.Lawful) (hinit : w.init.Lawful) (hone : OneValueEach w)
    {files : String → Option (List (List Char))} (hw : w.ReadsText files) (hf : files "wolfe_quapp.coeffs" = some wolfeQuappLines) :
    ∃ a, mainText w (some quappLines) = .finished a ∧ a.d = 2 := by
  have hp : parseAll 1 w.conv (some quappFile) = .ok quappInput := by rw [hconv]; exact quapp_parse
  obtain ⟨a, ha, hd⟩ := space_progress w (some quappFile) quappInput hp (quapp_consistent hw hf) hops hinit hone
    (fun o ho => .inl (by cases ho; rfl))
  refine ⟨a, ?_, hd⟩
  simp only [mainText, quapp_read]
  exact ha

/-! ### Müller and Brown -/

/-- An input file with the potential of Müller and Brown. -/
def brownLines : List (List Char) :=
  ["[ld]", "type: overdamped", "timestep: 0.005", "n_steps: 100", "",
   "[potential]", "type: mueller-brown", "scaling-factor: 0.1", "boundary-condition: reflective", "",
   "[particles]", "number: 10", "initial-distribution: fractions-pos", "fractions: 1, 1", "pos1: -0.5, 1.5", "pos2: 0.6, 0", "",
   "[birth-death]", "stride: 5", "kernel-bandwidth: 0.3,0.3", "",
   "[particle-distribution]", "stride: 100", "filename: states", "state1-min: -1.5, 0.7", "state1-max: 1, 2.5"].map String.toList

def brownPot : Section := demoSection "potential"
  [("type", "mueller-brown"), ("scaling-factor", "0.1"), ("boundary-condition", "reflective")]

def brownPart : Section := demoSection "particles"
  [("number", "10"), ("initial-distribution", "fractions-pos"), ("fractions", "1, 1"), ("pos1", "-0.5, 1.5"), ("pos2", "0.6, 0")]

def brownBd : Section := demoSection "birth-death" [("stride", "5"), ("kernel-bandwidth", "0.3,0.3")]

def brownDist : Section := demoSection "particle-distribution"
  [("stride", "100"), ("filename", "states"), ("state1-min", "-1.5, 0.7"), ("state1-max", "1, 2.5")]

/-- The sections of the file. -/
def brownFile : List Section := [quappLd, brownPot, brownPart, brownBd, brownDist]

theorem brown_read : readConfig brownLines = .ok brownFile := by decide +kernel

def brownPotOpts : Dict (OptVal ℝ) :=
  [("type", .base (.str "mueller-brown")), ("scaling-factor", .base (.float (1 / 10))), ("n_dim", .base (.int 2)),
   ("boundary-condition", .base (.str "reflective"))]

def brownPartOpts : Dict (OptVal ℝ) :=
  [("number", .base (.int 10)), ("mass", .base (.float 1)), ("seed", .none), ("initial-distribution", .base (.str "fractions-pos")),
   ("pos1", .list ([-1 / 2, 3 / 2].map .float)), ("pos2", .list ([3 / 5, 0].map .float)), ("fractions", .list ([1, 1].map .float))]

def brownBdOpts : Dict (OptVal ℝ) :=
  [("stride", .base (.int 5)), ("correction-variant", .none), ("approximation-variant", .none),
   ("exponential-factor", .none), ("recalculate-probabilities", .base (.bool false)), ("stats-stride", .none),
   ("stats-filename", .none), ("seed", .none), ("kernel-bandwidth", .list ([3 / 10, 3 / 10].map .float))]

def brownDistOpts : Dict (OptVal ℝ) :=
  [("stride", .base (.int 100)), ("filename", .base (.str "states")), ("write-stride", .none), ("fmt", .none),
   ("state1-min", .list ([-3 / 2, 7 / 10].map .float)), ("state1-max", .list ([1, 5 / 2].map .float))]

/-- What the parser makes of the file. -/
def brownInput : Input ℝ where
  ld := quappLdOpts
  potential := brownPotOpts
  particles := brownPartOpts
  birthDeath := some brownBdOpts
  trajectories := none
  histogram := none
  fes := none
  deltaF := none
  particleDistribution := some brownDistOpts

def brownStateOptions : List (InputOption ℝ) :=
  [opt "stride" .int false (some positive), opt "filename" .str false,
    opt "write-stride" .int false (some positive), opt "fmt" .str false,
    ⟨"state1-min", .list .float, true, none, .none⟩, ⟨"state1-max", .list .float, true, none, .none⟩]

theorem brown_options : stateActionOptions brownDist = .ok brownStateOptions := rfl

local macro "parse_brown" : tactic => `(tactic| simp [brownPot, brownPart, brownBd, brownDist, brownStateOptions,
  demoSection, parseLd, parsePotential, parseParticles, potentialOptions, polyOptions, InputOption.parse, opt,
  optList, Dict.get?, List.lookup, InputOption.convert, ldOptions, parseSection, parseLoop, Dict.set, tf1, tf2, tf4, tf5,
  tf9, tf10, tf11, ti2, ti3, ti4, ti5, ti6, tg1, tg2, tg3, tg4, tg5, tg6, tg7, tg8, ui1, ui2, sq1, sq2, sq3, sq4, sq5, sq6, sq7, sq8, sq9,
  positive, allPositive, positiveOrZero, gtZero, cmpNum, allM, ok_bind, pure_eq_ok, atMost3dim, atMost3dimInt, pyAnd,
  callType, orValueError, particlesOptions, initialDistributions, oneOf, numberedSection,
  numberedLoop, numKey, List.range, List.range.loop, birthDeathOptions, trajectoriesOptions, histogramOptions, fesOptions,
  repr1, repr2, repr3])

theorem brown_parsePot : parsePotential realConv brownPot = .ok brownPotOpts := by unfold brownPotOpts; parse_brown
theorem brown_parsePart : parseParticles 1 realConv brownPart = .ok brownPartOpts := by unfold brownPartOpts; parse_brown
theorem brown_parseBd : parseSection realConv brownBd (birthDeathOptions false) = .ok brownBdOpts := by unfold brownBdOpts; parse_brown
theorem brown_parseDist : parseSection realConv brownDist brownStateOptions = .ok brownDistOpts := by unfold brownDistOpts; parse_brown

theorem brown_parse : parseAll 1 realConv (some brownFile) = .ok brownInput := by
  have f1 : findSection brownFile "ld" = some quappLd := rfl
  have f2 : findSection brownFile "potential" = some brownPot := rfl
  have f3 : findSection brownFile "particles" = some brownPart := rfl
  have f4 : findSection brownFile "birth-death" = some brownBd := rfl
  have f5 : findSection brownFile "trajectories" = none := rfl
  have f6 : findSection brownFile "histogram" = none := rfl
  have f7 : findSection brownFile "fes" = none := rfl
  have f8 : findSection brownFile "delta-f" = none := rfl
  have f9 : findSection brownFile "particle-distribution" = some brownDist := rfl
  have f0 : isOneDim brownPotOpts = false := rfl
  simp [parseAll, requireSection, parseOptional, f1, f2, f3, f4, f5, f6, f7, f8, f9, f0, ok_bind, pure_eq_ok, quapp_parseLd,
    brown_parsePot, brown_parsePart, brown_parseBd, brown_parseDist, brown_options, brownInput]

/-- The file has no contradictions. -/
theorem brown_consistent (w : World R) : ConsistentSpace w 2 brownInput where
  potential := .inr ⟨rfl, (by intro h; cases h), rfl⟩
  ldSeed := by intro i hi; cases hi
  particlesSeed := by intro i hi; cases hi
  start := .inr ⟨[[-1 / 2, 3 / 2], [3 / 5, 0]], by
    refine ⟨?_, rfl⟩
    intro i hi
    match i, hi with
    | 0, _ => rfl
    | 1, _ => rfl, by simp, .inr ⟨rfl, by
    intro fractions h
    obtain rfl := floats_inj h
    norm_num⟩⟩
  bdSeed := by intro o ho i hi; cases ho; cases hi
  bdWalkers := by intro _ n hn; cases hn; decide
  bdVariant := by
    intro o ho key hkey s hs
    cases ho
    simp only [List.mem_cons, List.not_mem_nil, or_false] at hkey
    rcases hkey with rfl | rfl <;> cases hs
  bandwidths := by
    intro o l ho hl
    cases ho
    obtain rfl := floats_inj hl
    rfl
  needsTrajectories := by intro h; cases h
  bins := by intro o l ho; cases ho
  binRange := by intro o ho; cases ho
  output := by
    rintro (⟨o, ho, h⟩ | ⟨o, ho, h⟩ | ⟨o, ho, h⟩ | ⟨o, ho, h⟩)
    · cases ho
    · cases ho
    · cases ho
    · cases ho
      exact absurd h.2.1 (by simp [natOption, brownDistOpts, Dict.get?, List.lookup])
  plots := by intro o ho; cases ho
  noDeltaF := rfl
  distribution := by
    intro o ho
    cases ho
    refine ⟨[[-3 / 2, 7 / 10]], [[1, 5 / 2]], ⟨?_, rfl⟩, ⟨?_, rfl⟩, by simp, by simp⟩
    all_goals
      intro i hi
      match i, hi with
      | 0, _ => rfl

/-- **C126.** The file is simulated to the end. -/
theorem brown_runs (w : World R) (hconv : w.conv = realConv) (hops : w.bdOps.Lawful) (hinit : w.init.Lawful) (hone : OneValueEach w) :
    ∃ a, mainText w (some brownLines) = .finished a ∧ a.d = 2 := by
  have hp : parseAll 1 w.conv (some brownFile) = .ok brownInput := by rw [hconv]; exact brown_parse
  obtain ⟨a, ha, hd⟩ := space_progress w (some brownFile) brownInput hp (brown_consistent w) hops hinit hone
    (fun o ho => .inl (by cases ho; rfl))
  refine ⟨a, ?_, hd⟩
  simp only [mainText, brown_read]
  exact ha

/-- Non-vacuity: there is a world for both files. -/
example : ∃ w : World Bool, (∃ a, mainText w (some quappLines) = .finished a ∧ a.d = 2) ∧
    ∃ a, mainText w (some brownLines) = .finished a ∧ a.d = 2 := by
  obtain ⟨w₀, files, hw, hf⟩ : ∃ (w : World Bool) (files : String → Option (List (List Char))), w.ReadsText files ∧
      files "wolfe_quapp.coeffs" = some wolfeQuappLines := by
    obtain ⟨w, files, h1, h2⟩ := wolfeQuapp_world
    exact ⟨{ exampleWorld with coeffFile := w.coeffFile }, files, h1, h2⟩
  let w : World Bool := { exampleWorld with coeffFile := w₀.coeffFile, interp := fun _ _ xs => xs.map fun _ => 0 }
  have hi : w.init.Lawful := ⟨fun _ _ _ h => ⟨le_rfl, h⟩, fun _ _ h => h⟩
  have ho : OneValueEach w := fun _ _ _ => List.length_map _
  exact ⟨w, quapp_runs w rfl demoBdOps_lawful hi ho hw hf, brown_runs w rfl demoBdOps_lawful hi ho⟩

end

end Bdld
