import Verif.Props.LineProgress
import Verif.Props.PyNumberRead
import Verif.Props.MainDemo
import Verif.Props.MainAnalysis
import Verif.Props.TextRun

/-
C122: the file `example_input` of the repository.
-/

namespace Bdld
open Spec

noncomputable section

deriving instance DecidableEq for Except
deriving instance DecidableEq for Section

/-- The file `example_input`. -/
def exampleLines : List (List Char) :=
  ["[DEFAULT]", "kt: 1", "seed: 632683", "",
   "[ld]", "type: bussi-parinello", "timestep: 0.005", "friction: 10.0", "n_steps: 10000", "",
   "[potential]", "type: polynomial", "n_dim: 1", "coeffs: 0, 0.2, -4, 0, 1", "min: -2.5", "max: 2.5", "",
   "[particles]", "number: 10", "initial-distribution: random-global", "",
   "[birth-death]", "stride: 100", "kernel-bandwidth: 0.3", "correction-variant: multiplicative", "",
   "[trajectories]", "stride: 5", "filename: traj", "",
   "[histogram]", "bins: 200", "min: -2.5", "max: 2.5", "filename: histo", "",
   "[fes]", "stride: 100", "write-stride: 500", "filename: fes", "plot-filename: fes.png", "plot-domain: 0,8", "",
   "[delta-f]", "stride: 100", "state1-min: -2.5", "state1-max: 0.0", "state2-min: 0.0", "state2-max: 2.5",
   "filename: delta_f"].map String.toList

/-- The values of `DEFAULT`. -/
def exampleShared : List (String × String) := [("kt", "1"), ("seed", "632683")]

def exampleLd : Section := demoSection "ld"
  ([("type", "bussi-parinello"), ("timestep", "0.005"), ("friction", "10.0"), ("n_steps", "10000")] ++ exampleShared)

def examplePot : Section := demoSection "potential"
  ([("type", "polynomial"), ("n_dim", "1"), ("coeffs", "0, 0.2, -4, 0, 1"), ("min", "-2.5"), ("max", "2.5")] ++ exampleShared)

def examplePart : Section := demoSection "particles" ([("number", "10"), ("initial-distribution", "random-global")] ++ exampleShared)

def exampleBd : Section := demoSection "birth-death"
  ([("stride", "100"), ("kernel-bandwidth", "0.3"), ("correction-variant", "multiplicative")] ++ exampleShared)

def exampleTraj : Section := demoSection "trajectories" ([("stride", "5"), ("filename", "traj")] ++ exampleShared)

def exampleHist : Section := demoSection "histogram"
  ([("bins", "200"), ("min", "-2.5"), ("max", "2.5"), ("filename", "histo")] ++ exampleShared)

def exampleFes : Section := demoSection "fes"
  ([("stride", "100"), ("write-stride", "500"), ("filename", "fes"), ("plot-filename", "fes.png"), ("plot-domain", "0,8")] ++ exampleShared)

def exampleDf : Section := demoSection "delta-f"
  ([("stride", "100"), ("state1-min", "-2.5"), ("state1-max", "0.0"), ("state2-min", "0.0"), ("state2-max", "2.5"),
    ("filename", "delta_f")] ++ exampleShared)

/-- The sections of the file. -/
def exampleFile : List Section := [exampleLd, examplePot, examplePart, exampleBd, exampleTraj, exampleHist, exampleFes, exampleDf]

theorem example_read : readConfig exampleLines = .ok exampleFile := by decide +kernel

/-! ### Options -/

/-- `float()` and `int()`. -/
abbrev realConv : Conv ℝ := textConv fun q => (q : ℝ)

def exampleLdOpts : Dict (OptVal ℝ) :=
  [("type", .base (.str "bussi-parinello")), ("timestep", .base (.float (1 / 200))), ("n_steps", .base (.int 10000)),
   ("seed", .base (.int 632683)), ("kt", .base (.float 1)), ("friction", .base (.float 10))]

def examplePotOpts : Dict (OptVal ℝ) :=
  [("type", .base (.str "polynomial")), ("n_dim", .base (.int 1)),
   ("coeffs", .list ([0, 1 / 5, -4, 0, 1].map .float)), ("min", .base (.float (-5 / 2))), ("max", .base (.float (5 / 2))),
   ("boundary-condition", .none)]

def examplePartOpts : Dict (OptVal ℝ) :=
  [("number", .base (.int 10)), ("mass", .base (.float 1)), ("seed", .base (.int 632683)),
   ("initial-distribution", .base (.str "random-global"))]

def exampleBdOpts : Dict (OptVal ℝ) :=
  [("stride", .base (.int 100)), ("correction-variant", .base (.str "multiplicative")), ("approximation-variant", .none),
   ("exponential-factor", .none), ("recalculate-probabilities", .base (.bool false)), ("stats-stride", .none),
   ("stats-filename", .none), ("seed", .base (.int 632683)), ("kernel-bandwidth", .base (.float (3 / 10)))]

def exampleTrajOpts : Dict (OptVal ℝ) :=
  [("filename", .base (.str "traj")), ("stride", .base (.int 5)), ("momentum", .none), ("write-stride", .none), ("fmt", .none)]

def exampleHistOpts : Dict (OptVal ℝ) :=
  [("stride", .none), ("reset", .none), ("filename", .base (.str "histo")), ("write-stride", .none), ("fmt", .none),
   ("min", .base (.float (-5 / 2))), ("max", .base (.float (5 / 2))), ("bins", .base (.int 200))]

def exampleFesOpts : Dict (OptVal ℝ) :=
  [("kt", .base (.float 1)), ("stride", .base (.int 100)), ("filename", .base (.str "fes")), ("write-stride", .base (.int 500)),
   ("fmt", .none), ("plot-stride", .none), ("plot-filename", .base (.str "fes.png")), ("plot-domain", .list [.float 0, .float 8]),
   ("plot-title", .none)]

def exampleDfOpts : Dict (OptVal ℝ) :=
  [("stride", .base (.int 100)), ("filename", .base (.str "delta_f")), ("write-stride", .none), ("fmt", .none),
   ("state1-min", .list [.float (-5 / 2)]), ("state1-max", .list [.float 0]),
   ("state2-min", .list [.float 0]), ("state2-max", .list [.float (5 / 2)])]

/-- What the parser makes of the file. -/
def exampleInput : Input ℝ where
  ld := exampleLdOpts
  potential := examplePotOpts
  particles := examplePartOpts
  birthDeath := some exampleBdOpts
  trajectories := some exampleTrajOpts
  histogram := some exampleHistOpts
  fes := some exampleFesOpts
  deltaF := some exampleDfOpts

theorem float_text {s : String} (q : ℚ) {x : ℝ} (h : pyFloat s.toList = some (.num q)) (hq : (q : ℝ) = x) :
    realConv.toFloat s = some x := by
  change Option.map _ ((pyFloat s.toList).bind FloatVal.finite) = _
  rw [h]
  simp [FloatVal.finite, hq]

theorem tf1 : realConv.toFloat "1" = some 1 := float_text 1 (by decide +kernel) (by norm_num)
theorem tf2 : realConv.toFloat "0.005" = some (1 / 200) := float_text (1 / 200) (by decide +kernel) (by norm_num)
theorem tf3 : realConv.toFloat "10.0" = some 10 := float_text 10 (by decide +kernel) (by norm_num)
theorem tf4 : realConv.toFloat "-2.5" = some (-5 / 2) := float_text (-5 / 2) (by decide +kernel) (by norm_num)
theorem tf5 : realConv.toFloat "2.5" = some (5 / 2) := float_text (5 / 2) (by decide +kernel) (by norm_num)
theorem tf6 : realConv.toFloat "0" = some 0 := float_text 0 (by decide +kernel) (by norm_num)
theorem tf7 : realConv.toFloat " 0.2" = some (1 / 5) := float_text (1 / 5) (by decide +kernel) (by norm_num)
theorem tf8 : realConv.toFloat " -4" = some (-4) := float_text (-4) (by decide +kernel) (by norm_num)
theorem tf9 : realConv.toFloat " 0" = some 0 := float_text 0 (by decide +kernel) (by norm_num)
theorem tf10 : realConv.toFloat " 1" = some 1 := float_text 1 (by decide +kernel) (by norm_num)
theorem tf11 : realConv.toFloat "0.3" = some (3 / 10) := float_text (3 / 10) (by decide +kernel) (by norm_num)
theorem tf12 : realConv.toFloat "8" = some 8 := float_text 8 (by decide +kernel) (by norm_num)
theorem tf13 : realConv.toFloat "0.0" = some 0 := float_text 0 (by decide +kernel) (by norm_num)
theorem ti1 : realConv.toInt "632683" = some 632683 := by decide +kernel
theorem ti2 : realConv.toInt "10000" = some 10000 := by decide +kernel
theorem ti3 : realConv.toInt "1" = some 1 := by decide +kernel
theorem ti4 : realConv.toInt "10" = some 10 := by decide +kernel
theorem ti5 : realConv.toInt "100" = some 100 := by decide +kernel
theorem ti6 : realConv.toInt "5" = some 5 := by decide +kernel
theorem ti7 : realConv.toInt "200" = some 200 := by decide +kernel
theorem ti8 : realConv.toInt "500" = some 500 := by decide +kernel
theorem sp1 : pySplit "0, 0.2, -4, 0, 1" = ["0", " 0.2", " -4", " 0", " 1"] := by decide +kernel
theorem sp2 : pySplit "0,8" = ["0", "8"] := by decide +kernel
theorem sp3 : pySplit "-2.5" = ["-2.5"] := by decide +kernel
theorem sp4 : pySplit "2.5" = ["2.5"] := by decide +kernel
theorem sp5 : pySplit "0.0" = ["0.0"] := by decide +kernel

def exampleStateOptions : List (InputOption ℝ) :=
  [opt "stride" .int false (some positive), opt "filename" .str false,
    opt "write-stride" .int false (some positive), opt "fmt" .str false,
    ⟨"state1-min", .list .float, true, none, .none⟩, ⟨"state1-max", .list .float, true, none, .none⟩,
    ⟨"state2-min", .list .float, true, none, .none⟩, ⟨"state2-max", .list .float, true, none, .none⟩]

theorem example_options : stateActionOptions exampleDf = .ok exampleStateOptions := rfl

local macro "parse_ex" : tactic => `(tactic| simp [exampleLd, examplePot, examplePart, exampleBd, exampleTraj, exampleHist, exampleFes,
  exampleDf, exampleShared, demoSection, parseLd, parsePotential, parseParticles, potentialOptions, polyOptions, InputOption.parse, opt,
  optList, Dict.get?, List.lookup, InputOption.convert, ldOptions, parseSection, parseLoop, Dict.set, tf1, tf2, tf3, tf4, tf5, tf6, tf7,
  tf8, tf9, tf10, tf11, tf12, tf13, ti1, ti2, ti3, ti4, ti5, ti6, ti7, ti8, sp1, sp2, sp3, sp4, sp5,
  positive, allPositive, positiveOrZero, gtZero, cmpNum, ok_bind, pure_eq_ok, atMost3dim, atMost3dimInt, pyAnd,
  callType, orValueError, particlesOptions, initialDistributions, oneOf, numberedSection,
  numberedLoop, numKey, List.range, List.range.loop, birthDeathOptions, trajectoriesOptions, histogramOptions, fesOptions,
  exampleStateOptions, repr1, repr2, repr3])

set_option linter.unusedSimpArgs false
theorem example_parseLd : parseLd realConv exampleLd = .ok exampleLdOpts := by unfold exampleLdOpts; parse_ex
theorem example_parsePot : parsePotential realConv examplePot = .ok examplePotOpts := by unfold examplePotOpts; parse_ex
theorem example_parsePart : parseParticles 1 realConv examplePart = .ok examplePartOpts := by unfold examplePartOpts; parse_ex
theorem example_parseBd : parseSection realConv exampleBd (birthDeathOptions true) = .ok exampleBdOpts := by
  unfold exampleBdOpts; parse_ex
theorem example_parseTraj : parseSection realConv exampleTraj trajectoriesOptions = .ok exampleTrajOpts := by
  unfold exampleTrajOpts; parse_ex
theorem example_parseHist : parseSection realConv exampleHist (histogramOptions true) = .ok exampleHistOpts := by
  unfold exampleHistOpts; parse_ex
theorem example_parseFes : parseSection realConv exampleFes fesOptions = .ok exampleFesOpts := by unfold exampleFesOpts; parse_ex
theorem example_parseDf : parseSection realConv exampleDf exampleStateOptions = .ok exampleDfOpts := by unfold exampleDfOpts; parse_ex

theorem example_parse : parseAll 1 realConv (some exampleFile) = .ok exampleInput := by
  have f1 : findSection exampleFile "ld" = some exampleLd := rfl
  have f2 : findSection exampleFile "potential" = some examplePot := rfl
  have f3 : findSection exampleFile "particles" = some examplePart := rfl
  have f4 : findSection exampleFile "birth-death" = some exampleBd := rfl
  have f5 : findSection exampleFile "trajectories" = some exampleTraj := rfl
  have f6 : findSection exampleFile "histogram" = some exampleHist := rfl
  have f7 : findSection exampleFile "fes" = some exampleFes := rfl
  have f8 : findSection exampleFile "delta-f" = some exampleDf := rfl
  have f9 : findSection exampleFile "particle-distribution" = none := rfl
  have f0 : isOneDim examplePotOpts = true := rfl
  simp [parseAll, requireSection, parseOptional, f1, f2, f3, f4, f5, f6, f7, f8, f9, f0, ok_bind, pure_eq_ok, example_parseLd,
    example_parsePot, example_parsePart, example_parseBd, example_parseTraj, example_parseHist, example_parseFes, example_parseDf,
    example_options, exampleInput]

/-- The example has no contradictions (if plots can be saved as `png`). -/
theorem example_consistent {formats : List String} (h : saveable formats "fes.png" = true) (terminal : Bool) :
    ConsistentLine formats terminal exampleInput where
  polynomial := rfl
  oneDim := rfl
  coeffs := by decide
  range := by
    intro lo hi h1 h2
    cases h1
    cases h2
    norm_num
  ldSeed := by intro i hi; cases hi; decide
  particlesSeed := by intro i hi; cases hi; decide
  start := .inl rfl
  bdSeed := by intro o ho i hi; cases ho; cases hi; decide
  bdWalkers := by intro _ n hn; cases hn; decide
  bdVariant := by
    intro o ho key hkey s hs
    cases ho
    simp only [List.mem_cons, List.not_mem_nil, or_false] at hkey
    rcases hkey with rfl | rfl
    · have : labelOf exampleBdOpts "correction-variant" = some "multiplicative" := by
        simp [labelOf, exampleBdOpts, Dict.get?, List.lookup]
      rw [this] at hs
      cases hs
      decide
    · cases hs
  needsTrajectories := fun _ => rfl
  bins := by
    intro o ho lo hi h1 h2
    cases ho
    cases h1
    cases h2
    norm_num
  output := by
    rintro (⟨o, ho, h⟩ | ⟨o, ho, h⟩ | ⟨o, ho, h⟩ | ⟨o, ho, h⟩)
    · cases ho
      exact absurd h.1 (by simp [natOption, exampleHistOpts, Dict.get?, List.lookup])
    · cases ho
      rcases h with ⟨_, h | h⟩ | ⟨h, _⟩
      · simp [natOption, exampleFesOpts, Dict.get?, List.lookup] at h
      · simp [hasFilename, exampleFesOpts, Dict.get?, List.lookup] at h
      · simp [intOption, exampleFesOpts, Dict.get?, List.lookup] at h
    · cases ho
      exact absurd h.2.1 (by simp [natOption, exampleDfOpts, Dict.get?, List.lookup])
    · cases ho
  plots := by
    intro o ho
    cases ho
    refine .inr ⟨fun l hl => ?_, .inr ⟨h, .inl rfl⟩⟩
    cases hl
    rfl
  deltaF := by
    intro o ho
    cases ho
    refine ⟨[-5 / 2, 0], [0, 5 / 2], ⟨?_, rfl⟩, ⟨?_, rfl⟩, le_rfl⟩
    all_goals
      intro i hi
      match i, hi with
      | 0, _ => rfl
      | 1, _ => rfl
  distribution := by intro o ho; cases ho

/-! ### The run -/

variable {R : Type}

/-- **C122.** The file `example_input` is simulated to the end, for every generator of random numbers. -/
theorem example_runs (w : World R) (hconv : w.conv = realConv) (hops : w.bdOps.Lawful) (hinit : w.init.Lawful) (hlin : LinearGriddata w)
    (hpng : saveable w.figFormats "fes.png" = true) : ∃ a, mainText w (some exampleLines) = .finished a := by
  have hp : parseAll 1 w.conv (some exampleFile) = .ok exampleInput := by rw [hconv]; exact example_parse
  obtain ⟨a, ha⟩ := line_progress w (some exampleFile) exampleInput hp (example_consistent hpng w.terminal) hops hinit hlin
    (fun o ho => .inl (by cases ho; rfl))
  refine ⟨a, ?_⟩
  simp only [mainText, example_read]
  exact ha

/-- A finished run of the example. -/
theorem example_finished {w : World R} {a : AnySim R} (hconv : w.conv = realConv) (h : mainText w (some exampleLines) = .finished a) :
    ∃ s0, FinishedRun w (some exampleFile) a exampleInput 10000 s0 := by
  simp only [mainText, example_read] at h
  obtain ⟨config, n, s0, hr⟩ := main_run w _ a h
  have hp := hr.parse
  rw [hconv, example_parse] at hp
  cases hp
  have hn : n = 10000 := by
    have := hr.steps
    cases this
    rfl
  subst hn
  exact ⟨s0, hr⟩

/-- **C122.** The simulated system: ten walkers in the potential `x ↦ x⁴ - 4 x² + x / 5`. -/
theorem example_system {w : World R} {a : AnySim R} (hconv : w.conv = realConv) (hops : w.bdOps.Lawful)
    (h : mainText w (some exampleLines) = .finished a) : a.d = 1 ∧ a.sim.particles.length = 10 ∧ a.cfg.kind = .bussi ∧
      a.cfg.ld.dt = 1 / 200 ∧ a.cfg.ld.kt = 1 ∧ a.cfg.ld.pot.ranges = [(-5 / 2, 5 / 2)] ∧
      ∀ (x : Fin a.d → ℝ) k, a.cfg.ld.pot.energy x = x k ^ 4 - 4 * x k ^ 2 + x k / 5 := by
  obtain ⟨s0, hr⟩ := example_finished hconv h
  obtain ⟨hd, cs, lo, hi, h1, h2, h3, h4, h5⟩ := (main_potential hr).oneDim rfl rfl
  obtain ⟨dt, fr, kt, c1, c2, c3, c4, c5⟩ := (main_constants hr).2.1 rfl
  cases c1
  cases c2
  cases c3
  cases h2
  cases h3
  have hcs : cs = [0, 1 / 5, -4, 0, 1] := by
    have : ([0, 1 / 5, -4, 0, 1] : List ℝ).map BaseVal.float = cs.map .float := by
      have h1' : some (OptVal.list (([0, 1 / 5, -4, 0, 1] : List ℝ).map BaseVal.float)) = some (OptVal.list (cs.map .float)) := h1
      simpa using h1'
    exact (List.map_injective_iff.2 (fun x y e => by cases e; rfl) this).symm
  obtain ⟨mass, number, m1, m2, m3, -⟩ := main_initial hr
  cases m2
  refine ⟨hd, ?_, c4, by rw [c5]; rfl, by rw [c5]; rfl, h4, fun x k => ?_⟩
  · rw [(main_walkers hr hops).2, (m3 rfl).2.2]
    simp
  · rw [h5 x k, hcs]
    simp [poly1, Finset.sum_range_succ]
    ring

theorem sampledSteps_multiples (s : Nat) (hs : 0 < s) (n : Nat) : sampledSteps s 0 (n * s) = (List.range n).map fun k => (k + 1) * s := by
  induction n with
  | zero => simp
  | succ n ih =>
    rw [← sampledSteps_append s (Nat.zero_le (n * s)) (Nat.mul_le_mul_right s n.le_succ), ih, List.range_succ, List.map_append]
    congr 1
    refine (sampledSteps_pairwise _ _ _).eq_of_mem_iff (by simp) fun t => ?_
    rw [mem_sampledSteps]
    simp only [List.map_cons, List.map_nil, List.mem_singleton]
    refine ⟨fun ⟨h1, h2, k, hk⟩ => ?_, fun h => ?_⟩
    · subst hk
      rw [Nat.mul_comm s k] at h1 h2
      have h1 := lt_of_mul_lt_mul_right h1 (Nat.zero_le s)
      have h2 := le_of_mul_le_mul_right h2 hs
      rw [Nat.mul_comm, show k = n + 1 by omega]
    · subst h
      exact ⟨by nlinarith, le_rfl, Dvd.intro_left _ rfl⟩

theorem multiple_times (dt : ℝ) (p s n : Nat) (o : Dict (OptVal ℝ)) (ho : natOption o "stride" 1 = s) (hs : 0 < s) (c : ℝ) (hc : s * dt = c) :
    (sampledSteps (natOption o "stride" 1) 0 (n * s)).map (fun t : Nat => some (printedValue p (((t : ℝ) * dt : ℝ) : WithTop ℝ))) =
      (List.range n).map (fun k : Nat => some (printedValue p ((((k + 1 : ℕ) : ℝ) * c : ℝ) : WithTop ℝ))) := by
  rw [ho, sampledSteps_multiples s hs, List.map_map]
  refine List.map_congr_left fun k _ => ?_
  simp only [Function.comp_apply]
  rw [← hc]
  congr 3
  push_cast
  ring

/-- **C122.** Every trajectory file has 2000 rows, and its numbers are those of the walker at the multiples of 5. -/
theorem example_trajectories {w : World R} {a : AnySim R} (hconv : w.conv = realConv) (hops : w.bdOps.Lawful)
    (h : mainText w (some exampleLines) = .finished a) (width p : Nat) : ∃ x files, a.sim.traj = some x ∧ x.files = some files ∧
      files.length = 10 ∧ ∀ i rows, files[i]? = some rows → ∃ table, readTable (trajText width p ["x"] false i rows) = some table ∧
        table.map List.head? = (List.range 2000).map (fun k : Nat => some (printedValue p ((((k + 1 : ℕ) : ℝ) * (1 / 40) : ℝ) : WithTop ℝ))) := by
  obtain ⟨s0, hr⟩ := example_finished hconv h
  obtain ⟨hd, hlen, -, hdt, -⟩ := example_system hconv hops h
  obtain ⟨fs, x, files, h1, h2, h3, h4, h5⟩ := trajectory_text hr hops exampleTrajOpts rfl
    (by simp [hasFilename, exampleTrajOpts, Dict.get?, List.lookup]) width p
  rw [hd] at h1
  cases h1
  refine ⟨x, files, h2, h3, by rw [h4, ← (main_walkers hr hops).2, hlen], fun i rows hi => ?_⟩
  obtain ⟨table, t1, t2, -⟩ := h5 i rows hi
  refine ⟨table, t1, t2.trans ?_⟩
  rw [hdt]
  exact multiple_times (1 / 200) p 5 2000 exampleTrajOpts (by simp [natOption, exampleTrajOpts, Dict.get?, List.lookup]) (by decide) (1 / 40)
    (by norm_num)

/-- **C122.** What the histogram of the example contains: all steps, the last 100 steps once more, and the origin. -/
theorem example_histogram {w : World R} {a : AnySim R} (hconv : w.conv = realConv) (hops : w.bdOps.Lawful)
    (h : mainText w (some exampleLines) = .finished a) : ∃ (s0 : Sim a.d R) (hr : FinishedRun w (some exampleFile) a exampleInput 10000 s0) (y : _),
      a.sim.hist = some y ∧ ∀ idx, y.data idx = countInBin y.bins idx [List.replicate a.d 0] +
        countInBin y.bins idx (positionsAt hr.snaps (sampledSteps 1 0 10000)) +
        countInBin y.bins idx (positionsAt hr.snaps (sampledSteps 1 9900 10000)) := by
  obtain ⟨s0, hr⟩ := example_finished hconv h
  obtain ⟨hd, hlen, -⟩ := example_system hconv hops h
  obtain ⟨y, h1, -, h2⟩ := main_histogram hr hops exampleTrajOpts exampleHistOpts rfl rfl rfl
    (by rw [← (main_walkers hr hops).2, hlen]; decide)
  refine ⟨s0, hr, y, h1, fun idx => ?_⟩
  have e1 : hasFilename exampleTrajOpts = true := by simp [hasFilename, exampleTrajOpts, Dict.get?, List.lookup]
  have e2 : natOption exampleHistOpts "stride" 1 = 1 := by simp [natOption, exampleHistOpts, Dict.get?, List.lookup]
  have e3 : natOption exampleTrajOpts "write-stride" 100 = 100 := by simp [natOption, exampleTrajOpts, Dict.get?, List.lookup]
  rw [h2, if_pos e1, e2, e3, if_pos (by decide), positionsAt_append, countInBin_append, Nat.add_assoc]

/-- Non-vacuity: a world with a generator that always draws the same numbers. -/
def exampleWorld : World Bool := withLinear { demoWorld true with conv := realConv }

example : ∃ a, mainText exampleWorld (some exampleLines) = .finished a :=
  example_runs exampleWorld rfl demoBdOps_lawful ⟨fun _ _ _ h => ⟨le_rfl, h⟩, fun _ _ h => h⟩ (withLinear_ok _) (by decide +kernel)

end

end Bdld
