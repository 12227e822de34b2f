import Verif.Props.MainDemo
import Verif.Props.States

/-
The concrete world of `MainDemo` with all kinds of analysis.
-/

set_option linter.unusedSimpArgs false

namespace Bdld

noncomputable section

/-! ### Analysis -/

def demoTraj1 : Section := demoSection "trajectories" [("write-stride", "1")]

def demoHist : Section := demoSection "histogram" [("min", "0"), ("max", "2"), ("bins", "2")]

/-- FES with the given thermal energy. -/
def demoFes (kt : String) : Section := demoSection "fes" [("kt", kt)]

def demoDf : Section := demoSection "delta-f"
  [("state1-min", "0"), ("state1-max", "1"), ("state2-min", "1"), ("state2-max", "2")]

def demoDist : Section := demoSection "particle-distribution"
  [("state1-min", "0"), ("state1-max", "1"), ("state2-min", "1"), ("state2-max", "2")]

/-- The file with all kinds of analysis. -/
def demoFileFes (kt : String) : List Section :=
  [demoLd, demoPot, demoPart, demoTraj1, demoHist, demoFes kt, demoDf, demoDist]

def demoStateOptions : List (InputOption ℝ) :=
  [opt "stride" .int false (some positive), opt "filename" .str false,
    opt "write-stride" .int false (some positive), opt "fmt" .str false,
    ⟨"state1-min", .list .float, true, none, .none⟩, ⟨"state1-max", .list .float, true, none, .none⟩,
    ⟨"state2-min", .list .float, true, none, .none⟩, ⟨"state2-max", .list .float, true, none, .none⟩]

theorem demo_optionsDf : stateActionOptions demoDf = .ok demoStateOptions := rfl

theorem demo_optionsDist : stateActionOptions demoDist = .ok demoStateOptions := rfl

local macro "parse_demo" : tactic => `(tactic| simp [demoTraj1, demoHist, demoFes, demoDf, demoDist,
  demoSection, InputOption.parse, opt,
  optList, Dict.get?, List.lookup, InputOption.convert, parseSection, parseLoop, Dict.set, demoConv,
  positive, allPositive, positiveOrZero, gtZero, cmpNum, ok_bind, pure_eq_ok, pyAnd,
  pySplit, splitComma, callType, orValueError, oneOf, demoStateOptions,
  numberedLoop, numKey, List.range, List.range.loop, trajectoriesOptions, histogramOptions, fesOptions, repr1, repr2, repr3])

def demoTraj1Opts : Dict (OptVal ℝ) :=
  [("filename", .none), ("stride", .none), ("momentum", .none), ("write-stride", .base (.int 1)), ("fmt", .none)]

def demoHistOpts : Dict (OptVal ℝ) :=
  [("stride", .none), ("reset", .none), ("filename", .none), ("write-stride", .none), ("fmt", .none),
   ("min", .base (.float 0)), ("max", .base (.float 2)), ("bins", .base (.int 2))]

def demoFesOpts (kt : ℝ) : Dict (OptVal ℝ) :=
  [("kt", .base (.float kt)), ("stride", .none), ("filename", .none), ("write-stride", .none), ("fmt", .none),
   ("plot-stride", .none), ("plot-filename", .none), ("plot-domain", .none), ("plot-title", .none)]

def demoStateOpts : Dict (OptVal ℝ) :=
  [("stride", .none), ("filename", .none), ("write-stride", .none), ("fmt", .none),
   ("state1-min", .list [.float 0]), ("state1-max", .list [.float 1]),
   ("state2-min", .list [.float 1]), ("state2-max", .list [.float 2])]

theorem demo_parseTraj1 : parseSection demoConv demoTraj1 trajectoriesOptions = .ok demoTraj1Opts := by
  unfold demoTraj1Opts; parse_demo

theorem demo_parseHist : parseSection demoConv demoHist (histogramOptions true) = .ok demoHistOpts := by
  unfold demoHistOpts; parse_demo

theorem demo_parseFes2 : parseSection demoConv (demoFes "2") fesOptions = .ok (demoFesOpts 2) := by
  unfold demoFesOpts; parse_demo

theorem demo_parseFes1 : parseSection demoConv (demoFes "1") fesOptions = .ok (demoFesOpts 1) := by
  unfold demoFesOpts; parse_demo

theorem demo_parseDf : parseSection demoConv demoDf demoStateOptions = .ok demoStateOpts := by
  unfold demoStateOpts; parse_demo

theorem demo_parseDist : parseSection demoConv demoDist demoStateOptions = .ok demoStateOpts := by
  unfold demoStateOpts; parse_demo

theorem demo_parse_fes (kt : String) (v : ℝ)
    (h : parseSection demoConv (demoFes kt) fesOptions = .ok (demoFesOpts v)) :
    parseAll 1 demoConv (some (demoFileFes kt)) =
      .ok { ld := demoLdOpts, potential := demoPotOpts, particles := demoPartOpts, trajectories := some demoTraj1Opts, histogram := some demoHistOpts, fes := some (demoFesOpts v), deltaF := some demoStateOpts, particleDistribution := some demoStateOpts } := by
  have f1 : findSection (demoFileFes kt) "ld" = some demoLd := rfl
  have f2 : findSection (demoFileFes kt) "potential" = some demoPot := rfl
  have f3 : findSection (demoFileFes kt) "particles" = some demoPart := rfl
  have f4 : findSection (demoFileFes kt) "birth-death" = none := rfl
  have f5 : findSection (demoFileFes kt) "trajectories" = some demoTraj1 := rfl
  have f6 : findSection (demoFileFes kt) "histogram" = some demoHist := rfl
  have f7 : findSection (demoFileFes kt) "fes" = some (demoFes kt) := rfl
  have f8 : findSection (demoFileFes kt) "delta-f" = some demoDf := rfl
  have f9 : findSection (demoFileFes kt) "particle-distribution" = some demoDist := rfl
  simp [parseAll, requireSection, parseOptional, f1, f2, f3, f4, f5, f6, f7, f8, f9, ok_bind, pure_eq_ok,
    demo_parseLd, demo_parsePot, demo_parsePart, demo_parseTraj1, demo_parseHist, demo_oneDim, h, demo_parseDf,
    demo_parseDist, demo_optionsDf, demo_optionsDist]

def demoTrajCfg : TrajCfg ℝ := ⟨1, 1, 2, false, fun n => (n : ℝ) * 0⟩

theorem demo_setupTraj (e : Bool) : setupTrajectories (demoWorld e) 1 demoTraj1Opts 0 2 =
    .ok (demoTrajCfg, ⟨[7], [[]], [[]], 0, none⟩) := by
  simp [setupTrajectories, demoTraj1Opts, Dict.getItem, Dict.get?, List.lookup, ok_bind, pure_eq_ok,
    OptVal.asOptStride, OptVal.asOptStr, OptVal.asFlag, TrajCfg.new, pyOrNat, TrajState.init, demoTrajCfg, truthyStr,
    checkFields, demoWorld, List.range, List.range.loop]

def demoEdges : List (List ℝ) := [[0, 1, 2]]

theorem demo_bins : binOf demoEdges [0] = some [0] ∧ binOf demoEdges [1] = some [1] ∧
    binOf demoEdges [2] = some [1] := by
  refine ⟨?_, ?_, ?_⟩ <;> norm_num [binOf, demoEdges, binIndex, searchRight]

theorem demo_setupHist : ∃ h, setupHistogram 1 demoHistOpts demoTrajCfg = .ok (⟨1, [], 1⟩, ⟨none, none⟩, h) ∧
    h.bins = demoEdges ∧ h.data [0] = 1 ∧ h.data [1] = 0 := by
  have he : npEdges 2 ((0:ℝ), 2) = .ok [0, 1, 2] := by
    norm_num [npEdges, linEdges, List.range, List.range.loop]
  have hb : binOf [[(0:ℝ), 1, 2]] [0] = some [0] := demo_bins.1
  simp [setupHistogram, demoHistOpts, Dict.getItem, Dict.get?, List.lookup, ok_bind, pure_eq_ok,
    OptVal.asOptStride, OptVal.asOptStr, OptVal.asFloat, OptVal.asInt, OptVal.asOptNats, singleRange, HistCfg.new,
    truthyNat, truthyStr, checkFields, pyOrNat, Histogram.new, he, histogramdd, demoTrajCfg, demoEdges, hb]

theorem demo_counts (h : Histogram ℝ) (a b : Nat) (hb : h.bins = demoEdges) (h0 : h.data [0] = a)
    (h1 : h.data [1] = b) : h.counts = ⟨[2], [a, b]⟩ := by
  simp [Histogram.counts, Nd.ofFn, Histogram.shape, hb, demoEdges, indices, List.range, List.range.loop, h0, h1]

theorem demo_fes (a b : Nat) : ∃ f, calculateFes ⟨[2], [a, b]⟩ 1 true = .ok f := by
  simp only [calculateFes, Nd.map, List.map, npMin, ok_bind, pure_eq_ok, if_true]
  split <;> exact ⟨_, rfl⟩

theorem demo_ref (h : Histogram ℝ) (hb : h.bins = demoEdges) : fesReference demoPotential h = .ok [0, 0] := by
  have ha : h.axes = [[1 / 2, 3 / 2]] := by norm_num [Histogram.axes, hb, demoEdges, binCenters]
  have hp : pointsOfAxes [[(1:ℝ) / 2, 3 / 2]] = .ok [[1 / 2], [3 / 2]] := points_1d _
  simp only [fesReference, ha, hp, ok_bind, calculateReference]
  have h0 : ∀ x : Fin 1 → ℝ, demoPotential.energy x = 0 := by
    intro x
    simp [demoPotential, polyEnergy, coeffs1d, polyvalNd, horner]
  simp [h0, npMin, ok_bind, pure_eq_ok]

/-- The constants of the plots: no plots. -/
def demoNoPlots : PlotCfg :=
  ⟨none, none, none, "", [0, 0], (demoWorld true).figFormats, false⟩

theorem demo_setupFes (e : Bool) (h : Histogram ℝ) (hb : h.bins = demoEdges) (kt : ℝ) (f : Nd (WithTop ℝ))
    (hf : calculateFes h.counts 1 true = .ok f) :
    setupFes (demoWorld e) (demoFesOpts kt) demoLdCfg h = .ok (⟨1, none, ⟨none, none⟩, demoNoPlots⟩, f) := by
  have hkt : demoLdCfg.kt = 1 := rfl
  have hpot : demoLdCfg.pot = demoPotential := rfl
  simp [setupFes, hkt, hpot, demo_ref h hb, demoFesOpts, Dict.getItem, Dict.get?, List.lookup, ok_bind, pure_eq_ok,
    OptVal.asOptStride, OptVal.asOptStr, OptVal.asOptInt, OptVal.asOptFloats, hf, truthyNat, truthyStr, checkFields,
    checkOutput, demoNoPlots, demoWorld]

theorem demo_states : stateRanges demoStateOpts = .ok [[((0:ℝ), 1)], [(1, 2)]] := by
  simp [stateRanges, numberedDict, numberedLoop, numKey, demoStateOpts, Dict.get?, List.lookup, repr1, repr2, repr3,
    ok_bind, pure_eq_ok, Item.ofOptVal, minMaxToRanges, checkAllDims, Item.toList, checkDims, Item.len]

theorem demo_setupDist (e : Bool) : setupDistribution (demoWorld e) demoStateOpts =
    .ok (⟨⟨0, 0, false, fun n => (n : ℝ)⟩, [[((0:ℝ), 1)], [(1, 2)]]⟩, ⟨.single [7, 7, 7], 0, []⟩) := by
  simp only [setupDistribution, demo_states, ok_bind]
  simp [demoStateOpts, Dict.getItem, Dict.get?, List.lookup, ok_bind, pure_eq_ok, OptVal.asOptStride, OptVal.asOptStr,
    SeriesCfg.new, truthyNat, truthyStr, SeriesState.init, demoWorld]

theorem demo_masks (h : Histogram ℝ) (hb : h.bins = demoEdges) :
    setupDeltaF h [[((0:ℝ), 1)], [(1, 2)]] = .ok [[true, false], [false, true]] := by
  have ha : h.axes = [[1 / 2, 3 / 2]] := by norm_num [Histogram.axes, hb, demoEdges, binCenters]
  have hp : pointsOfAxes [[(1:ℝ) / 2, 3 / 2]] = .ok [[1 / 2], [3 / 2]] := points_1d _
  have hs : h.shape = [2] := by simp [Histogram.shape, hb, demoEdges]
  simp only [setupDeltaF, ha, hp, hs]
  norm_num [posInsideRanges, insideLoop, ok_bind, pure_eq_ok, checkMaskShapes]
  exact ⟨rfl, rfl⟩

theorem demo_setupDf (e : Bool) (h : Histogram ℝ) (hb : h.bins = demoEdges) :
    setupDeltaFAction (demoWorld e) demoStateOpts 1 0 h =
      .ok (⟨⟨0, 0, false, fun n => (n : ℝ) * 0⟩, [[true, false], [false, true]], 1⟩, ⟨.single [], 0, []⟩) := by
  simp only [setupDeltaFAction, demo_states, ok_bind, demo_masks h hb]
  simp [demoStateOpts, Dict.getItem, Dict.get?, List.lookup, ok_bind, pure_eq_ok, OptVal.asOptStride, OptVal.asOptStr,
    SeriesCfg.new, truthyNat, truthyStr, SeriesState.init, demoWorld]

/-- The trajectory of the examples after one step. -/
def demoTrajState : TrajState ℝ := ⟨[0], [[[1], [2]]], [[]], 0, none⟩

theorem demo_trajRun : (⟨[7], [[]], [[]], 0, none⟩ : TrajState ℝ).run demoTrajCfg 1
    (snapshotOf [demoWalker 1, demoWalker 2]) = .ok demoTrajState := by
  simp [TrajState.run, demoTrajCfg, demoTrajState, snapshotOf, demoWalker, newParticle, pySetItem, npAssignRows,
    ok_bind, pure_eq_ok, TrajState.write, pyMod]

theorem demo_trajData : getTrajData demoTrajCfg demoTrajState 1 1 = .ok [[[1], [2]]] := by
  simp [getTrajData, demoTrajCfg, demoTrajState, getValidData, pyMod, pyDiv]

theorem demo_add (h : Histogram ℝ) (a b : Nat) (hb : h.bins = demoEdges) (h0 : h.data [0] = a)
    (h1 : h.data [1] = b) : ∃ h', addTrajData demoTrajCfg ⟨1, [], 1⟩ demoTrajState h 1 = .ok h' ∧
      h'.bins = demoEdges ∧ h'.data [0] = a ∧ h'.data [1] = b + 2 := by
  have e1 := demo_bins.2.1
  have e2 := demo_bins.2.2
  simp only [demoEdges] at e1 e2
  simp [addTrajData, demo_trajData, ok_bind, pure_eq_ok, Histogram.add, histogramdd, h0, h1, hb, demoEdges, e1, e2,
    List.countP_cons]

/-- Constants of the example with analysis. -/
def demoSimCfg : SimCfg 1 :=
  { kind := .overdamped
    ld := demoLdCfg
    traj := some demoTrajCfg
    hist := some (⟨1, [], 1⟩, ⟨none, none⟩)
    fes := some ⟨1, none, ⟨none, none⟩, demoNoPlots⟩
    deltaF := some ⟨⟨0, 0, false, fun n => (n : ℝ) * 0⟩, [[true, false], [false, true]], 1⟩
    dist := some ⟨⟨0, 0, false, fun n => (n : ℝ)⟩, [[((0:ℝ), 1)], [(1, 2)]]⟩ }

/-- The example with analysis: the counts at the end are 1 and 4, whatever thermal energy is given in the
section fes. -/
theorem demo_main_fes (e : Bool) (kt : String) (v : ℝ)
    (h : parseSection demoConv (demoFes kt) fesOptions = .ok (demoFesOpts v)) : ∃ s hist,
      mainProgram (demoWorld e) (some (demoFileFes kt)) = .finished ⟨1, demoSimCfg, s⟩ ∧
      s.hist = some hist ∧ hist.counts = ⟨[2], [1, 4]⟩ := by
  have hp := demo_parse_fes kt v h
  have hreq := demo_required e
    { ld := demoLdOpts, potential := demoPotOpts, particles := demoPartOpts, trajectories := some demoTraj1Opts, histogram := some demoHistOpts, fes := some (demoFesOpts v), deltaF := some demoStateOpts, particleDistribution := some demoStateOpts }
    rfl rfl rfl
  have hn : (demoLdOpts.getItem "n_steps").bind OptVal.asInt = .ok 1 := by
    simp [demoLdOpts, Dict.getItem, Dict.get?, List.lookup, OptVal.asInt, Except.bind]
  have hc : (demoWorld e).conv = demoConv := rfl
  have hkt : demoLdCfg.kt = 1 := rfl
  have hdt : demoLdCfg.dt = 0 := rfl
  obtain ⟨h0, hh0, b0, c0, d0⟩ := demo_setupHist
  obtain ⟨h1, hh1, b1, c1, d1⟩ := demo_add h0 1 0 b0 c0 d0
  obtain ⟨h2, hh2, b2, c2, d2⟩ := demo_add h1 1 2 b1 c1 d1
  have e0 := demo_counts h0 1 0 b0 c0 d0
  have e2 := demo_counts h2 1 4 b2 c2 d2
  obtain ⟨f0, hf0⟩ := demo_fes 1 0
  obtain ⟨f2, hf2⟩ := demo_fes 1 4
  have hfes := demo_setupFes e h0 b0 v f0 (by rw [e0]; exact hf0)
  have hdf := demo_setupDf e h0 b0
  have hw : demoTrajState.finalRun demoTrajCfg 1 = .ok demoTrajState := rfl
  obtain ⟨x, hx⟩ : ∃ x, calculateDeltaF f2 1 [[true, false], [false, true]] = .ok x := by
    simp only [calculateFes, Nd.map, List.map, npMin, ok_bind, pure_eq_ok, if_true] at hf2
    split at hf2 <;> cases hf2 <;> exact ⟨_, rfl⟩
  obtain ⟨y, hy⟩ : ∃ y, countParticles 1 [[(1:ℝ)], [2]] [[((0:ℝ), 1)], [(1, 2)]] = .ok y := ⟨_, rfl⟩
  have hopt : setupOptional (demoWorld e) { ld := demoLdOpts, potential := demoPotOpts, particles := demoPartOpts, trajectories := some demoTraj1Opts, histogram := some demoHistOpts, fes := some (demoFesOpts v), deltaF := some demoStateOpts, particleDistribution := some demoStateOpts }
      { kind := .overdamped, ld := demoLdCfg } { particles := [demoWalker 1, demoWalker 2], ldRng := true } =
      .ok (demoSimCfg, { particles := [demoWalker 1, demoWalker 2], ldRng := true, traj := some ⟨[7], [[]], [[]], 0, none⟩, hist := some h0, fes := some f0, deltaF := some ⟨.single [], 0, []⟩, dist := some ⟨.single [7, 7, 7], 0, []⟩ }) := by
    simp [setupOptional, ok_bind, pure_eq_ok, hdt, hkt, demo_setupTraj, requireAction, hh0, hfes, hdf, demo_setupDist,
      demoSimCfg]
  have hrun : histRun demoTrajCfg ⟨1, [], 1⟩ demoTrajState h0 1 = .ok h1 := by
    simp [histRun, hh1, ok_bind, pure_eq_ok, pyMod]
  have hact : demoSimCfg.actions = [.ld, .trajectories, .histogram, .fes, .deltaF, .particleDistribution] := rfl
  have hsim : ∃ s, simulate (demoWorld e) demoSimCfg 1 { particles := [demoWalker 1, demoWalker 2], ldRng := true, traj := some ⟨[7], [[]], [[]], 0, none⟩, hist := some h0, fes := some f0, deltaF := some ⟨.single [], 0, []⟩, dist := some ⟨.single [7, 7, 7], 0, []⟩ } = .ok s ∧
      s.hist = some h2 := by
    have hpos : ∀ x : ℝ, (demoWalker x).pos 0 = x := fun x => rfl
    simp only [simulate, runSteps, hact, List.foldlM, ok_bind]
    simp [runEvent, demo_ld, runAction,
      demoSimCfg, ok_bind, pure_eq_ok, demo_trajRun, hrun, truthyNat, gridWriteStride, deltaFVals, SeriesState.run,
      SeriesState.store, distVals, finalEvent, finalAction, hw, histFinal, hh2, gridWrite, truthyStr, e2, hf2, hx,
      SeriesState.finalRun, SeriesState.write, hy, hpos, fesPlotStride, fesPlot, demoNoPlots]
  obtain ⟨s, hs, hh⟩ := hsim
  refine ⟨s, h2, ?_, hh, e2⟩
  simp only [mainProgram, hc, hp, mainFrom, hreq, hopt, hn, Int.toNat_one, hs]

/-- The file without analysis. -/
def demoFilePlain : List Section := [demoLd, demoPot, demoPart]

/-- The example without analysis and without birth-death. -/
theorem demo_main_plain (e : Bool) : ∃ a, mainProgram (demoWorld e) (some demoFilePlain) = .finished a := by
  have f1 : findSection demoFilePlain "ld" = some demoLd := rfl
  have f2 : findSection demoFilePlain "potential" = some demoPot := rfl
  have f3 : findSection demoFilePlain "particles" = some demoPart := rfl
  have f4 : findSection demoFilePlain "birth-death" = none := rfl
  have f5 : findSection demoFilePlain "trajectories" = none := rfl
  have f6 : findSection demoFilePlain "histogram" = none := rfl
  have f7 : findSection demoFilePlain "fes" = none := rfl
  have f8 : findSection demoFilePlain "delta-f" = none := rfl
  have f9 : findSection demoFilePlain "particle-distribution" = none := rfl
  have hp : parseAll 1 demoConv (some demoFilePlain) =
      .ok { ld := demoLdOpts, potential := demoPotOpts, particles := demoPartOpts } := by
    simp only [parseAll, requireSection, parseOptional, f1, f2, f3, f4, f5, f6, f7, f8, f9, ok_bind, pure_eq_ok,
      demo_parseLd, demo_parsePot, demo_parsePart]
  have hreq := demo_required e
    { ld := demoLdOpts, potential := demoPotOpts, particles := demoPartOpts } rfl rfl rfl
  have hn : (demoLdOpts.getItem "n_steps").bind OptVal.asInt = .ok 1 := by
    simp [demoLdOpts, Dict.getItem, Dict.get?, List.lookup, OptVal.asInt, Except.bind]
  have hc : (demoWorld e).conv = demoConv := rfl
  simp [mainProgram, hc, hp, mainFrom, hreq, setupOptional, ok_bind, pure_eq_ok, hn, simulate, runSteps,
    SimCfg.actions, runEvent, runAction, demo_ld, finalEvent, finalAction, List.foldlM]

/-! ### The theorems about the whole program apply to the examples -/

/-- C70 for the example with the analysis actions: 1 step with 6 actions and 6 final actions. -/
example : ∃ a, mainProgram (demoWorld true) (some (demoFileFes "2")) = .finished a ∧
    a.sim.events = [.run .ld 1, .run .trajectories 1, .run .histogram 1, .run .fes 1, .run .deltaF 1,
      .run .particleDistribution 1, .final .ld 1, .final .trajectories 1, .final .histogram 1, .final .fes 1,
      .final .deltaF 1, .final .particleDistribution 1] := by
  obtain ⟨s, _, hm, _⟩ := demo_main_fes true "2" 2 demo_parseFes2
  refine ⟨_, hm, ?_⟩
  obtain ⟨cfg, config, n, e, hp, hn, _, h⟩ := main_schedule _ _ _ hm
  cases e
  rw [show (demoWorld true).conv = demoConv from rfl, demo_parse_fes "2" 2 demo_parseFes2] at hp
  cases hp
  have : n = 1 := by
    have h1 : demoLdOpts.get? "n_steps" = some (.base (.int 1)) := rfl
    rw [h1] at hn
    cases hn
    rfl
  rw [h, this]
  rfl

/-- C80 for the examples with and without analysis. -/
example : ∃ a b, mainProgram (demoWorld true) (some demoFilePlain) = .finished a ∧
    mainProgram (demoWorld true) (some (demoFileFes "2")) = .finished b ∧
    (⟨a.d, a.sim.dyn⟩ : Spec.AnyDyn Bool) = ⟨b.d, b.sim.dyn⟩ ∧ b.sim.hist.isSome = true := by
  obtain ⟨a, ha⟩ := demo_main_plain true
  obtain ⟨s, hist, hb, hh, _⟩ := demo_main_fes true "2" 2 demo_parseFes2
  refine ⟨a, _, ha, hb, noninterference _ _ ⟨_, _, _, _, _, rfl⟩ _ _ _ _ ?_ ha hb, by simp [hh]⟩
  intro name hn
  fin_cases hn <;> rfl

end

end Bdld
