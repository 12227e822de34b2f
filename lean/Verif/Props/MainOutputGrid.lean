import Verif.Props.MainOutput
import Verif.Props.MainGridFiles

/-
A concrete run that writes histogram and FES files and plots.
-/

set_option linter.unusedSimpArgs false

namespace Bdld

open Spec

noncomputable section

def demoHistGrid : Section := demoSection "histogram"
  [("min", "0"), ("max", "2"), ("bins", "2"), ("filename", "h"), ("write-stride", "1")]

def demoFesGrid : Section := demoSection "fes" [("kt", "1"), ("stride", "1"), ("filename", "f"), ("write-stride", "1"),
  ("plot-filename", "p"), ("plot-stride", "1"), ("plot-title", "t")]

def demoFileGrid : List Section := [demoLd, demoPot, demoPart, demoTrajOut, demoHistGrid, demoFesGrid]

def demoHistGridOpts : Dict (OptVal ℝ) :=
  [("stride", .none), ("reset", .none), ("filename", .base (.str "h")), ("write-stride", .base (.int 1)),
   ("fmt", .none), ("min", .base (.float 0)), ("max", .base (.float 2)), ("bins", .base (.int 2))]

def demoFesGridOpts : Dict (OptVal ℝ) :=
  [("kt", .base (.float 1)), ("stride", .base (.int 1)), ("filename", .base (.str "f")),
   ("write-stride", .base (.int 1)), ("fmt", .none),
   ("plot-stride", .base (.int 1)), ("plot-filename", .base (.str "p")), ("plot-domain", .none),
   ("plot-title", .base (.str "t"))]

def demoInputGrid : Input ℝ :=
  { ld := demoLdOpts, potential := demoPotOpts, particles := demoPartOpts, trajectories := some demoTrajOutOpts,
    histogram := some demoHistGridOpts, fes := some demoFesGridOpts }

theorem demo_parseHistGrid : parseSection demoConv demoHistGrid (histogramOptions true) = .ok demoHistGridOpts := by
  unfold demoHistGridOpts
  simp [demoHistGrid, demoSection, InputOption.parse, opt, optList, Dict.get?, List.lookup, InputOption.convert,
    parseSection, parseLoop, Dict.set, demoConv, positive, allPositive, positiveOrZero, gtZero, cmpNum, callType,
    orValueError, ok_bind, pure_eq_ok, histogramOptions]

theorem demo_parseFesGrid : parseSection demoConv demoFesGrid fesOptions = .ok demoFesGridOpts := by
  unfold demoFesGridOpts
  simp [demoFesGrid, demoSection, InputOption.parse, opt, optList, Dict.get?, List.lookup, InputOption.convert,
    parseSection, parseLoop, Dict.set, demoConv, positive, allPositive, positiveOrZero, gtZero, cmpNum, callType,
    orValueError, ok_bind, pure_eq_ok, fesOptions]

theorem demo_parse_grid : parseAll 1 demoConv (some demoFileGrid) = .ok demoInputGrid := by
  have f1 : findSection demoFileGrid "ld" = some demoLd := rfl
  have f2 : findSection demoFileGrid "potential" = some demoPot := rfl
  have f3 : findSection demoFileGrid "particles" = some demoPart := rfl
  have f4 : findSection demoFileGrid "birth-death" = none := rfl
  have f5 : findSection demoFileGrid "trajectories" = some demoTrajOut := rfl
  have f6 : findSection demoFileGrid "histogram" = some demoHistGrid := rfl
  have f7 : findSection demoFileGrid "fes" = some demoFesGrid := rfl
  have f8 : findSection demoFileGrid "delta-f" = none := rfl
  have f9 : findSection demoFileGrid "particle-distribution" = none := rfl
  simp [parseAll, requireSection, parseOptional, f1, f2, f3, f4, f5, f6, f7, f8, f9, ok_bind, pure_eq_ok,
    demo_parseLd, demo_parsePot, demo_parsePart, demo_parseTrajOut, demo_parseHistGrid, demo_parseFesGrid,
    demo_oneDim, demoInputGrid]

theorem demo_setupHistGrid :
    ∃ h, setupHistogram 1 demoHistGridOpts demoTrajCfg = .ok (⟨1, [], 1⟩, ⟨some "h", some 1⟩, h) ∧
      h.bins = demoEdges ∧ h.data [0] = 1 ∧ h.data [1] = 0 := by
  have he : npEdges 2 ((0:ℝ), 2) = .ok [0, 1, 2] := by
    norm_num [npEdges, linEdges, List.range, List.range.loop]
  have hb : binOf [[(0:ℝ), 1, 2]] [0] = some [0] := demo_bins.1
  simp [setupHistogram, demoHistGridOpts, Dict.getItem, Dict.get?, List.lookup, ok_bind, pure_eq_ok,
    OptVal.asOptStride, OptVal.asOptStr, OptVal.asFloat, OptVal.asInt, OptVal.asOptNats, singleRange, HistCfg.new,
    truthyNat, truthyStr, checkFields, potFields, pyOrNat, Histogram.new, he, histogramdd, demoTrajCfg, demoEdges, hb]

/-- The constants of the plots: files `p_1` and `p`. -/
def demoPlots : PlotCfg := ⟨some "p", some 1, none, "t", [0, 0], (demoWorld true).figFormats, false⟩

theorem demo_setupFesGrid (h : Histogram ℝ) (hb : h.bins = demoEdges) (f : Nd (WithTop ℝ))
    (hf : calculateFes h.counts 1 true = .ok f) :
    setupFes (demoWorld true) demoFesGridOpts demoLdCfg h = .ok (⟨1, some 1, ⟨some "f", some 1⟩, demoPlots⟩, f) := by
  have hkt : demoLdCfg.kt = 1 := rfl
  have hpot : demoLdCfg.pot = demoPotential := rfl
  simp [setupFes, hkt, hpot, demo_ref h hb, demoFesGridOpts, Dict.getItem, Dict.get?, List.lookup, ok_bind, pure_eq_ok,
    OptVal.asOptStride, OptVal.asOptStr, OptVal.asOptInt, OptVal.asOptFloats, hf, truthyNat, truthyStr, checkFields,
    potFields, checkOutput, demoPlots, demoWorld]

theorem demo_plottable : Plottable (demoWorld true).figFormats (demoWorld true).terminal demoFesGridOpts :=
  Or.inr ⟨fun l h => (by cases h), Or.inr ⟨rfl, Or.inr rfl⟩⟩

/-- The finished run with its histograms. -/
structure DemoGrid (c : SimCfg 1) (s s0 : Sim 1 Bool) : Prop where
  run : FinishedRun (demoWorld true) (some demoFileGrid) ⟨1, c, s⟩ demoInputGrid 1 s0
  ld : c.ld = demoLdCfg
  hist : ∃ h, s.hist = some h ∧ h.bins = demoEdges ∧ h.counts = ⟨[2], [1, 4]⟩
  histAt : (run.histAt 1).bins = demoEdges ∧ (run.histAt 1).counts = ⟨[2], [1, 2]⟩

theorem demo_grid : ∃ c s s0, DemoGrid c s s0 := by
  have hp : parseAll 1 (demoWorld true).conv (some demoFileGrid) = .ok demoInputGrid := demo_parse_grid
  have hreq := demo_required true demoInputGrid rfl rfl rfl
  obtain ⟨h0, hh0, b0, c0, d0⟩ := demo_setupHistGrid
  obtain ⟨f0, hf0⟩ := demo_fes 1 0
  have hfes := demo_setupFesGrid h0 b0 f0 (by rw [demo_counts h0 1 0 b0 c0 d0]; exact hf0)
  have hkt : demoLdCfg.kt = 1 := rfl
  have hdt : demoLdCfg.dt = 0 := rfl
  have hlen : [demoWalker 1, demoWalker 2].length = 2 := rfl
  let c : SimCfg 1 :=
    { kind := .overdamped, ld := demoLdCfg, traj := some demoTrajCfg,
      hist := some (⟨1, [], 1⟩, ⟨some "h", some 1⟩), fes := some ⟨1, some 1, ⟨some "f", some 1⟩, demoPlots⟩ }
  let s0 : Sim 1 Bool :=
    { particles := [demoWalker 1, demoWalker 2], ldRng := true,
      traj := some (TrajState.init demoTrajCfg true (demoWorld true).emptyTimes (demoWorld true).emptyPositions
        (demoWorld true).emptyMomentum),
      hist := some h0, fes := some f0 }
  have hopt : setupOptional (demoWorld true) demoInputGrid { kind := .overdamped, ld := demoLdCfg }
      { particles := [demoWalker 1, demoWalker 2], ldRng := true } = .ok (c, s0) := by
    simp only [setupOptional, demoInputGrid, ok_bind, pure_eq_ok, hdt, hkt, hlen,
      demo_setupTrajOut, requireAction, hh0, hfes]
    rfl
  obtain ⟨s, hs⟩ := main_progress_partial (demoWorld true) (some demoFileGrid) demoInputGrid _ (c, s0) hp hreq hopt
    demoBdOps_lawful (Or.inl rfl) (by intro o ho; cases ho) (fun _ => Nat.succ_pos _)
    (by intro o states ho; cases ho) (by intro o ho; cases ho; exact demo_plottable)
  obtain ⟨config, n, s0', hr⟩ := main_run _ _ _ hs
  have hp' := hr.parse
  rw [hp] at hp'
  cases hp'
  have hn : n = 1 := by
    have h1 : demoLdOpts.get? "n_steps" = some (.base (.int 1)) := rfl
    have h2 := hr.steps
    have h3 : (some (.base (.int 1)) : Option (OptVal ℝ)) = some (.base (.int n)) := h1.symm.trans h2
    simp only [Option.some.injEq, OptVal.base.injEq, BaseVal.int.injEq] at h3
    omega
  subst hn
  have h1 := hr.required
  rw [hreq] at h1
  simp only [Except.ok.injEq, AnySim.mk.injEq, heq_eq_eq, true_and, Sim.mk.injEq] at h1
  have h2 := hr.optional
  rw [← h1.1, ← h1.2.1, ← h1.2.2.1, hopt] at h2
  have h3 : s0 = s0' := (Prod.mk.inj (Except.ok.inj h2)).2
  subst h3
  have hpath : ∀ t, hr.path t = [demoWalker 1, demoWalker 2] := fun t => demo_walkers c s0 rfl rfl rfl rfl t
  have hpos : ∀ t, (hr.snaps t).pos = [[1], [2]] := by
    intro t
    simp [FinishedRun.snaps, hpath, snapshotOf, demoWalker, newParticle]
  refine ⟨c, s, s0, hr, rfl, ?_, ?_⟩
  · obtain ⟨h, e1, _, e2⟩ := main_histogram hr demoBdOps_lawful demoTrajOutOpts demoHistGridOpts rfl rfl rfl
      (Nat.succ_pos _)
    obtain ⟨h', e3, e4⟩ := simulate_bins _ _ _ h0 rfl _ _ hr.sim
    have := Option.some.inj (e1.symm.trans e3)
    subst this
    have hb : h.bins = demoEdges := e4.trans b0
    rw [hb] at e2
    exact ⟨h, e1, hb, demo_countOut h hb [1, 1] _ hpos (fun idx => by rw [e2]; rfl)⟩
  · obtain ⟨h', e1, e2, e3⟩ := main_histAt hr demoBdOps_lawful demoTrajOutOpts demoHistGridOpts rfl rfl rfl
      (Nat.succ_pos _) (Or.inl rfl) 1 (le_refl 1)
    have : h' = h0 := (Option.some.inj e1).symm
    subst this
    rw [b0] at e2 e3
    exact ⟨e2, demo_countOut _ e2 [1] _ hpos (fun idx => by rw [e3]; rfl)⟩

/-- C88 for the example, histogram: the files `h_1` and `h` with their counts. -/
example : ∃ a y h, mainProgram (demoWorld true) (some demoFileGrid) = .finished a ∧
    a.sim.histWrites = [("h_1", y), ("h", h)] ∧ y.counts = ⟨[2], [1, 2]⟩ ∧ h.counts = ⟨[2], [1, 4]⟩ := by
  obtain ⟨c, s, s0, d⟩ := demo_grid
  obtain ⟨h, e1, e2⟩ := main_histogram_files_noReset d.run demoTrajOutOpts demoHistGridOpts rfl rfl rfl
  obtain ⟨h', e3, _, e4⟩ := d.hist
  have := Option.some.inj (e1.symm.trans e3)
  subst this
  exact ⟨_, d.run.histAt 1, h, d.run.finished, e2, d.histAt.2, e4⟩

/-- C88 for the example, FES: the files `f_1` and `f` with their values. -/
example : ∃ a, mainProgram (demoWorld true) (some demoFileGrid) = .finished a ∧
    a.sim.fesWrites = [("f_1", ⟨[2], [((Real.log 2 : ℝ) : WithTop ℝ), 0]⟩),
      ("f", ⟨[2], [((Real.log 4 : ℝ) : WithTop ℝ), 0]⟩)] := by
  obtain ⟨c, s, s0, d⟩ := demo_grid
  obtain ⟨h, e1, e2⟩ := main_fes_files d.run demoFesGridOpts rfl
  obtain ⟨h', e3, _, e4⟩ := d.hist
  have := Option.some.inj (e1.symm.trans e3)
  subst this
  refine ⟨_, d.run.finished, ?_⟩
  rw [e2]
  have h1 : fesStep demoFesGridOpts 1 = 1 := rfl
  have hkt : c.ld.kt = 1 := by rw [d.ld]; rfl
  have h2 : sampledSteps (natOption demoFesGridOpts "write-stride" 0) 0 1 = [1] := rfl
  have h3 : filenameOf demoFesGridOpts = "f" := rfl
  have h4 : hasFilename demoFesGridOpts = true := rfl
  have h5 : "f" ++ "_" ++ Nat.repr 1 = "f_1" := rfl
  rw [gridFiles, if_pos h4, h2, h3]
  simp only [List.map_cons, List.map_nil, h1, d.histAt.2, e4, h5, hkt]
  simp [Nd.map, freeEnergy, maxCount]

/-- `header_trajectory_partial` for the example: the fields `time pos_x.0` for the lines of the first file. -/
example : ∃ a x, mainProgram (demoWorld true) (some (demoFileOut "1")) = .finished a ∧ a.sim.traj = some x ∧
    ∀ files, x.files = some files → ∀ rows, files[0]? = some rows → Describes ["time", "pos_x.0"] rows := by
  obtain ⟨c, s, s0, h⟩ := demo_results1
  obtain ⟨x, h1, h2⟩ := header_trajectory_partial h.run demoBdOps_lawful demoTrajOutOpts rfl ["x"] rfl
  exact ⟨_, x, h.run.finished, h1, fun files hf rows hr => h2 files hf 0 rows hr⟩

/-- `header_distribution_extra` for the example: two fields, three columns. -/
example : ∃ a x, mainProgram (demoWorld true) (some (demoFileOut "1")) = .finished a ∧ a.sim.dist = some x ∧
    distFields 2 = ["n_particles_0", "n_particles_1"] ∧ ∀ row ∈ x.file, row.length = 3 := by
  obtain ⟨c, s, s0, h⟩ := demo_results1
  obtain ⟨x, h1, h2⟩ := header_distribution_extra h.run demoBdOps_lawful (demoStateOutOpts 1 "p") rfl _
    (demo_statesOut 1 "p") (by simp) (by rw [h.walkers]; exact Nat.succ_pos _) (fun _ => rfl)
  exact ⟨_, x, h.run.finished, h1, rfl, h2⟩

/-- `histogram_file_one` for the histogram of the example. -/
example (h : Histogram ℝ) (hb : h.bins = demoEdges) (hc : h.counts = ⟨[2], [1, 4]⟩) :
    gridFile h.axes (h.counts.map (fun n : Nat => (n : ℝ))).flat h.shape [] =
      .ok (some [.row [1 / 2, 1], .row [3 / 2, 4]]) := by
  have h1 : binCenters [(0:ℝ), 1, 2] = [1 / 2, 3 / 2] := by norm_num [binCenters]
  have h2 : h.data [0] = 1 ∧ h.data [1] = 4 := by
    simpa [Histogram.counts, Nd.ofFn, Histogram.shape, hb, demoEdges, indices, List.range, List.range.loop] using hc
  rw [histogram_file_one h [0, 1, 2] hb]
  simp [gridLines1, h1, h2.1, h2.2]

end

end Bdld
