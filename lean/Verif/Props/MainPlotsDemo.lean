import Verif.Props.MainOutputGrid
import Verif.Props.MainPlots

/-
Concrete runs with plots: one that ends, and one that does not because the name for the plots has an extension.
-/

set_option linter.unusedSimpArgs false

namespace Bdld

open Spec

noncomputable section

/-- C96 for the example: the plots `p_1` and `p`; the second shows the FES `ln 4`, 0 over the bin centres, and the
potential, which is zero. -/
example : ∃ a p1 p2, mainProgram (demoWorld true) (some demoFileGrid) = .finished a ∧ a.sim.plots = [p1, p2] ∧
    p1.name = "p_1" ∧ p2.name = "p" ∧ p1.asked = false ∧ p2.asked = false ∧ p1.figure.title = some "t_1" ∧
    p2.figure.title = some "t" ∧ ∃ ref, p2.figure.artists = [.line "ref" [1 / 2, 3 / 2] ref,
      .line "FES" [1 / 2, 3 / 2] [((Real.log 4 : ℝ) : WithTop ℝ), 0]] := by
  obtain ⟨c, s, s0, d⟩ := demo_grid
  obtain ⟨h, e1, _, e2⟩ := main_plots d.run demoFesGridOpts rfl
  obtain ⟨h', e3, hb, e4⟩ := d.hist
  have := Option.some.inj (e1.symm.trans e3)
  subst this
  have h1 : strOption demoFesGridOpts "plot-filename" = "p" := rfl
  have h2 : strOption demoFesGridOpts "plot-title" = "t" := rfl
  have h3 : sampledSteps (intOption demoFesGridOpts "plot-stride").natAbs 0 1 = [1] := rfl
  have h4 : "p" ++ "_" ++ Nat.repr 1 = "p_1" := rfl
  have h5 : "t" ++ "_" ++ Nat.repr 1 = "t_1" := rfl
  have h6 : fesStep demoFesGridOpts 1 = 1 := rfl
  have hkt : c.ld.kt = 1 := by rw [d.ld]; rfl
  have hc : binCenters [(0:ℝ), 1, 2] = [1 / 2, 3 / 2] := by norm_num [binCenters]
  rw [h1, h2, h3] at e2
  obtain ⟨ps, p2, e5, e6, e7⟩ := e2 (by decide)
  obtain ⟨p1, _, e8, e9, rfl⟩ := List.forall₂_cons_left_iff.1 e6
  cases List.forall₂_nil_left_iff.1 e9
  rw [h4, h5, h6] at e8
  have l1 := e8.one [0, 1, 2] d.histAt.1
  have l2 := e7.one [0, 1, 2] hb
  obtain ⟨m, _, _, hd⟩ := l2.drawn
  have hd0 : h.data [0] = 1 ∧ h.data [1] = 4 := by
    simpa [Histogram.counts, Nd.ofFn, Histogram.shape, hb, demoEdges, indices, List.range, List.range.loop] using e4
  have hl : (List.range ([(0:ℝ), 1, 2].length - 1)).map (fun i => freeEnergy c.ld.kt (maxCount h.counts.flat)
      (h.data [i])) = [((Real.log 4 : ℝ) : WithTop ℝ), 0] := by
    rw [e4]
    simp [hkt, List.range, List.range.loop, hd0, freeEnergy, maxCount]
  rw [hc, hl] at hd
  exact ⟨_, p1, p2, d.run.finished, e5, e8.hasName, e7.hasName, e8.asked.trans rfl, e7.asked.trans rfl, l1.title,
    l2.title, _, hd⟩

/-! ### A name with extension -/

def demoFesPng : Section := demoSection "fes" [("kt", "1"), ("stride", "1"), ("filename", "f"), ("write-stride", "1"),
  ("plot-filename", "p.png"), ("plot-stride", "1"), ("plot-title", "t")]

def demoFilePng : List Section := [demoLd, demoPot, demoPart, demoTrajOut, demoHistGrid, demoFesPng]

def demoFesPngOpts : Dict (OptVal ℝ) :=
  [("kt", .base (.float 1)), ("stride", .base (.int 1)), ("filename", .base (.str "f")),
   ("write-stride", .base (.int 1)), ("fmt", .none),
   ("plot-stride", .base (.int 1)), ("plot-filename", .base (.str "p.png")), ("plot-domain", .none),
   ("plot-title", .base (.str "t"))]

def demoInputPng : Input ℝ :=
  { ld := demoLdOpts, potential := demoPotOpts, particles := demoPartOpts, trajectories := some demoTrajOutOpts,
    histogram := some demoHistGridOpts, fes := some demoFesPngOpts }

theorem demo_parseFesPng : parseSection demoConv demoFesPng fesOptions = .ok demoFesPngOpts := by
  unfold demoFesPngOpts
  simp [demoFesPng, demoSection, InputOption.parse, opt, optList, Dict.get?, List.lookup, InputOption.convert,
    parseSection, parseLoop, Dict.set, demoConv, positive, allPositive, positiveOrZero, gtZero, cmpNum, callType,
    orValueError, ok_bind, pure_eq_ok, fesOptions]

theorem demo_parse_png : parseAll 1 demoConv (some demoFilePng) = .ok demoInputPng := by
  have f1 : findSection demoFilePng "ld" = some demoLd := rfl
  have f2 : findSection demoFilePng "potential" = some demoPot := rfl
  have f3 : findSection demoFilePng "particles" = some demoPart := rfl
  have f4 : findSection demoFilePng "birth-death" = none := rfl
  have f5 : findSection demoFilePng "trajectories" = some demoTrajOut := rfl
  have f6 : findSection demoFilePng "histogram" = some demoHistGrid := rfl
  have f7 : findSection demoFilePng "fes" = some demoFesPng := rfl
  have f8 : findSection demoFilePng "delta-f" = none := rfl
  have f9 : findSection demoFilePng "particle-distribution" = none := rfl
  simp [parseAll, requireSection, parseOptional, f1, f2, f3, f4, f5, f6, f7, f8, f9, ok_bind, pure_eq_ok,
    demo_parseLd, demo_parsePot, demo_parsePart, demo_parseTrajOut, demo_parseHistGrid, demo_parseFesPng,
    demo_oneDim, demoInputPng]

/-- The constants of the plots: files `p.png_1` and `p.png`. -/
def demoPlotsPng : PlotCfg := ⟨some "p.png", some 1, none, "t", [0, 0], (demoWorld true).figFormats, false⟩

theorem demo_setupFesPng (h : Histogram ℝ) (hb : h.bins = demoEdges) (f : Nd (WithTop ℝ))
    (hf : calculateFes h.counts 1 true = .ok f) :
    setupFes (demoWorld true) demoFesPngOpts demoLdCfg h = .ok (⟨1, some 1, ⟨some "f", some 1⟩, demoPlotsPng⟩, f) := by
  have hkt : demoLdCfg.kt = 1 := rfl
  have hpot : demoLdCfg.pot = demoPotential := rfl
  simp [setupFes, hkt, hpot, demo_ref h hb, demoFesPngOpts, Dict.getItem, Dict.get?, List.lookup, ok_bind, pure_eq_ok,
    OptVal.asOptStride, OptVal.asOptStr, OptVal.asOptInt, OptVal.asOptFloats, hf, truthyNat, truthyStr, checkFields,
    potFields, checkOutput, demoPlotsPng, demoWorld]

/-- **C98** is false: a file name that can be saved, input and set-up accepted, but the run does not end. -/
theorem main_plots_end_false : ¬ ∀ (w : World Bool) (file : Option (List Section)) (config : Input ℝ) (r : AnySim Bool)
    (x : SimCfg r.d × Sim r.d Bool) (o : Dict (OptVal ℝ)), w.bdOps.Lawful → config.birthDeath = none →
    config.deltaF = none → config.particleDistribution = none → config.fes = some o →
    parseAll 1 w.conv file = .ok config → setupRequired w config = .ok r →
    setupOptional w config r.cfg r.sim = .ok x → 2 ≤ r.sim.particles.length →
    saveable w.figFormats (strOption o "plot-filename") = true → o.get? "plot-domain" = some .none →
    ∃ a, mainProgram w file = .finished a := by
  intro hall
  have hp : parseAll 1 (demoWorld true).conv (some demoFilePng) = .ok demoInputPng := demo_parse_png
  have hreq := demo_required true demoInputPng rfl rfl rfl
  obtain ⟨h0, hh0, b0, c0, d0⟩ := demo_setupHistGrid
  obtain ⟨f0, hf0⟩ := demo_fes 1 0
  have hfes := demo_setupFesPng h0 b0 f0 (by rw [demo_counts h0 1 0 b0 c0 d0]; exact hf0)
  have hkt : demoLdCfg.kt = 1 := rfl
  have hdt : demoLdCfg.dt = 0 := rfl
  have hlen : [demoWalker 1, demoWalker 2].length = 2 := rfl
  let c : SimCfg 1 :=
    { kind := .overdamped, ld := demoLdCfg, traj := some demoTrajCfg,
      hist := some (⟨1, [], 1⟩, ⟨some "h", some 1⟩), fes := some ⟨1, some 1, ⟨some "f", some 1⟩, demoPlotsPng⟩ }
  let s0 : Sim 1 Bool :=
    { particles := [demoWalker 1, demoWalker 2], ldRng := true,
      traj := some (TrajState.init demoTrajCfg true (demoWorld true).emptyTimes (demoWorld true).emptyPositions
        (demoWorld true).emptyMomentum),
      hist := some h0, fes := some f0 }
  have hopt : setupOptional (demoWorld true) demoInputPng { kind := .overdamped, ld := demoLdCfg }
      { particles := [demoWalker 1, demoWalker 2], ldRng := true } = .ok (c, s0) := by
    simp only [setupOptional, demoInputPng, ok_bind, pure_eq_ok, hdt, hkt, hlen,
      demo_setupTrajOut, requireAction, hh0, hfes]
    rfl
  obtain ⟨a, ha⟩ := hall (demoWorld true) (some demoFilePng) demoInputPng _ (c, s0) demoFesPngOpts demoBdOps_lawful rfl
    rfl rfl rfl hp hreq hopt (le_refl 2) rfl rfl
  obtain ⟨config, n, s0', hr⟩ := main_run _ _ _ ha
  have hp' := hr.parse
  rw [hp] at hp'
  cases hp'
  have := main_plot_names hr demoFesPngOpts rfl rfl (by decide) (by decide) hr.pos
  exact absurd this (by decide)

end

end Bdld
