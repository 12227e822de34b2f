import Verif.Props.MainOutput

/-
A concrete run in which the histogram is as specified.
-/

set_option linter.unusedSimpArgs false

namespace Bdld

open Spec

noncomputable section

def demoTrajHist : Section := demoSection "trajectories" []

def demoHistAway : Section := demoSection "histogram" [("min", "1"), ("max", "2"), ("bins", "1")]

def demoFileHist : List Section := [demoLd, demoPot, demoPart, demoTrajHist, demoHistAway]

def demoTrajHistOpts : Dict (OptVal ℝ) :=
  [("filename", .none), ("stride", .none), ("momentum", .none), ("write-stride", .none), ("fmt", .none)]

def demoHistAwayOpts : Dict (OptVal ℝ) :=
  [("stride", .none), ("reset", .none), ("filename", .none), ("write-stride", .none), ("fmt", .none),
   ("min", .base (.float 1)), ("max", .base (.float 2)), ("bins", .base (.int 1))]

def demoInputHist : Input ℝ :=
  { ld := demoLdOpts, potential := demoPotOpts, particles := demoPartOpts, trajectories := some demoTrajHistOpts,
    histogram := some demoHistAwayOpts }

theorem demo_parseTrajHist : parseSection demoConv demoTrajHist trajectoriesOptions = .ok demoTrajHistOpts := by
  unfold demoTrajHistOpts
  simp [demoTrajHist, demoSection, InputOption.parse, opt, optList, Dict.get?, List.lookup, InputOption.convert,
    parseSection, parseLoop, Dict.set, demoConv, positive, ok_bind, pure_eq_ok, trajectoriesOptions]

theorem demo_parseHistAway : parseSection demoConv demoHistAway (histogramOptions true) = .ok demoHistAwayOpts := by
  unfold demoHistAwayOpts
  simp [demoHistAway, demoSection, InputOption.parse, opt, optList, Dict.get?, List.lookup, InputOption.convert,
    parseSection, parseLoop, Dict.set, demoConv, positive, allPositive, gtZero, cmpNum, callType, orValueError, ok_bind, pure_eq_ok, histogramOptions]

theorem demo_parse_hist : parseAll 1 demoConv (some demoFileHist) = .ok demoInputHist := by
  have f1 : findSection demoFileHist "ld" = some demoLd := rfl
  have f2 : findSection demoFileHist "potential" = some demoPot := rfl
  have f3 : findSection demoFileHist "particles" = some demoPart := rfl
  have f4 : findSection demoFileHist "birth-death" = none := rfl
  have f5 : findSection demoFileHist "trajectories" = some demoTrajHist := rfl
  have f6 : findSection demoFileHist "histogram" = some demoHistAway := rfl
  have f7 : findSection demoFileHist "fes" = none := rfl
  have f8 : findSection demoFileHist "delta-f" = none := rfl
  have f9 : findSection demoFileHist "particle-distribution" = none := rfl
  simp [parseAll, requireSection, parseOptional, f1, f2, f3, f4, f5, f6, f7, f8, f9, ok_bind, pure_eq_ok,
    demo_parseLd, demo_parsePot, demo_parsePart, demo_parseTrajHist, demo_parseHistAway, demo_oneDim, demoInputHist]

theorem demo_setupTrajHist : ∃ b, setupTrajectories (demoWorld true) 1 demoTrajHistOpts 0 2 = .ok b := by
  simp [setupTrajectories, demoTrajHistOpts, Dict.getItem, Dict.get?, List.lookup, ok_bind, pure_eq_ok,
    OptVal.asOptStride, OptVal.asOptStr, OptVal.asFlag, TrajCfg.new, pyOrNat, truthyStr, checkFields, potFields]

theorem demo_setupHistAway (t : TrajCfg ℝ) : ∃ b, setupHistogram 1 demoHistAwayOpts t = .ok b ∧
    b.2.2.bins = [[1, 2]] := by
  have he : npEdges 1 ((1:ℝ), 2) = .ok [1, 2] := by
    norm_num [npEdges, linEdges, List.range, List.range.loop]
  simp [setupHistogram, demoHistAwayOpts, Dict.getItem, Dict.get?, List.lookup, ok_bind, pure_eq_ok,
    OptVal.asOptStride, OptVal.asOptStr, OptVal.asFloat, OptVal.asInt, OptVal.asOptNats, singleRange, HistCfg.new,
    truthyNat, truthyStr, pyOrNat, Histogram.new, he, histogramdd, checkFields, potFields]

/-- `main_histogram_partial` for a histogram on [1, 2]: its bin holds the walkers at 1 and 2. -/
example : ∃ a h, mainProgram (demoWorld true) (some demoFileHist) = .finished a ∧ a.sim.hist = some h ∧
    h.data [0] = 2 := by
  have hp : parseAll 1 (demoWorld true).conv (some demoFileHist) = .ok demoInputHist := demo_parse_hist
  have hreq := demo_required true demoInputHist rfl rfl rfl
  obtain ⟨t, ht⟩ := demo_setupTrajHist
  obtain ⟨b, hb, hbins⟩ := demo_setupHistAway t.1
  have hdt : demoLdCfg.dt = 0 := rfl
  have hlen : [demoWalker 1, demoWalker 2].length = 2 := rfl
  let c : SimCfg 1 :=
    { kind := .overdamped, ld := demoLdCfg, traj := some t.1, hist := some (b.1, b.2.1) }
  let s0 : Sim 1 Bool :=
    { particles := [demoWalker 1, demoWalker 2], ldRng := true, traj := some t.2, hist := some b.2.2 }
  have hopt : setupOptional (demoWorld true) demoInputHist { kind := .overdamped, ld := demoLdCfg }
      { particles := [demoWalker 1, demoWalker 2], ldRng := true } = .ok (c, s0) := by
    simp only [setupOptional, demoInputHist, ok_bind, pure_eq_ok, hdt, hlen, ht, requireAction, hb]
    rfl
  obtain ⟨s, hs⟩ := main_progress_partial (demoWorld true) (some demoFileHist) demoInputHist _ (c, s0) hp hreq hopt
    demoBdOps_lawful (Or.inl rfl) (by intro o ho; cases ho) (fun _ => Nat.succ_pos _)
    (by intro o states ho; cases ho) (by intro o ho; cases ho)
  obtain ⟨config, n, s0', hr⟩ := main_run _ _ _ hs
  have hp' := hr.parse
  rw [hp] at hp'
  cases hp'
  have hn : n = 1 := by
    have h1 : demoLdOpts.get? "n_steps" = some (.base (.int 1)) := rfl
    have h2 := hr.steps
    have h3 : (some (.base (.int 1)) : Option (OptVal ℝ)) = some (.base (.int n)) := h1.symm.trans h2
    simp only [Option.some.injEq, OptVal.base.injEq, BaseVal.int.injEq] at h3
    omega
  subst hn
  have h1 := hr.required
  rw [hreq] at h1
  simp only [Except.ok.injEq, AnySim.mk.injEq, heq_eq_eq, true_and, Sim.mk.injEq] at h1
  have h2 := hr.optional
  rw [← h1.1, ← h1.2.1, ← h1.2.2.1, hopt] at h2
  have h3 : s0 = s0' := (Prod.mk.inj (Except.ok.inj h2)).2
  subst h3
  obtain ⟨h, e1, e2⟩ := main_histogram_partial hr demoBdOps_lawful demoTrajHistOpts demoHistAwayOpts rfl rfl rfl
    (Nat.succ_pos _) rfl (by decide) (by decide)
  obtain ⟨h', e3, e4⟩ := simulate_bins _ _ _ b.2.2 rfl _ _ hr.sim
  have := Option.some.inj (e1.symm.trans e3)
  subst this
  rw [hbins] at e4
  have hg : ∀ e ∈ [[(1:ℝ), 2]], GoodEdges e := by
    intro e he
    simp only [List.mem_singleton] at he
    subst he
    exact ⟨by simp, by norm_num⟩
  have hcount : ∀ ps idx, countInBin [[(1:ℝ), 2]] idx ps =
      ps.countP (fun p => decide (binOf [[(1:ℝ), 2]] p = some idx)) := by
    intro ps idx
    classical
    unfold countInBin
    congr 1
    funext p
    simp only [binOf_iff _ hg]
  have b0 : binOf [[(1:ℝ), 2]] [0] = none := by norm_num [binOf, binIndex, searchRight]
  have b1 : binOf [[(1:ℝ), 2]] [1] = some [0] := by norm_num [binOf, binIndex, searchRight]
  have b2 : binOf [[(1:ℝ), 2]] [2] = some [0] := by norm_num [binOf, binIndex, searchRight]
  have e5 := e2 (by intro idx; rw [e4, hcount]; simp [b0]) [0]
  refine ⟨_, h, hs, e1, ?_⟩
  have h4 : sampledSteps (natOption demoHistAwayOpts "stride" 1) 0 1 = [1] := rfl
  have hpath : hr.path 1 = [demoWalker 1, demoWalker 2] := demo_walkers c s0 rfl rfl rfl rfl 1
  have h5 : positionsOf (hr.path 1) = [[1], [2]] := by simp [hpath, positionsOf, demoWalker, newParticle]
  rw [e5, h4, e4, hcount]
  simp [h5, b1, b2]

end

end Bdld
