import Verif.Props.MainProgress
import Verif.Props.MainExamples
import Verif.Props.MainFiles

/-
Concrete runs of the whole program with output files: examples and counterexamples.
-/

set_option linter.unusedSimpArgs false

namespace Bdld

open Spec

noncomputable section

/-! ### The input -/

def demoTrajOut : Section := demoSection "trajectories" [("filename", "t"), ("write-stride", "1")]

def demoFesOut : Section := demoSection "fes" [("kt", "1"), ("stride", "1")]

/-- States with a file and a stride. -/
def demoDfOut (k : String) : Section := demoSection "delta-f"
  [("stride", k), ("filename", "d"), ("state1-min", "0"), ("state1-max", "1"), ("state2-min", "1"), ("state2-max", "2")]

def demoDistOut (k : String) : Section := demoSection "particle-distribution"
  [("stride", k), ("filename", "p"), ("state1-min", "0"), ("state1-max", "1"), ("state2-min", "1"), ("state2-max", "2")]

def demoFileOut (k : String) : List Section :=
  [demoLd, demoPot, demoPart, demoTrajOut, demoHist, demoFesOut, demoDfOut k, demoDistOut k]

def demoTrajOutOpts : Dict (OptVal ℝ) :=
  [("filename", .base (.str "t")), ("stride", .none), ("momentum", .none), ("write-stride", .base (.int 1)),
   ("fmt", .none)]

def demoStateOutOpts (k : Int) (f : String) : Dict (OptVal ℝ) :=
  [("stride", .base (.int k)), ("filename", .base (.str f)), ("write-stride", .none), ("fmt", .none),
   ("state1-min", .list [.float 0]), ("state1-max", .list [.float 1]),
   ("state2-min", .list [.float 1]), ("state2-max", .list [.float 2])]

def demoFesOutOpts : Dict (OptVal ℝ) :=
  [("kt", .base (.float 1)), ("stride", .base (.int 1)), ("filename", .none), ("write-stride", .none), ("fmt", .none),
   ("plot-stride", .none), ("plot-filename", .none), ("plot-domain", .none), ("plot-title", .none)]

def demoInputOut (k : Int) : Input ℝ :=
  { ld := demoLdOpts, potential := demoPotOpts, particles := demoPartOpts, trajectories := some demoTrajOutOpts,
    histogram := some demoHistOpts, fes := some demoFesOutOpts, deltaF := some (demoStateOutOpts k "d"),
    particleDistribution := some (demoStateOutOpts k "p") }

theorem demo_optionsDfOut (k : String) : stateActionOptions (demoDfOut k) = .ok demoStateOptions := rfl

theorem demo_optionsDistOut (k : String) : stateActionOptions (demoDistOut k) = .ok demoStateOptions := rfl

local macro "parse_demo" : tactic => `(tactic| simp [demoTrajOut, demoFesOut, demoDfOut, demoDistOut, fesOptions,
  demoSection, InputOption.parse, opt,
  optList, Dict.get?, List.lookup, InputOption.convert, parseSection, parseLoop, Dict.set, demoConv,
  positive, allPositive, positiveOrZero, gtZero, cmpNum, ok_bind, pure_eq_ok, pyAnd,
  pySplit, splitComma, callType, orValueError, oneOf, demoStateOptions,
  numberedLoop, numKey, List.range, List.range.loop, trajectoriesOptions, repr1, repr2, repr3])

theorem demo_parseTrajOut : parseSection demoConv demoTrajOut trajectoriesOptions = .ok demoTrajOutOpts := by
  unfold demoTrajOutOpts; parse_demo

theorem demo_parseFesOut : parseSection demoConv demoFesOut fesOptions = .ok demoFesOutOpts := by
  unfold demoFesOutOpts; parse_demo

theorem demo_parseDfOut1 : parseSection demoConv (demoDfOut "1") demoStateOptions = .ok (demoStateOutOpts 1 "d") := by
  unfold demoStateOutOpts; parse_demo

theorem demo_parseDfOut2 : parseSection demoConv (demoDfOut "2") demoStateOptions = .ok (demoStateOutOpts 2 "d") := by
  unfold demoStateOutOpts; parse_demo

theorem demo_parseDistOut1 :
    parseSection demoConv (demoDistOut "1") demoStateOptions = .ok (demoStateOutOpts 1 "p") := by
  unfold demoStateOutOpts; parse_demo

theorem demo_parseDistOut2 :
    parseSection demoConv (demoDistOut "2") demoStateOptions = .ok (demoStateOutOpts 2 "p") := by
  unfold demoStateOutOpts; parse_demo

theorem demo_parse_out (k : String) (i : Int)
    (h1 : parseSection demoConv (demoDfOut k) demoStateOptions = .ok (demoStateOutOpts i "d"))
    (h2 : parseSection demoConv (demoDistOut k) demoStateOptions = .ok (demoStateOutOpts i "p")) :
    parseAll 1 demoConv (some (demoFileOut k)) = .ok (demoInputOut i) := by
  have f1 : findSection (demoFileOut k) "ld" = some demoLd := rfl
  have f2 : findSection (demoFileOut k) "potential" = some demoPot := rfl
  have f3 : findSection (demoFileOut k) "particles" = some demoPart := rfl
  have f4 : findSection (demoFileOut k) "birth-death" = none := rfl
  have f5 : findSection (demoFileOut k) "trajectories" = some demoTrajOut := rfl
  have f6 : findSection (demoFileOut k) "histogram" = some demoHist := rfl
  have f7 : findSection (demoFileOut k) "fes" = some demoFesOut := rfl
  have f8 : findSection (demoFileOut k) "delta-f" = some (demoDfOut k) := rfl
  have f9 : findSection (demoFileOut k) "particle-distribution" = some (demoDistOut k) := rfl
  simp [parseAll, requireSection, parseOptional, f1, f2, f3, f4, f5, f6, f7, f8, f9, ok_bind, pure_eq_ok,
    demo_parseLd, demo_parsePot, demo_parsePart, demo_parseTrajOut, demo_parseHist, demo_oneDim, h1, h2,
    demo_parseFesOut, demo_optionsDfOut, demo_optionsDistOut, demoInputOut]

/-! ### Set-up -/

theorem demo_setupTrajOut : setupTrajectories (demoWorld true) 1 demoTrajOutOpts 0 2 =
    .ok (demoTrajCfg, TrajState.init demoTrajCfg true (demoWorld true).emptyTimes (demoWorld true).emptyPositions
      (demoWorld true).emptyMomentum) := by
  simp [setupTrajectories, demoTrajOutOpts, Dict.getItem, Dict.get?, List.lookup, ok_bind, pure_eq_ok,
    OptVal.asOptStride, OptVal.asOptStr, OptVal.asFlag, TrajCfg.new, pyOrNat, demoTrajCfg, truthyStr, checkFields,
    potFields]

theorem demo_setupFesOut (h : Histogram ℝ) (hb : h.bins = demoEdges) (f : Nd (WithTop ℝ))
    (hf : calculateFes h.counts 1 true = .ok f) :
    setupFes (demoWorld true) demoFesOutOpts demoLdCfg h = .ok (⟨1, some 1, ⟨none, none⟩, demoNoPlots⟩, f) := by
  have hkt : demoLdCfg.kt = 1 := rfl
  have hpot : demoLdCfg.pot = demoPotential := rfl
  simp [setupFes, hkt, hpot, demo_ref h hb, demoFesOutOpts, Dict.getItem, Dict.get?, List.lookup, ok_bind, pure_eq_ok,
    OptVal.asOptStride, OptVal.asOptStr, OptVal.asOptInt, OptVal.asOptFloats, hf, truthyNat, truthyStr, checkFields,
    checkOutput, demoNoPlots, demoWorld]

theorem demo_statesOut (k : Int) (f : String) :
    stateRanges (demoStateOutOpts k f) = .ok [[((0:ℝ), 1)], [(1, 2)]] := by
  simp [stateRanges, numberedDict, numberedLoop, numKey, demoStateOutOpts, Dict.get?, List.lookup, repr1, repr2, repr3,
    ok_bind, pure_eq_ok, Item.ofOptVal, minMaxToRanges, checkAllDims, Item.toList, checkDims, Item.len]

theorem demo_seriesOut (k : Int) (hk : 0 < k) (t : Nat → ℝ) :
    SeriesCfg.new (some k.toNat) none true t = .ok ⟨k.toNat, k.toNat * 100, true, t⟩ := by
  obtain ⟨j, hj⟩ : ∃ j, k.toNat = j + 1 := ⟨k.toNat - 1, by omega⟩
  rw [hj]
  simp [SeriesCfg.new, truthyNat, pyOrNat]

theorem demo_setupDistOut (k : Int) (hk : 0 < k) : ∃ b, setupDistribution (demoWorld true) (demoStateOutOpts k "p") = .ok b := by
  simp only [setupDistribution, demo_statesOut, ok_bind]
  simp [demoStateOutOpts, Dict.getItem, Dict.get?, List.lookup, ok_bind, pure_eq_ok, OptVal.asOptStride,
    OptVal.asOptStr, truthyStr, demo_seriesOut k hk]

theorem demo_setupDfOut (k : Int) (hk : 0 < k) (h : Histogram ℝ) (hb : h.bins = demoEdges) :
    ∃ b, setupDeltaFAction (demoWorld true) (demoStateOutOpts k "d") 1 0 h = .ok b := by
  simp only [setupDeltaFAction, demo_statesOut, ok_bind, demo_masks h hb]
  simp [demoStateOutOpts, Dict.getItem, Dict.get?, List.lookup, ok_bind, pure_eq_ok, OptVal.asOptStride,
    OptVal.asOptStr, truthyStr, demo_seriesOut k hk]

/-- The example with output files runs to its end. -/
theorem demo_out (k : String) (i : Int) (hi : 0 < i)
    (h1 : parseSection demoConv (demoDfOut k) demoStateOptions = .ok (demoStateOutOpts i "d"))
    (h2 : parseSection demoConv (demoDistOut k) demoStateOptions = .ok (demoStateOutOpts i "p")) :
    ∃ (c : SimCfg 1) (s s0 : Sim 1 Bool) (h0 : Histogram ℝ),
      FinishedRun (demoWorld true) (some (demoFileOut k)) ⟨1, c, s⟩ (demoInputOut i) 1 s0 ∧
      s0.particles = [demoWalker 1, demoWalker 2] ∧ c.kind = .overdamped ∧ c.ld = demoLdCfg ∧ c.bd = none ∧
      s0.hist = some h0 ∧ h0.bins = demoEdges := by
  have hp : parseAll 1 (demoWorld true).conv (some (demoFileOut k)) = .ok (demoInputOut i) := demo_parse_out k i h1 h2
  have hreq := demo_required true (demoInputOut i) rfl rfl rfl
  obtain ⟨h0, hh0, b0, c0, d0⟩ := demo_setupHist
  obtain ⟨f0, hf0⟩ := demo_fes 1 0
  have hfes := demo_setupFesOut h0 b0 f0 (by rw [demo_counts h0 1 0 b0 c0 d0]; exact hf0)
  obtain ⟨df, hdf⟩ := demo_setupDfOut i hi h0 b0
  obtain ⟨di, hdi⟩ := demo_setupDistOut i hi
  have hkt : demoLdCfg.kt = 1 := rfl
  have hdt : demoLdCfg.dt = 0 := rfl
  have hlen : [demoWalker 1, demoWalker 2].length = 2 := rfl
  obtain ⟨c, s0, hopt, hcl, hck, hcb, hsh, hsp⟩ : ∃ c s0, setupOptional (demoWorld true) (demoInputOut i)
      { kind := .overdamped, ld := demoLdCfg } { particles := [demoWalker 1, demoWalker 2], ldRng := true } =
        .ok (c, s0) ∧ c.ld = demoLdCfg ∧ c.kind = .overdamped ∧ c.bd = none ∧ s0.hist = some h0 ∧
        s0.particles = [demoWalker 1, demoWalker 2] := by
    let c : SimCfg 1 :=
      { kind := .overdamped, ld := demoLdCfg, traj := some demoTrajCfg, hist := some (⟨1, [], 1⟩, ⟨none, none⟩),
        fes := some ⟨1, some 1, ⟨none, none⟩, demoNoPlots⟩, deltaF := some df.1, dist := some di.1 }
    let s0 : Sim 1 Bool :=
      { particles := [demoWalker 1, demoWalker 2], ldRng := true,
        traj := some (TrajState.init demoTrajCfg true (demoWorld true).emptyTimes (demoWorld true).emptyPositions
          (demoWorld true).emptyMomentum),
        hist := some h0, fes := some f0, deltaF := some df.2, dist := some di.2 }
    refine ⟨c, s0, ?_, rfl, rfl, rfl, rfl, rfl⟩
    simp only [setupOptional, demoInputOut, ok_bind, pure_eq_ok, hdt, hkt, hlen,
      demo_setupTrajOut, requireAction, hh0, hfes, hdf, hdi]
    rfl
  obtain ⟨s, hs⟩ := main_progress_partial (demoWorld true) (some (demoFileOut k)) (demoInputOut i) _ (c, s0) hp hreq hopt
    demoBdOps_lawful (Or.inl rfl) (by intro o ho; cases ho) (fun _ => Nat.succ_pos _) (by
      intro o states ho hst st h
      cases ho
      rw [demo_statesOut] at hst
      cases hst
      simp at h
      rcases h with rfl | rfl <;> exact le_refl 1) (by intro o ho; cases ho; exact Or.inl rfl)
  obtain ⟨config, n, s0', hr⟩ := main_run _ _ _ hs
  have hp' := hr.parse
  rw [hp] at hp'
  cases hp'
  have hn : n = 1 := by
    have h1 : demoLdOpts.get? "n_steps" = some (.base (.int 1)) := rfl
    have h2 := hr.steps
    have h3 : (some (.base (.int 1)) : Option (OptVal ℝ)) = some (.base (.int n)) := h1.symm.trans h2
    simp only [Option.some.injEq, OptVal.base.injEq, BaseVal.int.injEq] at h3
    omega
  subst hn
  have h1 := hr.required
  rw [hreq] at h1
  simp only [Except.ok.injEq, AnySim.mk.injEq, heq_eq_eq, true_and, Sim.mk.injEq] at h1
  have h2 := hr.optional
  rw [← h1.1, ← h1.2.1, ← h1.2.2.1, hopt] at h2
  have h3 : s0 = s0' := by
    have := Except.ok.inj h2
    exact (Prod.mk.inj this).2
  subst h3
  exact ⟨c, s, s0, h0, hr, hsp, hck, hcl, hcb, hsh, b0⟩

/-! ### Results -/

theorem demo_goodEdges : ∀ e ∈ demoEdges, GoodEdges e := by
  intro e he
  simp only [demoEdges, List.mem_singleton] at he
  subst he
  refine ⟨by simp, ?_⟩
  norm_num

theorem demo_countInBin (ps : List (List ℝ)) (i : Nat) :
    countInBin demoEdges [i] ps = ps.countP (fun p => decide (binOf demoEdges p = some [i])) := by
  classical
  unfold countInBin
  congr 1
  funext p
  simp only [binOf_iff demoEdges demo_goodEdges]

/-- The walkers of the example do not move. -/
theorem demo_walkers (c : SimCfg 1) (s0 : Sim 1 Bool) (hp : s0.particles = [demoWalker 1, demoWalker 2])
    (hk : c.kind = .overdamped) (hl : c.ld = demoLdCfg) (hb : c.bd = none) (t : Nat) :
    walkersAt (demoWorld true) c.kind c.ld c.bd s0.dyn t = [demoWalker 1, demoWalker 2] := by
  have h : ∀ t, ∃ z, dynSteps (demoWorld true) .overdamped demoLdCfg none t s0.dyn =
      .ok ⟨[demoWalker 1, demoWalker 2], s0.ldRng, z⟩ := by
    intro t
    induction t with
    | zero => exact ⟨s0.bd, by rw [dynSteps, ← hp]; rfl⟩
    | succ t ih =>
      obtain ⟨z, hz⟩ := ih
      refine ⟨z, ?_⟩
      simp only [dynSteps, hz, ok_bind, dynStep, demo_ld, pure_eq_ok]
  obtain ⟨z, hz⟩ := h t
  rw [hk, hl, hb, walkersAt, hz]

theorem demo_countOut (h : Histogram ℝ) (hb : h.bins = demoEdges) (ts : List Nat) (path : Nat → Snapshot ℝ)
    (hp : ∀ t, (path t).pos = [[1], [2]])
    (hd : ∀ idx, h.data idx = countInBin demoEdges idx [List.replicate 1 0] +
      countInBin demoEdges idx (positionsAt path ts)) : h.counts = ⟨[2], [1, 2 * ts.length]⟩ := by
  have h2 : ∀ ts : List Nat, countInBin demoEdges [0] (positionsAt path ts) = 0 ∧
      countInBin demoEdges [1] (positionsAt path ts) = 2 * ts.length := by
    intro ts
    induction ts with
    | nil => simp [positionsAt, demo_countInBin]
    | cons t ts ih =>
      simp only [positionsAt, List.flatMap_cons, countInBin_append, hp, List.length_cons] at ih ⊢
      rw [ih.1, ih.2]
      simp [demo_countInBin, demo_bins.2.1, demo_bins.2.2]
      omega
  refine demo_counts h 1 (2 * ts.length) hb ?_ ?_
  · rw [hd, (h2 ts).1]
    simp [demo_countInBin, demo_bins.1]
  · rw [hd, (h2 ts).2]
    simp [demo_countInBin, demo_bins.1]

theorem demo_stateCounts (h : Histogram ℝ) (hb : h.bins = demoEdges) (x y : Nat) (hc : h.counts = ⟨[2], [x, y]⟩) :
    stateCounts h [(0, 1)] = x ∧ stateCounts h [(1, 2)] = y := by
  have h1 : binCenters [(0:ℝ), 1, 2] = [1 / 2, 3 / 2] := by norm_num [binCenters]
  constructor
  · simp only [stateCounts, hb, hc, demoEdges, List.headD_cons, h1]
    norm_num [countsIn, InState]
  · simp only [stateCounts, hb, hc, demoEdges, List.headD_cons, h1]
    norm_num [countsIn, InState]

/-- The finished run with its results. -/
structure DemoOut (k : String) (i : Int) (c : SimCfg 1) (s s0 : Sim 1 Bool) : Prop where
  run : FinishedRun (demoWorld true) (some (demoFileOut k)) ⟨1, c, s⟩ (demoInputOut i) 1 s0
  walkers : s0.particles = [demoWalker 1, demoWalker 2]
  ld : c.ld = demoLdCfg
  path : ∀ t, run.path t = [demoWalker 1, demoWalker 2]
  hist : ∃ h, s.hist = some h ∧ h.bins = demoEdges ∧ h.counts = ⟨[2], [1, 4]⟩
  histAt : (run.histAt 1).bins = demoEdges ∧ (run.histAt 1).counts = ⟨[2], [1, 2]⟩

theorem demo_results (k : String) (i : Int) (hi : 0 < i)
    (h1 : parseSection demoConv (demoDfOut k) demoStateOptions = .ok (demoStateOutOpts i "d"))
    (h2 : parseSection demoConv (demoDistOut k) demoStateOptions = .ok (demoStateOutOpts i "p")) :
    ∃ c s s0, DemoOut k i c s s0 := by
  obtain ⟨c, s, s0, h0, hr, hp, hk, hl, hb, hh, hb0⟩ := demo_out k i hi h1 h2
  have hpath : ∀ t, hr.path t = [demoWalker 1, demoWalker 2] := fun t => demo_walkers c s0 hp hk hl hb t
  have hpos : ∀ t, (hr.snaps t).pos = [[1], [2]] := by
    intro t
    simp [FinishedRun.snaps, hpath, snapshotOf, demoWalker, newParticle]
  have hw : 0 < s0.particles.length := by rw [hp]; exact Nat.succ_pos _
  refine ⟨c, s, s0, hr, hp, hl, hpath, ?_, ?_⟩
  · obtain ⟨h, e1, _, e2⟩ := main_histogram hr demoBdOps_lawful demoTrajOutOpts demoHistOpts rfl rfl rfl hw
    obtain ⟨h', e3, e4⟩ := simulate_bins _ _ _ h0 hh _ _ hr.sim
    have := Option.some.inj (e1.symm.trans e3)
    subst this
    have hb : h.bins = demoEdges := e4.trans hb0
    rw [hb] at e2
    exact ⟨h, e1, hb, demo_countOut h hb [1, 1] _ hpos (fun idx => by rw [e2]; rfl)⟩
  · obtain ⟨h', e1, e2, e3⟩ := main_histAt hr demoBdOps_lawful demoTrajOutOpts demoHistOpts rfl rfl rfl hw
      (Or.inl rfl) 1 (le_refl 1)
    have := Option.some.inj (e1.symm.trans hh)
    subst this
    rw [hb0] at e2 e3
    exact ⟨e2, demo_countOut _ e2 [1] _ hpos (fun idx => by rw [e3]; rfl)⟩

theorem demo_results1 : ∃ c s s0, DemoOut "1" 1 c s s0 :=
  demo_results "1" 1 (by decide) demo_parseDfOut1 demo_parseDistOut1

theorem demo_results2 : ∃ c s s0, DemoOut "2" 2 c s s0 :=
  demo_results "2" 2 (by decide) demo_parseDfOut2 demo_parseDistOut2

/-- C81 for the example: one line per walker with time and position. -/
example : ∃ a x, mainProgram (demoWorld true) (some (demoFileOut "1")) = .finished a ∧ a.sim.traj = some x ∧
    x.files = some [[[0, 1]], [[0, 2]]] := by
  obtain ⟨c, s, s0, h⟩ := demo_results1
  obtain ⟨x, h1, h2⟩ := main_trajectories h.run demoBdOps_lawful demoTrajOutOpts rfl
  refine ⟨_, x, h.run.finished, h1, ?_⟩
  have h3 : hasFilename demoTrajOutOpts = true := rfl
  have h4 : sampledSteps (natOption demoTrajOutOpts "stride" 1) 0 1 = [1] := rfl
  have h5 : flagOption demoTrajOutOpts "momentum" = false := rfl
  have hdt : c.ld.dt = 0 := by rw [h.ld]; rfl
  have hs : h.run.snaps 1 = snapshotOf [demoWalker 1, demoWalker 2] := by rw [FinishedRun.snaps, h.path]
  rw [h2, h3, if_pos rfl, h.walkers, h4, h5]
  simp [trajRow, hs, snapshotOf, demoWalker, newParticle, hdt, List.range, List.range.loop]

/-- C84 for the example: one walker in the first state, two in the second one. -/
example : ∃ a x, mainProgram (demoWorld true) (some (demoFileOut "1")) = .finished a ∧ a.sim.dist = some x ∧
    x.file = [[1, 1, 2]] := by
  obtain ⟨c, s, s0, h⟩ := demo_results1
  obtain ⟨x, h1, h2⟩ := main_distribution_partial h.run demoBdOps_lawful (demoStateOutOpts 1 "p") rfl _
    (demo_statesOut 1 "p") (by simp) (by rw [h.walkers]; exact Nat.succ_pos _) (by decide)
  refine ⟨_, x, h.run.finished, h1, ?_⟩
  have h3 : hasFilename (demoStateOutOpts 1 "p") = true := rfl
  have h4 : seriesStride (demoStateOutOpts 1 "p") = 1 := rfl
  have h5 : sampledSteps 1 0 1 = [1] := rfl
  rw [h2, seriesExact, h3, if_pos rfl, h4, if_neg one_ne_zero, h5]
  simp [h.path, walkersIn, InState, demoWalker, newParticle, List.countP_cons]
  norm_num

/-- C83 for the example: the histogram has the counts 1 and 2 when the FES is calculated. -/
example : ∃ a x, mainProgram (demoWorld true) (some (demoFileOut "1")) = .finished a ∧ a.sim.deltaF = some x ∧
    x.file = [[0, -Real.log 2]] := by
  obtain ⟨c, s, s0, h⟩ := demo_results1
  obtain ⟨x, g, h1, hg, h2⟩ := main_deltaF_partial h.run (demoStateOutOpts 1 "d") demoFesOutOpts rfl rfl _
    (demo_statesOut 1 "d") (by simp) (by decide)
  refine ⟨_, x, h.run.finished, h1, ?_⟩
  have h3 : hasFilename (demoStateOutOpts 1 "d") = true := rfl
  have h4 : seriesStride (demoStateOutOpts 1 "d") = 1 := rfl
  have h5 : sampledSteps 1 0 1 = [1] := rfl
  have h6 : fesStep demoFesOutOpts 1 = 1 := rfl
  obtain ⟨g', e1, e2, e3⟩ := h.hist
  have := Option.some.inj (hg.symm.trans e1)
  subst this
  have hend := demo_stateCounts g e2 _ _ e3
  have hmid := demo_stateCounts _ h.histAt.1 _ _ h.histAt.2
  have hdt : c.ld.dt = 0 := by rw [h.ld]; rfl
  have hkt : c.ld.kt = 1 := by rw [h.ld]; rfl
  rw [h2 ?_ ?_, seriesExact, h3, if_pos rfl, h4, if_neg one_ne_zero, h5]
  · simp [h6, freeEnergyDiffs, hmid.1, hmid.2, hdt, hkt]
  · intro t ht1 ht2 _
    have : t = 1 := by omega
    subst this
    rw [h6]
    simp [hmid.1, hmid.2]
  · simp [hend.1, hend.2]

/-- C82, negation: the bin with the origin holds one count too many, and the positions of the last block are counted
twice. -/
theorem main_histogram_false : ¬ ∀ (R : Type) (w : World R) (file : Option (List Section)) (a : AnySim R)
    (config : Input ℝ) (n : Nat) (s0 : Sim a.d R) (hr : FinishedRun w file a config n s0), w.bdOps.Lawful →
    ∀ (oh : Dict (OptVal ℝ)), config.histogram = some oh → oh.get? "reset" = some .none →
      0 < s0.particles.length → ∃ h, a.sim.hist = some h ∧
        HistogramExact (fun t => positionsOf (hr.path t)) h (natOption oh "stride" 1) n := by
  intro H
  obtain ⟨c, s, s0, h⟩ := demo_results1
  obtain ⟨g, hg, he⟩ := H _ _ _ _ _ _ _ h.run demoBdOps_lawful demoHistOpts rfl rfl
    (by rw [h.walkers]; exact Nat.succ_pos _)
  obtain ⟨g', e1, e2, e3⟩ := h.hist
  have := Option.some.inj (hg.symm.trans e1)
  subst this
  have h4 : sampledSteps (natOption demoHistOpts "stride" 1) 0 1 = [1] := rfl
  have h1 := he [1]
  rw [h4, e2] at h1
  have h5 : positionsOf (h.run.path 1) = [[1], [2]] := by simp [h.path, positionsOf, demoWalker, newParticle]
  simp only [List.flatMap_cons, List.flatMap_nil, List.append_nil, h5, demo_countInBin] at h1
  have h6 : g.data [1] = 4 := by
    have := e3
    simp [Histogram.counts, Nd.ofFn, Histogram.shape, e2, demoEdges, indices, List.range, List.range.loop] at this
    exact this.2
  rw [h6] at h1
  have : List.countP (fun p => decide (binOf demoEdges p = some [1])) [[(1:ℝ)], [2]] ≤ 2 := List.countP_le_length
  omega

/-- C84, negation: for a stride of 2 and one step, a hundred rows of uninitialised memory are written to the file that
should be empty. -/
theorem main_distribution_false : ¬ ∀ (R : Type) (w : World R) (file : Option (List Section)) (a : AnySim R)
    (config : Input ℝ) (n : Nat) (s0 : Sim a.d R) (hr : FinishedRun w file a config n s0), w.bdOps.Lawful →
    ∀ (o : Dict (OptVal ℝ)) (states : List (List (ℝ × ℝ))), config.particleDistribution = some o →
      stateRanges o = .ok states → (∀ s ∈ states, s.length = a.d) → 0 < s0.particles.length →
      ∃ x, a.sim.dist = some x ∧ x.file = seriesExact o n (fun t => (t : ℝ) :: walkersIn states (hr.path t))
        ((n : ℝ) :: walkersIn states (hr.path n)) := by
  intro H
  obtain ⟨c, s, s0, h⟩ := demo_results2
  have hw : 0 < s0.particles.length := by rw [h.walkers]; exact Nat.succ_pos _
  obtain ⟨x, h1, h2⟩ := H _ _ _ _ _ _ _ h.run demoBdOps_lawful (demoStateOutOpts 2 "p") _ rfl
    (demo_statesOut 2 "p") (by simp) hw
  obtain ⟨y, h3, h4⟩ := main_distribution h.run demoBdOps_lawful (demoStateOutOpts 2 "p") rfl _
    (demo_statesOut 2 "p") (by simp) hw
  have := Option.some.inj (h1.symm.trans h3)
  subst this
  have e := congrArg List.length (h4.symm.trans h2)
  have e1 : hasFilename (demoStateOutOpts 2 "p") = true := rfl
  have e2 : seriesStride (demoStateOutOpts 2 "p") = 2 := rfl
  have e3 : seriesWriteStride (demoStateOutOpts 2 "p") = 200 := rfl
  have e4 : sampledSteps 2 0 1 = [] := rfl
  simp [seriesFile, seriesExact, e1, e2, e3, e4, emptyLastWrite] at e

/-- C83, negation: the same for the free energy differences. -/
theorem main_deltaF_false : ¬ ∀ (R : Type) (w : World R) (file : Option (List Section)) (a : AnySim R)
    (config : Input ℝ) (n : Nat) (s0 : Sim a.d R) (hr : FinishedRun w file a config n s0), w.bdOps.Lawful →
    ∀ (o of : Dict (OptVal ℝ)) (states : List (List (ℝ × ℝ))), config.deltaF = some o → config.fes = some of →
      stateRanges o = .ok states → (∀ s ∈ states, s.length = 1) →
      ∃ x h, a.sim.deltaF = some x ∧ a.sim.hist = some h ∧
        ((∀ t, 0 < t → t ≤ n → seriesStride o ∣ t → ∀ s ∈ states, stateCounts (hr.histAt (fesStep of t)) s ≠ 0) →
          (∀ s ∈ states, stateCounts h s ≠ 0) →
          x.file = seriesExact o n
            (fun t => ((t : ℝ) * a.cfg.ld.dt) :: freeEnergyDiffs a.cfg.ld.kt (hr.histAt (fesStep of t)) states)
            (((n : ℝ) * a.cfg.ld.dt) :: freeEnergyDiffs a.cfg.ld.kt h states)) := by
  intro H
  obtain ⟨c, s, s0, h⟩ := demo_results2
  obtain ⟨x, g, h1, hg, h2⟩ := H _ _ _ _ _ _ _ h.run demoBdOps_lawful (demoStateOutOpts 2 "d") demoFesOutOpts _ rfl rfl
    (demo_statesOut 2 "d") (by simp)
  obtain ⟨y, g', h3, hg', h4⟩ := main_deltaF h.run (demoStateOutOpts 2 "d") demoFesOutOpts rfl rfl _
    (demo_statesOut 2 "d") (by simp)
  have := Option.some.inj (h1.symm.trans h3)
  subst this
  have := Option.some.inj (hg.symm.trans hg')
  subst this
  have e1 : hasFilename (demoStateOutOpts 2 "d") = true := rfl
  have e2 : seriesStride (demoStateOutOpts 2 "d") = 2 := rfl
  have e3 : seriesWriteStride (demoStateOutOpts 2 "d") = 200 := rfl
  have e4 : sampledSteps 2 0 1 = [] := rfl
  obtain ⟨g', f1, f2, f3⟩ := h.hist
  have := Option.some.inj (hg.symm.trans f1)
  subst this
  have hend := demo_stateCounts g f2 _ _ f3
  have c1 : ∀ t, 0 < t → t ≤ 1 → seriesStride (demoStateOutOpts 2 "d") ∣ t → ∀ s ∈ [[((0:ℝ), (1:ℝ))], [(1, 2)]],
      stateCounts (h.run.histAt (fesStep demoFesOutOpts t)) s ≠ 0 := by
    intro t ht1 ht2 hd
    rw [e2] at hd
    omega
  have c2 : ∀ s ∈ [[((0:ℝ), (1:ℝ))], [(1, 2)]], stateCounts g s ≠ 0 := by simp [hend.1, hend.2]
  have e := congrArg List.length ((h4 c1 c2).symm.trans (h2 c1 c2))
  simp [seriesFile, seriesExact, e1, e2, e3, e4, emptyLastWrite] at e

end

end Bdld
