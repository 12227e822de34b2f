import Verif.Props.Progress
import Verif.Props.MainDemo

/-
Progress of the whole program, from the input file on.
-/

set_option linter.unusedSimpArgs false

namespace Bdld

open Spec

variable {R : Type}

/-- The constants of the birth-death action. -/
theorem setupBirthDeath_cfg {d : Nat} (w : World R) (o : Dict (OptVal ℝ)) (c : LdCfg ℝ d) (b : BdAct d × BdRunState R)
    (h : setupBirthDeath w o c = .ok b) : ∃ rates dt f,
      b.1.cfg = realBdCfg rates dt f (flagOption o "recalculate-probabilities") (fun p => ⟨p.pos, p.energy⟩) := by
  obtain ⟨bw, hbw, h⟩ := bind_ok h
  obtain ⟨v, hvar, h⟩ := bind_ok h
  obtain ⟨_, _, h⟩ := bind_ok h
  obtain ⟨_, _, h⟩ := bind_ok h
  obtain ⟨_, _, h⟩ := bind_ok h
  obtain ⟨_, _, h⟩ := bind_ok h
  obtain ⟨v1, g1, h⟩ := bind_ok h
  obtain ⟨rc, f1, h⟩ := bind_ok h
  obtain ⟨_, _, h⟩ := bind_ok h
  obtain ⟨_, _, h⟩ := bind_ok h
  obtain ⟨_, _, h⟩ := bind_ok h
  obtain ⟨_, _, h⟩ := bind_ok h
  obtain ⟨_, _, h⟩ := bind_ok h
  obtain ⟨_, _, h⟩ := bind_ok h
  cases h
  rw [← flagOption_eq o _ v1 rc g1 f1]
  exact ⟨_, _, _, rfl⟩

/-- The masks have one entry per bin. -/
theorem setupDeltaF_lengths (h : Histogram ℝ) (states : List (List (ℝ × ℝ))) (masks : List (List Bool))
    (hm : setupDeltaF h states = .ok masks) : ∀ m ∈ masks, m.length = h.shape.prod := by
  simp only [setupDeltaF, pure_eq_ok] at hm
  split at hm
  · cases hm
  obtain ⟨points, _, hm⟩ := bind_ok hm
  obtain ⟨ms, _, hm⟩ := bind_ok hm
  obtain ⟨_, hc, hm⟩ := bind_ok hm
  cases hm
  intro m hm
  unfold checkMaskShapes at hc
  split at hc
  · cases hc
  · rename_i hn
    rw [Bool.not_eq_true, List.any_eq_false] at hn
    have := hn m hm
    simp only [decide_eq_true_eq, ne_eq, not_not] at this
    rw [← this]
    simp

theorem strOption_eq (o : Dict (OptVal ℝ)) (key : String) (f : Option String)
    (h : (o.getItem key >>= OptVal.asOptStr) = .ok f) : f.getD "" = strOption o key := by
  obtain ⟨v, h1, h2⟩ := bind_ok h
  unfold Dict.getItem at h1
  split at h1
  · rename_i x hx
    cases h1
    unfold OptVal.asOptStr at h2
    unfold strOption
    rw [hx]
    split at h2 <;> cases h2 <;> rfl
  · cases h1

theorem intOption_eq (o : Dict (OptVal ℝ)) (key : String) (f : Option Int)
    (h : (o.getItem key >>= OptVal.asOptInt) = .ok f) : f.getD 0 = intOption o key := by
  obtain ⟨v, h1, h2⟩ := bind_ok h
  unfold Dict.getItem at h1
  split at h1
  · rename_i x hx
    cases h1
    unfold OptVal.asOptInt at h2
    unfold intOption
    rw [hx]
    split at h2 <;> cases h2 <;> rfl
  · cases h1

theorem floatsOption_length (o : Dict (OptVal ℝ)) (key : String) (f : Option (List ℝ)) (k : Nat)
    (h : (o.getItem key >>= OptVal.asOptFloats) = .ok f) (hl : ∀ l, o.get? key = some (.list l) → l.length = k) :
    ∀ l, f = some l → l.length = k := by
  intro l e
  subst e
  obtain ⟨v, h1, h2⟩ := bind_ok h
  unfold Dict.getItem at h1
  split at h1
  · rename_i x hx
    cases h1
    unfold OptVal.asOptFloats at h2
    split at h2
    · cases h2
    · obtain ⟨y, hy, h2⟩ := bind_ok h2
      cases h2
      unfold OptVal.asFloats at hy
      split at hy
      · rename_i l' _
        rw [mapM_length _ _ _ hy]
        exact hl l' hx
      · cases hy
  · cases h1

/-- Options that allow plots make them work. -/
theorem plottable_works {d : Nat} (w : World R) (o : Dict (OptVal ℝ)) (ld : LdCfg ℝ d) (y : Histogram ℝ) (f : FesCfg)
    (x : Nd (WithTop ℝ)) (h : FesSetup w o ld y f x) (hp : Plottable w.figFormats w.terminal o) :
    f.plot.filename.getD "" = "" ∨ PlotWorks f.plot := by
  have hn := strOption_eq o _ _ h.plotFilename
  rcases hp with hp | ⟨hd, hp⟩
  · exact Or.inl (by rw [hn, hp])
  · refine Or.inr ⟨floatsOption_length o _ _ 2 h.plotDomain hd, ?_⟩
    rw [h.terminal, h.formats, hn]
    rcases hp with hp | ⟨h1, h2⟩
    · exact Or.inl hp
    · refine Or.inr ⟨h1, fun hs t => ?_⟩
      rw [intOption_eq o _ _ h.plotStride] at hs
      exact saveable_step_plain _ _ _ (h2.resolve_left hs)

/-- C86: once parser and set-up have accepted the input, the simulation runs to its end, provided that the potential
has a range per dimension if it has a boundary condition, there are two or more walkers for birth-death (and the
random numbers are positive if probabilities are recalculated), at least one walker for histograms and particle
distributions, the states of the particle distribution have at least as many dimensions as the potential, and the
options of the plots allow them. -/
theorem main_progress_partial (w : World R) (file : Option (List Section)) (config : Input ℝ) (r : AnySim R)
    (x : SimCfg r.d × Sim r.d R) (hp : parseAll 1 w.conv file = .ok config)
    (hr : setupRequired w config = .ok r) (hx : setupOptional w config r.cfg r.sim = .ok x)
    (hops : w.bdOps.Lawful)
    (hld : r.cfg.ld.pot.bc = none ∨ r.d ≤ r.cfg.ld.pot.ranges.length)
    (hbd : ∀ o, config.birthDeath = some o → 2 ≤ r.sim.particles.length ∧
      (flagOption o "recalculate-probabilities" = false ∨ ∀ n g, ∀ u ∈ (w.bdOps.random n g).1, 0 < u))
    (hw : config.histogram.isSome ∨ config.particleDistribution.isSome → 0 < r.sim.particles.length)
    (hs : ∀ o states, config.particleDistribution = some o → stateRanges o = .ok states →
      ∀ st ∈ states, r.d ≤ st.length)
    (hpl : ∀ o, config.fes = some o → Plottable w.figFormats w.terminal o) :
    ∃ s, mainProgram w file = .finished ⟨r.d, x.1, s⟩ := by
  have hset := setup_ok w file config r x hp hr hx
  have hv := input_valid 1 one_pos file config hp
  obtain ⟨n, hn, hpos⟩ := hv.ld.nSteps
  obtain ⟨c', s'⟩ := x
  obtain ⟨hc, hs0⟩ := setupRequired_parts w config r hr
  obtain ⟨e1, e2, e3, e4, e5, h1, h2, h3, h4, h5, h6, e6, e7⟩ := setupOptional_parts w config _ c' _ s' hc hs0 hx
  have hkt : 0 < r.cfg.ld.kt := by
    have hr' := hr
    obtain ⟨p, hp', hr'⟩ := bind_ok hr'
    obtain ⟨l, hl, hr'⟩ := bind_ok hr'
    obtain ⟨s, hs', hr'⟩ := bind_ok hr'
    cases hr'
    exact (setupLd_constants w _ _ l hv.ld hl).2.1
  have hrun : Runnable w c' s' := by
    constructor
    · exact hops
    · rw [e2]; exact hkt
    · rw [e2]; exact hld
    · intro b hb st hst
      cases h : config.birthDeath with
      | none => rw [h] at h1; rw [h1.1] at hb; cases hb
      | some o =>
        rw [h] at h1
        obtain ⟨b', hs', hb', _⟩ := h1
        rw [hb'] at hb
        cases hb
        obtain ⟨rates, dt, f, hcfg⟩ := setupBirthDeath_cfg w o _ _ hs'
        obtain ⟨p1, p2⟩ := hbd o h
        rw [hcfg]
        refine bd_real_total_partial rates dt f _ _ hops st (by rw [hst, e3]; exact p1) ?_
        rcases p2 with p2 | p2
        · exact Or.inl p2
        · exact Or.inr (p2 _ _)
    · intro hh
      rw [e3]
      refine hw ?_
      rcases hh with hh | hh
      · refine Or.inl ?_
        cases h : config.histogram with
        | none => rw [h] at h3; rw [h3.1] at hh; cases hh
        | some o => rfl
      · refine Or.inr ?_
        cases h : config.particleDistribution with
        | none => rw [h] at h6; rw [h6.1] at hh; cases hh
        | some o => rfl
    · intro f h0 hf hh0
      obtain ⟨_, _, _, _, _, h0', states, hh0', hm⟩ := hset.deltaF f hf
      have e := hh0.symm.trans hh0'
      cases e
      exact setupDeltaF_lengths h0 states _ hm
    · intro f hf st hst
      cases h : config.particleDistribution with
      | none => rw [h] at h6; rw [h6.1] at hf; cases hf
      | some o =>
        rw [h] at h6
        obtain ⟨b, hb, hb', _⟩ := h6
        rw [hb'] at hf
        cases hf
        exact hs o _ h (setupDistribution_inv w o b hb).2.2.2 st hst
    · intro f hf
      cases h : config.fes with
      | none => rw [h] at h4; rw [h4.1] at hf; cases hf
      | some o =>
        rw [h] at h4
        obtain ⟨y, b, _, hb, hb', _⟩ := h4
        rw [hb'] at hf
        cases hf
        exact plottable_works w o _ y _ _ (setupFes_parts w o _ y b hb) (hpl o h)
  obtain ⟨s, hsim⟩ := simulate_total w c' s' hset hrun n.toNat (by omega)
  have hn' : (config.ld.getItem "n_steps").bind OptVal.asInt = .ok n := by
    rw [Dict.getItem, hn]
    rfl
  refine ⟨s, ?_⟩
  simp only [mainProgram, hp, mainFrom, hr, hx, hn', hsim]

/-! ### Counterexample -/

noncomputable section

/-- One walker. -/
def demoPartOne : Section := demoSection "particles"
  [("number", "1"), ("initial-distribution", "fractions-pos"), ("pos1", "1"), ("fractions", "1"), ("seed", "1")]

def demoPartOneOpts : Dict (OptVal ℝ) :=
  [("number", .base (.int 1)), ("mass", .base (.float 1)), ("seed", .base (.int 1)),
   ("initial-distribution", .base (.str "fractions-pos")), ("pos1", .list [.float 1]),
   ("fractions", .list [.float 1])]

theorem demo_parsePartOne : parseParticles 1 demoConv demoPartOne = .ok demoPartOneOpts := by
  unfold demoPartOneOpts
  simp [demoPartOne, demoSection, parseParticles, InputOption.parse, opt,
    optList, Dict.get?, List.lookup, InputOption.convert, parseSection, parseLoop, Dict.set, demoConv,
    positive, allPositive, positiveOrZero, gtZero, cmpNum, ok_bind, pure_eq_ok, pyAnd,
    pySplit, splitComma, callType, orValueError, particlesOptions, initialDistributions, oneOf, numberedSection,
    numberedLoop, numKey, List.range, List.range.loop, repr1, repr2, repr3]

/-- One walker with birth-death. -/
def demoFileOne : List Section := [demoLd, demoPot, demoPartOne, demoBd "1"]

def demoInputOne : Input ℝ :=
  { ld := demoLdOpts, potential := demoPotOpts, particles := demoPartOneOpts, birthDeath := some (demoBdOpts 1) }

theorem demo_parse_one : parseAll 1 demoConv (some demoFileOne) = .ok demoInputOne := by
  have f1 : findSection demoFileOne "ld" = some demoLd := rfl
  have f2 : findSection demoFileOne "potential" = some demoPot := rfl
  have f3 : findSection demoFileOne "particles" = some demoPartOne := rfl
  have f4 : findSection demoFileOne "birth-death" = some (demoBd "1") := rfl
  have f5 : findSection demoFileOne "trajectories" = none := rfl
  have f6 : findSection demoFileOne "histogram" = none := rfl
  have f7 : findSection demoFileOne "fes" = none := rfl
  have f8 : findSection demoFileOne "delta-f" = none := rfl
  have f9 : findSection demoFileOne "particle-distribution" = none := rfl
  simp only [parseAll, requireSection, parseOptional, f1, f2, f3, f4, f5, f6, f7, f8, f9, ok_bind, pure_eq_ok,
    demo_parseLd, demo_parsePot, demo_parsePartOne, demo_parseBd1, demo_oneDim, demoInputOne]

theorem demo_initOne (e : Bool) (seeded : Option Int → Except PyErr Bool) :
    initParticles pyTrunc (demoWorld e).init seeded demoLdCfg demoPartOneOpts (⟨[], true⟩ : LdState ℝ 1 Bool) =
    .ok ⟨[demoWalker 1], true⟩ := by
  have h : fractionCounts pyTrunc [(1:ℝ)] 1 = .ok [1] := by
    have : pyTrunc (1:ℝ) = 1 := by simp [pyTrunc]
    norm_num [fractionCounts, this]
  simp [initParticles, demoPartOneOpts, Dict.getItem, Dict.get?, List.lookup, ok_bind, pure_eq_ok, OptVal.asFloat,
    OptVal.asInt, OptVal.asFloats, numberedDict, numberedLoop, numKey, repr1, repr2, repr3,
    initFractions, h, addAllCopies, addCopies, LdState.addParticle, demoWalker]

theorem demo_bd_one (p : LdParticle ℝ 1) (st : BdStats) (log : BdLog) :
    bdRun demoBdAct.cfg demoBdOps 1 none (⟨[p], true, st⟩, log) 1 = .error .valueError := by
  obtain ⟨a, hab⟩ : ∃ a, demoBdAct.cfg.calcBetas [p] = [a] := ⟨_, rfl⟩
  have ha : ∀ u, demoBdAct.cfg.accept u a = decide (u ≤ 0) := fun u => demo_accept [p] u a (by simp [hab])
  have hr : demoBdAct.cfg.recalcProbs = false := rfl
  have hacc : acceptedIndices demoBdAct.cfg [(0 : ℝ)] [a] = [0] := by
    simp [acceptedIndices, List.range, List.range.loop, ha]
  simp only [bdRun, doBirthDeath, hr, hab]
  simp [doBulk, demoBdOps, hacc, performMoves, performMove, ok_bind, pure_eq_ok, Except.map, truthyNat, bulkStep,
    randomOther, skipExcluded, error_bind]

theorem demo_ldOne (e : Bool) (x : ℝ) (r : Bool) :
    LdState.run .overdamped demoLdCfg ((demoWorld e).normal 1) ⟨[demoWalker x], r⟩ = .ok ⟨[demoWalker x], r⟩ := by
  simp [LdState.run, ldLoop, particleStep, overdampedStep, demoWorld, Potential.applyBc, demoLdCfg, demoWalker,
    overdampedCfg, demoPotential, ok_bind, pure_eq_ok, newParticle]

end

/-- C86, negation of the unrestricted statement: one walker with birth-death passes parser and set-up, but the first
step raises an uncaught `ValueError` (`rng.integers(0)`). -/
theorem main_progress_false : ¬ ∀ (R : Type) (w : World R) (file : Option (List Section)) (config : Input ℝ)
    (r : AnySim R) (x : SimCfg r.d × Sim r.d R), w.bdOps.Lawful → parseAll 1 w.conv file = .ok config →
    setupRequired w config = .ok r → setupOptional w config r.cfg r.sim = .ok x →
    ∃ a, mainProgram w file = .finished a := by
  intro H
  have hreq : setupRequired (demoWorld true) demoInputOne = .ok ⟨1, { kind := .overdamped, ld := demoLdCfg },
      { particles := [demoWalker 1], ldRng := true }⟩ := by
    simp only [setupRequired, demoInputOne, demo_setupPot, demo_setupLd, demo_initOne, ok_bind, pure_eq_ok]
  have hbd := demo_setupBd true 1 true rfl
  have hopt : setupOptional (demoWorld true) demoInputOne { kind := .overdamped, ld := demoLdCfg }
      { particles := [demoWalker 1], ldRng := true } =
      .ok ({ kind := .overdamped, ld := demoLdCfg, bd := some demoBdAct },
        { particles := [demoWalker 1], ldRng := true, bd := some ⟨true, ⟨0, 0, 0, 0⟩, []⟩ }) := by
    simp only [setupOptional, demoInputOne, hbd, ok_bind, pure_eq_ok]
  obtain ⟨a, ha⟩ := H Bool (demoWorld true) (some demoFileOne) demoInputOne _ _ demoBdOps_lawful demo_parse_one hreq hopt
  have hn : (demoLdOpts.getItem "n_steps").bind OptVal.asInt = .ok 1 := by
    simp [demoLdOpts, Dict.getItem, Dict.get?, List.lookup, OptVal.asInt, Except.bind]
  have hn' : (demoInputOne.ld.getItem "n_steps").bind OptVal.asInt = .ok 1 := hn
  have hp : parseAll 1 (demoWorld true).conv (some demoFileOne) = .ok demoInputOne := demo_parse_one
  simp only [mainProgram, hp, mainFrom, hreq, hopt, hn'] at ha
  have ho : (demoWorld true).bdOps = demoBdOps := rfl
  have hs1 : demoBdAct.stride = 1 := rfl
  have hs2 : demoBdAct.statsStride = none := rfl
  simp [simulate, runSteps, SimCfg.actions, runEvent, runAction, demo_ldOne, ho, hs1, hs2, demo_bd_one, ok_bind,
    pure_eq_ok, error_bind, List.foldlM] at ha

end Bdld
