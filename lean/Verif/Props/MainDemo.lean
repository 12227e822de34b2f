import Verif.Props.MainRun
import Verif.Props.Rates

/-
A concrete world and concrete input files, used as examples and as witnesses.

One-dimensional constant potential on [0, 2], overdamped dynamics with time step 0, two walkers at 1 and 2.
-/

namespace Bdld

open Spec

noncomputable section

/-! ### World -/

/-- `float()` and `int()` for the strings 0, 1, 2. -/
def demoConv : Conv ℝ where
  toFloat := fun s => if s = "0" then some 0 else if s = "1" then some 1 else if s = "2" then some 2 else none
  toInt := fun s => if s = "0" then some 0 else if s = "1" then some 1 else if s = "2" then some 2 else none

/-- A generator with two states that never change: it always returns the same random numbers, 0 or 1/2. -/
def demoBdOps : RngOps Bool ℝ where
  random := fun n r => (List.replicate n (if r then 0 else 1 / 2), r)
  shuffle := fun l r => (l, r)
  integers := fun _ r => (0, r)

theorem demoBdOps_lawful : demoBdOps.Lawful where
  random_length := fun n r => by simp [demoBdOps]
  shuffle_perm := fun l r => List.Perm.refl l
  integers_lt := fun n r h => h

/-- World with the given entropy. -/
def demoWorld (e : Bool) : World Bool where
  conv := demoConv
  normal := fun _ r => (fun _ => 0, r)
  init := ⟨fun lo _ r => (lo, r), fun _ r => (0, r)⟩
  bdOps := demoBdOps
  fromSeed := fun _ => true
  entropy := fun _ => e
  coeffFile := fun _ => none
  interp := fun _ _ _ => []
  interpAt := fun _ _ _ => 0
  emptyTimes := fun _ => 7
  emptyPositions := fun _ => []
  emptyMomentum := fun _ => []
  emptyDeltaF := fun _ => []
  emptyCounts := fun _ => [7, 7, 7]

/-! ### Input files -/

def demoSection (name : String) (l : List (String × String)) : Section :=
  ⟨name, l.map (fun kv => (kv.1, .ok kv.2))⟩

def demoLd : Section := demoSection "ld"
  [("type", "overdamped"), ("timestep", "0"), ("n_steps", "1"), ("seed", "1")]

def demoPot : Section := demoSection "potential"
  [("type", "polynomial"), ("n_dim", "1"), ("coeffs", "0"), ("min", "0"), ("max", "2")]

def demoPart : Section := demoSection "particles"
  [("number", "2"), ("initial-distribution", "fractions-pos"), ("pos1", "1"), ("pos2", "2"),
   ("fractions", "1,1"), ("seed", "1")]

/-- Birth-death with the given seed. -/
def demoBd (seed : String) : Section := demoSection "birth-death"
  [("stride", "1"), ("kernel-bandwidth", "1"), ("seed", seed)]

def demoTraj : Section := demoSection "trajectories" [("stride", "1")]

theorem repr1 : Nat.repr 1 = "1" := rfl
theorem repr2 : Nat.repr 2 = "2" := rfl
theorem repr3 : Nat.repr 3 = "3" := rfl

local macro "parse_demo" : tactic => `(tactic| simp [demoLd, demoPot, demoPart, demoBd, demoTraj,
  demoSection, parseLd, parsePotential, parseParticles, potentialOptions, polyOptions, InputOption.parse, opt,
  optList, Dict.get?, List.lookup, InputOption.convert, ldOptions, parseSection, parseLoop, Dict.set, demoConv,
  positive, allPositive, positiveOrZero, gtZero, cmpNum, ok_bind, pure_eq_ok, atMost3dim, atMost3dimInt, pyAnd,
  pySplit, splitComma, callType, orValueError, particlesOptions, initialDistributions, oneOf, numberedSection,
  numberedLoop, numKey, List.range, List.range.loop, birthDeathOptions, trajectoriesOptions, repr1, repr2, repr3])

def demoLdOpts : Dict (OptVal ℝ) :=
  [("type", .base (.str "overdamped")), ("timestep", .base (.float 0)), ("n_steps", .base (.int 1)),
   ("seed", .base (.int 1))]

def demoPotOpts : Dict (OptVal ℝ) :=
  [("type", .base (.str "polynomial")), ("n_dim", .base (.int 1)), ("coeffs", .list [.float 0]),
   ("min", .base (.float 0)), ("max", .base (.float 2)), ("boundary-condition", .none)]

def demoPartOpts : Dict (OptVal ℝ) :=
  [("number", .base (.int 2)), ("mass", .base (.float 1)), ("seed", .base (.int 1)),
   ("initial-distribution", .base (.str "fractions-pos")), ("pos1", .list [.float 1]),
   ("pos2", .list [.float 2]), ("fractions", .list [.float 1, .float 1])]

def demoBdOpts (seed : Int) : Dict (OptVal ℝ) :=
  [("stride", .base (.int 1)), ("correction-variant", .none), ("approximation-variant", .none),
   ("exponential-factor", .none), ("recalculate-probabilities", .base (.bool false)), ("stats-stride", .none),
   ("stats-filename", .none), ("seed", .base (.int seed)), ("kernel-bandwidth", .base (.float 1))]

def demoTrajOpts : Dict (OptVal ℝ) :=
  [("filename", .none), ("stride", .base (.int 1)), ("momentum", .none), ("write-stride", .none), ("fmt", .none)]

theorem demo_parseLd : parseLd demoConv demoLd = .ok demoLdOpts := by unfold demoLdOpts; parse_demo

theorem demo_parsePot : parsePotential demoConv demoPot = .ok demoPotOpts := by unfold demoPotOpts; parse_demo

theorem demo_parsePart : parseParticles 1 demoConv demoPart = .ok demoPartOpts := by
  unfold demoPartOpts; parse_demo

theorem demo_parseBd0 : parseSection demoConv (demoBd "0") (birthDeathOptions true) = .ok (demoBdOpts 0) := by
  unfold demoBdOpts; parse_demo

theorem demo_parseBd1 : parseSection demoConv (demoBd "1") (birthDeathOptions true) = .ok (demoBdOpts 1) := by
  unfold demoBdOpts; parse_demo

theorem demo_parseTraj : parseSection demoConv demoTraj trajectoriesOptions = .ok demoTrajOpts := by
  unfold demoTrajOpts; parse_demo

theorem demo_oneDim : isOneDim demoPotOpts = true := rfl

/-- The file with birth-death. -/
def demoFile (seed : String) : List Section := [demoLd, demoPot, demoPart, demoBd seed]

/-- The file with birth-death and trajectories. -/
def demoFileTraj (seed : String) : List Section := [demoLd, demoPot, demoPart, demoBd seed, demoTraj]

theorem demo_parse (seed : String) (k : Int)
    (h : parseSection demoConv (demoBd seed) (birthDeathOptions true) = .ok (demoBdOpts k)) :
    parseAll 1 demoConv (some (demoFile seed)) =
      .ok { ld := demoLdOpts, potential := demoPotOpts, particles := demoPartOpts, birthDeath := some (demoBdOpts k) } := by
  have f1 : findSection (demoFile seed) "ld" = some demoLd := rfl
  have f2 : findSection (demoFile seed) "potential" = some demoPot := rfl
  have f3 : findSection (demoFile seed) "particles" = some demoPart := rfl
  have f4 : findSection (demoFile seed) "birth-death" = some (demoBd seed) := rfl
  have f5 : findSection (demoFile seed) "trajectories" = none := rfl
  have f6 : findSection (demoFile seed) "histogram" = none := rfl
  have f7 : findSection (demoFile seed) "fes" = none := rfl
  have f8 : findSection (demoFile seed) "delta-f" = none := rfl
  have f9 : findSection (demoFile seed) "particle-distribution" = none := rfl
  simp only [parseAll, requireSection, parseOptional, f1, f2, f3, f4, f5, f6, f7, f8, f9, ok_bind, pure_eq_ok,
    demo_parseLd, demo_parsePot, demo_parsePart, h, demo_oneDim]

theorem demo_parse_traj (seed : String) (k : Int)
    (h : parseSection demoConv (demoBd seed) (birthDeathOptions true) = .ok (demoBdOpts k)) :
    parseAll 1 demoConv (some (demoFileTraj seed)) =
      .ok { ld := demoLdOpts, potential := demoPotOpts, particles := demoPartOpts, birthDeath := some (demoBdOpts k), trajectories := some demoTrajOpts } := by
  have f1 : findSection (demoFileTraj seed) "ld" = some demoLd := rfl
  have f2 : findSection (demoFileTraj seed) "potential" = some demoPot := rfl
  have f3 : findSection (demoFileTraj seed) "particles" = some demoPart := rfl
  have f4 : findSection (demoFileTraj seed) "birth-death" = some (demoBd seed) := rfl
  have f5 : findSection (demoFileTraj seed) "trajectories" = some demoTraj := rfl
  have f6 : findSection (demoFileTraj seed) "histogram" = none := rfl
  have f7 : findSection (demoFileTraj seed) "fes" = none := rfl
  have f8 : findSection (demoFileTraj seed) "delta-f" = none := rfl
  have f9 : findSection (demoFileTraj seed) "particle-distribution" = none := rfl
  simp only [parseAll, requireSection, parseOptional, f1, f2, f3, f4, f5, f6, f7, f8, f9, ok_bind, pure_eq_ok,
    demo_parseLd, demo_parsePot, demo_parsePart, demo_parseTraj, h, demo_oneDim]

/-! ### Set-up and simulation -/

/-- The constant potential of the examples. -/
def demoPotential : Potential ℝ 1 :=
  { energy := polyEnergy (coeffs1d [0])
    force := polyForce (coeffs1d [0])
    evaluate := baseEvaluate (polyEnergy (coeffs1d [0])) (polyForce (coeffs1d [0]))
    ranges := [(0, 2)]
    bc := none }

def demoLdCfg : LdCfg ℝ 1 := overdampedCfg demoPotential 0

/-- A walker of the examples. -/
def demoWalker (x : ℝ) : LdParticle ℝ 1 := newParticle demoLdCfg (fun _ => x) 1

theorem demo_setupPot (e : Bool) : setupPotential (demoWorld e) demoPotOpts = .ok ⟨1, demoPotential⟩ := by
  simp [setupPotential, setupPolynomial, demoPotOpts, Dict.getItem, Dict.get?, List.lookup, ok_bind, pure_eq_ok,
    singleRange, OptVal.asFloat, OptVal.asFloats, newPolynomial, OptVal.asOptStr, Potential.withBcOption,
    bcOfOption, demoPotential]

theorem demo_setupLd (e : Bool) : setupLd (demoWorld e) demoLdOpts demoPotential =
    .ok ⟨.overdamped, demoLdCfg, ⟨[], true⟩⟩ := by
  simp [setupLd, demoLdOpts, Dict.getItem, Dict.get?, List.lookup, ok_bind, pure_eq_ok, OptVal.asFloat,
    OptVal.asOptInt, World.defaultRng, demoWorld, demoLdCfg]

theorem demo_init (e : Bool) (seeded : Option Int → Except PyErr Bool) :
    initParticles pyTrunc (demoWorld e).init seeded demoLdCfg demoPartOpts (⟨[], true⟩ : LdState ℝ 1 Bool) =
    .ok ⟨[demoWalker 1, demoWalker 2], true⟩ := by
  have h : fractionCounts pyTrunc [(1:ℝ), 1] 2 = .ok [1, 1] := by
    have : pyTrunc (1:ℝ) = 1 := by simp [pyTrunc]
    norm_num [fractionCounts, this]
    simp
  simp [initParticles, demoPartOpts, Dict.getItem, Dict.get?, List.lookup, ok_bind, pure_eq_ok, OptVal.asFloat,
    OptVal.asInt, OptVal.asFloats, numberedDict, numberedLoop, numKey, repr1, repr2, repr3,
    initFractions, h, addAllCopies, addCopies, LdState.addParticle, demoWalker]

theorem demo_required (e : Bool) (i : Input ℝ) (h1 : i.ld = demoLdOpts) (h2 : i.potential = demoPotOpts)
    (h3 : i.particles = demoPartOpts) : setupRequired (demoWorld e) i =
      .ok ⟨1, { kind := .overdamped, ld := demoLdCfg }, { particles := [demoWalker 1, demoWalker 2], ldRng := true }⟩ := by
  simp only [setupRequired, h1, h2, h3, demo_setupPot, demo_setupLd, demo_init, ok_bind, pure_eq_ok]

/-- Langevin dynamics with time step 0 does nothing. -/
theorem demo_ld (e : Bool) (x y : ℝ) (r : Bool) :
    LdState.run .overdamped demoLdCfg ((demoWorld e).normal 1) ⟨[demoWalker x, demoWalker y], r⟩ =
      .ok ⟨[demoWalker x, demoWalker y], r⟩ := by
  simp [LdState.run, ldLoop, particleStep, overdampedStep, demoWorld, Potential.applyBc, demoLdCfg, demoWalker,
    overdampedCfg, demoPotential, ok_bind, pure_eq_ok, newParticle]

/-- The birth-death action of the examples. -/
def demoBdAct : BdAct 1 :=
  ⟨realBdCfg { bw := fun k => [(1:ℝ)].getD k 0, kt := 1, variant := .orig, approx := fun _ => 0 } 0 1 false
    (fun p => ⟨p.pos, p.energy⟩), 1, none⟩

theorem demo_setupBd (e : Bool) (k : Int) (r : Bool)
    (hr : (demoWorld e).defaultRng .birthDeath (bdSeed (some k)) = .ok r) :
    setupBirthDeath (demoWorld e) (demoBdOpts k) demoLdCfg = .ok (demoBdAct, ⟨r, ⟨0, 0, 0, 0⟩, []⟩) := by
  simp [setupBirthDeath, bdBandwidth, demoBdOpts, Dict.getItem, Dict.get?, List.lookup, ok_bind, pure_eq_ok,
    OptVal.asFloat, approxVariantOf, getApproxVariant, OptVal.asOptStr, truthyStr, OptVal.asOptStride,
    OptVal.asOptFloat, OptVal.asFlag, OptVal.asOptInt, hr, bdApproxGrid, approxAt, demoLdCfg, overdampedCfg,
    demoBdAct, rateFactor]

theorem demo_accept (ps : List (LdParticle ℝ 1)) (u : ℝ) (b : WithBot ℝ) (hb : b ∈ demoBdAct.cfg.calcBetas ps) :
    demoBdAct.cfg.accept u b = decide (u ≤ 0) := by
  simp only [demoBdAct, realBdCfg, List.mem_ofFn] at hb ⊢
  obtain ⟨i, rfl⟩ := hb
  have hf := rates_finite (⟨fun k => [(1:ℝ)].getD k 0, 1, .orig, fun _ => 0⟩ : RateCfg 1) (by intro k; fin_cases k; simp)
    (fun i : Fin ps.length => (ps.get i).pos) (fun i => (ps.get i).energy) i
  obtain ⟨v, hv⟩ := WithBot.ne_bot_iff_exists.1 hf
  rw [← hv]
  simp [acceptProb]

theorem demo_betas (p q : LdParticle ℝ 1) : ∃ a b, demoBdAct.cfg.calcBetas [p, q] = [a, b] :=
  ⟨_, _, rfl⟩

theorem demo_bd_none (p q : LdParticle ℝ 1) (st : BdStats) (log : BdLog) : ∃ st',
    bdRun demoBdAct.cfg demoBdOps 1 none (⟨[p, q], false, st⟩, log) 1 = .ok (⟨[p, q], false, st'⟩, log) := by
  obtain ⟨a, b, hab⟩ := demo_betas p q
  have ha : ∀ u, demoBdAct.cfg.accept u a = decide (u ≤ 0) := fun u => demo_accept [p, q] u a (by simp [hab])
  have hb : ∀ u, demoBdAct.cfg.accept u b = decide (u ≤ 0) := fun u => demo_accept [p, q] u b (by simp [hab])
  have hr : demoBdAct.cfg.recalcProbs = false := rfl
  have hacc : acceptedIndices demoBdAct.cfg [(2⁻¹ : ℝ), 2⁻¹] [a, b] = [] := by
    have h2 : ¬ ((2⁻¹ : ℝ) ≤ 0) := by norm_num
    simp [acceptedIndices, List.range, List.range.loop, ha, hb, h2]
  simp only [bdRun, doBirthDeath, hr, hab]
  simp [doBulk, demoBdOps, hacc, performMoves, ok_bind, pure_eq_ok, Except.map, truthyNat]

theorem demo_bd_all (p q : LdParticle ℝ 1) (st : BdStats) (log : BdLog) : ∃ st' z,
    bdRun demoBdAct.cfg demoBdOps 1 none (⟨[p, q], true, st⟩, log) 1 = .ok (⟨[z, z], true, st'⟩, log) := by
  obtain ⟨a, b, hab⟩ := demo_betas p q
  have ha : ∀ u, demoBdAct.cfg.accept u a = decide (u ≤ 0) := fun u => demo_accept [p, q] u a (by simp [hab])
  have hb : ∀ u, demoBdAct.cfg.accept u b = decide (u ≤ 0) := fun u => demo_accept [p, q] u b (by simp [hab])
  have hr : demoBdAct.cfg.recalcProbs = false := rfl
  have hacc : acceptedIndices demoBdAct.cfg [(0 : ℝ), 0] [a, b] = [0, 1] := by
    simp [acceptedIndices, List.range, List.range.loop, ha, hb]
  simp only [bdRun, doBirthDeath, hr, hab]
  cases h1 : demoBdAct.cfg.gt0 a <;> cases h2 : demoBdAct.cfg.gt0 b <;>
  simp [doBulk, demoBdOps, hacc, performMoves, performMove, ok_bind, pure_eq_ok, Except.map, truthyNat, bulkStep,
    randomOther, skipExcluded, h1, h2]

/-- The result of the example with birth-death. -/
theorem demo_main (e : Bool) (seed : String) (k : Int) (r r' : Bool) (ps : List (LdParticle ℝ 1)) (st : BdStats)
    (h : parseSection demoConv (demoBd seed) (birthDeathOptions true) = .ok (demoBdOpts k))
    (hr : (demoWorld e).defaultRng .birthDeath (bdSeed (some k)) = .ok r)
    (hst : bdRun demoBdAct.cfg demoBdOps 1 none
      (⟨[demoWalker 1, demoWalker 2], r, ⟨0, 0, 0, 0⟩⟩, []) 1 = .ok (⟨ps, r', st⟩, [])) :
    mainProgram (demoWorld e) (some (demoFile seed)) = .finished ⟨1,
      { kind := .overdamped, ld := demoLdCfg, bd := some demoBdAct },
      { particles := ps, ldRng := true, bd := some ⟨r', st, [(1, st)]⟩,
        events := [.run .ld 1, .run .birthDeath 1, .final .ld 1, .final .birthDeath 1] }⟩ := by
  have hp := demo_parse seed k h
  have hreq := demo_required e
    { ld := demoLdOpts, potential := demoPotOpts, particles := demoPartOpts, birthDeath := some (demoBdOpts k) }
    rfl rfl rfl
  have hbd := demo_setupBd e k r hr
  have hn : (demoLdOpts.getItem "n_steps").bind OptVal.asInt = .ok 1 := by
    simp [demoLdOpts, Dict.getItem, Dict.get?, List.lookup, OptVal.asInt, Except.bind]
  have hc : (demoWorld e).conv = demoConv := rfl
  have ho : (demoWorld e).bdOps = demoBdOps := rfl
  have hs1 : demoBdAct.stride = 1 := rfl
  have hs2 : demoBdAct.statsStride = none := rfl
  simp [mainProgram, hc, hp, mainFrom, hreq, setupOptional, hbd, ok_bind, pure_eq_ok, hn, simulate, runSteps,
    SimCfg.actions, runEvent, runAction, demo_ld, ho, hs1, hs2, hst, finalEvent, finalAction, bdFinal,
    List.foldlM, truthyNat]

end

end Bdld
