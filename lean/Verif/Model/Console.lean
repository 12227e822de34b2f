import Verif.Model.Log
import Verif.Model.Report
import Verif.Model.Header

/-
Standard output of the program: the calls of `print` in `bdld/main.py` and in the constructors of the actions, and the
statistics of birth-death.

An element of the output is the text of one call of `print` (without the newline that `print` appends). How numbers
are turned into text is a parameter (`Shows`), apart from integers. The functions with `P` in their names follow the
Python code in the order of its calls of `print` and of what may raise an exception; what is computed is taken from
`Model/Main.lean` (`Props/ConsoleErase.lean` shows that without the output they are the functions of that file). Not
modelled: the messages of `plot_fes` about names that matplotlib does not like (`fes_action.py:265`), and what argparse
and the Python interpreter print.
-/

namespace Bdld

/-- Result of code that prints: what was printed, and the value or the exception. -/
structure Prints (α : Type) where
  out : List String
  res : Except PyErr α

instance : Monad Prints where
  pure a := ⟨[], .ok a⟩
  bind x f := match x.res with
    | .error e => ⟨x.out, .error e⟩
    | .ok a => ⟨x.out ++ (f a).out, (f a).res⟩

/-- Calls of `print`. -/
def sayAll (l : List String) : Prints Unit := ⟨l, .ok ()⟩

/-- `print(s)`. -/
def say (s : String) : Prints Unit := sayAll [s]

/-- `if b: print(s)`. -/
def sayIf (b : Bool) (s : String) : Prints Unit := sayAll (if b then [s] else [])

/-- Code that prints nothing. -/
def quiet {α : Type} (x : Except PyErr α) : Prints α := ⟨[], x⟩

/-- Text of numbers: `str` of a float, of a numpy array with one axis, of an array of coefficients, and the format
`.4` (`none` is nan). -/
structure Shows where
  float : ℝ → String
  array : List ℝ → String
  coeffs : (d : Nat) → NdArr d → String
  digits4 : Option ℚ → String

/-- `str` of a list, from the texts of its elements. -/
def listText (l : List String) : String := "[" ++ String.intercalate ", " l ++ "]"

/-- `str(ranges)` for a list of tuples. -/
def rangesText (sh : Shows) (l : List (ℝ × ℝ)) : String :=
  listText (l.map (fun r => "(" ++ sh.float r.1 ++ ", " ++ sh.float r.2 ++ ")"))

/-- `if seed: print(f"  seed = {seed}")`. -/
def saySeed : Option Int → Prints Unit
  | none => sayAll []
  | some s => sayIf (decide (s ≠ 0)) ("  seed = " ++ toString s)

noncomputable section

/-! ### Required parts -/

/-- `PolynomialPotential.__str__`, `polynomial.py:50-57`. -/
def polyText (sh : Shows) {d : Nat} (a : NdArr d) : String :=
  if d = 1 then "polynomial with coefficients " ++ sh.coeffs d a
  else "polynomial with coefficients" ++ "\n" ++ sh.coeffs d a ++ "\n"

/-- `MuellerBrownPotential.__str__`, `mueller_brown.py:52-54`, with `scaling_factor or 1.0` (line 47). -/
def muellerText (sh : Shows) (scaling : Option ℝ) : String :=
  "Müller-Brown potential with scaling factor " ++ sh.float (rateFactor scaling)

/-- `str(pot)` for the potential made from the options (`main.py:126-144`), if there is one. -/
def potentialText {R : Type} (sh : Shows) (w : World R) (o : Dict (OptVal ℝ)) : String :=
  match o.get? "type" with
  | some (.base (.str "polynomial")) =>
    match o.get? "n_dim", (o.getItem "coeffs").bind OptVal.asFloats, (o.getItem "coeffs-file").bind OptVal.asOptStr with
    | some (.base (.int n)), coeffs, name =>
      if n = 1 then polyText sh (coeffs1d (coeffs.toOption.getD []))
      else
        match ((w.coeffFile ((name.toOption.getD none).getD "")).getD []).mapM (parseCoeffRow n.toNat) with
        | .ok rows => match coefficientsFromFile rows with
          | .ok a => polyText sh a
          | .error _ => ""
        | .error _ => ""
    | _, _, _ => ""
  | some (.base (.str "mueller-brown")) =>
    muellerText sh (((o.getItem "scaling-factor").bind OptVal.asOptFloat).toOption.getD none)
  | _ => ""

/-- `setup_ld`, `main.py:157-178`, with the output of `bussi_parinello_ld.py:71-81` and `overdamped_ld.py:62-70`. -/
def setupLdP {R : Type} {d : Nat} (sh : Shows) (w : World R) (o : Dict (OptVal ℝ)) (pot : Potential ℝ d)
    (text : String) : Prints (LdSetup d R) := do
  match (← quiet (o.getItem "type")) with
  | .base (.str "bussi-parinello") =>
    let dt ← quiet ((o.getItem "timestep").bind OptVal.asFloat)
    let friction ← quiet ((o.getItem "friction").bind OptVal.asFloat)
    let kt ← quiet ((o.getItem "kt").bind OptVal.asFloat)
    let seed ← quiet ((o.getItem "seed").bind OptVal.asOptInt)
    let rng ← quiet (w.defaultRng .ld seed)
    say ("Setting up Langevin dynamics with Bussi-Parinello thermostat\nParameters:\n  potential = " ++ text ++
      "\n  timestep = " ++ sh.float dt ++ "\n  friction = " ++ sh.float friction ++ "\n  kt = " ++ sh.float kt)
    saySeed seed
    say ""
    return ⟨.bussi, bussiCfg pot dt friction kt, ⟨[], rng⟩⟩
  | .base (.str "overdamped") =>
    let dt ← quiet ((o.getItem "timestep").bind OptVal.asFloat)
    let seed ← quiet ((o.getItem "seed").bind OptVal.asOptInt)
    let rng ← quiet (w.defaultRng .ld seed)
    say ("Setting up overdamped Langevin dynamics\nParameters:\n  potential = " ++ text ++
      "\n  timestep = " ++ sh.float dt)
    saySeed seed
    say ""
    return ⟨.overdamped, overdampedCfg pot dt, ⟨[], rng⟩⟩
  | _ => quiet (throw (.optionError "type" "ld"))

/-- Text about the initial distribution, `main.py:190-203`; nothing for other names. -/
def distributionText : OptVal ℝ → List String
  | .base (.str "random-global") => ["Distributed randomly in whole potential range\n"]
  | .base (.str "random-pos") => ["Distributed randomly on specified positions\n"]
  | .base (.str "fractions-pos") => ["Distributed with fixed fractions on specified positions\n"]
  | _ => []

/-- `init_particles`, `main.py:181-219`. -/
def initParticlesP {R : Type} {d : Nat} (sh : Shows) (w : World R) (c : LdCfg ℝ d) (o : Dict (OptVal ℝ))
    (s : LdState ℝ d R) : Prints (LdState ℝ d R) := do
  let mass ← quiet ((o.getItem "mass").bind OptVal.asFloat)
  let number ← quiet ((o.getItem "number").bind OptVal.asInt)
  say ("Adding " ++ toString number ++ " particles with mass " ++ sh.float mass ++ "\n")
  let dist ← quiet (o.getItem "initial-distribution")
  sayAll (distributionText dist)
  let s' ← quiet (initParticles pyTrunc w.init (w.defaultRng .particles) c o s)
  say ""
  return s'

/-- `main.py:75-78`. -/
def setupRequiredP {R : Type} (sh : Shows) (w : World R) (config : Input ℝ) : Prints (AnySim R) := do
  let p ← quiet (setupPotential w config.potential)
  let l ← setupLdP sh w config.ld p.pot (potentialText sh w config.potential)
  let s ← initParticlesP sh w l.cfg config.particles l.state
  return ⟨p.d, { kind := l.kind, ld := l.cfg }, { particles := s.particles, ldRng := s.rng }⟩

/-! ### Optional actions -/

/-- `birth_death.py:115-131`. -/
def approxText : ApproxVariant → String
  | .orig => "  using the original approximation"
  | .add => "  using the additive approximation"
  | .mult => "  using the multiplicative approximation"

/-- `setup_birth_death` and `BirthDeath.__init__`, `main.py:222-273` and `birth_death.py:56-137`: the density is
calculated and the generator created before the first `print`, the correction after the last but one. -/
def setupBirthDeathP {R : Type} {d : Nat} (sh : Shows) (w : World R) (o : Dict (OptVal ℝ)) (c : LdCfg ℝ d) :
    Prints (BdAct d × BdRunState R) := do
  let bw ← quiet (bdBandwidth d o)
  let variant ← quiet (approxVariantOf o)
  let stride ← quiet ((o.getItem "stride").bind OptVal.asOptStride)
  let rateFac ← quiet ((o.getItem "exponential-factor").bind OptVal.asOptFloat)
  let recalc ← quiet ((o.getItem "recalculate-probabilities").bind OptVal.asFlag)
  let _ ← quiet ((o.getItem "stats-stride").bind OptVal.asOptStride)
  let seed ← quiet ((o.getItem "seed").bind OptVal.asOptInt)
  let _ ← quiet (w.defaultRng .birthDeath (bdSeed seed))
  let _ ← quiet (if variant = .orig then .ok () else do
    let _ ← bdProbDensity (energyOfList c.pot) d c.pot.ranges bw c.kt
    return ())
  say ("Setting up birth/death scheme\nParameters:\n  dt = " ++ sh.float (c.dt * (stride.getD 0 : ℝ)) ++
    "\n  bw = " ++ sh.array bw ++ "\n  kt = " ++ sh.float c.kt ++ "\n  rate_fac = " ++ sh.float (rateFactor rateFac))
  saySeed (bdSeed seed)
  sayIf recalc "  recalculating the probabilities after every successful event"
  say (approxText variant)
  let x ← quiet (setupBirthDeath w o c)
  say ""
  return x

/-- `setup_trajectories` and `TrajectoryAction.__init__`, `main.py:300-309` and `trajectory_action.py:43-71`. -/
def setupTrajectoriesP {R : Type} (w : World R) (d : Nat) (o : Dict (OptVal ℝ)) (dt : ℝ) (nParticles : Nat) :
    Prints (TrajCfg ℝ × TrajState ℝ) := do
  let stride ← quiet ((o.getItem "stride").bind OptVal.asOptStride)
  let filename ← quiet ((o.getItem "filename").bind OptVal.asOptStr)
  let _ ← quiet ((o.getItem "momentum").bind OptVal.asFlag)
  let _ ← quiet ((o.getItem "write-stride").bind OptVal.asOptStride)
  say "Setting up storage of the trajectories"
  let x ← quiet (setupTrajectories w d o dt nParticles)
  sayIf (truthyStr filename) ((if pyOrNat stride 1 = 1 then "Saving all positions to the files '"
    else "Saving every " ++ makeOrdinal (pyOrNat stride 1 : Nat) ++ " position to the files '") ++
      filename.getD "" ++ ".{i}'")
  say ""
  return x

/-- Ranges and numbers of bins, `main.py:314-319`. -/
def histogramBins (d : Nat) (o : Dict (OptVal ℝ)) : Except PyErr (List (ℝ × ℝ) × List Nat) :=
  if d = 1 then do
    let r ← singleRange o
    let n ← (← o.getItem "bins").asInt
    return (r, [n.toNat])
  else do
    let r ← zipRanges o
    let n ← (← o.getItem "bins").asNats
    return (r, n)

/-- `setup_histogram` and `HistogramAction.__init__`, `main.py:312-329` and `histogram_action.py:52-98`. -/
def setupHistogramP (sh : Shows) (d : Nat) (o : Dict (OptVal ℝ)) (t : TrajCfg ℝ) :
    Prints (HistCfg × GridOut × Histogram ℝ) := do
  let rb ← quiet (histogramBins d o)
  let stride ← quiet ((o.getItem "stride").bind OptVal.asOptStride)
  let reset ← quiet ((o.getItem "reset").bind OptVal.asOptNats)
  let filename ← quiet ((o.getItem "filename").bind OptVal.asOptStr)
  let writeStride ← quiet ((o.getItem "write-stride").bind OptVal.asOptStride)
  say ("Setting up histogram for the trajectories\nParameters:\n  ranges = " ++ rangesText sh rb.1 ++
    "\n  n_bins = " ++ listText (rb.2.map Nat.repr))
  let _ ← quiet (HistCfg.new t d rb.2 rb.1 stride reset true none)
  say ("  stride = " ++ Nat.repr (pyOrNat stride 1))
  let x ← quiet (setupHistogram d o t)
  sayIf (truthyNat writeStride) ("Saving histogram every " ++ Nat.repr (writeStride.getD 0) ++ " time steps to '" ++
    filename.getD "" ++ "'")
  say ""
  return x

/-- Output about a second stride of the FES, `fes_action.py:95-105` and 113-123. -/
def fesStrideP (what verb : String) (stride : Option Nat) (other : Int) (filename : Option String) : Prints Unit :=
  if other ≠ 0 then
    if !truthyNat stride then quiet (throw .valueError)
    else do
      sayIf (decide (other % (stride.getD 0 : Int) ≠ 0))
        ("Warning: the " ++ what ++ " stride is no multiple of the update stride.")
      if !truthyStr filename then quiet (throw .valueError)
      else say (verb ++ " every " ++ toString other ++ " time steps to '" ++ filename.getD "" ++ "_{step}'")
  else sayAll []

/-- `setup_fes` and `FesAction.__init__`, `main.py:332-349` and `fes_action.py:67-124`. -/
def setupFesP {R : Type} {d : Nat} (sh : Shows) (w : World R) (o : Dict (OptVal ℝ)) (ld : LdCfg ℝ d)
    (h : Histogram ℝ) : Prints (FesCfg × Nd (WithTop ℝ)) := do
  let _ ← quiet (fesReference ld.pot h)
  let stride ← quiet ((o.getItem "stride").bind OptVal.asOptStride)
  let filename ← quiet ((o.getItem "filename").bind OptVal.asOptStr)
  let writeStride ← quiet ((o.getItem "write-stride").bind OptVal.asOptStride)
  let plotStride ← quiet ((o.getItem "plot-stride").bind OptVal.asOptInt)
  let plotFilename ← quiet ((o.getItem "plot-filename").bind OptVal.asOptStr)
  let _ ← quiet ((o.getItem "plot-domain").bind OptVal.asOptFloats)
  let _ ← quiet ((o.getItem "plot-title").bind OptVal.asOptStr)
  say "Setting up FES calculation for the histogram\nParameters:"
  say ("  kt = " ++ sh.float ld.kt)
  let _ ← quiet (calculateFes h.counts ld.kt true)
  sayIf (truthyNat stride) ("  stride = " ++ Nat.repr (stride.getD 0))
  let _ ← quiet (checkFields d filename)
  fesStrideP "write" "Saving FES" stride (writeStride.getD 0 : Nat) filename
  fesStrideP "plot" "Plotting" stride (plotStride.getD 0) plotFilename
  let x ← quiet (setupFes w o ld h)
  say ""
  return x

/-- Message of `delta_f_action.py:86-91` and `particle_distribution.py:75-80`. -/
def seriesMessage (what : String) (stride : Option Nat) (filename : Option String) : String :=
  "Saving " ++ what ++ " " ++ (if truthyNat stride then "of every " ++ makeOrdinal (stride.getD 0 : Nat) ++ " time step "
    else "") ++ "to '" ++ filename.getD "" ++ "'"

/-- `setup_delta_f` and `DeltaFAction.__init__`, `main.py:352-371` and `delta_f_action.py:48-93`; `fesStride` is the
stride of the FES action. -/
def setupDeltaFP {R : Type} (w : World R) (o : Dict (OptVal ℝ)) (ldKt dt : ℝ) (fesStride : Option Nat)
    (h : Histogram ℝ) : Prints (DeltaFCfg × SeriesState ℝ) := do
  let states ← quiet (stateRanges o)
  let _ ← quiet (if states.length < 2 then .error .valueError else do
    let points ← pointsOfAxes h.axes
    let _ ← posInsideRanges h.axes.length points states
    return ())
  say "Setting up delta-f action"
  let _ ← quiet (setupDeltaF h states)
  let stride ← quiet ((o.getItem "stride").bind OptVal.asOptStride)
  let filename ← quiet ((o.getItem "filename").bind OptVal.asOptStr)
  sayIf (truthyNat stride && (!truthyNat fesStride || stride.getD 0 % fesStride.getD 0 != 0))
    "Warning: the DeltaF stride is no multiple of the FES stride."
  let x ← quiet (setupDeltaFAction w o ldKt dt h)
  sayIf (truthyStr filename) (seriesMessage "delta-f" stride filename)
  say ""
  return x

/-- `setup_particle_distribution` and `ParticleDistributionAction.__init__`, `main.py:374-389` and
`particle_distribution.py:44-82`. -/
def setupDistributionP {R : Type} (w : World R) (o : Dict (OptVal ℝ)) : Prints (DistCfg × SeriesState ℝ) := do
  let _ ← quiet (stateRanges o)
  let stride ← quiet ((o.getItem "stride").bind OptVal.asOptStride)
  let filename ← quiet ((o.getItem "filename").bind OptVal.asOptStr)
  say "Setting up action to analyse distribution of walkers"
  let x ← quiet (setupDistribution w o)
  sayIf (truthyStr filename) (seriesMessage "distribution" stride filename)
  say ""
  return x

/-- The `try` block of `main.py:81-97`. -/
def setupOptionalP {R : Type} {d : Nat} (sh : Shows) (w : World R) (config : Input ℝ) (c : SimCfg d) (s : Sim d R) :
    Prints (SimCfg d × Sim d R) := do
  let (c, s) ← (match config.birthDeath with
    | none => pure (c, s)
    | some o => do
      let b ← setupBirthDeathP sh w o c.ld
      return ({ c with bd := some b.1 }, { s with bd := some b.2 }))
  let (c, s) ← (match config.trajectories with
    | none => pure (c, s)
    | some o => do
      let t ← setupTrajectoriesP w d o c.ld.dt s.particles.length
      return ({ c with traj := some t.1 }, { s with traj := some t.2 }))
  let (c, s) ← (match config.histogram with
    | none => pure (c, s)
    | some o => do
      let t ← quiet (requireAction c.traj "trajectories")
      let h ← setupHistogramP sh d o t
      return ({ c with hist := some (h.1, h.2.1) }, { s with hist := some h.2.2 }))
  let (c, s) ← (match config.fes with
    | none => pure (c, s)
    | some o => do
      let h ← quiet (requireAction s.hist "histogram")
      let f ← setupFesP sh w o c.ld h
      return ({ c with fes := some f.1 }, { s with fes := some f.2 }))
  let (c, s) ← (match config.deltaF with
    | none => pure (c, s)
    | some o => do
      let f ← quiet (requireAction c.fes "fes")
      let h ← quiet (requireAction s.hist "histogram")
      let g ← setupDeltaFP w o c.ld.kt c.ld.dt f.stride h
      return ({ c with deltaF := some g.1 }, { s with deltaF := some g.2 }))
  match config.particleDistribution with
    | none => return (c, s)
    | some o => do
      let f ← setupDistributionP w o
      return ({ c with dist := some f.1 }, { s with dist := some f.2 })

/-! ### Simulation -/

/-- `Stats.print`, `birth_death.py:342-394`, to the screen; nothing is printed if there is a file. -/
def reportText (sh : Shows) : StatsOutput → List String
  | .line _ => []
  | .report step st dup kill succ att =>
    ["After " ++ Nat.repr step ++ " time steps:",
      "Birth events: " ++ Nat.repr st.dupCount ++ "/" ++ Nat.repr st.dupAttempts ++ " (" ++ sh.digits4 dup ++ "%)",
      "Death events: " ++ Nat.repr st.killCount ++ "/" ++ Nat.repr st.killAttempts ++ " (" ++ sh.digits4 kill ++ "%)",
      "Ratio birth/death: " ++ sh.digits4 succ ++ " (succesful) / " ++ sh.digits4 att ++ " (attemps)",
      ""]

/-- Records of the statistics so far. -/
def Sim.bdLog {d : Nat} {R : Type} (s : Sim d R) : BdLog :=
  match s.bd with
  | some b => b.log
  | none => []

/-- Text of the records that were added between two states. -/
def newReports {d : Nat} {R : Type} (sh : Shows) (filename : Option String) (s s' : Sim d R) : List String :=
  (statsOutput filename (s'.bdLog.drop s.bdLog.length)).flatMap (reportText sh)

/-- `action.run(step)`; the only output is that of birth-death, which prints after everything else. -/
def runEventP {d : Nat} {R : Type} (sh : Shows) (w : World R) (filename : Option String) (c : SimCfg d) (step : Nat)
    (s : Sim d R) (a : ActName) : Prints (Sim d R) := do
  let s' ← quiet (runEvent w c step s a)
  sayAll (newReports sh filename s s')
  return s'

/-- `action.final_run(step)`. -/
def finalEventP {d : Nat} {R : Type} (sh : Shows) (filename : Option String) (c : SimCfg d) (step : Nat)
    (s : Sim d R) (a : ActName) : Prints (Sim d R) := do
  let s' ← quiet (finalEvent c step s a)
  sayAll (newReports sh filename s s')
  return s'

/-- A loop over a list. -/
def foldP {α β : Type} (f : β → α → Prints β) : β → List α → Prints β
  | b, [] => pure b
  | b, a :: l => do foldP f (← f b a) l

/-- Main loop, `main.py:115-117`. -/
def runStepsP {d : Nat} {R : Type} (sh : Shows) (w : World R) (filename : Option String) (c : SimCfg d) :
    Nat → Sim d R → Prints (Sim d R)
  | 0, s => pure s
  | n + 1, s => do
    let s' ← runStepsP sh w filename c n s
    foldP (runEventP sh w filename c (n + 1)) s' c.actions

/-- Name of the file for the statistics. -/
def statsFilename (config : Input ℝ) : Option String :=
  match config.birthDeath with
  | none => none
  | some o => match o.get? "stats-filename" with
    | some (.base (.str s)) => some s
    | _ => none

/-- `main` after reading the input, `main.py:68-123`. -/
def mainFromP {R : Type} (sh : Shows) (w : World R) (config : Input ℝ) : Prints (AnySim R) := do
  let r ← setupRequiredP sh w config
  let x ← setupOptionalP sh w config r.cfg r.sim
  let n ← quiet ((config.ld.getItem "n_steps").bind OptVal.asInt)
  say ("Setup finished, now running for " ++ toString n ++ " steps")
  let s ← runStepsP sh w (statsFilename config) x.1 n.toNat x.2
  say "Simulation finished, performing final actions"
  let s' ← foldP (finalEventP sh (statsFilename config) x.1 n.toNat) s x.1.actions
  say "Finished without errors"
  return ⟨r.d, x.1, s'⟩

/-- `main`, `main.py:30-123`. -/
def mainP {R : Type} (sh : Shows) (w : World R) (file : Option (List Section)) : Prints (AnySim R) := do
  say "Starting bdld code v0.3.2\n\n"
  let config ← quiet (parseAll 1 w.conv file)
  mainFromP sh w config

end

end Bdld
