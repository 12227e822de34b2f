import Verif.Model.Init
import Verif.Model.Fes
import Verif.Model.Plot
import Verif.Model.Density
import Verif.Model.LangevinReal
import Verif.Model.Polynomial
import Verif.Model.MuellerBrown
import Verif.Model.HistogramAction
import Verif.Model.Series

/-
Model of the whole program, `bdld/main.py`: reading the input, set-up of all actions, main loop and final
actions. Real level: exact arithmetic, built from the models of the single actions.

Not modelled: command line arguments and logging, printing to the terminal, drawing of the plots, number formats.
Output files are lists of rows; names, backups and headers are the subject of `Model/Files.lean` and `Model/Headers.lean`.
-/

namespace Bdld

/-- The three places where a random generator is created. -/
inductive RngUser where
  | ld
  | particles
  | birthDeath
deriving DecidableEq, Repr

/-- Everything the program gets from outside apart from the input file: library functions, operating system
entropy, contents of other files, uninitialised memory. -/
structure World (R : Type) where
  /-- `float()` and `int()` -/
  conv : Conv ℝ
  /-- `rng.standard_normal(n_dim)` -/
  normal : (d : Nat) → NormalOps R ℝ d
  /-- generator methods used in `init_particles` -/
  init : InitRng R ℝ
  /-- generator methods used in `BirthDeath` -/
  bdOps : RngOps R ℝ
  /-- `np.random.default_rng(seed)` for a non-negative seed -/
  fromSeed : Nat → R
  /-- `np.random.default_rng(None)` -/
  entropy : RngUser → R
  /-- `np.genfromtxt(filename)`, `none` for a missing file -/
  coeffFile : String → Option (List (List ℝ))
  /-- `griddata` for many points (in `sparsify`) -/
  interp : List (List ℝ) → List ℝ → List (List ℝ) → List ℝ
  /-- `griddata` for one point with fill value 0 (in `calc_betas`) -/
  interpAt : List (List ℝ) → List ℝ → List ℝ → ℝ
  /-- contents of arrays made by `np.empty` -/
  emptyTimes : Nat → ℝ
  emptyPositions : Nat → List (List ℝ)
  emptyMomentum : Nat → List (List ℝ)
  emptyDeltaF : Nat → List ℝ
  emptyCounts : Nat → List ℝ
  /-- file formats supported by matplotlib -/
  figFormats : List String := ["eps", "jpeg", "jpg", "pdf", "pgf", "png", "ps", "raw", "rgba", "svg", "svgz", "tif",
    "tiff", "webp"]
  /-- is there a terminal with a user who answers questions? -/
  terminal : Bool := false

/-- `np.random.default_rng(seed)`: negative seeds raise `ValueError`. -/
def World.defaultRng {R : Type} (w : World R) (user : RngUser) : Option Int → Except PyErr R
  | none => .ok (w.entropy user)
  | some s => if s < 0 then .error .valueError else .ok (w.fromSeed s.toNat)

/-! ### Options with values of known type -/

/-- Optional string option. -/
def OptVal.asOptStr {F : Type} : OptVal F → Except PyErr (Option String)
  | .none => .ok Option.none
  | .base (.str s) => .ok (some s)
  | _ => .error .typeError

/-- Optional float option. -/
def OptVal.asOptFloat {F : Type} : OptVal F → Except PyErr (Option F)
  | .none => .ok Option.none
  | .base (.float x) => .ok (some x)
  | _ => .error .typeError

/-- Optional stride: the parser only lets positive integers pass. -/
def OptVal.asOptStride {F : Type} : OptVal F → Except PyErr (Option Nat)
  | .none => .ok Option.none
  | .base (.int i) => .ok (some i.toNat)
  | _ => .error .typeError

/-- Truthiness of a bool option; `None` is falsy. -/
def OptVal.asFlag {F : Type} : OptVal F → Except PyErr Bool
  | .none => .ok false
  | .base (.bool b) => .ok b
  | _ => .error .typeError

/-- List of positive integers. -/
def OptVal.asNats {F : Type} : OptVal F → Except PyErr (List Nat)
  | .list l => l.mapM (fun v => match v with
      | .int i => (.ok i.toNat : Except PyErr Nat)
      | _ => .error .typeError)
  | _ => .error .typeError

/-- Optional list of floats. -/
def OptVal.asOptFloats {F : Type} : OptVal F → Except PyErr (Option (List F))
  | .none => .ok Option.none
  | v => do return some (← v.asFloats)

/-- Optional list of positive integers. -/
def OptVal.asOptNats {F : Type} : OptVal F → Except PyErr (Option (List Nat))
  | .none => .ok Option.none
  | v => do return some (← v.asNats)

/-- Truthiness of a filename: `None` and `""` are falsy. -/
def truthyStr : Option String → Bool
  | none => false
  | some s => decide (s ≠ "")

noncomputable section

/-! ### Set-up of the required parts -/

/-- `np.array(coeffs)` for a list. -/
def coeffs1d (cs : List ℝ) : NdArr 1 := ⟨fun _ => cs.length, fun idx => cs.getD (idx 0) 0⟩

/-- A row of a coefficient file; `IndexError` if it has fewer than `n_dim + 1` columns. -/
def parseCoeffRow (d : Nat) (row : List ℝ) : Except PyErr (CoeffRow d) :=
  if d < row.length then .ok ⟨fun k => pyTrunc (row.getD k 0), row.getD d 0⟩ else .error .indexError

/-- Ranges `list(zip(options["min"], options["max"]))`. -/
def zipRanges (o : Dict (OptVal ℝ)) : Except PyErr (List (ℝ × ℝ)) := do
  let mins ← (← o.getItem "min").asFloats
  let maxs ← (← o.getItem "max").asFloats
  return mins.zip maxs

/-- Ranges `[(options["min"], options["max"])]`. -/
def singleRange (o : Dict (OptVal ℝ)) : Except PyErr (List (ℝ × ℝ)) := do
  let lo ← (← o.getItem "min").asFloat
  let hi ← (← o.getItem "max").asFloat
  return [(lo, hi)]

/-- A potential together with its dimension. -/
structure AnyPotential where
  d : Nat
  pot : Potential ℝ d

/-- Polynomial potential, `main.py:128-139`. `np.array(None)` for missing coefficients has dimension 0 and
`PolynomialPotential` raises `ValueError`. -/
def setupPolynomial {R : Type} (w : World R) (o : Dict (OptVal ℝ)) : Except PyErr AnyPotential := do
  match (← o.getItem "n_dim") with
  | .base (.int 1) =>
    let ranges ← singleRange o
    match (← o.getItem "coeffs") with
    | .none => throw .valueError
    | v =>
      let cs ← v.asFloats
      let p ← newPolynomial (coeffs1d cs) (some ranges)
      return ⟨1, p⟩
  | .base (.int n) =>
    let ranges ← zipRanges o
    let name ← (← o.getItem "coeffs-file").asOptStr
    match w.coeffFile (name.getD "") with
    | none => throw .fileNotFoundError
    | some rows =>
      let rows ← rows.mapM (parseCoeffRow n.toNat)
      let a ← coefficientsFromFile rows
      let p ← newPolynomial a (some ranges)
      return ⟨n.toNat, p⟩
  | _ => throw .typeError

/-- `setup_potential`, `main.py:126-154`. -/
def setupPotential {R : Type} (w : World R) (o : Dict (OptVal ℝ)) : Except PyErr AnyPotential := do
  let p ← (match (← o.getItem "type") with
    | .base (.str "polynomial") => setupPolynomial w o
    | .base (.str "mueller-brown") => do
      let scaling ← (← o.getItem "scaling-factor").asOptFloat
      return ⟨2, MB.potential (MB.create MB.prefactors scaling)⟩
    | _ => throw (.optionError "type" "potential"))
  let bc ← (← o.getItem "boundary-condition").asOptStr
  return ⟨p.d, p.pot.withBcOption bc⟩

/-- Langevin dynamics: class, constants and state. -/
structure LdSetup (d : Nat) (R : Type) where
  kind : LdKind
  cfg : LdCfg ℝ d
  state : LdState ℝ d R

/-- `setup_ld`, `main.py:157-178`. -/
def setupLd {R : Type} {d : Nat} (w : World R) (o : Dict (OptVal ℝ)) (pot : Potential ℝ d) :
    Except PyErr (LdSetup d R) := do
  match (← o.getItem "type") with
  | .base (.str "bussi-parinello") =>
    let dt ← (← o.getItem "timestep").asFloat
    let friction ← (← o.getItem "friction").asFloat
    let kt ← (← o.getItem "kt").asFloat
    let rng ← w.defaultRng .ld (← (← o.getItem "seed").asOptInt)
    return ⟨.bussi, bussiCfg pot dt friction kt, ⟨[], rng⟩⟩
  | .base (.str "overdamped") =>
    let dt ← (← o.getItem "timestep").asFloat
    let rng ← w.defaultRng .ld (← (← o.getItem "seed").asOptInt)
    return ⟨.overdamped, overdampedCfg pot dt, ⟨[], rng⟩⟩
  | _ => throw (.optionError "type" "ld")

/-! ### Birth-death -/

/-- `ApproxVariant.from_str`, `birth_death.py:24-33`. -/
def approxFromStr (label : String) : Except PyErr ApproxVariant :=
  if label ∈ ["original", "orig"] then .ok .orig
  else if label ∈ ["additive", "add"] then .ok .add
  else if label ∈ ["multiplicative", "mult"] then .ok .mult
  else .error .typeError

/-- `get_approx_variant`, `main.py:240-248`: only `KeyError` is turned into `OptionError` (with section and
key exchanged). -/
def getApproxVariant (o : Dict (OptVal ℝ)) (key : String) : Except PyErr (Option ApproxVariant) := do
  let label ← (← o.getItem key).asOptStr
  if truthyStr label then
    match approxFromStr (label.getD "") with
    | .ok v => return some v
    | .error (.keyError _) => throw (.optionError "birth-death" key)
    | .error e => throw e
  else return none

/-- The variant used, `main.py:250-255`: members of the enum are truthy. -/
def approxVariantOf (o : Dict (OptVal ℝ)) : Except PyErr ApproxVariant :=
  ["correction-variant", "approximation-variant"].foldlM
    (fun v key => do return (← getApproxVariant o key).getD v) ApproxVariant.orig

/-- `options["seed"] + 1000 if options["seed"] else None`, `main.py:270`. -/
def bdSeed : Option Int → Option Int
  | none => none
  | some s => if s = 0 then none else some (s + 1000)

/-- Constants of the birth-death action. -/
structure BdAct (d : Nat) where
  cfg : BdCfg (LdParticle ℝ d) (WithBot ℝ) ℝ
  stride : Nat
  statsStride : Option Nat

/-- Mutable state of the birth-death action besides the particles. -/
structure BdRunState (R : Type) where
  rng : R
  stats : BdStats
  log : BdLog

/-- Kernel bandwidth, `main.py:228-237`. -/
def bdBandwidth (d : Nat) (o : Dict (OptVal ℝ)) : Except PyErr (List ℝ) := do
  let bw ← (if d = 1 then do return [← (← o.getItem "kernel-bandwidth").asFloat]
    else do (← o.getItem "kernel-bandwidth").asFloats)
  if bw.length ≠ d then throw (.optionError "kernel-bandwidth" "birth-death")
  return bw

/-- Energy of a position given as list. -/
def energyOfList {d : Nat} (pot : Potential ℝ d) (p : List ℝ) : ℝ := pot.energy (fun k => p.getD k 0)

/-- `approx_grid` of `BirthDeath.__init__`, `birth_death.py:112-136`, with the density of
`main.py:257-259`. -/
def bdApproxGrid {R : Type} {d : Nat} (w : World R) (c : LdCfg ℝ d) (bw : List ℝ) (v : ApproxVariant) :
    Except PyErr (Option (Grid ℝ)) :=
  match v with
  | .orig => .ok none
  | .add => do
    let dens ← bdProbDensity (energyOfList c.pot) d c.pot.ranges bw c.kt
    return some (← calcAdditiveCorrection w.interp dens bw)
  | .mult => do
    let dens ← bdProbDensity (energyOfList c.pot) d c.pot.ranges bw c.kt
    return some (← multiplicativeGrid w.interp dens bw)

/-- `approx_grid.interpolate(pos, "linear", 0.0)` for one position. The points of a grid made by the code
exist. -/
def approxAt {R : Type} (w : World R) (g : Option (Grid ℝ)) (p : List ℝ) : ℝ :=
  match g with
  | none => 0
  | some g => match g.points with
    | .error _ => 0
    | .ok pts => w.interpAt pts g.data.flat p

/-- `rate_fac or 1.0`, `birth_death.py:96`. -/
def rateFactor : Option ℝ → ℝ
  | none => 1
  | some x => if x = 0 then 1 else x

/-- `setup_birth_death`, `main.py:222-273`, and `BirthDeath.__init__`, `birth_death.py:56-137`. -/
def setupBirthDeath {R : Type} {d : Nat} (w : World R) (o : Dict (OptVal ℝ)) (c : LdCfg ℝ d) :
    Except PyErr (BdAct d × BdRunState R) := do
  let bw ← bdBandwidth d o
  let variant ← approxVariantOf o
  let stride ← (← o.getItem "stride").asOptStride
  let rateFac ← (← o.getItem "exponential-factor").asOptFloat
  let recalc ← (← o.getItem "recalculate-probabilities").asFlag
  let statsStride ← (← o.getItem "stats-stride").asOptStride
  let seed ← (← o.getItem "seed").asOptInt
  let rng ← w.defaultRng .birthDeath (bdSeed seed)
  let grid ← bdApproxGrid w c bw variant
  let rates : RateCfg d :=
    { bw := fun k => bw.getD k 0
      kt := c.kt
      variant := variant
      approx := fun p => approxAt w grid (List.ofFn p) }
  return (⟨realBdCfg rates (c.dt * (stride.getD 0 : ℝ)) (rateFactor rateFac) recalc (fun p => ⟨p.pos, p.energy⟩),
    stride.getD 0, statsStride⟩, ⟨rng, ⟨0, 0, 0, 0⟩, []⟩)

/-! ### Analysis actions -/

/-- `pot.get_fields()` for the header of a file, which raises `ValueError` for more than three dimensions
(`trajectory_action.py:59`, `histogram_action.py:83`, `fes_action.py:84`). -/
def checkFields (d : Nat) (filename : Option String) : Except PyErr Unit :=
  if truthyStr filename then do
    let _ ← potFields d
    return ()
  else .ok ()

/-- `setup_trajectories`, `main.py:300-309`. -/
def setupTrajectories {R : Type} (w : World R) (d : Nat) (o : Dict (OptVal ℝ)) (dt : ℝ) (nParticles : Nat) :
    Except PyErr (TrajCfg ℝ × TrajState ℝ) := do
  let stride ← (← o.getItem "stride").asOptStride
  let filename ← (← o.getItem "filename").asOptStr
  let momentum ← (← o.getItem "momentum").asFlag
  let writeStride ← (← o.getItem "write-stride").asOptStride
  checkFields d filename
  let c := TrajCfg.new nParticles stride writeStride momentum (fun n => (n : ℝ) * dt)
  return (c, TrajState.init c (truthyStr filename) w.emptyTimes w.emptyPositions w.emptyMomentum)

/-- Constants of the output of histograms and free energies. -/
structure GridOut where
  filename : Option String
  writeStride : Option Nat
deriving DecidableEq, Repr

/-- `setup_histogram`, `main.py:312-329`. -/
def setupHistogram (d : Nat) (o : Dict (OptVal ℝ)) (t : TrajCfg ℝ) :
    Except PyErr (HistCfg × GridOut × Histogram ℝ) := do
  let (ranges, nBins) ← (if d = 1 then do
      let r ← singleRange o
      let n ← (← o.getItem "bins").asInt
      return (r, [n.toNat])
    else do
      let r ← zipRanges o
      let n ← (← o.getItem "bins").asNats
      return (r, n))
  let stride ← (← o.getItem "stride").asOptStride
  let reset ← (← o.getItem "reset").asOptNats
  let filename ← (← o.getItem "filename").asOptStr
  let writeStride ← (← o.getItem "write-stride").asOptStride
  let h ← HistCfg.new t d nBins ranges stride reset (truthyStr filename) writeStride
  checkFields d filename
  return (h.1, ⟨filename, writeStride⟩, h.2)

/-- Constants of the FES action. -/
structure FesCfg where
  kt : ℝ
  stride : Option Nat
  out : GridOut
  plot : PlotCfg

/-- A stride for the output needs a stride and a filename, `fes_action.py:94-102` and `112-120`. -/
def checkOutput (wanted : Bool) (stride : Option Nat) (filename : Option String) : Except PyErr Unit :=
  if wanted then
    if !truthyNat stride then .error .valueError
    else if !truthyStr filename then .error .valueError
    else .ok ()
  else .ok ()

/-- `setup_fes`, `main.py:332-349`, and `FesAction.__init__`, `fes_action.py:67-124`: note that
`options["kt"]` is not used. `plot_stride` is not checked by the parser. -/
def setupFes {R : Type} {d : Nat} (w : World R) (o : Dict (OptVal ℝ)) (ld : LdCfg ℝ d) (h : Histogram ℝ) :
    Except PyErr (FesCfg × Nd (WithTop ℝ)) := do
  let ref ← fesReference ld.pot h
  let stride ← (← o.getItem "stride").asOptStride
  let filename ← (← o.getItem "filename").asOptStr
  let writeStride ← (← o.getItem "write-stride").asOptStride
  let plotStride ← (← o.getItem "plot-stride").asOptInt
  let plotFilename ← (← o.getItem "plot-filename").asOptStr
  let plotDomain ← (← o.getItem "plot-domain").asOptFloats
  let plotTitle ← (← o.getItem "plot-title").asOptStr
  let fes ← calculateFes h.counts ld.kt true
  checkFields d filename
  checkOutput (truthyNat writeStride) stride filename
  checkOutput (decide (plotStride.getD 0 ≠ 0)) stride plotFilename
  return (⟨ld.kt, stride, ⟨filename, writeStride⟩,
    ⟨plotFilename, plotStride, plotDomain, plotTitle.getD "", ref, w.figFormats, w.terminal⟩⟩, fes)

/-- Constants of the delta F action. -/
structure DeltaFCfg where
  series : SeriesCfg ℝ
  masks : List (List Bool)
  kt : ℝ

/-- `setup_delta_f`, `main.py:352-371`, and `DeltaFAction.__init__`, `delta_f_action.py:48-72`. -/
def setupDeltaFAction {R : Type} (w : World R) (o : Dict (OptVal ℝ)) (ldKt dt : ℝ) (h : Histogram ℝ) :
    Except PyErr (DeltaFCfg × SeriesState ℝ) := do
  let states ← stateRanges o
  let masks ← setupDeltaF h states
  let stride ← (← o.getItem "stride").asOptStride
  let filename ← (← o.getItem "filename").asOptStr
  let writeStride ← (← o.getItem "write-stride").asOptStride
  let c ← SeriesCfg.new stride writeStride (truthyStr filename) (fun n => (n : ℝ) * dt)
  return (⟨c, masks, ldKt⟩, SeriesState.init c w.emptyDeltaF)

/-- Constants of the particle distribution action. -/
structure DistCfg where
  series : SeriesCfg ℝ
  states : List (List (ℝ × ℝ))

/-- `setup_particle_distribution`, `main.py:374-389`, and `ParticleDistributionAction.__init__`,
`particle_distribution.py:42-65`. -/
def setupDistribution {R : Type} (w : World R) (o : Dict (OptVal ℝ)) :
    Except PyErr (DistCfg × SeriesState ℝ) := do
  let states ← stateRanges o
  let stride ← (← o.getItem "stride").asOptStride
  let filename ← (← o.getItem "filename").asOptStr
  let writeStride ← (← o.getItem "write-stride").asOptStride
  let c ← SeriesCfg.new stride writeStride (truthyStr filename) (fun n => (n : ℝ))
  return (⟨c, states⟩, SeriesState.init c w.emptyCounts)

/-! ### Simulation -/

/-- The keys of `actions_dict`. -/
inductive ActName where
  | ld
  | birthDeath
  | trajectories
  | histogram
  | fes
  | deltaF
  | particleDistribution
deriving DecidableEq, Repr

/-- Constants of all actions that are set up. -/
structure SimCfg (d : Nat) where
  kind : LdKind
  ld : LdCfg ℝ d
  bd : Option (BdAct d) := none
  traj : Option (TrajCfg ℝ) := none
  hist : Option (HistCfg × GridOut) := none
  fes : Option FesCfg := none
  deltaF : Option DeltaFCfg := none
  dist : Option DistCfg := none

/-- An executed action. -/
inductive Event where
  | run (a : ActName) (step : Nat)
  | final (a : ActName) (step : Nat)
deriving DecidableEq, Repr

/-- Mutable state of the simulation. `events` records the executed actions, `histWrites` and `fesWrites` the
grids written to files. -/
structure Sim (d : Nat) (R : Type) where
  particles : List (LdParticle ℝ d)
  ldRng : R
  bd : Option (BdRunState R) := none
  traj : Option (TrajState ℝ) := none
  hist : Option (Histogram ℝ) := none
  histWrites : List (String × Histogram ℝ) := []
  fes : Option (Nd (WithTop ℝ)) := none
  fesWrites : List (String × Nd (WithTop ℝ)) := []
  plots : List PlotOut := []
  deltaF : Option (SeriesState ℝ) := none
  dist : Option (SeriesState ℝ) := none
  events : List Event := []

/-- What the trajectory action reads. -/
def snapshotOf {d : Nat} (ps : List (LdParticle ℝ d)) : Snapshot ℝ :=
  ⟨ps.map (fun p => List.ofFn p.pos), ps.map (fun p => List.ofFn p.mom)⟩

/-- `write` of `HistogramAction` (`histogram_action.py:145-160`) and `FesAction`
(`fes_action.py:144-159`): name and content of the file. `step = None` and `step = 0` are falsy. -/
def gridWrite {α : Type} (out : GridOut) (step : Option Nat) (a : α) (writes : List (String × α)) :
    List (String × α) :=
  if truthyStr out.filename then
    let name := out.filename.getD ""
    if truthyNat step then writes ++ [(stepFilename name (step.getD 0), a)] else writes ++ [(name, a)]
  else writes

/-- `self.write(step)` at multiples of the write stride. -/
def gridWriteStride {α : Type} (out : GridOut) (step : Nat) (a : α) (writes : List (String × α)) :
    List (String × α) :=
  if truthyNat out.writeStride && step % out.writeStride.getD 0 == 0 then gridWrite out (some step) a writes
  else writes

/-- Values of the delta F series; only calculated if they are stored. -/
def deltaFVals (c : DeltaFCfg) (fes : Nd (WithTop ℝ)) (needed : Bool) : Except PyErr (List ℝ) :=
  if needed then calculateDeltaF fes c.kt c.masks else .ok []

/-- Values of the particle distribution; only calculated if they are stored. -/
def distVals {d : Nat} (c : DistCfg) (ps : List (LdParticle ℝ d)) (needed : Bool) :
    Except PyErr (List ℝ) :=
  if needed then do
    let ns ← countParticles d (ps.map (fun p => List.ofFn p.pos)) c.states
    return ns.map (fun (n : Nat) => (n : ℝ))
  else .ok []

/-- `action.run(step)` of the action with the given name. (Actions that are not set up are not in the list of
actions, `SimCfg.actions`.) -/
def runAction {d : Nat} {R : Type} (w : World R) (c : SimCfg d) (s : Sim d R) (a : ActName) (step : Nat) :
    Except PyErr (Sim d R) :=
  match a with
  | .ld => do
    let x ← LdState.run c.kind c.ld (w.normal d) ⟨s.particles, s.ldRng⟩
    return { s with particles := x.particles, ldRng := x.rng }
  | .birthDeath =>
    match c.bd, s.bd with
    | some b, some x => do
      let y ← bdRun b.cfg w.bdOps b.stride b.statsStride (⟨s.particles, x.rng, x.stats⟩, x.log) step
      return { s with particles := y.1.particles, bd := some ⟨y.1.rng, y.1.stats, y.2⟩ }
    | _, _ => .ok s
  | .trajectories =>
    match c.traj, s.traj with
    | some t, some x => do
      let y ← x.run t step (snapshotOf s.particles)
      return { s with traj := some y }
    | _, _ => .ok s
  | .histogram =>
    -- the histogram is written before it is reset, `histogram_action.py:109-113`
    match c.traj, s.traj, c.hist, s.hist with
    | some t, some x, some (h, out), some y => do
      let z ← histRun t { h with reset := [] } x y step
      return { s with
        hist := some (if step ∈ h.reset then z.clear else z)
        histWrites := gridWriteStride out step z s.histWrites }
    | _, _, _, _ => .ok s
  | .fes =>
    match c.fes, s.hist, s.fes with
    | some f, some h, some x => do
      let y ← (if truthyNat f.stride && step % f.stride.getD 0 == 0 then calculateFes h.counts f.kt true
        else .ok x)
      let p ← fesPlotStride f.plot step y h.fesAxes s.plots
      return { s with fes := some y, fesWrites := gridWriteStride f.out step y s.fesWrites, plots := p }
    | _, _, _ => .ok s
  | .deltaF =>
    match c.deltaF, s.fes, s.deltaF with
    | some f, some x, some y => do
      let vals ← deltaFVals f x (decide (f.series.stride ≠ 0 ∧ step % f.series.stride = 0))
      let z ← y.run f.series step vals
      return { s with deltaF := some z }
    | _, _, _ => .ok s
  | .particleDistribution =>
    match c.dist, s.dist with
    | some f, some y => do
      let vals ← distVals f s.particles (decide (f.series.stride ≠ 0 ∧ step % f.series.stride = 0))
      let z ← y.run f.series step vals
      return { s with dist := some z }
    | _, _ => .ok s

/-- `action.final_run(step)`. `final_run` of the Langevin dynamics does nothing (`action.py:19-24`). -/
def finalAction {d : Nat} {R : Type} (c : SimCfg d) (s : Sim d R) (a : ActName) (step : Nat) :
    Except PyErr (Sim d R) :=
  match a with
  | .ld => .ok s
  | .birthDeath =>
    match c.bd, s.bd with
    | some b, some x =>
      let y := bdFinal b.statsStride (⟨s.particles, x.rng, x.stats⟩, x.log) step
      .ok { s with bd := some ⟨y.1.rng, y.1.stats, y.2⟩ }
    | _, _ => .ok s
  | .trajectories =>
    match c.traj, s.traj with
    | some t, some x => do
      let y ← x.finalRun t step
      return { s with traj := some y }
    | _, _ => .ok s
  | .histogram =>
    match c.traj, s.traj, c.hist, s.hist with
    | some t, some x, some (h, out), some y => do
      let z ← histFinal t h x y step
      return { s with hist := some z, histWrites := gridWrite out none z s.histWrites }
    | _, _, _, _ => .ok s
  | .fes =>
    match c.fes, s.hist, s.fes with
    | some f, some h, some _ => do
      let y ← calculateFes h.counts f.kt true
      let p ← fesPlot f.plot none y h.fesAxes s.plots
      return { s with fes := some y, fesWrites := gridWrite f.out none y s.fesWrites, plots := p }
    | _, _, _ => .ok s
  | .deltaF =>
    match c.deltaF, s.fes, s.deltaF with
    | some f, some x, some y => do
      let vals ← deltaFVals f x (decide (f.series.stride = 0))
      let z ← y.finalRun f.series step vals
      return { s with deltaF := some z }
    | _, _, _ => .ok s
  | .particleDistribution =>
    match c.dist, s.dist with
    | some f, some y => do
      let vals ← distVals f s.particles (decide (f.series.stride = 0))
      let z ← y.finalRun f.series step vals
      return { s with dist := some z }
    | _, _ => .ok s

/-- `list(actions_dict.values())`, `main.py:113`, in order of insertion (`main.py:78-97`). -/
def SimCfg.actions {d : Nat} (c : SimCfg d) : List ActName :=
  [.ld] ++ (if c.bd.isSome then [.birthDeath] else []) ++ (if c.traj.isSome then [.trajectories] else []) ++
    (if c.hist.isSome then [.histogram] else []) ++ (if c.fes.isSome then [.fes] else []) ++
    (if c.deltaF.isSome then [.deltaF] else []) ++ (if c.dist.isSome then [.particleDistribution] else [])

/-- `run` with the record of the event. -/
def runEvent {d : Nat} {R : Type} (w : World R) (c : SimCfg d) (step : Nat) (s : Sim d R) (a : ActName) :
    Except PyErr (Sim d R) := do
  let s' ← runAction w c s a step
  return { s' with events := s'.events ++ [.run a step] }

/-- `final_run` with the record of the event. -/
def finalEvent {d : Nat} {R : Type} (c : SimCfg d) (step : Nat) (s : Sim d R) (a : ActName) :
    Except PyErr (Sim d R) := do
  let s' ← finalAction c s a step
  return { s' with events := s'.events ++ [.final a step] }

/-- Main loop, `main.py:115-117`, up to step `n`. -/
def runSteps {d : Nat} {R : Type} (w : World R) (c : SimCfg d) : Nat → Sim d R → Except PyErr (Sim d R)
  | 0, s => .ok s
  | n + 1, s => do
    let s' ← runSteps w c n s
    c.actions.foldlM (runEvent w c (n + 1)) s'

/-- Main loop and final actions, `main.py:115-121`. -/
def simulate {d : Nat} {R : Type} (w : World R) (c : SimCfg d) (n : Nat) (s : Sim d R) :
    Except PyErr (Sim d R) := do
  let s' ← runSteps w c n s
  c.actions.foldlM (finalEvent c n) s'

/-! ### The program -/

/-- Configuration and state with their dimension. -/
structure AnySim (R : Type) where
  d : Nat
  cfg : SimCfg d
  sim : Sim d R

/-- `main.py:75-78`. -/
def setupRequired {R : Type} (w : World R) (config : Input ℝ) : Except PyErr (AnySim R) := do
  let p ← setupPotential w config.potential
  let l ← setupLd w config.ld p.pot
  let s ← initParticles pyTrunc w.init (w.defaultRng .particles) l.cfg config.particles l.state
  return ⟨p.d, { kind := l.kind, ld := l.cfg }, { particles := s.particles, ldRng := s.rng }⟩

/-- `actions_dict[name]`. -/
def requireAction {α : Type} (a : Option α) (name : String) : Except PyErr α :=
  match a with
  | some x => .ok x
  | none => .error (.keyError name)

/-- The `try` block of `main.py:81-97`. -/
def setupOptional {R : Type} {d : Nat} (w : World R) (config : Input ℝ) (c : SimCfg d) (s : Sim d R) :
    Except PyErr (SimCfg d × Sim d R) := do
  let (c, s) ← (match config.birthDeath with
    | none => pure (c, s)
    | some o => do
      let b ← setupBirthDeath w o c.ld
      return ({ c with bd := some b.1 }, { s with bd := some b.2 }))
  let (c, s) ← (match config.trajectories with
    | none => pure (c, s)
    | some o => do
      let t ← setupTrajectories w d o c.ld.dt s.particles.length
      return ({ c with traj := some t.1 }, { s with traj := some t.2 }))
  let (c, s) ← (match config.histogram with
    | none => pure (c, s)
    | some o => do
      let t ← requireAction c.traj "trajectories"
      let h ← setupHistogram d o t
      return ({ c with hist := some (h.1, h.2.1) }, { s with hist := some h.2.2 }))
  let (c, s) ← (match config.fes with
    | none => pure (c, s)
    | some o => do
      let h ← requireAction s.hist "histogram"
      let f ← setupFes w o c.ld h
      return ({ c with fes := some f.1 }, { s with fes := some f.2 }))
  let (c, s) ← (match config.deltaF with
    | none => pure (c, s)
    | some o => do
      let _ ← requireAction c.fes "fes"
      let h ← requireAction s.hist "histogram"
      let f ← setupDeltaFAction w o c.ld.kt c.ld.dt h
      return ({ c with deltaF := some f.1 }, { s with deltaF := some f.2 }))
  match config.particleDistribution with
    | none => return (c, s)
    | some o => do
      let f ← setupDistribution w o
      return ({ c with dist := some f.1 }, { s with dist := some f.2 })

/-- How the program ends. -/
inductive Outcome (α : Type) where
  /-- error message and `sys.exit(1)` -/
  | exit1
  /-- exception that is not caught by `main` -/
  | uncaught (e : PyErr)
  /-- normal end -/
  | finished (a : α)

/-- Exceptions handled around `inputparser.Input(infile)`, `main.py:59-66`. -/
def caughtInput : PyErr → Bool
  | .fileNotFoundError => true
  | .optionError _ _ => true
  | .sectionError _ => true
  | _ => false

/-- Exceptions handled around the set-up of the optional actions, `main.py:98-107`. -/
def caughtSetup : PyErr → Bool
  | .keyError _ => true
  | .optionError _ _ => true
  | _ => false

/-- An exception that is caught or not. -/
def raise {α : Type} (caught : PyErr → Bool) (e : PyErr) : Outcome α :=
  if caught e then .exit1 else .uncaught e

/-- `main` after reading the input, `main.py:68-123`. -/
def mainFrom {R : Type} (w : World R) (config : Input ℝ) : Outcome (AnySim R) :=
  match setupRequired w config with
  | .error e => .uncaught e
  | .ok r =>
    match setupOptional w config r.cfg r.sim with
    | .error e => raise caughtSetup e
    | .ok x =>
      match (config.ld.getItem "n_steps").bind OptVal.asInt with
      | .error e => .uncaught e
      | .ok n =>
        match simulate w x.1 n.toNat x.2 with
        | .error e => .uncaught e
        | .ok s => .finished ⟨r.d, x.1, s⟩

/-- `main`, `main.py:30-123`, for the content of the input file (`none` if it cannot be opened). -/
def mainProgram {R : Type} (w : World R) (file : Option (List Section)) : Outcome (AnySim R) :=
  match parseAll 1 w.conv file with
  | .error e => raise caughtInput e
  | .ok config => mainFrom w config

end

end Bdld
