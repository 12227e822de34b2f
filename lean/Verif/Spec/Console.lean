import Verif.Model.Console
import Verif.Spec.Options
import Verif.Spec.Run

/-
Specification of what a run that is not interrupted prints, in terms of the options of the input file and of the
constants that the simulation uses.
-/

namespace Bdld.Spec

noncomputable section

/-- All floats that are given for an option. -/
def floatsOf (o : Dict (OptVal ℝ)) (key : String) : List ℝ :=
  match o.get? key with
  | some (.base (.float x)) => [x]
  | some (.list l) => l.filterMap (fun v => match v with
      | .float x => some x
      | _ => none)
  | _ => []

/-- All integers that are given for an option. -/
def natsOf (o : Dict (OptVal ℝ)) (key : String) : List Nat :=
  match o.get? key with
  | some (.base (.int i)) => [i.toNat]
  | some (.list l) => l.filterMap (fun v => match v with
      | .int i => some i.toNat
      | _ => none)
  | _ => []

/-- A seed other than 0 is shown. -/
def seedLines (seed : Int) : List String := if seed = 0 then [] else ["  seed = " ++ toString seed]

/-- The dynamics: time step and thermal energy are those that are used. -/
def ldLines {d : Nat} (sh : Shows) (text : String) (kind : LdKind) (ld : LdCfg ℝ d) (o : Dict (OptVal ℝ)) : List String :=
  (match kind with
    | .bussi => ["Setting up Langevin dynamics with Bussi-Parinello thermostat\nParameters:\n  potential = " ++ text ++
        "\n  timestep = " ++ sh.float ld.dt ++ "\n  friction = " ++ sh.float (floatOf o "friction") ++
        "\n  kt = " ++ sh.float ld.kt]
    | .overdamped => ["Setting up overdamped Langevin dynamics\nParameters:\n  potential = " ++ text ++
        "\n  timestep = " ++ sh.float ld.dt]) ++ seedLines (intOption o "seed") ++ [""]

/-- The particles. -/
def particleLines (sh : Shows) (o : Dict (OptVal ℝ)) : List String :=
  ["Adding " ++ toString (intOption o "number") ++ " particles with mass " ++ sh.float (floatOf o "mass") ++ "\n",
    (if strOption o "initial-distribution" = "random-global" then "Distributed randomly in whole potential range\n"
      else if strOption o "initial-distribution" = "random-pos" then "Distributed randomly on specified positions\n"
      else "Distributed with fixed fractions on specified positions\n"), ""]

/-- Birth-death: the seed is that of the input file plus 1000. -/
def birthDeathLines {d : Nat} (sh : Shows) (ld : LdCfg ℝ d) (o : Dict (OptVal ℝ)) : List String :=
  ["Setting up birth/death scheme\nParameters:\n  dt = " ++ sh.float (ld.dt * (natOption o "stride" 0 : ℝ)) ++
    "\n  bw = " ++ sh.array (floatsOf o "kernel-bandwidth") ++ "\n  kt = " ++ sh.float ld.kt ++
    "\n  rate_fac = " ++ sh.float (factorOf o)] ++
  (if intOption o "seed" = 0 then [] else seedLines (intOption o "seed" + 1000)) ++
  (if flagOption o "recalculate-probabilities" then
    ["  recalculating the probabilities after every successful event"] else []) ++
  [match variantOf o with
    | .orig => "  using the original approximation"
    | .add => "  using the additive approximation"
    | .mult => "  using the multiplicative approximation", ""]

/-- Trajectories. -/
def trajectoryLines (o : Dict (OptVal ℝ)) : List String :=
  ["Setting up storage of the trajectories"] ++
  (if hasFilename o then [(if natOption o "stride" 1 = 1 then "Saving all positions to the files '"
    else "Saving every " ++ makeOrdinal (natOption o "stride" 1 : Nat) ++ " position to the files '") ++
      strOption o "filename" ++ ".{i}'"] else []) ++ [""]

/-- Histogram. -/
def histogramLines (sh : Shows) (o : Dict (OptVal ℝ)) : List String :=
  ["Setting up histogram for the trajectories\nParameters:\n  ranges = " ++
      rangesText sh ((floatsOf o "min").zip (floatsOf o "max")) ++
      "\n  n_bins = " ++ listText ((natsOf o "bins").map Nat.repr),
    "  stride = " ++ Nat.repr (natOption o "stride" 1)] ++
  (if natOption o "write-stride" 0 = 0 then []
    else ["Saving histogram every " ++ Nat.repr (natOption o "write-stride" 0) ++ " time steps to '" ++
      strOption o "filename" ++ "'"]) ++ [""]

/-- Free energy surface; there is a warning for files and plots at steps without a new FES. -/
def fesLines (sh : Shows) (kt : ℝ) (o : Dict (OptVal ℝ)) : List String :=
  ["Setting up FES calculation for the histogram\nParameters:", "  kt = " ++ sh.float kt] ++
  (if natOption o "stride" 0 = 0 then [] else ["  stride = " ++ Nat.repr (natOption o "stride" 0)]) ++
  (if natOption o "write-stride" 0 = 0 then []
    else (if natOption o "stride" 0 ∣ natOption o "write-stride" 0 then []
        else ["Warning: the write stride is no multiple of the update stride."]) ++
      ["Saving FES every " ++ Nat.repr (natOption o "write-stride" 0) ++ " time steps to '" ++
        strOption o "filename" ++ "_{step}'"]) ++
  (if intOption o "plot-stride" = 0 then []
    else (if (natOption o "stride" 0 : Int) ∣ intOption o "plot-stride" then []
        else ["Warning: the plot stride is no multiple of the update stride."]) ++
      ["Plotting every " ++ toString (intOption o "plot-stride") ++ " time steps to '" ++
        strOption o "plot-filename" ++ "_{step}'"]) ++ [""]

/-- A file with one row per evaluation. -/
def seriesLines (what : String) (o : Dict (OptVal ℝ)) : List String :=
  if hasFilename o then
    [if natOption o "stride" 0 = 0 then "Saving " ++ what ++ " to '" ++ strOption o "filename" ++ "'"
      else "Saving " ++ what ++ " of every " ++ makeOrdinal (natOption o "stride" 0 : Nat) ++ " time step to '" ++
        strOption o "filename" ++ "'"]
  else []

/-- Free energy differences; there is a warning if they are calculated at steps without a new FES. -/
def deltaFLines (fes o : Dict (OptVal ℝ)) : List String :=
  ["Setting up delta-f action"] ++
  (if natOption o "stride" 0 = 0 ∨ (natOption fes "stride" 0 ≠ 0 ∧ natOption fes "stride" 0 ∣ natOption o "stride" 0)
    then [] else ["Warning: the DeltaF stride is no multiple of the FES stride."]) ++
  seriesLines "delta-f" o ++ [""]

/-- Particle distribution. -/
def distributionLines (o : Dict (OptVal ℝ)) : List String :=
  ["Setting up action to analyse distribution of walkers"] ++ seriesLines "distribution" o ++ [""]

/-- Lines for a section that may be missing. -/
def ifGiven (f : Dict (OptVal ℝ) → List String) : Option (Dict (OptVal ℝ)) → List String
  | none => []
  | some o => f o

/-- Everything that is printed by the set-up. -/
def setupLines {d : Nat} (sh : Shows) (text : String) (config : Input ℝ) (c : SimCfg d) : List String :=
  ldLines sh text c.kind c.ld config.ld ++ particleLines sh config.particles ++
    ifGiven (birthDeathLines sh c.ld) config.birthDeath ++ ifGiven trajectoryLines config.trajectories ++
    ifGiven (histogramLines sh) config.histogram ++ ifGiven (fesLines sh c.ld.kt) config.fes ++
    ifGiven (deltaFLines (config.fes.getD [])) config.deltaF ++
    ifGiven distributionLines config.particleDistribution

/-- The statistics after step `t`, if there is no file for them. -/
def statsLines (sh : Shows) (o : Dict (OptVal ℝ)) (t : Nat) (c : BdStats) : List String :=
  if strOption o "stats-filename" = "" then
    ["After " ++ Nat.repr t ++ " time steps:",
      "Birth events: " ++ Nat.repr c.dupCount ++ "/" ++ Nat.repr c.dupAttempts ++ " (" ++
        sh.digits4 (quotientOrNan (100 * c.dupCount) c.dupAttempts) ++ "%)",
      "Death events: " ++ Nat.repr c.killCount ++ "/" ++ Nat.repr c.killAttempts ++ " (" ++
        sh.digits4 (quotientOrNan (100 * c.killCount) c.killAttempts) ++ "%)",
      "Ratio birth/death: " ++ sh.digits4 (quotientOrNan c.dupCount c.killCount) ++ " (succesful) / " ++
        sh.digits4 (quotientOrNan c.dupAttempts c.killAttempts) ++ " (attemps)", ""]
  else []

/-- Reports during the simulation: only with `stats-stride`. -/
def runLines (sh : Shows) (n : Nat) (counters : Nat → BdStats) (o : Dict (OptVal ℝ)) : List String :=
  if natOption o "stats-stride" 0 = 0 then []
  else (reportSteps o n).flatMap (fun t => statsLines sh o t (counters t))

/-- Report at the end: only without `stats-stride`. -/
def finalLines (sh : Shows) (n : Nat) (counters : Nat → BdStats) (o : Dict (OptVal ℝ)) : List String :=
  if natOption o "stats-stride" 0 = 0 then statsLines sh o n (counters n) else []

/-- Everything that is printed in a run of `n` steps. -/
def screen {d : Nat} (sh : Shows) (text : String) (config : Input ℝ) (c : SimCfg d) (n : Nat)
    (counters : Nat → BdStats) : List String :=
  ["Starting bdld code v0.3.2\n\n"] ++ setupLines sh text config c ++
    ["Setup finished, now running for " ++ Nat.repr n ++ " steps"] ++
    ifGiven (runLines sh n counters) config.birthDeath ++
    ["Simulation finished, performing final actions"] ++
    ifGiven (finalLines sh n counters) config.birthDeath ++ ["Finished without errors"]

end

end Bdld.Spec
