import Verif.Model.Main
import Verif.Model.Files

/-
Model of the files of a whole run: the operations on files of all actions in the order of the program. The names come
from the options of the input file, what is written from the state of the simulation before and after the call of an
action (its lists of written rows, grids and plots grow at the end). The lines are not formatted here (`Headers.lean`,
`Text.lean`). Not modelled: plots for whose name the program asks (`Prompt.lean`).
-/

namespace Bdld

noncomputable section

/-- The files to which lines are appended. -/
inductive OutFile where
  | stats
  | walker (i : Nat)
  | deltaF
  | distribution
deriving DecidableEq, Repr

/-- The action that writes to the file. -/
def OutFile.owner : OutFile → ActName
  | .stats => .birthDeath
  | .walker _ => .trajectories
  | .deltaF => .deltaF
  | .distribution => .particleDistribution

/-- Content of a file: the header, a row of numbers or of counters; a whole histogram, free energy or figure. -/
inductive DiskLine where
  | header (f : OutFile)
  | numbers (row : List ℝ)
  | counters (r : Nat × BdStats)
  | histogram (h : Histogram ℝ)
  | fes (f : Nd (WithTop ℝ))
  | figure (f : Figure)

/-- A name given as option; `None` and `""` are falsy. -/
def optName (o : Option (Dict (OptVal ℝ))) (key : String) : Option Path :=
  match o.bind (fun d => d.get? key) with
  | some (.base (.str s)) => if s = "" then none else some s.toList
  | _ => none

/-- `f"{filename}.{i}"`, `trajectory_action.py:57`. -/
def walkerFile (name : Path) (i : Nat) : Path := name ++ '.' :: Nat.toDigits 10 i

/-- Name of the file of `fig.savefig(name)`: a name without extension gets the one of the default format of matplotlib
(`print_figure` of matplotlib, `filename.rstrip(".") + "." + format`; `png` unless changed in the settings of the user). -/
def figureFile (name : String) : Path :=
  if (fileExtension name.toList).drop 1 = [] then (name.toList.reverse.dropWhile (· = '.')).reverse ++ ".png".toList
  else name.toList

/-- The files that are initialised during the set-up, in this order: statistics (`birth_death.py:333`), trajectories
(`trajectory_action.py:64`), free energy differences (`delta_f_action.py:85`) and distribution
(`particle_distribution.py:74`). -/
def outFiles (config : Input ℝ) (nParticles : Nat) : List (Path × OutFile) :=
  (optName config.birthDeath "stats-filename").toList.map (fun p => (p, .stats)) ++
    (optName config.trajectories "filename").toList.flatMap
      (fun p => (List.range nParticles).map (fun i => (walkerFile p i, .walker i))) ++
    (optName config.deltaF "filename").toList.map (fun p => (p, .deltaF)) ++
    (optName config.particleDistribution "filename").toList.map (fun p => (p, .distribution))

/-- What the set-up does with files. -/
def setupOps (files : List (Path × OutFile)) : List (FileOp DiskLine) :=
  files.map (fun f => .init f.1 [.header f.2])

/-- What the state says to be written below the header. -/
def Sim.fileRows {d : Nat} {R : Type} (s : Sim d R) : OutFile → List DiskLine
  | .stats => match s.bd with
    | some x => x.log.map .counters
    | none => []
  | .walker i => match s.traj with
    | some x => ((x.files.getD []).getD i []).map .numbers
    | none => []
  | .deltaF => match s.deltaF with
    | some x => x.file.map .numbers
    | none => []
  | .distribution => match s.dist with
    | some x => x.file.map .numbers
    | none => []

/-- What is new at the end of a list. -/
def newPart {α : Type} (before after : List α) : List α := after.drop before.length

/-- `write` is called: at multiples of the write stride and at the end. -/
def writesNow (writeStride : Nat) (final : Bool) (step : Nat) : Bool :=
  final || (writeStride != 0 && step % writeStride == 0)

/-- Whether the file is opened for writing in this call of the action. Statistics are written one record at a time. -/
def opensFile {d : Nat} {R : Type} (c : SimCfg d) (s s' : Sim d R) (final : Bool) (step : Nat) : OutFile → Bool
  | .stats => !(newPart (s.fileRows .stats) (s'.fileRows .stats)).isEmpty
  | .walker _ => match c.traj with
    | some t => writesNow t.writeStride final step
    | none => false
  | .deltaF => match c.deltaF with
    | some f => writesNow f.series.writeStride final step
    | none => false
  | .distribution => match c.dist with
    | some f => writesNow f.series.writeStride final step
    | none => false

/-- What one call of `run` or `final_run` of an action does with files, for the states before and after it. -/
def actionOps {d : Nat} {R : Type} (files : List (Path × OutFile)) (c : SimCfg d) (s s' : Sim d R) (final : Bool)
    (step : Nat) (a : ActName) : List (FileOp DiskLine) :=
  (files.filter (fun f => decide (f.2.owner = a) && opensFile c s s' final step f.2)).map
      (fun f => .append f.1 (newPart (s.fileRows f.2) (s'.fileRows f.2))) ++
    (newPart s.histWrites s'.histWrites).map (fun x => .grid x.1.toList d [.histogram x.2]) ++
    (newPart s.fesWrites s'.fesWrites).map (fun x => .grid x.1.toList d [.fes x.2]) ++
    ((newPart s.plots s'.plots).filter (fun x => !x.asked)).map (fun x => .overwrite (figureFile x.name) [.figure x.figure])

/-- `run` with the operations on files. -/
def runEventD {d : Nat} {R : Type} (files : List (Path × OutFile)) (w : World R) (c : SimCfg d) (step : Nat)
    (x : Sim d R × List (FileOp DiskLine)) (a : ActName) : Except PyErr (Sim d R × List (FileOp DiskLine)) := do
  let s' ← runEvent w c step x.1 a
  return (s', x.2 ++ actionOps files c x.1 s' false step a)

/-- `final_run` with the operations on files. -/
def finalEventD {d : Nat} {R : Type} (files : List (Path × OutFile)) (c : SimCfg d) (step : Nat)
    (x : Sim d R × List (FileOp DiskLine)) (a : ActName) : Except PyErr (Sim d R × List (FileOp DiskLine)) := do
  let s' ← finalEvent c step x.1 a
  return (s', x.2 ++ actionOps files c x.1 s' true step a)

/-- Main loop, `main.py:115-117`. -/
def runStepsD {d : Nat} {R : Type} (files : List (Path × OutFile)) (w : World R) (c : SimCfg d) :
    Nat → Sim d R × List (FileOp DiskLine) → Except PyErr (Sim d R × List (FileOp DiskLine))
  | 0, x => .ok x
  | n + 1, x => do
    let x' ← runStepsD files w c n x
    c.actions.foldlM (runEventD files w c (n + 1)) x'

/-- The run after the set-up, `main.py:115-121`. -/
def simulateD {d : Nat} {R : Type} (files : List (Path × OutFile)) (w : World R) (c : SimCfg d) (n : Nat) (s : Sim d R) :
    Except PyErr (Sim d R × List (FileOp DiskLine)) := do
  let x ← runStepsD files w c n (s, setupOps files)
  c.actions.foldlM (finalEventD files c n) x

end

end Bdld
