import Verif.Model.Action

/-
Model of `bdld/actions/trajectory_action.py`.
Law-free: numbers are only stored and moved (type `F`, e.g. IEEE doubles).
-/

namespace Bdld

/-- What `TrajectoryAction.run` reads from the Langevin dynamics: position and momentum vector of every
particle (`p.pos`, `p.mom` for `p in self.ld.particles`). -/
structure Snapshot (F : Type _) where
  pos : List (List F)
  mom : List (List F)

/-- Attributes of a `TrajectoryAction` that never change after construction
(`trajectory_action.py:42-57`). `timeOf step` is the float `step * self.ld.dt`. -/
structure TrajCfg (F : Type _) where
  stride : Nat
  writeStride : Nat
  nParticles : Nat
  storeMomentum : Bool
  timeOf : Nat → F

/-- Mutable state of a `TrajectoryAction`. `times` is the `(write_stride, 1)` array (one number per
row), `positions` and `momentum` are the `(write_stride, n_particles, n_dim)` arrays.
`files` is `none` if no filename was given, otherwise the rows that were written below the header of the
file of each particle. -/
structure TrajState (F : Type _) where
  times : List F
  positions : List (List (List F))
  momentum : List (List (List F))
  lastWrite : Nat
  files : Option (List (List (List F)))

/-- `TrajectoryAction.__init__`, `trajectory_action.py:42-57`: the configuration.
`stride or 1`, `write_stride or 100`. Printing and the header lines (lines 59-70) are not part of this
model (headers: `Model/Headers.lean`). -/
def TrajCfg.new {F : Type _} (nParticles : Nat) (stride writeStride : Option Nat)
    (momentum : Bool) (timeOf : Nat → F) : TrajCfg F where
  stride := pyOrNat stride 1
  writeStride := pyOrNat writeStride 100
  nParticles := nParticles
  storeMomentum := momentum
  timeOf := timeOf

/-- `TrajectoryAction.__init__`, `trajectory_action.py:48-57`: the initial state. The arrays come from
`np.empty`: their contents are the arbitrary functions `gt`, `gp`, `gm`. One (empty) file per particle if a
filename was given. -/
def TrajState.init {F : Type _} (c : TrajCfg F) (withFilename : Bool)
    (gt : Nat → F) (gp gm : Nat → List (List F)) : TrajState F where
  times := (List.range c.writeStride).map gt
  positions := (List.range c.writeStride).map gp
  momentum := (List.range c.writeStride).map gm
  lastWrite := 0
  files := if withFilename then some (List.replicate c.nParticles []) else none

/-- numpy's rule for assigning a sequence of `rows` to an array with `n` rows: equal lengths, or a
single row that is repeated; anything else is a `ValueError`. -/
def npAssignRows {α : Type _} (n : Nat) (rows : List α) : Except PyErr (List α) :=
  if rows.length = n then .ok rows
  else match rows with
    | [r] => .ok (List.replicate n r)
    | _ => .error .valueError

/-- `arr[:, i]` for an array given as list of rows. -/
def npColumn {α : Type _} (rows : List (List α)) (i : Nat) : Except PyErr (List α) :=
  rows.mapM (fun r => match r[i]? with
    | some x => .ok x
    | none => .error .indexError)

/-- `np.c_[a, b]` for a column of numbers `a` and a matrix `b`: row-wise concatenation; different
numbers of rows are a `ValueError`. -/
def npConcatCols {α : Type _} (a b : List (List α)) : Except PyErr (List (List α)) :=
  if a.length = b.length then .ok (List.zipWith (· ++ ·) a b) else .error .valueError

/-- The array `save_data` of particle `i`, `trajectory_action.py:118-121`. -/
def TrajCfg.saveData {F : Type _} (c : TrajCfg F) (saveTimes : List F)
    (savePos saveMom : List (List (List F))) (i : Nat) : Except PyErr (List (List F)) := do
  let p ← npColumn savePos i
  let tp ← npConcatCols (saveTimes.map (fun t => [t])) p
  if c.storeMomentum then
    let m ← npColumn saveMom i
    npConcatCols tp m
  else
    return tp

/-- `TrajectoryAction.write`, `trajectory_action.py:93-130`. `last_write` is set inside the loop over
the files; an empty list of filenames is falsy. -/
def TrajState.write {F : Type _} (c : TrajCfg F) (s : TrajState F) (step : Nat) :
    Except PyErr (TrajState F) :=
  match s.files with
  | none => .ok s
  | some [] => .ok s
  | some fs => do
    let saveTimes ← getValidData s.times step c.stride 1 s.lastWrite
    let savePos ← getValidData s.positions step c.stride 1 s.lastWrite
    let saveMom ← (if c.storeMomentum then getValidData s.momentum step c.stride 1 s.lastWrite
      else .ok [])
    let fs' ← fs.zipIdx.mapM (fun (old, i) => do
      let rows ← c.saveData saveTimes savePos saveMom i
      return old ++ rows)
    return { s with files := some fs', lastWrite := step }

/-- `TrajectoryAction.run`, `trajectory_action.py:72-87`. -/
def TrajState.run {F : Type _} (c : TrajCfg F) (s : TrajState F) (step : Nat) (snap : Snapshot F) :
    Except PyErr (TrajState F) := do
  if c.writeStride = 0 then throw .zeroDivisionError
  let row : Int := pyMod step c.writeStride - 1
  let times ← pySetItem s.times row (c.timeOf step)
  let positions ← pySetItem s.positions row (← npAssignRows c.nParticles snap.pos)
  let momentum ← (if c.storeMomentum then
      (npAssignRows c.nParticles snap.mom).bind (fun m => pySetItem s.momentum row m)
    else pure s.momentum)
  let s' := { s with times := times, positions := positions, momentum := momentum }
  if pyMod step c.writeStride = 0 then s'.write c step else return s'

/-- `TrajectoryAction.final_run`, `trajectory_action.py:89-91`. -/
def TrajState.finalRun {F : Type _} (c : TrajCfg F) (s : TrajState F) (step : Nat) :
    Except PyErr (TrajState F) := s.write c step

end Bdld
