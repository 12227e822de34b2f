import Verif.Model.Main

/-
Model of the headers of the output files and of the lines of histogram and FES files: the FIELDS of all files,
`PlumedHeader.__repr__` (`bdld/helpers/plumed_header.py`, in `dist/bdld-0.3.2.tar.gz`), `Grid.write_to_file`
(`bdld/grid.py:180-212`) and `write_2d_sliced_to_file` (`bdld/helpers/misc.py:126-149`).
Numbers are not formatted here (see `Text.lean`): a line is a list of values. Law-free in the type of the values.
-/

namespace Bdld

/-! ### Fields -/

/-- Fields of the trajectory file of particle `i`, `trajectory_action.py:61-63`. -/
def trajFields (fields : List String) (momentum : Bool) (i : Nat) : List String :=
  ["time"] ++ fields.map (fun f => "pos_" ++ f ++ "." ++ Nat.repr i) ++
    if momentum then fields.map (fun f => "mom_" ++ f ++ "." ++ Nat.repr i) else []

/-- Fields of the statistics of birth-death, `birth_death.py:319-325`. -/
def statsFields : List String := ["timestep", "dup_succ", "dup_attempts", "kill_succ", "kill_attempts"]

/-- Row of the statistics file, `birth_death.py:344-352`. -/
def statsRow (r : Nat × BdStats) : List Nat :=
  [r.1, r.2.dupCount, r.2.dupAttempts, r.2.killCount, r.2.killAttempts]

/-- Fields of the histogram file, `histogram_action.py:83`. -/
def histFields (fields : List String) : List String := fields ++ ["histo_count"]

/-- Fields of the FES file, `fes_action.py:84`. -/
def fesFields (fields : List String) : List String := fields ++ ["fes"]

/-- Fields of the delta F file, `delta_f_action.py:80`: `range(2, len(masks) + 1)`. -/
def deltaFFields (nMasks : Nat) : List String :=
  (List.range' 2 (nMasks - 1)).map (fun i => "delta_f.1-" ++ Nat.repr i)

/-- Fields of the particle distribution file, `particle_distribution.py:70`. -/
def distFields (nStates : Nat) : List String := (List.range nStates).map (fun i => "n_particles_" ++ Nat.repr i)

/-- `PlumedHeader.__repr__` as lines. -/
def plumedHeader (fields : List String) (constants : List (String × String)) : List String :=
  ("#! FIELDS " ++ " ".intercalate fields) :: constants.map (fun c => "#! SET " ++ c.1 ++ " " ++ c.2)

/-- Header written by `initialize_file`, `misc.py:101-104`: none without fields. -/
def initHeader (fields : List String) (constants : List (String × String)) : List String :=
  if fields = [] then [] else plumedHeader fields constants

/-! ### Lines of histogram and FES files -/

inductive GridLine (V : Type) where
  | header (text : String)
  | row (values : List V)
  | blank
deriving DecidableEq, Repr

/-- `write_2d_sliced_to_file`, `misc.py:126-149`, below the header. `data[0]` raises `IndexError` without rows;
`reshape` raises `ValueError` if the number of rows does not fit. `rows.drop (i * m) |>.take m` is `data[i]` of the
reshaped array. -/
def slicedLines {V : Type} (rows : List (List V)) (nBins : List Nat) : Except PyErr (List (GridLine V)) :=
  match nBins with
  | [n, m] =>
    if rows = [] then .error .indexError
    else if rows.length ≠ n * m then .error .valueError
    else
      let slice := fun i => ((rows.drop (i * m)).take m).map GridLine.row
      .ok ((List.range (n - 1)).flatMap (fun i => slice i ++ [GridLine.blank]) ++ slice (n - 1))
  | _ => .error .valueError

/-- `Grid.write_to_file`, `grid.py:180-212`, for a grid with the given axes (of a `Histogram` the bin centres), data
and numbers of points. `none`: no file is written. In 1-D `np.c_` raises `ValueError` for different lengths; in 2-D
`reshape` and `concatenate` do. The header of `savetxt` in 1-D and of `write_2d_sliced_to_file` in 2-D come first. -/
def gridFile {V : Type} [Inhabited V] (axes : List (List V)) (data : List V) (nPoints : List Nat)
    (header : List String) : Except PyErr (Option (List (GridLine V))) :=
  match axes with
  | [x] =>
    if x.length = data.length then
      .ok (some (header.map .header ++ (List.zipWith (fun a v => [a, v]) x data).map .row))
    else .error .valueError
  | [_, _] => do
    let p ← pointsOfAxes axes
    if data.length ≠ nPoints.prod ∨ p.length ≠ data.length then throw .valueError
    let lines ← slicedLines (List.zipWith (fun q v => q ++ [v]) p data) nPoints
    return some (header.map .header ++ lines)
  | _ => .ok none

end Bdld
