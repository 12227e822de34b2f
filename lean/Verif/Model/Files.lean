import Mathlib.Data.List.Basic

/-
Model of the handling of output files: `backup_if_exists` and `initialize_file` of `bdld/helpers/misc.py` (lines
61-104; the git submodule `bdld/helpers` is empty in the repository, the file is taken from
`dist/bdld-0.3.2.tar.gz`), appending to files, `write` of `HistogramAction` and `FesAction`, and the saving of plots.

A file system is a finite list of named files; a file is a list of lines of an arbitrary type. Not modelled:
directories (a write to a missing directory raises an exception), permissions, other processes, and different
names of the same file (links, `a/b` and `a//b`).
-/

namespace Bdld

/-- A file name. -/
abbrev Path := List Char

/-- The existing files with their lines. -/
abbrev FileSys (α : Type) := List (Path × List α)

namespace FileSys

variable {α : Type}

/-- Content of a file. -/
def get (fs : FileSys α) (p : Path) : Option (List α) := fs.lookup p

/-- `os.path.exists`. -/
def exists? (fs : FileSys α) (p : Path) : Bool := (fs.get p).isSome

/-- The other files. -/
def remove (fs : FileSys α) (p : Path) : FileSys α := fs.filter (fun f => decide (f.1 ≠ p))

/-- `open(p, "w")` and writing the lines. -/
def write (fs : FileSys α) (p : Path) (lines : List α) : FileSys α := (p, lines) :: fs.remove p

/-- `open(p, "ab")` and writing the lines: a missing file is created. -/
def append (fs : FileSys α) (p : Path) (lines : List α) : FileSys α :=
  fs.write p ((fs.get p).getD [] ++ lines)

/-- `os.rename(p, q)` of an existing file on POSIX systems: an existing file `q` is replaced silently. -/
def rename (fs : FileSys α) (p q : Path) : FileSys α :=
  match fs.get p with
  | some lines => (fs.remove p).write q lines
  | none => fs

end FileSys

/-- `os.path.split` (`posixpath.split`): the part after the last slash, and the part before it without its trailing
slashes unless it has only slashes. -/
def splitPath (p : Path) : Path × Path :=
  let tail := (p.reverse.takeWhile (· ≠ '/')).reverse
  let head := p.take (p.length - tail.length)
  if head.all (· = '/') then (head, tail) else ((head.reverse.dropWhile (· = '/')).reverse, tail)

/-- `os.path.join(d, f)` (`posixpath.join`). -/
def joinPath (d f : Path) : Path :=
  if f.head? = some '/' then f
  else if d = [] ∨ d.getLast? = some '/' then d ++ f
  else d ++ '/' :: f

/-- `os.path.join(d, "bck." + str(n) + "." + f)` for `d, f = os.path.split(name)`, `misc.py:73-78`. -/
def backupName (p : Path) (n : Nat) : Path :=
  joinPath (splitPath p).1 ("bck.".toList ++ Nat.toDigits 10 n ++ '.' :: (splitPath p).2)

/-- The loop of `backup_if_exists`, `misc.py:74-77`, with a bound on the number of iterations. `none`: the bound is
reached. -/
def backupNumber {α : Type} (fs : FileSys α) (p : Path) : (fuel n : Nat) → Option Nat
  | 0, _ => none
  | fuel + 1, n => if fs.exists? (backupName p n) then backupNumber fs p fuel (n + 1) else some n

/-- `backup_if_exists`, `misc.py:61-78`. The loop needs at most one iteration more than there are files
(`backupNumber_total`). -/
def backupIfExists {α : Type} (fs : FileSys α) (p : Path) : Option (FileSys α) :=
  if fs.exists? p then
    match backupNumber fs p (fs.length + 1) 0 with
    | some n => some (fs.rename p (backupName p n))
    | none => none
  else some fs

/-- What the program does with files. -/
inductive FileOp (α : Type) where
  /-- `initialize_file(name, fields, constants)` without `overwrite`, `misc.py:81-104`; `header` is empty if there are
  no fields -/
  | init (name : Path) (header : List α)
  /-- `open(name, "ab")` and `np.savetxt` in the `write` functions of trajectories, delta F and particle distribution
  (`trajectory_action.py:122-129`, `delta_f_action.py:132-139`, `particle_distribution.py:129-136`) and in
  `BirthDeath.Stats.print` (`birth_death.py:354-361`) -/
  | append (name : Path) (rows : List α)
  /-- `HistogramAction.write` and `FesAction.write`: backup (`histogram_action.py:159-160`, `fes_action.py:158-159`)
  and `Grid.write_to_file` (`grid.py:180-212`), which writes nothing if there are not one or two dimensions -/
  | grid (name : Path) (nDim : Nat) (lines : List α)
  /-- `fig.savefig(name)` in `plot_fes` (`fes_action.py:263-264`), which replaces an existing file -/
  | overwrite (name : Path) (lines : List α)

def FileOp.exec {α : Type} (fs : FileSys α) : FileOp α → Option (FileSys α)
  | .init name header => (backupIfExists fs name).map (fun fs => fs.write name header)
  | .append name rows => some (fs.append name rows)
  | .grid name nDim lines => (backupIfExists fs name).map (fun fs =>
      if nDim = 1 ∨ nDim = 2 then fs.write name lines else fs)
  | .overwrite name lines => some (fs.write name lines)

def execOps {α : Type} (fs : FileSys α) : List (FileOp α) → Option (FileSys α)
  | [] => some fs
  | op :: ops => (op.exec fs).bind (fun fs => execOps fs ops)

end Bdld
