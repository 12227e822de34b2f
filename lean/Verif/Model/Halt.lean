import Verif.Model.Disk

/-
Model of a run that stops before its end: the calls of the actions one after the other (`main.py:115-121`), and what the
program has done with files when it is stopped between two calls or when a call raises an exception. What a call that
raises has written before the exception is not modelled. The files are closed after every write (`with open`), so
everything written is on disk.
-/

namespace Bdld

noncomputable section

/-- The calls of the actions in a run of `n` steps, `main.py:115-121`. -/
def schedule (actions : List ActName) (n : Nat) : List Event :=
  (List.range n).flatMap (fun k => actions.map (fun a => .run a (k + 1))) ++ actions.map (fun a => .final a n)

/-- One call. -/
def performD {d : Nat} {R : Type} (files : List (Path × OutFile)) (w : World R) (c : SimCfg d)
    (x : Sim d R × List (FileOp DiskLine)) : Event → Except PyErr (Sim d R × List (FileOp DiskLine))
  | .run a step => runEventD files w c step x a
  | .final a step => finalEventD files c step x a

/-- State and operations on files after the calls, or when the first of them raises. -/
def haltD {d : Nat} {R : Type} (files : List (Path × OutFile)) (w : World R) (c : SimCfg d) :
    List Event → Sim d R × List (FileOp DiskLine) → (Sim d R × List (FileOp DiskLine)) × Option PyErr
  | [], x => (x, none)
  | e :: es, x => match performD files w c x e with
    | .ok x' => haltD files w c es x'
    | .error err => (x, some err)

end

end Bdld
