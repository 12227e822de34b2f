import Verif.Spec.Ring
/-
Specification vocabulary for schedules of actions: time steps interleaved with additional writes.
Independent of the model.
-/

namespace Bdld.Spec

/-- One event of a schedule: the next time step is performed, or `write` is called in between. -/
inductive Event where
  | tick
  | write
deriving DecidableEq, Repr

/-- Time step reached after a schedule. -/
def stepsOf : List Event → Nat
  | [] => 0
  | .tick :: es => stepsOf es + 1
  | .write :: es => stepsOf es

/-- The time step of the last save if the action saves whenever the step is a multiple of `W` and at
every additional `write`. `now` is the current step, `last` the last save so far. -/
def lastSave (W : Nat) : (now last : Nat) → List Event → Nat
  | _, last, [] => last
  | now, last, .tick :: es => lastSave W (now + 1) (if W ∣ now + 1 then now + 1 else last) es
  | now, _, .write :: es => lastSave W now now es

/-- A complete simulation: `n` steps followed by the final write. -/
def completeRun (n : Nat) : List Event := List.replicate n .tick ++ [.write]

end Bdld.Spec
