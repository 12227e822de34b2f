import Verif.Spec.Ring
import Verif.Model.Trajectory

/-
Specification vocabulary for the histogram action: which time steps have been counted.
-/

namespace Bdld.Spec

/-- All particle positions at the given time steps. -/
def positionsAt {F : Type _} (hist : Nat → Snapshot F) (steps : List Nat) : List (List F) :=
  steps.flatMap (fun t => (hist t).pos)

/-- The time steps in `(a, b]` at a distance from `a` that is a multiple of `k`. -/
def relativeSteps (k a b : Nat) : List Nat := (sampledSteps k 0 (b - a)).map (a + ·)

/-- The bookkeeping of an analysis which after every block of `W` steps adds the steps `blk n` of the
block ending at `n`, and which is reset at the steps in `reset`: whether the initial content is still there,
and the steps counted so far. -/
def ledger (blk : Nat → List Nat) (W : Nat) (reset : List Nat) : Nat → Bool × List Nat
  | 0 => (true, [])
  | n + 1 =>
    let l := ledger blk W reset n
    let l := if W ∣ n + 1 then (l.1, l.2 ++ blk (n + 1)) else l
    if n + 1 ∈ reset then (false, []) else l

end Bdld.Spec
