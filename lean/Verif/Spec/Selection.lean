import Verif.Spec.BirthDeath
import Verif.Model.BirthDeath

/-
Specification of a birth-death step as a function: which events happen, given the rates and the random numbers.
Independent of
the model, from which only the record of the counters is taken.
-/

namespace Bdld.Spec

/-- Number `x` among the walkers other than `i`. -/
def otherWalker (i x : Nat) : Nat := if x < i then x else x + 1

/-- The walker `e.kill` becomes a copy of the walker `e.dup`. -/
def copyWalker {P : Type _} (ps : List P) (e : BdEvent) : List P :=
  match ps[e.dup]? with
  | some p => ps.set e.kill p
  | none => ps

/-- The events of a step with fixed rates: the selected walkers are taken in the given order; those that have been
killed do nothing; the others choose a random other walker, are killed if their rate is positive, and duplicated
otherwise. `ints k` is random integer number `k`, `done` are the events up to now. -/
def bulkEvents (positive : Nat → Bool) (ints : Nat → Nat) : List Nat → List BdEvent → List BdEvent
  | [], done => done
  | i :: order, done =>
    if i ∈ done.map (·.kill) then bulkEvents positive ints order done
    else
      let j := otherWalker i (ints done.length)
      bulkEvents positive ints order (done ++ [if positive i then ⟨i, j, i⟩ else ⟨i, i, j⟩])

/-- What happened when it was the turn of a walker: sign of its rate at that time, event if there was one. -/
structure Turn where
  positive : Bool
  negative : Bool
  event : Option BdEvent
deriving DecidableEq, Repr

/-- The events among the turns. -/
def eventsOf (turns : List Turn) : List BdEvent := turns.filterMap (·.event)

/-- The turns of a step with rates that are calculated anew after every event: the walkers are taken in the given
order; a walker that is selected with the present rates chooses a random other walker, is duplicated if its
rate is positive, and killed otherwise; the event is executed immediately. The result are the walkers and what
happened. -/
def recalcTurns {P : Type _} (selected positive negative : List P → Nat → Bool) (ints : Nat → Nat) :
    List Nat → List P → List Turn → List P × List Turn
  | [], ps, done => (ps, done)
  | i :: order, ps, done =>
    if selected ps i then
      let j := otherWalker i (ints (eventsOf done).length)
      let e : BdEvent := if positive ps i then ⟨i, i, j⟩ else ⟨i, j, i⟩
      recalcTurns selected positive negative ints order (copyWalker ps e) (done ++ [⟨positive ps i, negative ps i, some e⟩])
    else recalcTurns selected positive negative ints order ps (done ++ [⟨positive ps i, negative ps i, none⟩])

/-- Counters after a step of `n` walkers with fixed rates. -/
def bulkCounts (positive : Nat → Bool) (n : Nat) (events : List BdEvent) (c : BdStats) : BdStats :=
  { killAttempts := c.killAttempts + (List.range n).countP positive
    dupAttempts := c.dupAttempts + (List.range n).countP (fun i => !positive i)
    killCount := c.killCount + events.countP (fun e => positive e.trigger)
    dupCount := c.dupCount + events.countP (fun e => !positive e.trigger) }

/-- Counters after a step with rates that are calculated anew after every event. -/
def recalcCounts (turns : List Turn) (c : BdStats) : BdStats :=
  { killAttempts := c.killAttempts + turns.countP (·.positive)
    dupAttempts := c.dupAttempts + turns.countP (·.negative)
    killCount := c.killCount + turns.countP (fun t => t.event.isSome && t.positive)
    dupCount := c.dupCount + turns.countP (fun t => t.event.isSome && !t.positive) }

end Bdld.Spec
