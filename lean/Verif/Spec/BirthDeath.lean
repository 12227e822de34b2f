/-
Specification vocabulary for birth-death events. Independent of the model.
-/

namespace Bdld.Spec

/-- An executed event together with the walker whose random number triggered it. -/
structure BdEvent where
  trigger : Nat
  dup : Nat
  kill : Nat
deriving DecidableEq, Repr

/-- The pair reported by the code. -/
def BdEvent.pair (e : BdEvent) : Nat × Nat := (e.dup, e.kill)

/-- The event refers to two different of `n` walkers. -/
def WellFormed (n : Nat) (e : Nat × Nat) : Prop := e.1 < n ∧ e.2 < n ∧ e.1 ≠ e.2

/-- Replacing walker `e.2` by a copy of walker `e.1`, as a relation between particle lists. -/
def CopyMove {P : Type _} (e : Nat × Nat) (before after : List P) : Prop :=
  after.length = before.length ∧ after[e.2]? = before[e.1]? ∧ ∀ j, j ≠ e.2 → after[j]? = before[j]?

/-- A sequence of such moves. -/
inductive CopyMoves {P : Type _} : List (Nat × Nat) → List P → List P → Prop
  | nil (ps) : CopyMoves [] ps ps
  | cons {e es ps ps' ps''} : CopyMove e ps ps' → CopyMoves es ps' ps'' → CopyMoves (e :: es) ps ps''

/-- Sequential processing of the walkers `order`, starting from the particles `ps`: for every walker in
turn it is decided, *from the current particles*, whether it triggers an event, and the event is executed
immediately. `fires ps i e` says that walker `i` triggers the event `e` when the particles are `ps`, `quiet ps i`
that it triggers none. -/
inductive Sequential {P : Type _} (fires : List P → Nat → BdEvent → Prop) (quiet : List P → Nat → Prop) :
    List Nat → List P → List BdEvent → List P → Prop
  | nil (ps) : Sequential fires quiet [] ps [] ps
  | skip {i order ps es ps'} : quiet ps i → Sequential fires quiet order ps es ps' →
      Sequential fires quiet (i :: order) ps es ps'
  | event {i order ps e ps1 es ps'} : fires ps i e → e.trigger = i → CopyMove e.pair ps ps1 →
      Sequential fires quiet order ps1 es ps' → Sequential fires quiet (i :: order) ps (e :: es) ps'

end Bdld.Spec
