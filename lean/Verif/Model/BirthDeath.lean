import Verif.Model.Rng

/-
Model of the class `BirthDeath`, `bdld/actions/birth_death.py`, generic over the type `P` of particles,
the type `B` of rates and the type `U` of random floats. No laws of arithmetic are used: the three
comparisons made by the code are parameters. (Rates and probabilities over the reals: `Model/Rates.lean`.)

`copy.deepcopy` of a particle is a copy of the value here; that particles are really independent
objects is the subject of `Model/Heap.lean`.
-/

namespace Bdld

/-- The ingredients of the algorithm that depend on floats:
`calcBetas` is `BirthDeath.calc_betas` (`birth_death.py:222-244`), `gt0`/`lt0` are `beta[i] > 0` and
`beta[i] < 0`, `accept rand beta` is `rand <= 1 - np.exp(-np.abs(beta) * dt * rate_fac)` (lines 178-179
and 207-208). -/
structure BdCfg (P B U : Type) where
  calcBetas : List P → List B
  gt0 : B → Bool
  lt0 : B → Bool
  accept : U → B → Bool
  recalcProbs : Bool

/-- One rate per particle. -/
def BdCfg.Lawful {P B U : Type} (c : BdCfg P B U) : Prop :=
  ∀ ps, (c.calcBetas ps).length = ps.length

/-- `BirthDeath.Stats`, `birth_death.py:309-315`. -/
structure BdStats where
  dupCount : Nat
  dupAttempts : Nat
  killCount : Nat
  killAttempts : Nat
deriving DecidableEq, Repr

/-- Mutable state of a `BirthDeath` object: the (shared) list of particles, the generator, the statistics. -/
structure BdState (P R : Type) where
  particles : List P
  rng : R
  stats : BdStats

/-- Value returned by `random_other` for the random integer `num`, `birth_death.py:253-256`. -/
def skipExcluded (num excl : Nat) : Nat := if num ≥ excl then num + 1 else num

/-- `BirthDeath.random_other`, `birth_death.py:246-256`. `rng.integers(0)` raises `ValueError`. -/
def randomOther {R U : Type} (ops : RngOps R U) (numPart excl : Nat) (r : R) : Except PyErr (Nat × R) :=
  if numPart - 1 = 0 then .error .valueError
  else
    let x := ops.integers (numPart - 1) r
    .ok (skipExcluded x.1 excl, x.2)

/-- One move of `perform_moves`: particle `kill` is replaced by a copy of particle `dup`. -/
def performMove {P : Type} (ps : List P) (e : Nat × Nat) : Except PyErr (List P) :=
  match ps[e.1]? with
  | none => .error .indexError
  | some p => if e.2 < ps.length then .ok (ps.set e.2 p) else .error .indexError

/-- `BirthDeath.perform_moves`, `birth_death.py:258-265`. -/
def performMoves {P : Type} (ps : List P) (events : List (Nat × Nat)) : Except PyErr (List P) :=
  events.foldlM performMove ps

/-- Local variables of the loop of the bulk branch. -/
structure BulkLoop (R : Type) where
  dupList : List Nat
  killList : List Nat
  rng : R
  stats : BdStats

/-- Body of the loop of the bulk branch, `birth_death.py:181-191`. -/
def bulkStep {P B U R : Type} (c : BdCfg P B U) (ops : RngOps R U) (numPart : Nat) (beta : List B)
    (l : BulkLoop R) (i : Nat) : Except PyErr (BulkLoop R) :=
  if i ∈ l.killList then .ok l
  else do
    let (other, rng) ← randomOther ops numPart i l.rng
    match beta[i]? with
    | none => .error .indexError
    | some b =>
      if c.gt0 b then
        .ok ⟨l.dupList ++ [other], l.killList ++ [i], rng,
          { l.stats with killCount := l.stats.killCount + 1 }⟩
      else
        .ok ⟨l.dupList ++ [i], l.killList ++ [other], rng,
          { l.stats with dupCount := l.stats.dupCount + 1 }⟩

/-- Indices with accepted random number, `np.where(rand <= prob)[0]`, `birth_death.py:178-179`. -/
def acceptedIndices {P B U : Type} (c : BdCfg P B U) (rand : List U) (beta : List B) : List Nat :=
  (List.range beta.length).filter (fun i =>
    match rand[i]?, beta[i]? with
    | some r, some b => c.accept r b
    | _, _ => false)

/-- Bulk branch, `birth_death.py:169-195`. -/
def doBulk {P B U R : Type} (c : BdCfg P B U) (ops : RngOps R U) (s : BdState P R)
    (beta : List B) (rand : List U) (r : R) : Except PyErr (List (Nat × Nat) × BdState P R) := do
  let numPart := s.particles.length
  let kills := beta.countP c.gt0
  let stats := { s.stats with
    killAttempts := s.stats.killAttempts + kills
    dupAttempts := s.stats.dupAttempts + (numPart - kills) }
  let x := ops.shuffle (acceptedIndices c rand beta) r
  let l ← x.1.foldlM (bulkStep c ops numPart beta) ⟨[], [], x.2, stats⟩
  let events := l.dupList.zip l.killList
  let particles ← performMoves s.particles events
  return (events, ⟨particles, l.rng, l.stats⟩)

/-- Local variables of the loop of the recalculating branch. `currEvent` is the Python local variable
`curr_event`, which is unbound before the first event. -/
structure RecalcLoop (P B R : Type) where
  particles : List P
  beta : List B
  rng : R
  stats : BdStats
  currEvent : Option (Nat × Nat)
  events : List (Nat × Nat)

/-- Update of the attempts, `birth_death.py:202-205`. -/
def recalcAttempts {P B U : Type} (c : BdCfg P B U) (b : B) (st : BdStats) : BdStats :=
  let st := if c.gt0 b then { st with killAttempts := st.killAttempts + 1 } else st
  if c.lt0 b then { st with dupAttempts := st.dupAttempts + 1 } else st

/-- The new `curr_event` and statistics, `birth_death.py:210-215`; note the order of the pair. -/
def recalcEvent {P B U : Type} (c : BdCfg P B U) (b : B) (i other : Nat)
    (cur : Option (Nat × Nat)) (st : BdStats) : Option (Nat × Nat) × BdStats :=
  if c.gt0 b then (some (i, other), { st with killCount := st.killCount + 1 })
  else if c.lt0 b then (some (other, i), { st with dupCount := st.dupCount + 1 })
  else (cur, st)

/-- Body of the loop of the recalculating branch, `birth_death.py:201-218`. -/
def recalcStep {P B U R : Type} (c : BdCfg P B U) (ops : RngOps R U) (numPart : Nat) (rand : List U)
    (l : RecalcLoop P B R) (i : Nat) : Except PyErr (RecalcLoop P B R) :=
  match l.beta[i]?, rand[i]? with
  | some b, some r =>
    let stats := recalcAttempts c b l.stats
    if c.accept r b then do
      let (other, rng) ← randomOther ops numPart i l.rng
      let ev := recalcEvent c b i other l.currEvent stats
      match ev.1 with
      | none => .error .unboundLocalError
      | some e => do
        let particles ← performMove l.particles e
        return ⟨particles, c.calcBetas particles, rng, ev.2, some e, l.events ++ [e]⟩
    else .ok { l with stats := stats }
  | _, _ => .error .indexError

/-- Recalculating branch, `birth_death.py:197-218`. -/
def doRecalc {P B U R : Type} (c : BdCfg P B U) (ops : RngOps R U) (s : BdState P R)
    (beta : List B) (rand : List U) (r : R) : Except PyErr (List (Nat × Nat) × BdState P R) := do
  let numPart := s.particles.length
  let x := ops.shuffle (List.range numPart) r
  let l ← x.1.foldlM (recalcStep c ops numPart rand) ⟨s.particles, beta, x.2, s.stats, none, []⟩
  return (l.events, ⟨l.particles, l.rng, l.stats⟩)

/-- `BirthDeath.do_birth_death`, `birth_death.py:154-220`. -/
def doBirthDeath {P B U R : Type} (c : BdCfg P B U) (ops : RngOps R U) (s : BdState P R) :
    Except PyErr (List (Nat × Nat) × BdState P R) :=
  let beta := c.calcBetas s.particles
  let x := ops.random s.particles.length s.rng
  if c.recalcProbs then doRecalc c ops s beta x.1 x.2 else doBulk c ops s beta x.1 x.2

/-- The statistics output: one record per `Stats.print` (`birth_death.py:342-394`), with the step and the
counters at that time. Formatting is not modelled. -/
abbrev BdLog := List (Nat × BdStats)

/-- `BirthDeath.run`, `birth_death.py:139-147`. -/
def bdRun {P B U R : Type} (c : BdCfg P B U) (ops : RngOps R U) (stride : Nat) (statsStride : Option Nat)
    (s : BdState P R × BdLog) (step : Nat) : Except PyErr (BdState P R × BdLog) := do
  if stride = 0 then throw .zeroDivisionError
  let st ← (if step % stride = 0 then (doBirthDeath c ops s.1).map (·.2) else .ok s.1)
  return (st, if truthyNat statsStride && step % statsStride.getD 0 == 0 then s.2 ++ [(step, st.stats)]
    else s.2)

/-- `BirthDeath.final_run`, `birth_death.py:149-152`. -/
def bdFinal {P R : Type} (statsStride : Option Nat) (s : BdState P R × BdLog) (step : Nat) :
    BdState P R × BdLog :=
  if truthyNat statsStride then s else (s.1, s.2 ++ [(step, s.1.stats)])

end Bdld
