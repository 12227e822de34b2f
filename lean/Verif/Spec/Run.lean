import Verif.Spec.Path
import Verif.Spec.Selection
import Verif.Spec.Kernel
import Mathlib.Analysis.SpecialFunctions.Log.Basic

/-
Specification of a whole simulation in terms of the input options: Langevin dynamics and birth-death. Independent of
integrators and birth-death algorithm of the model.
-/

namespace Bdld.Spec

noncomputable section

/-- Walkers, generator and counters of birth-death. -/
structure RunState (d : Nat) (R : Type) where
  walkers : List (Phase d)
  rng : R
  counts : BdStats

/-- What the walkers feel. -/
structure Physics (d : Nat) where
  energy : (Fin d → ℝ) → ℝ
  force : (Fin d → ℝ) → Fin d → ℝ
  bound : Phase d → Phase d
  mass : ℝ
  correction : (Fin d → ℝ) → ℝ

/-- All walkers do one step. `stream` are the random vectors in the order in which they are drawn. -/
def moveAll {d : Nat} (ld : Dict (OptVal ℝ)) (ph : Physics d) (stream : Nat → Fin d → ℝ) (t : Nat)
    (xs : List (Phase d)) : List (Phase d) :=
  xs.mapIdx (fun k s => langevinStep ld ph.force ph.bound ph.mass
    (fun j => stream ((t * xs.length + k) * vectorsPerStep ld + j)) s)

/-- Birth-death rate of walker `i`: deviation of `log ρ + U/kT` from its average, `ρ` being the kernel density
estimate; in the variants with the respective correction. -/
def rateOf {d : Nat} (ld o : Dict (OptVal ℝ)) (ph : Physics d) (xs : List (Phase d)) (i : Nat) : ℝ :=
  if h : i < xs.length then
    let pos := fun j : Fin xs.length => (xs.get j).1
    let raw := fun j => Real.log (kde (fun k => bandwidthOf o k) pos (pos j)) +
      if variantOf o = .mult then ph.correction (pos j) else ph.energy (pos j) / ktOf ld
    centred raw ⟨i, h⟩ + if variantOf o = .add then ph.correction (pos ⟨i, h⟩) else 0
  else 0

/-- The probability that a walker with this rate does something within the time between two steps of birth-death. -/
def eventProb (ld o : Dict (OptVal ℝ)) (rate : ℝ) : ℝ :=
  1 - Real.exp (-|rate| * (floatOf ld "timestep" * natOption o "stride" 0) * factorOf o)

/-- State of the generator after `k` integers. -/
def afterInts {R : Type} (ops : RngOps R ℝ) (n : Nat) (r : R) (k : Nat) : R :=
  (fun r => (ops.integers (n - 1) r).2)^[k] r

open Classical in
/-- One step of birth-death. -/
def birthDeathStep {d : Nat} {R : Type} (ops : RngOps R ℝ) (ld o : Dict (OptVal ℝ)) (ph : Physics d)
    (x : RunState d R) : RunState d R :=
  let n := x.walkers.length
  let u := ops.random n x.rng
  let selected := fun xs i => decide (u.1.getD i 0 ≤ eventProb ld o (rateOf ld o ph xs i))
  let positive := fun xs i => decide (0 < rateOf ld o ph xs i)
  let negative := fun xs i => decide (rateOf ld o ph xs i < 0)
  if flagOption o "recalculate-probabilities" then
    let s := ops.shuffle (List.range n) u.2
    let y := recalcTurns selected positive negative (fun k => (ops.integers (n - 1) (afterInts ops n s.2 k)).1)
      s.1 x.walkers []
    ⟨y.1, afterInts ops n s.2 (eventsOf y.2).length, recalcCounts y.2 x.counts⟩
  else
    let s := ops.shuffle ((List.range n).filter (selected x.walkers)) u.2
    let events := bulkEvents (positive x.walkers) (fun k => (ops.integers (n - 1) (afterInts ops n s.2 k)).1) s.1 []
    ⟨events.foldl copyWalker x.walkers, afterInts ops n s.2 events.length,
      bulkCounts (positive x.walkers) n events x.counts⟩

/-- The simulation described by the input: state after `t` steps. -/
def runPath {d : Nat} {R : Type} (w : World R) (config : Input ℝ) (ph : Physics d) (start : List (Phase d)) :
    Nat → RunState d R
  | 0 => ⟨start, bdGenerator w (config.birthDeath.getD []), ⟨0, 0, 0, 0⟩⟩
  | t + 1 =>
    let x := runPath w config ph start t
    let y := { x with walkers := moveAll config.ld ph (draw (w.normal d) (seededBy w .ld config.ld)) t x.walkers }
    match config.birthDeath with
    | none => y
    | some o => if natOption o "stride" 0 ∣ t + 1 then birthDeathStep w.bdOps config.ld o ph y else y

/-- The steps in which the counters are reported: the multiples of `stats-stride`, or only the last one. -/
def reportSteps (o : Dict (OptVal ℝ)) (n : Nat) : List Nat :=
  if natOption o "stats-stride" 0 = 0 then [n]
  else ((List.range n).map (· + 1)).filter (fun t => decide (natOption o "stats-stride" 0 ∣ t))

end

end Bdld.Spec
