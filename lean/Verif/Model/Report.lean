import Verif.Model.Headers

/-
Model of the output of the birth-death statistics, `BirthDeath.Stats.print` and `reset`
(`bdld/actions/birth_death.py:335-394`), and of `BirthDeath.walker_density_grid` (lines 271-297, not used by the
program). The digits of the printed numbers are not modelled, quotients are exact.
-/

namespace Bdld

/-- `a / b`, replaced by `np.nan` (here `none`) on a `ZeroDivisionError`, `birth_death.py:363-378`. The counters are
Python integers (`np.count_nonzero` returns one), therefore the exception is raised. -/
def quotientOrNan (a b : Nat) : Option ℚ := if b = 0 then none else some ((a : ℚ) / b)

/-- What one call of `print` writes: a line of the file, or the report on the screen with its four counters and four
quotients. -/
inductive StatsOutput where
  | line (values : List Nat)
  | report (step : Nat) (counters : BdStats) (dupPerc killPerc ratioSucc ratioAttempts : Option ℚ)
deriving DecidableEq

/-- `Stats.reset`, `birth_death.py:335-340`. -/
def BdStats.reset (_ : BdStats) : BdStats := ⟨0, 0, 0, 0⟩

/-- `Stats.print`, `birth_death.py:342-394`: the counters afterwards and what was written. An empty filename counts as
none (line 344). -/
def BdStats.print (s : BdStats) (filename : Option String) (step : Nat) (reset : Bool) : BdStats × StatsOutput :=
  let out := if filename.getD "" ≠ "" then .line (statsRow (step, s))
    else .report step s (quotientOrNan (100 * s.dupCount) s.dupAttempts)
      (quotientOrNan (100 * s.killCount) s.killAttempts)
      (quotientOrNan s.dupCount s.killCount) (quotientOrNan s.dupAttempts s.killAttempts)
  (if reset then s.reset else s, out)

/-- Everything written by the calls of `print` in a run (`birth_death.py:146-147` and 151-152, without reset), from the
records of `Model/BirthDeath.lean`. -/
def statsOutput (filename : Option String) (log : BdLog) : List StatsOutput :=
  log.map (fun r => (r.2.print filename r.1 false).2)

noncomputable section

/-- A row of the array returned by `walker_density_grid`. -/
structure DensityRow where
  point : List ℝ
  rho : ℝ
  beta : WithBot ℝ

/-- Body of the loop, `birth_death.py:285-295`. `g` is flattened by `np.append`; `walker_pos[1]` raises `IndexError`
for less than two walkers; positions of particles are arrays with one axis, therefore `walker_pos[1].ndim` is 1 in all
dimensions and `reshape` to `(n + 1, 1)` raises `ValueError` unless there are `n + 1` numbers. The reshaped array has
one column, so that the density uses `bw[0]` (`birth_death.py:464-467`; `Props/Report.lean` shows that the loop can only
succeed in one dimension). -/
def densityRow {d : Nat} (bw : Fin d → ℝ) (kt : ℝ) (ws : List (Walker d)) (g : List ℝ) (e : ℝ) :
    Except PyErr DensityRow :=
  let flat := g ++ ws.flatMap (fun p => List.ofFn p.pos)
  if ws.length < 2 then .error .indexError
  else if flat.length ≠ ws.length + 1 then .error .valueError
  else
    let pos : Fin (ws.length + 1) → Fin 1 → ℝ := fun i _ => flat.getD i 0
    let ene : Fin (ws.length + 1) → ℝ := fun i => (e :: ws.map (·.energy)).getD i 0
    let rho := walkerDensity pos (fun _ => firstOf bw)
    let beta := fun i => addB (npLog (rho i)) (ene i * (1 / kt))
    .ok ⟨g, rho 0, addB (beta 0) (-meanFinite beta)⟩

/-- `walker_density_grid`, `birth_death.py:271-297`, for the rows of `grid` (one number for a grid with one axis) and
`energy`. `zip` stops at the shorter one; `np.c_` raises `ValueError` for columns of different length. -/
def walkerDensityGrid {d : Nat} (bw : Fin d → ℝ) (kt : ℝ) (ws : List (Walker d)) (grid : List (List ℝ))
    (energy : List ℝ) : Except PyErr (List DensityRow) := do
  let rows ← (grid.zip energy).mapM (fun x => densityRow bw kt ws x.1 x.2)
  if rows.length ≠ grid.length then throw .valueError
  return rows

end

end Bdld
