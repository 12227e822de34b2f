import Verif.Model.Grid
import Verif.Model.Histogram
import Verif.Model.InputParser
import Verif.Model.Potential
import Mathlib.Analysis.SpecialFunctions.Log.Basic
import Mathlib.Order.WithBot

/-
Model of the numerical parts of `bdld/actions/fes_action.py`, `bdld/actions/delta_f_action.py`,
`bdld/actions/particle_distribution.py`, of `bdld/tools.py` and of the set-up functions `setup_delta_f`,
`setup_particle_distribution` of `bdld/main.py`.
Free energies are real numbers or infinity (`WithTop ℝ`, exact arithmetic); membership in states is
order-only.
-/

namespace Bdld

noncomputable section

/-! ### FES -/

/-- Shape of the counts of a histogram: one entry less than edges per dimension. -/
def Histogram.shape {F : Type} (h : Histogram F) : List Nat := h.bins.map (fun e => e.length - 1)

/-- The array `histo.data`. -/
def Histogram.counts {F : Type} (h : Histogram F) : Nd Nat := Nd.ofFn h.shape h.data

/-- `np.where(n == 0, np.inf, -kt * np.log(n))` for one bin, `fes_action.py:198-200`. -/
def fesValue (kt : ℝ) (n : Nat) : WithTop ℝ :=
  if n = 0 then ⊤ else ((-kt * Real.log n : ℝ) : WithTop ℝ)

/-- `x - m` for a finite `m` (`inf - m` is `inf`). -/
def topSub (x : WithTop ℝ) (m : ℝ) : WithTop ℝ := x.map (· - m)

/-- `calculate_fes`, `fes_action.py:186-208`, values of the new grid. The check of the setter of `data`
(`reshape` to `n_points`) always passes, because the array has that shape. -/
def calculateFes (counts : Nd Nat) (kt : ℝ) (mintozero : Bool) : Except PyErr (Nd (WithTop ℝ)) := do
  let fes := counts.map (fesValue kt)
  if mintozero then
    let minimum ← npMin fes.flat
    match minimum with
    | none => return fes
    | some m => return fes.map (fun x => topSub x m)
  else return fes

/-- `-fes / float(kt)` followed by `np.exp`, `delta_f_action.py:160`: `exp(-inf) = 0` (for `kt > 0`). -/
def boltzmann (kt : ℝ) : WithTop ℝ → ℝ
  | none => 0
  | some x => Real.exp (-x / kt)

/-- `np.sum(probabilities[m])`, `delta_f_action.py:161`: a mask of a different size raises `IndexError`. -/
def maskedSum (probs : List ℝ) (mask : List Bool) : Except PyErr ℝ :=
  if mask.length = probs.length then .ok ((List.zipWith (fun p (b : Bool) => if b then p else 0) probs mask).sum)
  else .error .indexError

/-- `calculate_delta_f`, `delta_f_action.py:148-166`. Masks are given flattened (the code only gets this
far with one-dimensional masks, see `checkMaskShapes`). -/
def calculateDeltaF (fes : Nd (WithTop ℝ)) (kt : ℝ) (masks : List (List Bool)) :
    Except PyErr (List ℝ) := do
  let probabilities := fes.flat.map (boltzmann kt)
  let stateProbs ← masks.mapM (maskedSum probabilities)
  return stateProbs.tail.map (fun p => -kt * Real.log (p / stateProbs.headD 0))

end

/-! ### States -/

section
variable {F : Type} [LE F] [DecidableLE F]

/-- Inner loop of `pos_inside_ranges`, `tools.py:20-21`, for the coordinates number `i`, `i + 1`, …, `n - 1`:
the array `inside` is combined with the comparisons of the column. A state with too few dimensions raises
`IndexError`. -/
def insideLoop (pos : List (List F)) (state : List (F × F)) (n : Nat) :
    (fuel i : Nat) → List Bool → Except PyErr (List Bool)
  | 0, _, inside => .ok inside
  | fuel + 1, i, inside =>
    if i < n then
      match state[i]? with
      | none => .error .indexError
      | some r =>
        let column := pos.map (fun p => match p[i]? with
          | some x => decide (r.1 ≤ x) && decide (x ≤ r.2)
          | none => false)
        insideLoop pos state n fuel (i + 1) (List.zipWith (· && ·) inside column)
    else .ok inside

/-- `pos_inside_ranges`, `tools.py:8-23`, for an array of positions with `n` columns, `n > 0`. The initial
value `True` of `inside` is broadcast to all positions by the first `&`. -/
def posInsideRanges (n : Nat) (pos : List (List F)) (ranges : List (List (F × F))) :
    Except PyErr (List (List Bool)) :=
  ranges.mapM (fun state => insideLoop pos state n n 0 (List.replicate pos.length true))

/-- `count_particles`, `particle_distribution.py:102-110`. Without particles `np.array([])` has zero
columns, so `inside` stays the Python value `True`, and `sum(True)` raises `TypeError`. -/
def countParticles (n : Nat) (pos : List (List F)) (states : List (List (F × F))) :
    Except PyErr (List Nat) :=
  if pos = [] then (if states = [] then .ok [] else .error .typeError)
  else do
    let boolLists ← posInsideRanges n pos states
    return boolLists.map (fun l => l.count true)

/-- `check_mask_shapes`, `delta_f_action.py:142-145`: masks are one-dimensional arrays with one entry per
point. -/
def checkMaskShapes (masks : List (List Bool)) (fesShape : List Nat) : Except PyErr Unit :=
  if masks.any (fun m => decide ([m.length] ≠ fesShape)) then .error .valueError else .ok ()

/-- `bin_centers` of one dimension, `histogram.py:66-77`. -/
def binCenters [Add F] [Div F] [OfNat F 2] (edges : List F) : List F :=
  List.zipWith (fun a b => (a + b) / 2) edges edges.tail

/-- `axes` of a histogram, `histogram.py:79-83`. -/
def Histogram.axes [Add F] [Div F] [OfNat F 2] (h : Histogram F) : List (List F) := h.bins.map binCenters

/-- `ranges` of a histogram: first and last bin centre per dimension, `histogram.py:49-51`. -/
def Histogram.pointRanges [Inhabited F] [Add F] [Div F] [OfNat F 2] (h : Histogram F) : List (F × F) :=
  h.axes.map (fun a => (a.headD default, a.getLastD default))

/-- The axes of the grid with the FES: `copy_empty` (grid.py:158-160) makes a plain grid with the ranges and
numbers of points of the histogram, whose axes are made by `np.linspace` (grid.py:140-144). -/
def Histogram.fesAxes {F : Type} [Field F] [Inhabited F] (h : Histogram F) : List (List F) :=
  List.zipWith (fun r n => linspace r.1 r.2 n) h.pointRanges h.shape

/-- The states of the options of `[delta-f]` and `[particle-distribution]`, `main.py:354-356` and
`main.py:378-380`: the values are lists or single numbers. -/
def Item.ofOptVal : OptVal F → Except PyErr (Item F)
  | .base (.float x) => .ok (.num x)
  | .list l => do
    let xs ← l.mapM (fun v => match v with
      | .float x => (.ok x : Except PyErr F)
      | _ => .error .typeError)
    return .lst xs
  | _ => .error .typeError

/-- States as ranges, `main.py:354-356`. -/
def stateRanges (options : Dict (OptVal F)) : Except PyErr (List (List (F × F))) := do
  let mins ← numberedDict options "state" "-min"
  let maxs ← numberedDict options "state" "-max"
  minMaxToRanges (← mins.mapM Item.ofOptVal) (← maxs.mapM Item.ofOptVal)

/-- The part of `setup_delta_f` before the output is set up, `main.py:354-362` and
`delta_f_action.py:50`: states to masks, with the check of `DeltaFAction.__init__`. -/
def setupDeltaF [Inhabited F] [Add F] [Div F] [OfNat F 2] (h : Histogram F)
    (states : List (List (F × F))) : Except PyErr (List (List Bool)) := do
  if states.length < 2 then throw .valueError
  let points ← pointsOfAxes h.axes
  let masks ← posInsideRanges h.axes.length points states
  checkMaskShapes masks h.shape
  return masks

end

end Bdld
