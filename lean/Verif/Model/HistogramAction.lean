import Verif.Model.Trajectory
import Verif.Model.Histogram

/-
Model of `bdld/actions/histogram_action.py` together with the `TrajectoryAction` it reads from.
Order-only in the number type. The files written by `HistogramAction.write` are not part of this model
(they have no influence on the counts, file names: `Model/Files.lean`).
-/

namespace Bdld

/-- Constant attributes of a `HistogramAction` (`histogram_action.py:74-97`). `update_stride` is the
write stride of the trajectory. -/
structure HistCfg where
  stride : Nat
  reset : List Nat
  updateStride : Nat

/-- `HistogramAction.__init__`, `histogram_action.py:59-98`: dimension checks, defaults, and the check of
`write_stride` against the (truthiness of the) filename. -/
def HistCfg.new {F : Type} [Field F] [LinearOrder F] (c : TrajCfg F) (nDim : Nat) (nBins : List Nat)
    (ranges : List (F × F)) (stride : Option Nat) (reset : Option (List Nat)) (hasFile : Bool)
    (writeStride : Option Nat) : Except PyErr (HistCfg × Histogram F) := do
  if nDim ≠ nBins.length then throw .valueError
  if nDim ≠ ranges.length then throw .valueError
  let histo ← Histogram.new nBins ranges
  if truthyNat writeStride && !hasFile then throw .valueError
  return (⟨pyOrNat stride 1, reset.getD [], c.writeStride⟩, histo)

/-- `HistogramAction.get_traj_data`, `histogram_action.py:126-143`. -/
def getTrajData {F : Type} (c : TrajCfg F) (t : TrajState F) (stride step : Nat) :
    Except PyErr (List (List (List F))) :=
  let lastWrite : Int :=
    if (t.lastWrite : Int) ≠ step then t.lastWrite else (t.lastWrite : Int) - c.writeStride
  getValidData t.positions step stride 1 lastWrite

/-- `self.histo.add(data.reshape(-1, data.shape[-1]))`, `histogram_action.py:106-108` and `120-122`. -/
def addTrajData {F : Type} [LinearOrder F] (c : TrajCfg F) (hc : HistCfg) (t : TrajState F)
    (h : Histogram F) (step : Nat) : Except PyErr (Histogram F) := do
  let data ← getTrajData c t hc.stride step
  h.add data.flatten

/-- `HistogramAction.run`, `histogram_action.py:100-113` (the call of `write` in lines 109-110 does not
touch the histogram). -/
def histRun {F : Type} [LinearOrder F] (c : TrajCfg F) (hc : HistCfg) (t : TrajState F)
    (h : Histogram F) (step : Nat) : Except PyErr (Histogram F) := do
  if hc.updateStride = 0 then throw .zeroDivisionError
  let h' ← (if pyMod step hc.updateStride = 0 then addTrajData c hc t h step else .ok h)
  return if step ∈ hc.reset then h'.clear else h'

/-- `HistogramAction.final_run`, `histogram_action.py:115-124`. -/
def histFinal {F : Type} [LinearOrder F] (c : TrajCfg F) (hc : HistCfg) (t : TrajState F)
    (h : Histogram F) (step : Nat) : Except PyErr (Histogram F) := addTrajData c hc t h step

/-- Main loop (main.py:115-117) restricted to the trajectory and the histogram action, in the order in
which main executes them (trajectories before histogram, main.py:84-89). `hist t` are the particles after the
dynamics of step `t`. -/
def thSteps {F : Type} [LinearOrder F] (c : TrajCfg F) (hc : HistCfg) (hist : Nat → Snapshot F) :
    Nat → TrajState F × Histogram F → Except PyErr (TrajState F × Histogram F)
  | 0, s => .ok s
  | n + 1, s => do
    let s' ← thSteps c hc hist n s
    let t ← s'.1.run c (n + 1) (hist (n + 1))
    let h ← histRun c hc t s'.2 (n + 1)
    return (t, h)

/-- The whole simulation including the final runs (main.py:115-121). -/
def thSimulate {F : Type} [LinearOrder F] (c : TrajCfg F) (hc : HistCfg) (hist : Nat → Snapshot F)
    (n : Nat) (s : TrajState F × Histogram F) : Except PyErr (TrajState F × Histogram F) := do
  let s' ← thSteps c hc hist n s
  let t ← s'.1.finalRun c n
  let h ← histFinal c hc t s'.2 n
  return (t, h)

end Bdld
