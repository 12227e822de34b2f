import Verif.Model.FloatRates
import Verif.Model.Fes

/-
Model of `calculate_fes` and `calculate_delta_f` for any kind of numbers, `bdld/actions/fes_action.py` and
`bdld/actions/delta_f_action.py`: the operations are those of the code in the order of the code. (With exact real numbers:
`Model/Fes.lean`.)

Simplified: infinity is a separate value (`⊤`) next to the numbers, with `exp(-inf / kt) = 0` and `inf - m = inf`; the order of
additions in `np.sum` is an arbitrary binary tree.
-/

namespace Bdld

section
variable {F : Type} [Add F] [Sub F] [Mul F] [Div F] [Neg F] [LT F] [DecidableLT F]

/-- `np.where(n == 0, np.inf, -kt * np.log(n))` for one bin, `fes_action.py:198-200`. -/
def fesValueF (f : FloatFns F) (kt : F) (n : Nat) : WithTop F :=
  if n = 0 then ⊤ else ((-kt * f.log (f.ofNat n) : F) : WithTop F)

/-- `calculate_fes`, `fes_action.py:186-208`. -/
def calculateFesF (f : FloatFns F) (counts : Nd Nat) (kt : F) (mintozero : Bool) : Except PyErr (Nd (WithTop F)) := do
  let fes := counts.map (fesValueF f kt)
  if mintozero then
    let minimum ← npMin fes.flat
    match minimum with
    | none => return fes
    | some m => return fes.map (fun x => x.map (· - m))
  else return fes

/-- `np.exp(-fes / float(kt))`, `delta_f_action.py:160`. -/
def boltzmannF (f : FloatFns F) (kt : F) : WithTop F → F
  | none => f.zero
  | some x => f.exp (-x / kt)

/-- `probabilities[m]`: the values marked by a mask. -/
def selectMask {α : Type} (probs : List α) (mask : List Bool) : List α :=
  (probs.zip mask).filterMap fun p => if p.2 then some p.1 else none

/-- `np.sum(probabilities[m])`, `delta_f_action.py:161`. -/
def maskedSumF (f : FloatFns F) (probs : List F) (mask : List Bool) : Except PyErr F :=
  if mask.length = probs.length then .ok (sumF f (selectMask probs mask)) else .error .indexError

/-- `calculate_delta_f`, `delta_f_action.py:148-166`. -/
def calculateDeltaFF (f : FloatFns F) (fes : Nd (WithTop F)) (kt : F) (masks : List (List Bool)) : Except PyErr (List F) := do
  let probabilities := fes.flat.map (boltzmannF f kt)
  let stateProbs ← masks.mapM (maskedSumF f probabilities)
  return stateProbs.tail.map (fun p => -kt * f.log (p / stateProbs.headD f.zero))

end

end Bdld
