import Verif.Model.Fes

/-
Free energy differences with the infinities and nan of numpy: `calculate_delta_f`, `delta_f_action.py:148-166`.

`Model/Fes.lean` has real values, which are those of the program if no state is empty. Here division by zero and the
logarithm of zero have the results of numpy (with a warning on the screen, which is not modelled).
-/

namespace Bdld

noncomputable section

/-- Value of a float with exact arithmetic: a number, `inf`, `-inf`, or `nan`. -/
inductive XReal where
  | fin (x : ℝ)
  | inf (neg : Bool)
  | nan

namespace XReal

/-- `x / y` of two numbers. -/
def quot (x y : ℝ) : XReal :=
  if y = 0 then (if x = 0 then nan else inf (decide (x < 0))) else fin (x / y)

/-- `np.log`. -/
def log : XReal → XReal
  | fin x => if x < 0 then nan else if x = 0 then inf true else fin (Real.log x)
  | inf true => nan
  | inf false => inf false
  | nan => nan

/-- `c * x` for a number `c`. -/
def scale (c : ℝ) : XReal → XReal
  | fin x => fin (c * x)
  | inf neg => if c = 0 then nan else inf (xor neg (decide (c < 0)))
  | nan => nan

end XReal

/-- `calculate_delta_f`, `delta_f_action.py:148-166`. -/
def calculateDeltaFX (fes : Nd (WithTop ℝ)) (kt : ℝ) (masks : List (List Bool)) : Except PyErr (List XReal) := do
  let probabilities := fes.flat.map (boltzmann kt)
  let stateProbs ← masks.mapM (maskedSum probabilities)
  return stateProbs.tail.map (fun p => ((XReal.quot p (stateProbs.headD 0)).log).scale (-kt))

end

end Bdld
