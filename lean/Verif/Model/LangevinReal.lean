import Verif.Model.Langevin
import Mathlib.Analysis.SpecialFunctions.Exp
import Mathlib.Analysis.SpecialFunctions.Sqrt

/-
The constants of the two integrators in exact real arithmetic.
-/

namespace Bdld

noncomputable section

/-- Attributes set by `BussiParinelloLD.__init__` (`bussi_parinello_ld.py:48-70`) and the constant `c2` of
`add_particle` (line 122). -/
def bussiCfg {d : Nat} (pot : Potential ℝ d) (dt friction kt : ℝ) : LdCfg ℝ d where
  pot := pot
  dt := dt
  kt := kt
  half := 1 / 2
  c1 := Real.exp (-(1 / 2) * friction * dt)
  c2of := fun mass =>
    Real.sqrt ((1 - Real.exp (-(1 / 2) * friction * dt) * Real.exp (-(1 / 2) * friction * dt)) * mass * kt)
  noiseFactor := 0

/-- Attributes set by `OverdampedLD.__init__`, `overdamped_ld.py:44-61`. -/
def overdampedCfg {d : Nat} (pot : Potential ℝ d) (dt : ℝ) : LdCfg ℝ d where
  pot := pot
  dt := dt
  kt := 1
  half := 1 / 2
  c1 := 1
  c2of := fun _ => 0
  noiseFactor := Real.sqrt (2 * dt)

end

end Bdld
