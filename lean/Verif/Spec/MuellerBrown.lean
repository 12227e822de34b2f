import Mathlib.Analysis.SpecialFunctions.Exp

/-
The Müller-Brown potential as documented in `bdld/potential/mueller_brown.py:18-32`.
-/

namespace Bdld.Spec

noncomputable section

/-- The documented formula, with the sign conventions of the docstring. -/
def muellerBrownDoc (x y : ℝ) : ℝ :=
  -200 * Real.exp (-(x - 1) ^ 2 - 10 * y ^ 2)
  - 100 * Real.exp (-x ^ 2 - 10 * (y - 1 / 2) ^ 2)
  - 170 * Real.exp (-(13 / 2) * (x + 1 / 2) ^ 2 + 11 * (x + 1 / 2) * (y - 3 / 2) - 13 / 2 * (y - 3 / 2) ^ 2)
  + 15 * Real.exp (7 / 10 * (x + 1) ^ 2 + 6 / 10 * (x + 1) * (y - 1) + 7 / 10 * (y - 1) ^ 2)

end

end Bdld.Spec
