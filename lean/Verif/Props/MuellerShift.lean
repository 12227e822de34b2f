import Verif.Props.MuellerBrown

/-
C33: the constant by which the Müller-Brown energy is shifted.
-/

namespace Bdld

open Spec

/-- **C33.** The energy of the program is the documented one shifted by 30.33319242243656 (`pot_shift`), minus 5 times the third
exponential. (Missing for C33: the deviation is not constant, see `mb_doc_false`.) -/
theorem mb_shift_partial (pos : Fin 2 → ℝ) :
    MB.energy MB.prefactors pos = muellerBrownDoc (pos 0) (pos 1) + 30.33319242243656 - 5 * mbThird pos := by
  rw [(mb_doc_partial pos).1, show MB.potShift = 30.33319242243656 by norm_num [MB.potShift]]

/-- The same in the evaluation of energy and force together. -/
theorem mb_shift_evaluate_partial (pos : Fin 2 → ℝ) :
    (MB.evaluate MB.prefactors pos).1 = muellerBrownDoc (pos 0) (pos 1) + 30.33319242243656 - 5 * mbThird pos := by
  rw [← mb_shift_partial]
  exact congrArg Prod.fst (mb_evaluate _ pos)

/-- For example, at the point (0, 0). -/
theorem mb_shift_origin : MB.energy MB.prefactors 0 = 30.33319242243656 - 200 * Real.exp (-1) - 100 * Real.exp (-(5 / 2)) -
    175 * Real.exp (-(49 / 2)) + 15 * Real.exp (4 / 5) := by
  have e : mbThird 0 = Real.exp (-(49 / 2)) := by
    unfold mbThird MB.expTmp
    simp [MB.a, MB.b, MB.c, MB.x0, MB.y0]
    norm_num
  rw [mb_shift_partial, e]
  unfold muellerBrownDoc
  norm_num
  ring

end Bdld
