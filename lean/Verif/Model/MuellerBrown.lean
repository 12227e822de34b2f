import Verif.Model.Potential
import Mathlib.Analysis.SpecialFunctions.Exp
import Mathlib.Data.Fin.VecNotation

/-
Model of `bdld/potential/mueller_brown.py`. Real level. The module variable `A`, which is changed in place
by the constructor, is passed explicitly.
-/

namespace Bdld
namespace MB

noncomputable section

/-- The module variable `A` directly after the import, `mueller_brown.py:9`. -/
def prefactors : Fin 4 → ℝ := ![-200, -100, -175, 15]
/-- `mueller_brown.py:10`. -/
def a : Fin 4 → ℝ := ![-1, -1, -13 / 2, 7 / 10]
/-- `mueller_brown.py:11`. -/
def b : Fin 4 → ℝ := ![0, 0, 11, 6 / 10]
/-- `mueller_brown.py:12`. -/
def c : Fin 4 → ℝ := ![-10, -10, -13 / 2, 7 / 10]
/-- `mueller_brown.py:13`. -/
def x0 : Fin 4 → ℝ := ![1, 0, -1 / 2, -1]
/-- `mueller_brown.py:14`. -/
def y0 : Fin 4 → ℝ := ![0, 1 / 2, 3 / 2, 1]
/-- `pot_shift`, `mueller_brown.py:15`. -/
def potShift : ℝ := 3033319242243656 / 100000000000000

/-- The exponential `exp_tmp1`, `mueller_brown.py:70-74`, 95-99, 113-117. -/
def expTmp (i : Fin 4) (x y : ℝ) : ℝ :=
  Real.exp (a i * (x - x0 i) ^ 2 + b i * (x - x0 i) * (y - y0 i) + c i * (y - y0 i) ^ 2)

/-- `MuellerBrownPotential.energy`, `mueller_brown.py:85-101`. -/
def energy (A : Fin 4 → ℝ) (pos : Fin 2 → ℝ) : ℝ :=
  (List.finRange 4).foldl (fun pot i => pot + A i * expTmp i (pos 0) (pos 1)) 0 + potShift

/-- `MuellerBrownPotential.force`, `mueller_brown.py:103-124`. -/
def force (A : Fin 4 → ℝ) (pos : Fin 2 → ℝ) : Fin 2 → ℝ :=
  let x := pos 0
  let y := pos 1
  let f := (List.finRange 4).foldl (fun (f : ℝ × ℝ) i =>
    (f.1 + -A i * (2 * a i * (x - x0 i) + b i * (y - y0 i)) * expTmp i x y,
     f.2 + -A i * (b i * (x - x0 i) + 2 * c i * (y - y0 i)) * expTmp i x y)) (0, 0)
  ![f.1, f.2]

/-- `MuellerBrownPotential.evaluate`, `mueller_brown.py:56-83`: energy and force in one loop. -/
def evaluate (A : Fin 4 → ℝ) (pos : Fin 2 → ℝ) : ℝ × (Fin 2 → ℝ) :=
  let x := pos 0
  let y := pos 1
  let s := (List.finRange 4).foldl (fun (s : ℝ × ℝ × ℝ) i =>
    let e := expTmp i x y
    (s.1 + A i * e,
     s.2.1 + -A i * (2 * a i * (x - x0 i) + b i * (y - y0 i)) * e,
     s.2.2 + -A i * (b i * (x - x0 i) + 2 * c i * (y - y0 i)) * e)) (0, 0, 0)
  (s.1 + potShift, ![s.2.1, s.2.2])

/-- Ranges, `mueller_brown.py:46`. -/
def ranges : List (ℝ × ℝ) := [(-3 / 2, 3 / 2), (-1 / 2, 5 / 2)]

/-- `MuellerBrownPotential.__init__`, `mueller_brown.py:35-50`: effect on the module variable `A`. The
argument `None` and the argument 0 are falsy. -/
def create (A : Fin 4 → ℝ) (scaling : Option ℝ) : Fin 4 → ℝ :=
  match scaling with
  | none => A
  | some s => if s = 0 then A else fun i => A i * s

/-- The potential object: it reads the module variable when it is evaluated, so `A` is the value at the
time of the call. -/
def potential (A : Fin 4 → ℝ) : Potential ℝ 2 where
  energy := energy A
  force := force A
  evaluate := evaluate A
  ranges := ranges
  bc := none

end

end MB
end Bdld
