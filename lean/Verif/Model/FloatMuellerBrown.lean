import Verif.Model.Potential
import Mathlib.Data.List.FinRange
import Mathlib.Data.Fin.VecNotation

/-
Model of `bdld/potential/mueller_brown.py` for any kind of numbers: the operations are those of the code in the order of the code.
(With exact real numbers: `Model/MuellerBrown.lean`.) The values of the module variables are parameters, as are `np.exp` and the
power `** 2`.
-/

namespace Bdld
namespace MB

/-- Module variables, `mueller_brown.py:9-15`, and the literals `0.0` and `2.0`. -/
structure Consts (F : Type) where
  A : Fin 4 → F
  a : Fin 4 → F
  b : Fin 4 → F
  c : Fin 4 → F
  x0 : Fin 4 → F
  y0 : Fin 4 → F
  shift : F
  zero : F
  two : F

/-- `np.exp` and `** 2`. -/
structure Fns (F : Type) where
  exp : F → F
  sq : F → F

section
variable {F : Type} [Add F] [Sub F] [Mul F] [Neg F] (f : Fns F) (k : Consts F)

/-- Argument of the exponential, `mueller_brown.py:70-74`, 95-99, 113-117. -/
def argF (i : Fin 4) (x y : F) : F :=
  k.a i * f.sq (x - k.x0 i) + k.b i * (x - k.x0 i) * (y - k.y0 i) + k.c i * f.sq (y - k.y0 i)

/-- `exp_tmp1`. -/
def expTmpF (i : Fin 4) (x y : F) : F := f.exp (argF f k i x y)

/-- What a pass of the loop adds to `force[0]`, `mueller_brown.py:76-78` and 118-120. -/
def termX (i : Fin 4) (x y : F) : F :=
  -k.A i * (k.two * k.a i * (x - k.x0 i) + k.b i * (y - k.y0 i)) * expTmpF f k i x y

/-- What a pass of the loop adds to `force[1]`, `mueller_brown.py:79-81` and 121-123. -/
def termY (i : Fin 4) (x y : F) : F :=
  -k.A i * (k.b i * (x - k.x0 i) + k.two * k.c i * (y - k.y0 i)) * expTmpF f k i x y

/-- `MuellerBrownPotential.energy`, `mueller_brown.py:85-101`. -/
def energyF (pos : Fin 2 → F) : F :=
  (List.finRange 4).foldl (fun pot i => pot + k.A i * expTmpF f k i (pos 0) (pos 1)) k.zero + k.shift

/-- `MuellerBrownPotential.force`, `mueller_brown.py:103-124`. -/
def forceF (pos : Fin 2 → F) : Fin 2 → F :=
  let s := (List.finRange 4).foldl (fun (s : F × F) i =>
    (s.1 + termX f k i (pos 0) (pos 1), s.2 + termY f k i (pos 0) (pos 1))) (k.zero, k.zero)
  ![s.1, s.2]

/-- `MuellerBrownPotential.evaluate`, `mueller_brown.py:56-83`: energy and force in one loop. -/
def evaluateF (pos : Fin 2 → F) : F × (Fin 2 → F) :=
  let s := (List.finRange 4).foldl (fun (s : F × F × F) i =>
    (s.1 + k.A i * expTmpF f k i (pos 0) (pos 1), s.2.1 + termX f k i (pos 0) (pos 1),
      s.2.2 + termY f k i (pos 0) (pos 1))) (k.zero, k.zero, k.zero)
  (s.1 + k.shift, ![s.2.1, s.2.2])

/-- The potential object. -/
def potentialF (ranges : List (F × F)) (bc : Option BoundaryCondition) : Potential F 2 where
  energy := energyF f k
  force := forceF f k
  evaluate := evaluateF f k
  ranges := ranges
  bc := bc

end

end MB
end Bdld
