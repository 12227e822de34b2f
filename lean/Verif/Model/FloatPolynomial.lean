import Verif.Model.Polynomial

/-
Model of `bdld/potential/polynomial.py` with numpy's `polyval`, `polyval2d`, `polyval3d` and `polyder` for any kind of numbers: the
operations are those of the code in the order of the code. (With exact real numbers: `Model/Polynomial.lean`.)

Simplified: `polyder` multiplies by `scl = 1` first, which is left out.
-/

namespace Bdld

/-- An array of numbers. Only the entries inside of the shape matter. -/
structure ArrF (F : Type) (d : Nat) where
  shape : Fin d → Nat
  val : (Fin d → Nat) → F

section
variable {F : Type} [Add F] [Mul F] [Neg F]

/-- `numpy.polynomial.polynomial.polyval(x, c)` along an axis of length `n ≥ 1`:
`c0 = c[-1] + x*0; for i in range(2, n + 1): c0 = c[-i] + c0*x`. -/
def hornerF (zero : F) (n : Nat) (x : F) (c : Nat → F) : F :=
  ((List.range (n - 1)).map (fun i => c (n - (i + 2)))).foldl (fun c0 ci => ci + c0 * x) (c (n - 1) + x * zero)

/-- `polyval`, `polyval2d`, `polyval3d`: numpy's `_valnd` evaluates the first axis, then the remaining ones one after the other. -/
def polyvalNdF (zero : F) : (d : Nat) → (Fin d → F) → ArrF F d → F
  | 0, _, a => a.val Fin.elim0
  | d + 1, x, a => polyvalNdF zero d (Fin.tail x)
      ⟨Fin.tail a.shape, fun idx => hornerF zero (a.shape 0) (x 0) (fun i => a.val (Fin.cons i idx))⟩

/-- `numpy.polynomial.polynomial.polyder(c, axis=k)`: `c[:1]*0` if the axis has length 1, otherwise `der[j - 1] = j*c[j]`. -/
def polyderF (zero : F) (ofNat : Nat → F) {d : Nat} (a : ArrF F d) (k : Fin d) : ArrF F d :=
  if a.shape k ≤ 1 then ⟨Function.update a.shape k 1, fun idx => a.val (Function.update idx k 0) * zero⟩
  else ⟨Function.update a.shape k (a.shape k - 1),
    fun idx => ofNat (idx k + 1) * a.val (Function.update idx k (idx k + 1))⟩

/-- `PolynomialPotential.energy`, `polynomial.py:70-76`. -/
def polyEnergyF (zero : F) {d : Nat} (a : ArrF F d) (pos : Fin d → F) : F := polyvalNdF zero d pos a

/-- `PolynomialPotential.force`, `polynomial.py:78-84`. -/
def polyForceF (zero : F) (ofNat : Nat → F) {d : Nat} (a : ArrF F d) (pos : Fin d → F) : Fin d → F :=
  fun k => -polyvalNdF zero d pos (polyderF zero ofNat a k)

/-- `PolynomialPotential.__init__`, `polynomial.py:21-48`. -/
def newPolynomialF (zero : F) (ofNat : Nat → F) {d : Nat} (a : ArrF F d) (ranges : Option (List (F × F))) :
    Except PyErr (Potential F d) :=
  if 3 < d then .error .notImplementedError
  else if d = 0 then .error .valueError
  else .ok
    { energy := polyEnergyF zero a
      force := polyForceF zero ofNat a
      evaluate := baseEvaluate (polyEnergyF zero a) (polyForceF zero ofNat a)
      ranges := ranges.getD []
      bc := none }

end

end Bdld
