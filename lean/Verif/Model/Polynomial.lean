import Verif.Model.Potential
import Mathlib.Data.Real.Basic
import Mathlib.Data.Fin.Tuple.Basic
import Mathlib.Data.Fintype.Pi

/-
Model of `bdld/potential/polynomial.py` together with numpy's `polyval`, `polyval2d`, `polyval3d` and
`polyder`. Real level.

A numpy array of dimension `d` is a shape `Fin d → ℕ` together with a function of the multi-index (only
the entries inside the shape matter).
-/

namespace Bdld

/-- A real array. -/
structure NdArr (d : Nat) where
  shape : Fin d → Nat
  val : (Fin d → Nat) → ℝ

/-- `numpy.polynomial.polynomial.polyval(x, c)` along an axis of length `n ≥ 1` (Horner's scheme):
`c0 = c[-1]; for i in range(2, n + 1): c0 = c[-i] + c0 * x`. -/
def horner (n : Nat) (x : ℝ) (c : Nat → ℝ) : ℝ :=
  ((List.range (n - 1)).map (fun i => c (n - (i + 2)))).foldl (fun c0 ci => ci + c0 * x) (c (n - 1))

/-- `polyval`, `polyval2d`, `polyval3d`: numpy's `_valnd` evaluates the first axis, then the remaining ones
one after the other. -/
def polyvalNd : (d : Nat) → (Fin d → ℝ) → NdArr d → ℝ
  | 0, _, a => a.val Fin.elim0
  | d + 1, x, a => polyvalNd d (Fin.tail x)
      ⟨Fin.tail a.shape, fun idx => horner (a.shape 0) (x 0) (fun i => a.val (Fin.cons i idx))⟩

/-- `numpy.polynomial.polynomial.polyder(c, axis=k)`: a single zero along the axis if it has length 1. -/
def polyder {d : Nat} (a : NdArr d) (k : Fin d) : NdArr d :=
  if a.shape k ≤ 1 then ⟨Function.update a.shape k 1, fun _ => 0⟩
  else ⟨Function.update a.shape k (a.shape k - 1),
    fun idx => ((idx k + 1 : Nat) : ℝ) * a.val (Function.update idx k (idx k + 1))⟩

/-- `PolynomialPotential.energy`, `polynomial.py:70-76`. -/
def polyEnergy {d : Nat} (a : NdArr d) (pos : Fin d → ℝ) : ℝ := polyvalNd d pos a

/-- `PolynomialPotential.force`, `polynomial.py:78-84`; `self.der` is set in lines 41-43. -/
def polyForce {d : Nat} (a : NdArr d) (pos : Fin d → ℝ) : Fin d → ℝ :=
  fun k => -polyvalNd d pos (polyder a k)

/-- `PolynomialPotential.__init__`, `polynomial.py:21-48`, for a coefficient array of dimension `d`:
more than three dimensions raise `NotImplementedError`, dimension 0 (`coeffs = None`) raises `ValueError` in
`set_polyval` (lines 64-72). No boundary condition is set. -/
def newPolynomial {d : Nat} (a : NdArr d) (ranges : Option (List (ℝ × ℝ))) :
    Except PyErr (Potential ℝ d) :=
  if 3 < d then .error .notImplementedError
  else if d = 0 then .error .valueError
  else .ok
    { energy := polyEnergy a
      force := polyForce a
      evaluate := baseEvaluate (polyEnergy a) (polyForce a)
      ranges := ranges.getD []
      bc := none }

/-- One row of a coefficient file: the exponents (after `astype(int)`) and the value. -/
structure CoeffRow (d : Nat) where
  exps : Fin d → Int
  val : ℝ

/-- Python/numpy index into an axis of length `n`: negative indices count from the end. -/
def npIndex (n : Nat) (i : Int) : Except PyErr Nat :=
  if 0 ≤ i ∧ i < n then .ok i.toNat
  else if i < 0 ∧ 0 ≤ i + n then .ok (i + n).toNat
  else .error .indexError

/-- All indices of `tuple(indices)`. -/
def npIndices : (d : Nat) → (Fin d → Nat) → (Fin d → Int) → Except PyErr (Fin d → Nat)
  | 0, _, _ => .ok Fin.elim0
  | d + 1, shape, i => do
    let j ← npIndex (shape 0) (i 0)
    let js ← npIndices d (Fin.tail shape) (Fin.tail i)
    return Fin.cons j js

/-- `max(file_data[:, k])` for at least one row, after truncation to an integer. -/
def maxExp {d : Nat} (row : CoeffRow d) (rows : List (CoeffRow d)) (k : Fin d) : Int :=
  rows.foldl (fun m r => if m < r.exps k then r.exps k else m) (row.exps k)

/-- `coeffs[tuple(indices)] = row[n_dim]`, `polynomial.py:105-107`. -/
def setCoeff {d : Nat} (a : NdArr d) (row : CoeffRow d) : Except PyErr (NdArr d) := do
  let idx ← npIndices d a.shape row.exps
  return ⟨a.shape, Function.update a.val idx row.val⟩

/-- `coefficients_from_file`, `polynomial.py:87-109`, for a file with the given rows. `np.genfromtxt` of
a file with a single row gives a one-dimensional array, so that `file_data[:, 0]` raises `IndexError`; the
same happens for an empty file. A negative length in `np.zeros(shape)` is a `ValueError`. -/
def coefficientsFromFile {d : Nat} (rows : List (CoeffRow d)) : Except PyErr (NdArr d) :=
  match rows with
  | [] => .error .indexError
  | [_] => .error .indexError
  | row :: rest =>
    if ∃ k, maxExp row rest k + 1 < 0 then .error .valueError
    else (row :: rest).foldlM setCoeff ⟨fun k => (maxExp row rest k + 1).toNat, fun _ => 0⟩

end Bdld
