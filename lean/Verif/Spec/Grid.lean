import Mathlib.Algebra.Field.Defs
import Mathlib.Algebra.BigOperators.Group.List.Defs

/-
Specification of rectangular grids. Independent of the model.
-/

namespace Bdld.Spec

/-- The points of a rectangular grid with the given axes in row-major order (last coordinate fastest). -/
def rowMajor {F : Type} : List (List F) → List (List F)
  | [] => [[]]
  | a :: as => a.flatMap (fun x => (rowMajor as).map (x :: ·))

/-- `x` is the grid point with multi-index `idx`. -/
def IsPoint {F : Type} : List (List F) → List Nat → List F → Prop
  | [], [], [] => True
  | a :: as, i :: idx, x :: xs => a[i]? = some x ∧ IsPoint as idx xs
  | _, _, _ => False

/-- In every dimension the extent is the stepsize times the number of points minus one. -/
def Spaced {F : Type} [Field F] : List (F × F) → List Nat → List F → Prop
  | [], [], [] => True
  | r :: rs, n :: ns, h :: hs => r.2 - r.1 = h * ((n : F) - 1) ∧ Spaced rs ns hs
  | _, _, _ => False

/-- The axes of a uniform grid: in every dimension `n` values `min + j * stepsize`. -/
def UniformAxes {F : Type} [Field F] : List (F × F) → List Nat → List F → List (List F) → Prop
  | [], [], [], [] => True
  | r :: rs, n :: ns, h :: hs, a :: as =>
    a.length = n ∧ (∀ j < n, a[j]? = some (r.1 + (j : F) * h)) ∧ UniformAxes rs ns hs as
  | _, _, _, _ => False

/-- Weights of the trapezoidal rule with `n` points: one half at both ends, one elsewhere; no weight for a
single point. -/
def trapWeight {F : Type} [Field F] (n i : Nat) : F :=
  if n ≤ 1 then 0 else if i = 0 ∨ i + 1 = n then 1 / 2 else 1

/-- Weight of the point with the given multi-index in the product trapezoidal rule: shape `s`, stepsizes
`h`. -/
def trapWeights {F : Type} [Field F] : List Nat → List F → List Nat → F
  | n :: s, h :: hs, i :: idx => trapWeight n i * h * trapWeights s hs idx
  | _, _, _ => 1

/-- Product trapezoidal sum: every grid point contributes with its weight, in no particular order. -/
def trapSum {F : Type} [Field F] (s : List Nat) (h : List F) (f : List Nat → F) : F :=
  ((rowMajor (s.map List.range)).map (fun idx => trapWeights s h idx * f idx)).sum

/-- Discrete convolution of two arrays of shapes `s` and `t` at `k`: the sum of `a i * b j` over all pairs
of multi-indices with `i + j = k`. -/
def conv {F : Type} [Field F] (s t : List Nat) (a b : List Nat → F) (k : List Nat) : F :=
  ((rowMajor (s.map List.range)).map (fun i => ((rowMajor (t.map List.range)).map (fun j =>
    if List.zipWith (· + ·) i j = k then a i * b j else 0)).sum)).sum

end Bdld.Spec
