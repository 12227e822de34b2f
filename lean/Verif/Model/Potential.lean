import Verif.Model.Py
import Mathlib.Logic.Function.Basic
import Mathlib.Data.List.FinRange
import Mathlib.Algebra.Group.Pi.Basic

/-
Model of the class `Potential`, `bdld/potential/potential.py`, and of the part of `setup_potential`
(`bdld/main.py:126-154`) that selects the boundary condition.

Arrays with one entry per dimension are functions `Fin d → F`: `add_particle` checks that positions have
`n_dim` entries, and `energy`, `force` are only called with such arrays. The list of ranges comes
straight from the input and can have any length. No laws of arithmetic are used by the definitions, so
they make sense for IEEE doubles.
-/

namespace Bdld

/-- `BoundaryCondition`, `potential.py:10-14`. -/
inductive BoundaryCondition where
  | reflective
  | periodic
deriving DecidableEq, Repr

/-- A potential of dimension `d`. `evaluate` is a separate field because subclasses override it. -/
structure Potential (F : Type) (d : Nat) where
  energy : (Fin d → F) → F
  force : (Fin d → F) → Fin d → F
  evaluate : (Fin d → F) → F × (Fin d → F)
  ranges : List (F × F)
  bc : Option BoundaryCondition

/-- `Potential.evaluate` of the base class, `potential.py:33-39`. -/
def baseEvaluate {F : Type} {d : Nat} (energy : (Fin d → F) → F) (force : (Fin d → F) → Fin d → F)
    (pos : Fin d → F) : F × (Fin d → F) := (energy pos, force pos)

section Boundary
variable {F : Type} [LT F] [DecidableLT F]

/-- Body of the loop of `apply_boundary_condition_reflective`, `potential.py:154-160`. The state is the pair
(pos, mom) of arrays. `self.ranges[i]` raises `IndexError` if there are fewer ranges than coordinates. -/
def reflectStep [Neg F] {d : Nat} (ranges : List (F × F)) (s : (Fin d → F) × (Fin d → F)) (i : Fin d) :
    Except PyErr ((Fin d → F) × (Fin d → F)) :=
  match ranges[i.val]? with
  | none => .error .indexError
  | some r =>
    if s.1 i < r.1 then .ok (Function.update s.1 i r.1, Function.update s.2 i (-(s.2 i)))
    else if r.2 < s.1 i then .ok (Function.update s.1 i r.2, Function.update s.2 i (-(s.2 i)))
    else .ok s

/-- `Potential.apply_boundary_condition_reflective`, `potential.py:140-160`. -/
def applyReflective [Neg F] {d : Nat} (ranges : List (F × F)) (pos mom : Fin d → F) :
    Except PyErr ((Fin d → F) × (Fin d → F)) :=
  (List.finRange d).foldlM (reflectStep ranges) (pos, mom)

/-- Body of the loop of `apply_boundary_condition_periodic`, `potential.py:175-179`. -/
def periodicStep [Add F] [Sub F] {d : Nat} (ranges : List (F × F)) (s : (Fin d → F) × (Fin d → F))
    (i : Fin d) : Except PyErr ((Fin d → F) × (Fin d → F)) :=
  match ranges[i.val]? with
  | none => .error .indexError
  | some r =>
    if s.1 i < r.1 then .ok (Function.update s.1 i (s.1 i + (r.2 - r.1)), s.2)
    else if r.2 < s.1 i then .ok (Function.update s.1 i (s.1 i - (r.2 - r.1)), s.2)
    else .ok s

/-- `Potential.apply_boundary_condition_periodic`, `potential.py:162-179`. -/
def applyPeriodic [Add F] [Sub F] {d : Nat} (ranges : List (F × F)) (pos mom : Fin d → F) :
    Except PyErr ((Fin d → F) × (Fin d → F)) :=
  (List.finRange d).foldlM (periodicStep ranges) (pos, mom)

/-- `self.apply_boundary_condition` as set by `_set_boundary_condition_function`,
`potential.py:128-138`. -/
def Potential.applyBc [Add F] [Sub F] [Neg F] {d : Nat} (p : Potential F d) (pos mom : Fin d → F) :
    Except PyErr ((Fin d → F) × (Fin d → F)) :=
  match p.bc with
  | none => .ok (pos, mom)
  | some .reflective => applyReflective p.ranges pos mom
  | some .periodic => applyPeriodic p.ranges pos mom

end Boundary

/-- The boundary condition selected by `setup_potential`, `main.py:149-153`; the option is `None` if it is
absent from the input, any other string is possible. -/
def bcOfOption (opt : Option String) : Option BoundaryCondition :=
  if opt = some "reflective" then some .reflective
  else if opt = some "periodic" then some .periodic
  else none

/-- The potential with its boundary condition set from the option. -/
def Potential.withBcOption {F : Type} {d : Nat} (p : Potential F d) (opt : Option String) : Potential F d :=
  { p with bc := bcOfOption opt }

/-- `Potential.get_fields`, `potential.py:100-112`. -/
def potFields : Nat → Except PyErr (List String)
  | 1 => .ok ["x"]
  | 2 => .ok ["x", "y"]
  | 3 => .ok ["x", "y", "z"]
  | _ => .error .valueError

/-- `np.min` of an array; an empty array raises `ValueError`. -/
def npMin {F : Type} [LT F] [DecidableLT F] : List F → Except PyErr F
  | [] => .error .valueError
  | x :: xs => .ok (xs.foldl (fun m y => if y < m then y else m) x)

/-- `Potential.calculate_reference`, `potential.py:61-73`. -/
def calculateReference {F : Type} [LT F] [DecidableLT F] [Sub F] {d : Nat} (p : Potential F d)
    (pos : List (Fin d → F)) (mintozero : Bool) : Except PyErr (List F) := do
  let fes := pos.map p.energy
  if mintozero then
    let m ← npMin fes
    return fes.map (· - m)
  else
    return fes

end Bdld
