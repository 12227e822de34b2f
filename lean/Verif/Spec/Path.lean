import Verif.Spec.Options
import Verif.Spec.Langevin
import Mathlib.Analysis.SpecialFunctions.Exp
import Mathlib.Analysis.SpecialFunctions.Sqrt

/-
Specification of the path of the walkers in terms of the input options. Independent of the integrators of the
model.
-/

namespace Bdld.Spec

noncomputable section

/-- Boundary condition for one coordinate with range `r`. -/
def boundary1 (bc : Option BoundaryCondition) (r : ℝ × ℝ) (x m : ℝ) : ℝ × ℝ :=
  match bc with
  | none => (x, m)
  | some .reflective => if r.2 < x ∧ r.1 ≤ x then (r.2, -m) else if x < r.1 then (r.1, -m) else (x, m)
  | some .periodic =>
    if r.2 < x ∧ r.1 ≤ x then (x - (r.2 - r.1), m) else if x < r.1 then (x + (r.2 - r.1), m) else (x, m)

/-- Position and momentum of a walker. -/
abbrev Phase (d : Nat) := (Fin d → ℝ) × (Fin d → ℝ)

/-- Boundary condition for all coordinates. -/
def boundary {d : Nat} (bc : Option BoundaryCondition) (ranges : List (ℝ × ℝ)) (s : Phase d) : Phase d :=
  (fun k => (boundary1 bc (ranges.getD k (0, 0)) (s.1 k) (s.2 k)).1,
   fun k => (boundary1 bc (ranges.getD k (0, 0)) (s.1 k) (s.2 k)).2)

/-- One Euler-Maruyama step of overdamped dynamics at unit temperature. -/
def eulerStep {d : Nat} (f : (Fin d → ℝ) → Fin d → ℝ) (bound : Phase d → Phase d) (dt : ℝ)
    (noise : Fin d → ℝ) (s : Phase d) : Phase d :=
  bound (fun k => s.1 k + f s.1 k * dt + Real.sqrt (2 * dt) * noise k, s.2)

/-- One step after Bussi and Parrinello, the boundary condition acting after the drift. -/
def bussiParrinelloStep {d : Nat} (f : (Fin d → ℝ) → Fin d → ℝ) (bound : Phase d → Phase d)
    (dt friction kt mass : ℝ) (noise1 noise2 : Fin d → ℝ) (s : Phase d) : Phase d :=
  let decay := Real.exp (-(friction * dt / 2))
  let amp := Real.sqrt (mass * kt * (1 - Real.exp (-(friction * dt))))
  let p1 := fun k => decay * s.2 k + amp * noise1 k + dt / 2 * f s.1 k
  let q := bound (fun k => s.1 k + dt * (p1 k / mass), p1)
  (q.1, fun k => decay * (q.2 k + dt / 2 * f q.1 k) + amp * noise2 k)

/-- Step of the dynamics described by the options of the section ld. -/
def langevinStep {d : Nat} (o : Dict (OptVal ℝ)) (f : (Fin d → ℝ) → Fin d → ℝ) (bound : Phase d → Phase d)
    (mass : ℝ) (noise : Nat → Fin d → ℝ) (s : Phase d) : Phase d :=
  if o.get? "type" = some (.base (.str "bussi-parinello")) then
    bussiParrinelloStep f bound (floatOf o "timestep") (floatOf o "friction") (floatOf o "kt") mass
      (noise 0) (noise 1) s
  else eulerStep f bound (floatOf o "timestep") (noise 0) s

/-- Number of random vectors per walker and step. -/
def vectorsPerStep (o : Dict (OptVal ℝ)) : Nat :=
  if o.get? "type" = some (.base (.str "bussi-parinello")) then 2 else 1

/-- A walker on its own for `t` steps; in step number `i` it uses the random vectors `noise i`. -/
def langevinPath {d : Nat} (o : Dict (OptVal ℝ)) (f : (Fin d → ℝ) → Fin d → ℝ) (bound : Phase d → Phase d)
    (mass : ℝ) (noise : Nat → Nat → Fin d → ℝ) : Nat → Phase d → Phase d
  | 0, s => s
  | t + 1, s => langevinStep o f bound mass (noise t) (langevinPath o f bound mass noise t s)

end

end Bdld.Spec
