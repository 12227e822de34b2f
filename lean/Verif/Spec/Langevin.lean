import Mathlib.Algebra.Field.Defs
import Mathlib.Logic.Function.Iterate

/-
Specifications for the Langevin dynamics.
-/

namespace Bdld.Spec

/-- The state of the generator after `i` calls. -/
def drawState {R V : Type} (normal : R → V × R) (i : Nat) (r : R) : R := (fun r => (normal r).2)^[i] r

/-- The random vectors that a generator in state `r` returns in consecutive calls. -/
def draw {R V : Type} (normal : R → V × R) (r : R) (i : Nat) : V := (normal (drawState normal i r)).1

/-- One velocity Verlet step with force field `f` for a particle of mass `m`: half a kick, a drift with the new
momentum, half a kick with the force at the new position. -/
def verlet {K : Type} [Field K] {d : Nat} (f : (Fin d → K) → Fin d → K) (m dt : K)
    (s : (Fin d → K) × (Fin d → K)) : (Fin d → K) × (Fin d → K) :=
  let pHalf := fun k => s.2 k + dt / 2 * f s.1 k
  let x := fun k => s.1 k + dt * (pHalf k / m)
  (x, fun k => pHalf k + dt / 2 * f x k)

/-- One step of Langevin dynamics after Bussi and Parrinello (Phys. Rev. E 75, 056707): half a step of the
Ornstein-Uhlenbeck process for the momentum with friction `γ`, a velocity Verlet step, another half step with
a second random vector. `amp` is the noise amplitude of a half step. -/
def bussiParrinello {K : Type} [Field K] {d : Nat} (f : (Fin d → K) → Fin d → K) (m dt decay amp : K)
    (noise1 noise2 : Fin d → K) (s : (Fin d → K) × (Fin d → K)) : (Fin d → K) × (Fin d → K) :=
  let q := verlet f m dt (s.1, fun k => decay * s.2 k + amp * noise1 k)
  (q.1, fun k => decay * q.2 k + amp * noise2 k)

end Bdld.Spec
