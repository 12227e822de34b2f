import Verif.Model.LangevinReal
import Verif.Model.Rates

/-
Specification of a change of units: every quantity of a simulation is measured in other units of length, time and
mass, with another origin of the coordinates and another zero of the energy.
-/

namespace Bdld.Spec

noncomputable section

/-- Another system of units. The factors are the values of the old units in the new ones. -/
structure Units (d : Nat) where
  length : ℝ
  time : ℝ
  mass : ℝ
  origin : Fin d → ℝ
  zero : ℝ
  length_pos : 0 < length
  time_pos : 0 < time
  mass_pos : 0 < mass

namespace Units
variable {d : Nat} (U : Units d)

/-- The unit of energy is mass · length² / time². -/
def energyFactor : ℝ := U.mass * U.length ^ 2 / U.time ^ 2

/-- The unit of momentum is mass · length / time. -/
def momFactor : ℝ := U.mass * U.length / U.time

def pos (x : Fin d → ℝ) : Fin d → ℝ := fun k => U.length * x k + U.origin k
def mom (p : Fin d → ℝ) : Fin d → ℝ := fun k => U.momFactor * p k
def energy (e : ℝ) : ℝ := U.energyFactor * e + U.zero
/-- Forces are energy / length. -/
def forces (f : Fin d → ℝ) : Fin d → ℝ := fun k => U.energyFactor / U.length * f k

/-- A walker in the new units. The thermostat constant `c2` is a momentum. -/
def particle (p : LdParticle ℝ d) : LdParticle ℝ d where
  pos := U.pos p.pos
  mom := U.mom p.mom
  mass := U.mass * p.mass
  energy := U.energy p.energy
  forces := U.forces p.forces
  c2 := U.momFactor * p.c2

/-- `pot'` is the potential `pot` in the new units: energies, forces, boundaries. -/
structure Converts (pot pot' : Potential ℝ d) : Prop where
  evaluate : ∀ x, pot'.evaluate (U.pos x) = (U.energy (pot.evaluate x).1, U.forces (pot.evaluate x).2)
  ranges : ∀ i : Fin d, pot'.ranges[i.val]? = pot.ranges[i.val]?.map
    (fun r => (U.length * r.1 + U.origin i, U.length * r.2 + U.origin i))
  bc : pot'.bc = pot.bc

/-- The constants of birth-death in the new units: bandwidths are lengths, kT is an energy, the tabulated correction
is a pure number. For the multiplicative variant it is the logarithm of an inverse density and only determined up to a
constant. `S` are the positions where this holds. -/
structure ConvertsRates (S : (Fin d → ℝ) → Prop) (c c' : RateCfg d) : Prop where
  bw : ∀ k, c'.bw k = U.length * c.bw k
  kt : c'.kt = U.energyFactor * c.kt
  variant : c'.variant = c.variant
  additive : c.variant = .add → ∀ x, S x → c'.approx (U.pos x) = c.approx x
  multiplicative : c.variant = .mult → ∃ a, ∀ x, S x → c'.approx (U.pos x) = c.approx x + a

end Units

end

end Bdld.Spec
