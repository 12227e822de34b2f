import Verif.Spec.Units
import Verif.Lemmas.Except
import Verif.Props.Rates

/-
C148: the results do not depend on the units of length, time, mass and energy in which the input is written.
-/

namespace Bdld

open Spec

noncomputable section

variable {d : Nat} (U : Units d)

theorem Spec.Units.energyFactor_pos : 0 < U.energyFactor := by
  have := U.length_pos; have := U.time_pos; have := U.mass_pos
  unfold Units.energyFactor; positivity

theorem Spec.Units.momFactor_pos : 0 < U.momFactor := by
  have := U.length_pos; have := U.time_pos; have := U.mass_pos
  unfold Units.momFactor; positivity

private theorem map_ok {α β : Type} (f : α → β) (x : α) :
    (Except.ok x : Except PyErr α).map f = .ok (f x) := rfl

private theorem update_pos (x : Fin d → ℝ) (i : Fin d) (a : ℝ) :
    Function.update (U.pos x) i (U.length * a + U.origin i) = U.pos (Function.update x i a) := by
  funext k
  by_cases h : k = i
  · subst h; simp [Units.pos]
  · simp [Units.pos, Function.update_of_ne h]

private theorem update_mom (x : Fin d → ℝ) (i : Fin d) :
    Function.update (U.mom x) i (-(U.mom x i)) = U.mom (Function.update x i (-(x i))) := by
  funext k
  by_cases h : k = i
  · subst h; simp [Units.mom]
  · simp [Units.mom, Function.update_of_ne h]

private def both (s : (Fin d → ℝ) × (Fin d → ℝ)) : (Fin d → ℝ) × (Fin d → ℝ) := (U.pos s.1, U.mom s.2)

private theorem pos_lt (x : Fin d → ℝ) (i : Fin d) (a : ℝ) :
    (U.pos x i < U.length * a + U.origin i) ↔ x i < a := by
  simp only [Units.pos, add_lt_add_iff_right]
  exact mul_lt_mul_iff_right₀ U.length_pos

private theorem lt_pos' (x : Fin d → ℝ) (i : Fin d) (a : ℝ) :
    (U.length * a + U.origin i < U.pos x i) ↔ a < x i := by
  simp only [Units.pos, add_lt_add_iff_right]
  exact mul_lt_mul_iff_right₀ U.length_pos

private theorem reflect_units {l l' : List (ℝ × ℝ)} (h : ∀ i : Fin d, l'[i.val]? = l[i.val]?.map
    (fun r => (U.length * r.1 + U.origin i, U.length * r.2 + U.origin i))) (i : Fin d)
    (s : (Fin d → ℝ) × (Fin d → ℝ)) : reflectStep l' (both U s) i = (reflectStep l s i).map (both U) := by
  unfold reflectStep
  rw [h i]
  rcases l[i.val]? with _ | r
  · rfl
  · simp only [Option.map_some, both, pos_lt, lt_pos']
    by_cases h1 : s.1 i < r.1
    · simp only [if_pos h1, map_ok, update_pos, update_mom, both]
    · by_cases h2 : r.2 < s.1 i
      · simp only [if_neg h1, if_pos h2, map_ok, update_pos, update_mom, both]
      · simp only [if_neg h1, if_neg h2, map_ok, both]

private theorem periodic_units {l l' : List (ℝ × ℝ)} (h : ∀ i : Fin d, l'[i.val]? = l[i.val]?.map
    (fun r => (U.length * r.1 + U.origin i, U.length * r.2 + U.origin i))) (i : Fin d)
    (s : (Fin d → ℝ) × (Fin d → ℝ)) : periodicStep l' (both U s) i = (periodicStep l s i).map (both U) := by
  unfold periodicStep
  rw [h i]
  rcases l[i.val]? with _ | r
  · rfl
  · simp only [Option.map_some, both, pos_lt, lt_pos']
    have e1 : U.pos s.1 i + (U.length * r.2 + U.origin i - (U.length * r.1 + U.origin i))
        = U.length * (s.1 i + (r.2 - r.1)) + U.origin i := by simp only [Units.pos]; ring
    have e2 : U.pos s.1 i - (U.length * r.2 + U.origin i - (U.length * r.1 + U.origin i))
        = U.length * (s.1 i - (r.2 - r.1)) + U.origin i := by simp only [Units.pos]; ring
    by_cases h1 : s.1 i < r.1
    · simp only [if_pos h1, map_ok, e1, update_pos, both]
    · by_cases h2 : r.2 < s.1 i
      · simp only [if_neg h1, if_pos h2, map_ok, e2, update_pos, both]
      · simp only [if_neg h1, if_neg h2, map_ok, both]

private theorem foldlM_both {f f' : (Fin d → ℝ) × (Fin d → ℝ) → Fin d → Except PyErr ((Fin d → ℝ) × (Fin d → ℝ))}
    (h : ∀ i s, f' (both U s) i = (f s i).map (both U)) (l : List (Fin d)) :
    ∀ s, l.foldlM f' (both U s) = (l.foldlM f s).map (both U) := by
  induction l with
  | nil => intro s; rfl
  | cons i l ih =>
    intro s
    rw [List.foldlM_cons, List.foldlM_cons, h]
    rcases f s i with e | x
    · rfl
    · exact ih x

/-- C148: the boundary conditions commute with a change of units. -/
theorem boundary_units {pot pot' : Potential ℝ d} (h : U.Converts pot pot') (x p : Fin d → ℝ) :
    pot'.applyBc (U.pos x) (U.mom p) = (pot.applyBc x p).map (fun s => (U.pos s.1, U.mom s.2)) := by
  unfold Potential.applyBc
  rw [h.bc]
  rcases pot.bc with _ | bc
  · rfl
  · cases bc
    · exact foldlM_both U (fun i s => reflect_units U h.ranges i s) _ (x, p)
    · exact foldlM_both U (fun i s => periodic_units U h.ranges i s) _ (x, p)

/-- C148: a step of the Bussi-Parinello thermostat with the constants of the new units, applied to a walker in the
new units and with the same random numbers, gives the walker of the step in the old units. -/
theorem bussi_units {pot pot' : Potential ℝ d} (h : U.Converts pot pot') (dt friction kt : ℝ)
    (n1 n2 : Fin d → ℝ) (p : LdParticle ℝ d) :
    bussiStep (bussiCfg pot' (U.time * dt) (friction / U.time) (U.energyFactor * kt)) n1 n2 (U.particle p)
      = (bussiStep (bussiCfg pot dt friction kt) n1 n2 p).map U.particle := by
  have ht := U.time_pos.ne'; have hl := U.length_pos.ne'; have hm := U.mass_pos.ne'
  have hc1 : Real.exp (-(1 / 2) * (friction / U.time) * (U.time * dt)) = Real.exp (-(1 / 2) * friction * dt) := by
    congr 1; field_simp
  have hm1 : ∀ c1 : ℝ, kick (1 / 2) (U.time * dt) (thermostat c1 (U.momFactor * p.c2) (U.mom p.mom) n1)
      (U.forces p.forces) = U.mom (kick (1 / 2) dt (thermostat c1 p.c2 p.mom n1) p.forces) := by
    intro c1; funext k
    simp only [kick, thermostat, Units.mom, Units.forces, Units.momFactor, Units.energyFactor]
    field_simp
  have hd1 : ∀ m : Fin d → ℝ, drift (U.time * dt) (U.mass * p.mass) (U.pos p.pos) (U.mom m)
      = U.pos (drift dt p.mass p.pos m) := by
    intro m; funext k
    simp only [drift, Units.pos, Units.mom, Units.momFactor]
    by_cases hp : p.mass = 0
    · simp [hp]
    · field_simp; ring
  have hf : ∀ (c1 : ℝ) (m f : Fin d → ℝ), thermostat c1 (U.momFactor * p.c2)
      (kick (1 / 2) (U.time * dt) (U.mom m) (U.forces f)) n2
      = U.mom (thermostat c1 p.c2 (kick (1 / 2) dt m f) n2) := by
    intro c1 m f; funext k
    simp only [kick, thermostat, Units.mom, Units.forces, Units.momFactor, Units.energyFactor]
    field_simp
  simp only [bussiStep, bussiCfg, Units.particle, hc1, hm1, hd1, boundary_units U h]
  rcases pot.applyBc _ _ with e | s
  · rfl
  · show Except.ok _ = Except.ok _
    simp only [bussiFinish, Units.particle, h.evaluate, hf]

/-- C148: the constant `c2` of a new walker, and the whole new walker. -/
theorem newParticle_units {pot pot' : Potential ℝ d} (h : U.Converts pot pot') (dt friction kt : ℝ)
    (x : Fin d → ℝ) (m : ℝ) :
    newParticle (bussiCfg pot' (U.time * dt) (friction / U.time) (U.energyFactor * kt)) (U.pos x) (U.mass * m)
      = U.particle (newParticle (bussiCfg pot dt friction kt) x m) := by
  have ht := U.time_pos.ne'
  have hc1 : Real.exp (-(1 / 2) * (friction / U.time) * (U.time * dt)) = Real.exp (-(1 / 2) * friction * dt) := by
    congr 1; field_simp
  have hc2 : ∀ a : ℝ, Real.sqrt (a * (U.mass * m) * (U.energyFactor * kt))
      = U.momFactor * Real.sqrt (a * m * kt) := by
    intro a
    rw [← Real.sqrt_sq U.momFactor_pos.le, ← Real.sqrt_mul (sq_nonneg _)]
    congr 1
    unfold Units.energyFactor Units.momFactor
    field_simp
  simp only [newParticle, bussiCfg, Units.particle, h.evaluate, hc1, hc2]
  congr 1
  funext k; simp [Units.mom]

/-- C148: a step of the overdamped dynamics. The program fixes kT and the friction constant, so that only the unit of
length is free: energies keep their unit and times scale as length². -/
theorem overdamped_units_partial {pot pot' : Potential ℝ d} (h : U.Converts pot pot') (he : U.energyFactor = 1)
    (ht : U.time = U.length ^ 2) (dt : ℝ) (noise : Fin d → ℝ) (p : LdParticle ℝ d) :
    overdampedStep (overdampedCfg pot' (U.time * dt)) noise (U.particle p)
      = (overdampedStep (overdampedCfg pot dt) noise p).map U.particle := by
  have hl := U.length_pos.ne'
  have hs : Real.sqrt (2 * (U.length ^ 2 * dt)) = U.length * Real.sqrt (2 * dt) := by
    rw [show 2 * (U.length ^ 2 * dt) = U.length ^ 2 * (2 * dt) by ring, Real.sqrt_mul (sq_nonneg _),
      Real.sqrt_sq U.length_pos.le]
  have hd1 : (fun k => U.pos p.pos k + (U.time * dt * U.forces p.forces k + Real.sqrt (2 * (U.time * dt)) * noise k))
      = U.pos (fun k => p.pos k + (dt * p.forces k + Real.sqrt (2 * dt) * noise k)) := by
    funext k
    simp only [Units.pos, Units.forces, he, ht, hs]
    field_simp; ring
  simp only [overdampedStep, overdampedCfg, Units.particle, hd1, boundary_units U h]
  rcases pot.applyBc _ _ with e | s
  · rfl
  · show Except.ok _ = Except.ok _
    simp only [Units.particle, h.evaluate]

end

end Bdld
