import Verif.Model.LangevinReal
import Verif.Props.Langevin
import Mathlib.Probability.Distributions.Gaussian.Real
import Mathlib.MeasureTheory.Constructions.Pi
import Mathlib.MeasureTheory.Measure.Lebesgue.Basic

/-
Properties of the Langevin integrators in exact real arithmetic: C39, C40, C41, C73, C74.
-/

namespace Bdld
open Spec MeasureTheory ProbabilityTheory

/-! ### C39 -/

/-- C39: the constants of the thermostat. -/
theorem thermostat_constants {d : Nat} (pot : Potential ℝ d) (dt friction kt m : ℝ) (hdt : 0 ≤ dt)
    (hf : 0 ≤ friction) (hkt : 0 ≤ kt) (hm : 0 ≤ m) :
    let c := bussiCfg pot dt friction kt
    0 < c.c1 ∧ c.c1 ≤ 1 ∧ 0 ≤ c.c2of m ∧ c.c1 ^ 2 * (m * kt) + c.c2of m ^ 2 = m * kt ∧
    c.c1 * c.c1 = Real.exp (-(friction * dt)) := by
  intro c
  have h1 : 0 < c.c1 := Real.exp_pos _
  have h2 : c.c1 ≤ 1 := Real.exp_le_one_iff.2 (by nlinarith [mul_nonneg hf hdt])
  refine ⟨h1, h2, Real.sqrt_nonneg _, ?_, ?_⟩
  · have h3 : 0 ≤ (1 - c.c1 * c.c1) * m * kt :=
      mul_nonneg (mul_nonneg (by nlinarith) hm) hkt
    have h4 : c.c2of m ^ 2 = (1 - c.c1 * c.c1) * m * kt := Real.sq_sqrt h3
    rw [h4]
    ring
  · show Real.exp _ * Real.exp _ = _
    rw [← Real.exp_add]
    congr 1
    ring

/-- C39: friction 0 switches the thermostat off: the momentum is left alone, whatever the noise. -/
theorem thermostat_off {d : Nat} (pot : Potential ℝ d) (dt kt m : ℝ) (mom noise : Fin d → ℝ) :
    thermostat (bussiCfg pot dt 0 kt).c1 ((bussiCfg pot dt 0 kt).c2of m) mom noise = mom := by
  funext k
  simp [thermostat, bussiCfg]

/-- Linear combination of two independent centred normal variables. -/
theorem gaussian_combination (a b : ℝ) (v w u : NNReal) (h : a ^ 2 * v + b ^ 2 * w = u) :
    ((gaussianReal 0 v).prod (gaussianReal 0 w)).map (fun x : ℝ × ℝ => a * x.1 + b * x.2) = gaussianReal 0 u := by
  have h1 : (fun x : ℝ × ℝ => a * x.1 + b * x.2) =
      (fun x : ℝ × ℝ => x.1 + x.2) ∘ (Prod.map (fun x => a * x) (fun x => b * x)) := rfl
  rw [h1, ← Measure.map_map (by fun_prop) (by fun_prop), ← Measure.map_prod_map _ _ (by fun_prop) (by fun_prop),
    gaussianReal_map_const_mul, gaussianReal_map_const_mul]
  have h2 := gaussianReal_conv_gaussianReal (m₁ := a * 0) (m₂ := b * 0)
    (v₁ := .mk (a ^ 2) (sq_nonneg _) * v) (v₂ := .mk (b ^ 2) (sq_nonneg _) * w)
  unfold Measure.conv at h2
  rw [h2]
  congr 1
  · ring
  · apply NNReal.eq
    push_cast
    exact h

/-- C39: a thermostat half step leaves the Maxwell-Boltzmann distribution of the momenta (independent normal
components with variance `m kT`) invariant, if the noise consists of independent standard normal numbers
independent of the momenta. -/
theorem thermostat_invariant {d : Nat} (pot : Potential ℝ d) (dt friction kt m : ℝ) (hdt : 0 ≤ dt)
    (hf : 0 ≤ friction) (hkt : 0 ≤ kt) (hm : 0 ≤ m) :
    let c := bussiCfg pot dt friction kt
    let maxwell := Measure.pi (fun _ : Fin d => gaussianReal 0 (m * kt).toNNReal)
    (maxwell.prod (Measure.pi (fun _ : Fin d => gaussianReal 0 1))).map
      (fun x => thermostat c.c1 (c.c2of m) x.1 x.2) = maxwell := by
  intro c maxwell
  have hc := (thermostat_constants pot dt friction kt m hdt hf hkt hm).2.2.2.1
  rw [← (measurePreserving_arrowProdEquivProdArrow ℝ ℝ (Fin d) (fun _ => gaussianReal 0 (m * kt).toNNReal)
    (fun _ => gaussianReal 0 1)).map_eq, Measure.map_map]
  · have h1 : (fun x : (Fin d → ℝ) × (Fin d → ℝ) => thermostat c.c1 (c.c2of m) x.1 x.2) ∘
        (MeasurableEquiv.arrowProdEquivProdArrow ℝ ℝ (Fin d)) =
        fun x i => (fun y : ℝ × ℝ => c.c1 * y.1 + c.c2of m * y.2) (x i) := rfl
    have h2 : ((gaussianReal 0 (m * kt).toNNReal).prod (gaussianReal 0 1)).map
        (fun y : ℝ × ℝ => c.c1 * y.1 + c.c2of m * y.2) = gaussianReal 0 (m * kt).toNNReal := by
      apply gaussian_combination
      rw [Real.coe_toNNReal _ (mul_nonneg hm hkt)]
      simpa using hc
    rw [h1, Measure.pi_map_pi (f := fun _ (y : ℝ × ℝ) => c.c1 * y.1 + c.c2of m * y.2)
      (hμ := fun _ => by rw [h2]; infer_instance) (fun _ => by fun_prop)]
    show Measure.pi (fun _ : Fin d => _) = Measure.pi _
    congr 1
    funext i
    exact h2
  · unfold thermostat
    fun_prop
  · exact MeasurableEquiv.measurable _

-- the hypotheses are those that the input parser enforces, e.g. friction 10, dt 0.005, kT 1, mass 1
example : (bussiCfg (d := 1) ⟨fun _ => 0, fun _ _ => 0, fun _ => (0, fun _ => 0), [], none⟩ 0.005 10 1).c1 ^ 2 * (1 * 1)
    + (bussiCfg (d := 1) ⟨fun _ => 0, fun _ _ => 0, fun _ => (0, fun _ => 0), [], none⟩ 0.005 10 1).c2of 1 ^ 2
      = 1 * 1 :=
  (thermostat_constants _ 0.005 10 1 1 (by norm_num) (by norm_num) (by norm_num) (by norm_num)).2.2.2.1

/-! ### C40 -/

/-- The step of a particle without friction. -/
noncomputable def freeStep {d : Nat} (c : LdCfg ℝ d) (p : LdParticle ℝ d) : LdParticle ℝ d :=
  let q := verlet (fun x => (c.pot.evaluate x).2) p.mass c.dt (p.pos, p.mom)
  { p with
    pos := q.1
    mom := q.2
    energy := (c.pot.evaluate q.1).1
    forces := (c.pot.evaluate q.1).2 }

/-- C40: without friction and boundary condition a step is a velocity Verlet step, whatever the noise. -/
theorem bussi_frictionless {d : Nat} (pot : Potential ℝ d) (dt kt : ℝ) (hbc : pot.bc = none) (n1 n2 : Fin d → ℝ)
    (p : LdParticle ℝ d) (hp : Consistent (bussiCfg pot dt 0 kt) p)
    (hc2 : p.c2 = (bussiCfg pot dt 0 kt).c2of p.mass) :
    bussiStep (bussiCfg pot dt 0 kt) n1 n2 p = .ok (freeStep (bussiCfg pot dt 0 kt) p) := by
  have hc1 : (bussiCfg pot dt 0 kt).c1 = 1 := by simp [bussiCfg]
  have hc2' : p.c2 = 0 := by rw [hc2]; simp [bussiCfg]
  have hF : p.forces = (pot.evaluate p.pos).2 := congrArg Prod.snd hp
  have hth : ∀ m n : Fin d → ℝ, thermostat (bussiCfg pot dt 0 kt).c1 p.c2 m n = m := by
    intro m n; funext k; simp [thermostat, hc1, hc2']
  unfold bussiStep bussiFinish
  simp only [hth]
  have hb : ∀ x m, (bussiCfg pot dt 0 kt).pot.applyBc x m = .ok (x, m) := by
    intro x m; unfold Potential.applyBc
    have : (bussiCfg pot dt 0 kt).pot.bc = none := hbc
    rw [this]
  rw [hb, ok_bind, pure_eq_ok]
  have hk : ∀ m f : Fin d → ℝ, kick (bussiCfg pot dt 0 kt).half (bussiCfg pot dt 0 kt).dt m f =
      fun k => m k + dt / 2 * f k := by
    intro m f; funext k; simp only [kick, bussiCfg]; ring
  have hd : ∀ x m : Fin d → ℝ, drift (bussiCfg pot dt 0 kt).dt p.mass x m =
      fun k => x k + dt * (m k / p.mass) := by
    intro x m; funext k; simp only [drift, bussiCfg]; ring
  simp only [hk, hd, hF]
  rfl

/-- Reversal of the momentum. -/
def flipMom {d : Nat} (p : LdParticle ℝ d) : LdParticle ℝ d := { p with mom := fun k => -p.mom k }

theorem verlet_reverse {d : Nat} (f : (Fin d → ℝ) → Fin d → ℝ) (m dt : ℝ) (x p : Fin d → ℝ) :
    verlet f m dt ((verlet f m dt (x, p)).1, fun k => -(verlet f m dt (x, p)).2 k) = (x, fun k => -p k) := by
  have h1 : ∀ k, -(p k + dt / 2 * f x k + dt / 2 * f (verlet f m dt (x, p)).1 k) +
      dt / 2 * f (verlet f m dt (x, p)).1 k = -(p k + dt / 2 * f x k) := fun k => by ring
  have h2 : (verlet f m dt ((verlet f m dt (x, p)).1, fun k => -(verlet f m dt (x, p)).2 k)).1 = x := by
    funext k
    show (x k + dt * ((p k + dt / 2 * f x k) / m)) + dt * ((-(p k + dt / 2 * f x k + dt / 2 * f (verlet f m dt (x, p)).1 k) +
      dt / 2 * f (verlet f m dt (x, p)).1 k) / m) = x k
    rw [h1]
    ring
  refine Prod.ext h2 ?_
  funext k
  show (-(p k + dt / 2 * f x k + dt / 2 * f (verlet f m dt (x, p)).1 k) +
      dt / 2 * f (verlet f m dt (x, p)).1 k) +
      dt / 2 * f (verlet f m dt ((verlet f m dt (x, p)).1, fun k => -(verlet f m dt (x, p)).2 k)).1 k = -p k
  rw [h2]
  ring

theorem freeStep_reverse {d : Nat} (c : LdCfg ℝ d) (p : LdParticle ℝ d) (hp : Consistent c p) :
    freeStep c (flipMom (freeStep c p)) = flipMom p := by
  have h := verlet_reverse (fun x => (c.pot.evaluate x).2) p.mass c.dt p.pos p.mom
  have h' : verlet (fun x => (c.pot.evaluate x).2) (flipMom (freeStep c p)).mass c.dt
      ((flipMom (freeStep c p)).pos, (flipMom (freeStep c p)).mom) = (p.pos, fun k => -p.mom k) := h
  unfold freeStep
  simp only
  unfold freeStep at h'
  simp only [h']
  have he : p.energy = (c.pot.evaluate p.pos).1 := congrArg Prod.fst hp
  have hf : p.forces = (c.pot.evaluate p.pos).2 := congrArg Prod.snd hp
  rw [← he, ← hf]
  rfl

/-- What is known about particles of a simulation, see `ld_consistent` and `ld_c2`. -/
def LdOk {d : Nat} (c : LdCfg ℝ d) (p : LdParticle ℝ d) : Prop := Consistent c p ∧ p.c2 = c.c2of p.mass

theorem ldOk_freeStep {d : Nat} {c : LdCfg ℝ d} {p : LdParticle ℝ d} (h : LdOk c p) : LdOk c (freeStep c p) := ⟨rfl, h.2⟩

theorem ldOk_flip {d : Nat} {c : LdCfg ℝ d} {p : LdParticle ℝ d} (h : LdOk c p) : LdOk c (flipMom p) := h

theorem ldLoop_free {d : Nat} {R : Type} (pot : Potential ℝ d) (dt kt : ℝ) (hbc : pot.bc = none)
    (normal : NormalOps R ℝ d) (ps : List (LdParticle ℝ d)) (hps : ∀ p ∈ ps, LdOk (bussiCfg pot dt 0 kt) p) :
    ∀ r, ∃ r', ldLoop .bussi (bussiCfg pot dt 0 kt) normal ps r =
      .ok (ps.map (freeStep (bussiCfg pot dt 0 kt)), r') := by
  induction ps with
  | nil => intro r; exact ⟨r, rfl⟩
  | cons p ps ih =>
    intro r
    have hp := hps p (by simp)
    unfold ldLoop
    rw [particleStep_eq]
    unfold walkerStep
    simp only [bussi_frictionless pot dt kt hbc _ _ p hp.1 hp.2, Except.map, ok_bind]
    obtain ⟨r', hr'⟩ := ih (fun q hq => hps q (by simp [hq])) (drawState normal LdKind.bussi.draws r)
    rw [hr', ok_bind]
    exact ⟨r', rfl⟩

/-- C40: `n` steps without friction are `n` velocity Verlet steps of every particle, for every generator. -/
theorem ld_frictionless {d : Nat} {R : Type} (pot : Potential ℝ d) (dt kt : ℝ) (hbc : pot.bc = none)
    (normal : NormalOps R ℝ d) (s : LdState ℝ d R) (hs : ∀ p ∈ s.particles, LdOk (bussiCfg pot dt 0 kt) p) (n : Nat) :
    ∃ r, s.iter .bussi (bussiCfg pot dt 0 kt) normal n =
      .ok ⟨s.particles.map (freeStep (bussiCfg pot dt 0 kt))^[n], r⟩ := by
  induction n with
  | zero => exact ⟨s.rng, by simp [LdState.iter]⟩
  | succ n ih =>
    obtain ⟨r, hr⟩ := ih
    unfold LdState.iter
    rw [hr, ok_bind]
    unfold LdState.run
    obtain ⟨r', hr'⟩ := ldLoop_free pot dt kt hbc normal (s.particles.map (freeStep (bussiCfg pot dt 0 kt))^[n])
      (by
        intro q hq
        obtain ⟨p, hp, rfl⟩ := List.mem_map.1 hq
        have : ∀ n, LdOk (bussiCfg pot dt 0 kt) ((freeStep (bussiCfg pot dt 0 kt))^[n] p) := by
          intro n
          induction n with
          | zero => exact hs p hp
          | succ n ih => rw [Function.iterate_succ_apply']; exact ldOk_freeStep ih
        exact this n) r
    simp only [hr', ok_bind]
    refine ⟨r', ?_⟩
    rw [pure_eq_ok, List.map_map]
    congr 2
    refine List.map_congr_left (fun p _ => ?_)
    rw [Function.comp_apply, Function.iterate_succ_apply']

/-- C40: reversing all momenta after `n` steps and performing `n` more steps, with any generator, returns to the
initial state with reversed momenta. -/
theorem ld_time_reversible {d : Nat} {R R' : Type} (pot : Potential ℝ d) (dt kt : ℝ) (hbc : pot.bc = none)
    (normal : NormalOps R ℝ d) (normal' : NormalOps R' ℝ d) (s s' : LdState ℝ d R) (r : R') (n : Nat)
    (hs : ∀ p ∈ s.particles, LdOk (bussiCfg pot dt 0 kt) p)
    (h : s.iter .bussi (bussiCfg pot dt 0 kt) normal n = .ok s') :
    ∃ r', LdState.iter .bussi (bussiCfg pot dt 0 kt) normal' n ⟨s'.particles.map flipMom, r⟩ =
      .ok ⟨s.particles.map flipMom, r'⟩ := by
  obtain ⟨r1, h1⟩ := ld_frictionless pot dt kt hbc normal s hs n
  rw [h1] at h
  injection h with h
  subst h
  have hok : ∀ p ∈ s.particles, ∀ n, LdOk (bussiCfg pot dt 0 kt) ((freeStep (bussiCfg pot dt 0 kt))^[n] p) := by
    intro p hp n
    induction n with
    | zero => exact hs p hp
    | succ n ih => rw [Function.iterate_succ_apply']; exact ldOk_freeStep ih
  obtain ⟨r2, h2⟩ := ld_frictionless pot dt kt hbc normal'
    ⟨(s.particles.map (freeStep (bussiCfg pot dt 0 kt))^[n]).map flipMom, r⟩
    (by
      intro q hq
      simp only [List.map_map, List.mem_map] at hq
      obtain ⟨p, hp, rfl⟩ := hq
      exact ldOk_flip (hok p hp n)) n
  refine ⟨r2, ?_⟩
  rw [h2, List.map_map, List.map_map]
  congr 2
  refine List.map_congr_left (fun p hp => ?_)
  simp only [Function.comp_apply]
  clear h1 h2
  induction n with
  | zero => rfl
  | succ n ih =>
    rw [Function.iterate_succ_apply, Function.iterate_succ_apply', freeStep_reverse _ _ (hok p hp n).1]
    exact ih

-- a harmonic oscillator started at rest at 1
example : ∃ s' : LdState ℝ 1 ℝ, LdState.iter .bussi
    (bussiCfg ⟨fun x => x 0 ^ 2, fun x _ => -2 * x 0, fun x => (x 0 ^ 2, fun _ => -2 * x 0), [], none⟩ 0.1 0 1)
    (fun r => (fun _ => r, r + 1)) 3
    ⟨[newParticle (bussiCfg ⟨fun x => x 0 ^ 2, fun x _ => -2 * x 0, fun x => (x 0 ^ 2, fun _ => -2 * x 0), [], none⟩
      0.1 0 1) (fun _ => 1) 1], 0⟩ = .ok s' :=
  (ld_frictionless _ 0.1 1 rfl _ _ (fun p hp => by
    simp only [List.mem_singleton] at hp; subst hp; exact ⟨rfl, rfl⟩) 3).imp' (fun r => ⟨_, r⟩) (fun _ h => h)

/-! ### C74: the complete step -/

/-- C74: without boundary condition, a step is the scheme of Bussi and Parrinello with the decay
`exp(-γ dt / 2)` and noise amplitude `sqrt(m kT (1 - exp(-γ dt)))`, and its two noise vectors are used once each. -/
theorem bussi_rule {d : Nat} (pot : Potential ℝ d) (dt friction kt : ℝ) (hbc : pot.bc = none)
    (n1 n2 : Fin d → ℝ) (p : LdParticle ℝ d) (hp : LdOk (bussiCfg pot dt friction kt) p) :
    ∃ p', bussiStep (bussiCfg pot dt friction kt) n1 n2 p = .ok p' ∧
      (p'.pos, p'.mom) = bussiParrinello (fun x => (pot.evaluate x).2) p.mass dt (Real.exp (-(friction * dt / 2)))
        (Real.sqrt (p.mass * kt * (1 - Real.exp (-(friction * dt))))) n1 n2 (p.pos, p.mom) ∧
      p'.mass = p.mass ∧ LdOk (bussiCfg pot dt friction kt) p' := by
  have hF : p.forces = (pot.evaluate p.pos).2 := congrArg Prod.snd hp.1
  have hc1 : (bussiCfg pot dt friction kt).c1 = Real.exp (-(friction * dt / 2)) := by
    simp only [bussiCfg]; congr 1; ring
  have hc2 : p.c2 = Real.sqrt (p.mass * kt * (1 - Real.exp (-(friction * dt)))) := by
    rw [hp.2]
    simp only [bussiCfg]
    rw [← Real.exp_add]
    congr 1
    rw [show -(1 / 2) * friction * dt + -(1 / 2) * friction * dt = -(friction * dt) by ring]
    ring
  have hb : ∀ x m, (bussiCfg pot dt friction kt).pot.applyBc x m = .ok (x, m) := by
    intro x m; unfold Potential.applyBc
    have : (bussiCfg pot dt friction kt).pot.bc = none := hbc
    rw [this]
  have hk : ∀ m f : Fin d → ℝ, kick (bussiCfg pot dt friction kt).half (bussiCfg pot dt friction kt).dt m f =
      fun k => m k + dt / 2 * f k := by
    intro m f; funext k; simp only [kick, bussiCfg]; ring
  have hd : ∀ x m : Fin d → ℝ, drift (bussiCfg pot dt friction kt).dt p.mass x m =
      fun k => x k + dt * (m k / p.mass) := by
    intro x m; funext k; simp only [drift, bussiCfg]; ring
  unfold bussiStep
  simp only [hb, ok_bind]
  refine ⟨_, rfl, ?_, rfl, rfl, hp.2⟩
  unfold bussiFinish thermostat
  simp only [hk, hd, hF, hc1, hc2]
  rfl

-- with friction the noise matters: a free particle at rest gets momentum from both vectors
example : ((bussiParrinello (d := 1) (fun _ _ => (0 : ℚ)) 1 1 (1 / 2) 1 (fun _ => 2) (fun _ => 3)
    (fun _ => 0, fun _ => 0)).2 0) = 4 := by
  simp only [bussiParrinello, verlet]; norm_num

/-! ### C73: phase space volume -/

theorem shear_mom_preserving {d : Nat} (g : (Fin d → ℝ) → Fin d → ℝ) (hg : Measurable g) :
    MeasurePreserving (fun s : (Fin d → ℝ) × (Fin d → ℝ) => (s.1, s.2 + g s.1)) volume volume := by
  refine (MeasurePreserving.id _).skew_product (g := fun x p => p + g x) ?_ ?_
  · exact (measurable_snd.add (hg.comp measurable_fst))
  · exact Filter.Eventually.of_forall (fun x => map_add_right_eq_self volume (g x))

theorem shear_pos_preserving {d : Nat} (g : (Fin d → ℝ) → Fin d → ℝ) (hg : Measurable g) :
    MeasurePreserving (fun s : (Fin d → ℝ) × (Fin d → ℝ) => (s.1 + g s.2, s.2)) volume volume := by
  have h := (Measure.measurePreserving_swap (μ := (volume : Measure (Fin d → ℝ)))
      (ν := (volume : Measure (Fin d → ℝ)))).comp ((shear_mom_preserving g hg).comp
    (Measure.measurePreserving_swap (μ := (volume : Measure (Fin d → ℝ))) (ν := (volume : Measure (Fin d → ℝ)))))
  exact h

/-- C73: a frictionless step without boundary condition preserves the phase space volume (Liouville's theorem
for the integrator), for every measurable force. -/
theorem verlet_volume {d : Nat} (f : (Fin d → ℝ) → Fin d → ℝ) (hf : Measurable f) (m dt : ℝ) :
    MeasurePreserving (verlet f m dt) volume volume := by
  have h1 := shear_mom_preserving (fun x => (dt / 2) • f x) (by fun_prop)
  have h2 := shear_pos_preserving (fun p : Fin d → ℝ => dt • (fun k => p k / m)) (by fun_prop)
  exact h1.comp (h2.comp h1)

/-- C73 for the integrator: position and momentum after a step as function of position and momentum before. -/
theorem ld_volume {d : Nat} (pot : Potential ℝ d) (dt kt m : ℝ) (hbc : pot.bc = none)
    (hf : Measurable (fun x => (pot.evaluate x).2)) (n1 n2 : Fin d → ℝ) :
    ∃ T : (Fin d → ℝ) × (Fin d → ℝ) → (Fin d → ℝ) × (Fin d → ℝ), MeasurePreserving T volume volume ∧
      ∀ p, LdOk (bussiCfg pot dt 0 kt) p → p.mass = m → ∃ p',
        bussiStep (bussiCfg pot dt 0 kt) n1 n2 p = .ok p' ∧ (p'.pos, p'.mom) = T (p.pos, p.mom) := by
  refine ⟨verlet (fun x => (pot.evaluate x).2) m dt, verlet_volume _ hf m dt, fun p hp hm => ?_⟩
  subst hm
  exact ⟨_, bussi_frictionless pot dt kt hbc n1 n2 p hp.1 hp.2, rfl⟩

example : ∃ T : (Fin 1 → ℝ) × (Fin 1 → ℝ) → (Fin 1 → ℝ) × (Fin 1 → ℝ), MeasurePreserving T volume volume ∧
    T (fun _ => 1, fun _ => 0) ≠ (fun _ => 1, fun _ => 0) := by
  refine ⟨verlet (fun x _ => -x 0) 1 1, verlet_volume _ (by fun_prop) 1 1, fun h => ?_⟩
  have := congrFun (congrArg Prod.fst h) 0
  simp only [verlet] at this
  norm_num at this

/-! ### C41 -/

/-- C41: without boundary condition a walker of the overdamped dynamics moves by `dt * force + sqrt(2 dt) * noise`,
where the force is the one at its position before the step, and its momentum stays. -/
theorem overdamped_euler_maruyama {d : Nat} (pot : Potential ℝ d) (dt : ℝ) (hbc : pot.bc = none)
    (noise : Fin d → ℝ) (p : LdParticle ℝ d) (hp : Consistent (overdampedCfg pot dt) p) :
    ∃ p', overdampedStep (overdampedCfg pot dt) noise p = .ok p' ∧ p'.mom = p.mom ∧
      ∀ k, p'.pos k = p.pos k + dt * (pot.evaluate p.pos).2 k + Real.sqrt (2 * dt) * noise k := by
  obtain ⟨p', h1, h2, h3⟩ := overdamped_rule_free (overdampedCfg pot dt) hbc noise p
  refine ⟨p', h1, h3, fun k => ?_⟩
  rw [h2]
  have hf : p.forces = (pot.evaluate p.pos).2 := congrArg Prod.snd hp
  simp only [overdampedCfg, hf]
  ring

/-- C41: mean and variance of the displacement are those of the Euler-Maruyama scheme of `dx = F dt + √2 dW`: for
standard normal noise the displacement of every coordinate is normal with mean `dt F` and variance `2 dt`. -/
theorem overdamped_displacement (dt f x : ℝ) (hdt : 0 ≤ dt) :
    (gaussianReal 0 1).map (fun n => x + dt * f + Real.sqrt (2 * dt) * n) =
      gaussianReal (x + dt * f) (2 * dt).toNNReal := by
  have h1 : (fun n => x + dt * f + Real.sqrt (2 * dt) * n) =
      (fun y => (x + dt * f) + y) ∘ (fun n => Real.sqrt (2 * dt) * n) := rfl
  rw [h1, ← Measure.map_map (by fun_prop) (by fun_prop), gaussianReal_map_const_mul, gaussianReal_map_const_add]
  congr 1
  · ring
  · apply NNReal.eq
    push_cast
    rw [Real.coe_toNNReal _ (by linarith)]
    show Real.sqrt (2 * dt) ^ 2 * 1 = _
    rw [Real.sq_sqrt (by linarith), mul_one]

end Bdld
