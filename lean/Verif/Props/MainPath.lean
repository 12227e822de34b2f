import Verif.Spec.Path
import Verif.Props.MainSetup
import Verif.Props.LangevinReal

/-
C91: the path of the walkers of a finished run, step by step, in terms of the options.
-/

set_option linter.unusedSectionVars false

namespace Bdld

open Spec

variable {R : Type} {d : Nat}

/-! ### One step of a walker -/

theorem reflect1_boundary (r : ℝ × ℝ) (x m : ℝ) : reflect1 r x m = boundary1 (some .reflective) r x m := by
  unfold reflect1 boundary1
  by_cases h : x < r.1
  · simp [h, not_le.2 h]
  · simp [h, not_lt.1 h]

theorem wrap1_boundary (r : ℝ × ℝ) (x m : ℝ) : wrap1 r x m = boundary1 (some .periodic) r x m := by
  unfold wrap1 boundary1
  by_cases h : x < r.1
  · simp [h, not_le.2 h]
  · simp [h, not_lt.1 h]

theorem applyBc_boundary (p : Potential ℝ d) (pos mom : Fin d → ℝ) (x : Phase d)
    (h : p.applyBc pos mom = .ok x) : x = boundary p.bc p.ranges (pos, mom) := by
  unfold Potential.applyBc at h
  have hget : ∀ (hr : d ≤ p.ranges.length) (i : Fin d), p.ranges.get (i.castLE hr) = p.ranges.getD i (0, 0) := by
    intro hr i
    have : (i : Nat) < p.ranges.length := by omega
    simp [List.getD_eq_getElem?_getD, List.getElem?_eq_getElem this]
  unfold boundary
  split at h
  · rename_i hb
    cases h
    simp [hb, boundary1]
  · rename_i hb
    rcases Nat.lt_or_ge p.ranges.length d with hr | hr
    · rw [applyReflective_index_error _ hr] at h
      cases h
    · rw [applyReflective_eq _ hr] at h
      cases h
      simp only [hget, reflect1_boundary, hb]
  · rename_i hb
    rcases Nat.lt_or_ge p.ranges.length d with hr | hr
    · rw [applyPeriodic_index_error _ hr] at h
      cases h
    · rw [applyPeriodic_eq _ hr] at h
      cases h
      simp only [hget, wrap1_boundary, hb]

theorem overdamped_step (pot : Potential ℝ d) (hev : ∀ x, pot.evaluate x = (pot.energy x, pot.force x)) (dt : ℝ)
    (noise : Fin d → ℝ) (p p' : LdParticle ℝ d) (hp : LdOk (overdampedCfg pot dt) p)
    (h : overdampedStep (overdampedCfg pot dt) noise p = .ok p') :
    (p'.pos, p'.mom) = eulerStep pot.force (boundary pot.bc pot.ranges) dt noise (p.pos, p.mom) := by
  have hf : p.forces = pot.force p.pos := by
    have := congrArg Prod.snd hp.1
    simpa [overdampedCfg, hev] using this
  obtain ⟨h1, _⟩ := overdamped_rule _ noise p p' h
  rw [applyBc_boundary _ _ _ _ h1]
  unfold eulerStep
  congr 1
  refine Prod.ext (funext fun k => ?_) rfl
  simp only [overdampedCfg, hf]
  ring

theorem bussi_step (pot : Potential ℝ d) (hev : ∀ x, pot.evaluate x = (pot.energy x, pot.force x))
    (dt friction kt : ℝ) (n1 n2 : Fin d → ℝ) (p p' : LdParticle ℝ d) (hp : LdOk (bussiCfg pot dt friction kt) p)
    (h : bussiStep (bussiCfg pot dt friction kt) n1 n2 p = .ok p') :
    (p'.pos, p'.mom) = bussiParrinelloStep pot.force (boundary pot.bc pot.ranges) dt friction kt p.mass n1 n2
      (p.pos, p.mom) := by
  have hf : p.forces = pot.force p.pos := by
    have := congrArg Prod.snd hp.1
    simpa [bussiCfg, hev] using this
  have hc1 : (bussiCfg pot dt friction kt).c1 = Real.exp (-(friction * dt / 2)) := by
    simp only [bussiCfg]; congr 1; ring
  have hc2 : p.c2 = Real.sqrt (p.mass * kt * (1 - Real.exp (-(friction * dt)))) := by
    rw [hp.2]
    simp only [bussiCfg]
    rw [← Real.exp_add]
    congr 1
    rw [show -(1 / 2) * friction * dt + -(1 / 2) * friction * dt = -(friction * dt) by ring]
    ring
  obtain ⟨mom, h1, h2, h3, _⟩ := bussi_rule_bc _ n1 n2 p p' h
  have hf' : p'.forces = pot.force p'.pos := by
    have := congrArg Prod.snd h2
    simpa [bussiCfg, hev] using this
  have h1 := applyBc_boundary _ _ _ _ h1
  have e : boundary (bussiCfg pot dt friction kt).pot.bc (bussiCfg pot dt friction kt).pot.ranges
      (fun k => p.pos k + ((bussiCfg pot dt friction kt).c1 * p.mom k + p.c2 * n1 k +
          (bussiCfg pot dt friction kt).half * p.forces k * (bussiCfg pot dt friction kt).dt) / p.mass *
            (bussiCfg pot dt friction kt).dt,
        fun k => (bussiCfg pot dt friction kt).c1 * p.mom k + p.c2 * n1 k +
          (bussiCfg pot dt friction kt).half * p.forces k * (bussiCfg pot dt friction kt).dt) =
      boundary pot.bc pot.ranges (fun k => p.pos k + dt * ((Real.exp (-(friction * dt / 2)) * p.mom k +
          Real.sqrt (p.mass * kt * (1 - Real.exp (-(friction * dt)))) * n1 k + dt / 2 * pot.force p.pos k) / p.mass),
        fun k => Real.exp (-(friction * dt / 2)) * p.mom k +
          Real.sqrt (p.mass * kt * (1 - Real.exp (-(friction * dt)))) * n1 k + dt / 2 * pot.force p.pos k) := by
    rw [hc1, hc2, hf]
    congr 1
    refine Prod.ext (funext fun k => ?_) (funext fun k => ?_) <;> simp only [bussiCfg] <;> ring
  rw [e] at h1
  unfold bussiParrinelloStep
  simp only
  rw [← h1]
  refine Prod.ext rfl (funext fun k => ?_)
  simp only [h3, hc1, hc2, hf']
  simp only [bussiCfg]
  ring

/-! ### Birth-death -/

theorem bdRun_moves (b : BdAct d) (hb : b.cfg.Lawful) (ops : RngOps R ℝ) (hops : ops.Lawful) (hs : 0 < b.stride)
    (x u : BdState (LdParticle ℝ d) R × BdLog) (step : Nat)
    (h : bdRun b.cfg ops b.stride b.statsStride x step = .ok u) :
    (¬ b.stride ∣ step → u.1.particles = x.1.particles) ∧ ∃ ev, CopyMoves ev x.1.particles u.1.particles := by
  unfold bdRun at h
  rw [if_neg (by omega)] at h
  simp only [pure_eq_ok] at h
  by_cases h1 : step % b.stride = 0
  · rw [if_pos h1] at h
    cases hd : doBirthDeath b.cfg ops x.1 with
    | error e => rw [hd] at h; cases h
    | ok y =>
      rw [hd] at h
      cases h
      exact ⟨fun h2 => absurd (Nat.dvd_of_mod_eq_zero h1) h2, y.1, bd_moves hb hops hd⟩
  · rw [if_neg h1] at h
    cases h
    exact ⟨fun _ => rfl, [], .nil _⟩

/-! ### Steps of the dynamics -/

theorem dynStep_inv (w : World R) (hops : w.bdOps.Lawful) (kind : LdKind) (ld : LdCfg ℝ d)
    (b : Option (BdAct d)) (hb : ∀ x, b = some x → x.cfg.Lawful ∧ 0 < x.stride) (x y : Dyn d R) (step : Nat)
    (h : dynStep w kind ld b x step = .ok y) :
    ∃ z, LdState.run kind ld (w.normal d) ⟨x.particles, x.ldRng⟩ = .ok z ∧ y.ldRng = z.rng ∧
      ((∀ c, b = some c → ¬ c.stride ∣ step) → y.particles = z.particles) ∧
      ∃ ev, CopyMoves ev z.particles y.particles := by
  obtain ⟨z, hz, h⟩ := bind_ok h
  refine ⟨z, hz, ?_⟩
  split at h
  · rename_i c v _ _
    obtain ⟨u, hu, h⟩ := bind_ok h
    cases h
    obtain ⟨k1, k2⟩ := bdRun_moves c (hb c rfl).1 w.bdOps hops (hb c rfl).2 _ _ _ hu
    exact ⟨rfl, fun hc => k1 (hc c rfl), k2⟩
  · cases h
    exact ⟨rfl, fun _ => rfl, [], .nil _⟩

theorem dynSteps_prefix (w : World R) (kind : LdKind) (ld : LdCfg ℝ d) (b : Option (BdAct d)) (x : Dyn d R) :
    ∀ (n : Nat) (y : Dyn d R), dynSteps w kind ld b n x = .ok y → ∀ t ≤ n, ∃ z, dynSteps w kind ld b t x = .ok z
  | 0, y, h, t, ht => by
    obtain rfl : t = 0 := by omega
    exact ⟨y, h⟩
  | n + 1, y, h, t, ht => by
    rcases Nat.lt_or_ge n t with h1 | h1
    · obtain rfl : t = n + 1 := by omega
      exact ⟨y, h⟩
    · obtain ⟨z, hz, _⟩ := bind_ok h
      exact dynSteps_prefix w kind ld b x n z hz t h1

theorem run_keeps {kind : LdKind} {c : LdCfg ℝ d} {normal : NormalOps R ℝ d} {s s' : LdState ℝ d R}
    (h : s.run kind c normal = .ok s') (m : ℝ) (hp : ∀ p ∈ s.particles, LdOk c p ∧ p.mass = m) :
    ∀ p ∈ s'.particles, LdOk c p ∧ p.mass = m := by
  intro p' hp'
  obtain ⟨p, h1, noise, h2⟩ := run_mem h p' hp'
  obtain ⟨_, k1, k2, k3⟩ := walkerStep_ok h2
  obtain ⟨q1, q2⟩ := hp p h1
  exact ⟨⟨k1, by rw [k2, k3, q1.2]⟩, by rw [k2, q2]⟩

theorem dynSteps_inv (w : World R) (hops : w.bdOps.Lawful) (kind : LdKind) (ld : LdCfg ℝ d)
    (b : Option (BdAct d)) (hb : ∀ x, b = some x → x.cfg.Lawful ∧ 0 < x.stride) (x : Dyn d R) (m : ℝ)
    (hx : ∀ p ∈ x.particles, LdOk ld p ∧ p.mass = m) : ∀ (n : Nat) (y : Dyn d R),
    dynSteps w kind ld b n x = .ok y →
      y.ldRng = drawState (w.normal d) (n * x.particles.length * kind.draws) x.ldRng ∧
      y.particles.length = x.particles.length ∧ ∀ p ∈ y.particles, LdOk ld p ∧ p.mass = m
  | 0, y, h => by
    cases h
    exact ⟨by simp [drawState], rfl, hx⟩
  | n + 1, y, h => by
    obtain ⟨z, hz, h⟩ := bind_ok h
    obtain ⟨h1, h2, h3⟩ := dynSteps_inv w hops kind ld b hb x m hx n z hz
    obtain ⟨u, hu, e1, _, ev, e2⟩ := dynStep_inv w hops kind ld b hb z y _ h
    obtain ⟨g1, g2, _⟩ := run_ok hu
    simp only at g1 g2
    refine ⟨?_, by rw [e2.length, g2, h2], fun p hp => run_keeps hu m h3 p (e2.mem p hp)⟩
    rw [e1, g1, h1, h2, ← drawState_add]
    congr 1
    rw [Nat.add_mul, Nat.add_mul, Nat.one_mul]
    omega

/-! ### Finished runs -/

variable {w : World R} {file : Option (List Section)} {a : AnySim R} {config : Input ℝ} {n : Nat}
  {s0 : Sim a.d R}

theorem finished_dynSteps (hr : FinishedRun w file a config n s0) (t : Nat) (ht : t ≤ n) :
    ∃ y, dynSteps w a.cfg.kind a.cfg.ld a.cfg.bd t s0.dyn = .ok y ∧ hr.path t = y.particles := by
  obtain ⟨u, hu, _⟩ := bind_ok hr.sim
  have h := runSteps_dyn w a.cfg n s0 u hr.setup.bdSome hu
  obtain ⟨y, hy⟩ := dynSteps_prefix w _ _ _ _ n _ h t ht
  refine ⟨y, hy, ?_⟩
  unfold FinishedRun.path walkersAt
  rw [hy]

theorem newParticle_ok (c : LdCfg ℝ d) (x : Fin d → ℝ) (m : ℝ) : LdOk c (newParticle c x m) := ⟨rfl, rfl⟩

theorem initParticles_ok {S : Type} (ops : InitRng R ℝ) (seeded : Option Int → Except PyErr R)
    (c : LdCfg ℝ d) (hev : ∀ x, c.pot.evaluate x = (c.pot.energy x, c.pot.force x)) (o : Dict (OptVal ℝ))
    (r : S) (s' : LdState ℝ d S) (h : initParticles pyTrunc ops seeded c o ⟨[], r⟩ = .ok s') :
    ∃ mass, FloatOpt o "mass" mass ∧ ∀ p ∈ s'.particles, LdOk c p ∧ p.mass = mass := by
  unfold initParticles at h
  obtain ⟨_, g1, h⟩ := bind_ok h
  obtain ⟨mass, f1, h⟩ := bind_ok h
  refine ⟨mass, floatOpt g1 f1, ?_⟩
  obtain ⟨_, _, h⟩ := bind_ok h
  obtain ⟨number, _, h⟩ := bind_ok h
  obtain ⟨dist, _, h⟩ := bind_ok h
  split at h
  · obtain ⟨_, _, h⟩ := bind_ok h
    obtain ⟨_, _, h⟩ := bind_ok h
    obtain ⟨r, _, h⟩ := bind_ok h
    rw [(initGlobal_inv ops c hev mass r number.toNat 0 _ s' (by simpa [uniformState] using h)).2.2]
    intro p hp
    rw [List.nil_append] at hp
    obtain ⟨i, _, rfl⟩ := List.mem_map.1 hp
    rw [← newParticle_atRest c hev]
    exact ⟨newParticle_ok _ _ _, rfl⟩
  · obtain ⟨_, _, h⟩ := bind_ok h
    obtain ⟨_, _, h⟩ := bind_ok h
    obtain ⟨r, _, h⟩ := bind_ok h
    obtain ⟨choices, _, h⟩ := bind_ok h
    rw [(initChoice_inv ops c hev mass choices r number.toNat 0 _ s' h).2.1]
    intro p hp
    rw [List.nil_append] at hp
    obtain ⟨i, _, rfl⟩ := List.mem_map.1 hp
    rw [← newParticle_atRest c hev]
    exact ⟨newParticle_ok _ _ _, rfl⟩
  · obtain ⟨_, _, h⟩ := bind_ok h
    obtain ⟨fractions, _, h⟩ := bind_ok h
    obtain ⟨_, _, h⟩ := bind_ok h
    obtain ⟨choices, _, h⟩ := bind_ok h
    unfold initFractions at h
    obtain ⟨counts, _, h⟩ := bind_ok h
    simp only at h
    split at h
    · cases h
    · rw [addAllCopies_inv c mass _ _ _ h]
      intro p hp
      simp only [List.nil_append, placed, List.mem_flatMap, List.mem_replicate] at hp
      obtain ⟨_, _, _, rfl⟩ := hp
      exact ⟨newParticle_ok _ _ _, rfl⟩
  · cases h
    simp

theorem finished_initial (hr : FinishedRun w file a config n s0) :
    ∃ mass, FloatOpt config.particles "mass" mass ∧ ∀ p ∈ s0.particles, LdOk a.cfg.ld p ∧ p.mass = mass := by
  obtain ⟨_, l, s, hl, _, e2, hs, e3, _⟩ := finished_required hr
  obtain ⟨_, h2, _⟩ := setupLd_inv w config.ld _ l hl
  rw [e2, h2] at hs
  rw [← e3]
  exact initParticles_ok _ _ _ (main_potential hr).eval _ _ _ hs

/-- What one successful step of a walker does, in terms of the options. -/
theorem finished_walkerStep (hr : FinishedRun w file a config n s0) (noise : Nat → Fin a.d → ℝ)
    (p p' : LdParticle ℝ a.d) (hp : LdOk a.cfg.ld p) (h : walkerStep a.cfg.kind a.cfg.ld noise p = .ok p') :
    (p'.pos, p'.mom) = langevinStep config.ld a.cfg.ld.pot.force
      (boundary (bcOf config.potential) a.cfg.ld.pot.ranges) p.mass noise (p.pos, p.mom) := by
  obtain ⟨k1, k2, _⟩ := main_constants hr
  have hev := (main_potential hr).eval
  simp only at hev
  rw [← main_bc hr]
  obtain ⟨ty, hty, hor⟩ := (input_valid 1 one_pos file config hr.parse).ld.type
  unfold langevinStep
  rcases hor with rfl | rfl
  · obtain ⟨dt, q1, q2, q3⟩ := k1 hty
    rw [if_neg (by rw [hty]; simp), show floatOf config.ld "timestep" = dt by rw [floatOf, q1]]
    rw [q2] at h
    exact overdamped_step a.cfg.ld.pot hev dt (noise 0) p p' (by rw [← q3]; exact hp) (by rw [← q3]; exact h)
  · obtain ⟨dt, fr, kt, q1, q2, q3, q4, q5⟩ := k2 hty
    rw [if_pos hty, show floatOf config.ld "timestep" = dt by rw [floatOf, q1],
      show floatOf config.ld "friction" = fr by rw [floatOf, q2], show floatOf config.ld "kt" = kt by rw [floatOf, q3]]
    rw [q4] at h
    exact bussi_step a.cfg.ld.pot hev dt fr kt (noise 0) (noise 1) p p' (by rw [← q5]; exact hp)
      (by rw [← q5]; exact h)

theorem finished_draws (hr : FinishedRun w file a config n s0) : a.cfg.kind.draws = vectorsPerStep config.ld := by
  obtain ⟨k1, k2, _⟩ := main_constants hr
  obtain ⟨ty, hty, hor⟩ := (input_valid 1 one_pos file config hr.parse).ld.type
  unfold vectorsPerStep
  rcases hor with rfl | rfl
  · obtain ⟨dt, q1, q2, q3⟩ := k1 hty
    rw [if_neg (by rw [hty]; simp), q2]
    rfl
  · obtain ⟨dt, fr, kt, q1, q2, q3, q4, q5⟩ := k2 hty
    rw [if_pos hty, q4]
    rfl

theorem finished_bdStride (hr : FinishedRun w file a config n s0) :
    (config.birthDeath = none → a.cfg.bd = none) ∧
    ∀ o b, config.birthDeath = some o → a.cfg.bd = some b → b.stride = natOption o "stride" 0 := by
  have h := (setupOptional_parts w config _ _ _ _ rfl rfl hr.optional).2.2.2.2.2.1
  refine ⟨fun hn => ?_, fun o b ho hb => ?_⟩
  · rw [hn] at h
    exact h.1
  · rw [ho] at h
    obtain ⟨z, hz, e1, _⟩ := h
    rw [hb] at e1
    cases e1
    obtain ⟨bw, hbw, hz⟩ := bind_ok hz
    obtain ⟨v, hvar, hz⟩ := bind_ok hz
    obtain ⟨i, hi, hpos⟩ := ((input_valid 1 one_pos file config hr.parse).birthDeath o ho).stride
    simp only [Dict.getItem, hi, ok_bind, OptVal.asOptStride] at hz
    obtain ⟨f, hf, hz⟩ := bind_ok hz
    obtain ⟨f', hf', hz⟩ := bind_ok hz
    obtain ⟨_, _, hz⟩ := bind_ok hz
    obtain ⟨_, _, hz⟩ := bind_ok hz
    obtain ⟨_, _, hz⟩ := bind_ok hz
    obtain ⟨_, _, hz⟩ := bind_ok hz
    obtain ⟨_, _, hz⟩ := bind_ok hz
    obtain ⟨_, _, hz⟩ := bind_ok hz
    obtain ⟨_, _, hz⟩ := bind_ok hz
    obtain ⟨_, _, hz⟩ := bind_ok hz
    cases hz
    simp [natOption, hi]

/-- C91: at every time the stored energies and forces of the walkers are those of the potential at their
positions, and the masses are that of the options. -/
theorem main_consistent (hr : FinishedRun w file a config n s0) (hops : w.bdOps.Lawful) (t : Nat) (ht : t ≤ n) :
    ∀ p ∈ hr.path t, p.energy = a.cfg.ld.pot.energy p.pos ∧ p.forces = a.cfg.ld.pot.force p.pos ∧
      FloatOpt config.particles "mass" p.mass := by
  obtain ⟨mass, hm, h0⟩ := finished_initial hr
  obtain ⟨y, hy, e⟩ := finished_dynSteps hr t ht
  obtain ⟨_, _, h⟩ := dynSteps_inv w hops _ _ _ hr.setup.bd s0.dyn mass h0 t y hy
  intro p hp
  rw [e] at hp
  obtain ⟨⟨h1, _⟩, h2⟩ := h p hp
  have hev := (main_potential hr).eval
  simp only at hev
  rw [Consistent, hev] at h1
  exact ⟨congrArg Prod.fst h1, congrArg Prod.snd h1, by rw [h2]; exact hm⟩

/-- C91: step `t + 1` of a finished run. Every walker does one step of the dynamics of the options with the next
random vectors of the generator; after that birth-death only replaces walkers by copies, and only if the step is
a multiple of its stride. -/
theorem main_step (hr : FinishedRun w file a config n s0) (hops : w.bdOps.Lawful) (t : Nat) (ht : t < n) :
    ∃ mass ys ev, FloatOpt config.particles "mass" mass ∧ ys.length = s0.particles.length ∧
      (∀ k p, (hr.path t)[k]? = some p → ∃ q, ys[k]? = some q ∧
        (q.pos, q.mom) = langevinStep config.ld a.cfg.ld.pot.force
          (boundary (bcOf config.potential) a.cfg.ld.pot.ranges) mass
          (fun j => draw (w.normal a.d) (seededBy w .ld config.ld)
            ((t * s0.particles.length + k) * vectorsPerStep config.ld + j)) (p.pos, p.mom)) ∧
      CopyMoves ev ys (hr.path (t + 1)) ∧
      ((∀ o, config.birthDeath = some o → ¬ natOption o "stride" 0 ∣ t + 1) → hr.path (t + 1) = ys) := by
  obtain ⟨mass, hm, h0⟩ := finished_initial hr
  obtain ⟨y', hy', e'⟩ := finished_dynSteps hr (t + 1) ht
  obtain ⟨y, hy, e⟩ := finished_dynSteps hr t (by omega)
  obtain ⟨h1, h2, h3⟩ := dynSteps_inv w hops _ _ _ hr.setup.bd s0.dyn mass h0 t y hy
  obtain ⟨z, hz, hstep⟩ := bind_ok hy'
  rw [hy] at hz
  cases hz
  obtain ⟨u, hu, _, g2, ev, g3⟩ := dynStep_inv w hops _ _ _ hr.setup.bd _ _ _ hstep
  obtain ⟨q1, q2, q3⟩ := run_ok hu
  simp only at q1 q2 q3
  have hN : s0.dyn.particles.length = s0.particles.length := rfl
  have hg : s0.dyn.ldRng = seededBy w .ld config.ld := main_generator hr
  refine ⟨mass, u.particles, ev, hm, by rw [q2, h2, hN], ?_, by rw [e']; exact g3, ?_⟩
  · intro k p hp
    rw [e] at hp
    obtain ⟨q, k1, k2⟩ := q3 k p hp
    obtain ⟨ok, hmass⟩ := h3 p (List.mem_of_getElem? hp)
    have := finished_walkerStep hr _ p q ok k2
    refine ⟨q, k1, ?_⟩
    rw [this, hmass]
    congr 1
    funext j
    rw [h1, hN, hg, ← finished_draws hr, draw, draw, ← drawState_add]
    congr 3
    rw [Nat.add_mul]
    omega
  · intro ho
    rw [e']
    refine g2 (fun c hc => ?_)
    obtain ⟨b1, b2⟩ := finished_bdStride hr
    cases hb : config.birthDeath with
    | none => rw [b1 hb] at hc; cases hc
    | some o =>
      rw [b2 o c hb hc]
      exact ho o hb

/-- C91: without birth-death walker `k` of `N` follows its own path: in step `t` it uses the random vectors
number `(t N + k) q + j` of the generator. -/
theorem main_path (hr : FinishedRun w file a config n s0) (hops : w.bdOps.Lawful)
    (hb : config.birthDeath = none) (mass : ℝ) (hm : FloatOpt config.particles "mass" mass) (k : Nat)
    (p : LdParticle ℝ a.d) (hp : s0.particles[k]? = some p) : ∀ t ≤ n, ∃ q, (hr.path t)[k]? = some q ∧
      (q.pos, q.mom) = langevinPath config.ld a.cfg.ld.pot.force
        (boundary (bcOf config.potential) a.cfg.ld.pot.ranges) mass
        (fun i j => draw (w.normal a.d) (seededBy w .ld config.ld)
          ((i * s0.particles.length + k) * vectorsPerStep config.ld + j)) t (p.pos, p.mom)
  | 0, _ => ⟨p, by
      obtain ⟨y, hy, e⟩ := finished_dynSteps hr 0 (Nat.zero_le _)
      cases hy
      rw [e]
      exact hp, rfl⟩
  | t + 1, ht => by
    obtain ⟨q, h1, h2⟩ := main_path hr hops hb mass hm k p hp t (by omega)
    obtain ⟨mass', ys, ev, hm', _, h3, _, h4⟩ := main_step hr hops t ht
    rw [FloatOpt] at hm hm'
    rw [hm] at hm'
    cases hm'
    obtain ⟨q', h5, h6⟩ := h3 k q h1
    refine ⟨q', ?_, ?_⟩
    · rw [h4 (fun o ho => by rw [hb] at ho; cases ho)]
      exact h5
    · rw [h6, h2]
      rfl

end Bdld
