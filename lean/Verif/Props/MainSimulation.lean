import Verif.Props.MainBirthDeath

/-
C93: the whole simulation of a finished run is the one described by the options (`Spec.runPath`).
-/

set_option linter.unusedSectionVars false

namespace Bdld

open Spec

variable {R : Type} {w : World R} {file : Option (List Section)} {a : AnySim R} {config : Input ℝ} {n : Nat}
  {s0 : Sim a.d R}

/-- What the walkers of a run feel. -/
noncomputable def physicsOf (a : AnySim R) (config : Input ℝ) (corr : (Fin a.d → ℝ) → ℝ) : Physics a.d where
  energy := a.cfg.ld.pot.energy
  force := a.cfg.ld.pot.force
  bound := boundary (bcOf config.potential) a.cfg.ld.pot.ranges
  mass := floatOf config.particles "mass"
  correction := corr

theorem finished_ld (hr : FinishedRun w file a config n s0) :
    a.cfg.ld.kt = ktOf config.ld ∧ a.cfg.ld.dt = floatOf config.ld "timestep" := by
  obtain ⟨k1, k2, _⟩ := main_constants hr
  obtain ⟨ty, hty, hor⟩ := (input_valid 1 one_pos file config hr.parse).ld.type
  unfold ktOf
  rcases hor with rfl | rfl
  · obtain ⟨dt, q1, _, q3⟩ := k1 hty
    rw [if_neg (by rw [hty]; simp), q3]
    exact ⟨rfl, by rw [floatOf, q1]; rfl⟩
  · obtain ⟨dt, fr, kt, q1, _, q3, _, q5⟩ := k2 hty
    rw [if_pos hty, q5]
    exact ⟨by rw [floatOf, q3]; rfl, by rw [floatOf, q1]; rfl⟩

/-- The birth-death action of a finished run. -/
theorem finished_bd (hr : FinishedRun w file a config n s0) :
    (config.birthDeath = none → a.cfg.bd = none ∧ s0.bd = none) ∧
    ∀ o, config.birthDeath = some o → ∃ b z corr, a.cfg.bd = some b ∧ s0.bd = some z ∧
      BdFacts w a.cfg.ld o b z corr := by
  have h := (setupOptional_parts w config _ _ _ _ rfl rfl hr.optional).2.2.2.2.2.1
  refine ⟨fun hn => ?_, fun o ho => ?_⟩
  · rw [hn] at h
    exact h
  · rw [ho] at h
    obtain ⟨⟨b, z⟩, hz, e1, e2⟩ := h
    obtain ⟨corr, hc⟩ := setupBirthDeath_facts w _ o _ b z
      ((input_valid 1 one_pos file config hr.parse).birthDeath o ho) hz
    exact ⟨b, z, corr, e1, e2, hc⟩

/-- The Langevin part of step `t + 1`. -/
theorem finished_moveAll (hr : FinishedRun w file a config n s0) (corr : (Fin a.d → ℝ) → ℝ) (t : Nat)
    (x : Dyn a.d R) (z : LdState ℝ a.d R)
    (hx : ∀ p ∈ x.particles, LdOk a.cfg.ld p ∧ p.mass = floatOf config.particles "mass")
    (hrng : x.ldRng = drawState (w.normal a.d) (t * x.particles.length * a.cfg.kind.draws) (seededBy w .ld config.ld))
    (h : LdState.run a.cfg.kind a.cfg.ld (w.normal a.d) ⟨x.particles, x.ldRng⟩ = .ok z) :
    z.particles.map phaseOf = moveAll config.ld (physicsOf a config corr)
      (draw (w.normal a.d) (seededBy w .ld config.ld)) t (x.particles.map phaseOf) := by
  obtain ⟨q1, q2, q3⟩ := run_ok h
  simp only at q1 q2 q3
  apply List.ext_getElem?
  intro k
  unfold moveAll
  rw [List.getElem?_map, List.getElem?_mapIdx, List.getElem?_map]
  cases hp : x.particles[k]? with
  | none =>
    have : z.particles[k]? = none := by
      rw [List.getElem?_eq_none_iff] at hp ⊢
      omega
    rw [this]
    rfl
  | some p =>
    obtain ⟨q, k1, k2⟩ := q3 k p hp
    obtain ⟨ok, hmass⟩ := hx p (List.mem_of_getElem? hp)
    have := finished_walkerStep hr _ p q ok k2
    rw [k1]
    simp only [Option.map_some, phaseOf, List.length_map]
    rw [this, hmass]
    simp only [physicsOf]
    congr 2
    funext j
    rw [hrng, ← finished_draws hr, draw, draw, ← drawState_add]
    congr 3
    rw [Nat.add_mul]
    omega

/-- The random numbers of birth-death are positive wherever this matters: in the recalculating mode. -/
def PositiveNumbers {d : Nat} (w : World R) (config : Input ℝ) (ph : Physics d) (start : List (Phase d)) (n : Nat) : Prop :=
  ∀ o, config.birthDeath = some o → flagOption o "recalculate-probabilities" = true → ∀ t < n,
    ∀ u ∈ (w.bdOps.random start.length (runPath w config ph start t).rng).1, 0 < u

/-- The reports during the first `t` steps. -/
noncomputable def reportsUpTo (o : Dict (OptVal ℝ)) {d : Nat} (path : Nat → RunState d R) (t : Nat) : BdLog :=
  (((List.range t).map (· + 1)).filter (fun i => decide (natOption o "stats-stride" 0 ≠ 0 ∧ natOption o "stats-stride" 0 ∣ i))).map
    (fun i => (i, (path i).counts))

theorem dyn_runPath (hr : FinishedRun w file a config n s0) (hops : w.bdOps.Lawful) (corr : (Fin a.d → ℝ) → ℝ)
    (hcorr : ∀ o b z, config.birthDeath = some o → a.cfg.bd = some b → s0.bd = some z → BdFacts w a.cfg.ld o b z corr)
    (hu : PositiveNumbers w config (physicsOf a config corr) (s0.particles.map phaseOf) n) :
    ∀ (t : Nat) (y : Dyn a.d R), t ≤ n → dynSteps w a.cfg.kind a.cfg.ld a.cfg.bd t s0.dyn = .ok y →
      y.particles.map phaseOf = (runPath w config (physicsOf a config corr) (s0.particles.map phaseOf) t).walkers ∧
      ∀ o, config.birthDeath = some o → ∃ z, y.bd = some z ∧
        z.rng = (runPath w config (physicsOf a config corr) (s0.particles.map phaseOf) t).rng ∧
        z.stats = (runPath w config (physicsOf a config corr) (s0.particles.map phaseOf) t).counts ∧
        z.log = reportsUpTo o (runPath w config (physicsOf a config corr) (s0.particles.map phaseOf)) t
  | 0, y, _, h => by
    cases h
    refine ⟨rfl, fun o ho => ?_⟩
    obtain ⟨b, z, _, e1, e2, _⟩ := (finished_bd hr).2 o ho
    have hf := hcorr o b z ho e1 e2
    refine ⟨z, e2, ?_, hf.stats, by rw [hf.log]; rfl⟩
    rw [hf.rng, runPath, ho]
    rfl
  | t + 1, y, ht, h => by
    obtain ⟨x, hx, h⟩ := bind_ok h
    obtain ⟨i1, i2⟩ := dyn_runPath hr hops corr hcorr hu t x (by omega) hx
    obtain ⟨mass, hm, h0⟩ := finished_initial hr
    have hmass : floatOf config.particles "mass" = mass := by
      rw [floatOf, hm]
    obtain ⟨h1, h2, h3⟩ := dynSteps_inv w hops _ _ _ hr.setup.bd s0.dyn mass h0 t x hx
    obtain ⟨u, hu', h⟩ := bind_ok h
    have hmove := finished_moveAll hr corr t x u (by rw [hmass]; exact h3)
      (by rw [h1, h2, show s0.dyn.ldRng = seededBy w .ld config.ld from main_generator hr]) hu'
    rw [i1] at hmove
    have hul : u.particles.length = s0.particles.length := by
      rw [(run_ok hu').2.1]
      exact h2
    cases hb : config.birthDeath with
    | none =>
      obtain ⟨e1, e2⟩ := (finished_bd hr).1 hb
      rw [e1] at h
      simp only at h
      cases h
      refine ⟨?_, fun o ho => by cases ho⟩
      rw [runPath, hb]
      exact hmove
    | some o =>
      obtain ⟨b, z0, _, e1, e2, _⟩ := (finished_bd hr).2 o hb
      have hf := hcorr o b z0 hb e1 e2
      obtain ⟨z, j1, j2, j3, j4⟩ := i2 o hb
      rw [e1, j1] at h
      simp only at h
      obtain ⟨v, hv, h⟩ := bind_ok h
      cases h
      unfold bdRun at hv
      rw [if_neg (by have := hf.stridePos; omega)] at hv
      obtain ⟨st, hst, hv⟩ := bind_ok hv
      cases hv
      have hmain : (⟨st.particles.map phaseOf, st.rng, st.stats⟩ : RunState a.d R) =
          runPath w config (physicsOf a config corr) (s0.particles.map phaseOf) (t + 1) := by
        rw [runPath, hb]
        simp only
        rw [← hmove, ← j2, ← j3, ← hf.stride]
        by_cases hd : b.stride ∣ t + 1
        · rw [if_pos hd]
          rw [if_pos (Nat.mod_eq_zero_of_dvd hd)] at hst
          cases hbd : doBirthDeath b.cfg w.bdOps ⟨u.particles, z.rng, z.stats⟩ with
          | error e => rw [hbd] at hst; cases hst
          | ok r =>
            rw [hbd] at hst
            cases hst
            refine birthDeath_step hf config.ld (finished_ld hr).1 (finished_ld hr).2 (physicsOf a config corr) rfl
              hops (ev := r.1) ?_ ?_ hbd
            · intro p hp
              have hev := (main_potential hr).eval
              have h4 := (run_keeps hu' mass h3 p hp).1.1
              simp only at hev
              rw [Consistent, hev] at h4
              exact congrArg Prod.fst h4
            · intro hrc
              have := hu o hb hrc t (by omega)
              rw [List.length_map, ← hul, ← j2] at this
              exact this
        · rw [if_neg hd]
          rw [if_neg (fun h => hd (Nat.dvd_of_mod_eq_zero h))] at hst
          cases hst
          rfl
      refine ⟨congrArg RunState.walkers hmain, fun o' ho' => ?_⟩
      obtain rfl : o = o' := Option.some.inj ho'
      refine ⟨_, rfl, congrArg RunState.rng hmain, congrArg RunState.counts hmain, ?_⟩
      have hc : st.stats = _ := congrArg RunState.counts hmain
      simp only
      rw [j4, hc]
      unfold reportsUpTo
      rw [List.range_succ, List.map_append, List.filter_append, List.map_append]
      have hss := hf.statsStride
      have hsp := hf.statsPos
      have hnat : natOption o "stats-stride" 0 = b.statsStride.getD 0 := by
        rw [hss]
        unfold natOption
        split <;> simp_all
      rw [hnat]
      cases hs : b.statsStride with
      | none => simp [truthyNat]
      | some k =>
        have hk := hsp k hs
        obtain ⟨k, rfl⟩ : ∃ j, k = j + 1 := ⟨k - 1, by omega⟩
        by_cases hd : k + 1 ∣ t + 1
        · simp [truthyNat, Nat.mod_eq_zero_of_dvd hd, hd]
        · have : ¬ (t + 1) % (k + 1) = 0 := fun h => hd (Nat.dvd_of_mod_eq_zero h)
          simp [truthyNat, this, hd]

theorem IsCorrection.unique {d : Nat} {c : LdCfg ℝ d} {o : Dict (OptVal ℝ)} {f g : (Fin d → ℝ) → ℝ}
    (hf : IsCorrection w c o f) (hg : IsCorrection w c o g) : f = g := by
  obtain ⟨x, hx, rfl⟩ := hf
  obtain ⟨y, hy, rfl⟩ := hg
  rw [hx] at hy
  cases hy
  rfl

/-- C92: the constants of the birth-death action of a finished run are those of the options: bandwidth, temperature,
variant, time between two steps, rate factor, mode, strides and generator. -/
theorem main_birthDeath (hr : FinishedRun w file a config n s0) (o : Dict (OptVal ℝ))
    (ho : config.birthDeath = some o) : ∃ b z corr, a.cfg.bd = some b ∧ s0.bd = some z ∧
      BdFacts w a.cfg.ld o b z corr ∧ a.cfg.ld.kt = ktOf config.ld ∧ a.cfg.ld.dt = floatOf config.ld "timestep" := by
  obtain ⟨b, z, corr, h1, h2, h3⟩ := (finished_bd hr).2 o ho
  exact ⟨b, z, corr, h1, h2, h3, finished_ld hr⟩

/-- The correction of the chosen variant exists. -/
theorem main_correction (hr : FinishedRun w file a config n s0) :
    ∃ corr, ∀ o, config.birthDeath = some o → IsCorrection w a.cfg.ld o corr := by
  cases hb : config.birthDeath with
  | none => exact ⟨fun _ => 0, fun o ho => by cases ho⟩
  | some o =>
    obtain ⟨b, z, corr, _, _, h3⟩ := (finished_bd hr).2 o hb
    exact ⟨corr, fun o' ho' => by cases ho'; exact h3.correction⟩

theorem finished_runPath (hr : FinishedRun w file a config n s0) (hops : w.bdOps.Lawful) (corr : (Fin a.d → ℝ) → ℝ)
    (hcorr : ∀ o, config.birthDeath = some o → IsCorrection w a.cfg.ld o corr)
    (hu : PositiveNumbers w config (physicsOf a config corr) (s0.particles.map phaseOf) n)
    (t : Nat) (y : Dyn a.d R) (ht : t ≤ n) (h : dynSteps w a.cfg.kind a.cfg.ld a.cfg.bd t s0.dyn = .ok y) :
      y.particles.map phaseOf = (runPath w config (physicsOf a config corr) (s0.particles.map phaseOf) t).walkers ∧
      ∀ o, config.birthDeath = some o → ∃ z, y.bd = some z ∧
        z.rng = (runPath w config (physicsOf a config corr) (s0.particles.map phaseOf) t).rng ∧
        z.stats = (runPath w config (physicsOf a config corr) (s0.particles.map phaseOf) t).counts ∧
        z.log = reportsUpTo o (runPath w config (physicsOf a config corr) (s0.particles.map phaseOf)) t := by
  refine dyn_runPath hr hops corr (fun o b z ho e1 e2 => ?_) hu t y ht h
  obtain ⟨b', z', corr', e1', e2', hf⟩ := (finished_bd hr).2 o ho
  rw [e1] at e1'
  rw [e2] at e2'
  cases e1'
  cases e2'
  rw [(hcorr o ho).unique hf.correction]
  exact hf

/-- C93: positions and momenta of the walkers of a finished run after every step are those of the simulation described
by the options. In the recalculating mode the random numbers are supposed to be positive (a zero makes the loop use
undefined or stale indices, see `bd_total_recalc_false`). -/
theorem main_simulation (hr : FinishedRun w file a config n s0) (hops : w.bdOps.Lawful)
    (corr : (Fin a.d → ℝ) → ℝ) (hcorr : ∀ o, config.birthDeath = some o → IsCorrection w a.cfg.ld o corr)
    (hu : PositiveNumbers w config (physicsOf a config corr) (s0.particles.map phaseOf) n) (t : Nat) (ht : t ≤ n) :
    (hr.path t).map phaseOf =
      (runPath w config (physicsOf a config corr) (s0.particles.map phaseOf) t).walkers := by
  obtain ⟨y, hy, e⟩ := finished_dynSteps hr t ht
  rw [e]
  exact (finished_runPath hr hops corr hcorr hu t y ht hy).1

/-- C93: the statistics which are printed are the counters of that simulation at the multiples of `stats-stride`, or
at the end if there is none. -/
theorem main_report (hr : FinishedRun w file a config n s0) (hops : w.bdOps.Lawful)
    (corr : (Fin a.d → ℝ) → ℝ) (hcorr : ∀ o, config.birthDeath = some o → IsCorrection w a.cfg.ld o corr)
    (hu : PositiveNumbers w config (physicsOf a config corr) (s0.particles.map phaseOf) n)
    (o : Dict (OptVal ℝ)) (ho : config.birthDeath = some o) : ∃ z, a.sim.bd = some z ∧
      z.stats = (runPath w config (physicsOf a config corr) (s0.particles.map phaseOf) n).counts ∧
      z.log = (reportSteps o n).map (fun t =>
        (t, (runPath w config (physicsOf a config corr) (s0.particles.map phaseOf) t).counts)) := by
  obtain ⟨u, hu', h⟩ := bind_ok hr.sim
  have h1 := runSteps_dyn w a.cfg n s0 u hr.setup.bdSome hu'
  have h2 := final_dyn a.cfg n u a.sim h
  obtain ⟨z, k1, k2, k3, k4⟩ := (finished_runPath hr hops corr hcorr hu n u.dyn (le_refl n) h1).2 o ho
  obtain ⟨b, z0, corr', e1, _, hf⟩ := (finished_bd hr).2 o ho
  rw [e1] at h2
  unfold dynFinal at h2
  rw [k1] at h2
  have h3 := congrArg Dyn.bd h2
  simp only at h3
  refine ⟨_, h3, k3, ?_⟩
  have hss := hf.statsStride
  have hsp := hf.statsPos
  have hnat : natOption o "stats-stride" 0 = b.statsStride.getD 0 := by
    rw [hss]
    unfold natOption
    split <;> simp_all
  simp only [k4, k3, reportSteps, reportsUpTo, hnat]
  cases hs : b.statsStride with
  | none => simp [truthyNat]
  | some k =>
    have hk := hsp k hs
    obtain ⟨k, rfl⟩ : ∃ j, k = j + 1 := ⟨k - 1, by omega⟩
    simp [truthyNat]

end Bdld
