import Verif.Props.MainAnalysis
import Verif.Props.MainDemoFes

/-
The theorems about the results of the whole program for concrete input files, and counterexamples.
-/

namespace Bdld

open Spec

/-- The input of the example with analysis. -/
noncomputable def demoInputFes (v : ℝ) : Input ℝ :=
  { ld := demoLdOpts, potential := demoPotOpts, particles := demoPartOpts, trajectories := some demoTraj1Opts,
    histogram := some demoHistOpts, fes := some (demoFesOpts v), deltaF := some demoStateOpts,
    particleDistribution := some demoStateOpts }

/-- The finished run of the example with analysis. -/
theorem demo_run (kt : String) (v : ℝ)
    (h : parseSection demoConv (demoFes kt) fesOptions = .ok (demoFesOpts v)) : ∃ s hist s0,
      FinishedRun (demoWorld true) (some (demoFileFes kt)) ⟨1, demoSimCfg, s⟩ (demoInputFes v) 1 s0 ∧
      s0.particles = [demoWalker 1, demoWalker 2] ∧ s.hist = some hist ∧ hist.counts = ⟨[2], [1, 4]⟩ := by
  obtain ⟨s, hist, hm, hh, hc⟩ := demo_main_fes true kt v h
  obtain ⟨config, n, s0, hr⟩ := main_run _ _ _ hm
  have hp := hr.parse
  rw [show (demoWorld true).conv = demoConv from rfl, demo_parse_fes kt v h] at hp
  cases hp
  have hn : n = 1 := by
    have h1 : demoLdOpts.get? "n_steps" = some (.base (.int 1)) := rfl
    have h2 := hr.steps
    have h3 : (some (.base (.int 1)) : Option (OptVal ℝ)) = some (.base (.int n)) := h1.symm.trans h2
    simp only [Option.some.injEq, OptVal.base.injEq, BaseVal.int.injEq] at h3
    omega
  subst hn
  refine ⟨s, hist, s0, hr, ?_, hh, hc⟩
  have h1 := hr.required
  rw [demo_required true _ rfl rfl rfl] at h1
  simp only [Except.ok.injEq, AnySim.mk.injEq, heq_eq_eq, true_and, Sim.mk.injEq] at h1
  exact h1.2.1.symm

/-- C67, negation: the thermal energy given in `[fes]` is not used. With `kt = 2` in `[fes]` and overdamped dynamics
the counts 1 and 4 give the free energies `ln 4` and 0. -/
theorem main_fes_kt_false : ¬ ∀ (R : Type) (w : World R) (file : Option (List Section)) (a : AnySim R)
    (config : Input ℝ) (n : Nat) (s0 : Sim a.d R), FinishedRun w file a config n s0 →
    ∀ (o : Dict (OptVal ℝ)) (kt : ℝ) (h : Histogram ℝ), config.fes = some o →
      o.get? "kt" = some (.base (.float kt)) → a.sim.hist = some h →
      a.sim.fes = some (h.counts.map (freeEnergy kt (maxCount h.counts.flat))) := by
  intro H
  obtain ⟨s, hist, s0, hr, _, hh, hc⟩ := demo_run "2" 2 demo_parseFes2
  have h2 := H _ _ _ _ _ _ _ hr (demoFesOpts 2) 2 hist rfl rfl hh
  obtain ⟨h, hh', h1⟩ := main_fes hr (demoFesOpts 2) rfl
  have e : h = hist := Option.some.inj (hh'.symm.trans hh)
  subst e
  rw [h1, hc] at h2
  have h3 : demoSimCfg.ld.kt = 1 := rfl
  simp only [h3, Nd.map, Option.some.injEq, Nd.mk.injEq, List.map_cons, true_and, List.cons.injEq] at h2
  have h4 := h2.1
  have hm : maxCount [1, 4] = 4 := rfl
  rw [hm, freeEnergy, freeEnergy, if_neg (by decide), if_neg (by decide), WithTop.coe_inj] at h4
  have : Real.log 4 > 0 := Real.log_pos (by norm_num)
  norm_num at h4

/-- `main_fes_kt_partial` for the example with `kt = 1`. -/
example : ∃ s h, (s : Sim 1 Bool).hist = some h ∧ h.counts = ⟨[2], [1, 4]⟩ ∧
    s.fes = some (h.counts.map (freeEnergy 1 (maxCount h.counts.flat))) := by
  obtain ⟨s, hist, s0, hr, _, hh, hc⟩ := demo_run "1" 1 demo_parseFes1
  obtain ⟨h, h1, h2⟩ := main_fes_kt_partial hr (demoFesOpts 1) rfl 1 rfl (Or.inr ⟨rfl, rfl⟩)
  have e : h = hist := Option.some.inj (h1.symm.trans hh)
  subst e
  exact ⟨s, h, h1, hc, h2⟩

/-- `main_walkers`, `main_histogram` and `main_distribution` for the example; without file names there are no
trajectory files and no files of time series. -/
example : ∃ a config n s0, ∃ hr : FinishedRun (demoWorld true) (some (demoFileFes "1")) a config n s0,
    a.sim.particles = hr.path n ∧ a.sim.particles.length = 2 ∧ (∃ h, a.sim.hist = some h ∧ h.bins.length = a.d ∧
      ∀ idx, h.data idx = countInBin h.bins idx [List.replicate a.d 0] +
        countInBin h.bins idx (positionsAt hr.snaps [1, 1])) ∧
    (∃ x, a.sim.traj = some x ∧ x.files = none) ∧ ∃ x, a.sim.dist = some x ∧ x.file = [] := by
  obtain ⟨s, hist, s0, hr, hp, hh, hc⟩ := demo_run "1" 1 demo_parseFes1
  have hl : 0 < s0.particles.length := by rw [hp]; exact Nat.succ_pos _
  obtain ⟨h1, h2⟩ := main_walkers hr demoBdOps_lawful
  obtain ⟨h, h3, h4, h5⟩ := main_histogram hr demoBdOps_lawful demoTraj1Opts demoHistOpts rfl rfl rfl hl
  obtain ⟨x, h6, h7⟩ := main_trajectories hr demoBdOps_lawful demoTraj1Opts rfl
  obtain ⟨y, h8, h9⟩ := main_distribution hr demoBdOps_lawful demoStateOpts rfl _ demo_states (by simp) hl
  exact ⟨_, _, _, _, hr, h1, by rw [h2, hp]; rfl, ⟨h, h3, h4, fun idx => by rw [h5]; rfl⟩, ⟨x, h6, by rw [h7]; rfl⟩,
    y, h8, by rw [h9]; rfl⟩

end Bdld
