import Verif.Props.MainSimulation
import Verif.Props.MainDemo
import Verif.Props.MainOutput

/-
C92, C93 for a concrete run: the file `demoFile "1"`, two walkers at 1 and 2 in a constant potential. All random
numbers of birth-death are 0, therefore all events are accepted.
-/

namespace Bdld

open Spec

noncomputable section

def demoBdInput : Input ℝ :=
  { ld := demoLdOpts, potential := demoPotOpts, particles := demoPartOpts, birthDeath := some (demoBdOpts 1) }

theorem demo_bd_run : ∃ (s : Sim 1 Bool) (s0 : Sim 1 Bool), FinishedRun (demoWorld false) (some (demoFile "1"))
      ⟨1, { kind := .overdamped, ld := demoLdCfg, bd := some demoBdAct }, s⟩ demoBdInput 1 s0 ∧
    s0.particles = [demoWalker 1, demoWalker 2] := by
  obtain ⟨st, z, h⟩ := demo_bd_all (demoWalker 1) (demoWalker 2) ⟨0, 0, 0, 0⟩ []
  have h := demo_main false "1" 1 true true [z, z] st demo_parseBd1 rfl h
  obtain ⟨config, n, s0, hr⟩ := main_run _ _ _ h
  have hp' := hr.parse
  rw [show parseAll 1 (demoWorld false).conv (some (demoFile "1")) = .ok demoBdInput from
    demo_parse "1" 1 demo_parseBd1] at hp'
  cases hp'
  have hn : n = 1 := by
    have h1 : demoLdOpts.get? "n_steps" = some (.base (.int 1)) := rfl
    have h3 : (some (.base (.int 1)) : Option (OptVal ℝ)) = some (.base (.int n)) := h1.symm.trans hr.steps
    simp only [Option.some.injEq, OptVal.base.injEq, BaseVal.int.injEq] at h3
    omega
  subst hn
  have h1 := hr.required
  rw [demo_required false demoBdInput rfl rfl rfl] at h1
  simp only [Except.ok.injEq, AnySim.mk.injEq, heq_eq_eq, true_and, Sim.mk.injEq] at h1
  exact ⟨_, s0, hr, h1.1.symm⟩

/-- Two walkers with the same energy have the same rate, 0. -/
theorem rateOf_two (ld o : Dict (OptVal ℝ)) (ph : Physics 1) (x y : Phase 1) (hv : variantOf o = .orig)
    (he : ph.energy x.1 = ph.energy y.1) (i : Nat) : rateOf ld o ph [x, y] i = 0 := by
  have hk (bw : Fin 1 → ℝ) : kernel bw (x.1 - y.1) = kernel bw (y.1 - x.1) := by
    unfold kernel normalPdf
    refine Finset.prod_congr rfl (fun k _ => ?_)
    rw [Pi.sub_apply, Pi.sub_apply, ← neg_sub (y.1 k) (x.1 k), neg_sq]
  have hd (bw : Fin 1 → ℝ) : kde bw (fun j : Fin 2 => ([x, y].get j).1) x.1 =
      kde bw (fun j : Fin 2 => ([x, y].get j).1) y.1 := by
    simp only [kde, Fin.sum_univ_two]
    have := hk bw
    simp only [List.get_eq_getElem, Fin.val_zero, Fin.val_one, List.getElem_cons_zero, List.getElem_cons_succ, sub_self, this]
    rw [add_comm]
  have hc : ∀ (v : Fin 2 → ℝ), v 0 = v 1 → ∀ i, centred v i = 0 := by
    intro v h i
    fin_cases i <;> simp [centred, Fin.sum_univ_two, h]
  unfold rateOf
  split
  · rename_i h
    simp only [hv, reduceCtorEq, if_false, add_zero]
    refine hc _ ?_ ⟨i, h⟩
    have h1 := hd (fun k => bandwidthOf o k)
    simp only [List.get_eq_getElem, Fin.val_zero, Fin.val_one, List.getElem_cons_zero, List.getElem_cons_succ, he] at h1 ⊢
    exact congrArg (fun a => Real.log a + ph.energy y.1 / ktOf ld) h1
  · rfl

theorem demo_runPath (ph : Physics 1) (hb : ph.bound = fun x => x) (he : ∀ x y, ph.energy x = ph.energy y) :
    runPath (demoWorld false) demoBdInput ph ([demoWalker 1, demoWalker 2].map phaseOf) 1 =
      ⟨[phaseOf (demoWalker 1), phaseOf (demoWalker 1)], true, ⟨1, 2, 0, 0⟩⟩ := by
  have hm : ∀ (st : Nat → Fin 1 → ℝ) (xs : List (Phase 1)), moveAll demoLdOpts ph st 0 xs = xs := by
    intro st xs
    have h1 : ¬ demoLdOpts.get? "type" = some (.base (.str "bussi-parinello")) := by
      rw [show demoLdOpts.get? "type" = some (.base (.str "overdamped")) from rfl]; simp
    have h2 : floatOf demoLdOpts "timestep" = 0 := rfl
    unfold moveAll
    simp [langevinStep, if_neg h1, h2, eulerStep, hb]
    apply List.ext_getElem? 
    intro i
    simp
  have hrate : ∀ i, rateOf demoLdOpts (demoBdOpts 1) ph [phaseOf (demoWalker 1), phaseOf (demoWalker 2)] i = 0 :=
    rateOf_two _ _ _ _ _ rfl (he _ _)
  have hprob : eventProb demoLdOpts (demoBdOpts 1) 0 = 0 := by simp [eventProb]
  have hflag : flagOption (demoBdOpts 1) "recalculate-probabilities" = false := rfl
  have hgen : bdGenerator (demoWorld false) (demoBdOpts 1) = true := rfl
  have hst : natOption (demoBdOpts 1) "stride" 0 = 1 := rfl
  have e1 : demoBdInput.ld = demoLdOpts := rfl
  have e2 : demoBdInput.birthDeath = some (demoBdOpts 1) := rfl
  simp only [runPath, e1, e2, Option.getD_some, hm, hst, hgen, birthDeathStep, List.map_cons, List.map_nil,
    hflag, hrate, hprob]
  simp [demoWorld, demoBdOps, List.range, List.range.loop, bulkEvents, otherWalker, copyWalker, afterInts, bulkCounts]

/-- C93 for the example: walker 0 is duplicated onto walker 1, nothing else happens, and this is what is reported. -/
theorem demo_bd_log : ∃ a : AnySim Bool, mainProgram (demoWorld false) (some (demoFile "1")) = .finished a ∧
    a.sim.particles.map (fun p => List.ofFn p.pos) = [[1], [1]] ∧
    ∃ z, a.sim.bd = some z ∧ z.log = [(1, ⟨1, 2, 0, 0⟩)] := by
  obtain ⟨s, s0, hr, h0⟩ := demo_bd_run
  refine ⟨_, hr.finished, ?_⟩
  obtain ⟨corr, hcorr⟩ := main_correction hr
  have hu : PositiveNumbers (demoWorld false) demoBdInput (physicsOf (⟨1, { kind := .overdamped, ld := demoLdCfg, bd := some demoBdAct }, s⟩ : AnySim Bool)
      demoBdInput corr) (s0.particles.map phaseOf) 1 := by
    intro o ho hf
    cases ho
    simp [flagOption, demoBdOpts, Dict.get?, List.lookup] at hf
  have h1 := main_simulation hr demoBdOps_lawful corr hcorr hu 1 (le_refl 1)
  obtain ⟨z, h2, _, h3⟩ := main_report hr demoBdOps_lawful corr hcorr hu _ rfl
  obtain ⟨h4, _⟩ := main_walkers hr demoBdOps_lawful
  rw [← h4] at h1
  generalize hph : physicsOf _ demoBdInput corr = ph at h1 h3
  have hpath : runPath (demoWorld false) demoBdInput ph (s0.particles.map phaseOf) 1 =
      ⟨[phaseOf (demoWalker 1), phaseOf (demoWalker 1)], true, ⟨1, 2, 0, 0⟩⟩ := by
    have hb : ph.bound = fun x => x := by
      rw [← hph]
      funext x
      simp only [physicsOf]
      have : bcOf demoBdInput.potential = none := rfl
      rw [this]
      rfl
    have he : ∀ x y, ph.energy x = ph.energy y := by
      rw [← hph]
      intro x y
      simp [physicsOf, demoLdCfg, overdampedCfg, demoPotential, polyEnergy, coeffs1d, polyvalNd, horner]
    rw [h0]
    exact demo_runPath ph hb he
  rw [hpath] at h1
  refine ⟨?_, z, h2, ?_⟩
  · have : s.particles.map (fun p => List.ofFn p.pos) = (s.particles.map phaseOf).map (fun x => List.ofFn x.1) := by
      rw [List.map_map]; rfl
    simp only at h1 ⊢
    rw [this, h1]
    simp [phaseOf, demoWalker, newParticle]
  · rw [h3]
    have : reportSteps (demoBdOpts 1) 1 = [1] := rfl
    rw [this, List.map_singleton, hpath]

end

end Bdld
