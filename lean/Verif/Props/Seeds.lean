import Verif.Props.MainDemo

/-
Reproducibility of the whole program (C26).
-/

set_option linter.unusedSectionVars false

namespace Bdld

open Spec

variable {R : Type} {d : Nat}

/-- A seed is given in the options of a section. -/
def Spec.SeedGiven (o : Dict (OptVal ℝ)) : Prop := ∃ s : Int, o.get? "seed" = some (.base (.int s))

theorem seedGiven_getItem (o : Dict (OptVal ℝ)) (h : SeedGiven o) : ∃ s : Int,
    o.getItem "seed" = .ok (.base (.int s)) := by
  obtain ⟨s, hs⟩ := h
  exact ⟨s, by rw [Dict.getItem, hs]⟩

theorem setupPotential_entropy (w : World R) (e : RngUser → R) (o : Dict (OptVal ℝ)) :
    setupPotential { w with entropy := e } o = setupPotential w o := rfl

theorem setupLd_entropy (w : World R) (e : RngUser → R) (o : Dict (OptVal ℝ)) (pot : Potential ℝ d)
    (h : SeedGiven o) : setupLd { w with entropy := e } o pot = setupLd w o pot := by
  obtain ⟨s, hs⟩ := seedGiven_getItem o h
  unfold setupLd
  rw [hs]
  rfl

theorem initParticles_entropy (w : World R) (e : RngUser → R) (o : Dict (OptVal ℝ)) (c : LdCfg ℝ d)
    (s : LdState ℝ d R) (h : SeedGiven o) :
    initParticles pyTrunc w.init (({ w with entropy := e } : World R).defaultRng .particles) c o s =
      initParticles pyTrunc w.init (w.defaultRng .particles) c o s := by
  obtain ⟨k, hk⟩ := seedGiven_getItem o h
  unfold initParticles
  rw [hk]
  rfl

theorem setupBirthDeath_entropy (w : World R) (e : RngUser → R) (o : Dict (OptVal ℝ)) (c : LdCfg ℝ d)
    (h : ∃ s : Int, o.get? "seed" = some (.base (.int s)) ∧ s ≠ 0) :
    setupBirthDeath { w with entropy := e } o c = setupBirthDeath w o c := by
  obtain ⟨s, hs, h0⟩ := h
  have hk : o.getItem "seed" = .ok (.base (.int s)) := by rw [Dict.getItem, hs]
  have hb : bdSeed (some s) = some (s + 1000) := by simp [bdSeed, h0]
  unfold setupBirthDeath
  simp only [hk, ok_bind, OptVal.asOptInt, hb]
  rfl

theorem runSteps_entropy (w : World R) (e : RngUser → R) (c : SimCfg d) (n : Nat) (s : Sim d R) :
    runSteps { w with entropy := e } c n s = runSteps w c n s := by
  induction n with
  | zero => rfl
  | succ n ih => rw [runSteps, ih]; rfl

/-- C26: if seeds are given for the Langevin dynamics, for the initial distribution and for birth-death (if
used), the latter not 0, the result does not depend on the entropy of the operating system. -/
theorem reproducible_partial (w : World R) (e : RngUser → R) (file : Option (List Section)) (config : Input ℝ)
    (hp : parseAll 1 w.conv file = .ok config) (h1 : SeedGiven config.ld) (h2 : SeedGiven config.particles)
    (h3 : ∀ o, config.birthDeath = some o → ∃ s : Int, o.get? "seed" = some (.base (.int s)) ∧ s ≠ 0) :
    mainProgram { w with entropy := e } file = mainProgram w file := by
  unfold mainProgram
  have hc : ({ w with entropy := e } : World R).conv = w.conv := rfl
  rw [hc, hp]
  simp only
  unfold mainFrom
  have hr : setupRequired { w with entropy := e } config = setupRequired w config := by
    unfold setupRequired
    rw [setupPotential_entropy]
    congr 1
    funext p
    rw [setupLd_entropy w e _ _ h1]
    congr 1
    funext l
    have := initParticles_entropy w e config.particles l.cfg l.state h2
    simp only at this ⊢
    rw [this]
  rw [hr]
  have ho : ∀ r : AnySim R, setupOptional { w with entropy := e } config r.cfg r.sim =
      setupOptional w config r.cfg r.sim := by
    intro r
    unfold setupOptional
    cases hb : config.birthDeath with
    | none => rfl
    | some o =>
      simp only
      rw [setupBirthDeath_entropy w e o _ (h3 o hb)]
      rfl
  have hs : ∀ (d : Nat) (c : SimCfg d) (n : Nat) (s : Sim d R),
      simulate { w with entropy := e } c n s = simulate w c n s := by
    intro d c n s
    unfold simulate
    rw [runSteps_entropy]
  simp only [ho, hs]

/-- C26 is false: the seed 0 of birth-death is treated as missing. (Also for generators that fulfil numpy's
contract.) -/
theorem reproducible_false : ¬ ∀ (w : World Bool) (e : RngUser → Bool) (file : Option (List Section))
    (config : Input ℝ), w.bdOps.Lawful → parseAll 1 w.conv file = .ok config → SeedGiven config.ld →
      SeedGiven config.particles → (∀ o, config.birthDeath = some o → SeedGiven o) →
      mainProgram { w with entropy := e } file = mainProgram w file := by
  intro h
  have := h (demoWorld true) (fun _ => false) (some (demoFile "0")) _ demoBdOps_lawful (demo_parse "0" 0 demo_parseBd0)
    ⟨1, rfl⟩ ⟨1, rfl⟩ (by intro o ho; cases ho; exact ⟨0, rfl⟩)
  obtain ⟨st, z, hz⟩ := demo_bd_all (demoWalker 1) (demoWalker 2) ⟨0, 0, 0, 0⟩ []
  obtain ⟨st', hn⟩ := demo_bd_none (demoWalker 1) (demoWalker 2) ⟨0, 0, 0, 0⟩ []
  have a := demo_main true "0" 0 true true _ st demo_parseBd0 rfl hz
  have b := demo_main false "0" 0 false false _ st' demo_parseBd0 rfl hn
  have hw : ({ demoWorld true with entropy := fun _ => false } : World Bool) = demoWorld false := rfl
  rw [hw, a, b] at this
  injection this with this
  injection this with _ _ this
  have hps := congrArg Sim.particles this
  injection hps with q1 q2
  injection q2 with q2 _
  have q : demoWalker 1 = demoWalker 2 := q1.trans q2.symm
  have := congrFun (congrArg LdParticle.pos q) 0
  change (1 : ℝ) = 2 at this
  norm_num at this

/-- Non-vacuity: the example with seed 1 satisfies the hypotheses, and the program finishes. -/
example : ∃ config, parseAll 1 (demoWorld true).conv (some (demoFile "1")) = .ok config ∧
    SeedGiven config.ld ∧ SeedGiven config.particles ∧
    (∀ o, config.birthDeath = some o → ∃ s : Int, o.get? "seed" = some (.base (.int s)) ∧ s ≠ 0) ∧
    ∃ a, mainProgram (demoWorld true) (some (demoFile "1")) = .finished a := by
  obtain ⟨st, z, hz⟩ := demo_bd_all (demoWalker 1) (demoWalker 2) ⟨0, 0, 0, 0⟩ []
  refine ⟨_, demo_parse "1" 1 demo_parseBd1, ⟨1, rfl⟩, ⟨1, rfl⟩, ?_,
    _, demo_main true "1" 1 true true _ st demo_parseBd1 rfl hz⟩
  intro o ho
  cases ho
  exact ⟨1, rfl, by decide⟩

end Bdld
