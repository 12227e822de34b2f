import Verif.Props.EndToEnd
import Verif.Spec.Options

/-
Theorems about the results of the whole program in terms of the input options: walkers, trajectory files,
histogram, FES, delta F and particle distribution.
-/

set_option linter.unusedSectionVars false

namespace Bdld

open Spec

variable {R : Type}

/-- A finished run of the program: parsed input, number of steps and state after the set-up. -/
structure FinishedRun (w : World R) (file : Option (List Section)) (a : AnySim R) (config : Input ℝ) (n : Nat)
    (s0 : Sim a.d R) : Prop where
  parse : parseAll 1 w.conv file = .ok config
  steps : config.ld.get? "n_steps" = some (.base (.int n))
  pos : 0 < n
  required : setupRequired w config = .ok
    ⟨a.d, { kind := a.cfg.kind, ld := a.cfg.ld }, { particles := s0.particles, ldRng := s0.ldRng }⟩
  optional : setupOptional w config { kind := a.cfg.kind, ld := a.cfg.ld }
    { particles := s0.particles, ldRng := s0.ldRng } = .ok (a.cfg, s0)
  setup : SetupOk w a.cfg s0
  sim : simulate w a.cfg n s0 = .ok a.sim

theorem main_run (w : World R) (file : Option (List Section)) (a : AnySim R)
    (h : mainProgram w file = .finished a) : ∃ config n s0, FinishedRun w file a config n s0 := by
  obtain ⟨config, r, x, n, s, hp, hr, hx, hn, hs, rfl⟩ := main_inv w file a h
  have hset := setup_ok w file config r x hp hr hx
  have hpos : 0 < n := by
    have := (input_valid 1 one_pos file config hp).ld.nSteps
    rw [hn] at this
    obtain ⟨i, hi, hpos⟩ := this
    cases hi
    exact hpos
  obtain ⟨hc, hs'⟩ := setupRequired_parts w config r hr
  obtain ⟨c', s'⟩ := x
  obtain ⟨e1, e2, e3, e4, _⟩ := setupOptional_parts w config _ c' _ s' hc hs' hx
  obtain ⟨d, rc, rs⟩ := r
  simp only at hc hs' e1 e2 e3 e4 hx hset hs
  refine ⟨config, n.toNat, s', hp, ?_, by omega, ?_, ?_, hset, hs⟩
  · rw [hn, Int.toNat_of_nonneg (le_of_lt hpos)]
  · rw [hr, hc, hs']
    simp only [e1, e2, e3, e4]
  · simp only [e1, e2, e3, e4]
    rw [← hc, ← hs']
    exact hx

variable {w : World R} {file : Option (List Section)} {a : AnySim R} {config : Input ℝ} {n : Nat}
  {s0 : Sim a.d R}

/-- The walkers after step `t` of the run. -/
noncomputable def FinishedRun.path (_ : FinishedRun w file a config n s0) (t : Nat) :
    List (LdParticle ℝ a.d) := walkersAt w a.cfg.kind a.cfg.ld a.cfg.bd s0.dyn t

theorem FinishedRun.path_length (hr : FinishedRun w file a config n s0) (hops : w.bdOps.Lawful) (t : Nat) :
    (hr.path t).length = s0.particles.length :=
  walkersAt_length w hops _ _ _ (fun b hb => (hr.setup.bd b hb).1) _ t

/-- C85: the walkers at the end are those of the pure dynamics after `n` steps, and their number is that of the
set-up. -/
theorem main_walkers (hr : FinishedRun w file a config n s0) (hops : w.bdOps.Lawful) :
    a.sim.particles = hr.path n ∧ a.sim.particles.length = s0.particles.length := by
  obtain ⟨u, hu, h⟩ := bind_ok hr.sim
  have h1 := path_runSteps w a.cfg n s0 u hr.setup.bdSome hu
  have h2 := (final_analysis a.cfg n u a.sim h).particles
  have : a.sim.particles = hr.path n := h2.trans h1
  exact ⟨this, by rw [this, hr.path_length hops]⟩

/-! ### Trajectories -/

theorem strideOption (o : Dict (OptVal ℝ)) (key : String) (v : OptVal ℝ) (k : Option Nat) (default : Nat)
    (hv : NoneOr (IsInt (0 < ·)) (o.get? key)) (h1 : o.getItem key = .ok v) (h2 : v.asOptStride = .ok k) :
    pyOrNat k default = natOption o key default ∧ (natOption o key default = default ∨ 0 < natOption o key default) := by
  rcases hv with hv | ⟨i, hv, hpos⟩
  · rw [Dict.getItem, hv] at h1
    cases h1
    cases h2
    simp [natOption, hv, pyOrNat]
  · rw [Dict.getItem, hv] at h1
    cases h1
    cases h2
    simp only [natOption, hv]
    obtain ⟨j, hj⟩ : ∃ j, i.toNat = j + 1 := ⟨i.toNat - 1, by omega⟩
    rw [hj]
    simp [pyOrNat]

theorem filenameOption (o : Dict (OptVal ℝ)) (v : OptVal ℝ) (f : Option String)
    (h1 : o.getItem "filename" = .ok v) (h2 : v.asOptStr = .ok f) : truthyStr f = hasFilename o := by
  unfold Dict.getItem at h1
  split at h1
  · rename_i x hx
    cases h1
    unfold OptVal.asOptStr at h2
    unfold hasFilename
    rw [hx]
    split at h2 <;> cases h2 <;> rfl
  · cases h1

theorem flagOption_eq (o : Dict (OptVal ℝ)) (key : String) (v : OptVal ℝ) (b : Bool)
    (h1 : o.getItem key = .ok v) (h2 : v.asFlag = .ok b) : b = flagOption o key := by
  unfold Dict.getItem at h1
  split at h1
  · rename_i x hx
    cases h1
    unfold OptVal.asFlag at h2
    unfold flagOption
    rw [hx]
    split at h2 <;> cases h2 <;> rfl
  · cases h1

/-- The trajectory action is set up with the options of its section. -/
theorem setupTrajectories_options (w : World R) (o : Dict (OptVal ℝ)) (dt : ℝ) (m : Nat)
    (b : TrajCfg ℝ × TrajState ℝ) (hv : ValidOutput o) (d : Nat) (h : setupTrajectories w d o dt m = .ok b) :
    b.1 = ⟨natOption o "stride" 1, natOption o "write-stride" 100, m, flagOption o "momentum",
      fun k : Nat => (k : ℝ) * dt⟩ ∧
    b.2 = TrajState.init b.1 (hasFilename o) w.emptyTimes w.emptyPositions w.emptyMomentum := by
  simp only [setupTrajectories] at h
  obtain ⟨v1, g1, h⟩ := bind_ok h
  obtain ⟨stride, f1, h⟩ := bind_ok h
  obtain ⟨v2, g2, h⟩ := bind_ok h
  obtain ⟨filename, f2, h⟩ := bind_ok h
  obtain ⟨v3, g3, h⟩ := bind_ok h
  obtain ⟨mom, f3, h⟩ := bind_ok h
  obtain ⟨v4, g4, h⟩ := bind_ok h
  obtain ⟨ws, f4, h⟩ := bind_ok h
  obtain ⟨_, _, h⟩ := bind_ok h
  cases h
  rw [filenameOption o v2 filename g2 f2]
  refine ⟨?_, rfl⟩
  simp only [TrajCfg.new]
  rw [(strideOption o "stride" v1 stride 1 hv.stride g1 f1).1,
    (strideOption o "write-stride" v4 ws 100 hv.writeStride g4 f4).1, flagOption_eq o "momentum" v3 mom g3 f3]

theorem main_traj_setup (hr : FinishedRun w file a config n s0) (o : Dict (OptVal ℝ))
    (ho : config.trajectories = some o) :
    a.cfg.traj = some ⟨natOption o "stride" 1, natOption o "write-stride" 100, s0.particles.length,
      flagOption o "momentum", fun k : Nat => (k : ℝ) * a.cfg.ld.dt⟩ ∧
    s0.traj = some (TrajState.init ⟨natOption o "stride" 1, natOption o "write-stride" 100, s0.particles.length,
      flagOption o "momentum", fun k : Nat => (k : ℝ) * a.cfg.ld.dt⟩ (hasFilename o)
      w.emptyTimes w.emptyPositions w.emptyMomentum) := by
  have hv := (input_valid 1 one_pos file config hr.parse).trajectories o ho
  obtain ⟨_, _, _, _, _, _, h2, _⟩ := setupOptional_parts w config _ _ _ _ rfl rfl hr.optional
  rw [ho] at h2
  obtain ⟨b, hb, e1, e2⟩ := h2
  obtain ⟨p1, p2⟩ := setupTrajectories_options w o _ _ b hv.1 _ hb
  rw [e1, e2, p2, p1]
  exact ⟨rfl, rfl⟩

/-- The walkers as the trajectory action sees them. -/
noncomputable def FinishedRun.snaps (hr : FinishedRun w file a config n s0) (t : Nat) : Snapshot ℝ :=
  snapshotOf (hr.path t)

theorem FinishedRun.good (hr : FinishedRun w file a config n s0) (hops : w.bdOps.Lawful) (t : TrajCfg ℝ)
    (ht : t.nParticles = s0.particles.length) : GoodHist t hr.snaps := by
  intro k
  simp [FinishedRun.snaps, snapshotOf, ht, hr.path_length hops]

/-- C81: if trajectories with a file name are requested, the file of every walker contains exactly one line for
every multiple of the stride in `1 … n_steps`, in order: the time, the position of the walker at that step, and
its momentum if requested. Without a file name there are no files. -/
theorem main_trajectories (hr : FinishedRun w file a config n s0) (hops : w.bdOps.Lawful)
    (o : Dict (OptVal ℝ)) (ho : config.trajectories = some o) : ∃ x, a.sim.traj = some x ∧
      x.files = if hasFilename o then
          some ((List.range s0.particles.length).map (fun i =>
            (sampledSteps (natOption o "stride" 1) 0 n).map
              (trajRow (fun k : Nat => (k : ℝ) * a.cfg.ld.dt) hr.snaps (flagOption o "momentum") i)))
        else none := by
  obtain ⟨h1, h2⟩ := main_traj_setup hr o ho
  obtain ⟨_, p2, p3, _⟩ := hr.setup.traj _ h1
  obtain ⟨y, hy, he⟩ := simulate_traj w a.cfg s0 hr.setup.bdSome _ _ h1 h2 n a.sim hr.sim
  refine ⟨y, hy, ?_⟩
  cases hf : hasFilename o with
  | true =>
    rw [hf] at he
    obtain ⟨y', he', hfiles⟩ := trajectory_files_complete _ hr.snaps (hr.good hops _ rfl) p2 p3
      w.emptyTimes w.emptyPositions w.emptyMomentum n
    have : y = y' := Except.ok.inj (he.symm.trans he')
    subst this
    rw [if_pos rfl]
    exact hfiles
  | false =>
    rw [hf] at he
    obtain ⟨y', he', hfiles, _⟩ := trajectory_no_filename _ hr.snaps (hr.good hops _ rfl) p3
      w.emptyTimes w.emptyPositions w.emptyMomentum (completeRun n)
    have : y = y' := Except.ok.inj (he.symm.trans he')
    subst this
    rw [hfiles]
    rfl

end Bdld
