import Verif.Model.Halt
import Verif.Props.DiskNames
import Verif.Props.Report

/-
C152: files of a run that stops before its end.
-/

namespace Bdld

open Spec

noncomputable section

variable {R : Type} {d : Nat}

/-! ### Calls one after the other -/

/-- The result of the calls: an exception if one of them raises. -/
def Spec.haltResult {S : Type} (x : S × Option PyErr) : Except PyErr S :=
  match x.2 with
  | none => .ok x.1
  | some e => .error e

theorem halt_result (files : List (Path × OutFile)) (w : World R) (c : SimCfg d) : ∀ (es : List Event)
    (x : Sim d R × List (FileOp DiskLine)), haltResult (haltD files w c es x) = es.foldlM (performD files w c) x
  | [], x => rfl
  | e :: es, x => by
    rw [haltD, List.foldlM_cons]
    rcases h : performD files w c x e with err | x'
    · rfl
    · exact halt_result files w c es x'

theorem schedule_steps (files : List (Path × OutFile)) (w : World R) (c : SimCfg d) (x : Sim d R × List (FileOp DiskLine)) :
    ∀ n, ((List.range n).flatMap (fun k => c.actions.map (fun a => Event.run a (k + 1)))).foldlM (performD files w c) x =
      runStepsD files w c n x
  | 0 => rfl
  | n + 1 => by
    rw [List.range_succ, List.flatMap_append, List.foldlM_append, schedule_steps files w c x n, runStepsD]
    congr 1
    funext y
    rw [List.flatMap_cons, List.flatMap_nil, List.append_nil, List.foldlM_map]
    rfl

/-- The run is the sequence of all calls; it raises the exception of the first call that raises. -/
theorem halt_simulate (files : List (Path × OutFile)) (w : World R) (c : SimCfg d) (n : Nat) (s : Sim d R) :
    haltResult (haltD files w c (schedule c.actions n) (s, setupOps files)) = simulateD files w c n s := by
  rw [halt_result, schedule, List.foldlM_append, schedule_steps, simulateD]
  congr 1
  funext y
  rw [List.foldlM_map]
  rfl

theorem halt_append (files : List (Path × OutFile)) (w : World R) (c : SimCfg d) : ∀ (es es' : List Event)
    (x : Sim d R × List (FileOp DiskLine)), haltD files w c (es ++ es') x =
      match haltD files w c es x with
      | (y, none) => haltD files w c es' y
      | (y, some e) => (y, some e)
  | [], es', x => rfl
  | e :: es, es', x => by
    rw [List.cons_append, haltD, haltD]
    rcases performD files w c x e with err | x'
    · rfl
    · exact halt_append files w c es es' x'

/-! ### Files grow -/

/-- What is in the files of the first state is also in those of the second. -/
structure Spec.Later (s s' : Sim d R) : Prop where
  rows : ∀ o, s.fileRows o <+: s'.fileRows o
  grows : Grows s s'

theorem Spec.Later.refl (s : Sim d R) : Later s s := ⟨fun _ => List.prefix_rfl, .refl s⟩

theorem Spec.Later.trans {s s' s'' : Sim d R} (h : Later s s') (h' : Later s' s'') : Later s s'' :=
  ⟨fun o => (h.rows o).trans (h'.rows o), h.grows.trans h'.grows⟩

theorem perform_files (files : List (Path × OutFile)) (w : World R) (c : SimCfg d) (s : Sim d R)
    (pre r : List (FileOp DiskLine)) (e : Event) (x : Sim d R × List (FileOp DiskLine))
    (h : performD files w c (s, pre ++ r) e = .ok x) : Later s x.1 ∧ (DiskInv files s r → ∃ r', x.2 = pre ++ (r ++ r') ∧
      DiskInv files x.1 (r ++ r')) := by
  cases e with
  | run a step =>
    obtain ⟨s1, h1, h2⟩ := bind_ok h
    obtain ⟨s2, h3, h4⟩ := bind_ok h1
    have hf := fileStep_events (e := s2.events ++ [.run a step]) (runAction_files w c s s2 a step h3)
    cases h4
    cases h2
    exact ⟨⟨hf.rows, hf.grows⟩, fun hi => ⟨_, by rw [List.append_assoc], diskInv_step hi hf⟩⟩
  | final a step =>
    obtain ⟨s1, h1, h2⟩ := bind_ok h
    obtain ⟨s2, h3, h4⟩ := bind_ok h1
    have hf := fileStep_events (e := s2.events ++ [.final a step]) (finalAction_files c s s2 a step h3)
    cases h4
    cases h2
    exact ⟨⟨hf.rows, hf.grows⟩, fun hi => ⟨_, by rw [List.append_assoc], diskInv_step hi hf⟩⟩

theorem halt_inv (files : List (Path × OutFile)) (w : World R) (c : SimCfg d) (pre : List (FileOp DiskLine)) :
    ∀ (es : List Event) (s : Sim d R) (r : List (FileOp DiskLine)), DiskInv files s r →
      ∃ r', (haltD files w c es (s, pre ++ r)).1.2 = pre ++ (r ++ r') ∧
        DiskInv files (haltD files w c es (s, pre ++ r)).1.1 (r ++ r') ∧ Later s (haltD files w c es (s, pre ++ r)).1.1
  | [], s, r, hi => ⟨[], by rw [List.append_nil]; rfl, by rw [List.append_nil]; exact hi, .refl s⟩
  | e :: es, s, r, hi => by
    rw [haltD]
    rcases h : performD files w c (s, pre ++ r) e with err | x
    · exact ⟨[], by rw [List.append_nil], by rw [List.append_nil]; exact hi, .refl s⟩
    · obtain ⟨h1, h2⟩ := perform_files files w c s pre r e x h
      obtain ⟨r1, e1, hi1⟩ := h2 hi
      obtain ⟨s', ops⟩ := x
      simp only at e1 hi1 h1
      subst e1
      obtain ⟨r2, e2, hi2, hl⟩ := halt_inv files w c pre es s' (r ++ r1) hi1
      exact ⟨r1 ++ r2, by rw [← List.append_assoc r]; exact e2, by rw [← List.append_assoc r]; exact hi2, h1.trans hl⟩

/-! ### A run that was started -/

/-- The set-up was successful. -/
structure StartedRun (w : World R) (file : Option (List Section)) (c : SimCfg d) (config : Input ℝ) (n : Nat)
    (s0 : Sim d R) : Prop where
  parse : parseAll 1 w.conv file = .ok config
  steps : config.ld.get? "n_steps" = some (.base (.int n))
  required : setupRequired w config = .ok ⟨d, { kind := c.kind, ld := c.ld }, { particles := s0.particles, ldRng := s0.ldRng }⟩
  optional : setupOptional w config { kind := c.kind, ld := c.ld } { particles := s0.particles, ldRng := s0.ldRng } = .ok (c, s0)
  setup : SetupOk w c s0

theorem FinishedRun.started {w : World R} {file : Option (List Section)} {a : AnySim R} {config : Input ℝ} {n : Nat}
    {s0 : Sim a.d R} (hr : FinishedRun w file a config n s0) : StartedRun w file a.cfg config n s0 :=
  ⟨hr.parse, hr.steps, hr.required, hr.optional, hr.setup⟩

variable {w : World R} {file : Option (List Section)} {c : SimCfg d} {config : Input ℝ} {n : Nat} {s0 : Sim d R}

/-- State and operations on files if the program stops after `m` calls of actions, or before if one of them raises. -/
def StartedRun.stopped (_hr : StartedRun w file c config n s0) (m : Nat) :
    (Sim d R × List (FileOp DiskLine)) × Option PyErr :=
  haltD (outFiles config s0.particles.length) w c ((schedule c.actions n).take m)
    (s0, setupOps (outFiles config s0.particles.length))

/-- The state. -/
def StartedRun.stateAt (hr : StartedRun w file c config n s0) (m : Nat) : Sim d R := (hr.stopped m).1.1

/-- The operations. -/
def StartedRun.opsAt (hr : StartedRun w file c config n s0) (m : Nat) : List (FileOp DiskLine) := (hr.stopped m).1.2

/-- The files with rows. -/
def StartedRun.files (_hr : StartedRun w file c config n s0) : List (Path × OutFile) := outFiles config s0.particles.length

theorem started_inv (hr : StartedRun w file c config n s0) : DiskInv hr.files s0 [] := by
  refine ⟨fun _ f _ => ?_, fun p => ?_, ?_, fun _ _ h => absurd h List.not_mem_nil, fun _ _ h => absurd h List.not_mem_nil⟩
  · rw [setup_noRows rfl rfl hr.optional hr.setup]
    rfl
  · refine List.Perm.of_eq (List.flatMap_eq_nil_iff.2 fun f _ => ?_).symm
    rw [setup_noRows rfl rfl hr.optional hr.setup]
  · simp only [gridOps, hr.setup.histWrites, hr.setup.fesWrites, hr.setup.plots]
    exact List.Perm.refl _

theorem stopped_inv (hr : StartedRun w file c config n s0) (m : Nat) : ∃ r, hr.opsAt m = setupOps hr.files ++ r ∧
    DiskInv hr.files (hr.stateAt m) r := by
  obtain ⟨r, h1, h2, _⟩ := halt_inv hr.files w c (setupOps hr.files) ((schedule c.actions n).take m) s0 [] (started_inv hr)
  rw [List.append_nil, List.nil_append] at h1 h2
  exact ⟨r, h1, h2⟩

/-- Whatever stops the program, and whenever: the files are complete up to the last write of the action, nothing else
than the files of the run was changed, and what was on disk before is there or in a backup. -/
theorem stopped_disk (hr : StartedRun w file c config n s0) (m : Nat) (fs : FileSys DiskLine) :
    ∃ fs', execOps fs (hr.opsAt m) = some fs' ∧
      (∀ p lines, fs.get p = some lines → p ∉ diskNames hr.files (hr.stateAt m) → fs'.get p = some lines) ∧
      ((diskNames hr.files (hr.stateAt m)).Nodup →
        (∀ f ∈ hr.files, fs'.get f.1 = some (.header f.2 :: (hr.stateAt m).fileRows f.2)) ∧
        (d = 1 ∨ d = 2 → ∀ x ∈ (hr.stateAt m).histWrites, fs'.get x.1.toList = some [.histogram x.2]) ∧
        (d = 1 ∨ d = 2 → ∀ x ∈ (hr.stateAt m).fesWrites, fs'.get x.1.toList = some [.fes x.2]) ∧
        (∀ x ∈ (hr.stateAt m).plots, x.asked = false → fs'.get (figureFile x.name) = some [.figure x.figure]) ∧
        ∀ p lines, fs.get p = some lines → (∀ q, BackupChain p q → q ∉ diskPlots (hr.stateAt m)) →
          ∃ q, BackupChain p q ∧ fs'.get q = some lines) := by
  obtain ⟨r, h1, h2⟩ := stopped_inv hr m
  rw [h1]
  exact disk_of_inv h2 fs

/-- What is in the files at some time stays at their beginning. -/
theorem stopped_later (hr : StartedRun w file c config n s0) (m m' : Nat) (h : m ≤ m') :
    Later (hr.stateAt m) (hr.stateAt m') := by
  obtain ⟨r, h1, h2⟩ := stopped_inv hr m
  have e : (schedule c.actions n).take m' = (schedule c.actions n).take m ++ ((schedule c.actions n).take m').drop m := by
    conv_lhs => rw [← List.take_append_drop m ((schedule c.actions n).take m')]
    rw [List.take_take, Nat.min_eq_left h]
  simp only [StartedRun.stateAt, StartedRun.opsAt, StartedRun.stopped] at *
  rw [e, halt_append]
  rcases hx : haltD (outFiles config s0.particles.length) w c ((schedule c.actions n).take m)
    (s0, setupOps (outFiles config s0.particles.length)) with ⟨⟨s, ops⟩, _ | err⟩
  · rw [hx] at h1 h2
    simp only at h1 h2
    simp only
    rw [h1]
    exact (halt_inv _ w c (setupOps hr.files) _ s r h2).choose_spec.2.2
  · exact .refl _

/-- After all calls without exception the run is finished. -/
theorem stopped_finished {a : AnySim R} {s0 : Sim a.d R} (hr : FinishedRun w file a config n s0) (m : Nat)
    (h : (schedule a.cfg.actions n).length ≤ m) : hr.started.stateAt m = a.sim ∧ hr.started.opsAt m = hr.ops := by
  obtain ⟨r, h1, h2, _⟩ := run_ops hr
  rw [← halt_simulate, haltResult] at h2
  have e : hr.started.stopped m = haltD hr.files w a.cfg (schedule a.cfg.actions n) (s0, setupOps hr.files) := by
    unfold StartedRun.stopped
    rw [List.take_of_length_le h]
    rfl
  unfold StartedRun.stateAt StartedRun.opsAt
  rw [e]
  split at h2
  · have := Except.ok.inj h2
    rw [this]
    exact ⟨rfl, rfl⟩
  · cases h2

/-! ### How much is on disk -/

theorem schedule_take (actions : List ActName) (n k : Nat) (hk : k ≤ n) :
    (schedule actions n).take (k * actions.length) = (List.range k).flatMap (fun k => actions.map (fun a => Event.run a (k + 1))) := by
  obtain ⟨j, rfl⟩ := Nat.exists_eq_add_of_le hk
  have hlen : ((List.range k).flatMap (fun k => actions.map (fun a => Event.run a (k + 1)))).length = k * actions.length := by
    rw [List.length_flatMap]
    simp
  unfold schedule
  rw [List.range_add, List.flatMap_append, List.append_assoc, ← hlen, List.take_left]

/-- The state after `k` complete steps. -/
theorem stopped_steps (hr : StartedRun w file c config n s0) (k : Nat) (hk : k ≤ n) (u : Sim d R)
    (hu : runSteps w c k s0 = .ok u) : hr.stateAt (k * c.actions.length) = u ∧
      (hr.stopped (k * c.actions.length)).2 = none := by
  obtain ⟨r, h1, _⟩ := runSteps_disk hr.files w c (setupOps hr.files) s0 (started_inv hr) k u hu
  rw [← schedule_steps, ← schedule_take _ n k hk, ← halt_result] at h1
  unfold StartedRun.stateAt StartedRun.stopped
  unfold haltResult at h1
  split at h1
  · rename_i he
    have := Except.ok.inj h1
    exact ⟨congrArg Prod.fst this, he⟩
  · cases h1

theorem lastSave_ticks (W : Nat) (hW : 0 < W) : ∀ (k now : Nat),
    lastSave W now (now / W * W) (List.replicate k .tick) = (now + k) / W * W
  | 0, now => rfl
  | k + 1, now => by
    rw [List.replicate_succ, lastSave]
    have : (if W ∣ now + 1 then now + 1 else now / W * W) = (now + 1) / W * W := by
      by_cases h : W ∣ now + 1
      · rw [if_pos h, Nat.div_mul_cancel h]
      · rw [if_neg h, Nat.succ_div, if_neg h, Nat.add_zero]
    rw [this, lastSave_ticks W hW k (now + 1)]
    congr 2
    omega

theorem started_traj_setup (hr : StartedRun w file c config n s0) (o : Dict (OptVal ℝ))
    (ho : config.trajectories = some o) :
    c.traj = some ⟨natOption o "stride" 1, natOption o "write-stride" 100, s0.particles.length,
      flagOption o "momentum", fun k : Nat => (k : ℝ) * c.ld.dt⟩ ∧
    s0.traj = some (TrajState.init ⟨natOption o "stride" 1, natOption o "write-stride" 100, s0.particles.length,
      flagOption o "momentum", fun k : Nat => (k : ℝ) * c.ld.dt⟩ (hasFilename o)
      w.emptyTimes w.emptyPositions w.emptyMomentum) := by
  have hv := (input_valid 1 one_pos file config hr.parse).trajectories o ho
  obtain ⟨_, _, _, _, _, _, h2, _⟩ := setupOptional_parts w config _ _ _ _ rfl rfl hr.optional
  rw [ho] at h2
  obtain ⟨b, hb, e1, e2⟩ := h2
  obtain ⟨p1, p2⟩ := setupTrajectories_options w o _ _ b hv.1 _ hb
  rw [e1, e2, p2, p1]
  exact ⟨rfl, rfl⟩

/-- The walkers after step `t`. -/
def StartedRun.path (_ : StartedRun w file c config n s0) (t : Nat) : List (LdParticle ℝ d) :=
  walkersAt w c.kind c.ld c.bd s0.dyn t

theorem StartedRun.path_length (hr : StartedRun w file c config n s0) (hops : w.bdOps.Lawful) (t : Nat) :
    (hr.path t).length = s0.particles.length :=
  walkersAt_length w hops _ _ _ (fun b hb => (hr.setup.bd b hb).1) _ t

/-- Trajectories after `k` complete steps: all sampled steps up to the last multiple of the write stride. -/
theorem steps_rows_traj (hr : StartedRun w file c config n s0) (hops : w.bdOps.Lawful) (o : Dict (OptVal ℝ))
    (ho : config.trajectories = some o) (hf : hasFilename o = true) (k : Nat) (u : Sim d R) (hu : runSteps w c k s0 = .ok u)
    (i : Nat) (hi : i < s0.particles.length) : u.fileRows (.walker i) =
      (sampledSteps (natOption o "stride" 1) 0 (k / natOption o "write-stride" 100 * natOption o "write-stride" 100)).map
        (fun t => .numbers (trajRow (fun k : Nat => (k : ℝ) * c.ld.dt) (fun t => snapshotOf (hr.path t)) (flagOption o "momentum") i t)) := by
  obtain ⟨h1, h2⟩ := started_traj_setup hr o ho
  obtain ⟨_, p2, p3, _⟩ := hr.setup.traj _ h1
  obtain ⟨y, hy, he⟩ := steps_traj w c s0 hr.setup.bdSome _ _ h1 h2 k u hu
  have hg : GoodHist ⟨natOption o "stride" 1, natOption o "write-stride" 100, s0.particles.length,
      flagOption o "momentum", fun k : Nat => (k : ℝ) * c.ld.dt⟩ (fun t => snapshotOf (hr.path t)) := by
    intro t
    simp [snapshotOf, hr.path_length hops]
  rw [hf] at he
  obtain ⟨y', he', hfiles⟩ := trajectory_files _ (fun t => snapshotOf (hr.path t)) hg p2 p3
    w.emptyTimes w.emptyPositions w.emptyMomentum (List.replicate k .tick)
  have : y = y' := Except.ok.inj (he.symm.trans he')
  subst this
  have hl := lastSave_ticks (natOption o "write-stride" 100) p3 k 0
  rw [Nat.zero_div, Nat.zero_mul, Nat.zero_add] at hl
  simp only [hl] at hfiles
  simp only [Sim.fileRows, hy, hfiles, Option.getD_some, List.getD_eq_getElem?_getD, List.getElem?_map, List.getElem?_range hi,
    Option.map_some, List.map_map]
  rfl

/-- Whatever stops the program after step `k` is complete: the trajectory files contain the sampled steps up to the
last multiple of the write stride before. -/
theorem stopped_trajectories (hr : StartedRun w file c config n s0) (hops : w.bdOps.Lawful) (o : Dict (OptVal ℝ))
    (ho : config.trajectories = some o) (hf : hasFilename o = true) (k : Nat) (hk : k ≤ n) (u : Sim d R)
    (hu : runSteps w c k s0 = .ok u) (m : Nat) (hm : k * c.actions.length ≤ m) (i : Nat) (hi : i < s0.particles.length) :
    (sampledSteps (natOption o "stride" 1) 0 (k / natOption o "write-stride" 100 * natOption o "write-stride" 100)).map
        (fun t => .numbers (trajRow (fun k : Nat => (k : ℝ) * c.ld.dt) (fun t => snapshotOf (hr.path t)) (flagOption o "momentum") i t))
      <+: (hr.stateAt m).fileRows (.walker i) := by
  rw [← steps_rows_traj hr hops o ho hf k u hu i hi, ← (stopped_steps hr k hk u hu).1]
  exact (stopped_later hr _ _ hm).rows _

theorem series_steps_rows (o : Dict (OptVal ℝ)) (c : SeriesCfg ℝ) (hc : SeriesOptions o c) (hs : seriesStride o ≠ 0)
    (hf : hasFilename o = true) (vals : Nat → List ℝ) (garbage : Nat → List ℝ) (k : Nat) (y : SeriesState ℝ)
    (h : SeriesState.steps c vals k (SeriesState.init c garbage) = .ok y) :
    y.file = (sampledSteps (seriesStride o) 0 (k / seriesWriteStride o * seriesWriteStride o)).map (fun t => c.timeCol t :: vals t) := by
  rw [← hc.stride] at hs ⊢
  rw [← hc.writeStride hs]
  rcases hc.good with ⟨h1, h2⟩ | ⟨h1, h2, h3⟩
  · exact absurd h1 hs
  · obtain ⟨z, hz, hf'⟩ := series_steps_file c vals garbage k h1 h2 h3 (hc.file.trans hf)
    rw [h] at hz
    cases hz
    exact hf'

/-- Particle distribution after `k` complete steps. -/
theorem steps_rows_dist (hr : StartedRun w file c config n s0) (hops : w.bdOps.Lawful) (o : Dict (OptVal ℝ))
    (ho : config.particleDistribution = some o) (states : List (List (ℝ × ℝ))) (hst : stateRanges o = .ok states)
    (hd : ∀ s ∈ states, s.length = d) (hw : 0 < s0.particles.length) (hs : seriesStride o ≠ 0) (hf : hasFilename o = true)
    (k : Nat) (u : Sim d R) (hu : runSteps w c k s0 = .ok u) : u.fileRows .distribution =
      (sampledSteps (seriesStride o) 0 (k / seriesWriteStride o * seriesWriteStride o)).map
        (fun t : Nat => .numbers ((t : ℝ) :: walkersIn states (hr.path t))) := by
  have hv := (input_valid 1 one_pos file config hr.parse).particleDistribution o ho
  obtain ⟨_, _, _, _, _, _, _, _, _, _, h6, _⟩ := setupOptional_parts w config _ _ _ _ rfl rfl hr.optional
  rw [ho] at h6
  obtain ⟨b, hb, hb1, hb2⟩ := h6
  obtain ⟨p1, p2, p3, p4⟩ := setupDistribution_inv w o b hb
  have hopt := setupDistribution_options w o b hv.toValidOutput hb
  rw [hst] at p4
  cases p4
  obtain ⟨y, hy, he⟩ := steps_dist w c s0 hr.setup.bdSome b.1 b.2 hb1 hb2 k u hu
  rw [p3] at he
  have hrow : ∀ t, distRow b.1 (s0.path w c t) = walkersIn b.1.states (hr.path t) := fun t =>
    distRow_spec b.1 _ (by
      intro h0
      have h1 := hr.path_length hops t
      rw [show hr.path t = s0.path w c t from rfl, h0] at h1
      simp at h1
      omega) hd
  simp only [Sim.fileRows, hy, series_steps_rows o _ hopt hs hf _ _ k y he, p2, hrow, List.map_map]
  rfl

/-- Whatever stops the program after step `k` is complete: the distribution file contains the sampled steps up to the
last multiple of the write stride before. -/
theorem stopped_distribution (hr : StartedRun w file c config n s0) (hops : w.bdOps.Lawful) (o : Dict (OptVal ℝ))
    (ho : config.particleDistribution = some o) (states : List (List (ℝ × ℝ))) (hst : stateRanges o = .ok states)
    (hd : ∀ s ∈ states, s.length = d) (hw : 0 < s0.particles.length) (hs : seriesStride o ≠ 0) (hf : hasFilename o = true)
    (k : Nat) (hk : k ≤ n) (u : Sim d R) (hu : runSteps w c k s0 = .ok u) (m : Nat) (hm : k * c.actions.length ≤ m) :
    (sampledSteps (seriesStride o) 0 (k / seriesWriteStride o * seriesWriteStride o)).map
        (fun t : Nat => .numbers ((t : ℝ) :: walkersIn states (hr.path t))) <+: (hr.stateAt m).fileRows .distribution := by
  rw [← steps_rows_dist hr hops o ho states hst hd hw hs hf k u hu, ← (stopped_steps hr k hk u hu).1]
  exact (stopped_later hr _ _ hm).rows _

/-- Free energy differences: as many rows as sampled steps up to the last multiple of the write stride. -/
theorem stopped_deltaF_count (hr : StartedRun w file c config n s0) (o : Dict (OptVal ℝ)) (ho : config.deltaF = some o)
    (hs : seriesStride o ≠ 0) (hf : hasFilename o = true) (k : Nat) (hk : k ≤ n) (u : Sim d R) (hu : runSteps w c k s0 = .ok u) :
    ((hr.stateAt (k * c.actions.length)).fileRows .deltaF).length =
      (sampledSteps (seriesStride o) 0 (k / seriesWriteStride o * seriesWriteStride o)).length := by
  rw [(stopped_steps hr k hk u hu).1]
  have hv := (input_valid 1 one_pos file config hr.parse).deltaF o ho
  obtain ⟨_, _, _, _, _, _, _, _, _, h5, _⟩ := setupOptional_parts w config _ _ _ _ rfl rfl hr.optional
  rw [ho] at h5
  obtain ⟨f, y, b, hfc, hy, hb, hb1, hb2⟩ := h5
  obtain ⟨q1, q2, q3, q4, states', q5, hm⟩ := setupDeltaF_inv w _ _ _ _ _ hb
  have hopt := setupDeltaF_options w o _ _ y b hv.toValidOutput hb
  obtain ⟨p1, p2, h0, x0, hh0, hx0, hs0⟩ := hr.setup.fes _ hfc
  obtain ⟨z, hz, he⟩ := steps_deltaF w c s0 _ hfc ⟨h0, x0, hh0, by rw [p2]; exact hx0, hs0⟩ b.1 b.2 hb1 hb2 k u hu
  rw [q4] at he
  simp only [Sim.fileRows, hz, series_steps_rows o _ hopt hs hf _ _ k z he, List.length_map]

/-- Free energies after `k` complete steps: one file for every multiple of the write stride. -/
theorem stopped_fes (hr : StartedRun w file c config n s0) (o : Dict (OptVal ℝ)) (ho : config.fes = some o) (k : Nat)
    (hk : k ≤ n) (u : Sim d R) (hu : runSteps w c k s0 = .ok u) :
    (hr.stateAt (k * c.actions.length)).fesWrites = (sampledSteps (natOption o "write-stride" 0) 0 k).map
      (fun t => (filenameOf o ++ "_" ++ Nat.repr t, s0.fesAt w c t)) := by
  rw [(stopped_steps hr k hk u hu).1]
  have hv := (input_valid 1 one_pos file config hr.parse).fes o ho
  obtain ⟨_, _, _, _, _, _, _, _, h4, _, _, _, hw, _⟩ := setupOptional_parts w config _ _ _ _ rfl rfl hr.optional
  rw [ho] at h4
  obtain ⟨y, b, hy, hb, hc, hs⟩ := h4
  have hopt := setupFes_out _ _ _ _ _ hv.toValidOutput hb
  have hkt := (setupFes_parts _ _ _ _ _ hb).kt
  have hcalc := (setupFes_parts _ _ _ _ _ hb).fes
  exact steps_fesWrites w c s0 b.1 hc ⟨y, b.2, hy, by rw [hkt]; exact hcalc, hs⟩ o hopt hw k u hu

/-- Histograms after `k` complete steps: one file for every multiple of the write stride. -/
theorem stopped_histogram (hr : StartedRun w file c config n s0) (o oh : Dict (OptVal ℝ)) (ho : config.trajectories = some o)
    (hoh : config.histogram = some oh) (k : Nat) (hk : k ≤ n) (u : Sim d R) (hu : runSteps w c k s0 = .ok u) :
    ((hr.stateAt (k * c.actions.length)).histWrites).map Prod.fst = (sampledSteps (natOption oh "write-stride" 0) 0 k).map
      (fun t => filenameOf oh ++ "_" ++ Nat.repr t) := by
  rw [(stopped_steps hr k hk u hu).1]
  have hv := (input_valid 1 one_pos file config hr.parse).histogram oh hoh
  obtain ⟨h1, h2⟩ := started_traj_setup hr o ho
  obtain ⟨_, _, _, _, _, _, _, h3, _, _, _, hw, _⟩ := setupOptional_parts w config _ _ _ _ rfl rfl hr.optional
  rw [hoh] at h3
  obtain ⟨t, b, ht, hb, hb1, hb2⟩ := h3
  have hopt := setupHistogram_out _ _ _ hv.toValidOutput hb
  obtain ⟨y, e1, _⟩ := steps_histWrites w c s0 hr.setup.bdSome _ _ h1 h2 b.1 b.2.1 b.2.2 hb1 hb2 oh hopt hw k u hu
  rw [e1, List.map_map]
  rfl

/-! ### A run that would have finished -/

section

variable {a : AnySim R} {s0 : Sim a.d R}

theorem finished_steps (hr : FinishedRun w file a config n s0) (k : Nat) (hk : k ≤ n) : ∃ u, runSteps w a.cfg k s0 = .ok u := by
  obtain ⟨v, hv, _⟩ := bind_ok hr.sim
  exact runSteps_le w a.cfg s0 n v hv k hk

/-- Stopped at any time, the files are the beginning of those of the whole run. -/
theorem stopped_prefix (hr : FinishedRun w file a config n s0) (m : Nat) : Later (hr.started.stateAt m) a.sim := by
  rw [← (stopped_finished hr (max m (schedule a.cfg.actions n).length) (le_max_right _ _)).1]
  exact stopped_later hr.started _ _ (le_max_left _ _)

/-- If the whole run has different names for its files, so has every beginning of it. -/
theorem stopped_names (hr : FinishedRun w file a config n s0) (hn : hr.fileNames.Nodup) (m : Nat) :
    (diskNames hr.files (hr.started.stateAt m)).Nodup := by
  have h := (stopped_prefix hr m).grows
  refine hn.sublist ?_
  unfold diskNames FinishedRun.fileNames
  refine (((List.Sublist.refl _).append (h.hist.sublist.map _)).append (h.fes.sublist.map _)).append ?_
  exact (h.plots.sublist.filter _).map _

/-- C152: a run stopped after any number of calls, and the same run continued to its end. -/
theorem stopped_run (hr : FinishedRun w file a config n s0) (hn : hr.fileNames.Nodup) (fs : FileSys DiskLine) (m : Nat) :
    ∃ fs' fs'', execOps fs (hr.started.opsAt m) = some fs' ∧ execOps fs hr.ops = some fs'' ∧
      ∀ f ∈ hr.files, ∃ rows more, fs'.get f.1 = some (.header f.2 :: rows) ∧ fs''.get f.1 = some (.header f.2 :: (rows ++ more)) := by
  obtain ⟨fs', h1, _, h2⟩ := stopped_disk hr.started m fs
  obtain ⟨_, fs'', h3, _, h4⟩ := main_disk_partial hr fs
  refine ⟨fs', fs'', h1, h3, fun f hf => ?_⟩
  obtain ⟨more, hm⟩ := (stopped_prefix hr m).rows f.2
  exact ⟨_, more, (h2 (stopped_names hr hn m)).1 f hf, by rw [hm]; exact (h4 hn).1 f hf⟩

/-- The statistics after `k` complete steps: all records of these steps. -/
theorem stopped_records (hr : FinishedRun w file a config n s0) (hops : w.bdOps.Lawful) (o : Dict (OptVal ℝ))
    (ho : config.birthDeath = some o) (k : Nat) (hk : k ≤ n) :
    (hr.started.stateAt (k * a.cfg.actions.length)).fileRows .stats =
      (((List.range k).map (· + 1)).filter (fun i => decide (natOption o "stats-stride" 0 ≠ 0 ∧
        natOption o "stats-stride" 0 ∣ i))).map (fun i => .counters (i, hr.counters i)) := by
  obtain ⟨u, hu⟩ := finished_steps hr k hk
  rw [(stopped_steps hr.started k hk u hu).1]
  obtain ⟨z, k1, _, _, _, k2, _⟩ := dynSteps_counters hr hops o ho k u.dyn (runSteps_dyn w a.cfg k s0 u hr.setup.bdSome hu)
  rw [show u.dyn.bd = u.bd from rfl] at k1
  simp only [Sim.fileRows, k1, k2, List.map_map]
  rfl

end

end

end Bdld
