import Verif.Props.Halt
import Verif.Props.DiskDemo
import Verif.Props.MainPlotsDemo

/-
C152 for the example of the repository stopped in the middle, and for a run that ends with an exception.
-/

namespace Bdld

open Spec

noncomputable section

variable {R : Type}

/-- The example of the repository stopped after 1234 of its 10000 steps: the samples up to step 1200 are in the trajectory
files, and the free energy of step 1000 is on disk. -/
theorem example_stopped (w : World R) (hconv : w.conv = realConv) (hops : w.bdOps.Lawful) (hinit : w.init.Lawful)
    (hlin : LinearGriddata w) (hpng : saveable w.figFormats "fes.png" = true) (fs : FileSys DiskLine) :
    ∃ (a : AnySim R) (s0 : Sim a.d R) (hr : FinishedRun w (some exampleFile) a exampleInput 10000 s0) (fs' : FileSys DiskLine),
      execOps fs (hr.started.opsAt (1234 * a.cfg.actions.length)) = some fs' ∧
      (∀ i : Nat, i < 10 → ∃ rows, fs'.get ("traj".toList ++ '.' :: Nat.toDigits 10 i) = some (.header (.walker i) :: rows) ∧
        rows.length = 240) ∧ ∃ f, fs'.get "fes_1000".toList = some [.fes f] := by
  have hp : parseAll 1 w.conv (some exampleFile) = .ok exampleInput := by rw [hconv]; exact example_parse
  obtain ⟨a, ha⟩ := line_progress w (some exampleFile) exampleInput hp (example_consistent hpng w.terminal) hops hinit hlin
    (fun o ho => .inl (by cases ho; rfl))
  obtain ⟨config, n, s0, hr⟩ := main_run w _ a ha
  have e := hr.parse
  rw [hp] at e
  cases e
  obtain rfl : n = 10000 := by
    have := hr.steps
    cases this
    rfl
  have hlen : s0.particles.length = 10 := by
    obtain ⟨mass, number, m1, m2, m3, -⟩ := main_initial hr
    cases m2
    rw [(m3 rfl).2.2]
    simp
  obtain ⟨fs', h1, _, h2⟩ := stopped_disk hr.started (1234 * a.cfg.actions.length) fs
  obtain ⟨k1, _, k3, _⟩ := h2 (stopped_names hr (clear_names hr example_clear) _)
  obtain ⟨hd, _⟩ := (main_potential hr).oneDim rfl rfl
  obtain ⟨u, hu⟩ := finished_steps hr 1234 (by norm_num)
  refine ⟨a, s0, hr, fs', h1, fun i hi => ?_, ?_⟩
  swap
  · obtain ⟨v, hv⟩ : ∃ v, ("fes_1000", v) ∈ (hr.started.stateAt (1234 * a.cfg.actions.length)).fesWrites := by
      rw [stopped_fes hr.started exampleFesOpts rfl 1234 (by norm_num) u hu]
      refine ⟨_, List.mem_map.2 ⟨1000, ?_, rfl⟩⟩
      rw [mem_sampledSteps]
      exact ⟨by norm_num, by norm_num, ⟨2, rfl⟩⟩
    exact ⟨v, k3 (.inl hd) ("fes_1000", v) hv⟩
  have hfiles : hr.started.files = ((List.range 10).map (fun i => (walkerFile "traj".toList i, OutFile.walker i))) ++
      [("delta_f".toList, OutFile.deltaF)] := by
    unfold StartedRun.files
    rw [hlen]
    rfl
  have hm : (walkerFile "traj".toList i, OutFile.walker i) ∈ hr.started.files := by
    rw [hfiles]
    exact List.mem_append_left _ (List.mem_map.2 ⟨i, List.mem_range.2 hi, rfl⟩)
  refine ⟨_, k1 _ hm, ?_⟩
  have hf : hasFilename exampleTrajOpts = true := rfl
  have hs : natOption exampleTrajOpts "stride" 1 = 5 := rfl
  have hw : natOption exampleTrajOpts "write-stride" 100 = 100 := rfl
  simp only
  rw [(stopped_steps hr.started 1234 (by norm_num) u hu).1,
    steps_rows_traj hr.started hops exampleTrajOpts rfl hf 1234 u hu i (by rw [hlen]; exact hi), List.length_map, hs, hw,
    show 1234 / 100 * 100 = 240 * 5 by norm_num, sampledSteps_multiples 5 (by norm_num)]
  simp

/-- A run that ends with an exception: the set-up is successful, and a call of an action raises. -/
theorem demo_exception (fs : FileSys DiskLine) : ∃ (c : SimCfg 1) (s0 : Sim 1 Bool)
    (hr : StartedRun (demoWorld true) (some demoFilePng) c demoInputPng 1 s0) (fs' : FileSys DiskLine), (∃ e, ∀ m, (schedule c.actions 1).length ≤ m → (hr.stopped m).2 = some e) ∧
      execOps fs (hr.opsAt (schedule c.actions 1).length) = some fs' := by
  have hp : parseAll 1 (demoWorld true).conv (some demoFilePng) = .ok demoInputPng := demo_parse_png
  have hreq := demo_required true demoInputPng rfl rfl rfl
  obtain ⟨h0, hh0, b0, c0, d0⟩ := demo_setupHistGrid
  obtain ⟨f0, hf0⟩ := demo_fes 1 0
  have hfes := demo_setupFesPng h0 b0 f0 (by rw [demo_counts h0 1 0 b0 c0 d0]; exact hf0)
  have hdt : demoLdCfg.dt = 0 := rfl
  have hlen : [demoWalker 1, demoWalker 2].length = 2 := rfl
  let c : SimCfg 1 :=
    { kind := .overdamped, ld := demoLdCfg, traj := some demoTrajCfg,
      hist := some (⟨1, [], 1⟩, ⟨some "h", some 1⟩), fes := some ⟨1, some 1, ⟨some "f", some 1⟩, demoPlotsPng⟩ }
  let s0 : Sim 1 Bool :=
    { particles := [demoWalker 1, demoWalker 2], ldRng := true,
      traj := some (TrajState.init demoTrajCfg true (demoWorld true).emptyTimes (demoWorld true).emptyPositions
        (demoWorld true).emptyMomentum),
      hist := some h0, fes := some f0 }
  have hopt : setupOptional (demoWorld true) demoInputPng { kind := .overdamped, ld := demoLdCfg }
      { particles := [demoWalker 1, demoWalker 2], ldRng := true } = .ok (c, s0) := by
    simp only [setupOptional, demoInputPng, ok_bind, pure_eq_ok, hdt, hlen,
      demo_setupTrajOut, requireAction, hh0, hfes]
    rfl
  have hset := setup_ok (demoWorld true) (some demoFilePng) demoInputPng _ (c, s0) hp hreq hopt
  have hst : StartedRun (demoWorld true) (some demoFilePng) c demoInputPng 1 s0 := ⟨hp, rfl, hreq, hopt, hset⟩
  obtain ⟨fs', h1, _⟩ := stopped_disk hst (schedule c.actions 1).length fs
  refine ⟨c, s0, hst, fs', ?_, h1⟩
  rcases hx : (haltD (outFiles demoInputPng s0.particles.length) (demoWorld true) c (schedule c.actions 1)
    (s0, setupOps (outFiles demoInputPng s0.particles.length))) with ⟨x, _ | e⟩
  · exfalso
    have h2 := halt_simulate (outFiles demoInputPng s0.particles.length) (demoWorld true) c 1 s0
    rw [hx] at h2
    have h3 : simulate (demoWorld true) c 1 s0 = .ok x.1 := by
      rw [← simulateD_fst (outFiles demoInputPng s0.particles.length), ← h2]
      rfl
    have hr : FinishedRun (demoWorld true) (some demoFilePng) ⟨1, c, x.1⟩ demoInputPng 1 s0 :=
      ⟨hp, rfl, Nat.one_pos, hreq, hopt, hset, h3⟩
    have := main_plot_names hr demoFesPngOpts rfl rfl (by decide) (by decide) hr.pos
    exact absurd this (by decide)
  · refine ⟨e, fun m hm => ?_⟩
    unfold StartedRun.stopped
    rw [List.take_of_length_le hm, hx]

end

end Bdld
