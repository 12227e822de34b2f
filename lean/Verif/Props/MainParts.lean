import Verif.Props.MainRun

/-
The simulation taken apart: what every single action sees and changes. With this the theorems about the single
actions can be applied to the whole program.
-/

set_option linter.unusedSectionVars false

namespace Bdld

open Spec

variable {R : Type} {d : Nat}

/-! ### Single actions -/

theorem run_ld_inv (w : World R) (c : SimCfg d) (s s' : Sim d R) (step : Nat)
    (h : runAction w c s .ld step = .ok s') :
    s' = { s with particles := s'.particles, ldRng := s'.ldRng } := by
  simp only [runAction] at h
  obtain ⟨x, _, h⟩ := bind_ok h
  cases h; rfl

theorem run_bd_inv (w : World R) (c : SimCfg d) (s s' : Sim d R) (step : Nat)
    (h : runAction w c s .birthDeath step = .ok s') :
    s' = { s with particles := s'.particles, bd := s'.bd } := by
  simp only [runAction] at h
  split at h
  · obtain ⟨x, _, h⟩ := bind_ok h
    cases h; rfl
  · cases h; rfl

/-- The new state of the trajectory action. -/
def TrajStep (c : SimCfg d) (step : Nat) (ps : List (LdParticle ℝ d)) (x y : Option (TrajState ℝ)) : Prop :=
  match c.traj, x with
  | some t, some x => ∃ z, x.run t step (snapshotOf ps) = .ok z ∧ y = some z
  | _, _ => y = x

theorem run_traj_inv (w : World R) (c : SimCfg d) (s s' : Sim d R) (step : Nat)
    (h : runAction w c s .trajectories step = .ok s') :
    s' = { s with traj := s'.traj } ∧ TrajStep c step s.particles s.traj s'.traj := by
  simp only [runAction] at h
  unfold TrajStep
  split at h
  · obtain ⟨x, hx, h⟩ := bind_ok h
    cases h
    simp_all
  · cases h
    refine ⟨rfl, ?_⟩
    split <;> simp_all

/-- The new histogram. -/
def HistStep (c : SimCfg d) (step : Nat) (t : Option (TrajState ℝ)) (x y : Option (Histogram ℝ)) : Prop :=
  match c.traj, t, c.hist, x with
  | some tc, some t, some (h, _), some x => ∃ z, histRun tc h t x step = .ok z ∧ y = some z
  | _, _, _, _ => y = x

theorem histRun_reset (t : TrajCfg ℝ) (h : HistCfg) (x : TrajState ℝ) (y z : Histogram ℝ) (step : Nat)
    (hz : histRun t { h with reset := [] } x y step = .ok z) :
    histRun t h x y step = .ok (if step ∈ h.reset then z.clear else z) := by
  simp only [histRun, pure_eq_ok] at hz ⊢
  by_cases h0 : h.updateStride = 0
  · simp only [h0, if_true] at hz
    cases hz
  · simp only [h0, if_false] at hz ⊢
    obtain ⟨v, hv, hz⟩ := bind_ok hz
    cases hz
    have : (if pyMod (step : Int) (h.updateStride : Int) = 0 then addTrajData t h x y step else .ok y) =
      .ok v := hv
    rw [this]
    simp [ok_bind]

/-- Files written by the histogram action: the histogram before a reset in the same step. -/
def HistWriteStep (c : SimCfg d) (step : Nat) (t : Option (TrajState ℝ)) (x : Option (Histogram ℝ))
    (wr wr' : List (String × Histogram ℝ)) : Prop :=
  match c.traj, t, c.hist, x with
  | some tc, some t, some (h, out), some x =>
    ∃ z, histRun tc { h with reset := [] } t x step = .ok z ∧ wr' = gridWriteStride out step z wr
  | _, _, _, _ => wr' = wr

theorem run_hist_inv (w : World R) (c : SimCfg d) (s s' : Sim d R) (step : Nat)
    (h : runAction w c s .histogram step = .ok s') :
    s' = { s with hist := s'.hist, histWrites := s'.histWrites } ∧ HistStep c step s.traj s.hist s'.hist ∧
      HistWriteStep c step s.traj s.hist s.histWrites s'.histWrites := by
  simp only [runAction] at h
  unfold HistStep HistWriteStep
  split at h
  · obtain ⟨x, hx, h⟩ := bind_ok h
    cases h
    have := histRun_reset _ _ _ _ _ _ hx
    simp_all
  · cases h
    rename_i hn
    refine ⟨rfl, ?_, ?_⟩
    · split
      · exact (hn _ _ _ _ _ (by assumption) (by assumption) (by assumption) (by assumption)).elim
      · rfl
    · split
      · exact (hn _ _ _ _ _ (by assumption) (by assumption) (by assumption) (by assumption)).elim
      · rfl

/-- The new free energy surface. -/
def FesStep (c : SimCfg d) (step : Nat) (h : Option (Histogram ℝ)) (x y : Option (Nd (WithTop ℝ))) : Prop :=
  match c.fes, h, x with
  | some f, some h, some x =>
    if truthyNat f.stride && step % f.stride.getD 0 == 0 then
      ∃ z, calculateFes h.counts f.kt true = .ok z ∧ y = some z
    else y = some x
  | _, _, _ => y = x

/-- Files written by the FES action. -/
def FesWriteStep (c : SimCfg d) (step : Nat) (h : Option (Histogram ℝ)) (y : Option (Nd (WithTop ℝ)))
    (wr wr' : List (String × Nd (WithTop ℝ))) : Prop :=
  match c.fes, h, y with
  | some f, some _, some y => wr' = gridWriteStride f.out step y wr
  | _, _, _ => wr' = wr

/-- Plots made by the FES action. -/
def PlotStep (c : SimCfg d) (step : Nat) (h : Option (Histogram ℝ)) (y : Option (Nd (WithTop ℝ)))
    (pl pl' : List PlotOut) : Prop :=
  match c.fes, h, y with
  | some f, some h, some y => fesPlotStride f.plot step y h.fesAxes pl = .ok pl'
  | _, _, _ => pl' = pl

theorem run_fes_inv (w : World R) (c : SimCfg d) (s s' : Sim d R) (step : Nat)
    (h : runAction w c s .fes step = .ok s') :
    s' = { s with fes := s'.fes, fesWrites := s'.fesWrites, plots := s'.plots } ∧
      FesStep c step s.hist s.fes s'.fes ∧ FesWriteStep c step s.hist s'.fes s.fesWrites s'.fesWrites ∧
      PlotStep c step s.hist s'.fes s.plots s'.plots := by
  simp only [runAction] at h
  unfold FesStep FesWriteStep PlotStep
  split at h
  · obtain ⟨x, hx, h⟩ := bind_ok h
    obtain ⟨p, hp, h⟩ := bind_ok h
    cases h
    refine ⟨rfl, ?_, by simp_all, by simp_all⟩
    split at hx
    · rename_i hc
      simp_all
    · rename_i hc
      cases hx
      simp_all
  · cases h
    refine ⟨rfl, ?_, ?_, ?_⟩
    · split <;> simp_all
    · split <;> simp_all
    · split <;> simp_all

/-- The new state of the delta F series. -/
def DeltaFStep (c : SimCfg d) (step : Nat) (fes : Option (Nd (WithTop ℝ))) (x y : Option (SeriesState ℝ)) : Prop :=
  match c.deltaF, fes, x with
  | some f, some fes, some x => ∃ vals z,
      deltaFVals f fes (decide (f.series.stride ≠ 0 ∧ step % f.series.stride = 0)) = .ok vals ∧
      x.run f.series step vals = .ok z ∧ y = some z
  | _, _, _ => y = x

theorem run_deltaF_inv (w : World R) (c : SimCfg d) (s s' : Sim d R) (step : Nat)
    (h : runAction w c s .deltaF step = .ok s') :
    s' = { s with deltaF := s'.deltaF } ∧ DeltaFStep c step s.fes s.deltaF s'.deltaF := by
  simp only [runAction] at h
  unfold DeltaFStep
  split at h
  · obtain ⟨x, hx, h⟩ := bind_ok h
    obtain ⟨y, hy, h⟩ := bind_ok h
    cases h
    refine ⟨rfl, ?_⟩
    simp only [*]
    exact ⟨x, y, rfl, hy, rfl⟩
  · cases h
    refine ⟨rfl, ?_⟩
    split <;> simp_all

/-- The new state of the particle distribution. -/
def DistStep (c : SimCfg d) (step : Nat) (ps : List (LdParticle ℝ d)) (x y : Option (SeriesState ℝ)) : Prop :=
  match c.dist, x with
  | some f, some x => ∃ vals z,
      distVals f ps (decide (f.series.stride ≠ 0 ∧ step % f.series.stride = 0)) = .ok vals ∧
      x.run f.series step vals = .ok z ∧ y = some z
  | _, _ => y = x

theorem run_dist_inv (w : World R) (c : SimCfg d) (s s' : Sim d R) (step : Nat)
    (h : runAction w c s .particleDistribution step = .ok s') :
    s' = { s with dist := s'.dist } ∧ DistStep c step s.particles s.dist s'.dist := by
  simp only [runAction] at h
  unfold DistStep
  split at h
  · obtain ⟨x, hx, h⟩ := bind_ok h
    obtain ⟨y, hy, h⟩ := bind_ok h
    cases h
    refine ⟨rfl, ?_⟩
    simp only [*]
    exact ⟨x, y, rfl, hy, rfl⟩
  · cases h
    refine ⟨rfl, ?_⟩
    split <;> simp_all

/-! ### One step -/

/-- The state without the record of events. -/
def Sim.quiet (s : Sim d R) : Sim d R := { s with events := [] }

theorem runAction_quiet (w : World R) (c : SimCfg d) (s s' : Sim d R) (a : ActName) (step : Nat)
    (h : runAction w c s a step = .ok s') : runAction w c s.quiet a step = .ok s'.quiet := by
  cases a <;> simp only [runAction, Sim.quiet] at h ⊢
  case ld =>
    obtain ⟨x, hx, h⟩ := bind_ok h
    cases h
    rw [hx]; rfl
  case birthDeath =>
    split at h
    · obtain ⟨x, hx, h⟩ := bind_ok h
      cases h
      rw [hx]; rfl
    · cases h; rfl
  case trajectories =>
    split at h
    · obtain ⟨x, hx, h⟩ := bind_ok h
      cases h
      rw [hx]; rfl
    · cases h; rfl
  case histogram =>
    split at h
    · obtain ⟨x, hx, h⟩ := bind_ok h
      cases h
      rw [hx]; rfl
    · cases h; rfl
  case fes =>
    split at h
    · obtain ⟨x, hx, h⟩ := bind_ok h
      obtain ⟨y, hy, h⟩ := bind_ok h
      cases h
      rw [hx, ok_bind, hy]; rfl
    · cases h; rfl
  case deltaF =>
    split at h
    · obtain ⟨x, hx, h⟩ := bind_ok h
      obtain ⟨y, hy, h⟩ := bind_ok h
      cases h
      rw [hx, ok_bind, hy]; rfl
    · cases h; rfl
  case particleDistribution =>
    split at h
    · obtain ⟨x, hx, h⟩ := bind_ok h
      obtain ⟨y, hy, h⟩ := bind_ok h
      cases h
      rw [hx, ok_bind, hy]; rfl
    · cases h; rfl

theorem finalAction_quiet (c : SimCfg d) (s s' : Sim d R) (a : ActName) (step : Nat)
    (h : finalAction c s a step = .ok s') : finalAction c s.quiet a step = .ok s'.quiet := by
  cases a <;> simp only [finalAction, Sim.quiet] at h ⊢
  case ld => cases h; rfl
  case birthDeath =>
    split at h
    · cases h; rfl
    · cases h; rfl
  case trajectories =>
    split at h
    · obtain ⟨x, hx, h⟩ := bind_ok h
      cases h
      rw [hx]; rfl
    · cases h; rfl
  case histogram =>
    split at h
    · obtain ⟨x, hx, h⟩ := bind_ok h
      cases h
      rw [hx]; rfl
    · cases h; rfl
  case fes =>
    split at h
    · obtain ⟨x, hx, h⟩ := bind_ok h
      obtain ⟨y, hy, h⟩ := bind_ok h
      cases h
      rw [hx, ok_bind, hy]; rfl
    · cases h; rfl
  case deltaF =>
    split at h
    · obtain ⟨x, hx, h⟩ := bind_ok h
      obtain ⟨y, hy, h⟩ := bind_ok h
      cases h
      rw [hx, ok_bind, hy]; rfl
    · cases h; rfl
  case particleDistribution =>
    split at h
    · obtain ⟨x, hx, h⟩ := bind_ok h
      obtain ⟨y, hy, h⟩ := bind_ok h
      cases h
      rw [hx, ok_bind, hy]; rfl
    · cases h; rfl

/-- Is the action set up? -/
def SimCfg.has (c : SimCfg d) : ActName → Bool
  | .ld => true
  | .birthDeath => c.bd.isSome
  | .trajectories => c.traj.isSome
  | .histogram => c.hist.isSome
  | .fes => c.fes.isSome
  | .deltaF => c.deltaF.isSome
  | .particleDistribution => c.dist.isSome

theorem actions_filter (c : SimCfg d) : c.actions = allActions.filter c.has := by
  rw [SimCfg.actions, actions_bools]
  apply List.filter_congr
  intro a _
  cases a <;> rfl

theorem runAction_hasnt (w : World R) (c : SimCfg d) (s : Sim d R) (a : ActName) (step : Nat)
    (h : c.has a = false) : runAction w c s a step = .ok s := by
  cases a <;> simp only [SimCfg.has, Option.isSome_eq_false_iff, Option.isNone_iff_eq_none, Bool.true_eq_false] at h <;>
    simp [runAction, h]

theorem finalAction_hasnt (c : SimCfg d) (s : Sim d R) (a : ActName) (step : Nat)
    (h : c.has a = false) : finalAction c s a step = .ok s := by
  cases a <;> simp only [SimCfg.has, Option.isSome_eq_false_iff, Option.isNone_iff_eq_none, Bool.true_eq_false] at h <;>
    simp [finalAction, h]

theorem foldlM_filter_skip {α β : Type} (f : β → α → Except PyErr β) (p : α → Bool)
    (hp : ∀ a, p a = false → ∀ s, f s a = .ok s) : ∀ (l : List α) (s : β),
      (l.filter p).foldlM f s = l.foldlM f s := by
  intro l
  induction l with
  | nil => intro s; rfl
  | cons a l ih =>
    intro s
    cases h : p a with
    | true =>
      rw [List.filter_cons_of_pos h, List.foldlM_cons, List.foldlM_cons]
      cases hf : f s a with
      | error e => rfl
      | ok t => exact ih t
    | false =>
      rw [List.filter_cons_of_neg (by simp [h]), List.foldlM_cons, hp a h s, ok_bind]
      exact ih s

theorem runEvents_quiet (w : World R) (c : SimCfg d) (step : Nat) (acts : List ActName) :
    ∀ s s' : Sim d R, acts.foldlM (runEvent w c step) s = .ok s' →
      acts.foldlM (fun s a => runAction w c s a step) s.quiet = .ok s'.quiet := by
  induction acts with
  | nil => intro s s' h; cases h; rfl
  | cons a acts ih =>
    intro s s' h
    rw [List.foldlM_cons] at h ⊢
    obtain ⟨t, ht, h⟩ := bind_ok h
    obtain ⟨u, hu, ht⟩ := bind_ok ht
    cases ht
    rw [runAction_quiet w c s u a step hu, ok_bind]
    have := ih _ _ h
    exact this

theorem finalEvents_quiet (c : SimCfg d) (step : Nat) (acts : List ActName) :
    ∀ s s' : Sim d R, acts.foldlM (finalEvent c step) s = .ok s' →
      acts.foldlM (fun s a => finalAction c s a step) s.quiet = .ok s'.quiet := by
  induction acts with
  | nil => intro s s' h; cases h; rfl
  | cons a acts ih =>
    intro s s' h
    rw [List.foldlM_cons] at h ⊢
    obtain ⟨t, ht, h⟩ := bind_ok h
    obtain ⟨u, hu, ht⟩ := bind_ok ht
    cases ht
    rw [finalAction_quiet c s u a step hu, ok_bind]
    have := ih _ _ h
    exact this

/-- What one step does to the state of the analysis actions. -/
structure AnalysisStep (c : SimCfg d) (step : Nat) (s s' : Sim d R) : Prop where
  traj : TrajStep c step s'.particles s.traj s'.traj
  hist : HistStep c step s'.traj s.hist s'.hist
  histWrites : HistWriteStep c step s'.traj s.hist s.histWrites s'.histWrites
  fes : FesStep c step s'.hist s.fes s'.fes
  fesWrites : FesWriteStep c step s'.hist s'.fes s.fesWrites s'.fesWrites
  plots : PlotStep c step s'.hist s'.fes s.plots s'.plots
  deltaF : DeltaFStep c step s'.fes s.deltaF s'.deltaF
  dist : DistStep c step s'.particles s.dist s'.dist

theorem step_analysis (w : World R) (c : SimCfg d) (step : Nat) (s s' : Sim d R)
    (h : c.actions.foldlM (runEvent w c step) s = .ok s') : AnalysisStep c step s s' := by
  have h := runEvents_quiet w c step _ s s' h
  rw [actions_filter, foldlM_filter_skip _ _ (fun a ha s => runAction_hasnt w c s a step ha)] at h
  simp only [allActions, List.foldlM] at h
  obtain ⟨s1, h1, h⟩ := bind_ok h
  obtain ⟨s2, h2, h⟩ := bind_ok h
  obtain ⟨s3, h3, h⟩ := bind_ok h
  obtain ⟨s4, h4, h⟩ := bind_ok h
  obtain ⟨s5, h5, h⟩ := bind_ok h
  obtain ⟨s6, h6, h⟩ := bind_ok h
  obtain ⟨s7, h7, h⟩ := bind_ok h
  have e7 : s7 = s'.quiet := by cases h; rfl
  subst e7
  have e1 := run_ld_inv w c _ _ step h1
  have e2 := run_bd_inv w c _ _ step h2
  obtain ⟨e3, p3⟩ := run_traj_inv w c _ _ step h3
  obtain ⟨e4, p4, p4w⟩ := run_hist_inv w c _ _ step h4
  obtain ⟨e5, p5, p5w, p5p⟩ := run_fes_inv w c _ _ step h5
  obtain ⟨e6, p6⟩ := run_deltaF_inv w c _ _ step h6
  obtain ⟨e7, p7⟩ := run_dist_inv w c _ _ step h7
  have part3 : s3.particles = s2.particles := by have := congrArg Sim.particles e3; exact this
  have part4 : s4.particles = s3.particles := by have := congrArg Sim.particles e4; exact this
  have part5 : s5.particles = s4.particles := by have := congrArg Sim.particles e5; exact this
  have part6 : s6.particles = s5.particles := by have := congrArg Sim.particles e6; exact this
  have part7 : s'.particles = s6.particles := by have := congrArg Sim.particles e7; exact this
  have part : s'.particles = s2.particles := by rw [part7, part6, part5, part4, part3]
  have traj1 : s1.traj = s.traj := by have := congrArg Sim.traj e1; exact this
  have traj2 : s2.traj = s1.traj := by have := congrArg Sim.traj e2; exact this
  have traj4 : s4.traj = s3.traj := by have := congrArg Sim.traj e4; exact this
  have traj5 : s5.traj = s4.traj := by have := congrArg Sim.traj e5; exact this
  have traj6 : s6.traj = s5.traj := by have := congrArg Sim.traj e6; exact this
  have traj7 : s'.traj = s6.traj := by have := congrArg Sim.traj e7; exact this
  have hist1 : s1.hist = s.hist := by have := congrArg Sim.hist e1; exact this
  have hist2 : s2.hist = s1.hist := by have := congrArg Sim.hist e2; exact this
  have hist3 : s3.hist = s2.hist := by have := congrArg Sim.hist e3; exact this
  have hist5 : s5.hist = s4.hist := by have := congrArg Sim.hist e5; exact this
  have hist6 : s6.hist = s5.hist := by have := congrArg Sim.hist e6; exact this
  have hist7 : s'.hist = s6.hist := by have := congrArg Sim.hist e7; exact this
  have fes1 : s1.fes = s.fes := by have := congrArg Sim.fes e1; exact this
  have fes2 : s2.fes = s1.fes := by have := congrArg Sim.fes e2; exact this
  have fes3 : s3.fes = s2.fes := by have := congrArg Sim.fes e3; exact this
  have fes4 : s4.fes = s3.fes := by have := congrArg Sim.fes e4; exact this
  have fes6 : s6.fes = s5.fes := by have := congrArg Sim.fes e6; exact this
  have fes7 : s'.fes = s6.fes := by have := congrArg Sim.fes e7; exact this
  have df1 : s1.deltaF = s.deltaF := by have := congrArg Sim.deltaF e1; exact this
  have df2 : s2.deltaF = s1.deltaF := by have := congrArg Sim.deltaF e2; exact this
  have df3 : s3.deltaF = s2.deltaF := by have := congrArg Sim.deltaF e3; exact this
  have df4 : s4.deltaF = s3.deltaF := by have := congrArg Sim.deltaF e4; exact this
  have df5 : s5.deltaF = s4.deltaF := by have := congrArg Sim.deltaF e5; exact this
  have df7 : s'.deltaF = s6.deltaF := by have := congrArg Sim.deltaF e7; exact this
  have di1 : s1.dist = s.dist := by have := congrArg Sim.dist e1; exact this
  have di2 : s2.dist = s1.dist := by have := congrArg Sim.dist e2; exact this
  have di3 : s3.dist = s2.dist := by have := congrArg Sim.dist e3; exact this
  have di4 : s4.dist = s3.dist := by have := congrArg Sim.dist e4; exact this
  have di5 : s5.dist = s4.dist := by have := congrArg Sim.dist e5; exact this
  have di6 : s6.dist = s5.dist := by have := congrArg Sim.dist e6; exact this
  have hw1 : s1.histWrites = s.histWrites := by have := congrArg Sim.histWrites e1; exact this
  have hw2 : s2.histWrites = s1.histWrites := by have := congrArg Sim.histWrites e2; exact this
  have hw3 : s3.histWrites = s2.histWrites := by have := congrArg Sim.histWrites e3; exact this
  have hw5 : s5.histWrites = s4.histWrites := by have := congrArg Sim.histWrites e5; exact this
  have hw6 : s6.histWrites = s5.histWrites := by have := congrArg Sim.histWrites e6; exact this
  have hw7 : s'.histWrites = s6.histWrites := by have := congrArg Sim.histWrites e7; exact this
  have fw1 : s1.fesWrites = s.fesWrites := by have := congrArg Sim.fesWrites e1; exact this
  have fw2 : s2.fesWrites = s1.fesWrites := by have := congrArg Sim.fesWrites e2; exact this
  have fw3 : s3.fesWrites = s2.fesWrites := by have := congrArg Sim.fesWrites e3; exact this
  have fw4 : s4.fesWrites = s3.fesWrites := by have := congrArg Sim.fesWrites e4; exact this
  have fw6 : s6.fesWrites = s5.fesWrites := by have := congrArg Sim.fesWrites e6; exact this
  have fw7 : s'.fesWrites = s6.fesWrites := by have := congrArg Sim.fesWrites e7; exact this
  have pl1 : s1.plots = s.plots := by have := congrArg Sim.plots e1; exact this
  have pl2 : s2.plots = s1.plots := by have := congrArg Sim.plots e2; exact this
  have pl3 : s3.plots = s2.plots := by have := congrArg Sim.plots e3; exact this
  have pl4 : s4.plots = s3.plots := by have := congrArg Sim.plots e4; exact this
  have pl6 : s6.plots = s5.plots := by have := congrArg Sim.plots e6; exact this
  have pl7 : s'.plots = s6.plots := by have := congrArg Sim.plots e7; exact this
  constructor
  · rw [part, traj7, traj6, traj5, traj4, ← traj1, ← traj2]; exact p3
  · rw [traj7, traj6, traj5, traj4, hist7, hist6, hist5, ← hist1, ← hist2, ← hist3]; exact p4
  · rw [traj7, traj6, traj5, traj4, hw7, hw6, hw5, ← hist1, ← hist2, ← hist3, ← hw1, ← hw2, ← hw3]; exact p4w
  · rw [hist7, hist6, hist5, fes7, fes6, ← fes1, ← fes2, ← fes3, ← fes4]; exact p5
  · rw [hist7, hist6, hist5, fes7, fes6, fw7, fw6, ← fw1, ← fw2, ← fw3, ← fw4]; exact p5w
  · rw [hist7, hist6, hist5, fes7, fes6, pl7, pl6, ← pl1, ← pl2, ← pl3, ← pl4]; exact p5p
  · rw [fes7, fes6, df7, ← df1, ← df2, ← df3, ← df4, ← df5]; exact p6
  · rw [part7, ← di1, ← di2, ← di3, ← di4, ← di5, ← di6]; exact p7

/-! ### Final actions -/

/-- Final action of the trajectories. -/
def TrajFinal (c : SimCfg d) (step : Nat) (x y : Option (TrajState ℝ)) : Prop :=
  match c.traj, x with
  | some t, some x => ∃ z, x.finalRun t step = .ok z ∧ y = some z
  | _, _ => y = x

/-- Final action of the histogram: the counts and the files. -/
def HistFinal (c : SimCfg d) (step : Nat) (t : Option (TrajState ℝ)) (x y : Option (Histogram ℝ))
    (wr wr' : List (String × Histogram ℝ)) : Prop :=
  match c.traj, t, c.hist, x with
  | some tc, some t, some (h, out), some x =>
    ∃ z, histFinal tc h t x step = .ok z ∧ y = some z ∧ wr' = gridWrite out none z wr
  | _, _, _, _ => y = x ∧ wr' = wr

/-- Final action of the FES: the values and the files. -/
def FesFinal (c : SimCfg d) (h : Option (Histogram ℝ)) (x y : Option (Nd (WithTop ℝ)))
    (wr wr' : List (String × Nd (WithTop ℝ))) : Prop :=
  match c.fes, h, x with
  | some f, some h, some _ =>
    ∃ z, calculateFes h.counts f.kt true = .ok z ∧ y = some z ∧ wr' = gridWrite f.out none z wr
  | _, _, _ => y = x ∧ wr' = wr

/-- Final plot of the FES. -/
def PlotFinal (c : SimCfg d) (h : Option (Histogram ℝ)) (y : Option (Nd (WithTop ℝ))) (pl pl' : List PlotOut) :
    Prop :=
  match c.fes, h, y with
  | some f, some h, some y => fesPlot f.plot none y h.fesAxes pl = .ok pl'
  | _, _, _ => pl' = pl

/-- Final action of the delta F series. -/
def DeltaFFinal (c : SimCfg d) (step : Nat) (fes : Option (Nd (WithTop ℝ))) (x y : Option (SeriesState ℝ)) :
    Prop :=
  match c.deltaF, fes, x with
  | some f, some fes, some x => ∃ vals z, deltaFVals f fes (decide (f.series.stride = 0)) = .ok vals ∧
      x.finalRun f.series step vals = .ok z ∧ y = some z
  | _, _, _ => y = x

/-- Final action of the particle distribution. -/
def DistFinal (c : SimCfg d) (step : Nat) (ps : List (LdParticle ℝ d)) (x y : Option (SeriesState ℝ)) : Prop :=
  match c.dist, x with
  | some f, some x => ∃ vals z, distVals f ps (decide (f.series.stride = 0)) = .ok vals ∧
      x.finalRun f.series step vals = .ok z ∧ y = some z
  | _, _ => y = x

theorem final_traj_inv (c : SimCfg d) (s s' : Sim d R) (step : Nat)
    (h : finalAction c s .trajectories step = .ok s') :
    s' = { s with traj := s'.traj } ∧ TrajFinal c step s.traj s'.traj := by
  simp only [finalAction] at h
  unfold TrajFinal
  split at h
  · obtain ⟨x, hx, h⟩ := bind_ok h
    cases h
    simp_all
  · cases h
    refine ⟨rfl, ?_⟩
    split <;> simp_all

theorem final_hist_inv (c : SimCfg d) (s s' : Sim d R) (step : Nat)
    (h : finalAction c s .histogram step = .ok s') :
    s' = { s with hist := s'.hist, histWrites := s'.histWrites } ∧
      HistFinal c step s.traj s.hist s'.hist s.histWrites s'.histWrites := by
  simp only [finalAction] at h
  unfold HistFinal
  split at h
  · obtain ⟨x, hx, h⟩ := bind_ok h
    cases h
    simp_all
  · cases h
    rename_i hn
    refine ⟨rfl, ?_⟩
    split
    · exact (hn _ _ _ _ _ (by assumption) (by assumption) (by assumption) (by assumption)).elim
    · exact ⟨rfl, rfl⟩

theorem final_fes_inv (c : SimCfg d) (s s' : Sim d R) (step : Nat)
    (h : finalAction c s .fes step = .ok s') :
    s' = { s with fes := s'.fes, fesWrites := s'.fesWrites, plots := s'.plots } ∧
      FesFinal c s.hist s.fes s'.fes s.fesWrites s'.fesWrites ∧ PlotFinal c s.hist s'.fes s.plots s'.plots := by
  simp only [finalAction] at h
  unfold FesFinal PlotFinal
  split at h
  · obtain ⟨x, hx, h⟩ := bind_ok h
    obtain ⟨p, hp, h⟩ := bind_ok h
    cases h
    refine ⟨rfl, ?_, by simp_all⟩
    simp_all
  · cases h
    refine ⟨rfl, ?_, ?_⟩
    · split <;> simp_all
    · split <;> simp_all

theorem final_deltaF_inv (c : SimCfg d) (s s' : Sim d R) (step : Nat)
    (h : finalAction c s .deltaF step = .ok s') :
    s' = { s with deltaF := s'.deltaF } ∧ DeltaFFinal c step s.fes s.deltaF s'.deltaF := by
  simp only [finalAction] at h
  unfold DeltaFFinal
  split at h
  · obtain ⟨x, hx, h⟩ := bind_ok h
    obtain ⟨y, hy, h⟩ := bind_ok h
    cases h
    refine ⟨rfl, ?_⟩
    simp only [*]
    exact ⟨x, y, rfl, hy, rfl⟩
  · cases h
    refine ⟨rfl, ?_⟩
    split <;> simp_all

theorem final_dist_inv (c : SimCfg d) (s s' : Sim d R) (step : Nat)
    (h : finalAction c s .particleDistribution step = .ok s') :
    s' = { s with dist := s'.dist } ∧ DistFinal c step s.particles s.dist s'.dist := by
  simp only [finalAction] at h
  unfold DistFinal
  split at h
  · obtain ⟨x, hx, h⟩ := bind_ok h
    obtain ⟨y, hy, h⟩ := bind_ok h
    cases h
    refine ⟨rfl, ?_⟩
    simp only [*]
    exact ⟨x, y, rfl, hy, rfl⟩
  · cases h
    refine ⟨rfl, ?_⟩
    split <;> simp_all

/-- What the final actions do to the state. -/
structure AnalysisFinal (c : SimCfg d) (step : Nat) (s s' : Sim d R) : Prop where
  particles : s'.particles = s.particles
  traj : TrajFinal c step s.traj s'.traj
  hist : HistFinal c step s'.traj s.hist s'.hist s.histWrites s'.histWrites
  fes : FesFinal c s'.hist s.fes s'.fes s.fesWrites s'.fesWrites
  plots : PlotFinal c s'.hist s'.fes s.plots s'.plots
  deltaF : DeltaFFinal c step s'.fes s.deltaF s'.deltaF
  dist : DistFinal c step s'.particles s.dist s'.dist

theorem final_analysis (c : SimCfg d) (step : Nat) (s s' : Sim d R)
    (h : c.actions.foldlM (finalEvent c step) s = .ok s') : AnalysisFinal c step s s' := by
  have h := finalEvents_quiet c step _ s s' h
  rw [actions_filter, foldlM_filter_skip _ _ (fun a ha s => finalAction_hasnt c s a step ha)] at h
  simp only [allActions, List.foldlM] at h
  obtain ⟨s1, h1, h⟩ := bind_ok h
  obtain ⟨s2, h2, h⟩ := bind_ok h
  obtain ⟨s3, h3, h⟩ := bind_ok h
  obtain ⟨s4, h4, h⟩ := bind_ok h
  obtain ⟨s5, h5, h⟩ := bind_ok h
  obtain ⟨s6, h6, h⟩ := bind_ok h
  obtain ⟨s7, h7, h⟩ := bind_ok h
  have e7 : s7 = s'.quiet := by cases h; rfl
  subst e7
  have e1 : s1 = s.quiet := by cases h1; rfl
  have e2 : s2 = { s1 with bd := s2.bd } := by
    simp only [finalAction] at h2
    split at h2 <;> cases h2 <;> rfl
  obtain ⟨e3, p3⟩ := final_traj_inv c _ _ step h3
  obtain ⟨e4, p4⟩ := final_hist_inv c _ _ step h4
  obtain ⟨e5, p5, p5p⟩ := final_fes_inv c _ _ step h5
  obtain ⟨e6, p6⟩ := final_deltaF_inv c _ _ step h6
  obtain ⟨e7, p7⟩ := final_dist_inv c _ _ step h7
  have part1 : s1.particles = s.particles := by have := congrArg Sim.particles e1; exact this
  have part2 : s2.particles = s1.particles := by have := congrArg Sim.particles e2; exact this
  have part3 : s3.particles = s2.particles := by have := congrArg Sim.particles e3; exact this
  have part4 : s4.particles = s3.particles := by have := congrArg Sim.particles e4; exact this
  have part5 : s5.particles = s4.particles := by have := congrArg Sim.particles e5; exact this
  have part6 : s6.particles = s5.particles := by have := congrArg Sim.particles e6; exact this
  have part7 : s'.particles = s6.particles := by have := congrArg Sim.particles e7; exact this
  have traj1 : s1.traj = s.traj := by have := congrArg Sim.traj e1; exact this
  have traj2 : s2.traj = s1.traj := by have := congrArg Sim.traj e2; exact this
  have traj4 : s4.traj = s3.traj := by have := congrArg Sim.traj e4; exact this
  have traj5 : s5.traj = s4.traj := by have := congrArg Sim.traj e5; exact this
  have traj6 : s6.traj = s5.traj := by have := congrArg Sim.traj e6; exact this
  have traj7 : s'.traj = s6.traj := by have := congrArg Sim.traj e7; exact this
  have hist1 : s1.hist = s.hist := by have := congrArg Sim.hist e1; exact this
  have hist2 : s2.hist = s1.hist := by have := congrArg Sim.hist e2; exact this
  have hist3 : s3.hist = s2.hist := by have := congrArg Sim.hist e3; exact this
  have hist5 : s5.hist = s4.hist := by have := congrArg Sim.hist e5; exact this
  have hist6 : s6.hist = s5.hist := by have := congrArg Sim.hist e6; exact this
  have hist7 : s'.hist = s6.hist := by have := congrArg Sim.hist e7; exact this
  have hw1 : s1.histWrites = s.histWrites := by have := congrArg Sim.histWrites e1; exact this
  have hw2 : s2.histWrites = s1.histWrites := by have := congrArg Sim.histWrites e2; exact this
  have hw3 : s3.histWrites = s2.histWrites := by have := congrArg Sim.histWrites e3; exact this
  have hw5 : s5.histWrites = s4.histWrites := by have := congrArg Sim.histWrites e5; exact this
  have hw6 : s6.histWrites = s5.histWrites := by have := congrArg Sim.histWrites e6; exact this
  have hw7 : s'.histWrites = s6.histWrites := by have := congrArg Sim.histWrites e7; exact this
  have fes1 : s1.fes = s.fes := by have := congrArg Sim.fes e1; exact this
  have fes2 : s2.fes = s1.fes := by have := congrArg Sim.fes e2; exact this
  have fes3 : s3.fes = s2.fes := by have := congrArg Sim.fes e3; exact this
  have fes4 : s4.fes = s3.fes := by have := congrArg Sim.fes e4; exact this
  have fes6 : s6.fes = s5.fes := by have := congrArg Sim.fes e6; exact this
  have fes7 : s'.fes = s6.fes := by have := congrArg Sim.fes e7; exact this
  have fw1 : s1.fesWrites = s.fesWrites := by have := congrArg Sim.fesWrites e1; exact this
  have fw2 : s2.fesWrites = s1.fesWrites := by have := congrArg Sim.fesWrites e2; exact this
  have fw3 : s3.fesWrites = s2.fesWrites := by have := congrArg Sim.fesWrites e3; exact this
  have fw4 : s4.fesWrites = s3.fesWrites := by have := congrArg Sim.fesWrites e4; exact this
  have fw6 : s6.fesWrites = s5.fesWrites := by have := congrArg Sim.fesWrites e6; exact this
  have fw7 : s'.fesWrites = s6.fesWrites := by have := congrArg Sim.fesWrites e7; exact this
  have pl1 : s1.plots = s.plots := by have := congrArg Sim.plots e1; exact this
  have pl2 : s2.plots = s1.plots := by have := congrArg Sim.plots e2; exact this
  have pl3 : s3.plots = s2.plots := by have := congrArg Sim.plots e3; exact this
  have pl4 : s4.plots = s3.plots := by have := congrArg Sim.plots e4; exact this
  have pl6 : s6.plots = s5.plots := by have := congrArg Sim.plots e6; exact this
  have pl7 : s'.plots = s6.plots := by have := congrArg Sim.plots e7; exact this
  have df1 : s1.deltaF = s.deltaF := by have := congrArg Sim.deltaF e1; exact this
  have df2 : s2.deltaF = s1.deltaF := by have := congrArg Sim.deltaF e2; exact this
  have df3 : s3.deltaF = s2.deltaF := by have := congrArg Sim.deltaF e3; exact this
  have df4 : s4.deltaF = s3.deltaF := by have := congrArg Sim.deltaF e4; exact this
  have df5 : s5.deltaF = s4.deltaF := by have := congrArg Sim.deltaF e5; exact this
  have df7 : s'.deltaF = s6.deltaF := by have := congrArg Sim.deltaF e7; exact this
  have di1 : s1.dist = s.dist := by have := congrArg Sim.dist e1; exact this
  have di2 : s2.dist = s1.dist := by have := congrArg Sim.dist e2; exact this
  have di3 : s3.dist = s2.dist := by have := congrArg Sim.dist e3; exact this
  have di4 : s4.dist = s3.dist := by have := congrArg Sim.dist e4; exact this
  have di5 : s5.dist = s4.dist := by have := congrArg Sim.dist e5; exact this
  have di6 : s6.dist = s5.dist := by have := congrArg Sim.dist e6; exact this
  constructor
  · rw [part7, part6, part5, part4, part3, part2, part1]
  · rw [traj7, traj6, traj5, traj4, ← traj1, ← traj2]; exact p3
  · rw [traj7, traj6, traj5, traj4, hist7, hist6, hist5, hw7, hw6, hw5, ← hist1, ← hist2, ← hist3, ← hw1, ← hw2,
      ← hw3]
    exact p4
  · rw [hist7, hist6, hist5, fes7, fes6, fw7, fw6, ← fes1, ← fes2, ← fes3, ← fes4, ← fw1, ← fw2, ← fw3, ← fw4]
    exact p5
  · rw [hist7, hist6, hist5, fes7, fes6, pl7, pl6, ← pl1, ← pl2, ← pl3, ← pl4]; exact p5p
  · rw [fes7, fes6, df7, ← df1, ← df2, ← df3, ← df4, ← df5]; exact p6
  · rw [part7, ← di1, ← di2, ← di3, ← di4, ← di5, ← di6]; exact p7

end Bdld
