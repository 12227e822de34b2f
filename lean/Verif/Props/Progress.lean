import Verif.Props.MainAnalysis
import Verif.Props.Langevin
import Verif.Props.Plot

/-
Progress of the whole program: after a successful set-up the simulation runs to its end, no action raises an
exception in any step.
-/

set_option linter.unusedSectionVars false

namespace Bdld

open Spec

variable {R : Type} {d : Nat}

/-! ### Series -/

theorem series_simulate_total (c : SeriesCfg ℝ) (hg : GoodSeries c) (vals : Nat → List ℝ) (valsEnd : List ℝ)
    (garbage : Nat → List ℝ) (n : Nat) :
    ∃ s, SeriesState.simulate c vals valsEnd n (SeriesState.init c garbage) = .ok s := by
  rcases hg with ⟨h1, h2⟩ | ⟨h1, h2, h3⟩
  · obtain ⟨s, hs, _⟩ := (series_no_stride c vals valsEnd garbage n h1 h2).2
    exact ⟨s, hs⟩
  · cases hf : c.hasFile with
    | false =>
      obtain ⟨s, hs, _⟩ := series_no_file c vals valsEnd garbage n h1 h2 h3 hf
      exact ⟨s, hs⟩
    | true =>
      by_cases hn : n % c.writeStride = 0 ∨ c.stride ≤ n % c.writeStride
      · obtain ⟨s, hs, _⟩ := series_file_partial c vals valsEnd garbage n h1 h2 h3 hf hn
        exact ⟨s, hs⟩
      · obtain ⟨s, hs, _⟩ := series_file_boundary c vals valsEnd garbage n h1 h2 h3 hf (by omega) (by omega)
        exact ⟨s, hs⟩

theorem seriesSteps_congr (c : SeriesCfg ℝ) (vals vals' : Nat → List ℝ) (s : SeriesState ℝ) (n : Nat)
    (h : ∀ t, t ≤ n → vals t = vals' t) : SeriesState.steps c vals n s = SeriesState.steps c vals' n s := by
  induction n with
  | zero => rfl
  | succ n ih =>
    rw [SeriesState.steps, SeriesState.steps, ih (fun t ht => h t (by omega)), h (n + 1) (le_refl _)]

/-- One more step of a series never fails, whatever the new values are. -/
theorem series_run_total (c : SeriesCfg ℝ) (hg : GoodSeries c) (vals : Nat → List ℝ) (garbage : Nat → List ℝ)
    (n : Nat) (y : SeriesState ℝ) (hy : SeriesState.steps c vals n (SeriesState.init c garbage) = .ok y)
    (v : List ℝ) : ∃ z, y.run c (n + 1) v = .ok z := by
  obtain ⟨s, hs⟩ := series_simulate_total c hg (fun t => if t ≤ n then vals t else v) [] garbage (n + 1)
  obtain ⟨z, hz, _⟩ := bind_ok hs
  rw [SeriesState.steps, seriesSteps_congr c _ vals _ n (fun t ht => by simp [ht]), hy, ok_bind] at hz
  simp only [Nat.not_succ_le_self, if_false] at hz
  exact ⟨z, hz⟩

theorem series_final_total (c : SeriesCfg ℝ) (hg : GoodSeries c) (vals : Nat → List ℝ) (garbage : Nat → List ℝ)
    (n : Nat) (y : SeriesState ℝ) (hy : SeriesState.steps c vals n (SeriesState.init c garbage) = .ok y)
    (v : List ℝ) : ∃ z, y.finalRun c n v = .ok z := by
  obtain ⟨s, hs⟩ := series_simulate_total c hg vals v garbage n
  rw [SeriesState.simulate, hy, ok_bind] at hs
  exact ⟨s, hs⟩

/-! ### Events -/

theorem runEvents_total (w : World R) (c : SimCfg d) (step : Nat) (acts : List ActName) :
    ∀ (s : Sim d R) (t : Sim d R) (e : List Event),
      acts.foldlM (fun s a => runAction w c s a step) { s with events := e } = .ok t →
      ∃ s', acts.foldlM (runEvent w c step) s = .ok s' := by
  have key : ∀ (s t : Sim d R) (e e' : List Event) (a : ActName), runAction w c { s with events := e } a step = .ok t →
      ∃ u, runAction w c { s with events := e' } a step = .ok u ∧ t = { u with events := e } := by
    intro s t e e' a h
    cases a <;> simp only [runAction] at h ⊢
    case ld =>
      obtain ⟨x, hx, h⟩ := bind_ok h
      cases h
      rw [hx]; exact ⟨_, rfl, rfl⟩
    case fes =>
      split at h
      · obtain ⟨x, hx, h⟩ := bind_ok h
        obtain ⟨y, hy, h⟩ := bind_ok h
        cases h
        rw [hx, ok_bind, hy]; exact ⟨_, rfl, rfl⟩
      · cases h; exact ⟨_, rfl, rfl⟩
    case deltaF =>
      split at h
      · obtain ⟨x, hx, h⟩ := bind_ok h
        obtain ⟨y, hy, h⟩ := bind_ok h
        cases h
        rw [hx, ok_bind, hy]; exact ⟨_, rfl, rfl⟩
      · cases h; exact ⟨_, rfl, rfl⟩
    case particleDistribution =>
      split at h
      · obtain ⟨x, hx, h⟩ := bind_ok h
        obtain ⟨y, hy, h⟩ := bind_ok h
        cases h
        rw [hx, ok_bind, hy]; exact ⟨_, rfl, rfl⟩
      · cases h; exact ⟨_, rfl, rfl⟩
    all_goals
      split at h
      · obtain ⟨x, hx, h⟩ := bind_ok h
        cases h
        rw [hx]; exact ⟨_, rfl, rfl⟩
      · cases h; exact ⟨_, rfl, rfl⟩
  induction acts with
  | nil => intro s t e h; exact ⟨s, rfl⟩
  | cons a acts ih =>
    intro s t e h
    rw [List.foldlM_cons] at h ⊢
    obtain ⟨u, hu, h⟩ := bind_ok h
    obtain ⟨v, hv, e1⟩ := key s u e s.events a hu
    obtain ⟨s', hs'⟩ := ih { v with events := v.events ++ [.run a step] } t e (by rw [← h, e1])
    exact ⟨s', by rw [runEvent, hv]; exact hs'⟩

theorem finalEvents_total (c : SimCfg d) (step : Nat) (acts : List ActName) :
    ∀ (s : Sim d R) (t : Sim d R) (e : List Event),
      acts.foldlM (fun s a => finalAction c s a step) { s with events := e } = .ok t →
      ∃ s', acts.foldlM (finalEvent c step) s = .ok s' := by
  have key : ∀ (s t : Sim d R) (e e' : List Event) (a : ActName), finalAction c { s with events := e } a step = .ok t →
      ∃ u, finalAction c { s with events := e' } a step = .ok u ∧ t = { u with events := e } := by
    intro s t e e' a h
    cases a <;> simp only [finalAction] at h ⊢
    case ld => cases h; exact ⟨_, rfl, rfl⟩
    case birthDeath => split at h <;> (cases h; exact ⟨_, rfl, rfl⟩)
    case fes =>
      split at h
      · obtain ⟨x, hx, h⟩ := bind_ok h
        obtain ⟨y, hy, h⟩ := bind_ok h
        cases h
        rw [hx, ok_bind, hy]; exact ⟨_, rfl, rfl⟩
      · cases h; exact ⟨_, rfl, rfl⟩
    case deltaF =>
      split at h
      · obtain ⟨x, hx, h⟩ := bind_ok h
        obtain ⟨y, hy, h⟩ := bind_ok h
        cases h
        rw [hx, ok_bind, hy]; exact ⟨_, rfl, rfl⟩
      · cases h; exact ⟨_, rfl, rfl⟩
    case particleDistribution =>
      split at h
      · obtain ⟨x, hx, h⟩ := bind_ok h
        obtain ⟨y, hy, h⟩ := bind_ok h
        cases h
        rw [hx, ok_bind, hy]; exact ⟨_, rfl, rfl⟩
      · cases h; exact ⟨_, rfl, rfl⟩
    all_goals
      split at h
      · obtain ⟨x, hx, h⟩ := bind_ok h
        cases h
        rw [hx]; exact ⟨_, rfl, rfl⟩
      · cases h; exact ⟨_, rfl, rfl⟩
  induction acts with
  | nil => intro s t e h; exact ⟨s, rfl⟩
  | cons a acts ih =>
    intro s t e h
    rw [List.foldlM_cons] at h ⊢
    obtain ⟨u, hu, h⟩ := bind_ok h
    obtain ⟨v, hv, e1⟩ := key s u e s.events a hu
    obtain ⟨s', hs'⟩ := ih { v with events := v.events ++ [.final a step] } t e (by rw [← h, e1])
    exact ⟨s', by rw [finalEvent, hv]; exact hs'⟩

/-! ### Single actions -/

/-- What the set-up does not check but the simulation needs. -/
structure Runnable (w : World R) (c : SimCfg d) (s : Sim d R) : Prop where
  ops : w.bdOps.Lawful
  kt : 0 < c.ld.kt
  ld : c.ld.pot.bc = none ∨ d ≤ c.ld.pot.ranges.length
  bd : ∀ b, c.bd = some b → ∀ st : BdState (LdParticle ℝ d) R, st.particles.length = s.particles.length →
    ∃ x, doBirthDeath b.cfg w.bdOps st = .ok x
  walkers : c.hist.isSome ∨ c.dist.isSome → 0 < s.particles.length
  masks : ∀ f h0, c.deltaF = some f → s.hist = some h0 → ∀ m ∈ f.masks, m.length = h0.shape.prod
  states : ∀ f, c.dist = some f → ∀ st ∈ f.states, d ≤ st.length
  plots : ∀ f, c.fes = some f → f.plot.filename.getD "" = "" ∨ PlotWorks f.plot

theorem ldRun_total (kind : LdKind) (c : LdCfg ℝ d) (normal : NormalOps R ℝ d)
    (h : c.pot.bc = none ∨ d ≤ c.pot.ranges.length) (s : LdState ℝ d R) : ∃ x, s.run kind c normal = .ok x := by
  obtain ⟨x, hx⟩ := ld_no_error kind c normal h 1 s
  obtain ⟨y, hy, hx⟩ := bind_ok hx
  cases hy
  exact ⟨x, hx⟩

theorem bdRun_total {P B U : Type} (c : BdCfg P B U) (ops : RngOps R U) (stride : Nat) (stats : Option Nat)
    (s : BdState P R × BdLog) (step : Nat) (hs : 0 < stride) (h : ∃ x, doBirthDeath c ops s.1 = .ok x) :
    ∃ y, bdRun c ops stride stats s step = .ok y := by
  obtain ⟨x, hx⟩ := h
  unfold bdRun
  rw [if_neg (by omega)]
  split
  · rw [hx]; exact ⟨_, rfl⟩
  · exact ⟨_, rfl⟩

theorem histRun_noreset (t : TrajCfg ℝ) (h : HistCfg) (x : TrajState ℝ) (y z : Histogram ℝ) (step : Nat)
    (hz : histRun t h x y step = .ok z) : ∃ z', histRun t { h with reset := [] } x y step = .ok z' := by
  simp only [histRun, pure_eq_ok] at hz ⊢
  by_cases h0 : h.updateStride = 0
  · rw [if_pos h0] at hz; cases hz
  · rw [if_neg h0] at hz
    rw [if_neg h0]
    obtain ⟨u, hu, hz⟩ := bind_ok hz
    have hu' : (if pyMod step h.updateStride = 0 then addTrajData t { h with reset := [] } x y step else .ok y) =
      .ok u := hu
    exact ⟨u, by rw [hu', ok_bind]; rfl⟩

/-- The dynamics of one step in terms of the two actions. -/
theorem dynStep_actions (w : World R) (c : SimCfg d) (s s1 s2 : Sim d R) (step : Nat)
    (h1 : runAction w c s .ld step = .ok s1) (h2 : runAction w c s1 .birthDeath step = .ok s2) :
    dynStep w c.kind c.ld c.bd s.dyn step = .ok s2.dyn := by
  simp only [runAction] at h1
  obtain ⟨x, hx, h1⟩ := bind_ok h1
  cases h1
  unfold dynStep
  simp only [Sim.dyn, hx, ok_bind]
  simp only [runAction] at h2
  split at h2
  · rename_i b z hb hz
    obtain ⟨y, hy, h2⟩ := bind_ok h2
    cases h2
    simp only [hb, hz]
    rw [hy]
    rfl
  · rename_i hn
    cases h2
    split
    · rename_i b z hb hz
      exact (hn b z hb hz).elim
    · rfl

/-- The length of the list of walkers at any step. -/
theorem runSteps_length (w : World R) (c : SimCfg d) (s : Sim d R) (hset : SetupOk w c s) (hops : w.bdOps.Lawful)
    (n : Nat) (s' : Sim d R) (h : runSteps w c n s = .ok s') : s'.particles.length = s.particles.length := by
  rw [path_runSteps w c n s s' hset.bdSome h]
  exact walkersAt_length w hops _ _ _ (fun b hb => (hset.bd b hb).1) _ n

theorem sim_good (w : World R) (c : SimCfg d) (s : Sim d R) (hset : SetupOk w c s) (hops : w.bdOps.Lawful)
    (t : TrajCfg ℝ) (ht : c.traj = some t) : GoodHist t (s.snaps w c) := by
  intro k
  have := walkersAt_length w hops c.kind c.ld c.bd (fun b hb => (hset.bd b hb).1) s.dyn k
  have h2 : (s.path w c k).length = s.particles.length := this
  simp [Sim.snaps, snapshotOf, (hset.traj t ht).1, h2]

/-- The trajectory action never fails, for any schedule of steps and writes. -/
theorem traj_total (w : World R) (c : SimCfg d) (s : Sim d R) (hset : SetupOk w c s) (hops : w.bdOps.Lawful)
    (t : TrajCfg ℝ) (ht : c.traj = some t) (es : List Spec.Event) (x : TrajState ℝ) (hx : s.traj = some x) :
    ∃ y, trajExec t (s.snaps w c) es 0 x = .ok y := by
  obtain ⟨_, h2, h3, _, f, h5⟩ := hset.traj t ht
  rw [hx] at h5
  cases h5
  have hg := sim_good w c s hset hops t ht
  cases f with
  | false =>
    obtain ⟨y, hy, _⟩ := trajectory_no_filename t _ hg h3 w.emptyTimes w.emptyPositions w.emptyMomentum es
    exact ⟨y, hy⟩
  | true =>
    obtain ⟨y, hy, _⟩ := trajectory_files t _ hg h2 h3 w.emptyTimes w.emptyPositions w.emptyMomentum es
    exact ⟨y, hy⟩

theorem snaps_dim (w : World R) (c : SimCfg d) (s : Sim d R) (k : Nat) : ∀ p ∈ (s.snaps w c k).pos, p.length = d := by
  intro p hp
  obtain ⟨q, _, rfl⟩ := List.mem_map.1 hp
  exact List.length_ofFn

theorem th_total (w : World R) (c : SimCfg d) (s : Sim d R) (hset : SetupOk w c s) (hr : Runnable w c s)
    (hc : HistCfg) (out : GridOut) (hh : c.hist = some (hc, out)) (n : Nat) (t : TrajCfg ℝ) (ht : c.traj = some t)
    (x : TrajState ℝ) (hx : s.traj = some x) (h0 : Histogram ℝ) (hh0 : s.hist = some h0) :
    (∃ y, thSteps t hc (s.snaps w c) n (x, h0) = .ok y) ∧
    (0 < n → ∃ y, thSimulate t hc (s.snaps w c) n (x, h0) = .ok y) := by
  obtain ⟨t', h0', ht', e, h1, h2, h3, h4, _⟩ := hset.hist hc out hh
  rw [ht] at ht'
  cases ht'
  rw [hh0] at e
  cases e
  obtain ⟨p1, p2, p3, _, f, p5⟩ := hset.traj t ht
  rw [hx] at p5
  cases p5
  have hg := sim_good w c s hset hr.ops t ht
  have hn : 0 < t.nParticles := by rw [p1]; exact hr.walkers (Or.inl (by rw [hh]; rfl))
  refine ⟨?_, fun hpos => ?_⟩
  · obtain ⟨y, z, hy, _⟩ := thSteps_inv t hc _ hg p2 p3 hn h1 h2 f w.emptyTimes w.emptyPositions w.emptyMomentum h0 h3
      (fun k p hp => by rw [h4]; exact snaps_dim w c s k p hp) n
    exact ⟨_, hy⟩
  · obtain ⟨y, z, hy, _⟩ := thSimulate_inv t hc _ hg p2 p3 hn h1 h2 f w.emptyTimes w.emptyPositions w.emptyMomentum h0
      h3 (fun k p hp => by rw [h4]; exact snaps_dim w c s k p hp) n hpos
    exact ⟨_, hy⟩

theorem distVals_total (f : DistCfg) (ps : List (LdParticle ℝ d)) (b : Bool) (hp : 0 < ps.length)
    (hs : ∀ st ∈ f.states, d ≤ st.length) : ∃ v, distVals f ps b = .ok v := by
  unfold distVals
  split
  · unfold countParticles
    rw [if_neg (by intro h; simp at h; simp [h] at hp), posInside_spec d _ f.states (by
      intro p hp
      obtain ⟨q, _, rfl⟩ := List.mem_map.1 hp
      exact List.length_ofFn) hs]
    exact ⟨_, rfl⟩
  · exact ⟨_, rfl⟩

theorem deltaFVals_total (f : DeltaFCfg) (fes : Nd (WithTop ℝ)) (b : Bool)
    (hm : ∀ m ∈ f.masks, m.length = fes.flat.length) : ∃ v, deltaFVals f fes b = .ok v := by
  unfold deltaFVals
  split
  · simp only [calculateDeltaF]
    rw [mapM_ok _ (fun m => (List.zipWith (fun p (b : Bool) => if b then p else 0)
      (fes.flat.map (boltzmann f.kt)) m).sum) _ (fun m h => by
        unfold maskedSum
        rw [if_pos (by rw [hm m h, List.length_map])])]
    exact ⟨_, rfl⟩
  · exact ⟨_, rfl⟩

theorem fes_length (h : Histogram ℝ) (kt : ℝ) (hk : 0 < kt) (he : ∀ e ∈ h.bins, GoodEdges e) (x : Nd (WithTop ℝ))
    (hx : calculateFes h.counts kt true = .ok x) : x.flat.length = h.shape.prod := by
  rw [fes_spec h.counts kt hk (counts_ne_nil h he)] at hx
  cases hx
  simp [Nd.map, Histogram.counts, Nd.ofFn, length_indices]

theorem fes_shape (h : Histogram ℝ) (kt : ℝ) (hk : 0 < kt) (he : ∀ e ∈ h.bins, GoodEdges e) (x : Nd (WithTop ℝ))
    (hx : calculateFes h.counts kt true = .ok x) :
    x.shape = h.shape ∧ x.flat.length = h.shape.prod ∧ x.flat ≠ [] := by
  refine ⟨?_, fes_length h kt hk he x hx, ?_⟩
  · rw [fes_spec h.counts kt hk (counts_ne_nil h he)] at hx
    cases hx
    rfl
  · rw [fes_spec h.counts kt hk (counts_ne_nil h he)] at hx
    cases hx
    have := counts_ne_nil h he
    simpa [Nd.map] using this

/-- The FES of a histogram can be plotted on the grid of another one with the same bins. -/
theorem plot_total {d : Nat} (p : Potential ℝ d) (c : PlotCfg) (hw : c.filename.getD "" = "" ∨ PlotWorks c)
    (h0 h k : Histogram ℝ) (kt : ℝ) (hk : 0 < kt) (he : ∀ e ∈ h0.bins, GoodEdges e) (e1 : h.bins = h0.bins)
    (e2 : k.bins = h0.bins) (hr : fesReference p h0 = .ok c.ref) (x : Nd (WithTop ℝ))
    (hx : calculateFes h.counts kt true = .ok x) (step : Option Nat)
    (hs : truthyNat step = true → c.stride.getD 0 ≠ 0) (pl : List PlotOut) :
    ∃ pl', fesPlot c step x k.fesAxes pl = .ok pl' := by
  obtain ⟨s1, s2, s3⟩ := fes_shape h kt hk (by rw [e1]; exact he) x hx
  have h1 : h.shape = h0.shape := by unfold Histogram.shape; rw [e1]
  have h2 : k.shape = h0.shape := by unfold Histogram.shape; rw [e2]
  exact fesPlot_total c hw step hs x _ s3 (by rw [s2, s1]) (by rw [fesAxes_lengths, s1, h1, h2])
    (by rw [fesReference_length p h0 _ hr, s1, h1]) pl

/-! ### The main loop -/

/-- After a successful set-up no step raises an exception. -/
theorem runSteps_total (w : World R) (c : SimCfg d) (s : Sim d R) (hset : SetupOk w c s) (hr : Runnable w c s)
    (n : Nat) : ∃ s', runSteps w c n s = .ok s' := by
  induction n with
  | zero => exact ⟨s, rfl⟩
  | succ n ih =>
    obtain ⟨u, hu⟩ := ih
    have hlen := runSteps_length w c s hset hr.ops n u hu
    -- the dynamics
    obtain ⟨x, hx⟩ := ldRun_total c.kind c.ld (w.normal d) hr.ld ⟨u.quiet.particles, u.quiet.ldRng⟩
    have h1 : ∃ s1, runAction w c u.quiet .ld (n + 1) = .ok s1 := by
      simp only [runAction]
      rw [hx]
      exact ⟨_, rfl⟩
    obtain ⟨s1, h1⟩ := h1
    have e1 := run_ld_inv w c _ _ _ h1
    have l1 : s1.particles.length = s.particles.length := by
      have h1 := h1
      simp only [runAction] at h1
      rw [hx] at h1
      cases h1
      exact (run_ok hx).2.1.trans hlen
    have h2 : ∃ s2, runAction w c s1 .birthDeath (n + 1) = .ok s2 := by
      simp only [runAction]
      split
      · rename_i b z hb hz
        obtain ⟨y, hy⟩ := bdRun_total b.cfg w.bdOps b.stride b.statsStride (⟨s1.particles, z.rng, z.stats⟩, z.log)
          (n + 1) (hset.bd b hb).2 (hr.bd b hb _ l1)
        rw [hy]
        exact ⟨_, rfl⟩
      · exact ⟨_, rfl⟩
    obtain ⟨s2, h2⟩ := h2
    have e2 := run_bd_inv w c _ _ _ h2
    have hd := dynStep_actions w c _ _ _ _ h1 h2
    have hpath : s.path w c (n + 1) = s2.particles := by
      have hd0 : dynSteps w c.kind c.ld c.bd n s.dyn = .ok u.dyn := runSteps_dyn w c n s u hset.bdSome hu
      have hd1 : dynSteps w c.kind c.ld c.bd (n + 1) s.dyn = .ok s2.dyn := by
        rw [dynSteps, hd0, ok_bind]
        exact hd
      unfold Sim.path walkersAt
      rw [hd1]
      rfl
    have l2 : s2.particles.length = s.particles.length := by
      rw [← hpath]
      exact walkersAt_length w hr.ops _ _ _ (fun b hb => (hset.bd b hb).1) _ (n + 1)
    have traj2 : s2.traj = u.traj := by
      have a := congrArg Sim.traj e1; have b := congrArg Sim.traj e2; exact Eq.trans b a
    have hist2 : s2.hist = u.hist := by
      have a := congrArg Sim.hist e1; have b := congrArg Sim.hist e2; exact Eq.trans b a
    have fes2 : s2.fes = u.fes := by
      have a := congrArg Sim.fes e1; have b := congrArg Sim.fes e2; exact Eq.trans b a
    have df2 : s2.deltaF = u.deltaF := by
      have a := congrArg Sim.deltaF e1; have b := congrArg Sim.deltaF e2; exact Eq.trans b a
    have di2 : s2.dist = u.dist := by
      have a := congrArg Sim.dist e1; have b := congrArg Sim.dist e2; exact Eq.trans b a
    -- the trajectory
    have h3 : ∃ s3, runAction w c s2 .trajectories (n + 1) = .ok s3 := by
      simp only [runAction]
      split
      · rename_i t z ht hz
        obtain ⟨_, _, _, _, f, hx0⟩ := hset.traj t ht
        obtain ⟨y, hy, he⟩ := steps_traj w c s hset.bdSome t _ ht hx0 n u hu
        obtain ⟨v, hv⟩ := traj_total w c s hset hr.ops t ht (List.replicate (n + 1) .tick) _ hx0
        rw [show List.replicate (n + 1) Spec.Event.tick = List.replicate n .tick ++ [.tick] from
          List.replicate_succ', trajExec_append _ _ _ _ _ _ _ he, stepsOf_ticks, Nat.zero_add, trajExec] at hv
        obtain ⟨v', hv', _⟩ := bind_ok hv
        rw [traj2, hy] at hz
        cases hz
        rw [← hpath]
        have : z.run t (n + 1) (snapshotOf (s.path w c (n + 1))) = .ok v' := hv'
        rw [this]
        exact ⟨_, rfl⟩
      · exact ⟨_, rfl⟩
    obtain ⟨s3, h3⟩ := h3
    obtain ⟨e3, p3⟩ := run_traj_inv w c _ _ _ h3
    have part3 : s3.particles = s2.particles := by have := congrArg Sim.particles e3; exact this
    have hist3 : s3.hist = u.hist := by have := congrArg Sim.hist e3; exact Eq.trans this hist2
    have fes3 : s3.fes = u.fes := by have := congrArg Sim.fes e3; exact Eq.trans this fes2
    have df3 : s3.deltaF = u.deltaF := by have := congrArg Sim.deltaF e3; exact Eq.trans this df2
    have di3 : s3.dist = u.dist := by have := congrArg Sim.dist e3; exact Eq.trans this di2
    -- the histogram
    have h4 : ∃ s4, runAction w c s3 .histogram (n + 1) = .ok s4 := by
      simp only [runAction]
      split
      · rename_i t z hc out g ht hz hh hg
        obtain ⟨t', h0, ht', hh0, _⟩ := hset.hist hc out hh
        obtain ⟨_, _, _, _, f, hx0⟩ := hset.traj t ht
        obtain ⟨y, k, hy, hk, he⟩ := steps_hist w c s hset.bdSome t _ ht hx0 hc out h0 hh hh0 n u hu
        obtain ⟨v, hv⟩ := (th_total w c s hset hr hc out hh (n + 1) t ht _ hx0 h0 hh0).1
        rw [thSteps, he, ok_bind] at hv
        obtain ⟨t1, ht1, hv⟩ := bind_ok hv
        obtain ⟨k1, hk1, _⟩ := bind_ok hv
        simp only [TrajStep, ht, traj2, hy, hz] at p3
        obtain ⟨z', hz', e⟩ := p3
        cases e
        have hz'' : y.run t (n + 1) (s.snaps w c (n + 1)) = .ok z := by
          unfold Sim.snaps
          rw [hpath]
          exact hz'
        rw [hz''] at ht1
        cases ht1
        rw [hist3, hk] at hg
        cases hg
        obtain ⟨k2, hk2⟩ := histRun_noreset _ _ _ _ _ _ hk1
        rw [hk2]
        exact ⟨_, rfl⟩
      · exact ⟨_, rfl⟩
    obtain ⟨s4, h4⟩ := h4
    obtain ⟨e4, p4, _⟩ := run_hist_inv w c _ _ _ h4
    have part4 : s4.particles = s2.particles := by
      have := congrArg Sim.particles e4; exact Eq.trans this part3
    have fes4 : s4.fes = u.fes := by have := congrArg Sim.fes e4; exact Eq.trans this fes3
    have df4 : s4.deltaF = u.deltaF := by have := congrArg Sim.deltaF e4; exact Eq.trans this df3
    have di4 : s4.dist = u.dist := by have := congrArg Sim.dist e4; exact Eq.trans this di3
    -- the bins are those of the beginning
    have hbins : ∀ h0 k, s.hist = some h0 → s4.hist = some k → k.bins = h0.bins := by
      intro h0 k hh0 hk
      obtain ⟨g, hg, hb⟩ := runSteps_bins w c s h0 hh0 n u hu
      rw [hist3, hg] at p4
      unfold HistStep at p4
      split at p4
      · rename_i x _ _ _ hx
        obtain ⟨z, hz, e⟩ := p4
        rw [hk] at e
        cases e
        cases hx
        rw [histRun_bins _ _ _ _ _ _ hz, hb]
      · rw [hk] at p4
        cases p4
        exact hb
    have hgood : ∀ h0, s.hist = some h0 → ∀ e ∈ h0.bins, GoodEdges e := by
      intro h0 hh0
      cases hh : c.hist with
      | none => rw [hset.histNone hh] at hh0; cases hh0
      | some y =>
        obtain ⟨t, h0', _, e, _, _, hg, _⟩ := hset.hist y.1 y.2 hh
        rw [hh0] at e
        cases e
        exact hg
    -- the FES
    have hfesTotal : ∀ f k, c.fes = some f → s4.hist = some k → ∃ y, calculateFes k.counts f.kt true = .ok y ∧
        ∀ h0, s.hist = some h0 → y.flat.length = h0.shape.prod := by
      intro f k hf hk
      obtain ⟨_, hkt, h0, x0, hh0, _⟩ := hset.fes f hf
      have hb := hbins h0 k hh0 hk
      have hg : ∀ e ∈ k.bins, GoodEdges e := by rw [hb]; exact hgood h0 hh0
      have hk0 : 0 < f.kt := by rw [hkt]; exact hr.kt
      have := fes_spec k.counts f.kt hk0 (counts_ne_nil k hg)
      refine ⟨_, this, fun h0' hh0' => ?_⟩
      rw [hh0] at hh0'
      cases hh0'
      rw [fes_length k f.kt hk0 hg _ this, Histogram.shape, Histogram.shape, hb]
    have h5 : ∃ s5, runAction w c s4 .fes (n + 1) = .ok s5 := by
      simp only [runAction]
      split
      · rename_i f k x hf hk hx
        obtain ⟨_, hkt, h0, x0, hh0, hx0, hsx⟩ := hset.fes f hf
        have hx0' : calculateFes h0.counts f.kt true = .ok x0 := by rw [hkt]; exact hx0
        obtain ⟨h0', hh0', href⟩ := hset.plotRef f hf
        rw [hh0] at hh0'
        cases hh0'
        have hkb := hbins h0 k hh0 hk
        have hk0 : 0 < f.kt := by rw [hkt]; exact hr.kt
        have hplot : ∀ (g : Histogram ℝ) (y : Nd (WithTop ℝ)), g.bins = h0.bins →
            calculateFes g.counts f.kt true = .ok y → ∃ p, fesPlotStride f.plot (n + 1) y k.fesAxes s4.plots = .ok p := by
          intro g y hg hy
          unfold fesPlotStride
          split
          · rename_i hst
            exact plot_total c.ld.pot f.plot (hr.plots f hf) h0 g k f.kt hk0 (hgood h0 hh0) hg hkb href y hy _
              (fun _ => hst.1) _
          · exact ⟨_, rfl⟩
        split
        · obtain ⟨y, hy, _⟩ := hfesTotal f k hf hk
          obtain ⟨p, hp⟩ := hplot k y hkb hy
          rw [hy, ok_bind, hp]
          exact ⟨_, rfl⟩
        · obtain ⟨u0, g, xu, hu0, hgu, hxu, hux⟩ := steps_fes w c s f hf ⟨h0, x0, hh0, hx0', hsx⟩ n u hu
          obtain ⟨gg, hgg, hb⟩ := runSteps_bins w c s h0 hh0 (f.lastStep n) u0 hu0
          rw [hgu] at hgg
          cases hgg
          rw [fes4, hux] at hx
          cases hx
          obtain ⟨p, hp⟩ := hplot g x hb hxu
          rw [ok_bind, hp]
          exact ⟨_, rfl⟩
      · exact ⟨_, rfl⟩
    obtain ⟨s5, h5⟩ := h5
    obtain ⟨e5, p5, _⟩ := run_fes_inv w c _ _ _ h5
    have part5 : s5.particles = s2.particles := by
      have := congrArg Sim.particles e5; exact Eq.trans this part4
    have df5 : s5.deltaF = u.deltaF := by have := congrArg Sim.deltaF e5; exact Eq.trans this df4
    have di5 : s5.dist = u.dist := by have := congrArg Sim.dist e5; exact Eq.trans this di4
    -- delta F
    have h6 : ∃ s6, runAction w c s5 .deltaF (n + 1) = .ok s6 := by
      simp only [runAction]
      split
      · rename_i f x y hf hx hy
        obtain ⟨hfs, _, hgs, _, hd0, h0, states, hh0, _⟩ := hset.deltaF f hf
        obtain ⟨fc, hfc⟩ := Option.isSome_iff_exists.1 hfs
        obtain ⟨_, hkt, h0', x0, hh0', hx0, hsx⟩ := hset.fes fc hfc
        have hx0' : calculateFes h0'.counts fc.kt true = .ok x0 := by rw [hkt]; exact hx0
        obtain ⟨z, hz, he⟩ := steps_deltaF w c s fc hfc ⟨h0', x0, hh0', hx0', hsx⟩ f _ hf hd0 n u hu
        have hfl : x.flat.length = h0.shape.prod := by
          obtain ⟨u0, g, xu, hu0, hgu, hxu, hux⟩ := steps_fes w c s fc hfc ⟨h0', x0, hh0', hx0', hsx⟩ n u hu
          have hsome : ∃ k, s4.hist = some k := by
            have hgs : ∃ g, u.hist = some g := by
              obtain ⟨g, hg, _⟩ := runSteps_bins w c s h0 hh0 n u hu
              exact ⟨g, hg⟩
            obtain ⟨g, hg⟩ := hgs
            rw [hist3, hg] at p4
            unfold HistStep at p4
            split at p4
            · obtain ⟨z, _, e⟩ := p4
              exact ⟨z, e⟩
            · exact ⟨g, p4⟩
          obtain ⟨k, hk⟩ := hsome
          simp only [FesStep, hfc, hk, fes4, hux, hx] at p5
          split at p5
          · obtain ⟨y', hy', e⟩ := p5
            cases e
            obtain ⟨y2, hy2, hl⟩ := hfesTotal fc k hfc hk
            rw [hy'] at hy2
            cases hy2
            exact hl h0 hh0
          · cases p5
            obtain ⟨gg, hgg, hb⟩ := runSteps_bins w c s h0 hh0 (fc.lastStep n) u0 hu0
            rw [hgu] at hgg
            cases hgg
            rw [fes_length g fc.kt (by rw [hkt]; exact hr.kt) (by rw [hb]; exact hgood h0 hh0) _ hxu, Histogram.shape,
              Histogram.shape, hb]
        obtain ⟨v, hv⟩ := deltaFVals_total f x (decide (f.series.stride ≠ 0 ∧ (n + 1) % f.series.stride = 0)) (by
          intro m hm
          rw [hfl]
          exact hr.masks f h0 hf hh0 m hm)
        rw [df5, hz] at hy
        cases hy
        obtain ⟨z', hz'⟩ := series_run_total f.series hgs _ _ n _ he v
        rw [hv, ok_bind, hz']
        exact ⟨_, rfl⟩
      · exact ⟨_, rfl⟩
    obtain ⟨s6, h6⟩ := h6
    obtain ⟨e6, p6⟩ := run_deltaF_inv w c _ _ _ h6
    have part6 : s6.particles = s2.particles := by
      have := congrArg Sim.particles e6; exact Eq.trans this part5
    have di6 : s6.dist = u.dist := by have := congrArg Sim.dist e6; exact Eq.trans this di5
    -- particle distribution
    have h7 : ∃ s7, runAction w c s6 .particleDistribution (n + 1) = .ok s7 := by
      simp only [runAction]
      split
      · rename_i f y hf hy
        obtain ⟨hgs, _, hd0⟩ := hset.dist f hf
        obtain ⟨z, hz, he⟩ := steps_dist w c s hset.bdSome f _ hf hd0 n u hu
        obtain ⟨v, hv⟩ := distVals_total f s6.particles
          (decide (f.series.stride ≠ 0 ∧ (n + 1) % f.series.stride = 0))
          (by rw [part6, l2]; exact hr.walkers (Or.inr (by rw [hf]; rfl))) (hr.states f hf)
        rw [di6, hz] at hy
        cases hy
        obtain ⟨z', hz'⟩ := series_run_total f.series hgs _ _ n _ he v
        rw [hv, ok_bind, hz']
        exact ⟨_, rfl⟩
      · exact ⟨_, rfl⟩
    obtain ⟨s7, h7⟩ := h7
    -- all actions together
    have hall : c.actions.foldlM (fun s a => runAction w c s a (n + 1)) u.quiet = .ok s7 := by
      rw [actions_filter, foldlM_filter_skip _ _ (fun a ha s => runAction_hasnt w c s a (n + 1) ha)]
      simp only [allActions, List.foldlM, h1, h2, h3, h4, h5, h6, h7, ok_bind]
      rfl
    obtain ⟨s', hs'⟩ := runEvents_total w c (n + 1) c.actions u s7 [] hall
    exact ⟨s', by rw [runSteps, hu, ok_bind]; exact hs'⟩

theorem final_bd_inv (c : SimCfg d) (s s' : Sim d R) (step : Nat)
    (h : finalAction c s .birthDeath step = .ok s') : s' = { s with bd := s'.bd } := by
  simp only [finalAction] at h
  split at h
  · cases h; rfl
  · cases h; rfl

/-- C86: after a successful set-up the whole simulation, including the final actions, runs without exception. -/
theorem simulate_total (w : World R) (c : SimCfg d) (s : Sim d R) (hset : SetupOk w c s) (hr : Runnable w c s)
    (n : Nat) (hn : 0 < n) : ∃ s', simulate w c n s = .ok s' := by
  obtain ⟨u, hu⟩ := runSteps_total w c s hset hr n
  have hlen := runSteps_length w c s hset hr.ops n u hu
  have h2 : ∃ s2, finalAction c u.quiet .birthDeath n = .ok s2 := by
    simp only [finalAction]
    split <;> exact ⟨_, rfl⟩
  obtain ⟨s2, h2⟩ := h2
  have e2 := final_bd_inv c _ _ _ h2
  have part2 : s2.particles = u.particles := by have := congrArg Sim.particles e2; exact this
  have traj2 : s2.traj = u.traj := by have := congrArg Sim.traj e2; exact this
  have hist2 : s2.hist = u.hist := by have := congrArg Sim.hist e2; exact this
  have fes2 : s2.fes = u.fes := by have := congrArg Sim.fes e2; exact this
  have df2 : s2.deltaF = u.deltaF := by have := congrArg Sim.deltaF e2; exact this
  have di2 : s2.dist = u.dist := by have := congrArg Sim.dist e2; exact this
  have h3 : ∃ s3, finalAction c s2 .trajectories n = .ok s3 := by
    simp only [finalAction]
    split
    · rename_i t z ht hz
      obtain ⟨_, _, _, _, f, hx0⟩ := hset.traj t ht
      obtain ⟨y, hy, he⟩ := steps_traj w c s hset.bdSome t _ ht hx0 n u hu
      obtain ⟨v, hv⟩ := traj_total w c s hset hr.ops t ht (completeRun n) _ hx0
      rw [completeRun, trajExec_append _ _ _ _ _ _ _ he, stepsOf_ticks, Nat.zero_add, trajExec] at hv
      obtain ⟨v', hv', _⟩ := bind_ok hv
      rw [traj2, hy] at hz
      cases hz
      have : z.finalRun t n = .ok v' := hv'
      rw [this]
      exact ⟨_, rfl⟩
    · exact ⟨_, rfl⟩
  obtain ⟨s3, h3⟩ := h3
  obtain ⟨e3, p3⟩ := final_traj_inv c _ _ _ h3
  have part3 : s3.particles = u.particles := by have := congrArg Sim.particles e3; exact Eq.trans this part2
  have hist3 : s3.hist = u.hist := by have := congrArg Sim.hist e3; exact Eq.trans this hist2
  have fes3 : s3.fes = u.fes := by have := congrArg Sim.fes e3; exact Eq.trans this fes2
  have df3 : s3.deltaF = u.deltaF := by have := congrArg Sim.deltaF e3; exact Eq.trans this df2
  have di3 : s3.dist = u.dist := by have := congrArg Sim.dist e3; exact Eq.trans this di2
  have h4 : ∃ s4, finalAction c s3 .histogram n = .ok s4 := by
    simp only [finalAction]
    split
    · rename_i t z hc out g ht hz hh hg
      obtain ⟨t', h0, ht', hh0, _⟩ := hset.hist hc out hh
      obtain ⟨_, _, _, _, f, hx0⟩ := hset.traj t ht
      obtain ⟨y, k, hy, hk, he⟩ := steps_hist w c s hset.bdSome t _ ht hx0 hc out h0 hh hh0 n u hu
      obtain ⟨v, hv⟩ := (th_total w c s hset hr hc out hh n t ht _ hx0 h0 hh0).2 hn
      rw [thSimulate, he, ok_bind] at hv
      obtain ⟨t1, ht1, hv⟩ := bind_ok hv
      obtain ⟨k1, hk1, _⟩ := bind_ok hv
      simp only [TrajFinal, ht, traj2, hy, hz] at p3
      obtain ⟨z', hz', e⟩ := p3
      cases e
      have ht1 : y.finalRun t n = .ok t1 := ht1
      rw [hz'] at ht1
      cases ht1
      rw [hist3, hk] at hg
      cases hg
      have hk1 : histFinal t hc z g n = .ok k1 := hk1
      rw [hk1]
      exact ⟨_, rfl⟩
    · exact ⟨_, rfl⟩
  obtain ⟨s4, h4⟩ := h4
  obtain ⟨e4, p4⟩ := final_hist_inv c _ _ _ h4
  have part4 : s4.particles = u.particles := by have := congrArg Sim.particles e4; exact Eq.trans this part3
  have fes4 : s4.fes = u.fes := by have := congrArg Sim.fes e4; exact Eq.trans this fes3
  have df4 : s4.deltaF = u.deltaF := by have := congrArg Sim.deltaF e4; exact Eq.trans this df3
  have di4 : s4.dist = u.dist := by have := congrArg Sim.dist e4; exact Eq.trans this di3
  have hbins : ∀ h0, s.hist = some h0 → ∃ k, s4.hist = some k ∧ k.bins = h0.bins := by
    intro h0 hh0
    obtain ⟨g, hg, hb⟩ := runSteps_bins w c s h0 hh0 n u hu
    rw [hist3, hg] at p4
    unfold HistFinal at p4
    split at p4
    · rename_i x _ _ _ hx
      obtain ⟨z, hz, e, _⟩ := p4
      cases hx
      exact ⟨z, e, by rw [histFinal_bins _ _ _ _ _ _ hz, hb]⟩
    · exact ⟨g, p4.1, hb⟩
  have hgood : ∀ h0, s.hist = some h0 → ∀ e ∈ h0.bins, GoodEdges e := by
    intro h0 hh0
    cases hh : c.hist with
    | none => rw [hset.histNone hh] at hh0; cases hh0
    | some y =>
      obtain ⟨t, h0', _, e, _, _, hg, _⟩ := hset.hist y.1 y.2 hh
      rw [hh0] at e
      cases e
      exact hg
  have hfesTotal : ∀ f k, c.fes = some f → s4.hist = some k → ∃ y, calculateFes k.counts f.kt true = .ok y ∧
      ∀ h0, s.hist = some h0 → y.flat.length = h0.shape.prod := by
    intro f k hf hk
    obtain ⟨_, hkt, h0, x0, hh0, _⟩ := hset.fes f hf
    obtain ⟨k', hk', hb⟩ := hbins h0 hh0
    rw [hk] at hk'
    cases hk'
    have hg : ∀ e ∈ k.bins, GoodEdges e := by rw [hb]; exact hgood h0 hh0
    have hk0 : 0 < f.kt := by rw [hkt]; exact hr.kt
    have := fes_spec k.counts f.kt hk0 (counts_ne_nil k hg)
    refine ⟨_, this, fun h0' hh0' => ?_⟩
    rw [hh0] at hh0'
    cases hh0'
    rw [fes_length k f.kt hk0 hg _ this, Histogram.shape, Histogram.shape, hb]
  have h5 : ∃ s5, finalAction c s4 .fes n = .ok s5 := by
    simp only [finalAction]
    split
    · rename_i f k x hf hk hx
      obtain ⟨y, hy, _⟩ := hfesTotal f k hf hk
      obtain ⟨_, hkt, _⟩ := hset.fes f hf
      obtain ⟨h0, hh0, href⟩ := hset.plotRef f hf
      obtain ⟨k', hk', hb⟩ := hbins h0 hh0
      rw [hk] at hk'
      cases hk'
      obtain ⟨p, hp⟩ := plot_total c.ld.pot f.plot (hr.plots f hf) h0 k k f.kt (by rw [hkt]; exact hr.kt)
        (hgood h0 hh0) hb hb href y hy none (fun h => by cases h) s4.plots
      rw [hy, ok_bind, hp]
      exact ⟨_, rfl⟩
    · exact ⟨_, rfl⟩
  obtain ⟨s5, h5⟩ := h5
  obtain ⟨e5, p5, _⟩ := final_fes_inv c _ _ _ h5
  have part5 : s5.particles = u.particles := by have := congrArg Sim.particles e5; exact Eq.trans this part4
  have df5 : s5.deltaF = u.deltaF := by have := congrArg Sim.deltaF e5; exact Eq.trans this df4
  have di5 : s5.dist = u.dist := by have := congrArg Sim.dist e5; exact Eq.trans this di4
  have h6 : ∃ s6, finalAction c s5 .deltaF n = .ok s6 := by
    simp only [finalAction]
    split
    · rename_i f x y hf hx hy
      obtain ⟨hfs, _, hgs, _, hd0, h0, states, hh0, _⟩ := hset.deltaF f hf
      obtain ⟨fc, hfc⟩ := Option.isSome_iff_exists.1 hfs
      obtain ⟨_, hkt, h0', x0, hh0', hx0, hsx⟩ := hset.fes fc hfc
      have hx0' : calculateFes h0'.counts fc.kt true = .ok x0 := by rw [hkt]; exact hx0
      obtain ⟨z, hz, he⟩ := steps_deltaF w c s fc hfc ⟨h0', x0, hh0', hx0', hsx⟩ f _ hf hd0 n u hu
      have hfl : x.flat.length = h0.shape.prod := by
        obtain ⟨u0, g, xu, hu0, hgu, hxu, hux⟩ := steps_fes w c s fc hfc ⟨h0', x0, hh0', hx0', hsx⟩ n u hu
        obtain ⟨k, hk, _⟩ := hbins h0 hh0
        simp only [FesFinal, hfc, hk, fes4, hux, hx] at p5
        obtain ⟨y', hy', e, _⟩ := p5
        cases e
        obtain ⟨y2, hy2, hl⟩ := hfesTotal fc k hfc hk
        rw [hy'] at hy2
        cases hy2
        exact hl h0 hh0
      obtain ⟨v, hv⟩ := deltaFVals_total f x (decide (f.series.stride = 0)) (by
        intro m hm
        rw [hfl]
        exact hr.masks f h0 hf hh0 m hm)
      rw [df5, hz] at hy
      cases hy
      obtain ⟨z', hz'⟩ := series_final_total f.series hgs _ _ n _ he v
      rw [hv, ok_bind, hz']
      exact ⟨_, rfl⟩
    · exact ⟨_, rfl⟩
  obtain ⟨s6, h6⟩ := h6
  obtain ⟨e6, p6⟩ := final_deltaF_inv c _ _ _ h6
  have part6 : s6.particles = u.particles := by have := congrArg Sim.particles e6; exact Eq.trans this part5
  have di6 : s6.dist = u.dist := by have := congrArg Sim.dist e6; exact Eq.trans this di5
  have h7 : ∃ s7, finalAction c s6 .particleDistribution n = .ok s7 := by
    simp only [finalAction]
    split
    · rename_i f y hf hy
      obtain ⟨hgs, _, hd0⟩ := hset.dist f hf
      obtain ⟨z, hz, he⟩ := steps_dist w c s hset.bdSome f _ hf hd0 n u hu
      obtain ⟨v, hv⟩ := distVals_total f s6.particles (decide (f.series.stride = 0))
        (by rw [part6, hlen]; exact hr.walkers (Or.inr (by rw [hf]; rfl))) (hr.states f hf)
      rw [di6, hz] at hy
      cases hy
      obtain ⟨z', hz'⟩ := series_final_total f.series hgs _ _ n _ he v
      rw [hv, ok_bind, hz']
      exact ⟨_, rfl⟩
    · exact ⟨_, rfl⟩
  obtain ⟨s7, h7⟩ := h7
  have hall : c.actions.foldlM (fun s a => finalAction c s a n) u.quiet = .ok s7 := by
    rw [actions_filter, foldlM_filter_skip _ _ (fun a ha s => finalAction_hasnt c s a n ha)]
    have h1 : finalAction c u.quiet .ld n = .ok u.quiet := rfl
    simp only [allActions, List.foldlM, h1, h2, h3, h4, h5, h6, h7, ok_bind]
    rfl
  obtain ⟨s', hs'⟩ := finalEvents_total c n c.actions u s7 [] hall
  exact ⟨s', by rw [simulate, hu, ok_bind]; exact hs'⟩

end Bdld
