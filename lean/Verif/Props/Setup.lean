import Verif.Props.MainRun
import Verif.Props.HistogramAction
import Verif.Props.Series
import Verif.Props.Trajectory
import Verif.Props.Rates

/-
The state right after the set-up of all actions: the requirements of the theorems about the single actions.
-/

set_option linter.unusedSectionVars false

namespace Bdld

open Spec

variable {R : Type} {d : Nat}

/-- Strides of a series action: none, or a write stride that is a multiple of the stride. -/
def GoodSeries (c : SeriesCfg ℝ) : Prop :=
  (c.stride = 0 ∧ c.writeStride = 0) ∨ (0 < c.stride ∧ 0 < c.writeStride ∧ c.stride ∣ c.writeStride)

/-- What is guaranteed after the set-up. -/
structure SetupOk (w : World R) (c : SimCfg d) (s : Sim d R) : Prop where
  bdSome : c.bd.isSome = s.bd.isSome
  bd : ∀ b, c.bd = some b → b.cfg.Lawful ∧ 0 < b.stride
  traj : ∀ t, c.traj = some t → t.nParticles = s.particles.length ∧ 0 < t.stride ∧ 0 < t.writeStride ∧
    (t.timeOf = fun n : Nat => (n : ℝ) * c.ld.dt) ∧
    ∃ f, s.traj = some (TrajState.init t f w.emptyTimes w.emptyPositions w.emptyMomentum)
  trajNone : c.traj = none → s.traj = none
  hist : ∀ h out, c.hist = some (h, out) → ∃ t h0, c.traj = some t ∧ s.hist = some h0 ∧ 0 < h.stride ∧
    h.updateStride = t.writeStride ∧ (∀ e ∈ h0.bins, GoodEdges e) ∧ h0.bins.length = d ∧
    ∀ idx, h0.data idx = countInBin h0.bins idx [List.replicate d 0]
  histNone : c.hist = none → s.hist = none
  fes : ∀ f, c.fes = some f → c.hist.isSome ∧ f.kt = c.ld.kt ∧ ∃ h x, s.hist = some h ∧
    calculateFes h.counts c.ld.kt true = .ok x ∧ s.fes = some x
  fesNone : c.fes = none → s.fes = none
  deltaF : ∀ f, c.deltaF = some f → c.fes.isSome ∧ f.kt = c.ld.kt ∧ GoodSeries f.series ∧
    (f.series.timeCol = fun n : Nat => (n : ℝ) * c.ld.dt) ∧
    s.deltaF = some (SeriesState.init f.series w.emptyDeltaF) ∧
    ∃ h states, s.hist = some h ∧ setupDeltaF h states = .ok f.masks
  deltaFNone : c.deltaF = none → s.deltaF = none
  dist : ∀ f, c.dist = some f → GoodSeries f.series ∧ (f.series.timeCol = fun n : Nat => (n : ℝ)) ∧
    s.dist = some (SeriesState.init f.series w.emptyCounts)
  distNone : c.dist = none → s.dist = none
  histWrites : s.histWrites = []
  fesWrites : s.fesWrites = []
  plots : s.plots = []
  plotRef : ∀ f, c.fes = some f → ∃ h, s.hist = some h ∧ fesReference c.ld.pot h = .ok f.plot.ref
  events : s.events = []

theorem setupTrajectories_inv (w : World R) (o : Dict (OptVal ℝ)) (dt : ℝ) (n : Nat)
    (b : TrajCfg ℝ × TrajState ℝ) (h : setupTrajectories w d o dt n = .ok b) :
    b.1.nParticles = n ∧ 0 < b.1.stride ∧ 0 < b.1.writeStride ∧ (b.1.timeOf = fun k : Nat => (k : ℝ) * dt) ∧
    ∃ f, b.2 = TrajState.init b.1 f w.emptyTimes w.emptyPositions w.emptyMomentum := by
  simp only [setupTrajectories] at h
  obtain ⟨_, _, h⟩ := bind_ok h
  obtain ⟨stride, _, h⟩ := bind_ok h
  obtain ⟨_, _, h⟩ := bind_ok h
  obtain ⟨filename, _, h⟩ := bind_ok h
  obtain ⟨_, _, h⟩ := bind_ok h
  obtain ⟨mom, _, h⟩ := bind_ok h
  obtain ⟨_, _, h⟩ := bind_ok h
  obtain ⟨ws, _, h⟩ := bind_ok h
  obtain ⟨_, _, h⟩ := bind_ok h
  cases h
  have := trajCfg_new_pos n stride ws mom (fun k : Nat => (k : ℝ) * dt)
  exact ⟨rfl, this.1, this.2, rfl, _, rfl⟩

theorem setupHistogram_inv (o : Dict (OptVal ℝ)) (t : TrajCfg ℝ) (b : HistCfg × GridOut × Histogram ℝ)
    (h : setupHistogram d o t = .ok b) :
    0 < b.1.stride ∧ b.1.updateStride = t.writeStride ∧ (∀ e ∈ b.2.2.bins, GoodEdges e) ∧
      b.2.2.bins.length = d ∧
      ∀ idx, b.2.2.data idx = countInBin b.2.2.bins idx [List.replicate d 0] := by
  simp only [setupHistogram] at h
  obtain ⟨⟨ranges, nBins⟩, _, h⟩ := bind_ok h
  obtain ⟨_, _, h⟩ := bind_ok h
  obtain ⟨stride, _, h⟩ := bind_ok h
  obtain ⟨_, _, h⟩ := bind_ok h
  obtain ⟨reset, _, h⟩ := bind_ok h
  obtain ⟨_, _, h⟩ := bind_ok h
  obtain ⟨filename, _, h⟩ := bind_ok h
  obtain ⟨_, _, h⟩ := bind_ok h
  obtain ⟨ws, _, h⟩ := bind_ok h
  obtain ⟨⟨hc, h0⟩, hh, h⟩ := bind_ok h
  obtain ⟨_, _, h⟩ := bind_ok h
  cases h
  obtain ⟨h1, h2, h3, h4, _, h5⟩ := histCfg_new t d nBins ranges stride reset _ ws hc h0 hh
  exact ⟨h1, h2, h3, h4, h5⟩

theorem checkOutput_ok (b : Bool) (stride : Option Nat) (filename : Option String)
    (h : checkOutput b stride filename = .ok ()) (hb : b = true) :
    truthyNat stride = true ∧ truthyStr filename = true := by
  subst hb
  revert h
  rw [checkOutput]
  cases truthyNat stride <;> cases truthyStr filename <;> simp

/-- What a successful set-up of the FES consists of. -/
structure FesSetup (w : World R) (o : Dict (OptVal ℝ)) (ld : LdCfg ℝ d) (y : Histogram ℝ) (f : FesCfg)
    (x : Nd (WithTop ℝ)) : Prop where
  ref : fesReference ld.pot y = .ok f.plot.ref
  stride : (o.getItem "stride" >>= OptVal.asOptStride) = .ok f.stride
  filename : (o.getItem "filename" >>= OptVal.asOptStr) = .ok f.out.filename
  writeStride : (o.getItem "write-stride" >>= OptVal.asOptStride) = .ok f.out.writeStride
  plotStride : (o.getItem "plot-stride" >>= OptVal.asOptInt) = .ok f.plot.stride
  plotFilename : (o.getItem "plot-filename" >>= OptVal.asOptStr) = .ok f.plot.filename
  plotDomain : (o.getItem "plot-domain" >>= OptVal.asOptFloats) = .ok f.plot.domain
  plotTitle : ∃ s, (o.getItem "plot-title" >>= OptVal.asOptStr) = .ok s ∧ f.plot.title = s.getD ""
  kt : f.kt = ld.kt
  fes : calculateFes y.counts ld.kt true = .ok x
  fields : checkFields d f.out.filename = .ok ()
  formats : f.plot.formats = w.figFormats
  terminal : f.plot.terminal = w.terminal
  writeNeeds : truthyNat f.out.writeStride = true → truthyNat f.stride = true ∧ truthyStr f.out.filename = true
  plotNeeds : f.plot.stride.getD 0 ≠ 0 → truthyNat f.stride = true ∧ truthyStr f.plot.filename = true

theorem setupFes_parts (w : World R) (o : Dict (OptVal ℝ)) (ld : LdCfg ℝ d) (y : Histogram ℝ)
    (b : FesCfg × Nd (WithTop ℝ)) (h : setupFes w o ld y = .ok b) : FesSetup w o ld y b.1 b.2 := by
  simp only [setupFes] at h
  obtain ⟨ref, hr, h⟩ := bind_ok h
  obtain ⟨_, g1, h⟩ := bind_ok h
  obtain ⟨stride, h1, h⟩ := bind_ok h
  obtain ⟨_, g2, h⟩ := bind_ok h
  obtain ⟨filename, h2, h⟩ := bind_ok h
  obtain ⟨_, g3, h⟩ := bind_ok h
  obtain ⟨ws, h3, h⟩ := bind_ok h
  obtain ⟨_, g4, h⟩ := bind_ok h
  obtain ⟨ps, h4, h⟩ := bind_ok h
  obtain ⟨_, g5, h⟩ := bind_ok h
  obtain ⟨pf, h5, h⟩ := bind_ok h
  obtain ⟨_, g6, h⟩ := bind_ok h
  obtain ⟨pd, h6, h⟩ := bind_ok h
  obtain ⟨_, g7, h⟩ := bind_ok h
  obtain ⟨pt, h7, h⟩ := bind_ok h
  obtain ⟨fes, hf, h⟩ := bind_ok h
  obtain ⟨⟨⟩, hk, h⟩ := bind_ok h
  obtain ⟨⟨⟩, hw, h⟩ := bind_ok h
  obtain ⟨⟨⟩, hn, h⟩ := bind_ok h
  cases h
  exact ⟨hr, by rw [g1]; exact h1, by rw [g2]; exact h2, by rw [g3]; exact h3, by rw [g4]; exact h4,
    by rw [g5]; exact h5, by rw [g6]; exact h6, ⟨pt, by rw [g7]; exact h7, rfl⟩, rfl, hf, hk, rfl, rfl,
    checkOutput_ok _ _ _ hw, fun hne => checkOutput_ok _ _ _ hn (decide_eq_true hne)⟩

theorem goodSeries_new (stride ws : Option Nat) (f : Bool) (t : Nat → ℝ) (c : SeriesCfg ℝ)
    (h : SeriesCfg.new stride ws f t = .ok c) : GoodSeries c ∧ c.timeCol = t := by
  obtain ⟨_, h1, h2⟩ := seriesCfg_new stride ws f t c h
  refine ⟨?_, h1⟩
  rcases h2 with h2 | h2
  · exact Or.inl ⟨h2.1, h2.2.1⟩
  · exact Or.inr h2.2

theorem setupDeltaF_inv (w : World R) (o : Dict (OptVal ℝ)) (kt dt : ℝ) (y : Histogram ℝ)
    (b : DeltaFCfg × SeriesState ℝ) (h : setupDeltaFAction w o kt dt y = .ok b) :
    b.1.kt = kt ∧ GoodSeries b.1.series ∧ (b.1.series.timeCol = fun n : Nat => (n : ℝ) * dt) ∧
      b.2 = SeriesState.init b.1.series w.emptyDeltaF ∧
      ∃ states, stateRanges o = .ok states ∧ setupDeltaF y states = .ok b.1.masks := by
  simp only [setupDeltaFAction] at h
  obtain ⟨states, hs, h⟩ := bind_ok h
  obtain ⟨masks, hm, h⟩ := bind_ok h
  obtain ⟨_, _, h⟩ := bind_ok h
  obtain ⟨stride, _, h⟩ := bind_ok h
  obtain ⟨_, _, h⟩ := bind_ok h
  obtain ⟨filename, _, h⟩ := bind_ok h
  obtain ⟨_, _, h⟩ := bind_ok h
  obtain ⟨ws, _, h⟩ := bind_ok h
  obtain ⟨c, hc, h⟩ := bind_ok h
  cases h
  obtain ⟨h1, h2⟩ := goodSeries_new _ _ _ _ _ hc
  exact ⟨rfl, h1, h2, rfl, states, hs, hm⟩

theorem setupDistribution_inv (w : World R) (o : Dict (OptVal ℝ)) (b : DistCfg × SeriesState ℝ)
    (h : setupDistribution w o = .ok b) :
    GoodSeries b.1.series ∧ (b.1.series.timeCol = fun n : Nat => (n : ℝ)) ∧
      b.2 = SeriesState.init b.1.series w.emptyCounts ∧ stateRanges o = .ok b.1.states := by
  simp only [setupDistribution] at h
  obtain ⟨states, hs, h⟩ := bind_ok h
  obtain ⟨_, _, h⟩ := bind_ok h
  obtain ⟨stride, _, h⟩ := bind_ok h
  obtain ⟨_, _, h⟩ := bind_ok h
  obtain ⟨filename, _, h⟩ := bind_ok h
  obtain ⟨_, _, h⟩ := bind_ok h
  obtain ⟨ws, _, h⟩ := bind_ok h
  obtain ⟨c, hc, h⟩ := bind_ok h
  cases h
  obtain ⟨h1, h2⟩ := goodSeries_new _ _ _ _ _ hc
  exact ⟨h1, h2, rfl, hs⟩

theorem setupBirthDeath_lawful (w : World R) (o : Dict (OptVal ℝ)) (oneDim : Bool) (c : LdCfg ℝ d)
    (hv : ValidBirthDeath oneDim o) (b : BdAct d × BdRunState R) (h : setupBirthDeath w o c = .ok b) :
    b.1.cfg.Lawful ∧ 0 < b.1.stride := by
  obtain ⟨bw, hbw, h⟩ := bind_ok h
  obtain ⟨v, hvar, h⟩ := bind_ok h
  obtain ⟨i, hi, hpos⟩ := hv.stride
  simp only [Dict.getItem, hi, ok_bind, OptVal.asOptStride] at h
  obtain ⟨f, hf, h⟩ := bind_ok h
  obtain ⟨f', hf', h⟩ := bind_ok h
  obtain ⟨_, _, h⟩ := bind_ok h
  obtain ⟨rc, _, h⟩ := bind_ok h
  obtain ⟨ss, hss, h⟩ := bind_ok h
  obtain ⟨ss', hss', h⟩ := bind_ok h
  obtain ⟨sd, hsd, h⟩ := bind_ok h
  obtain ⟨sd', hsd', h⟩ := bind_ok h
  obtain ⟨rng, hrng, h⟩ := bind_ok h
  obtain ⟨grid, hgrid, h⟩ := bind_ok h
  cases h
  refine ⟨fun ps => by simp [realBdCfg], ?_⟩
  simp only [Option.getD_some]
  omega

/-- The set-up of the program establishes `SetupOk`. -/
theorem setup_ok (w : World R) (file : Option (List Section)) (config : Input ℝ) (r : AnySim R)
    (x : SimCfg r.d × Sim r.d R) (hp : parseAll 1 w.conv file = .ok config)
    (hr : setupRequired w config = .ok r) (hx : setupOptional w config r.cfg r.sim = .ok x) :
    SetupOk w x.1 x.2 := by
  obtain ⟨c', s'⟩ := x
  have hv := input_valid 1 one_pos file config hp
  obtain ⟨hc, hs⟩ := setupRequired_parts w config r hr
  obtain ⟨e1, e2, e3, e4, e5, h1, h2, h3, h4, h5, h6, e6, e7⟩ := setupOptional_parts w config _ c' _ s' hc hs hx
  simp only
  constructor
  · cases h : config.birthDeath <;> rw [h] at h1 <;> simp only at h1
    · rw [h1.1, h1.2]; rfl
    · obtain ⟨b, _, hb, hb'⟩ := h1; rw [hb, hb']; rfl
  · intro b hb
    cases h : config.birthDeath <;> rw [h] at h1 <;> simp only at h1
    · rw [h1.1] at hb; cases hb
    · obtain ⟨b', hs', hb', _⟩ := h1
      rw [hb'] at hb
      cases hb
      exact setupBirthDeath_lawful w _ _ _ (hv.birthDeath _ h) _ hs'
  · intro t ht
    cases h : config.trajectories <;> rw [h] at h2 <;> simp only at h2
    · rw [h2.1] at ht; cases ht
    · obtain ⟨b, hs', hb, hb'⟩ := h2
      rw [hb] at ht
      cases ht
      obtain ⟨p1, p2, p3, p4, f, p5⟩ := setupTrajectories_inv w _ _ _ _ hs'
      exact ⟨by rw [p1, e3], p2, p3, by rw [p4, e2], f, by rw [hb', p5]⟩
  · intro ht
    cases h : config.trajectories <;> rw [h] at h2 <;> simp only at h2
    · exact h2.2
    · obtain ⟨b, hs', hb, hb'⟩ := h2
      rw [hb] at ht; cases ht
  · intro hh out he
    cases h : config.histogram <;> rw [h] at h3 <;> simp only at h3
    · rw [h3.1] at he; cases he
    · obtain ⟨t, b, ht, hs', hb, hb'⟩ := h3
      rw [hb] at he
      cases he
      obtain ⟨p1, p2, p3, p4, p5⟩ := setupHistogram_inv _ _ _ hs'
      exact ⟨t, b.2.2, ht, hb', p1, p2, p3, p4, p5⟩
  · intro he
    cases h : config.histogram <;> rw [h] at h3 <;> simp only at h3
    · exact h3.2
    · obtain ⟨t, b, ht, hs', hb, hb'⟩ := h3
      rw [hb] at he; cases he
  · intro f hf
    cases h : config.fes <;> rw [h] at h4 <;> simp only at h4
    · rw [h4.1] at hf; cases hf
    · obtain ⟨y, b, hy, hs', hb, hb'⟩ := h4
      rw [hb] at hf
      cases hf
      have hp := setupFes_parts _ _ _ _ _ hs'
      refine ⟨?_, by rw [hp.kt, e2], y, b.2, hy, by rw [e2]; exact hp.fes, hb'⟩
      cases h' : config.histogram <;> rw [h'] at h3 <;> simp only at h3
      · rw [h3.2] at hy; cases hy
      · obtain ⟨t, b, ht, hs', hb, hb'⟩ := h3
        rw [hb]; rfl
  · intro he
    cases h : config.fes <;> rw [h] at h4 <;> simp only at h4
    · exact h4.2
    · obtain ⟨y, b, hy, hs', hb, hb'⟩ := h4
      rw [hb] at he; cases he
  · intro f hf
    cases h : config.deltaF <;> rw [h] at h5 <;> simp only at h5
    · rw [h5.1] at hf; cases hf
    · obtain ⟨f', y, b, hf', hy, hs', hb, hb'⟩ := h5
      rw [hb] at hf
      cases hf
      obtain ⟨p1, p2, p3, p4, states, p5, p6⟩ := setupDeltaF_inv w _ _ _ _ _ hs'
      exact ⟨by rw [hf']; rfl, by rw [p1, e2], p2, by rw [p3, e2], by rw [hb', p4], y, states, hy, p6⟩
  · intro he
    cases h : config.deltaF <;> rw [h] at h5 <;> simp only at h5
    · exact h5.2
    · obtain ⟨f', y, b, hf', hy, hs', hb, hb'⟩ := h5
      rw [hb] at he; cases he
  · intro f hf
    cases h : config.particleDistribution <;> rw [h] at h6 <;> simp only at h6
    · rw [h6.1] at hf; cases hf
    · obtain ⟨b, hs', hb, hb'⟩ := h6
      rw [hb] at hf
      cases hf
      obtain ⟨p1, p2, p3, _⟩ := setupDistribution_inv w _ _ hs'
      exact ⟨p1, p2, by rw [hb', p3]⟩
  · intro he
    cases h : config.particleDistribution <;> rw [h] at h6 <;> simp only at h6
    · exact h6.2
    · obtain ⟨b, hs', hb, hb'⟩ := h6
      rw [hb] at he; cases he
  · exact e6
  · exact e7.1
  · exact e7.2
  · intro f hf
    cases h : config.fes <;> rw [h] at h4 <;> simp only at h4
    · rw [h4.1] at hf; cases hf
    · obtain ⟨y, b, hy, hs', hb, hb'⟩ := h4
      rw [hb] at hf
      cases hf
      exact ⟨y, hy, by rw [e2]; exact (setupFes_parts _ _ _ _ _ hs').ref⟩
  · exact e5

end Bdld
