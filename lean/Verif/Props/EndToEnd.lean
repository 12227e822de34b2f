import Verif.Props.MainParts
import Verif.Props.Setup
import Verif.Lemmas.Langevin

/-
The whole simulation, component by component: the theorems about the single actions (trajectories, histogram,
FES, delta F, particle distribution) applied to the program.
-/

set_option linter.unusedSectionVars false

namespace Bdld

open Spec

variable {R : Type} {d : Nat}

/-! ### The walkers -/

theorem dynStep_length (w : World R) (hops : w.bdOps.Lawful) (kind : LdKind) (ld : LdCfg ℝ d)
    (b : Option (BdAct d)) (hb : ∀ x, b = some x → x.cfg.Lawful) (x y : Dyn d R) (step : Nat)
    (h : dynStep w kind ld b x step = .ok y) : y.particles.length = x.particles.length := by
  obtain ⟨u, hu, h⟩ := bind_ok h
  have h1 : u.particles.length = x.particles.length := by
    obtain ⟨z, hz, hu⟩ := bind_ok hu
    cases hu
    exact (ldLoop_ok kind ld (w.normal d) _ _ _ hz).2.1
  split at h
  · rename_i b' z _ _
    obtain ⟨v, hv, h⟩ := bind_ok h
    cases h
    have := bd_run_length (hb _ rfl) hops b'.stride b'.statsStride [step] (⟨u.particles, z.rng, z.stats⟩, z.log) v
      (by rw [List.foldlM_cons, hv]; rfl)
    exact this.trans h1
  · cases h
    exact h1

theorem dynSteps_length (w : World R) (hops : w.bdOps.Lawful) (kind : LdKind) (ld : LdCfg ℝ d)
    (b : Option (BdAct d)) (hb : ∀ x, b = some x → x.cfg.Lawful) (x : Dyn d R) (n : Nat) :
    ∀ y, dynSteps w kind ld b n x = .ok y → y.particles.length = x.particles.length := by
  induction n with
  | zero => intro y h; cases h; rfl
  | succ n ih =>
    intro y h
    obtain ⟨z, hz, h⟩ := bind_ok h
    rw [dynStep_length w hops kind ld b hb z y (n + 1) h, ih z hz]

theorem walkersAt_length (w : World R) (hops : w.bdOps.Lawful) (kind : LdKind) (ld : LdCfg ℝ d)
    (b : Option (BdAct d)) (hb : ∀ x, b = some x → x.cfg.Lawful) (x : Dyn d R) (t : Nat) :
    (walkersAt w kind ld b x t).length = x.particles.length := by
  unfold walkersAt
  cases h : dynSteps w kind ld b t x with
  | error e => rfl
  | ok y => exact dynSteps_length w hops kind ld b hb x t y h

/-- The walkers of the pure dynamics that belongs to a simulation. -/
noncomputable def Sim.path (w : World R) (c : SimCfg d) (s : Sim d R) (t : Nat) : List (LdParticle ℝ d) :=
  walkersAt w c.kind c.ld c.bd s.dyn t

/-- What the trajectory action sees at step `t`. -/
noncomputable def Sim.snaps (w : World R) (c : SimCfg d) (s : Sim d R) (t : Nat) : Snapshot ℝ :=
  snapshotOf (s.path w c t)

theorem path_runSteps (w : World R) (c : SimCfg d) (n : Nat) (s s' : Sim d R) (hb : c.bd.isSome = s.bd.isSome)
    (h : runSteps w c n s = .ok s') : s'.particles = s.path w c n := by
  have := runSteps_dyn w c n s s' hb h
  unfold Sim.path walkersAt
  rw [this]
  rfl

/-- One more step. -/
theorem runSteps_succ (w : World R) (c : SimCfg d) (n : Nat) (s s' : Sim d R)
    (h : runSteps w c (n + 1) s = .ok s') : ∃ t, runSteps w c n s = .ok t ∧ AnalysisStep c (n + 1) t s' := by
  obtain ⟨t, ht, h⟩ := bind_ok h
  exact ⟨t, ht, step_analysis w c (n + 1) t s' h⟩

/-! ### Trajectories -/

theorem trajExec_append {F : Type} (c : TrajCfg F) (hist : Nat → Snapshot F) (es fs : List Spec.Event) :
    ∀ (now : Nat) (s s' : TrajState F), trajExec c hist es now s = .ok s' →
      trajExec c hist (es ++ fs) now s = trajExec c hist fs (now + stepsOf es) s' := by
  induction es with
  | nil => intro now s s' h; cases h; rfl
  | cons e es ih =>
    intro now s s' h
    cases e with
    | tick =>
      obtain ⟨u, hu, h⟩ := bind_ok h
      rw [List.cons_append, trajExec, hu, ok_bind, ih _ _ _ h, stepsOf]
      congr 1; omega
    | write =>
      obtain ⟨u, hu, h⟩ := bind_ok h
      rw [List.cons_append, trajExec, hu, ok_bind, ih _ _ _ h, stepsOf]

theorem stepsOf_ticks (n : Nat) : stepsOf (List.replicate n .tick) = n := by
  induction n with
  | zero => rfl
  | succ n ih => rw [List.replicate_succ, stepsOf, ih]

theorem steps_traj (w : World R) (c : SimCfg d) (s : Sim d R) (hb : c.bd.isSome = s.bd.isSome)
    (t : TrajCfg ℝ) (x : TrajState ℝ) (ht : c.traj = some t) (hx : s.traj = some x) (n : Nat) : ∀ s',
      runSteps w c n s = .ok s' → ∃ y, s'.traj = some y ∧
        trajExec t (s.snaps w c) (List.replicate n .tick) 0 x = .ok y := by
  induction n with
  | zero => intro s' h; cases h; exact ⟨x, hx, rfl⟩
  | succ n ih =>
    intro s' h
    obtain ⟨u, hu, ha⟩ := runSteps_succ w c n s s' h
    obtain ⟨y, hy, he⟩ := ih u hu
    have hs := ha.traj
    simp only [TrajStep, ht, hy] at hs
    obtain ⟨z, hz, e⟩ := hs
    refine ⟨z, e, ?_⟩
    rw [show List.replicate (n + 1) Spec.Event.tick = List.replicate n .tick ++ [.tick] from List.replicate_succ',
      trajExec_append _ _ _ _ _ _ _ he, stepsOf_ticks, Nat.zero_add, trajExec]
    have : s.snaps w c (n + 1) = snapshotOf s'.particles := by
      unfold Sim.snaps
      rw [path_runSteps w c (n + 1) s s' hb h]
    rw [this, hz]
    rfl

/-- The trajectory action of a whole simulation. -/
theorem simulate_traj (w : World R) (c : SimCfg d) (s : Sim d R) (hb : c.bd.isSome = s.bd.isSome)
    (t : TrajCfg ℝ) (x : TrajState ℝ) (ht : c.traj = some t) (hx : s.traj = some x) (n : Nat) (s' : Sim d R)
    (h : simulate w c n s = .ok s') : ∃ y, s'.traj = some y ∧
      trajExec t (s.snaps w c) (completeRun n) 0 x = .ok y := by
  obtain ⟨u, hu, h⟩ := bind_ok h
  have hf := (final_analysis c n u s' h).traj
  obtain ⟨y, hy, he⟩ := steps_traj w c s hb t x ht hx n u hu
  simp only [TrajFinal, ht, hy] at hf
  obtain ⟨z, hz, e⟩ := hf
  refine ⟨z, e, ?_⟩
  rw [completeRun, trajExec_append _ _ _ _ _ _ _ he, stepsOf_ticks, Nat.zero_add, trajExec]
  unfold TrajState.finalRun at hz
  rw [hz]
  rfl

/-! ### Histogram -/

theorem steps_hist (w : World R) (c : SimCfg d) (s : Sim d R) (hb : c.bd.isSome = s.bd.isSome)
    (t : TrajCfg ℝ) (x : TrajState ℝ) (ht : c.traj = some t) (hx : s.traj = some x)
    (hc : HistCfg) (out : GridOut) (h0 : Histogram ℝ) (hh : c.hist = some (hc, out)) (hh0 : s.hist = some h0)
    (n : Nat) : ∀ s', runSteps w c n s = .ok s' → ∃ y h, s'.traj = some y ∧ s'.hist = some h ∧
        thSteps t hc (s.snaps w c) n (x, h0) = .ok (y, h) := by
  induction n with
  | zero => intro s' h; cases h; exact ⟨x, h0, hx, hh0, rfl⟩
  | succ n ih =>
    intro s' h
    obtain ⟨u, hu, ha⟩ := runSteps_succ w c n s s' h
    obtain ⟨y, g, hy, hg, he⟩ := ih u hu
    have hs := ha.traj
    simp only [TrajStep, ht, hy] at hs
    obtain ⟨z, hz, e⟩ := hs
    have hs := ha.hist
    simp only [HistStep, ht, e, hh, hg] at hs
    obtain ⟨k, hk, e'⟩ := hs
    refine ⟨z, k, e, e', ?_⟩
    have : s.snaps w c (n + 1) = snapshotOf s'.particles := by
      unfold Sim.snaps
      rw [path_runSteps w c (n + 1) s s' hb h]
    rw [thSteps, he, ok_bind, this, hz, ok_bind, hk]
    rfl

/-- The histogram action of a whole simulation. -/
theorem simulate_hist (w : World R) (c : SimCfg d) (s : Sim d R) (hb : c.bd.isSome = s.bd.isSome)
    (t : TrajCfg ℝ) (x : TrajState ℝ) (ht : c.traj = some t) (hx : s.traj = some x)
    (hc : HistCfg) (out : GridOut) (h0 : Histogram ℝ) (hh : c.hist = some (hc, out)) (hh0 : s.hist = some h0)
    (n : Nat) (s' : Sim d R) (h : simulate w c n s = .ok s') : ∃ y g, s'.traj = some y ∧ s'.hist = some g ∧
      thSimulate t hc (s.snaps w c) n (x, h0) = .ok (y, g) := by
  obtain ⟨u, hu, h⟩ := bind_ok h
  obtain ⟨y, g, hy, hg, he⟩ := steps_hist w c s hb t x ht hx hc out h0 hh hh0 n u hu
  have hf := (final_analysis c n u s' h).traj
  simp only [TrajFinal, ht, hy] at hf
  obtain ⟨z, hz, e⟩ := hf
  have hf := (final_analysis c n u s' h).hist
  simp only [HistFinal, ht, e, hh, hg] at hf
  obtain ⟨k, hk, e', _⟩ := hf
  refine ⟨z, k, e, e', ?_⟩
  rw [thSimulate, he, ok_bind, hz, ok_bind, hk]
  rfl

/-! ### Particle distribution -/

theorem seriesRun_vals (c : SeriesCfg ℝ) (s : SeriesState ℝ) (step : Nat) (v v' : List ℝ)
    (h : c.stride ≠ 0 ∧ step % c.stride = 0 → v = v') : s.run c step v = s.run c step v' := by
  by_cases hs : c.stride ≠ 0 ∧ step % c.stride = 0
  · rw [h hs]
  · have : ¬ (c.stride ≠ 0 ∧ pyMod (step : Int) (c.stride : Int) = 0) := by
      rw [pyMod_natCast]
      rintro ⟨h1, h2⟩
      exact hs ⟨h1, by omega⟩
    simp only [SeriesState.run, SeriesState.store, if_neg this]

theorem seriesFinal_vals (c : SeriesCfg ℝ) (s : SeriesState ℝ) (step : Nat) (v v' : List ℝ)
    (h : c.stride = 0 → v = v') : s.finalRun c step v = s.finalRun c step v' := by
  by_cases hs : c.stride = 0
  · rw [h hs]
  · simp only [SeriesState.finalRun, if_neg hs]

/-- Values of the particle distribution for given walkers (nothing if this raises). -/
noncomputable def distRow (f : DistCfg) (ps : List (LdParticle ℝ d)) : List ℝ :=
  match distVals f ps true with
  | .ok v => v
  | .error _ => []

theorem distVals_row (f : DistCfg) (ps : List (LdParticle ℝ d)) (b : Bool) (v : List ℝ)
    (h : distVals f ps b = .ok v) (hb : b = true) : v = distRow f ps := by
  subst hb
  rw [distRow, h]

theorem steps_dist (w : World R) (c : SimCfg d) (s : Sim d R) (hb : c.bd.isSome = s.bd.isSome)
    (f : DistCfg) (x : SeriesState ℝ) (hf : c.dist = some f) (hx : s.dist = some x) (n : Nat) : ∀ s',
      runSteps w c n s = .ok s' → ∃ y, s'.dist = some y ∧
        SeriesState.steps f.series (fun t => distRow f (s.path w c t)) n x = .ok y := by
  induction n with
  | zero => intro s' h; cases h; exact ⟨x, hx, rfl⟩
  | succ n ih =>
    intro s' h
    obtain ⟨u, hu, ha⟩ := runSteps_succ w c n s s' h
    obtain ⟨y, hy, he⟩ := ih u hu
    have hs := ha.dist
    simp only [DistStep, hf, hy] at hs
    obtain ⟨v, z, hv, hz, e⟩ := hs
    refine ⟨z, e, ?_⟩
    rw [SeriesState.steps, he, ok_bind, ← path_runSteps w c (n + 1) s s' hb h, ← hz]
    exact seriesRun_vals _ _ _ _ _ (fun hs => (distVals_row f _ _ v hv (by simpa using hs)).symm)

/-- The particle distribution action of a whole simulation. -/
theorem simulate_dist (w : World R) (c : SimCfg d) (s : Sim d R) (hb : c.bd.isSome = s.bd.isSome)
    (f : DistCfg) (x : SeriesState ℝ) (hf : c.dist = some f) (hx : s.dist = some x) (n : Nat) (s' : Sim d R)
    (h : simulate w c n s = .ok s') : ∃ y, s'.dist = some y ∧
      SeriesState.simulate f.series (fun t => distRow f (s.path w c t)) (distRow f (s.path w c n)) n x = .ok y := by
  obtain ⟨u, hu, h⟩ := bind_ok h
  obtain ⟨y, hy, he⟩ := steps_dist w c s hb f x hf hx n u hu
  have hF := final_analysis c n u s' h
  have hs := hF.dist
  simp only [DistFinal, hf, hy] at hs
  obtain ⟨v, z, hv, hz, e⟩ := hs
  refine ⟨z, e, ?_⟩
  rw [SeriesState.simulate, he, ok_bind, ← path_runSteps w c n s u hb hu, ← hF.particles, ← hz]
  exact seriesFinal_vals _ _ _ _ _ (fun hs => (distVals_row f _ _ v hv (by simpa using hs)).symm)

/-! ### Free energy surface -/

/-- The last step up to `t` at which the FES is calculated; 0 stands for the calculation in the set-up. -/
def FesCfg.lastStep (f : FesCfg) (t : Nat) : Nat :=
  match f.stride with
  | none => 0
  | some k => t / k * k

theorem lastStep_succ (f : FesCfg) (t : Nat) :
    f.lastStep (t + 1) =
      if truthyNat f.stride && (t + 1) % f.stride.getD 0 == 0 then t + 1 else f.lastStep t := by
  unfold FesCfg.lastStep
  cases f.stride with
  | none => simp [truthyNat]
  | some k =>
    rcases Nat.eq_zero_or_pos k with rfl | hk
    · simp [truthyNat]
    · have h1 : truthyNat (some k) = true := by
        obtain ⟨j, rfl⟩ := Nat.exists_eq_succ_of_ne_zero (by omega : k ≠ 0)
        rfl
      simp only [h1, Option.getD_some, Bool.true_and, beq_iff_eq]
      by_cases hd : (t + 1) % k = 0
      · rw [if_pos hd]
        exact Nat.div_mul_cancel (Nat.dvd_of_mod_eq_zero hd)
      · rw [if_neg hd, Nat.succ_div, if_neg (fun h => hd (Nat.mod_eq_zero_of_dvd h)), Nat.add_zero]

theorem runSteps_le (w : World R) (c : SimCfg d) (s : Sim d R) (n : Nat) : ∀ s', runSteps w c n s = .ok s' →
    ∀ m, m ≤ n → ∃ u, runSteps w c m s = .ok u := by
  induction n with
  | zero => intro s' h m hm; exact ⟨s', by rwa [Nat.le_zero.1 hm]⟩
  | succ n ih =>
    intro s' h m hm
    rcases Nat.lt_or_ge m (n + 1) with hlt | hge
    · obtain ⟨t, ht, _⟩ := bind_ok h
      exact ih t ht m (by omega)
    · exact ⟨s', by rwa [show m = n + 1 by omega]⟩

theorem steps_histSome (w : World R) (c : SimCfg d) (s : Sim d R) (n : Nat) : ∀ s', runSteps w c n s = .ok s' →
    s'.hist.isSome = s.hist.isSome := by
  induction n with
  | zero => intro s' h; cases h; rfl
  | succ n ih =>
    intro s' h
    obtain ⟨u, hu, ha⟩ := runSteps_succ w c n s s' h
    rw [← ih u hu]
    have := ha.hist
    unfold HistStep at this
    split at this
    · obtain ⟨z, _, e⟩ := this
      simp_all
    · rw [this]

/-- During a simulation the FES is that of the histogram at the last multiple of its stride. -/
theorem steps_fes (w : World R) (c : SimCfg d) (s : Sim d R) (f : FesCfg) (hf : c.fes = some f)
    (h0 : ∃ h x, s.hist = some h ∧ calculateFes h.counts f.kt true = .ok x ∧ s.fes = some x) (n : Nat) :
    ∀ s', runSteps w c n s = .ok s' → ∃ u h x, runSteps w c (f.lastStep n) s = .ok u ∧ u.hist = some h ∧
      calculateFes h.counts f.kt true = .ok x ∧ s'.fes = some x := by
  induction n with
  | zero =>
    intro s' h
    cases h
    have : f.lastStep 0 = 0 := by
      unfold FesCfg.lastStep
      split <;> simp
    rw [this]
    obtain ⟨g, x, h1, h2, h3⟩ := h0
    exact ⟨s, g, x, rfl, h1, h2, h3⟩
  | succ n ih =>
    intro s' h
    obtain ⟨u, hu, ha⟩ := runSteps_succ w c n s s' h
    obtain ⟨v, g, x, hv, hg, hx, hux⟩ := ih u hu
    have hs := ha.fes
    have hh : ∃ k, s'.hist = some k := by
      rw [← Option.isSome_iff_exists, steps_histSome w c s (n + 1) s' h]
      obtain ⟨g, _, h1, _⟩ := h0
      rw [h1]; rfl
    obtain ⟨k, hk⟩ := hh
    simp only [FesStep, hf, hk, hux] at hs
    rw [lastStep_succ]
    split at hs
    · rename_i hc
      rw [if_pos hc]
      obtain ⟨z, hz, e⟩ := hs
      exact ⟨s', k, z, h, hk, hz, e⟩
    · rename_i hc
      rw [if_neg hc]
      exact ⟨v, g, x, hv, hg, hx, hs⟩

/-- The FES at the end of the simulation is that of the final histogram. -/
theorem simulate_fes (w : World R) (c : SimCfg d) (s : Sim d R) (f : FesCfg) (hf : c.fes = some f)
    (h0 : ∃ h x, s.hist = some h ∧ calculateFes h.counts f.kt true = .ok x ∧ s.fes = some x) (n : Nat)
    (s' : Sim d R) (h : simulate w c n s = .ok s') :
    ∃ h x, s'.hist = some h ∧ calculateFes h.counts f.kt true = .ok x ∧ s'.fes = some x := by
  obtain ⟨u, hu, h⟩ := bind_ok h
  obtain ⟨_, _, x, _, _, _, hx⟩ := steps_fes w c s f hf h0 n u hu
  have hF := final_analysis c n u s' h
  have hh : ∃ k, s'.hist = some k := by
    rw [← Option.isSome_iff_exists]
    have h1 : u.hist.isSome = true := by
      rw [steps_histSome w c s n u hu]
      obtain ⟨g, _, h1, _⟩ := h0
      rw [h1]; rfl
    have := hF.hist
    unfold HistFinal at this
    split at this
    · obtain ⟨z, _, e, _⟩ := this
      rw [e]; rfl
    · rw [this.1]; exact h1
  obtain ⟨k, hk⟩ := hh
  have hs := hF.fes
  simp only [FesFinal, hf, hk, hx] at hs
  obtain ⟨z, hz, e, _⟩ := hs
  exact ⟨k, z, hk, hz, e⟩

/-! ### Delta F -/

/-- The FES during a simulation (an empty array if there is none). -/
noncomputable def Sim.fesAt (w : World R) (c : SimCfg d) (s : Sim d R) (t : Nat) : Nd (WithTop ℝ) :=
  match runSteps w c t s with
  | .ok u => u.fes.getD ⟨[], []⟩
  | .error _ => ⟨[], []⟩

theorem fesAt_eq (w : World R) (c : SimCfg d) (s s' : Sim d R) (t : Nat) (x : Nd (WithTop ℝ))
    (h : runSteps w c t s = .ok s') (hx : s'.fes = some x) : s.fesAt w c t = x := by
  unfold Sim.fesAt
  rw [h]
  simp [hx]

/-- Free energy differences for a given FES (nothing if this raises). -/
noncomputable def deltaFRow (f : DeltaFCfg) (fes : Nd (WithTop ℝ)) : List ℝ :=
  match deltaFVals f fes true with
  | .ok v => v
  | .error _ => []

theorem deltaFVals_row (f : DeltaFCfg) (fes : Nd (WithTop ℝ)) (b : Bool) (v : List ℝ)
    (h : deltaFVals f fes b = .ok v) (hb : b = true) : v = deltaFRow f fes := by
  subst hb
  rw [deltaFRow, h]

theorem steps_deltaF (w : World R) (c : SimCfg d) (s : Sim d R) (fc : FesCfg) (hfc : c.fes = some fc)
    (h0 : ∃ h x, s.hist = some h ∧ calculateFes h.counts fc.kt true = .ok x ∧ s.fes = some x)
    (f : DeltaFCfg) (x : SeriesState ℝ) (hf : c.deltaF = some f) (hx : s.deltaF = some x) (n : Nat) : ∀ s',
      runSteps w c n s = .ok s' → ∃ y, s'.deltaF = some y ∧
        SeriesState.steps f.series (fun t => deltaFRow f (s.fesAt w c t)) n x = .ok y := by
  induction n with
  | zero => intro s' h; cases h; exact ⟨x, hx, rfl⟩
  | succ n ih =>
    intro s' h
    obtain ⟨u, hu, ha⟩ := runSteps_succ w c n s s' h
    obtain ⟨y, hy, he⟩ := ih u hu
    obtain ⟨_, _, g, _, _, _, hg⟩ := steps_fes w c s fc hfc h0 (n + 1) s' h
    have hs := ha.deltaF
    simp only [DeltaFStep, hf, hg, hy] at hs
    obtain ⟨v, z, hv, hz, e⟩ := hs
    refine ⟨z, e, ?_⟩
    rw [SeriesState.steps, he, ok_bind, fesAt_eq w c s s' (n + 1) g h hg, ← hz]
    exact seriesRun_vals _ _ _ _ _ (fun hs => (deltaFVals_row f _ _ v hv (by simpa using hs)).symm)

/-- The delta F action of a whole simulation; the final values belong to the final FES `g`. -/
theorem simulate_deltaF (w : World R) (c : SimCfg d) (s : Sim d R) (fc : FesCfg) (hfc : c.fes = some fc)
    (h0 : ∃ h x, s.hist = some h ∧ calculateFes h.counts fc.kt true = .ok x ∧ s.fes = some x)
    (f : DeltaFCfg) (x : SeriesState ℝ) (hf : c.deltaF = some f) (hx : s.deltaF = some x) (n : Nat)
    (s' : Sim d R) (h : simulate w c n s = .ok s') : ∃ y g, s'.deltaF = some y ∧ s'.fes = some g ∧
      SeriesState.simulate f.series (fun t => deltaFRow f (s.fesAt w c t)) (deltaFRow f g) n x = .ok y := by
  obtain ⟨_, g, _, _, hg⟩ := simulate_fes w c s fc hfc h0 n s' h
  obtain ⟨u, hu, h⟩ := bind_ok h
  obtain ⟨y, hy, he⟩ := steps_deltaF w c s fc hfc h0 f x hf hx n u hu
  have hs := (final_analysis c n u s' h).deltaF
  simp only [DeltaFFinal, hf, hg, hy] at hs
  obtain ⟨v, z, hv, hz, e⟩ := hs
  refine ⟨z, g, e, hg, ?_⟩
  rw [SeriesState.simulate, he, ok_bind, ← hz]
  exact seriesFinal_vals _ _ _ _ _ (fun hs => (deltaFVals_row f _ _ v hv (by simpa using hs)).symm)

end Bdld
