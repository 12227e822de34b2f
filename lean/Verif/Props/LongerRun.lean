import Verif.Props.MainPlots
import Verif.Props.MainAnalysis
import Verif.Props.Report

/-
C149: a longer run continues a shorter one with the same options otherwise.
-/

namespace Bdld

open Spec

noncomputable section

/-- Inputs that differ in the number of steps only. -/
structure Spec.SameButSteps (c c' : Input ℝ) : Prop where
  ld : ∀ k, k ≠ "n_steps" → c'.ld.get? k = c.ld.get? k
  potential : c'.potential = c.potential
  particles : c'.particles = c.particles
  birthDeath : c'.birthDeath = c.birthDeath
  trajectories : c'.trajectories = c.trajectories
  histogram : c'.histogram = c.histogram
  fes : c'.fes = c.fes
  deltaF : c'.deltaF = c.deltaF
  particleDistribution : c'.particleDistribution = c.particleDistribution

section
variable {R : Type} {d : Nat}

theorem setupLd_congr (w : World R) {o o' : Dict (OptVal ℝ)} (h : ∀ k, k ≠ "n_steps" → o'.get? k = o.get? k)
    (pot : Potential ℝ d) : setupLd w o' pot = setupLd w o pot := by
  have e : ∀ k, k ≠ "n_steps" → o'.getItem k = o.getItem k := fun k hk => by
    unfold Dict.getItem
    rw [h k hk]
  unfold setupLd
  rw [e "type" (by decide), e "timestep" (by decide), e "friction" (by decide), e "kt" (by decide), e "seed" (by decide)]

/-- The set-up of both runs is the same. -/
theorem longer_setup {w : World R} {file file' : Option (List Section)} {cfg : SimCfg d} {sim s0 : Sim d R}
    {config config' : Input ℝ} {n n' : Nat} {a' : AnySim R} {s0' : Sim a'.d R}
    (hr : FinishedRun w file ⟨d, cfg, sim⟩ config n s0) (hr' : FinishedRun w file' a' config' n' s0')
    (hc : SameButSteps config config') :
    ∃ sim' : Sim d R, a' = ⟨d, cfg, sim'⟩ ∧ FinishedRun w file' ⟨d, cfg, sim'⟩ config' n' s0 := by
  have e1 : setupRequired w config' = setupRequired w config := by
    unfold setupRequired
    rw [hc.potential, hc.particles]
    simp only [setupLd_congr w hc.ld]
  have e2 : ∀ {d : Nat} (c : SimCfg d) (s : Sim d R), setupOptional w config' c s = setupOptional w config c s := by
    intro d c s
    unfold setupOptional
    rw [hc.birthDeath, hc.trajectories, hc.histogram, hc.fes, hc.deltaF, hc.particleDistribution]
  have h1 := hr.required
  have h2 := hr.optional
  have h1' := hr'.required
  have h2' := hr'.optional
  rw [e1, h1] at h1'
  obtain ⟨d', cfg', sim'⟩ := a'
  simp only [Except.ok.injEq, AnySim.mk.injEq] at h1'
  obtain ⟨rfl, h3⟩ := h1'
  simp only [heq_eq_eq] at h3
  rw [e2, ← h3.1, ← h3.2] at h2'
  have h4 := Except.ok.inj (h2.symm.trans h2')
  simp only [Prod.mk.injEq] at h4
  obtain ⟨rfl, rfl⟩ := h4
  exact ⟨sim', rfl, hr'⟩

/-- Files and plots are only added. -/
structure Spec.Grows (s s' : Sim d R) : Prop where
  hist : s.histWrites <+: s'.histWrites
  fes : s.fesWrites <+: s'.fesWrites
  plots : s.plots <+: s'.plots

theorem Spec.Grows.refl (s : Sim d R) : Grows s s := ⟨List.prefix_rfl, List.prefix_rfl, List.prefix_rfl⟩

theorem Spec.Grows.trans {s s' s'' : Sim d R} (h : Grows s s') (h' : Grows s' s'') : Grows s s'' :=
  ⟨h.hist.trans h'.hist, h.fes.trans h'.fes, h.plots.trans h'.plots⟩

theorem gridWrite_grows {α : Type} (out : GridOut) (step : Option Nat) (a : α) (ws : List (String × α)) :
    ws <+: gridWrite out step a ws := by
  unfold gridWrite
  split
  · simp only
    split <;> exact List.prefix_append _ _
  · exact List.prefix_rfl

theorem gridWriteStride_grows {α : Type} (out : GridOut) (step : Nat) (a : α) (ws : List (String × α)) :
    ws <+: gridWriteStride out step a ws := by
  unfold gridWriteStride
  split
  · exact gridWrite_grows _ _ _ _
  · exact List.prefix_rfl

theorem fesPlot_last {c : PlotCfg} {step : Option Nat} {fes : Nd (WithTop ℝ)} {axes : List (List ℝ)}
    {plots plots' : List PlotOut} (h : fesPlot c step fes axes plots = .ok plots') :
    ∃ l, plots' = plots ++ l ∧ l.length ≤ 1 ∧ (step = none → ∀ p ∈ l, p.name = c.filename.getD "") := by
  unfold fesPlot at h
  split at h
  · cases h
    exact ⟨[], by simp⟩
  · obtain ⟨f, _, h⟩ := bind_ok h
    by_cases h1 : saveable c.formats (if truthyNat step then stepFilename (c.filename.getD "") (step.getD 0) else c.filename.getD "") = true
    · rw [if_pos h1] at h
      cases h
      refine ⟨_, rfl, le_rfl, ?_⟩
      rintro rfl p hp
      cases List.mem_singleton.1 hp
      rfl
    · rw [if_neg h1] at h
      by_cases h2 : c.terminal = true
      · rw [if_pos h2] at h
        cases h
        refine ⟨_, rfl, le_rfl, ?_⟩
        rintro rfl p hp
        cases List.mem_singleton.1 hp
        rfl
      · rw [if_neg h2] at h
        cases h

theorem fesPlot_grows {c : PlotCfg} {step : Option Nat} {fes : Nd (WithTop ℝ)} {axes : List (List ℝ)}
    {plots plots' : List PlotOut} (h : fesPlot c step fes axes plots = .ok plots') : plots <+: plots' := by
  obtain ⟨l, rfl, _⟩ := fesPlot_last h
  exact List.prefix_append _ _

theorem fesPlotStride_grows {c : PlotCfg} {step : Nat} {fes : Nd (WithTop ℝ)} {axes : List (List ℝ)}
    {plots plots' : List PlotOut} (h : fesPlotStride c step fes axes plots = .ok plots') : plots <+: plots' := by
  unfold fesPlotStride at h
  split at h
  · exact fesPlot_grows h
  · cases h; exact List.prefix_rfl

theorem runAction_grows (w : World R) (c : SimCfg d) (s s' : Sim d R) (a : ActName) (step : Nat)
    (h : runAction w c s a step = .ok s') : Grows s s' := by
  cases a <;> simp only [runAction] at h
  case ld =>
    obtain ⟨x, _, h⟩ := bind_ok h
    cases h
    exact ⟨List.prefix_rfl, List.prefix_rfl, List.prefix_rfl⟩
  case birthDeath =>
    split at h
    · obtain ⟨x, _, h⟩ := bind_ok h
      cases h
      exact ⟨List.prefix_rfl, List.prefix_rfl, List.prefix_rfl⟩
    · cases h; exact ⟨List.prefix_rfl, List.prefix_rfl, List.prefix_rfl⟩
  case trajectories =>
    split at h
    · obtain ⟨x, _, h⟩ := bind_ok h
      cases h
      exact ⟨List.prefix_rfl, List.prefix_rfl, List.prefix_rfl⟩
    · cases h; exact ⟨List.prefix_rfl, List.prefix_rfl, List.prefix_rfl⟩
  case histogram =>
    split at h
    · obtain ⟨x, _, h⟩ := bind_ok h
      cases h
      exact ⟨gridWriteStride_grows _ _ _ _, List.prefix_rfl, List.prefix_rfl⟩
    · cases h; exact ⟨List.prefix_rfl, List.prefix_rfl, List.prefix_rfl⟩
  case fes =>
    split at h
    · obtain ⟨x, _, h⟩ := bind_ok h
      obtain ⟨p, hp, h⟩ := bind_ok h
      cases h
      exact ⟨List.prefix_rfl, gridWriteStride_grows _ _ _ _, fesPlotStride_grows hp⟩
    · cases h; exact ⟨List.prefix_rfl, List.prefix_rfl, List.prefix_rfl⟩
  case deltaF =>
    split at h
    · obtain ⟨x, _, h⟩ := bind_ok h
      obtain ⟨y, _, h⟩ := bind_ok h
      cases h
      exact ⟨List.prefix_rfl, List.prefix_rfl, List.prefix_rfl⟩
    · cases h; exact ⟨List.prefix_rfl, List.prefix_rfl, List.prefix_rfl⟩
  case particleDistribution =>
    split at h
    · obtain ⟨x, _, h⟩ := bind_ok h
      obtain ⟨y, _, h⟩ := bind_ok h
      cases h
      exact ⟨List.prefix_rfl, List.prefix_rfl, List.prefix_rfl⟩
    · cases h; exact ⟨List.prefix_rfl, List.prefix_rfl, List.prefix_rfl⟩

theorem runEvents_grows (w : World R) (c : SimCfg d) (step : Nat) : ∀ (as : List ActName) (s s' : Sim d R),
    as.foldlM (runEvent w c step) s = .ok s' → Grows s s'
  | [], s, s', h => by cases h; exact .refl _
  | a :: as, s, s', h => by
    obtain ⟨u, h1, h2⟩ := bind_ok h
    obtain ⟨v, hv, h3⟩ := bind_ok h1
    have g1 := runAction_grows w c s v a step hv
    have g2 := runEvents_grows w c step as u s' h2
    cases h3
    exact ⟨g1.hist.trans g2.hist, g1.fes.trans g2.fes, g1.plots.trans g2.plots⟩

theorem runSteps_grows (w : World R) (c : SimCfg d) (s u : Sim d R) (n : Nat) (hu : runSteps w c n s = .ok u) :
    ∀ (n' : Nat) (u' : Sim d R), n ≤ n' → runSteps w c n' s = .ok u' → Grows u u'
  | 0, u', hn, h => by
    obtain rfl : n = 0 := by omega
    rw [hu] at h
    cases h
    exact .refl _
  | n' + 1, u', hn, h => by
    rcases Nat.lt_or_ge n' n with h1 | h1
    · obtain rfl : n = n' + 1 := by omega
      rw [hu] at h
      cases h
      exact .refl _
    · obtain ⟨v, hv, h2⟩ := bind_ok h
      exact (runSteps_grows w c s u n hu n' v h1 hv).trans (runEvents_grows w c _ _ _ _ h2)

end

section
variable {R : Type} {d : Nat} {w : World R} {file file' : Option (List Section)} {cfg : SimCfg d} {sim sim' s0 : Sim d R}
  {config config' : Input ℝ} {n n' : Nat}

theorem longer_counters (hr : FinishedRun w file ⟨d, cfg, sim⟩ config n s0)
    (hr' : FinishedRun w file' ⟨d, cfg, sim'⟩ config' n' s0) : hr'.counters = hr.counters := by
  funext t
  unfold FinishedRun.counters
  rcases dynSteps w cfg.kind cfg.ld cfg.bd t s0.dyn with e | y <;> rfl

theorem longer_histAt (hr : FinishedRun w file ⟨d, cfg, sim⟩ config n s0)
    (hr' : FinishedRun w file' ⟨d, cfg, sim'⟩ config' n' s0) : hr'.histAt = hr.histAt := by
  funext t
  unfold FinishedRun.histAt
  rcases runSteps w cfg t s0 with e | y <;> rfl

/-- C149, trajectories: the file of every walker is the beginning of its file in the longer run. -/
theorem longer_trajectories (hr : FinishedRun w file ⟨d, cfg, sim⟩ config n s0)
    (hr' : FinishedRun w file' ⟨d, cfg, sim'⟩ config' n' s0) (hn : n ≤ n') (hc : SameButSteps config config')
    (hops : w.bdOps.Lawful) (o : Dict (OptVal ℝ)) (ho : config.trajectories = some o) (hf : hasFilename o = true) :
    ∃ x x' fs fs', sim.traj = some x ∧ sim'.traj = some x' ∧ x.files = some fs ∧ x'.files = some fs' ∧
      List.Forall₂ (· <+: ·) fs fs' := by
  obtain ⟨x, h1, h2⟩ := main_trajectories hr hops o ho
  obtain ⟨x', h1', h2'⟩ := main_trajectories hr' hops o (hc.trajectories.trans ho)
  rw [if_pos hf] at h2 h2'
  refine ⟨x, x', _, _, h1, h1', h2, h2', ?_⟩
  rw [List.forall₂_map_left_iff, List.forall₂_map_right_iff, List.forall₂_same]
  intro i _
  rw [← sampledSteps_append _ (Nat.zero_le n) hn, List.map_append]
  exact List.prefix_append _ _

/-- C149, report about birth-death: with a stride the records are the first ones of the longer run. -/
theorem longer_records (hr : FinishedRun w file ⟨d, cfg, sim⟩ config n s0)
    (hr' : FinishedRun w file' ⟨d, cfg, sim'⟩ config' n' s0) (hn : n ≤ n') (hc : SameButSteps config config')
    (hops : w.bdOps.Lawful) (o : Dict (OptVal ℝ)) (ho : config.birthDeath = some o)
    (hs : natOption o "stats-stride" 0 ≠ 0) :
    ∃ z z', sim.bd = some z ∧ sim'.bd = some z' ∧ z.log <+: z'.log := by
  obtain ⟨z, h1, _, h2⟩ := main_records hr hops o ho
  obtain ⟨z', h1', _, h2'⟩ := main_records hr' hops o (hc.birthDeath.trans ho)
  refine ⟨z, z', h1, h1', ?_⟩
  rw [h2, h2']
  unfold reportSteps
  have e : List.range n' = List.range n ++ (List.range (n' - n)).map (n + ·) := by
    rw [← List.range_add, Nat.add_sub_cancel' hn]
  rw [if_neg hs, if_neg hs, e, longer_counters hr hr', List.map_append, List.filter_append, List.map_append]
  exact List.prefix_append _ _

/-- C149, particle distribution: with a stride the rows are the first ones of the longer run, unless the last write of
the shorter run is a second one of the same rows (C84). -/
theorem longer_distribution (hr : FinishedRun w file ⟨d, cfg, sim⟩ config n s0)
    (hr' : FinishedRun w file' ⟨d, cfg, sim'⟩ config' n' s0) (hn : n ≤ n') (hc : SameButSteps config config')
    (hops : w.bdOps.Lawful) (o : Dict (OptVal ℝ)) (ho : config.particleDistribution = some o)
    (states : List (List (ℝ × ℝ))) (hst : stateRanges o = .ok states) (hd : ∀ s ∈ states, s.length = d)
    (hw : 0 < s0.particles.length) (hs : seriesStride o ≠ 0) (hl : ¬ emptyLastWrite o n) :
    ∃ x x', sim.dist = some x ∧ sim'.dist = some x' ∧ x.file <+: x'.file := by
  obtain ⟨x, h1, h2⟩ := main_distribution hr hops o ho states hst hd hw
  obtain ⟨x', h1', h2'⟩ := main_distribution hr' hops o (hc.particleDistribution.trans ho) states hst hd hw
  refine ⟨x, x', h1, h1', ?_⟩
  rw [h2, h2']
  unfold seriesFile
  split
  · rw [List.append_nil, ← sampledSteps_append _ (Nat.zero_le n) hn, show hr'.path = hr.path from rfl, List.map_append,
      List.append_assoc]
    exact List.prefix_append _ _
  · exact List.prefix_rfl

/-- C149, free energy differences: as for the particle distribution, if no state is empty when a row is stored. -/
theorem longer_deltaF (hr : FinishedRun w file ⟨d, cfg, sim⟩ config n s0)
    (hr' : FinishedRun w file' ⟨d, cfg, sim'⟩ config' n' s0) (hn : n ≤ n') (hc : SameButSteps config config')
    (o of : Dict (OptVal ℝ)) (ho : config.deltaF = some o) (hof : config.fes = some of)
    (states : List (List (ℝ × ℝ))) (hst : stateRanges o = .ok states) (hd : ∀ s ∈ states, s.length = 1)
    (hpos : ∀ t, 0 < t → t ≤ n' → seriesStride o ∣ t → ∀ s ∈ states, stateCounts (hr'.histAt (fesStep of t)) s ≠ 0)
    (hend : ∀ h, sim.hist = some h → ∀ s ∈ states, stateCounts h s ≠ 0)
    (hend' : ∀ h, sim'.hist = some h → ∀ s ∈ states, stateCounts h s ≠ 0)
    (hs : seriesStride o ≠ 0) (hl : ¬ emptyLastWrite o n) :
    ∃ x x', sim.deltaF = some x ∧ sim'.deltaF = some x' ∧ x.file <+: x'.file := by
  obtain ⟨x, h, h1, h3, h2⟩ := main_deltaF hr o of ho hof states hst hd
  obtain ⟨x', h', h1', h3', h2'⟩ := main_deltaF hr' o of (hc.deltaF.trans ho) (hc.fes.trans hof) states hst hd
  refine ⟨x, x', h1, h1', ?_⟩
  rw [longer_histAt hr hr'] at h2' hpos
  rw [h2 (fun t h1 h2 => hpos t h1 (h2.trans hn)) (hend h h3), h2' hpos (hend' h' h3')]
  unfold seriesFile
  split
  · rw [List.append_nil, ← sampledSteps_append _ (Nat.zero_le n) hn, List.map_append,
      List.append_assoc]
    exact List.prefix_append _ _
  · exact List.prefix_rfl

theorem gridWrite_last {α : Type} (out : GridOut) (a : α) (ws : List (String × α)) :
    ∃ l, gridWrite out none a ws = ws ++ l ∧ l.length ≤ 1 ∧ ∀ p ∈ l, out.filename = some p.1 := by
  unfold gridWrite
  rcases h : out.filename with _ | name
  · exact ⟨[], by simp [truthyStr]⟩
  · by_cases h1 : truthyStr (some name) = true
    · rw [if_pos h1]
      refine ⟨[(name, a)], rfl, le_rfl, ?_⟩
      intro p hp
      cases List.mem_singleton.1 hp
      rfl
    · rw [if_neg h1]
      exact ⟨[], by simp⟩

/-- C149, histograms, free energy surfaces and plots: all but the last ones (without step in the name) are made by the
longer run as well. -/
theorem longer_grids (hr : FinishedRun w file ⟨d, cfg, sim⟩ config n s0)
    (hr' : FinishedRun w file' ⟨d, cfg, sim'⟩ config' n' s0) (hn : n ≤ n') :
    (∃ ws l, sim.histWrites = ws ++ l ∧ ws <+: sim'.histWrites ∧ l.length ≤ 1 ∧
      ∀ p ∈ l, ∃ h out, cfg.hist = some (h, out) ∧ out.filename = some p.1) ∧
    (∃ ws l, sim.fesWrites = ws ++ l ∧ ws <+: sim'.fesWrites ∧ l.length ≤ 1 ∧
      ∀ p ∈ l, ∃ f, cfg.fes = some f ∧ f.out.filename = some p.1) ∧
    ∃ ws l, sim.plots = ws ++ l ∧ ws <+: sim'.plots ∧ l.length ≤ 1 ∧
      ∀ p ∈ l, ∃ f, cfg.fes = some f ∧ f.plot.filename.getD "" = p.name := by
  obtain ⟨u, hu, hfin⟩ := bind_ok hr.sim
  obtain ⟨u', hu', hfin'⟩ := bind_ok hr'.sim
  have hg := runSteps_grows w cfg s0 u n hu n' u' hn hu'
  have hF := final_analysis cfg n u sim hfin
  have hF' := final_analysis cfg n' u' sim' hfin'
  have kh : ∀ {m : Nat} {t : Option (TrajState ℝ)} {x y : Option (Histogram ℝ)} {wr wr' : List (String × Histogram ℝ)},
      HistFinal cfg m t x y wr wr' → ∃ l, wr' = wr ++ l ∧ l.length ≤ 1 ∧
        ∀ p ∈ l, ∃ h out, cfg.hist = some (h, out) ∧ out.filename = some p.1 := by
    intro m t x y wr wr' h
    unfold HistFinal at h
    split at h
    · obtain ⟨z, _, _, rfl⟩ := h
      obtain ⟨l, e1, e2, e3⟩ := gridWrite_last _ z wr
      exact ⟨l, e1, e2, fun p hp => ⟨_, _, by assumption, e3 p hp⟩⟩
    · exact ⟨[], by simp [h.2]⟩
  have kf : ∀ {t : Option (Histogram ℝ)} {x y : Option (Nd (WithTop ℝ))} {wr wr' : List (String × Nd (WithTop ℝ))},
      FesFinal cfg t x y wr wr' → ∃ l, wr' = wr ++ l ∧ l.length ≤ 1 ∧
        ∀ p ∈ l, ∃ f, cfg.fes = some f ∧ f.out.filename = some p.1 := by
    intro t x y wr wr' h
    unfold FesFinal at h
    split at h
    · obtain ⟨z, _, _, rfl⟩ := h
      obtain ⟨l, e1, e2, e3⟩ := gridWrite_last _ z wr
      exact ⟨l, e1, e2, fun p hp => ⟨_, by assumption, e3 p hp⟩⟩
    · exact ⟨[], by simp [h.2]⟩
  have kp : ∀ {t : Option (Histogram ℝ)} {y : Option (Nd (WithTop ℝ))} {pl pl' : List PlotOut},
      PlotFinal cfg t y pl pl' → ∃ l, pl' = pl ++ l ∧ l.length ≤ 1 ∧
        ∀ p ∈ l, ∃ f, cfg.fes = some f ∧ f.plot.filename.getD "" = p.name := by
    intro t y pl pl' h
    unfold PlotFinal at h
    split at h
    · obtain ⟨l, e1, e2, e3⟩ := fesPlot_last h
      exact ⟨l, e1, e2, fun p hp => ⟨_, by assumption, (e3 rfl p hp).symm⟩⟩
    · exact ⟨[], by simp [h]⟩
  obtain ⟨l1, a1, a2, a3⟩ := kh hF.hist
  obtain ⟨l2, b1, b2, b3⟩ := kf hF.fes
  obtain ⟨l3, c1, c2, c3⟩ := kp hF.plots
  obtain ⟨l1', a1', _⟩ := kh hF'.hist
  obtain ⟨l2', b1', _⟩ := kf hF'.fes
  obtain ⟨l3', c1', _⟩ := kp hF'.plots
  refine ⟨⟨_, l1, a1, ?_, a2, a3⟩, ⟨_, l2, b1, ?_, b2, b3⟩, ⟨_, l3, c1, ?_, c2, c3⟩⟩
  · rw [a1']; exact hg.hist.trans (List.prefix_append _ _)
  · rw [b1']; exact hg.fes.trans (List.prefix_append _ _)
  · rw [c1']; exact hg.plots.trans (List.prefix_append _ _)

end

end

end Bdld
