import Verif.Props.ConsoleSetup
import Verif.Props.Report

/-
C136: what a run prints.
-/

set_option linter.unusedSectionVars false

namespace Bdld

open Spec

variable {R : Type} {d : Nat}

/-! ### Set-up -/

theorem setupRequiredP_out (sh : Shows) (w : World R) (config : Input ℝ) (r : AnySim R)
    (hv : ValidParticles config.particles) (h : setupRequired w config = .ok r) :
    (setupRequiredP sh w config).out =
      ldLines sh (potentialText sh w config.potential) r.cfg.kind r.cfg.ld config.ld ++
        particleLines sh config.particles := by
  unfold setupRequired at h
  obtain ⟨p, hp, h⟩ := bind_ok h
  obtain ⟨l, hl, h⟩ := bind_ok h
  obtain ⟨s, hs, h⟩ := bind_ok h
  cases h
  unfold setupRequiredP
  rw [Prints.quiet_bind_out _ _ _ hp, Prints.bind_out_ok _ _ l (by rw [setupLdP_res, hl]),
    Prints.bind_out_ok _ _ s (by rw [initParticlesP_res, hs]), Prints.pure_out, setupLdP_out _ _ _ _ _ _ hl,
    initParticlesP_out _ _ _ _ _ _ hv hs, List.append_nil]

theorem setupFes_stride (w : World R) (o : Dict (OptVal ℝ)) (ld : LdCfg ℝ d) (hi : Histogram ℝ)
    (x : FesCfg × Nd (WithTop ℝ)) (h : setupFes w o ld hi = .ok x) : x.1.stride.getD 0 = natOption o "stride" 0 := by
  unfold setupFes at h
  obtain ⟨ref, hrf, h⟩ := bind_ok h
  obtain ⟨v1, g1, h⟩ := bind_ok h
  obtain ⟨y1, f1, h⟩ := bind_ok h
  have := stride_getD g1 f1
  clear g1 f1
  iterate 12 obtain ⟨_, -, h⟩ := bind_ok h
  obtain ⟨fes, hfes, h⟩ := bind_ok h
  obtain ⟨u, hu, h⟩ := bind_ok h
  obtain ⟨⟨⟩, hc1, h⟩ := bind_ok h
  obtain ⟨⟨⟩, hc2, h⟩ := bind_ok h
  cases h
  exact this

theorem requireAction_inv {α : Type} {a : Option α} {name : String} {x : α} (h : requireAction a name = .ok x) :
    a = some x := by
  unfold requireAction at h
  split at h <;> cases h
  rfl

theorem setupOptionalP_out (sh : Shows) (w : World R) (config : Input ℝ) (c c' : SimCfg d) (s s' : Sim d R)
    (hv : ValidInput config) (hc : c.fes = none) (h : setupOptional w config c s = .ok (c', s')) :
    (setupOptionalP sh w config c s).out =
      ifGiven (birthDeathLines sh c.ld) config.birthDeath ++ ifGiven trajectoryLines config.trajectories ++
      ifGiven (histogramLines sh) config.histogram ++ ifGiven (fesLines sh c.ld.kt) config.fes ++
      ifGiven (deltaFLines (config.fes.getD [])) config.deltaF ++
      ifGiven distributionLines config.particleDistribution := by
  unfold setupOptional at h
  obtain ⟨⟨c1, s1⟩, h1, h⟩ := bind_ok h
  obtain ⟨⟨c2, s2⟩, h2, h⟩ := bind_ok h
  obtain ⟨⟨c3, s3⟩, h3, h⟩ := bind_ok h
  obtain ⟨⟨c4, s4⟩, h4, h⟩ := bind_ok h
  obtain ⟨⟨c5, s5⟩, h5, h⟩ := bind_ok h
  simp only at h1 h2 h3 h4 h5 h
  have k1 : c1.ld = c.ld ∧ c1.fes = none := by
    split at h1
    · cases h1; exact ⟨rfl, hc⟩
    · obtain ⟨b, -, h1⟩ := bind_ok h1
      cases h1; exact ⟨rfl, hc⟩
  have k2 : c2.ld = c.ld ∧ c2.fes = none := by
    split at h2
    · cases h2; exact k1
    · obtain ⟨b, -, h2⟩ := bind_ok h2
      cases h2; exact k1
  have k3 : c3.ld = c.ld ∧ c3.fes = none := by
    split at h3
    · cases h3; exact k2
    · obtain ⟨t, -, h3⟩ := bind_ok h3
      obtain ⟨b, -, h3⟩ := bind_ok h3
      cases h3; exact k2
  have k4 : ∀ f, c4.fes = some f → f.stride.getD 0 = natOption (config.fes.getD []) "stride" 0 := by
    intro f hf
    split at h4
    · cases h4
      rw [k3.2] at hf
      cases hf
    · rename_i o ho
      obtain ⟨t, -, h4⟩ := bind_ok h4
      obtain ⟨b, hb, h4⟩ := bind_ok h4
      cases h4
      cases hf
      rw [ho]
      exact setupFes_stride w o _ _ _ hb
  unfold setupOptionalP
  simp only [List.append_assoc]
  refine (Prints.bind_out_ok _ _ (c1, s1) ?_).trans (congrArg₂ _ ?_ ?_)
  · rw [← h1]
    cases config.birthDeath with
    | none => rfl
    | some o => simp only [Prints.bind_res, setupBirthDeathP_res, Prints.pure_res, pure_eq_ok]
  · cases hb : config.birthDeath with
    | none => rfl
    | some o =>
      rw [hb] at h1
      obtain ⟨b, hb', h1⟩ := bind_ok h1
      simp only
      rw [Prints.bind_out_ok _ _ b (by rw [setupBirthDeathP_res, hb']),
        setupBirthDeathP_out sh w _ o c.ld b (hv.birthDeath o hb) hb', Prints.pure_out, List.append_nil]
      rfl
  refine (Prints.bind_out_ok _ _ (c2, s2) ?_).trans (congrArg₂ _ ?_ ?_)
  · rw [← h2]
    cases config.trajectories with
    | none => rfl
    | some o => simp only [Prints.bind_res, setupTrajectoriesP_res, Prints.pure_res, pure_eq_ok]
  · cases hb : config.trajectories with
    | none => rfl
    | some o =>
      rw [hb] at h2
      obtain ⟨b, hb', h2⟩ := bind_ok h2
      simp only
      rw [Prints.bind_out_ok _ _ b (by rw [setupTrajectoriesP_res, hb']),
        setupTrajectoriesP_out w _ o _ _ b (hv.trajectories o hb).1 hb', Prints.pure_out, List.append_nil]
      rfl
  refine (Prints.bind_out_ok _ _ (c3, s3) ?_).trans (congrArg₂ _ ?_ ?_)
  · rw [← h3]
    cases config.histogram with
    | none => rfl
    | some o => simp only [Prints.bind_res, quiet_res, setupHistogramP_res, Prints.pure_res, pure_eq_ok]
  · cases hb : config.histogram with
    | none => rfl
    | some o =>
      rw [hb] at h3
      obtain ⟨t, ht, h3⟩ := bind_ok h3
      obtain ⟨b, hb', h3⟩ := bind_ok h3
      simp only
      rw [Prints.quiet_bind_out _ _ _ ht, Prints.bind_out_ok _ _ b (by rw [setupHistogramP_res, hb']),
        setupHistogramP_out sh _ o _ b (hv.histogram o hb).toValidOutput hb', Prints.pure_out, List.append_nil]
      rfl
  refine (Prints.bind_out_ok _ _ (c4, s4) ?_).trans (congrArg₂ _ ?_ ?_)
  · rw [← h4]
    cases config.fes with
    | none => rfl
    | some o => simp only [Prints.bind_res, quiet_res, setupFesP_res, Prints.pure_res, pure_eq_ok]
  · cases hb : config.fes with
    | none => rfl
    | some o =>
      rw [hb] at h4
      obtain ⟨t, ht, h4⟩ := bind_ok h4
      obtain ⟨b, hb', h4⟩ := bind_ok h4
      simp only
      rw [Prints.quiet_bind_out _ _ _ ht, Prints.bind_out_ok _ _ b (by rw [setupFesP_res, hb']),
        setupFesP_out sh _ o _ _ b hb', Prints.pure_out, List.append_nil, k3.1]
      rfl
  refine (Prints.bind_out_ok _ _ (c5, s5) ?_).trans (congrArg₂ _ ?_ ?_)
  · rw [← h5]
    cases config.deltaF with
    | none => rfl
    | some o => simp only [Prints.bind_res, quiet_res, setupDeltaFP_res, Prints.pure_res, pure_eq_ok]
  · cases hb : config.deltaF with
    | none => rfl
    | some o =>
      rw [hb] at h5
      obtain ⟨f, hf, h5⟩ := bind_ok h5
      obtain ⟨t, ht, h5⟩ := bind_ok h5
      obtain ⟨b, hb', h5⟩ := bind_ok h5
      simp only
      rw [Prints.quiet_bind_out _ _ _ hf, Prints.quiet_bind_out _ _ _ ht,
        Prints.bind_out_ok _ _ b (by rw [setupDeltaFP_res, hb']),
        setupDeltaFP_out w (config.fes.getD []) o _ _ f.stride _ b (k4 f (requireAction_inv hf)) hb', Prints.pure_out,
        List.append_nil]
      rfl
  · cases hb : config.particleDistribution with
    | none => rfl
    | some o =>
      rw [hb] at h
      obtain ⟨b, hb', h⟩ := bind_ok h
      simp only
      rw [Prints.bind_out_ok _ _ b (by rw [setupDistributionP_res, hb']),
        setupDistributionP_out w o b hb', Prints.pure_out, List.append_nil]
      rfl

/-! ### Simulation -/

theorem runEvent_log (w : World R) (c : SimCfg d) (step : Nat) (s s' : Sim d R) (a : ActName)
    (h : runEvent w c step s a = .ok s') : s.bdLog <+: s'.bdLog := by
  obtain ⟨u, hu, h⟩ := bind_ok h
  cases h
  change s.bdLog <+: u.bdLog
  by_cases h1 : a = .ld
  · subst h1
    obtain ⟨x, hx, hu⟩ := bind_ok hu
    cases hu
    exact List.prefix_rfl
  by_cases h2 : a = .birthDeath
  · subst h2
    simp only [runAction] at hu
    split at hu
    · rename_i b x hb hx
      obtain ⟨y, hy, hu⟩ := bind_ok hu
      cases hu
      simp only [Sim.bdLog, hx]
      unfold bdRun at hy
      by_cases h0 : b.stride = 0
      · rw [if_pos h0] at hy
        cases hy
      rw [if_neg h0] at hy
      obtain ⟨st, hst, hy⟩ := bind_ok hy
      cases hy
      simp only
      split
      · exact List.prefix_append _ _
      · exact List.prefix_rfl
    · cases hu
      exact List.prefix_rfl
  have := congrArg Dyn.bd (runAction_dyn w c s u a step h1 h2 hu)
  have : u.bd = s.bd := this
  rw [Sim.bdLog, Sim.bdLog, this]

theorem finalEvent_log (c : SimCfg d) (step : Nat) (s s' : Sim d R) (a : ActName)
    (h : finalEvent c step s a = .ok s') : s.bdLog <+: s'.bdLog := by
  obtain ⟨u, hu, h⟩ := bind_ok h
  cases h
  change s.bdLog <+: u.bdLog
  by_cases h2 : a = .birthDeath
  · subst h2
    simp only [finalAction] at hu
    split at hu
    · rename_i b x hb hx
      cases hu
      simp only [Sim.bdLog, hx]
      unfold bdFinal
      split
      · exact List.prefix_rfl
      · exact List.prefix_append _ _
    · cases hu
      exact List.prefix_rfl
  have := congrArg Dyn.bd (finalAction_dyn c s u a step h2 hu)
  have : u.bd = s.bd := this
  rw [Sim.bdLog, Sim.bdLog, this]

theorem newReports_self (sh : Shows) (f : Option String) (s : Sim d R) : newReports sh f s s = [] := by
  simp [newReports, statsOutput]

theorem newReports_trans (sh : Shows) (f : Option String) (s t u : Sim d R) (h1 : s.bdLog <+: t.bdLog)
    (h2 : t.bdLog <+: u.bdLog) : newReports sh f s t ++ newReports sh f t u = newReports sh f s u := by
  obtain ⟨x, hx⟩ := h1
  obtain ⟨y, hy⟩ := h2
  unfold newReports statsOutput
  rw [← hy, ← hx, List.drop_left, List.drop_left, List.append_assoc, List.drop_left, List.map_append,
    List.flatMap_append]

/-- Output of a loop whose steps print the new records. -/
theorem foldP_out (sh : Shows) (f : Option String) (g : Sim d R → ActName → Except PyErr (Sim d R))
    (p : Sim d R → ActName → Prints (Sim d R))
    (hp : ∀ s a, p s a = (quiet (g s a) >>= fun s' => sayAll (newReports sh f s s') >>= fun _ => pure s'))
    (hg : ∀ s a s', g s a = .ok s' → s.bdLog <+: s'.bdLog) : ∀ (l : List ActName) (s s' : Sim d R),
    l.foldlM g s = .ok s' → (foldP p s l).out = newReports sh f s s' ∧ s.bdLog <+: s'.bdLog
  | [], s, s', h => by
    cases h
    exact ⟨(newReports_self sh f s).symm, List.prefix_rfl⟩
  | a :: l, s, s', h => by
    rw [List.foldlM_cons] at h
    obtain ⟨t, ht, h⟩ := bind_ok h
    obtain ⟨i1, i2⟩ := foldP_out sh f g p hp hg l t s' h
    have ho : (p s a).out = newReports sh f s t := by
      rw [hp, Prints.quiet_bind_out _ _ _ ht, Prints.sayAll_bind_out, Prints.pure_out, List.append_nil]
    have hr : (p s a).res = .ok t := by
      rw [hp, Prints.bind_res, quiet_res, ht]
      rfl
    rw [foldP, Prints.bind_out_ok _ _ t hr, ho, i1]
    exact ⟨newReports_trans sh f s t s' (hg s a t ht) i2, (hg s a t ht).trans i2⟩

theorem runStepsP_out (sh : Shows) (w : World R) (f : Option String) (c : SimCfg d) : ∀ (n : Nat) (s s' : Sim d R),
    runSteps w c n s = .ok s' → (runStepsP sh w f c n s).out = newReports sh f s s' ∧ s.bdLog <+: s'.bdLog
  | 0, s, s', h => by
    cases h
    exact ⟨(newReports_self sh f s).symm, List.prefix_rfl⟩
  | n + 1, s, s', h => by
    obtain ⟨t, ht, h⟩ := bind_ok h
    obtain ⟨i1, i2⟩ := runStepsP_out sh w f c n s t ht
    obtain ⟨j1, j2⟩ := foldP_out sh f (runEvent w c (n + 1)) (runEventP sh w f c (n + 1)) (fun _ _ => rfl)
      (fun s a s' h => runEvent_log w c (n + 1) s s' a h) _ _ _ h
    rw [runStepsP, Prints.bind_out_ok _ _ t (by rw [runStepsP_res, ht]), i1, j1]
    exact ⟨newReports_trans sh f s t s' i2 j2, i2.trans j2⟩

/-! ### The whole program -/

variable {w : World R} {file : Option (List Section)} {a : AnySim R} {config : Input ℝ} {n : Nat}
  {s0 : Sim a.d R}

theorem report_lines (sh : Shows) (o : Dict (OptVal ℝ)) (ho : config.birthDeath = some o)
    (hv : NoneOr (IsStr anything) (o.get? "stats-filename")) (l : List Nat) (cs : Nat → BdStats) :
    (statsOutput (statsFilename config) (l.map (fun t => (t, cs t)))).flatMap (reportText sh) =
      l.flatMap (fun t => statsLines sh o t (cs t)) := by
  have hf : (statsFilename config).getD "" = strOption o "stats-filename" := by
    unfold statsFilename strOption
    rw [ho]
    rcases hv with h | ⟨x, h, -⟩ <;> simp [h]
  unfold statsOutput
  rw [List.map_map, List.flatMap_map]
  congr 1
  funext t
  simp only [Function.comp, BdStats.print, hf]
  by_cases h : strOption o "stats-filename" = ""
  · simp [h, statsLines, reportText]
  · simp [h, statsLines, reportText]

theorem dynSteps_none (w : World R) (kind : LdKind) (ld : LdCfg ℝ d) : ∀ (n : Nat) (x y : Dyn d R), x.bd = none →
    dynSteps w kind ld none n x = .ok y → y.bd = none
  | 0, x, y, hx, h => by
    cases h
    exact hx
  | n + 1, x, y, hx, h => by
    obtain ⟨z, hz, h⟩ := bind_ok h
    have := dynSteps_none w kind ld n x z hx hz
    obtain ⟨u, hu, h⟩ := bind_ok h
    cases h
    exact this

/-- **C136.** Everything that a finished run prints. -/
theorem finished_output (sh : Shows) (hr : FinishedRun w file a config n s0) (hops : w.bdOps.Lawful) :
    (mainP sh w file).out = screen sh (potentialText sh w config.potential) config a.cfg n hr.counters := by
  have hv := input_valid 1 one_pos file config hr.parse
  unfold mainP
  rw [Prints.say_bind_out, Prints.quiet_bind_out _ _ _ hr.parse]
  unfold mainFromP
  rw [Prints.bind_out_ok _ _ _ (by rw [setupRequiredP_res, hr.required])]
  simp only
  rw [Prints.bind_out_ok _ _ _ (by rw [setupOptionalP_res, hr.optional])]
  have hn : (config.ld.getItem "n_steps").bind OptVal.asInt = .ok (n : Int) := by
    rw [Dict.getItem, hr.steps]
    rfl
  simp only
  rw [Prints.quiet_bind_out _ _ _ hn, Prints.say_bind_out]
  simp only [Int.toNat_natCast]
  obtain ⟨u, hu, hfin⟩ := bind_ok hr.sim
  obtain ⟨o1, -⟩ := runStepsP_out sh w (statsFilename config) a.cfg n s0 u hu
  obtain ⟨o2, -⟩ := foldP_out sh (statsFilename config) (finalEvent a.cfg n) (finalEventP sh (statsFilename config) a.cfg n)
    (fun _ _ => rfl) (fun s a s' h => finalEvent_log _ n s s' a h) _ _ _ hfin
  rw [Prints.bind_out_ok _ _ u (by rw [runStepsP_res, hu]), Prints.say_bind_out,
    Prints.bind_out_ok _ _ a.sim (by rw [foldP_res _ _ (finalEventP_res sh _ a.cfg n), hfin]), Prints.say_bind_out,
    Prints.pure_out, o1, o2, setupRequiredP_out sh w config _ hv.particles hr.required,
    setupOptionalP_out sh w config _ _ _ _ hv rfl hr.optional]
  have h1 : newReports sh (statsFilename config) s0 u = ifGiven (runLines sh n hr.counters) config.birthDeath ∧
      newReports sh (statsFilename config) u a.sim = ifGiven (finalLines sh n hr.counters) config.birthDeath := by
    have hd := runSteps_dyn w a.cfg n s0 u hr.setup.bdSome hu
    cases ho : config.birthDeath with
    | none =>
      obtain ⟨e1, e2⟩ := (finished_bd hr).1 ho
      rw [e1] at hd
      have hu' : u.bd = none := dynSteps_none _ _ _ n s0.dyn u.dyn e2 hd
      have ha := final_dyn a.cfg n u a.sim hfin
      rw [e1] at ha
      have ha' : a.sim.bd = none := (congrArg Dyn.bd ha).trans hu'
      simp [newReports, Sim.bdLog, e2, hu', ha', statsOutput, ifGiven]
    | some o =>
      obtain ⟨z, k1, k2, _, _, k4, _⟩ := dynSteps_counters hr hops o ho n u.dyn hd
      obtain ⟨b, z0, corr', e1, e2, hf⟩ := (finished_bd hr).2 o ho
      obtain ⟨y, m1, m2, m3⟩ := main_records hr hops o ho
      have l0 : s0.bdLog = [] := by
        rw [Sim.bdLog, e2]
        exact hf.log
      have l1 : u.bdLog = z.log := by
        rw [Sim.bdLog, show u.bd = some z from k1]
      have l2 : a.sim.bdLog = y.log := by
        rw [Sim.bdLog, m1]
      have hsf := (hv.birthDeath o ho).statsFilename
      unfold newReports
      rw [l0, l1, l2, k4, m3]
      simp only [List.length_nil, List.drop_zero, ifGiven, runLines, finalLines, reportSteps]
      by_cases h0 : natOption o "stats-stride" 0 = 0
      · simp only [h0, ne_eq, not_true_eq_false, false_and, decide_false, List.filter_false, List.map_nil,
          if_true, List.length_nil, List.drop_zero]
        refine ⟨rfl, ?_⟩
        rw [report_lines sh o ho hsf]
        simp
      · simp only [h0, ne_eq, not_false_eq_true, true_and, if_false]
        rw [report_lines sh o ho hsf, List.drop_length]
        exact ⟨rfl, rfl⟩
  rw [h1.1, h1.2]
  simp [screen, setupLines]
  rfl

end Bdld
