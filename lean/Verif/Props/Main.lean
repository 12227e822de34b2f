import Verif.Spec.Main
import Verif.Lemmas.Except
import Verif.Props.InputSections

/-
The whole program: order of the actions, and the dynamics is not influenced by the analysis.
-/

set_option linter.unusedSectionVars false

namespace Bdld

open Spec

variable {R : Type} {d : Nat}

/-! ### Schedule -/

/-- Actions do not touch the record. -/
theorem runAction_events (w : World R) (c : SimCfg d) (s s' : Sim d R) (a : ActName) (step : Nat)
    (h : runAction w c s a step = .ok s') : s'.events = s.events := by
  cases a <;> simp only [runAction] at h
  case ld =>
    obtain ⟨x, _, h⟩ := bind_ok h
    cases h; rfl
  case birthDeath =>
    split at h
    · obtain ⟨x, _, h⟩ := bind_ok h
      cases h; rfl
    · cases h; rfl
  case trajectories =>
    split at h
    · obtain ⟨x, _, h⟩ := bind_ok h
      cases h; rfl
    · cases h; rfl
  case histogram =>
    split at h
    · obtain ⟨x, _, h⟩ := bind_ok h
      cases h; rfl
    · cases h; rfl
  case fes =>
    split at h
    · obtain ⟨x, _, h⟩ := bind_ok h
      obtain ⟨y, _, h⟩ := bind_ok h
      cases h; rfl
    · cases h; rfl
  case deltaF =>
    split at h
    · obtain ⟨x, _, h⟩ := bind_ok h
      obtain ⟨y, _, h⟩ := bind_ok h
      cases h; rfl
    · cases h; rfl
  case particleDistribution =>
    split at h
    · obtain ⟨x, _, h⟩ := bind_ok h
      obtain ⟨y, _, h⟩ := bind_ok h
      cases h; rfl
    · cases h; rfl

theorem finalAction_events (c : SimCfg d) (s s' : Sim d R) (a : ActName) (step : Nat)
    (h : finalAction c s a step = .ok s') : s'.events = s.events := by
  cases a <;> simp only [finalAction] at h
  case ld => cases h; rfl
  case birthDeath =>
    split at h
    · cases h; rfl
    · cases h; rfl
  case trajectories =>
    split at h
    · obtain ⟨x, _, h⟩ := bind_ok h
      cases h; rfl
    · cases h; rfl
  case histogram =>
    split at h
    · obtain ⟨x, _, h⟩ := bind_ok h
      cases h; rfl
    · cases h; rfl
  case fes =>
    split at h
    · obtain ⟨x, _, h⟩ := bind_ok h
      obtain ⟨y, _, h⟩ := bind_ok h
      cases h; rfl
    · cases h; rfl
  case deltaF =>
    split at h
    · obtain ⟨x, _, h⟩ := bind_ok h
      obtain ⟨y, _, h⟩ := bind_ok h
      cases h; rfl
    · cases h; rfl
  case particleDistribution =>
    split at h
    · obtain ⟨x, _, h⟩ := bind_ok h
      obtain ⟨y, _, h⟩ := bind_ok h
      cases h; rfl
    · cases h; rfl

theorem runEvents (w : World R) (c : SimCfg d) (step : Nat) (acts : List ActName) :
    ∀ s s' : Sim d R, acts.foldlM (runEvent w c step) s = .ok s' →
      s'.events = s.events ++ acts.map (fun a => .run a step) := by
  induction acts with
  | nil => intro s s' h; cases h; simp
  | cons a acts ih =>
    intro s s' h
    rw [List.foldlM_cons] at h
    obtain ⟨t, ht, h⟩ := bind_ok h
    obtain ⟨u, hu, ht⟩ := bind_ok ht
    cases ht
    rw [ih _ _ h, ← runAction_events w c s u a step hu]
    simp

theorem finalEvents (c : SimCfg d) (step : Nat) (acts : List ActName) :
    ∀ s s' : Sim d R, acts.foldlM (finalEvent c step) s = .ok s' →
      s'.events = s.events ++ acts.map (fun a => .final a step) := by
  induction acts with
  | nil => intro s s' h; cases h; simp
  | cons a acts ih =>
    intro s s' h
    rw [List.foldlM_cons] at h
    obtain ⟨t, ht, h⟩ := bind_ok h
    obtain ⟨u, hu, ht⟩ := bind_ok ht
    cases ht
    rw [ih _ _ h, ← finalAction_events c s u a step hu]
    simp

theorem runSteps_events (w : World R) (c : SimCfg d) (n : Nat) : ∀ s s' : Sim d R,
    runSteps w c n s = .ok s' →
    s'.events = s.events ++ (List.range n).flatMap (fun t => c.actions.map (fun a => .run a (t + 1))) := by
  induction n with
  | zero => intro s s' h; cases h; simp
  | succ n ih =>
    intro s s' h
    obtain ⟨t, ht, h⟩ := bind_ok h
    rw [runEvents w c (n + 1) _ _ _ h, ih s t ht, List.range_succ]
    simp

/-- C70 for the main loop: what is executed is exactly the schedule. -/
theorem simulate_events (w : World R) (c : SimCfg d) (n : Nat) (s s' : Sim d R)
    (h : simulate w c n s = .ok s') : s'.events = s.events ++ schedule c.actions n := by
  obtain ⟨t, ht, h⟩ := bind_ok h
  rw [finalEvents c n _ _ _ h, runSteps_events w c n s t ht, schedule]
  simp

/-! ### Set-up -/

/-- What a successful set-up of the optional actions leaves behind: which actions exist, and the dynamics. -/
theorem setupOptional_inv (w : World R) (config : Input ℝ) (c c' : SimCfg d) (s s' : Sim d R)
    (h : setupOptional w config c s = .ok (c', s')) :
    ∃ (c1 c2 c3 c4 c5 : SimCfg d) (s1 s2 s3 s4 s5 : Sim d R),
      (match config.birthDeath with
        | none => c1 = c ∧ s1 = s
        | some o => ∃ b, setupBirthDeath w o c.ld = .ok b ∧ c1 = { c with bd := some b.1 } ∧
            s1 = { s with bd := some b.2 }) ∧
      (match config.trajectories with
        | none => c2 = c1 ∧ s2 = s1
        | some o => ∃ b, setupTrajectories w d o c1.ld.dt s1.particles.length = .ok b ∧
            c2 = { c1 with traj := some b.1 } ∧ s2 = { s1 with traj := some b.2 }) ∧
      (match config.histogram with
        | none => c3 = c2 ∧ s3 = s2
        | some o => ∃ t b, c2.traj = some t ∧ setupHistogram d o t = .ok b ∧
            c3 = { c2 with hist := some (b.1, b.2.1) } ∧ s3 = { s2 with hist := some b.2.2 }) ∧
      (match config.fes with
        | none => c4 = c3 ∧ s4 = s3
        | some o => ∃ h b, s3.hist = some h ∧ setupFes w o c3.ld h = .ok b ∧
            c4 = { c3 with fes := some b.1 } ∧ s4 = { s3 with fes := some b.2 }) ∧
      (match config.deltaF with
        | none => c5 = c4 ∧ s5 = s4
        | some o => ∃ f h b, c4.fes = some f ∧ s4.hist = some h ∧
            setupDeltaFAction w o c4.ld.kt c4.ld.dt h = .ok b ∧
            c5 = { c4 with deltaF := some b.1 } ∧ s5 = { s4 with deltaF := some b.2 }) ∧
      (match config.particleDistribution with
        | none => c' = c5 ∧ s' = s5
        | some o => ∃ b, setupDistribution w o = .ok b ∧ c' = { c5 with dist := some b.1 } ∧
            s' = { s5 with dist := some b.2 }) := by
  unfold setupOptional at h
  obtain ⟨⟨c1, s1⟩, h1, h⟩ := bind_ok h
  obtain ⟨⟨c2, s2⟩, h2, h⟩ := bind_ok h
  obtain ⟨⟨c3, s3⟩, h3, h⟩ := bind_ok h
  obtain ⟨⟨c4, s4⟩, h4, h⟩ := bind_ok h
  obtain ⟨⟨c5, s5⟩, h5, h⟩ := bind_ok h
  refine ⟨c1, c2, c3, c4, c5, s1, s2, s3, s4, s5, ?_, ?_, ?_, ?_, ?_, ?_⟩
  · split at h1 <;> rename_i hm <;> simp only [hm]
    · cases h1; exact ⟨rfl, rfl⟩
    · obtain ⟨b, hb, h1⟩ := bind_ok h1
      cases h1; exact ⟨b, hb, rfl, rfl⟩
  · split at h2 <;> rename_i hm <;> simp only [hm]
    · cases h2; exact ⟨rfl, rfl⟩
    · obtain ⟨b, hb, h2⟩ := bind_ok h2
      cases h2; exact ⟨b, hb, rfl, rfl⟩
  · split at h3 <;> rename_i hm <;> simp only [hm]
    · cases h3; exact ⟨rfl, rfl⟩
    · obtain ⟨t, ht, h3⟩ := bind_ok h3
      obtain ⟨b, hb, h3⟩ := bind_ok h3
      cases h3
      refine ⟨t, b, ?_, hb, rfl, rfl⟩
      simp only [requireAction] at ht
      split at ht
      · cases ht; assumption
      · cases ht
  · split at h4 <;> rename_i hm <;> simp only [hm]
    · cases h4; exact ⟨rfl, rfl⟩
    · obtain ⟨t, ht, h4⟩ := bind_ok h4
      obtain ⟨b, hb, h4⟩ := bind_ok h4
      cases h4
      refine ⟨t, b, ?_, hb, rfl, rfl⟩
      simp only [requireAction] at ht
      split at ht
      · cases ht; assumption
      · cases ht
  · split at h5 <;> rename_i hm <;> simp only [hm]
    · cases h5; exact ⟨rfl, rfl⟩
    · obtain ⟨f, hf, h5⟩ := bind_ok h5
      obtain ⟨t, ht, h5⟩ := bind_ok h5
      obtain ⟨b, hb, h5⟩ := bind_ok h5
      cases h5
      refine ⟨f, t, b, ?_, ?_, hb, rfl, rfl⟩
      · simp only [requireAction] at hf
        split at hf
        · cases hf; assumption
        · cases hf
      · simp only [requireAction] at ht
        split at ht
        · cases ht; assumption
        · cases ht
  · simp only at h
    cases hm : config.particleDistribution with
    | none => rw [hm] at h; cases h; exact ⟨rfl, rfl⟩
    | some o =>
      rw [hm] at h
      obtain ⟨b, hb, h⟩ := bind_ok h
      cases h; exact ⟨b, hb, rfl, rfl⟩

/-- The dynamics of a simulation state. -/
def Sim.dyn (s : Sim d R) : Dyn d R := ⟨s.particles, s.ldRng, s.bd⟩

/-- The set-up of the optional actions: actions exist exactly for the parsed sections, the dynamics is left
alone except for the birth-death action. -/
theorem setupOptional_parts (w : World R) (config : Input ℝ) (c c' : SimCfg d) (s s' : Sim d R)
    (hc : c = { kind := c.kind, ld := c.ld })
    (hs : s = { particles := s.particles, ldRng := s.ldRng })
    (h : setupOptional w config c s = .ok (c', s')) :
    c'.kind = c.kind ∧ c'.ld = c.ld ∧ s'.particles = s.particles ∧ s'.ldRng = s.ldRng ∧ s'.events = [] ∧
    (match config.birthDeath with
      | none => c'.bd = none ∧ s'.bd = none
      | some o => ∃ b, setupBirthDeath w o c.ld = .ok b ∧ c'.bd = some b.1 ∧ s'.bd = some b.2) ∧
    (match config.trajectories with
      | none => c'.traj = none ∧ s'.traj = none
      | some o => ∃ b, setupTrajectories w d o c.ld.dt s.particles.length = .ok b ∧
          c'.traj = some b.1 ∧ s'.traj = some b.2) ∧
    (match config.histogram with
      | none => c'.hist = none ∧ s'.hist = none
      | some o => ∃ t b, c'.traj = some t ∧ setupHistogram d o t = .ok b ∧
          c'.hist = some (b.1, b.2.1) ∧ s'.hist = some b.2.2) ∧
    (match config.fes with
      | none => c'.fes = none ∧ s'.fes = none
      | some o => ∃ y b, s'.hist = some y ∧ setupFes w o c.ld y = .ok b ∧
          c'.fes = some b.1 ∧ s'.fes = some b.2) ∧
    (match config.deltaF with
      | none => c'.deltaF = none ∧ s'.deltaF = none
      | some o => ∃ f y b, c'.fes = some f ∧ s'.hist = some y ∧
          setupDeltaFAction w o c.ld.kt c.ld.dt y = .ok b ∧ c'.deltaF = some b.1 ∧ s'.deltaF = some b.2) ∧
    (match config.particleDistribution with
      | none => c'.dist = none ∧ s'.dist = none
      | some o => ∃ b, setupDistribution w o = .ok b ∧ c'.dist = some b.1 ∧ s'.dist = some b.2) ∧
    s'.histWrites = [] ∧ s'.fesWrites = [] ∧ s'.plots = [] := by
  obtain ⟨c1, c2, c3, c4, c5, s1, s2, s3, s4, s5, h1, h2, h3, h4, h5, h6⟩ :=
    setupOptional_inv w config c c' s s' h
  rw [hc] at h1
  rw [hs] at h1 ⊢
  clear hs
  clear hc
  cases e1 : config.birthDeath <;> rw [e1] at h1 <;> simp only at h1
  all_goals
    cases e2 : config.trajectories <;> rw [e2] at h2 <;> simp only at h2
  all_goals
    cases e3 : config.histogram <;> rw [e3] at h3 <;> simp only at h3
  all_goals
    cases e4 : config.fes <;> rw [e4] at h4 <;> simp only at h4
  all_goals
    cases e5 : config.deltaF <;> rw [e5] at h5 <;> simp only at h5
  all_goals
    cases e6 : config.particleDistribution <;> rw [e6] at h6 <;> simp only at h6
  all_goals
    obtain ⟨⟨b1, x1⟩, h1, rfl, rfl⟩ := h1
    obtain ⟨⟨b2, x2⟩, h2, rfl, rfl⟩ := h2
    obtain ⟨t3, ⟨b3, o3, y3⟩, ht3, h3, rfl, rfl⟩ := h3
    obtain ⟨y4, ⟨b4, x4⟩, hy4, h4, rfl, rfl⟩ := h4
    obtain ⟨f5, y5, ⟨b5, x5⟩, hf5, hy5, h5, rfl, rfl⟩ := h5
    obtain ⟨⟨b6, x6⟩, h6, rfl, rfl⟩ := h6
    simp_all

/-! ### The dynamics -/

/-- Only the Langevin dynamics and birth-death change the dynamics. -/
theorem runAction_dyn (w : World R) (c : SimCfg d) (s s' : Sim d R) (a : ActName) (step : Nat)
    (ha : a ≠ .ld) (ha' : a ≠ .birthDeath) (h : runAction w c s a step = .ok s') : s'.dyn = s.dyn := by
  cases a <;> simp only [runAction] at h
  case ld => exact absurd rfl ha
  case birthDeath => exact absurd rfl ha'
  case trajectories =>
    split at h
    · obtain ⟨x, _, h⟩ := bind_ok h
      cases h; rfl
    · cases h; rfl
  case histogram =>
    split at h
    · obtain ⟨x, _, h⟩ := bind_ok h
      cases h; rfl
    · cases h; rfl
  case fes =>
    split at h
    · obtain ⟨x, _, h⟩ := bind_ok h
      obtain ⟨y, _, h⟩ := bind_ok h
      cases h; rfl
    · cases h; rfl
  case deltaF =>
    split at h
    · obtain ⟨x, _, h⟩ := bind_ok h
      obtain ⟨y, _, h⟩ := bind_ok h
      cases h; rfl
    · cases h; rfl
  case particleDistribution =>
    split at h
    · obtain ⟨x, _, h⟩ := bind_ok h
      obtain ⟨y, _, h⟩ := bind_ok h
      cases h; rfl
    · cases h; rfl

theorem runEvents_dyn (w : World R) (c : SimCfg d) (step : Nat) (acts : List ActName)
    (ha : ∀ a ∈ acts, a ≠ .ld ∧ a ≠ .birthDeath) : ∀ s s' : Sim d R,
      acts.foldlM (runEvent w c step) s = .ok s' → s'.dyn = s.dyn := by
  induction acts with
  | nil => intro s s' h; cases h; rfl
  | cons a acts ih =>
    intro s s' h
    rw [List.foldlM_cons] at h
    obtain ⟨t, ht, h⟩ := bind_ok h
    obtain ⟨u, hu, ht⟩ := bind_ok ht
    cases ht
    rw [ih (fun b hb => ha b (by simp [hb])) _ _ h]
    exact runAction_dyn w c s u a step (ha a (by simp)).1 (ha a (by simp)).2 hu

/-- The analysis actions of a configuration. -/
def SimCfg.analysis (c : SimCfg d) : List ActName :=
  (if c.traj.isSome then [.trajectories] else []) ++
    (if c.hist.isSome then [.histogram] else []) ++ (if c.fes.isSome then [.fes] else []) ++
    (if c.deltaF.isSome then [.deltaF] else []) ++ (if c.dist.isSome then [.particleDistribution] else [])

theorem actions_split (c : SimCfg d) :
    c.actions = .ld :: (if c.bd.isSome then [.birthDeath] else []) ++ c.analysis := by
  simp [SimCfg.actions, SimCfg.analysis]

theorem analysis_mem (c : SimCfg d) (a : ActName) (h : a ∈ c.analysis) : a ≠ .ld ∧ a ≠ .birthDeath := by
  simp only [SimCfg.analysis, List.mem_append] at h
  rcases h with (((h | h) | h) | h) | h <;> split at h <;> simp_all

/-- All actions of one step together do one step of the pure dynamics. -/
theorem step_dyn (w : World R) (c : SimCfg d) (step : Nat) (s s' : Sim d R)
    (hb : c.bd.isSome = s.bd.isSome)
    (h : c.actions.foldlM (runEvent w c step) s = .ok s') :
    dynStep w c.kind c.ld c.bd s.dyn step = .ok s'.dyn := by
  rw [actions_split, List.cons_append, List.foldlM_cons] at h
  obtain ⟨t, ht, h⟩ := bind_ok h
  obtain ⟨u, hu, ht⟩ := bind_ok ht
  cases ht
  obtain ⟨x, hx, hu⟩ := bind_ok hu
  cases hu
  unfold dynStep
  simp only [Sim.dyn, hx, ok_bind]
  cases hc : c.bd with
  | none =>
    have hs : s.bd = none := by
      cases e : s.bd with
      | none => rfl
      | some y => rw [hc, e] at hb; cases hb
    simp only [hc, Option.isSome_none, Bool.false_eq_true, if_false, List.nil_append] at h
    have := runEvents_dyn w c step c.analysis (analysis_mem c) _ _ h
    rw [Sim.dyn, Sim.dyn] at this
    rw [this]
    rfl
  | some b =>
    obtain ⟨y, hy⟩ : ∃ y, s.bd = some y := by
      cases e : s.bd with
      | none => rw [hc, e] at hb; cases hb
      | some y => exact ⟨y, rfl⟩
    simp only [hc, Option.isSome_some, if_true] at h
    rw [List.singleton_append, List.foldlM_cons] at h
    obtain ⟨t2, ht2, h⟩ := bind_ok h
    obtain ⟨u2, hu2, ht2⟩ := bind_ok ht2
    cases ht2
    simp only [runAction, hc, hy] at hu2
    obtain ⟨z, hz, hu2⟩ := bind_ok hu2
    cases hu2
    have := runEvents_dyn w c step c.analysis (analysis_mem c) _ _ h
    rw [Sim.dyn, Sim.dyn] at this
    rw [this]
    simp only [hy]
    rw [hz]
    rfl

theorem dynStep_bd (w : World R) (kind : LdKind) (ld : LdCfg ℝ d) (b : Option (BdAct d)) (x y : Dyn d R)
    (step : Nat) (h : dynStep w kind ld b x step = .ok y) : y.bd.isSome = x.bd.isSome := by
  obtain ⟨z, hz, h⟩ := bind_ok h
  split at h
  · obtain ⟨u, hu, h⟩ := bind_ok h
    cases h
    simp_all
  · cases h; rfl

theorem dynSteps_bd (w : World R) (kind : LdKind) (ld : LdCfg ℝ d) (b : Option (BdAct d)) (n : Nat) :
    ∀ x y : Dyn d R, dynSteps w kind ld b n x = .ok y → y.bd.isSome = x.bd.isSome := by
  induction n with
  | zero => intro x y h; cases h; rfl
  | succ n ih =>
    intro x y h
    obtain ⟨z, hz, h⟩ := bind_ok h
    rw [dynStep_bd w kind ld b z y (n + 1) h, ih x z hz]

/-- The main loop does exactly the steps of the pure dynamics, whatever analysis is set up. -/
theorem runSteps_dyn (w : World R) (c : SimCfg d) (n : Nat) : ∀ s s' : Sim d R,
    c.bd.isSome = s.bd.isSome → runSteps w c n s = .ok s' →
    dynSteps w c.kind c.ld c.bd n s.dyn = .ok s'.dyn := by
  induction n with
  | zero => intro s s' _ h; cases h; rfl
  | succ n ih =>
    intro s s' hb h
    obtain ⟨t, ht, h⟩ := bind_ok h
    have h1 := ih s t hb ht
    have h2 := dynSteps_bd w _ _ _ n _ _ h1
    rw [dynSteps, h1, ok_bind]
    exact step_dyn w c (n + 1) t s' (hb.trans h2.symm) h

/-- Final actions of the analysis leave the dynamics alone. -/
theorem finalAction_dyn (c : SimCfg d) (s s' : Sim d R) (a : ActName) (step : Nat)
    (ha' : a ≠ .birthDeath) (h : finalAction c s a step = .ok s') : s'.dyn = s.dyn := by
  cases a <;> simp only [finalAction] at h
  case ld => cases h; rfl
  case birthDeath => exact absurd rfl ha'
  case trajectories =>
    split at h
    · obtain ⟨x, _, h⟩ := bind_ok h
      cases h; rfl
    · cases h; rfl
  case histogram =>
    split at h
    · obtain ⟨x, _, h⟩ := bind_ok h
      cases h; rfl
    · cases h; rfl
  case fes =>
    split at h
    · obtain ⟨x, _, h⟩ := bind_ok h
      obtain ⟨y, _, h⟩ := bind_ok h
      cases h; rfl
    · cases h; rfl
  case deltaF =>
    split at h
    · obtain ⟨x, _, h⟩ := bind_ok h
      obtain ⟨y, _, h⟩ := bind_ok h
      cases h; rfl
    · cases h; rfl
  case particleDistribution =>
    split at h
    · obtain ⟨x, _, h⟩ := bind_ok h
      obtain ⟨y, _, h⟩ := bind_ok h
      cases h; rfl
    · cases h; rfl

theorem finalEvents_dyn (c : SimCfg d) (step : Nat) (acts : List ActName)
    (ha : ∀ a ∈ acts, a ≠ .ld ∧ a ≠ .birthDeath) : ∀ s s' : Sim d R,
      acts.foldlM (finalEvent c step) s = .ok s' → s'.dyn = s.dyn := by
  induction acts with
  | nil => intro s s' h; cases h; rfl
  | cons a acts ih =>
    intro s s' h
    rw [List.foldlM_cons] at h
    obtain ⟨t, ht, h⟩ := bind_ok h
    obtain ⟨u, hu, ht⟩ := bind_ok ht
    cases ht
    rw [ih (fun b hb => ha b (by simp [hb])) _ _ h]
    exact finalAction_dyn c s u a step (ha a (by simp)).2 hu

/-- All final actions together only do what the final action of birth-death does. -/
theorem final_dyn (c : SimCfg d) (step : Nat) (s s' : Sim d R)
    (h : c.actions.foldlM (finalEvent c step) s = .ok s') :
    s'.dyn = dynFinal c.bd s.dyn step := by
  rw [actions_split, List.cons_append, List.foldlM_cons] at h
  obtain ⟨t, ht, h⟩ := bind_ok h
  obtain ⟨u, hu, ht⟩ := bind_ok ht
  cases ht
  cases hu
  cases hc : c.bd with
  | none =>
    simp only [hc, Option.isSome_none, Bool.false_eq_true, if_false, List.nil_append] at h
    rw [finalEvents_dyn c step c.analysis (analysis_mem c) _ _ h]
    rfl
  | some b =>
    simp only [hc, Option.isSome_some, if_true] at h
    rw [List.singleton_append, List.foldlM_cons] at h
    obtain ⟨t2, ht2, h⟩ := bind_ok h
    obtain ⟨u2, hu2, ht2⟩ := bind_ok ht2
    cases ht2
    rw [finalEvents_dyn c step c.analysis (analysis_mem c) _ _ h]
    simp only [finalAction, hc] at hu2
    cases hy : s.bd with
    | none =>
      simp only [hy] at hu2
      cases hu2
      simp [Sim.dyn, dynFinal, hy]
    | some y =>
      simp only [hy] at hu2
      cases hu2
      simp only [Sim.dyn, dynFinal, hy, bdFinal]
      split <;> rfl

end Bdld
