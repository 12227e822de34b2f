import Verif.Props.Main

/-
The whole program: theorems about `mainProgram`.
-/

set_option linter.unusedSectionVars false

namespace Bdld

open Spec

variable {R : Type} {d : Nat}

/-! ### The program -/

/-- A normal end of the program, taken apart. -/
theorem main_inv (w : World R) (file : Option (List Section)) (a : AnySim R)
    (h : mainProgram w file = .finished a) : ∃ config r x n s,
      parseAll 1 w.conv file = .ok config ∧ setupRequired w config = .ok r ∧
      setupOptional w config r.cfg r.sim = .ok x ∧ config.ld.get? "n_steps" = some (.base (.int n)) ∧
      simulate w x.1 n.toNat x.2 = .ok s ∧ a = ⟨r.d, x.1, s⟩ := by
  unfold mainProgram at h
  split at h
  · simp only [raise] at h; split at h <;> cases h
  rename_i config hp
  unfold mainFrom at h
  split at h
  · cases h
  rename_i r hr
  split at h
  · simp only [raise] at h; split at h <;> cases h
  rename_i x hx
  split at h
  · cases h
  rename_i n hn
  split at h
  · cases h
  rename_i s hs
  cases h
  refine ⟨config, r, x, n, s, hp, hr, hx, ?_, hs, rfl⟩
  obtain ⟨v, hv, hn⟩ := bind_ok hn
  unfold Dict.getItem at hv
  split at hv
  · rename_i hg
    cases hv
    rw [hg]
    unfold OptVal.asInt at hn
    split at hn
    · cases hn; rfl
    · cases hn
  · cases hv

/-- The required set-up leaves no optional actions. -/
theorem setupRequired_parts (w : World R) (config : Input ℝ) (r : AnySim R)
    (h : setupRequired w config = .ok r) :
    r.cfg = { kind := r.cfg.kind, ld := r.cfg.ld } ∧
    r.sim = { particles := r.sim.particles, ldRng := r.sim.ldRng } := by
  obtain ⟨p, _, h⟩ := bind_ok h
  obtain ⟨l, _, h⟩ := bind_ok h
  obtain ⟨s, _, h⟩ := bind_ok h
  cases h
  exact ⟨rfl, rfl⟩

theorem parseOptional_isSome {F : Type} [Zero F] [LT F] [LE F] [DecidableLT F] [DecidableLE F]
    (cfg : List Section) (name : String)
    (f : Section → Except PyErr (Dict (OptVal F))) (r : Option (Dict (OptVal F)))
    (h : parseOptional cfg name f = .ok r) :
    r.isSome = cfg.any (fun s => decide (s.name = name)) := by
  have key : (findSection cfg name).isSome = cfg.any (fun s => decide (s.name = name)) := by
    rw [findSection, Bool.eq_iff_iff, List.find?_isSome, List.any_eq_true]
  rcases parseOptional_ok h with ⟨h1, h2⟩ | ⟨s, d, h1, _, h2⟩
  · rw [h2, ← key, h1]; rfl
  · rw [h2, ← key, h1]; rfl

/-- A list of optional elements is a filtered list. -/
theorem actions_bools (b1 b2 b3 b4 b5 b6 : Bool) :
    [ActName.ld] ++ (if b1 then [.birthDeath] else []) ++ (if b2 then [.trajectories] else []) ++
      (if b3 then [.histogram] else []) ++ (if b4 then [.fes] else []) ++
      (if b5 then [.deltaF] else []) ++ (if b6 then [.particleDistribution] else []) =
    allActions.filter (fun a => match a with
      | .ld => true
      | .birthDeath => b1
      | .trajectories => b2
      | .histogram => b3
      | .fes => b4
      | .deltaF => b5
      | .particleDistribution => b6) := by
  revert b1 b2 b3 b4 b5 b6
  decide

/-- The actions of a finished simulation are those of the sections of the input file. -/
theorem main_actions (w : World R) (cfg : List Section) (config : Input ℝ) (r : AnySim R)
    (x : SimCfg r.d × Sim r.d R) (hp : parseAll 1 w.conv (some cfg) = .ok config)
    (hr : setupRequired w config = .ok r) (hx : setupOptional w config r.cfg r.sim = .ok x) :
    x.1.actions = fileActions cfg := by
  obtain ⟨cfg', sLd, sPot, sPart, e0, e1, e2, e3, e4, e5, e6, e7, e8, e9, e10, e11, e12⟩ :=
    parseAll_inv 1 (some cfg) config hp
  cases e0
  obtain ⟨c', s'⟩ := x
  obtain ⟨hc, hs⟩ := setupRequired_parts w config r hr
  obtain ⟨_, _, _, _, _, h1, h2, h3, h4, h5, h6, _⟩ := setupOptional_parts w config _ c' _ s' hc hs hx
  have i1 := parseOptional_isSome _ _ _ _ e7
  have i2 := parseOptional_isSome _ _ _ _ e8
  have i3 := parseOptional_isSome _ _ _ _ e9
  have i4 := parseOptional_isSome _ _ _ _ e10
  have i5 := parseOptional_isSome _ _ _ _ e11
  have i6 := parseOptional_isSome _ _ _ _ e12
  have i0 : cfg.any (fun s => decide (s.name = "ld")) = true := by
    have := (find_name cfg "ld" sLd e1)
    exact List.any_eq_true.2 ⟨sLd, List.mem_of_find?_eq_some e1, by simpa using this⟩
  have j1 : c'.bd.isSome = config.birthDeath.isSome := by
    cases h : config.birthDeath <;> rw [h] at h1 <;> simp only at h1
    · rw [h1.1]; rfl
    · obtain ⟨b, _, hb, _⟩ := h1; rw [hb]; rfl
  have j2 : c'.traj.isSome = config.trajectories.isSome := by
    cases h : config.trajectories <;> rw [h] at h2 <;> simp only at h2
    · rw [h2.1]; rfl
    · obtain ⟨b, _, hb, _⟩ := h2; rw [hb]; rfl
  have j3 : c'.hist.isSome = config.histogram.isSome := by
    cases h : config.histogram <;> rw [h] at h3 <;> simp only at h3
    · rw [h3.1]; rfl
    · obtain ⟨t, b, _, _, hb, _⟩ := h3; rw [hb]; rfl
  have j4 : c'.fes.isSome = config.fes.isSome := by
    cases h : config.fes <;> rw [h] at h4 <;> simp only at h4
    · rw [h4.1]; rfl
    · obtain ⟨t, b, _, _, hb, _⟩ := h4; rw [hb]; rfl
  have j5 : c'.deltaF.isSome = config.deltaF.isSome := by
    cases h : config.deltaF <;> rw [h] at h5 <;> simp only at h5
    · rw [h5.1]; rfl
    · obtain ⟨f, t, b, _, _, _, hb, _⟩ := h5; rw [hb]; rfl
  have j6 : c'.dist.isSome = config.particleDistribution.isSome := by
    cases h : config.particleDistribution <;> rw [h] at h6 <;> simp only at h6
    · rw [h6.1]; rfl
    · obtain ⟨b, _, hb, _⟩ := h6; rw [hb]; rfl
  rw [SimCfg.actions, j1, j2, j3, j4, j5, j6, actions_bools]
  apply List.filter_congr
  intro a _
  cases a
  · exact i0.symm
  · exact i1
  · exact i2
  · exact i3
  · exact i4
  · exact i5
  · exact i6

/-- C70: a simulation executes exactly the schedule of the actions whose sections are in the input file, with
the number of steps given there. -/
theorem main_schedule (w : World R) (file : Option (List Section)) (a : AnySim R)
    (h : mainProgram w file = .finished a) : ∃ cfg config n, file = some cfg ∧
      parseAll 1 w.conv file = .ok config ∧
      config.ld.get? "n_steps" = some (.base (.int n)) ∧ 0 < n ∧
      a.sim.events = schedule (fileActions cfg) n.toNat := by
  obtain ⟨config, r, x, n, s, hp, hr, hx, hn, hs, rfl⟩ := main_inv w file a h
  obtain ⟨cfg, _, _, _, e0, _⟩ := parseAll_inv 1 file config hp
  subst e0
  refine ⟨cfg, config, n, rfl, hp, hn, ?_, ?_⟩
  · have := (input_valid 1 one_pos (some cfg) config hp).ld.nSteps
    rw [hn] at this
    obtain ⟨i, hi, hpos⟩ := this
    cases hi
    exact hpos
  · have he := simulate_events w x.1 n.toNat x.2 s hs
    obtain ⟨c', s'⟩ := x
    obtain ⟨hc, hs'⟩ := setupRequired_parts w config r hr
    obtain ⟨_, _, _, _, h5, _⟩ := setupOptional_parts w config _ c' _ s' hc hs' hx
    simp only at he h5
    rw [he, h5, main_actions w cfg config r _ hp hr hx]
    rfl

/-! ### Analysis does not influence the dynamics -/

/-- The dynamics of a finished simulation: the required set-up, the set-up of birth-death, and the steps of the
pure dynamics. -/
theorem main_dynamics (w : World R) (file : Option (List Section)) (a : AnySim R)
    (h : mainProgram w file = .finished a) : ∃ config r b y n,
      parseAll 1 w.conv file = .ok config ∧ setupRequired w config = .ok r ∧
      (match config.birthDeath with
        | none => b = none
        | some o => ∃ z, setupBirthDeath w o r.cfg.ld = .ok z ∧ b = some z) ∧
      config.ld.get? "n_steps" = some (.base (.int n)) ∧
      dynSteps w r.cfg.kind r.cfg.ld (b.map Prod.fst) n.toNat
        ⟨r.sim.particles, r.sim.ldRng, b.map Prod.snd⟩ = .ok y ∧
      (⟨a.d, a.sim.dyn⟩ : AnyDyn R) = ⟨r.d, dynFinal (b.map Prod.fst) y n.toNat⟩ := by
  obtain ⟨config, r, x, n, s, hp, hr, hx, hn, hs, rfl⟩ := main_inv w file a h
  obtain ⟨c', s'⟩ := x
  obtain ⟨hc, hs'⟩ := setupRequired_parts w config r hr
  obtain ⟨h1, h2, h3, h4, _, h5, _⟩ := setupOptional_parts w config _ c' _ s' hc hs' hx
  obtain ⟨t, ht, hs⟩ := bind_ok hs
  have hf := final_dyn c' n.toNat t s hs
  have key : ∃ b : Option (BdAct r.d × BdRunState R), c'.bd = b.map Prod.fst ∧ s'.bd = b.map Prod.snd ∧
      (match config.birthDeath with
        | none => b = none
        | some o => ∃ z, setupBirthDeath w o r.cfg.ld = .ok z ∧ b = some z) := by
    cases hb : config.birthDeath with
    | none =>
      rw [hb] at h5
      exact ⟨none, h5.1, h5.2, rfl⟩
    | some o =>
      rw [hb] at h5
      obtain ⟨z, hz, e1, e2⟩ := h5
      exact ⟨some z, e1, e2, z, hz, rfl⟩
  obtain ⟨b, k1, k2, k3⟩ := key
  have hd := runSteps_dyn w c' n.toNat s' t (by rw [k1, k2]; simp) ht
  refine ⟨config, r, b, t.dyn, n, hp, hr, k3, hn, ?_, ?_⟩
  · rw [← hd, h1, h2, k1, Sim.dyn, h3, h4, k2]
  · rw [← k1, hf]

/-- The dynamics depends only on the sections for the dynamics. -/
theorem parse_dynamics (conv : Conv ℝ) (cfg cfg' : List Section) (i i' : Input ℝ)
    (hs : SameDynamics cfg cfg') (h : parseAll 1 conv (some cfg) = .ok i)
    (h' : parseAll 1 conv (some cfg') = .ok i') :
    i.ld = i'.ld ∧ i.potential = i'.potential ∧ i.particles = i'.particles ∧
      i.birthDeath = i'.birthDeath := by
  obtain ⟨c, sLd, sPot, sPart, e0, e1, e2, e3, e4, e5, e6, e7, _⟩ := parseAll_inv 1 (some cfg) i h
  obtain ⟨c', sLd', sPot', sPart', e0', e1', e2', e3', e4', e5', e6', e7', _⟩ :=
    parseAll_inv 1 (some cfg') i' h'
  cases e0
  cases e0'
  have q1 : sLd = sLd' := by
    have := hs "ld" (by simp); rw [e1, e1'] at this; exact Option.some.inj this
  have q2 : sPot = sPot' := by
    have := hs "potential" (by simp); rw [e2, e2'] at this; exact Option.some.inj this
  have q3 : sPart = sPart' := by
    have := hs "particles" (by simp); rw [e3, e3'] at this; exact Option.some.inj this
  subst q1 q2 q3
  have r1 : i.ld = i'.ld := Except.ok.inj (e4.symm.trans e4')
  have r2 : i.potential = i'.potential := Except.ok.inj (e5.symm.trans e5')
  refine ⟨r1, r2, Except.ok.inj (e6.symm.trans e6'), ?_⟩
  have hb := hs "birth-death" (by simp)
  rw [parseOptional, hb, ← parseOptional, r2, e7'] at e7
  exact Except.ok.inj e7.symm

/-- C80: two finished simulations whose input files agree in the sections for the dynamics have the same
dynamics (particles, generators, birth-death statistics), whatever analysis they do and whatever uninitialised
memory contains. -/
theorem noninterference (w w' : World R) (hw : SameButMemory w w') (cfg cfg' : List Section) (a b : AnySim R)
    (hs : SameDynamics cfg cfg') (ha : mainProgram w (some cfg) = .finished a)
    (hb : mainProgram w' (some cfg') = .finished b) :
    (⟨a.d, a.sim.dyn⟩ : AnyDyn R) = ⟨b.d, b.sim.dyn⟩ := by
  obtain ⟨t, po, mo, df, co, rfl⟩ := hw
  obtain ⟨i, r, x, y, n, p1, p2, p3, p4, p5, p6⟩ := main_dynamics w _ a ha
  obtain ⟨i', r', x', y', n', p1', p2', p3', p4', p5', p6'⟩ := main_dynamics _ _ b hb
  obtain ⟨q1, q2, q3, q4⟩ := parse_dynamics w.conv cfg cfg' i i' hs p1 p1'
  have hr : r = r' := by
    have : setupRequired w i = setupRequired w i' := by
      simp only [setupRequired, q1, q2, q3]
    rw [p2] at this
    exact Except.ok.inj (this.trans p2')
  subst hr
  have hx : x = x' := by
    rw [q4] at p3
    cases hbd : i'.birthDeath with
    | none => rw [hbd] at p3 p3'; rw [p3, p3']
    | some o =>
      rw [hbd] at p3 p3'
      obtain ⟨z, hz, e⟩ := p3
      obtain ⟨z', hz', e'⟩ := p3'
      have := Except.ok.inj (hz.symm.trans hz')
      rw [e, e', this]
  subst hx
  have hn : n = n' := by
    rw [q1, p4'] at p4
    cases p4
    rfl
  subst hn
  have hy : y = y' := by
    have h1 : ∀ m z, dynSteps { w with emptyTimes := t, emptyPositions := po, emptyMomentum := mo, emptyDeltaF := df, emptyCounts := co } r.cfg.kind r.cfg.ld (x.map Prod.fst) m z =
        dynSteps w r.cfg.kind r.cfg.ld (x.map Prod.fst) m z := by
      intro m
      induction m with
      | zero => intro z; rfl
      | succ m ih => intro z; rw [dynSteps, ih]; rfl
    rw [h1, p5] at p5'
    exact Except.ok.inj p5'
  rw [p6, p6', hy]

end Bdld
