import Verif.Props.MainResults
import Verif.Props.States
import Verif.Props.Fes

/-
Histogram, FES, free energy differences and particle distribution at the end of the whole program, in terms of
the input options.
-/

set_option linter.unusedSectionVars false

namespace Bdld

open Spec

variable {R : Type} {w : World R} {file : Option (List Section)} {a : AnySim R} {config : Input ℝ} {n : Nat}
  {s0 : Sim a.d R}

/-! ### Dynamics -/

theorem setupLd_constants {d : Nat} (w : World R) (o : Dict (OptVal ℝ)) (pot : Potential ℝ d) (l : LdSetup d R)
    (hv : ValidLd o) (h : setupLd w o pot = .ok l) :
    o.get? "timestep" = some (.base (.float l.cfg.dt)) ∧ 0 < l.cfg.kt ∧
    ((o.get? "type" = some (.base (.str "bussi-parinello")) ∧ l.kind = .bussi ∧
        o.get? "kt" = some (.base (.float l.cfg.kt))) ∨
      (o.get? "type" = some (.base (.str "overdamped")) ∧ l.kind = .overdamped ∧ l.cfg.kt = 1)) := by
  obtain ⟨ty, ht, hty⟩ := hv.type
  obtain ⟨dt, hdt, _⟩ := hv.timestep
  rcases hty with rfl | rfl
  · simp only [setupLd, Dict.getItem, ht, hdt, ok_bind, OptVal.asFloat] at h
    obtain ⟨_, _, h⟩ := bind_ok h
    obtain ⟨_, _, h⟩ := bind_ok h
    obtain ⟨_, _, h⟩ := bind_ok h
    cases h
    exact ⟨hdt, one_pos, Or.inr ⟨ht, rfl, rfl⟩⟩
  · obtain ⟨kt, hkt, hpos⟩ := hv.kt ht
    obtain ⟨fr, hfr, _⟩ := hv.friction ht
    simp only [setupLd, Dict.getItem, ht, hdt, hkt, hfr, ok_bind, OptVal.asFloat] at h
    obtain ⟨_, _, h⟩ := bind_ok h
    obtain ⟨_, _, h⟩ := bind_ok h
    obtain ⟨_, _, h⟩ := bind_ok h
    cases h
    exact ⟨hdt, hpos, Or.inl ⟨ht, rfl, hkt⟩⟩

/-- Time step and thermal energy of the dynamics. -/
theorem FinishedRun.constants (hr : FinishedRun w file a config n s0) :
    config.ld.get? "timestep" = some (.base (.float a.cfg.ld.dt)) ∧ 0 < a.cfg.ld.kt ∧
    ((config.ld.get? "type" = some (.base (.str "bussi-parinello")) ∧ a.cfg.kind = .bussi ∧
        config.ld.get? "kt" = some (.base (.float a.cfg.ld.kt))) ∨
      (config.ld.get? "type" = some (.base (.str "overdamped")) ∧ a.cfg.kind = .overdamped ∧
        a.cfg.ld.kt = 1)) := by
  obtain ⟨d, cfg, sim⟩ := a
  have hreq := hr.required
  obtain ⟨p, hp, hreq⟩ := bind_ok hreq
  obtain ⟨l, hl, hreq⟩ := bind_ok hreq
  obtain ⟨s, hs, hreq⟩ := bind_ok hreq
  have h := setupLd_constants w _ _ l (input_valid 1 one_pos file config hr.parse).ld hl
  simp only [pure_eq_ok, Except.ok.injEq, AnySim.mk.injEq] at hreq
  obtain ⟨rfl, hc, hsim⟩ := hreq
  have hc := eq_of_heq hc
  have h1 : l.kind = cfg.kind := congrArg SimCfg.kind hc
  have h2 : l.cfg = cfg.ld := congrArg SimCfg.ld hc
  simp only
  rw [← h1, ← h2]
  exact h

/-! ### Histogram -/

theorem setupHistogram_options {d : Nat} (o : Dict (OptVal ℝ)) (t : TrajCfg ℝ) (b : HistCfg × GridOut × Histogram ℝ)
    (hv : ValidOutput o) (h : setupHistogram d o t = .ok b) :
    b.1.stride = natOption o "stride" 1 ∧ (o.get? "reset" = some .none → b.1.reset = []) ∧
    (∀ l : List Int, o.get? "reset" = some (.list (l.map .int)) → b.1.reset = l.map Int.toNat) := by
  simp only [setupHistogram] at h
  obtain ⟨⟨ranges, nBins⟩, _, h⟩ := bind_ok h
  obtain ⟨v1, g1, h⟩ := bind_ok h
  obtain ⟨stride, f1, h⟩ := bind_ok h
  obtain ⟨v2, g2, h⟩ := bind_ok h
  obtain ⟨reset, f2, h⟩ := bind_ok h
  obtain ⟨_, _, h⟩ := bind_ok h
  obtain ⟨filename, _, h⟩ := bind_ok h
  obtain ⟨_, _, h⟩ := bind_ok h
  obtain ⟨ws, _, h⟩ := bind_ok h
  obtain ⟨⟨hc, h0⟩, hh, h⟩ := bind_ok h
  obtain ⟨_, _, h⟩ := bind_ok h
  cases h
  have h1 : hc.stride = pyOrNat stride 1 := by
    unfold HistCfg.new at hh
    simp only [pure_eq_ok] at hh
    split at hh
    · cases hh
    split at hh
    · cases hh
    obtain ⟨_, _, hh⟩ := bind_ok hh
    split at hh
    · cases hh
    · cases hh; rfl
  obtain ⟨_, _, _, _, h5, _⟩ := histCfg_new t d nBins ranges stride reset _ ws hc h0 hh
  refine ⟨h1.trans (strideOption o "stride" v1 stride 1 hv.stride g1 f1).1, ?_, ?_⟩
  · intro hn
    rw [Dict.getItem, hn] at g2
    cases g2
    cases f2
    exact h5
  · intro l hl
    rw [Dict.getItem, hl] at g2
    cases g2
    obtain ⟨r, hr, f2⟩ := bind_ok f2
    cases f2
    rw [h5]
    simp only [Option.getD_some]
    have : ∀ (l : List Int) (r : List Nat), (OptVal.list (l.map .int) : OptVal ℝ).asNats = .ok r →
        r = l.map Int.toNat := by
      intro l
      induction l with
      | nil => intro r hr; cases hr; rfl
      | cons i l ih =>
        intro r hr
        simp only [OptVal.asNats, List.map_cons, List.mapM_cons, ok_bind] at hr ih
        obtain ⟨r', hr', hr⟩ := bind_ok hr
        cases hr
        rw [ih r' hr']
        rfl
    exact this l r hr

/-- The histogram action as it is set up. -/
theorem main_hist_setup (hr : FinishedRun w file a config n s0) (o oh : Dict (OptVal ℝ))
    (ho : config.trajectories = some o) (hoh : config.histogram = some oh) (hops : w.bdOps.Lawful)
    (hw : 0 < s0.particles.length) : ∃ t hc out h0,
      a.cfg.traj = some t ∧ t.writeStride = natOption o "write-stride" 100 ∧
      s0.traj = some (TrajState.init t (hasFilename o) w.emptyTimes w.emptyPositions w.emptyMomentum) ∧
      a.cfg.hist = some (hc, out) ∧ s0.hist = some h0 ∧ HistSetup t hc hr.snaps h0 ∧
      hc.stride = natOption oh "stride" 1 ∧ (oh.get? "reset" = some .none → hc.reset = []) ∧
      (∀ l : List Int, oh.get? "reset" = some (.list (l.map .int)) → hc.reset = l.map Int.toNat) ∧
      h0.bins.length = a.d ∧ ∀ idx, h0.data idx = countInBin h0.bins idx [List.replicate a.d 0] := by
  have hv := (input_valid 1 one_pos file config hr.parse).histogram oh hoh
  obtain ⟨h1, h2⟩ := main_traj_setup hr o ho
  obtain ⟨_, p2, p3, _⟩ := hr.setup.traj _ h1
  obtain ⟨_, _, _, _, _, _, _, h3, _⟩ := setupOptional_parts w config _ _ _ _ rfl rfl hr.optional
  rw [hoh] at h3
  obtain ⟨t, b, ht, hb, hb1, hb2⟩ := h3
  obtain ⟨q1, q2, q3, q4, q5⟩ := setupHistogram_inv _ _ _ hb
  obtain ⟨r1, r2, r3⟩ := setupHistogram_options _ _ _ hv.toValidOutput hb
  have hte : t = _ := Option.some.inj (ht.symm.trans h1)
  refine ⟨t, b.1, b.2.1, b.2.2, ht, by rw [hte], by rw [hte]; exact h2, hb1, hb2, ?_, r1, r2, r3, q4, q5⟩
  refine ⟨hr.good hops t (by rw [hte]), by rw [hte]; exact p2, by rw [hte]; exact p3, by rw [hte]; exact hw, q1,
    q2, q3, ?_⟩
  intro k p hp
  simp only [FinishedRun.snaps, snapshotOf, List.mem_map] at hp
  obtain ⟨x, _, rfl⟩ := hp
  simp [q4]

/-- C82: content of the final histogram without resets. Per bin: the number of walker positions in the bin at
the recorded steps, and the origin counted once. The recorded steps are the multiples of the stride for complete
blocks of trajectory data, and the last block twice if the run ends with a complete block; a last incomplete block
is recorded only if the trajectories are not written to files. -/
theorem main_histogram (hr : FinishedRun w file a config n s0) (hops : w.bdOps.Lawful) (o oh : Dict (OptVal ℝ))
    (ho : config.trajectories = some o) (hoh : config.histogram = some oh)
    (hreset : oh.get? "reset" = some .none) (hw : 0 < s0.particles.length) : ∃ h,
      a.sim.hist = some h ∧ h.bins.length = a.d ∧ ∀ idx, h.data idx =
        countInBin h.bins idx [List.replicate a.d 0] + countInBin h.bins idx (positionsAt hr.snaps
          (if hasFilename o then
            sampledSteps (natOption oh "stride" 1) 0
                (n / natOption o "write-stride" 100 * natOption o "write-stride" 100) ++
              if natOption o "write-stride" 100 ∣ n then
                sampledSteps (natOption oh "stride" 1) (n - natOption o "write-stride" 100) n else []
          else
            (List.range (n / natOption o "write-stride" 100)).flatMap
                (fun b => relativeSteps (natOption oh "stride" 1) (b * natOption o "write-stride" 100)
                  ((b + 1) * natOption o "write-stride" 100)) ++
              if natOption o "write-stride" 100 ∣ n then
                relativeSteps (natOption oh "stride" 1) (n - natOption o "write-stride" 100) n
              else relativeSteps (natOption oh "stride" 1)
                (n / natOption o "write-stride" 100 * natOption o "write-stride" 100) n)) := by
  obtain ⟨t, hc, out, h0, ht, hW, hx, hh, hh0, hS, hk, hres, _, hl, hd⟩ :=
    main_hist_setup hr o oh ho hoh hops hw
  obtain ⟨y, g, hy, hg, he⟩ := simulate_hist w a.cfg s0 hr.setup.bdSome t _ ht hx hc out h0 hh hh0 n a.sim hr.sim
  have hres := hres hreset
  refine ⟨g, hg, ?_⟩
  cases hf : hasFilename o with
  | true =>
    rw [hf] at he
    obtain ⟨t', h', e', hH⟩ := histogram_final_file t hc hr.snaps w.emptyTimes w.emptyPositions w.emptyMomentum h0 hS
      n hr.pos hres
    have := Except.ok.inj (he.symm.trans e')
    cases this
    rw [hk, hW] at hH
    simp only [if_true]
    obtain ⟨hb, hdata⟩ := hH
    exact ⟨by rw [hb, hl], fun idx => by rw [hdata, hd, hb]⟩
  | false =>
    rw [hf] at he
    obtain ⟨t', h', e', hH⟩ := histogram_final_nofile t hc hr.snaps w.emptyTimes w.emptyPositions w.emptyMomentum h0 hS
      n hr.pos hres
    have := Except.ok.inj (he.symm.trans e')
    cases this
    rw [hk, hW] at hH
    simp only [Bool.false_eq_true, if_false]
    obtain ⟨hb, hdata⟩ := hH
    exact ⟨by rw [hb, hl], fun idx => by rw [hdata, hd, hb]⟩

/-! ### Free energy surface -/

theorem prod_pos_of_forall (l : List Nat) (h : ∀ x ∈ l, 0 < x) : 0 < l.prod := by
  induction l with
  | nil => simp
  | cons x l ih =>
    rw [List.prod_cons]
    exact Nat.mul_pos (h x List.mem_cons_self) (ih fun y hy => h y (List.mem_cons_of_mem _ hy))

theorem counts_ne_nil (h : Histogram ℝ) (he : ∀ e ∈ h.bins, GoodEdges e) : h.counts.flat ≠ [] := by
  intro h0
  have h1 : h.counts.flat.length = h.shape.prod := by simp [Histogram.counts, Nd.ofFn, length_indices]
  rw [h0] at h1
  have := prod_pos_of_forall h.shape (by
    intro x hx
    obtain ⟨e, h2, rfl⟩ := List.mem_map.1 hx
    have := (he e h2).1
    omega)
  simp at h1
  omega

/-- The bins never change. -/
theorem histRun_bins (t : TrajCfg ℝ) (hc : HistCfg) (x : TrajState ℝ) (h z : Histogram ℝ) (step : Nat)
    (hz : histRun t hc x h step = .ok z) : z.bins = h.bins := by
  have hadd : ∀ g, addTrajData t hc x h step = .ok g → g.bins = h.bins := by
    intro g hg
    obtain ⟨data, _, hg⟩ := bind_ok hg
    obtain ⟨_, _, hg⟩ := bind_ok hg
    cases hg
    rfl
  simp only [histRun, pure_eq_ok] at hz
  split at hz
  · cases hz
  obtain ⟨g, hg, hz⟩ := bind_ok hz
  have hgb : g.bins = h.bins := by
    split at hg
    · exact hadd g hg
    · cases hg; rfl
  cases hz
  split
  · exact hgb
  · exact hgb

theorem histFinal_bins (t : TrajCfg ℝ) (hc : HistCfg) (x : TrajState ℝ) (h z : Histogram ℝ) (step : Nat)
    (hz : histFinal t hc x h step = .ok z) : z.bins = h.bins := by
  obtain ⟨data, _, hg⟩ := bind_ok hz
  obtain ⟨_, _, hg⟩ := bind_ok hg
  cases hg
  rfl

theorem runSteps_bins {d : Nat} (w : World R) (c : SimCfg d) (s : Sim d R) (h0 : Histogram ℝ) (hh0 : s.hist = some h0)
    (n : Nat) : ∀ s', runSteps w c n s = .ok s' → ∃ h, s'.hist = some h ∧ h.bins = h0.bins := by
  induction n with
  | zero => intro s' h; cases h; exact ⟨h0, hh0, rfl⟩
  | succ n ih =>
    intro s' h
    obtain ⟨u, hu, ha⟩ := runSteps_succ w c n s s' h
    obtain ⟨g, hg, hb⟩ := ih u hu
    have hs := ha.hist
    rw [hg] at hs
    unfold HistStep at hs
    split at hs
    · rename_i x _ _ _ hx
      obtain ⟨z, hz, e⟩ := hs
      cases hx
      exact ⟨z, e, by rw [histRun_bins _ _ _ _ _ _ hz, hb]⟩
    · exact ⟨g, hs, hb⟩

theorem simulate_bins {d : Nat} (w : World R) (c : SimCfg d) (s : Sim d R) (h0 : Histogram ℝ) (hh0 : s.hist = some h0)
    (n : Nat) (s' : Sim d R) (h : simulate w c n s = .ok s') : ∃ h, s'.hist = some h ∧ h.bins = h0.bins := by
  obtain ⟨u, hu, h⟩ := bind_ok h
  obtain ⟨g, hg, hb⟩ := runSteps_bins w c s h0 hh0 n u hu
  have hs := (final_analysis c n u s' h).hist
  rw [hg] at hs
  unfold HistFinal at hs
  split at hs
  · rename_i x _ _ _ hx
    obtain ⟨z, hz, e, _⟩ := hs
    cases hx
    exact ⟨z, e, by rw [histFinal_bins _ _ _ _ _ _ hz, hb]⟩
  · exact ⟨g, hs.1, hb⟩

/-- C67 (what holds): the final FES is that of the final histogram, `kT ln(max / count)` per bin, with the thermal
energy of the dynamics. -/
theorem main_fes (hr : FinishedRun w file a config n s0) (o : Dict (OptVal ℝ)) (ho : config.fes = some o) : ∃ h,
    a.sim.hist = some h ∧
    a.sim.fes = some (h.counts.map (freeEnergy a.cfg.ld.kt (maxCount h.counts.flat))) := by
  obtain ⟨_, _, _, _, _, _, _, _, h4, _⟩ := setupOptional_parts w config _ _ _ _ rfl rfl hr.optional
  rw [ho] at h4
  obtain ⟨_, b, _, _, hb, _⟩ := h4
  obtain ⟨p1, p2, h0, x0, hh0, hx0, hs0⟩ := hr.setup.fes _ hb
  obtain ⟨h, x, hh, hx, hs⟩ := simulate_fes w a.cfg s0 b.1 hb ⟨h0, x0, hh0, by rw [p2]; exact hx0, hs0⟩ n a.sim hr.sim
  obtain ⟨h', hh', hbins⟩ := simulate_bins w a.cfg s0 h0 hh0 n a.sim hr.sim
  rw [hh] at hh'
  cases hh'
  refine ⟨h, hh, ?_⟩
  obtain ⟨hc, hhc⟩ := Option.isSome_iff_exists.1 p1
  obtain ⟨_, h0', _, e0, _, _, he, _⟩ := hr.setup.hist hc.1 hc.2 hhc
  rw [hh0] at e0
  cases e0
  have := fes_spec h.counts a.cfg.ld.kt hr.constants.2.1 (counts_ne_nil h (by rw [hbins]; exact he))
  rw [p2, this] at hx
  cases hx
  exact hs

/-- C67, partial: if the thermal energy in `[fes]` is that of the dynamics (which is 1 for overdamped dynamics),
the final FES is calculated with it. -/
theorem main_fes_kt_partial (hr : FinishedRun w file a config n s0) (o : Dict (OptVal ℝ)) (ho : config.fes = some o)
    (kt : ℝ) (hkt : o.get? "kt" = some (.base (.float kt)))
    (h : config.ld.get? "kt" = some (.base (.float kt)) ∧
        config.ld.get? "type" = some (.base (.str "bussi-parinello")) ∨
      kt = 1 ∧ config.ld.get? "type" = some (.base (.str "overdamped"))) : ∃ h,
    a.sim.hist = some h ∧ a.sim.fes = some (h.counts.map (freeEnergy kt (maxCount h.counts.flat))) := by
  have : a.cfg.ld.kt = kt := by
    obtain ⟨_, _, hc⟩ := hr.constants
    rcases h with ⟨h1, h2⟩ | ⟨h1, h2⟩ <;> rcases hc with ⟨h3, _, h4⟩ | ⟨h3, _, h4⟩
    · rw [h1] at h4
      cases h4
      rfl
    · rw [h2] at h3
      simp at h3
    · rw [h2] at h3
      simp at h3
    · rw [h4, h1]
  rw [← this]
  exact main_fes hr o ho

/-! ### Time series -/

namespace Spec

/-- Stride of a time series, 0 if none is given. -/
def seriesStride (o : Dict (OptVal ℝ)) : Nat := natOption o "stride" 0

/-- Write stride of a time series. -/
def seriesWriteStride (o : Dict (OptVal ℝ)) : Nat := natOption o "write-stride" (seriesStride o * 100)

/-- Case in which the last write has no new row: the run ends within the first rows of a block before the stride is
reached. -/
def emptyLastWrite (o : Dict (OptVal ℝ)) (n : Nat) : Prop :=
  0 < n % seriesWriteStride o ∧ n % seriesWriteStride o < seriesStride o

instance (o : Dict (OptVal ℝ)) (n : Nat) : Decidable (emptyLastWrite o n) :=
  inferInstanceAs (Decidable (_ ∧ _))

/-- Rows of the file of a time series: one row at the end without a stride, else one row per multiple of the
stride. If the last write has no new row, the whole array is written once more: the rows of the last block, or
uninitialised memory if there is no row at all. -/
def seriesFile (o : Dict (OptVal ℝ)) (n : Nat) (rows : Nat → List ℝ) (rowEnd : List ℝ) (garbage : Nat → List ℝ) :
    List (List ℝ) :=
  if hasFilename o then
    if seriesStride o = 0 then [rowEnd]
    else (sampledSteps (seriesStride o) 0 n).map rows ++
      if emptyLastWrite o n then
        if n < seriesStride o then (List.range (seriesWriteStride o / seriesStride o)).map garbage
        else (sampledSteps (seriesStride o) (n / seriesWriteStride o * seriesWriteStride o - seriesWriteStride o)
          (n / seriesWriteStride o * seriesWriteStride o)).map rows
      else []
  else []

end Spec

/-- The configuration of a time series belongs to the given options. -/
structure SeriesOptions (o : Dict (OptVal ℝ)) (c : SeriesCfg ℝ) : Prop where
  file : c.hasFile = hasFilename o
  stride : c.stride = seriesStride o
  writeStride : c.stride ≠ 0 → c.writeStride = seriesWriteStride o
  good : GoodSeries c

theorem series_program (o : Dict (OptVal ℝ)) (c : SeriesCfg ℝ) (hc : SeriesOptions o c) (vals : Nat → List ℝ)
    (valsEnd : List ℝ) (garbage : Nat → List ℝ) (n : Nat) (y : SeriesState ℝ)
    (h : SeriesState.simulate c vals valsEnd n (SeriesState.init c garbage) = .ok y) :
    y.file = seriesFile o n (fun t => c.timeCol t :: vals t) (c.timeCol n :: valsEnd) garbage := by
  rcases hc.good with ⟨h1, h2⟩ | ⟨h1, h2, h3⟩
  · obtain ⟨_, z, hz, hf⟩ := series_no_stride c vals valsEnd garbage n h1 h2
    rw [h] at hz
    cases hz
    have : seriesStride o = 0 := by rw [← hc.stride, h1]
    rw [hf, seriesFile, if_pos this, hc.file]
  · have hW := hc.writeStride (by omega)
    have hs0 : seriesStride o ≠ 0 := by rw [← hc.stride]; omega
    cases hf : hasFilename o with
    | false =>
      obtain ⟨z, hz, hf'⟩ := series_no_file c vals valsEnd garbage n h1 h2 h3 (hc.file.trans hf)
      rw [h] at hz
      cases hz
      rw [hf', seriesFile, if_neg (by simp [hf])]
    | true =>
      by_cases hb : emptyLastWrite o n
      · obtain ⟨z, hz, hf'⟩ := series_file_boundary c vals valsEnd garbage n h1 h2 h3 (hc.file.trans hf)
          (by rw [hW]; exact hb.1) (by rw [hW, hc.stride]; exact hb.2)
        rw [h] at hz
        cases hz
        rw [hf', seriesFile, if_pos hf, if_neg hs0, if_pos hb, hc.stride, hW]
        rfl
      · obtain ⟨z, hz, hf'⟩ := series_file_partial c vals valsEnd garbage n h1 h2 h3 (hc.file.trans hf)
          (by
            rw [hW, hc.stride]
            unfold emptyLastWrite at hb
            omega)
        rw [h] at hz
        cases hz
        rw [hf', seriesFile, if_pos hf, if_neg hs0, if_neg hb, hc.stride, List.append_nil]
        rfl

theorem seriesOptions_new (o : Dict (OptVal ℝ)) (hv : ValidOutput o) (v1 v2 v3 : OptVal ℝ) (stride ws : Option Nat)
    (f : Option String) (t : Nat → ℝ) (c : SeriesCfg ℝ) (g1 : o.getItem "stride" = .ok v1)
    (f1 : v1.asOptStride = .ok stride) (g2 : o.getItem "filename" = .ok v2) (f2 : v2.asOptStr = .ok f)
    (g3 : o.getItem "write-stride" = .ok v3) (f3 : v3.asOptStride = .ok ws)
    (h : SeriesCfg.new stride ws (truthyStr f) t = .ok c) : SeriesOptions o c := by
  have e1 := (strideOption o "stride" v1 stride 0 hv.stride g1 f1).1
  have e3 := (strideOption o "write-stride" v3 ws (seriesStride o * 100) hv.writeStride g3 f3).1
  have hg := (goodSeries_new stride ws _ t c h).1
  rw [filenameOption o v2 f g2 f2] at h
  unfold SeriesCfg.new at h
  split at h
  · split at h
    · cases h
    · simp only at h
      split at h
      · cases h
      · cases h
        refine ⟨rfl, e1, fun _ => ?_, hg⟩
        simp only
        rw [e1]
        exact e3
  · rename_i hs
    cases h
    refine ⟨rfl, ?_, fun h => absurd rfl h, hg⟩
    rw [seriesStride, ← e1]
    unfold truthyNat at hs
    unfold pyOrNat
    split at hs
    · rfl
    · rfl
    · simp at hs

theorem setupDistribution_options (w : World R) (o : Dict (OptVal ℝ)) (b : DistCfg × SeriesState ℝ)
    (hv : ValidOutput o) (h : setupDistribution w o = .ok b) : SeriesOptions o b.1.series := by
  simp only [setupDistribution] at h
  obtain ⟨states, hs, h⟩ := bind_ok h
  obtain ⟨v1, g1, h⟩ := bind_ok h
  obtain ⟨stride, f1, h⟩ := bind_ok h
  obtain ⟨v2, g2, h⟩ := bind_ok h
  obtain ⟨filename, f2, h⟩ := bind_ok h
  obtain ⟨v3, g3, h⟩ := bind_ok h
  obtain ⟨ws, f3, h⟩ := bind_ok h
  obtain ⟨c, hc, h⟩ := bind_ok h
  cases h
  exact seriesOptions_new o hv v1 v2 v3 _ _ _ _ _ g1 f1 g2 f2 g3 f3 hc

theorem setupDeltaF_options (w : World R) (o : Dict (OptVal ℝ)) (kt dt : ℝ) (y : Histogram ℝ)
    (b : DeltaFCfg × SeriesState ℝ) (hv : ValidOutput o) (h : setupDeltaFAction w o kt dt y = .ok b) :
    SeriesOptions o b.1.series := by
  simp only [setupDeltaFAction] at h
  obtain ⟨states, hs, h⟩ := bind_ok h
  obtain ⟨masks, _, h⟩ := bind_ok h
  obtain ⟨v1, g1, h⟩ := bind_ok h
  obtain ⟨stride, f1, h⟩ := bind_ok h
  obtain ⟨v2, g2, h⟩ := bind_ok h
  obtain ⟨filename, f2, h⟩ := bind_ok h
  obtain ⟨v3, g3, h⟩ := bind_ok h
  obtain ⟨ws, f3, h⟩ := bind_ok h
  obtain ⟨c, hc, h⟩ := bind_ok h
  cases h
  exact seriesOptions_new o hv v1 v2 v3 _ _ _ _ _ g1 f1 g2 f2 g3 f3 hc

/-! ### Particle distribution -/

namespace Spec

/-- Number of walkers in every state. -/
noncomputable def walkersIn {d : Nat} (states : List (List (ℝ × ℝ))) (ps : List (LdParticle ℝ d)) : List ℝ :=
  states.map (fun s => ((ps.countP (fun p => decide (InState (List.ofFn p.pos) s)) : Nat) : ℝ))

end Spec

theorem distRow_spec {d : Nat} (f : DistCfg) (ps : List (LdParticle ℝ d)) (hne : ps ≠ [])
    (hs : ∀ s ∈ f.states, s.length = d) : distRow f ps = walkersIn f.states ps := by
  unfold distRow distVals
  rw [countParticles_spec d _ _ (by simpa using hne) (by simp) hs]
  simp only [if_true, ok_bind, pure_eq_ok, List.map_map, walkersIn]
  refine List.map_congr_left (fun s _ => ?_)
  simp [List.countP_map, Function.comp_def]

/-- C84: the file of the particle distribution contains the steps and the numbers of walkers in the states at these
steps. -/
theorem main_distribution (hr : FinishedRun w file a config n s0) (hops : w.bdOps.Lawful) (o : Dict (OptVal ℝ))
    (ho : config.particleDistribution = some o) (states : List (List (ℝ × ℝ))) (hst : stateRanges o = .ok states)
    (hd : ∀ s ∈ states, s.length = a.d) (hw : 0 < s0.particles.length) : ∃ x, a.sim.dist = some x ∧
      x.file = seriesFile o n (fun t => (t : ℝ) :: walkersIn states (hr.path t))
        ((n : ℝ) :: walkersIn states (hr.path n)) w.emptyCounts := by
  have hv := (input_valid 1 one_pos file config hr.parse).particleDistribution o ho
  obtain ⟨_, _, _, _, _, _, _, _, _, _, h6, _⟩ := setupOptional_parts w config _ _ _ _ rfl rfl hr.optional
  rw [ho] at h6
  obtain ⟨b, hb, hb1, hb2⟩ := h6
  obtain ⟨p1, p2, p3, p4⟩ := setupDistribution_inv w o b hb
  have hopt := setupDistribution_options w o b hv.toValidOutput hb
  rw [hst] at p4
  cases p4
  obtain ⟨y, hy, he⟩ := simulate_dist w a.cfg s0 hr.setup.bdSome b.1 b.2 hb1 hb2 n a.sim hr.sim
  rw [p3] at he
  refine ⟨y, hy, ?_⟩
  have hrow : ∀ t, distRow b.1 (hr.path t) = walkersIn b.1.states (hr.path t) := fun t =>
    distRow_spec b.1 _ (by
      intro h0
      have := hr.path_length hops t
      rw [h0] at this
      simp at this
      omega) hd
  rw [series_program o b.1.series hopt _ _ _ n y he, p2]
  have e : ∀ t, s0.path w a.cfg t = hr.path t := fun t => rfl
  simp only [e, hrow]

/-! ### Free energy differences -/

/-- A finished run with `[delta-f]` is one-dimensional. -/
theorem main_deltaF_oneDim (hr : FinishedRun w file a config n s0) (o : Dict (OptVal ℝ))
    (ho : config.deltaF = some o) : a.d = 1 := by
  obtain ⟨_, _, _, _, _, _, _, _, _, h5, _⟩ := setupOptional_parts w config _ _ _ _ rfl rfl hr.optional
  rw [ho] at h5
  obtain ⟨_, y, b, hf, hy, hb, _⟩ := h5
  obtain ⟨_, _, _, _, states, _, hm⟩ := setupDeltaF_inv w _ _ _ _ _ hb
  obtain ⟨hc, hhc⟩ := Option.isSome_iff_exists.1 (hr.setup.fes _ hf).1
  obtain ⟨_, h0, _, e0, _, _, _, hl, _⟩ := hr.setup.hist hc.1 hc.2 hhc
  rw [hy] at e0
  cases e0
  by_contra hne
  rcases Nat.lt_or_ge a.d 2 with h2 | h2
  · have hb0 : y.bins = [] := List.length_eq_zero_iff.1 (by omega)
    unfold setupDeltaF at hm
    split at hm
    · cases hm
    · simp [Histogram.axes, hb0, pointsOfAxes] at hm
      cases hm
  · exact setupDeltaF_nd_fails y states (by omega) ⟨_, hm⟩

namespace Spec

/-- Number of counts of a one-dimensional histogram in bins whose centre lies in the state. -/
noncomputable def stateCounts (h : Histogram ℝ) (s : List (ℝ × ℝ)) : Nat :=
  countsIn h.counts.flat ((binCenters (h.bins.headD [])).map (fun x => decide (InState [x] s)))

/-- Free energies of the states relative to the first one. -/
noncomputable def freeEnergyDiffs (kt : ℝ) (h : Histogram ℝ) (states : List (List (ℝ × ℝ))) : List ℝ :=
  states.tail.map (fun s => -kt * Real.log ((stateCounts h s : ℝ) / stateCounts h (states.headD [])))

end Spec

theorem deltaFRow_spec (f : DeltaFCfg) (h h0 : Histogram ℝ) (states : List (List (ℝ × ℝ))) (fes : Nd (WithTop ℝ))
    (hk : 0 < f.kt) (hb : h.bins = h0.bins) (hl : h0.bins.length = 1) (he : ∀ e ∈ h0.bins, GoodEdges e)
    (hs : ∀ s ∈ states, s.length = 1) (hm : setupDeltaF h0 states = .ok f.masks)
    (hf : calculateFes h.counts f.kt true = .ok fes) (hN : ∀ s ∈ states, stateCounts h s ≠ 0) :
    deltaFRow f fes = freeEnergyDiffs f.kt h states := by
  obtain ⟨edges, he0⟩ := List.length_eq_one_iff.1 hl
  have h2 : 2 ≤ states.length := by
    by_contra h2
    unfold setupDeltaF at hm
    rw [if_pos (by omega)] at hm
    cases hm
  obtain ⟨bins0, data0⟩ := h0
  simp only at he0 hb he
  subst he0
  rw [setupDeltaF_1d_partial edges data0 states h2 hs] at hm
  have hmasks := (Except.ok.inj hm).symm
  have hhd : h.bins.headD [] = edges := by rw [hb]; rfl
  have hlen : ∀ m ∈ f.masks, m.length = h.counts.flat.length := by
    intro m hm
    rw [hmasks] at hm
    obtain ⟨s, _, rfl⟩ := List.mem_map.1 hm
    simp [Histogram.counts, Nd.ofFn, length_indices, Histogram.shape, hb, binCenters]
  have hcount : ∀ s, countsIn h.counts.flat ((binCenters edges).map (fun x => decide (InState [x] s))) =
      stateCounts h s := by
    intro s
    rw [stateCounts, hhd]
  have := deltaF_spec h.counts f.kt hk f.masks (counts_ne_nil h (by rw [hb]; exact he)) hlen (by
    intro m hm
    rw [hmasks] at hm
    obtain ⟨s, hs', rfl⟩ := List.mem_map.1 hm
    rw [hcount]
    exact hN s hs')
  rw [hf, ok_bind] at this
  unfold deltaFRow deltaFVals
  rw [if_pos rfl, this]
  simp only
  rw [hmasks, freeEnergyDiffs]
  cases states with
  | nil => rfl
  | cons s0 states => simp [hcount]

/-- The histogram after step `t` of the run. -/
noncomputable def FinishedRun.histAt (_ : FinishedRun w file a config n s0) (t : Nat) : Histogram ℝ :=
  match runSteps w a.cfg t s0 with
  | .ok u => u.hist.getD ⟨[], fun _ => 0⟩
  | .error _ => ⟨[], fun _ => 0⟩

/-- The last step up to `t` at which the FES was calculated: the last multiple of its stride. -/
def Spec.fesStep (o : Dict (OptVal ℝ)) (t : Nat) : Nat :=
  match natOption o "stride" 0 with
  | 0 => 0
  | k => t / k * k

theorem setupFes_options {R : Type} {d : Nat} (w : World R) (o : Dict (OptVal ℝ)) (ld : LdCfg ℝ d) (y : Histogram ℝ)
    (b : FesCfg × Nd (WithTop ℝ)) (hv : ValidOutput o) (h : setupFes w o ld y = .ok b) (t : Nat) :
    b.1.lastStep t = fesStep o t := by
  obtain ⟨v, g, f⟩ := bind_ok (setupFes_parts w o ld y b h).stride
  have hs := (strideOption o "stride" v b.1.stride 0 hv.stride g f).1
  generalize b.1 = c at hs ⊢
  obtain ⟨kt, stride, out, plot⟩ := c
  unfold fesStep FesCfg.lastStep
  rw [← hs]
  rcases stride with _ | _ | k
  · rfl
  · simp [pyOrNat]
  · rfl

theorem seriesFile_congr (o : Dict (OptVal ℝ)) (n : Nat) (rows rows' : Nat → List ℝ) (rowEnd : List ℝ)
    (garbage : Nat → List ℝ) (h : ∀ t, 0 < t → t ≤ n → seriesStride o ∣ t → rows t = rows' t) :
    seriesFile o n rows rowEnd garbage = seriesFile o n rows' rowEnd garbage := by
  unfold seriesFile
  split
  · split
    · rfl
    · have h1 : ∀ x y, y ≤ n → (sampledSteps (seriesStride o) x y).map rows =
          (sampledSteps (seriesStride o) x y).map rows' := by
        intro x y hy
        refine List.map_congr_left (fun t ht => ?_)
        obtain ⟨h1, h2, h3⟩ := mem_sampledSteps.1 ht
        exact h t (by omega) (by omega) h3
      rw [h1 0 n (le_refl n), h1 _ _ (Nat.div_mul_le_self _ _)]
  · rfl

/-- C83: the file of the free energy differences contains the times and `-kT ln(N_i / N_1)` for the states, `N_i`
being the number of counts in state `i` of the histogram at the last multiple of the FES stride (of the final
histogram if no stride is given), as long as no state is empty. -/
theorem main_deltaF (hr : FinishedRun w file a config n s0) (o of : Dict (OptVal ℝ)) (ho : config.deltaF = some o)
    (hof : config.fes = some of) (states : List (List (ℝ × ℝ))) (hst : stateRanges o = .ok states)
    (hs : ∀ s ∈ states, s.length = 1) : ∃ x h, a.sim.deltaF = some x ∧ a.sim.hist = some h ∧
      ((∀ t, 0 < t → t ≤ n → seriesStride o ∣ t → ∀ s ∈ states, stateCounts (hr.histAt (fesStep of t)) s ≠ 0) →
        (∀ s ∈ states, stateCounts h s ≠ 0) →
        x.file = seriesFile o n
          (fun t => ((t : ℝ) * a.cfg.ld.dt) :: freeEnergyDiffs a.cfg.ld.kt (hr.histAt (fesStep of t)) states)
          (((n : ℝ) * a.cfg.ld.dt) :: freeEnergyDiffs a.cfg.ld.kt h states) w.emptyDeltaF) := by
  have hv := (input_valid 1 one_pos file config hr.parse).deltaF o ho
  have hvf := (input_valid 1 one_pos file config hr.parse).fes of hof
  have hd := main_deltaF_oneDim hr o ho
  obtain ⟨_, _, _, _, _, _, _, _, h4, h5, _⟩ := setupOptional_parts w config _ _ _ _ rfl rfl hr.optional
  rw [hof] at h4
  obtain ⟨y4, b4, hy4, hb4, hc4, _⟩ := h4
  have hlast := setupFes_options w of _ y4 b4 hvf.toValidOutput hb4
  rw [ho] at h5
  obtain ⟨f, y, b, hf, hy, hb, hb1, hb2⟩ := h5
  obtain ⟨q1, q2, q3, q4, states', q5, hm⟩ := setupDeltaF_inv w _ _ _ _ _ hb
  rw [hst] at q5
  cases q5
  have hopt := setupDeltaF_options w o _ _ y b hv.toValidOutput hb
  obtain ⟨p1, p2, h0, x0, hh0, hx0, hs0⟩ := hr.setup.fes _ hf
  rw [hy] at hh0
  cases hh0
  rw [hf] at hc4
  cases hc4
  obtain ⟨hc, hhc⟩ := Option.isSome_iff_exists.1 p1
  obtain ⟨_, h0, _, e0, _, _, he, hl, _⟩ := hr.setup.hist hc.1 hc.2 hhc
  rw [hy] at e0
  cases e0
  have h0' : ∃ h x, s0.hist = some h ∧ calculateFes h.counts b4.1.kt true = .ok x ∧ s0.fes = some x :=
    ⟨y, x0, hy, by rw [p2]; exact hx0, hs0⟩
  obtain ⟨z, g, hz, hg, hsim⟩ := simulate_deltaF w a.cfg s0 b4.1 hf h0' b.1 b.2 hb1 hb2 n a.sim hr.sim
  obtain ⟨h, x, hh, hx, hx'⟩ := simulate_fes w a.cfg s0 b4.1 hf h0' n a.sim hr.sim
  rw [hg] at hx'
  cases hx'
  refine ⟨z, h, hz, hh, fun hN hNend => ?_⟩
  have hkt : b.1.kt = a.cfg.ld.kt := q1
  have hbins : h.bins = y.bins := by
    obtain ⟨h', e, hb⟩ := simulate_bins w a.cfg s0 y hy n a.sim hr.sim
    rw [hh] at e
    cases e
    exact hb
  have hend : deltaFRow b.1 g = freeEnergyDiffs a.cfg.ld.kt h states := by
    rw [← hkt]
    exact deltaFRow_spec b.1 h y states g (by rw [hkt]; exact hr.constants.2.1) hbins (by omega) he hs hm
      (by rw [hkt, ← p2]; exact hx) hNend
  have hrow : ∀ t, 0 < t → t ≤ n → seriesStride o ∣ t → deltaFRow b.1 (s0.fesAt w a.cfg t) =
      freeEnergyDiffs a.cfg.ld.kt (hr.histAt (fesStep of t)) states := by
    intro t h1 h2 h3
    obtain ⟨v, hv, _⟩ := bind_ok hr.sim
    obtain ⟨u, hu⟩ := runSteps_le w a.cfg s0 n v hv t h2
    obtain ⟨u', h', x', hu', hh', hx', hf'⟩ := steps_fes w a.cfg s0 b4.1 hf h0' t u hu
    rw [fesAt_eq w a.cfg s0 u t x' hu hf']
    rw [hlast] at hu'
    have hA : hr.histAt (fesStep of t) = h' := by
      unfold FinishedRun.histAt
      rw [hu']
      simp [hh']
    have hbins' : h'.bins = y.bins := by
      obtain ⟨h'', e, hb⟩ := runSteps_bins w a.cfg s0 y hy _ u' hu'
      rw [hh'] at e
      cases e
      exact hb
    rw [hA, ← hkt]
    exact deltaFRow_spec b.1 h' y states x' (by rw [hkt]; exact hr.constants.2.1) hbins' (by omega) he hs hm
      (by rw [hkt, ← p2]; exact hx') (by rw [← hA]; exact hN t h1 h2 h3)
  rw [q4] at hsim
  rw [series_program o b.1.series hopt _ _ _ n z hsim, q3, hend]
  refine seriesFile_congr _ _ _ _ _ _ (fun t h1 h2 h3 => ?_)
  simp only
  rw [hrow t h1 h2 h3]

end Bdld
