import Verif.Model.DeltaFExt
import Verif.Props.MainAnalysis
import Verif.Props.MainPlots
import Verif.Props.MainFiles

/-
C138: free energy differences of states without counts.
-/

namespace Bdld

open Spec

namespace Spec

/-- Free energy of a state with `n` counts relative to one with `n0` counts: infinite if only the state is empty, minus
infinity if only the reference is empty, undefined if both are. -/
noncomputable def freeEnergyDiffX (kt : ℝ) (n n0 : Nat) : XReal :=
  if n = 0 then (if n0 = 0 then .nan else .inf false)
  else if n0 = 0 then .inf true else .fin (-kt * Real.log ((n : ℝ) / n0))

/-- All states relative to the first one. -/
noncomputable def freeEnergyDiffsX (kt : ℝ) (h : Histogram ℝ) (states : List (List (ℝ × ℝ))) : List XReal :=
  states.tail.map (fun s => freeEnergyDiffX kt (stateCounts h s) (stateCounts h (states.headD [])))

end Spec

/-- With numbers as values it is the function of `Model/Fes.lean`. -/
theorem deltaFX_finite (fes : Nd (WithTop ℝ)) (kt : ℝ) (masks : List (List Bool)) (l : List ℝ)
    (h : calculateDeltaFX fes kt masks = .ok (l.map .fin)) : calculateDeltaF fes kt masks = .ok l := by
  obtain ⟨ps, h1, h2⟩ := bind_ok h
  clear h
  rename _ => h
  simp only [calculateDeltaF, h1, ok_bind, pure_eq_ok, Except.ok.injEq] at h ⊢
  generalize ps.tail = qs at h ⊢
  generalize ps.headD 0 = q at h ⊢
  induction qs generalizing l with
  | nil =>
    cases l with
    | nil => rfl
    | cons x l => cases h
  | cons p qs ih =>
    cases l with
    | nil => cases h
    | cons x l =>
      rw [List.map_cons, List.map_cons, List.cons.injEq] at h
      rw [List.map_cons, ih l h.2]
      congr 1
      have h3 := h.1
      unfold XReal.quot at h3
      split at h3
      · split at h3
        · cases h3
        · rename_i hp
          cases hn : decide (p < 0)
          · rw [hn] at h3
            simp only [XReal.log, XReal.scale] at h3
            split at h3 <;> cases h3
          · rw [hn] at h3
            cases h3
      · simp only [XReal.log] at h3
        split at h3
        · cases h3
        · split at h3
          · simp only [XReal.scale] at h3
            split at h3 <;> cases h3
          · simp only [XReal.scale] at h3
            cases h3
            rfl

theorem quot_counts (M n n0 : Nat) (hn : n ≠ 0 → M ≠ 0) (hn0 : n0 ≠ 0 → M ≠ 0) (kt : ℝ) (hk : 0 < kt) :
    ((XReal.quot ((n : ℝ) / M) ((n0 : ℝ) / M)).log).scale (-kt) = freeEnergyDiffX kt n n0 := by
  unfold freeEnergyDiffX
  by_cases h : n = 0
  · by_cases h0 : n0 = 0
    · simp [h, h0, XReal.quot, XReal.log, XReal.scale]
    · have hM : (M : ℝ) ≠ 0 := by exact_mod_cast hn0 h0
      have h0' : (n0 : ℝ) / M ≠ 0 := div_ne_zero (by exact_mod_cast h0) hM
      have hk' : kt ≠ 0 := hk.ne'
      simp [h, h0, XReal.quot, h0', XReal.log, XReal.scale, hk, hk']
  · have hM : (M : ℝ) ≠ 0 := by exact_mod_cast hn h
    have hM' : (0 : ℝ) < M := lt_of_le_of_ne (Nat.cast_nonneg M) hM.symm
    have h' : (0 : ℝ) < n := by exact_mod_cast Nat.pos_of_ne_zero h
    by_cases h0 : n0 = 0
    · have hx : ¬ (n : ℝ) / M < 0 := not_lt.2 (by positivity)
      have hk' : kt ≠ 0 := hk.ne'
      simp [h, h0, XReal.quot, hM, XReal.log, XReal.scale, hx, hk, hk']
    · have h0p : (0 : ℝ) < n0 := by exact_mod_cast Nat.pos_of_ne_zero h0
      have e : (n : ℝ) / M / (n0 / M) = n / n0 := div_div_div_cancel_right₀ hM _ _
      have h1 : (n0 : ℝ) / M ≠ 0 := by positivity
      have h2 : ¬ (n : ℝ) / n0 < 0 := not_lt.2 (by positivity)
      have h3 : (n : ℝ) / n0 ≠ 0 := by positivity
      rw [if_neg h, if_neg h0, XReal.quot, if_neg h1, e, XReal.log, if_neg h2, if_neg h3, XReal.scale]

/-- **C138.** The free energy differences calculated from the FES of any histogram: infinite for states without counts,
minus infinity for a reference without counts, nan if both have none. -/
theorem deltaFX_spec (counts : Nd Nat) (kt : ℝ) (hk : 0 < kt) (masks : List (List Bool))
    (hf : counts.flat ≠ []) (hl : ∀ m ∈ masks, m.length = counts.flat.length) :
    (do let fes ← calculateFes counts kt true
        calculateDeltaFX fes kt masks) =
      .ok (masks.tail.map (fun m => freeEnergyDiffX kt (countsIn counts.flat m)
        (countsIn counts.flat (masks.headD [])))) := by
  rw [fes_spec counts kt hk hf, ok_bind]
  cases masks with
  | nil => rfl
  | cons m0 masks =>
    have hM : ∀ m, countsIn counts.flat m ≠ 0 → maxCount counts.flat ≠ 0 := countsIn_ne_zero _
    have hz : ∀ n ∈ counts.flat, maxCount counts.flat = 0 → n = 0 :=
      fun n hn h0 => Nat.le_zero.1 (h0 ▸ maxCount_ge counts.flat n hn)
    generalize hMdef : maxCount counts.flat = M at hM hz ⊢
    have hp : (counts.flat.map (freeEnergy kt M)).map (boltzmann kt) =
        counts.flat.map (fun n : Nat => (n : ℝ) / M) := by
      rw [List.map_map]
      refine List.map_congr_left (fun n hn => ?_)
      by_cases h0 : M = 0
      · rw [hz n hn h0]
        simp [freeEnergy, boltzmann]
      · exact boltzmann_freeEnergy kt hk M n h0
    have hs : ∀ m ∈ m0 :: masks, maskedSum (counts.flat.map (fun n : Nat => (n : ℝ) / M)) m =
        .ok ((countsIn counts.flat m : ℝ) / M) := by
      intro m hm
      unfold maskedSum
      rw [if_pos (by rw [List.length_map]; exact hl m hm), countsIn_sum]
    have hmap : (m0 :: masks).mapM (maskedSum (counts.flat.map (fun n : Nat => (n : ℝ) / M))) =
        .ok ((m0 :: masks).map (fun m => (countsIn counts.flat m : ℝ) / M)) := mapM_ok _ _ _ hs
    simp only [calculateDeltaFX, Nd.map, hp, hmap, ok_bind, pure_eq_ok, List.map_cons, List.tail_cons,
      List.headD_cons, List.map_map, Except.ok.injEq]
    exact List.map_congr_left (fun m _ => quot_counts M _ _ (hM m) (hM m0) kt hk)

theorem deltaFX_row (f : DeltaFCfg) (h h0 : Histogram ℝ) (states : List (List (ℝ × ℝ))) (fes : Nd (WithTop ℝ))
    (hk : 0 < f.kt) (hb : h.bins = h0.bins) (hl : h0.bins.length = 1) (he : ∀ e ∈ h0.bins, GoodEdges e)
    (hs : ∀ s ∈ states, s.length = 1) (hm : setupDeltaF h0 states = .ok f.masks)
    (hf : calculateFes h.counts f.kt true = .ok fes) :
    calculateDeltaFX fes f.kt f.masks = .ok (freeEnergyDiffsX f.kt h states) := by
  obtain ⟨edges, he0⟩ := List.length_eq_one_iff.1 hl
  have h2 : 2 ≤ states.length := by
    by_contra h2
    unfold setupDeltaF at hm
    rw [if_pos (by omega)] at hm
    cases hm
  obtain ⟨bins0, data0⟩ := h0
  simp only at he0 hb he
  subst he0
  rw [setupDeltaF_1d_partial edges data0 states h2 hs] at hm
  have hmasks := (Except.ok.inj hm).symm
  have hhd : h.bins.headD [] = edges := by rw [hb]; rfl
  have hlen : ∀ m ∈ f.masks, m.length = h.counts.flat.length := by
    intro m hm
    rw [hmasks] at hm
    obtain ⟨s, _, rfl⟩ := List.mem_map.1 hm
    simp [Histogram.counts, Nd.ofFn, length_indices, Histogram.shape, hb, binCenters]
  have hcount : ∀ s, countsIn h.counts.flat ((binCenters edges).map (fun x => decide (InState [x] s))) =
      stateCounts h s := by
    intro s
    rw [stateCounts, hhd]
  have := deltaFX_spec h.counts f.kt hk f.masks (counts_ne_nil h (by rw [hb]; exact he)) hlen
  rw [hf, ok_bind] at this
  rw [this, hmasks, freeEnergyDiffsX]
  cases states with
  | nil => rfl
  | cons s0 states => simp [hcount]

variable {R : Type} {w : World R} {file : Option (List Section)} {a : AnySim R} {config : Input ℝ} {n : Nat} {s0 : Sim a.d R}

/-- **C138.** The values that a run calculates in step `t` are those of the histogram of the step of the FES, and the last
ones those of the final histogram, whether there are empty states or not. -/
theorem main_deltaFX (hr : FinishedRun w file a config n s0) (o of : Dict (OptVal ℝ)) (ho : config.deltaF = some o)
    (hof : config.fes = some of) (states : List (List (ℝ × ℝ))) (hst : stateRanges o = .ok states)
    (hs : ∀ s ∈ states, s.length = 1) : ∃ f h g, a.cfg.deltaF = some f ∧ a.sim.hist = some h ∧ a.sim.fes = some g ∧
      (∀ t ≤ n, calculateDeltaFX (s0.fesAt w a.cfg t) f.kt f.masks =
        .ok (freeEnergyDiffsX a.cfg.ld.kt (hr.histAt (fesStep of t)) states)) ∧
      calculateDeltaFX g f.kt f.masks = .ok (freeEnergyDiffsX a.cfg.ld.kt h states) := by
  have hvf := (input_valid 1 one_pos file config hr.parse).fes of hof
  have hd := main_deltaF_oneDim hr o ho
  obtain ⟨_, _, _, _, _, _, _, _, h4, h5, _⟩ := setupOptional_parts w config _ _ _ _ rfl rfl hr.optional
  rw [hof] at h4
  obtain ⟨y4, b4, hy4, hb4, hc4, _⟩ := h4
  have hlast := setupFes_options w of _ y4 b4 hvf.toValidOutput hb4
  rw [ho] at h5
  obtain ⟨f, y, b, hf, hy, hb, hb1, hb2⟩ := h5
  obtain ⟨q1, q2, q3, q4, states', q5, hm⟩ := setupDeltaF_inv w _ _ _ _ _ hb
  rw [hst] at q5
  cases q5
  obtain ⟨p1, p2, h0, x0, hh0, hx0, hs0⟩ := hr.setup.fes _ hf
  rw [hy] at hh0
  cases hh0
  rw [hf] at hc4
  cases hc4
  obtain ⟨hc, hhc⟩ := Option.isSome_iff_exists.1 p1
  obtain ⟨_, h0, _, e0, _, _, he, hl, _⟩ := hr.setup.hist hc.1 hc.2 hhc
  rw [hy] at e0
  cases e0
  have h0' : ∃ h x, s0.hist = some h ∧ calculateFes h.counts b4.1.kt true = .ok x ∧ s0.fes = some x :=
    ⟨y, x0, hy, by rw [p2]; exact hx0, hs0⟩
  obtain ⟨h, x, hh, hx, hx'⟩ := simulate_fes w a.cfg s0 b4.1 hf h0' n a.sim hr.sim
  have hkt : b.1.kt = a.cfg.ld.kt := q1
  have hbins : h.bins = y.bins := by
    obtain ⟨h', e, hb⟩ := simulate_bins w a.cfg s0 y hy n a.sim hr.sim
    rw [hh] at e
    cases e
    exact hb
  refine ⟨b.1, h, x, hb1, hh, hx', fun t h2 => ?_, ?_⟩
  · obtain ⟨v, hv, _⟩ := bind_ok hr.sim
    obtain ⟨u, hu⟩ := runSteps_le w a.cfg s0 n v hv t h2
    obtain ⟨u', h', x', hu', hh', hx', hf'⟩ := steps_fes w a.cfg s0 b4.1 hf h0' t u hu
    rw [fesAt_eq w a.cfg s0 u t x' hu hf']
    rw [hlast] at hu'
    have hA : hr.histAt (fesStep of t) = h' := by
      unfold FinishedRun.histAt
      rw [hu']
      simp [hh']
    have hbins' : h'.bins = y.bins := by
      obtain ⟨h'', e, hb⟩ := runSteps_bins w a.cfg s0 y hy _ u' hu'
      rw [hh'] at e
      cases e
      exact hb
    rw [hA, ← hkt]
    exact deltaFX_row b.1 h' y states x' (by rw [hkt]; exact hr.constants.2.1) hbins' (by omega) he hs hm
      (by rw [hkt, ← p2]; exact hx')
  · rw [← hkt]
    exact deltaFX_row b.1 h y states x (by rw [hkt]; exact hr.constants.2.1) hbins (by omega) he hs hm
      (by rw [hkt, ← p2]; exact hx)

/-! ### Values stay numbers -/

theorem countsIn_mono {ι : Type} (f g : ι → Nat) (h : ∀ i, f i ≤ g i) : ∀ (l : List ι) (m : List Bool),
    countsIn (l.map f) m ≤ countsIn (l.map g) m
  | [], m => le_refl _
  | i :: l, [] => le_refl _
  | i :: l, b :: m => by
    have ih := countsIn_mono f g h l m
    unfold countsIn at ih ⊢
    simp only [List.map_cons, List.zipWith_cons_cons, List.sum_cons]
    refine Nat.add_le_add ?_ ih
    cases b
    · exact le_refl _
    · exact h i

theorem stateCounts_mono (h g : Histogram ℝ) (hb : g.bins = h.bins) (hd : ∀ idx, h.data idx ≤ g.data idx)
    (s : List (ℝ × ℝ)) : stateCounts h s ≤ stateCounts g s := by
  unfold stateCounts
  rw [hb]
  have e : g.shape = h.shape := by unfold Histogram.shape; rw [hb]
  unfold Histogram.counts Nd.ofFn
  rw [e]
  exact countsIn_mono h.data g.data hd _ _

theorem histRun_mono {F : Type} [LinearOrder F] (c : TrajCfg F) (hc : HistCfg) (hres : hc.reset = []) (t : TrajState F)
    (g g' : Histogram F) (step : Nat) (h : histRun c hc t g step = .ok g') :
    g'.bins = g.bins ∧ ∀ idx, g.data idx ≤ g'.data idx := by
  unfold histRun at h
  by_cases hu : hc.updateStride = 0
  · rw [if_pos hu] at h
    cases h
  · rw [if_neg hu] at h
    simp only [pure_eq_ok, hres, List.not_mem_nil, if_false] at h
    obtain ⟨g1, h1, h2⟩ := bind_ok h
    cases h2
    split at h1
    · unfold addTrajData Histogram.add at h1
      obtain ⟨data, _, h3⟩ := bind_ok h1
      obtain ⟨tmp, _, h4⟩ := bind_ok h3
      cases h4
      exact ⟨rfl, fun idx => Nat.le_add_right _ _⟩
    · cases h1
      exact ⟨rfl, fun idx => le_refl _⟩

theorem thSteps_mono {F : Type} [LinearOrder F] (c : TrajCfg F) (hc : HistCfg) (hres : hc.reset = [])
    (hist : Nat → Snapshot F) (s : TrajState F × Histogram F) (t : Nat) (y : TrajState F × Histogram F)
    (hy : thSteps c hc hist t s = .ok y) : ∀ k y', thSteps c hc hist (t + k) s = .ok y' →
      y'.2.bins = y.2.bins ∧ ∀ idx, y.2.data idx ≤ y'.2.data idx
  | 0, y', h => by
    cases hy.symm.trans h
    exact ⟨rfl, fun _ => le_refl _⟩
  | k + 1, y', h => by
    rw [← Nat.add_assoc] at h
    unfold thSteps at h
    obtain ⟨y1, h1, h2⟩ := bind_ok h
    obtain ⟨b1, d1⟩ := thSteps_mono c hc hres hist s t y hy k y1 h1
    obtain ⟨tr, _, h3⟩ := bind_ok h2
    obtain ⟨g, h4, h5⟩ := bind_ok h3
    cases h5
    obtain ⟨b2, d2⟩ := histRun_mono c hc hres tr y1.2 g _ h4
    exact ⟨b2.trans b1, fun idx => (d1 idx).trans (d2 idx)⟩

/-- Without resets the counts of a state never decrease in a run. -/
theorem main_stateCounts_mono (hr : FinishedRun w file a config n s0) (hops : w.bdOps.Lawful) (o oh : Dict (OptVal ℝ))
    (ho : config.trajectories = some o) (hoh : config.histogram = some oh)
    (hreset : oh.get? "reset" = some .none) (hw : 0 < s0.particles.length) (t t' : Nat) (h : t ≤ t')
    (ht : t' ≤ n) (s : List (ℝ × ℝ)) : stateCounts (hr.histAt t) s ≤ stateCounts (hr.histAt t') s := by
  obtain ⟨tc, hc, out, h0, htc, hW, hx, hh, hh0, hS, hk, hres, _, hl, h0d⟩ := main_hist_setup hr o oh ho hoh hops hw
  obtain ⟨v, hv, _⟩ := bind_ok hr.sim
  have key : ∀ u ≤ n, ∃ y, thSteps tc hc hr.snaps u (TrajState.init tc (hasFilename o) w.emptyTimes w.emptyPositions
      w.emptyMomentum, h0) = .ok (y, hr.histAt u) := by
    intro u hu
    obtain ⟨x, hx'⟩ := runSteps_le w a.cfg s0 n v hv u hu
    obtain ⟨y, g, hy, hg, he⟩ := steps_hist w a.cfg s0 hr.setup.bdSome tc _ htc hx hc out h0 hh hh0 u x hx'
    refine ⟨y, ?_⟩
    unfold FinishedRun.histAt
    rw [hx']
    simp only [hg, Option.getD_some]
    exact he
  obtain ⟨y, hy⟩ := key t (h.trans ht)
  obtain ⟨y', hy'⟩ := key t' ht
  obtain ⟨k, rfl⟩ := Nat.exists_eq_add_of_le h
  obtain ⟨b, d⟩ := thSteps_mono tc hc (hres hreset) _ _ t _ hy k _ hy'
  exact stateCounts_mono _ _ b d s

/-- **C138.** Without resets: as soon as a state and the first one have counts, their free energy difference is a number
in all later steps. -/
theorem deltaFX_stays_finite (hr : FinishedRun w file a config n s0) (hops : w.bdOps.Lawful) (o oh of : Dict (OptVal ℝ))
    (ho : config.trajectories = some o) (hoh : config.histogram = some oh)
    (hreset : oh.get? "reset" = some .none) (hw : 0 < s0.particles.length)
    (states : List (List (ℝ × ℝ))) (t t' : Nat) (h : t ≤ t') (ht : t' ≤ n) (i : Nat) (x : ℝ)
    (hx : (freeEnergyDiffsX a.cfg.ld.kt (hr.histAt (fesStep of t)) states)[i]? = some (.fin x)) :
    ∃ y, (freeEnergyDiffsX a.cfg.ld.kt (hr.histAt (fesStep of t')) states)[i]? = some (.fin y) := by
  have hle : fesStep of t ≤ fesStep of t' ∧ fesStep of t' ≤ n := by
    unfold fesStep
    split
    · exact ⟨le_refl _, Nat.zero_le _⟩
    · exact ⟨Nat.mul_le_mul_right _ (Nat.div_le_div_right h), (Nat.div_mul_le_self _ _).trans ht⟩
  have hm := main_stateCounts_mono hr hops o oh ho hoh hreset hw _ _ hle.1 hle.2
  unfold freeEnergyDiffsX at hx ⊢
  rw [List.getElem?_map] at hx ⊢
  rcases hs : states.tail[i]? with _ | s
  · rw [hs] at hx
    cases hx
  · rw [hs] at hx
    simp only [Option.map_some, Option.some.injEq] at hx ⊢
    unfold freeEnergyDiffX at hx ⊢
    split at hx
    · split at hx <;> cases hx
    · rename_i h1
      split at hx
      · cases hx
      · rename_i h2
        have h3 := hm s
        have h4 := hm (states.headD [])
        rw [if_neg (by omega), if_neg (by omega)]
        exact ⟨_, rfl⟩

/-- Non-vacuity: three states, the second without counts. -/
example : ∃ x : ℝ, (do let fes ← calculateFes ⟨[3], [4, 0, 2]⟩ 1 true
                       calculateDeltaFX fes 1 [[true, false, false], [false, true, false], [false, false, true]]) =
    .ok [.inf false, .fin x] := by
  refine ⟨-1 * Real.log (2 / 4), ?_⟩
  rw [deltaFX_spec ⟨[3], [4, 0, 2]⟩ 1 one_pos _ (by simp) (by simp)]
  simp [countsIn, freeEnergyDiffX]

/-- The first state is empty, too. -/
example : (do let fes ← calculateFes ⟨[3], [0, 0, 2]⟩ 1 true
              calculateDeltaFX fes 1 [[true, false, false], [false, true, false], [false, false, true]]) =
    .ok [.nan, .inf true] := by
  rw [deltaFX_spec ⟨[3], [0, 0, 2]⟩ 1 one_pos _ (by simp) (by simp)]
  simp [countsIn, freeEnergyDiffX]

end Bdld
