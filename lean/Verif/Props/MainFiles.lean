import Verif.Props.MainAnalysis

/-
Cases in which histogram and time series at the end of the whole program are as specified.
-/

namespace Bdld

open Spec

variable {R : Type} {w : World R} {file : Option (List Section)} {a : AnySim R} {config : Input ℝ} {n : Nat}
  {s0 : Sim a.d R}

/-- A finished run is a finished run of the program. -/
theorem FinishedRun.finished (hr : FinishedRun w file a config n s0) : mainProgram w file = .finished a := by
  have hn : (config.ld.getItem "n_steps").bind OptVal.asInt = .ok n := by
    rw [Dict.getItem, hr.steps]
    rfl
  simp only [mainProgram, hr.parse, mainFrom, hr.required, hr.optional, hn, Int.toNat_natCast, hr.sim]

/-! ### Histogram -/

namespace Spec

/-- C82 as specified: every bin holds the number of walker positions at the multiples of the stride. -/
def HistogramExact (path : Nat → List (List ℝ)) (h : Histogram ℝ) (stride n : Nat) : Prop :=
  ∀ idx, h.data idx = countInBin h.bins idx ((sampledSteps stride 0 n).flatMap path)

/-- The positions of the walkers. -/
def positionsOf {d : Nat} (ps : List (LdParticle ℝ d)) : List (List ℝ) := ps.map (fun p => List.ofFn p.pos)

end Spec

theorem relativeBlocks (k W m : Nat) (hk : k ∣ W) :
    (List.range m).flatMap (fun b => relativeSteps k (b * W) ((b + 1) * W)) = sampledSteps k 0 (m * W) := by
  induction m with
  | zero => simp
  | succ m ih =>
    rw [List.range_succ, List.flatMap_append, ih]
    simp only [List.flatMap_cons, List.flatMap_nil, List.append_nil]
    rw [relativeSteps_eq _ _ _ (Dvd.dvd.mul_left hk m),
      sampledSteps_append _ (Nat.zero_le _) (Nat.mul_le_mul_right _ (by omega))]

/-- C82, the case in which it is true: no trajectory files, a histogram stride that divides the write stride of the
trajectories, a number of steps that is not a multiple of that write stride, and the origin in none of the bins. -/
theorem main_histogram_partial (hr : FinishedRun w file a config n s0) (hops : w.bdOps.Lawful) (o oh : Dict (OptVal ℝ))
    (ho : config.trajectories = some o) (hoh : config.histogram = some oh)
    (hreset : oh.get? "reset" = some .none) (hw : 0 < s0.particles.length) (hf : hasFilename o = false)
    (hd : natOption oh "stride" 1 ∣ natOption o "write-stride" 100) (hn : ¬ natOption o "write-stride" 100 ∣ n) : ∃ h,
      a.sim.hist = some h ∧ ((∀ idx, countInBin h.bins idx [List.replicate a.d 0] = 0) →
        HistogramExact (fun t => positionsOf (hr.path t)) h (natOption oh "stride" 1) n) := by
  obtain ⟨h, h1, h2, h3⟩ := main_histogram hr hops o oh ho hoh hreset hw
  refine ⟨h, h1, fun h0 idx => ?_⟩
  rw [h3, h0, Nat.zero_add, hf, if_neg (by simp), if_neg hn, relativeBlocks _ _ _ hd,
    relativeSteps_eq _ _ _ (Dvd.dvd.mul_left hd _), sampledSteps_append _ (Nat.zero_le _) (Nat.div_mul_le_self _ _)]
  rfl

/-- The histogram during the run: after step `t` it holds the positions at the multiples of its stride up to the last
multiple of the write stride of the trajectories, if these are written to files or the write stride is a multiple of
the stride of the histogram; and the origin once. -/
theorem main_histAt (hr : FinishedRun w file a config n s0) (hops : w.bdOps.Lawful) (o oh : Dict (OptVal ℝ))
    (ho : config.trajectories = some o) (hoh : config.histogram = some oh)
    (hreset : oh.get? "reset" = some .none) (hw : 0 < s0.particles.length)
    (hd : hasFilename o = true ∨ natOption oh "stride" 1 ∣ natOption o "write-stride" 100) (t : Nat) (ht : t ≤ n) :
    ∃ h0, s0.hist = some h0 ∧ (hr.histAt t).bins = h0.bins ∧ ∀ idx, (hr.histAt t).data idx =
      countInBin h0.bins idx [List.replicate a.d 0] + countInBin h0.bins idx (positionsAt hr.snaps
        (sampledSteps (natOption oh "stride" 1) 0
          (t / natOption o "write-stride" 100 * natOption o "write-stride" 100))) := by
  obtain ⟨tc, hc, out, h0, htc, hW, hx, hh, hh0, hS, hk, hres, _, hl, h0d⟩ := main_hist_setup hr o oh ho hoh hops hw
  obtain ⟨v, hv, _⟩ := bind_ok hr.sim
  obtain ⟨u, hu⟩ := runSteps_le w a.cfg s0 n v hv t ht
  obtain ⟨y, g, hy, hg, he⟩ := steps_hist w a.cfg s0 hr.setup.bdSome tc _ htc hx hc out h0 hh hh0 t u hu
  obtain ⟨t', h', e', hH⟩ := histogram_during_partial tc hc hr.snaps w.emptyTimes w.emptyPositions w.emptyMomentum h0 hS
    (hasFilename o) t (hres hreset) (by rw [hk, hW]; exact hd)
  have := Except.ok.inj (he.symm.trans e')
  cases this
  have hA : hr.histAt t = g := by
    unfold FinishedRun.histAt
    rw [hu]
    simp [hg]
  rw [hk, hW] at hH
  rw [hA]
  exact ⟨h0, hh0, hH.1, fun idx => by rw [hH.2, h0d]⟩

/-! ### Time series -/

namespace Spec

/-- The file of a time series as specified: a row per multiple of the stride, or one row at the end. -/
def seriesExact (o : Dict (OptVal ℝ)) (n : Nat) (rows : Nat → List ℝ) (rowEnd : List ℝ) : List (List ℝ) :=
  if hasFilename o then
    if seriesStride o = 0 then [rowEnd] else (sampledSteps (seriesStride o) 0 n).map rows
  else []

end Spec

theorem seriesFile_exact (o : Dict (OptVal ℝ)) (n : Nat) (rows : Nat → List ℝ) (rowEnd : List ℝ)
    (garbage : Nat → List ℝ) (h : ¬ emptyLastWrite o n) :
    seriesFile o n rows rowEnd garbage = seriesExact o n rows rowEnd := by
  unfold seriesFile seriesExact
  rw [if_neg h, List.append_nil]

/-- C84, the case in which it is true: the last write is not empty. -/
theorem main_distribution_partial (hr : FinishedRun w file a config n s0) (hops : w.bdOps.Lawful) (o : Dict (OptVal ℝ))
    (ho : config.particleDistribution = some o) (states : List (List (ℝ × ℝ))) (hst : stateRanges o = .ok states)
    (hd : ∀ s ∈ states, s.length = a.d) (hw : 0 < s0.particles.length) (hl : ¬ emptyLastWrite o n) :
    ∃ x, a.sim.dist = some x ∧
      x.file = seriesExact o n (fun t => (t : ℝ) :: walkersIn states (hr.path t))
        ((n : ℝ) :: walkersIn states (hr.path n)) := by
  obtain ⟨x, h1, h2⟩ := main_distribution hr hops o ho states hst hd hw
  exact ⟨x, h1, by rw [h2, seriesFile_exact _ _ _ _ _ hl]⟩

/-- C83, the case in which it is true: the last write is not empty. -/
theorem main_deltaF_partial (hr : FinishedRun w file a config n s0) (o of : Dict (OptVal ℝ))
    (ho : config.deltaF = some o) (hof : config.fes = some of) (states : List (List (ℝ × ℝ)))
    (hst : stateRanges o = .ok states) (hs : ∀ s ∈ states, s.length = 1) (hl : ¬ emptyLastWrite o n) :
    ∃ x h, a.sim.deltaF = some x ∧ a.sim.hist = some h ∧
      ((∀ t, 0 < t → t ≤ n → seriesStride o ∣ t → ∀ s ∈ states, stateCounts (hr.histAt (fesStep of t)) s ≠ 0) →
        (∀ s ∈ states, stateCounts h s ≠ 0) →
        x.file = seriesExact o n
          (fun t => ((t : ℝ) * a.cfg.ld.dt) :: freeEnergyDiffs a.cfg.ld.kt (hr.histAt (fesStep of t)) states)
          (((n : ℝ) * a.cfg.ld.dt) :: freeEnergyDiffs a.cfg.ld.kt h states)) := by
  obtain ⟨x, h, h1, h2, h3⟩ := main_deltaF hr o of ho hof states hst hs
  exact ⟨x, h, h1, h2, fun p q => by rw [h3 p q, seriesFile_exact _ _ _ _ _ hl]⟩

end Bdld
