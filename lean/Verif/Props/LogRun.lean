import Verif.Props.Faults
import Verif.Props.MainPlots
import Verif.Props.MainFiles

/-
C135: the log of a run that comes to its end, and the records that are shown.
-/

namespace Bdld
open Spec

/-! ### Levels -/

/-- Errors are shown unless the level is "critical" (in capital or small letters). Unknown names of levels give the
standard level. -/
theorem error_shown (level text : String) :
    shown level [errorRecord text] = [errorRecord text] ↔ String.ofList (level.toList.map Char.toLower) ≠ "critical" := by
  have h : (rootLevel level ≤ levelError) ↔ String.ofList (level.toList.map Char.toLower) ≠ "critical" := by
    unfold rootLevel levelOf
    generalize String.ofList (level.toList.map Char.toLower) = s
    simp only [List.lookup]
    split <;> rename_i h1
    · rw [beq_iff_eq] at h1
      simp [h1, levelCritical, levelError]
    · have h1' : s ≠ "critical" := by simpa using h1
      refine iff_of_true ?_ h1'
      repeat' split
      all_goals simp [levelError, levelWarning, levelInfo, levelDebug]
  rw [← h]
  by_cases hl : rootLevel level ≤ levelError <;> simp [shown, errorRecord, hl]

theorem shown_levels (l : List LogRecord) :
    shown "error" l = l.filter (fun r => decide (levelError ≤ r.level)) ∧
    shown "warning" l = l.filter (fun r => decide (levelWarning ≤ r.level)) ∧
    shown "INFO" l = l.filter (fun r => decide (levelInfo ≤ r.level)) ∧
    shown "nonsense" l = shown "warning" l := by
  have h1 : rootLevel "error" = levelError := by decide +kernel
  have h2 : rootLevel "warning" = levelWarning := by decide +kernel
  have h3 : rootLevel "INFO" = levelInfo := by decide +kernel
  have h4 : rootLevel "nonsense" = levelWarning := by decide +kernel
  simp only [shown, h1, h2, h3, h4, and_self]

section
variable {R : Type} (detail : String → String → String) (infile : String) (w : World R)

/-- The program exits with code 1 exactly if it logs an error. -/
theorem exit_iff_error (file : Option (List Section)) :
    mainProgram w file = .exit1 ↔ ∃ l, mainLog detail infile w file = some l ∧ ∃ r ∈ l, levelError ≤ r.level := by
  have hw : ∀ {d : Nat} (c : SimCfg d) (n : Nat), ¬ ∃ r ∈ fesWarning c ++ resetInfo c n, levelError ≤ r.level := by
    rintro d c n ⟨r, hr, hl⟩
    rcases List.mem_append.1 hr with hr | hr
    · unfold fesWarning at hr
      split at hr
      · split at hr
        · rw [List.mem_singleton.1 hr] at hl
          exact absurd hl (by decide)
        · cases hr
      · cases hr
    · unfold resetInfo at hr
      split at hr
      · obtain ⟨t, _, ht⟩ := List.mem_filterMap.1 hr
        split at ht
        · cases ht
          exact absurd (show levelError ≤ levelInfo from hl) (by decide)
        · cases ht
      · cases hr
  have he : ∀ text, ∃ l, some [errorRecord text] = some l ∧ ∃ r ∈ l, levelError ≤ r.level :=
    fun text => ⟨_, rfl, _, List.mem_singleton_self _, le_refl _⟩
  have hn : ∀ e : PyErr, (Outcome.uncaught e : Outcome (AnySim R)) = .exit1 ↔
      ∃ l, (none : Option (List LogRecord)) = some l ∧ ∃ r ∈ l, levelError ≤ r.level := by simp
  unfold mainProgram mainLog mainFrom
  rcases hp : parseAll 1 w.conv file with e | config
  · by_cases hc : caughtInput e
    · simp only [raise, hc, if_true, he]
    · simp only [raise, hc, if_false, Bool.false_eq_true, hn]
  rcases hr : setupRequired w config with e | r
  · simp only [hr, hn]
  rcases hx : setupOptional w config r.cfg r.sim with e | x
  · by_cases hc : caughtSetup e
    · simp only [hr, hx, raise, hc, if_true, he]
    · simp only [hr, hx, raise, hc, if_false, Bool.false_eq_true, hn]
  rcases hs : (config.ld.getItem "n_steps").bind OptVal.asInt with e | n
  · simp only [hr, hx, hs, hn]
  rcases hm : simulate w x.1 n.toNat x.2 with e | s
  · simp only [hr, hx, hs, hm, hn]
  simp only [hr, hx, hs, hm, Option.some.injEq, reduceCtorEq, false_iff]
  rintro ⟨l, rfl, h⟩
  exact hw _ _ h

end

section
variable {R : Type} {w : World R} {file : Option (List Section)} {a : AnySim R} {config : Input ℝ} {n : Nat}
  {s0 : Sim a.d R} (detail : String → String → String) (infile : String)

theorem run_log (hr : FinishedRun w file a config n s0) (h : mainProgram w file = .finished a) :
    mainLog detail infile w file = some (fesWarning a.cfg ++ resetInfo a.cfg n) := by
  obtain ⟨config', n', hp, hn, e⟩ := finished_log detail infile w file a h
  rw [hr.parse] at hp
  cases hp
  rw [hr.steps] at hn
  cases hn
  exact e

/-- There is a warning exactly if the FES has a stride that is no multiple of the write stride of the trajectories. -/
theorem warning_iff (hr : FinishedRun w file a config n s0) (h : mainProgram w file = .finished a) (o oh of : Dict (OptVal ℝ))
    (ho : config.trajectories = some o) (hoh : config.histogram = some oh) (hof : config.fes = some of) :
    (∃ l, mainLog detail infile w file = some l ∧ ∃ r ∈ l, r.level = levelWarning) ↔
      natOption of "stride" 0 ≠ 0 ∧ ¬ natOption o "write-stride" 100 ∣ natOption of "stride" 0 := by
  rw [run_log detail infile hr h]
  have hvo := (input_valid 1 one_pos file config hr.parse).fes of hof
  obtain ⟨_, _, _, _, _, _, _, h3, h4, _⟩ := setupOptional_parts w config _ _ _ _ rfl rfl hr.optional
  rw [hoh] at h3
  rw [hof] at h4
  obtain ⟨t, b, ht, hb, hb1, _⟩ := h3
  obtain ⟨y, f, _, hf, hf1, _⟩ := h4
  obtain ⟨h1, _⟩ := main_traj_setup hr o ho
  rw [h1] at ht
  cases ht
  have hu := (setupHistogram_inv _ _ _ hb).2.1
  obtain ⟨v, g, e⟩ := bind_ok (setupFes_parts w of _ y f hf).stride
  have hs := (strideOption of "stride" v f.1.stride 0 hvo.toValidOutput.stride g e).1
  have hS : (truthyNat f.1.stride = true ↔ natOption of "stride" 0 ≠ 0) ∧ f.1.stride.getD 0 = natOption of "stride" 0 := by
    rw [← hs]
    rcases f.1.stride with _ | _ | k <;> simp [truthyNat, pyOrNat]
  have hinfo : ∀ r ∈ resetInfo a.cfg n, r.level ≠ levelWarning := by
    intro r hr
    unfold resetInfo at hr
    rw [hb1] at hr
    obtain ⟨t, _, ht⟩ := List.mem_filterMap.1 hr
    split at ht
    · cases ht
      exact show levelInfo ≠ levelWarning by decide
    · cases ht
  have key : (∃ r ∈ fesWarning a.cfg, r.level = levelWarning) ↔
      natOption of "stride" 0 ≠ 0 ∧ ¬ natOption o "write-stride" 100 ∣ natOption of "stride" 0 := by
    rw [← hS.1, Nat.dvd_iff_mod_eq_zero, ← hS.2]
    unfold fesWarning
    simp only [hb1, hf1, hu, Bool.and_eq_true, bne_iff_ne, ne_eq]
    split <;> rename_i hif
    · simpa using hif
    · simpa using hif
  rw [← key]
  constructor
  · rintro ⟨l, hl, r, hr, hw⟩
    cases hl
    rcases List.mem_append.1 hr with hr | hr
    · exact ⟨r, hr, hw⟩
    · exact absurd hw (hinfo r hr)
  · rintro ⟨r, hr, hw⟩
    exact ⟨_, rfl, r, List.mem_append_left _ hr, hw⟩

/-- Runs without FES have no warnings. -/
theorem no_warning (hr : FinishedRun w file a config n s0) (h : mainProgram w file = .finished a) (hof : config.fes = none) :
    ∃ l, mainLog detail infile w file = some l ∧ ∀ r ∈ l, r.level = levelInfo := by
  refine ⟨_, run_log detail infile hr h, ?_⟩
  obtain ⟨_, _, _, _, _, _, _, h3, h4, _⟩ := setupOptional_parts w config _ _ _ _ rfl rfl hr.optional
  rw [hof] at h4
  intro r hr
  rcases List.mem_append.1 hr with hr | hr
  · simp only [fesWarning, h4.1] at hr
    cases hr
  · unfold resetInfo at hr
    split at hr
    · obtain ⟨t, _, ht⟩ := List.mem_filterMap.1 hr
      split at ht
      · cases ht
        rfl
      · cases ht
    · cases hr

/-- Last step whose positions are in the histogram from which the FES at step `t` has been calculated: the last multiple of
the write stride of the trajectories `o` up to the last multiple of the stride of the FES `of`. -/
def Spec.fesData (o of : Dict (OptVal ℝ)) (t : Nat) : Nat :=
  fesStep of t / natOption o "write-stride" 100 * natOption o "write-stride" 100

/-- Meaning of the warning for a run that is at least as long as the FES stride: without it, and only then, the FES is
always calculated from a histogram that contains all steps up to that moment. -/
theorem warning_meaning (hr : FinishedRun w file a config n s0) (h : mainProgram w file = .finished a)
    (hops : w.bdOps.Lawful) (o oh of : Dict (OptVal ℝ))
    (ho : config.trajectories = some o) (hoh : config.histogram = some oh) (hof : config.fes = some of)
    (hreset : oh.get? "reset" = some .none) (hw : 0 < s0.particles.length)
    (hd : hasFilename o = true ∨ natOption oh "stride" 1 ∣ natOption o "write-stride" 100)
    (hS : 0 < natOption of "stride" 0) (hn : natOption of "stride" 0 ≤ n) :
    (∀ t ≤ n, ∃ h0, ∃ h' : Histogram ℝ, s0.hist = some h0 ∧ h'.bins = h0.bins ∧
        s0.fesAt w a.cfg t = h'.counts.map (freeEnergy a.cfg.ld.kt (maxCount h'.counts.flat)) ∧
        ∀ idx, h'.data idx = countInBin h0.bins idx [List.replicate a.d 0] +
          countInBin h0.bins idx (positionsAt hr.snaps (sampledSteps (natOption oh "stride" 1) 0 (fesData o of t)))) ∧
      ((¬ ∃ l, mainLog detail infile w file = some l ∧ ∃ r ∈ l, r.level = levelWarning) ↔
        ∀ t, 0 < t → t ≤ n → natOption of "stride" 0 ∣ t → fesData o of t = t) := by
  have hstep : ∀ t, fesStep of t = t / natOption of "stride" 0 * natOption of "stride" 0 := by
    intro t
    unfold fesStep
    split
    · omega
    · rfl
  refine ⟨fun t ht => ?_, ?_⟩
  · have hle : fesStep of t ≤ n := by
      rw [hstep]
      exact (Nat.div_mul_le_self _ _).trans ht
    obtain ⟨h0, e1, e2, e3⟩ := main_histAt hr hops o oh ho hoh hreset hw hd (fesStep of t) hle
    exact ⟨h0, hr.histAt (fesStep of t), e1, e2, (main_fesAt hr of hof h0 e1 t ht).2, e3⟩
  · rw [warning_iff detail infile hr h o oh of ho hoh hof]
    constructor
    · intro hno t _ _ hdvd
      have : natOption o "write-stride" 100 ∣ natOption of "stride" 0 := by
        by_contra hc
        exact hno ⟨hS.ne', hc⟩
      rw [fesData, hstep, Nat.div_mul_cancel hdvd, Nat.div_mul_cancel (this.trans hdvd)]
    · rintro hall ⟨_, hc⟩
      have := hall _ hS hn (dvd_refl _)
      rw [fesData, hstep, Nat.div_mul_cancel (dvd_refl _)] at this
      exact hc (Dvd.intro_left _ this)

/-- The other records of the log announce the resets of the histogram: one for each step of the option `reset` that is
reached, in order of time. After these steps the histogram is empty. -/
theorem log_resets (hr : FinishedRun w file a config n s0) (h : mainProgram w file = .finished a)
    (o oh : Dict (OptVal ℝ)) (ho : config.trajectories = some o) (hoh : config.histogram = some oh)
    (reset : List Int) (hreset : oh.get? "reset" = some (.list (reset.map .int))) :
    ∃ l, ∃ steps : List Nat, mainLog detail infile w file = some l ∧
      (l.filter (fun r => decide (r.level = levelInfo))).map LogRecord.text =
        steps.map (fun t => "Reset of histogram at step " ++ Nat.repr t) ∧
      steps.Pairwise (· < ·) ∧ (∀ t : Nat, t ∈ steps ↔ 0 < t ∧ t ≤ n ∧ (t : Int) ∈ reset) ∧
      ∀ t ∈ steps, ∀ idx, (hr.histAt t).data idx = 0 := by
  have hv := (input_valid 1 one_pos file config hr.parse).histogram oh hoh
  obtain ⟨hc, out, _, y, e1, _, _, e4⟩ := main_histogram_files hr o oh ho hoh
  obtain ⟨_, _, _, _, _, _, _, h3, h4, _⟩ := setupOptional_parts w config _ _ _ _ rfl rfl hr.optional
  rw [hoh] at h3
  obtain ⟨t, b, ht, hb, hb1, _⟩ := h3
  rw [hb1] at e1
  cases e1
  have hres := (setupHistogram_options _ _ _ hv.toValidOutput hb).2.2 reset hreset
  set steps := ((List.range n).map (· + 1)).filter (fun t => decide (t ∈ b.1.reset)) with hsteps
  have hmem : ∀ t : Nat, t ∈ steps ↔ 0 < t ∧ t ≤ n ∧ t ∈ b.1.reset := by
    intro t
    simp only [hsteps, List.mem_filter, List.mem_map, List.mem_range, decide_eq_true_eq]
    constructor
    · rintro ⟨⟨k, hk, rfl⟩, hm⟩
      exact ⟨by omega, by omega, hm⟩
    · rintro ⟨h1, h2, hm⟩
      exact ⟨⟨t - 1, by omega, by omega⟩, hm⟩
  have hinfo : resetInfo a.cfg n =
      steps.map (fun t => ⟨levelInfo, "root", "Reset of histogram at step " ++ Nat.repr t⟩) := by
    unfold resetInfo
    rw [hb1, hsteps]
    dsimp only
    generalize (List.range n).map (· + 1) = ts
    induction ts with
    | nil => rfl
    | cons t ts ih => by_cases ht : t ∈ b.1.reset <;> simp [ht, ih]
  have hwarn : (fesWarning a.cfg).filter (fun r => decide (r.level = levelInfo)) = [] := by
    unfold fesWarning
    split
    · split
      · rfl
      · rfl
    · rfl
  refine ⟨_, steps, run_log detail infile hr h, ?_, ?_, ?_, ?_⟩
  · rw [List.filter_append, hwarn, hinfo, List.nil_append, List.filter_eq_self.2, List.map_map]
    · rfl
    · intro r hr
      obtain ⟨t, _, rfl⟩ := List.mem_map.1 hr
      rfl
  · refine List.Pairwise.filter _ (List.pairwise_map.2 ?_)
    exact List.pairwise_lt_range.imp (by omega)
  · intro t
    rw [hmem, hres]
    refine and_congr_right fun h0 => and_congr_right fun _ => ?_
    rw [List.mem_map]
    constructor
    · rintro ⟨i, hi, rfl⟩
      rwa [Int.toNat_of_nonneg (by omega)]
    · intro hi
      exact ⟨t, hi, Int.toNat_natCast t⟩
  · intro t ht idx
    obtain ⟨h1, h2, h3⟩ := (hmem t).1 ht
    rw [e4 t h1 h2, if_pos h3]
    rfl

/-- Without warning and resets nothing is logged. -/
theorem log_empty (hr : FinishedRun w file a config n s0) (h : mainProgram w file = .finished a) (oh : Dict (OptVal ℝ))
    (hoh : config.histogram = some oh) (hreset : oh.get? "reset" = some .none)
    (hno : ¬ ∃ l, mainLog detail infile w file = some l ∧ ∃ r ∈ l, r.level = levelWarning) :
    mainLog detail infile w file = some [] := by
  have hv := (input_valid 1 one_pos file config hr.parse).histogram oh hoh
  obtain ⟨_, _, _, _, _, _, _, h3, _⟩ := setupOptional_parts w config _ _ _ _ rfl rfl hr.optional
  rw [hoh] at h3
  obtain ⟨t, b, ht, hb, hb1, _⟩ := h3
  have hres := (setupHistogram_options _ _ _ hv.toValidOutput hb).2.1 hreset
  have e := run_log detail infile hr h
  have e1 : resetInfo a.cfg n = [] := by
    unfold resetInfo
    rw [hb1]
    simp [hres]
  rw [e1, List.append_nil] at e
  have e2 : fesWarning a.cfg = [] := by
    by_contra hne
    refine hno ⟨_, e, ?_⟩
    unfold fesWarning at hne ⊢
    split at hne
    · split at hne
      · rename_i hif
        rw [if_pos hif]
        exact ⟨_, List.mem_singleton_self _, rfl⟩
      · exact absurd rfl hne
    · exact absurd rfl hne
  rw [e, e2]

end

end Bdld
