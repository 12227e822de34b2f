import Verif.Props.ConsoleMessages
import Verif.Props.MainPlots

/-
C137: the warnings about strides are printed exactly for runs with data that do not belong to the current step.
-/

set_option linter.unusedSectionVars false

namespace Bdld

open Spec

variable {R : Type} {w : World R} {file : Option (List Section)} {a : AnySim R} {config : Input ℝ} {n : Nat} {s0 : Sim a.d R}

/-! ### Where there are warnings -/

/-- The text does not begin like a warning. -/
def Calm (t : String) : Prop := first5 t ≠ "Warni".toList

instance (t : String) : Decidable (Calm t) := by unfold Calm; infer_instance

theorem Calm.append {x : String} (y : String) (h : Calm x) (h5 : 5 ≤ x.toList.length) : Calm (x ++ y) := by
  unfold Calm
  rw [first5_append x y h5]
  exact h

/-- The text begins with a literal that is no warning. -/
macro "calm" : tactic =>
  `(tactic| (first | decide | ((try simp only [String.append_assoc]); exact Calm.append _ (by decide) (by decide))))

theorem calm_seedLines (i : Int) : ∀ t ∈ seedLines i, Calm t := by
  unfold seedLines
  split
  · simp
  · simp only [List.mem_singleton, forall_eq]
    calm

theorem calm_ldLines {d : Nat} (sh : Shows) (text : String) (k : LdKind) (ld : LdCfg ℝ d) (o : Dict (OptVal ℝ)) :
    ∀ t ∈ ldLines sh text k ld o, Calm t := by
  unfold ldLines
  simp only [List.forall_mem_append, List.mem_singleton, forall_eq]
  refine ⟨⟨?_, calm_seedLines _⟩, by decide⟩
  cases k
  all_goals
    simp only [List.mem_singleton, forall_eq]
    calm

theorem calm_particleLines (sh : Shows) (o : Dict (OptVal ℝ)) : ∀ t ∈ particleLines sh o, Calm t := by
  unfold particleLines
  simp only [List.forall_mem_cons, List.not_mem_nil, false_implies, implies_true, and_true]
  refine ⟨by calm, ?_, by decide⟩
  split
  · decide
  split <;> decide

theorem calm_birthDeathLines {d : Nat} (sh : Shows) (ld : LdCfg ℝ d) (o : Dict (OptVal ℝ)) :
    ∀ t ∈ birthDeathLines sh ld o, Calm t := by
  unfold birthDeathLines
  simp only [List.forall_mem_append, List.forall_mem_cons, List.not_mem_nil, false_implies, implies_true, and_true]
  refine ⟨⟨⟨by calm, ?_⟩, ?_⟩, ?_, by decide⟩
  · split
    · simp
    · exact calm_seedLines _
  · split
    · simp only [List.mem_singleton, forall_eq]
      decide
    · simp
  · cases variantOf o <;> decide

theorem calm_trajectoryLines (o : Dict (OptVal ℝ)) : ∀ t ∈ trajectoryLines o, Calm t := by
  unfold trajectoryLines
  simp only [List.forall_mem_append, List.mem_singleton, forall_eq]
  refine ⟨⟨by decide, ?_⟩, by decide⟩
  split
  · simp only [List.mem_singleton, forall_eq]
    split <;> calm
  · simp

theorem calm_histogramLines (sh : Shows) (o : Dict (OptVal ℝ)) : ∀ t ∈ histogramLines sh o, Calm t := by
  unfold histogramLines
  simp only [List.forall_mem_append, List.forall_mem_cons, List.not_mem_nil, false_implies, implies_true, and_true]
  refine ⟨⟨⟨by calm, by calm⟩, ?_⟩, by decide⟩
  split
  · simp
  · simp only [List.mem_singleton, forall_eq]
    calm

theorem calm_seriesLines (what : String) (o : Dict (OptVal ℝ)) : ∀ t ∈ seriesLines what o, Calm t := by
  unfold seriesLines
  split
  · simp only [List.mem_singleton, forall_eq]
    split <;> calm
  · simp

theorem calm_distributionLines (o : Dict (OptVal ℝ)) : ∀ t ∈ distributionLines o, Calm t := by
  unfold distributionLines
  simp only [List.forall_mem_append, List.mem_singleton, forall_eq]
  exact ⟨⟨by decide, calm_seriesLines _ _⟩, by decide⟩

theorem calm_statsLines (sh : Shows) (o : Dict (OptVal ℝ)) (t : Nat) (c : BdStats) : ∀ u ∈ statsLines sh o t c, Calm u := by
  unfold statsLines
  split
  · simp only [List.forall_mem_cons, List.not_mem_nil, false_implies, implies_true, and_true]
    exact ⟨by calm, by calm, by calm, by calm, by decide⟩
  · simp

theorem calm_ifGiven (f : Dict (OptVal ℝ) → List String) (h : ∀ o, ∀ t ∈ f o, Calm t) (x : Option (Dict (OptVal ℝ))) :
    ∀ t ∈ ifGiven f x, Calm t := by
  cases x with
  | none => intro t ht; cases ht
  | some o => exact h o

/-- Warnings are only printed by the set-up of `[fes]` and `[delta-f]`. -/
theorem warning_mem {d : Nat} (sh : Shows) (text : String) (config : Input ℝ) (c : SimCfg d) (n : Nat)
    (counters : Nat → BdStats) (t : String) (ht : ¬ Calm t) : t ∈ screen sh text config c n counters ↔
      t ∈ ifGiven (fesLines sh c.ld.kt) config.fes ∨ t ∈ ifGiven (deltaFLines (config.fes.getD [])) config.deltaF := by
  have hno : ∀ l : List String, (∀ u ∈ l, Calm u) → (t ∈ l ↔ False) := fun l hl => ⟨fun h => ht (hl t h), False.elim⟩
  unfold screen setupLines
  simp only [List.mem_append]
  rw [hno ["Starting bdld code v0.3.2\n\n"] (by decide), hno _ (calm_ldLines sh text c.kind c.ld config.ld),
    hno _ (calm_particleLines sh config.particles),
    hno _ (calm_ifGiven _ (calm_birthDeathLines sh c.ld) config.birthDeath),
    hno _ (calm_ifGiven _ calm_trajectoryLines config.trajectories),
    hno _ (calm_ifGiven _ (calm_histogramLines sh) config.histogram),
    hno _ (calm_ifGiven _ calm_distributionLines config.particleDistribution),
    hno ["Setup finished, now running for " ++ Nat.repr n ++ " steps"] (by
      simp only [List.mem_singleton, forall_eq]
      calm),
    hno _ (calm_ifGiven _ (fun o u hu => by
      unfold runLines at hu
      split at hu
      · cases hu
      · obtain ⟨k, _, hk⟩ := List.mem_flatMap.1 hu
        exact calm_statsLines sh o k _ u hk) config.birthDeath),
    hno ["Simulation finished, performing final actions"] (by decide),
    hno (ifGiven (finalLines sh n counters) config.birthDeath) (calm_ifGiven _ (fun o u hu => by
      unfold finalLines at hu
      split at hu
      · exact calm_statsLines sh o _ _ u hu
      · cases hu) config.birthDeath),
    hno ["Finished without errors"] (by decide)]
  simp only [false_or, or_false]

theorem mem_fesLines (sh : Shows) (kt : ℝ) (o : Dict (OptVal ℝ)) (t : String) (ht : ¬ Calm t) :
    t ∈ fesLines sh kt o ↔
      (natOption o "write-stride" 0 ≠ 0 ∧ ¬ natOption o "stride" 0 ∣ natOption o "write-stride" 0 ∧
        t = "Warning: the write stride is no multiple of the update stride.") ∨
      (intOption o "plot-stride" ≠ 0 ∧ ¬ (natOption o "stride" 0 : Int) ∣ intOption o "plot-stride" ∧
        t = "Warning: the plot stride is no multiple of the update stride.") := by
  have hno : ∀ l : List String, (∀ u ∈ l, Calm u) → (t ∈ l ↔ False) := fun l hl => ⟨fun h => ht (hl t h), False.elim⟩
  unfold fesLines
  simp only [List.mem_append]
  rw [hno ["Setting up FES calculation for the histogram\nParameters:", "  kt = " ++ sh.float kt] (by
      simp only [List.forall_mem_cons, List.not_mem_nil, false_implies, implies_true, and_true]
      exact ⟨by decide, by calm⟩), hno (if natOption o "stride" 0 = 0 then [] else _) (by
      split
      · simp
      · simp only [List.mem_singleton, forall_eq]
        calm), hno [""] (by decide)]
  simp only [false_or, or_false]
  refine or_congr ?_ ?_
  · by_cases h0 : natOption o "write-stride" 0 = 0
    · simp [h0]
    · rw [if_neg h0, List.mem_append, hno ["Saving FES every " ++ _ ++ _ ++ _ ++ _] (by
        simp only [List.mem_singleton, forall_eq]
        calm)]
      by_cases h1 : natOption o "stride" 0 ∣ natOption o "write-stride" 0
      · simp [h1]
      · simp [h0, h1]
  · by_cases h0 : intOption o "plot-stride" = 0
    · simp [h0]
    · rw [if_neg h0, List.mem_append, hno ["Plotting every " ++ _ ++ _ ++ _ ++ _] (by
        simp only [List.mem_singleton, forall_eq]
        calm)]
      by_cases h1 : (natOption o "stride" 0 : Int) ∣ intOption o "plot-stride"
      · simp [h1]
      · simp [h0, h1]

theorem mem_deltaFLines (fes o : Dict (OptVal ℝ)) (t : String) (ht : ¬ Calm t) :
    t ∈ deltaFLines fes o ↔ (natOption o "stride" 0 ≠ 0 ∧
        ¬ (natOption fes "stride" 0 ≠ 0 ∧ natOption fes "stride" 0 ∣ natOption o "stride" 0) ∧
        t = "Warning: the DeltaF stride is no multiple of the FES stride.") := by
  have hno : ∀ l : List String, (∀ u ∈ l, Calm u) → (t ∈ l ↔ False) := fun l hl => ⟨fun h => ht (hl t h), False.elim⟩
  unfold deltaFLines
  simp only [List.mem_append]
  rw [hno ["Setting up delta-f action"] (by decide), hno _ (calm_seriesLines _ o), hno [""] (by decide)]
  simp only [false_or, or_false]
  by_cases h0 : natOption o "stride" 0 = 0
  · simp [h0]
  · by_cases h1 : natOption fes "stride" 0 ≠ 0 ∧ natOption fes "stride" 0 ∣ natOption o "stride" 0
    · rw [if_pos (Or.inr h1)]
      simp [h1]
    · rw [if_neg (fun h => h.elim h0 h1)]
      simp only [List.mem_singleton]
      exact ⟨fun h => ⟨h0, h1, h⟩, fun h => h.2.2⟩

/-! ### Meaning -/

theorem fesStep_eq (of : Dict (OptVal ℝ)) (t : Nat) : fesStep of t =
    if natOption of "stride" 0 = 0 then 0 else t / natOption of "stride" 0 * natOption of "stride" 0 := by
  unfold fesStep
  split
  · rename_i h
    rw [if_pos h]
  · rename_i h
    rw [if_neg h]

/-- The FES is new at all multiples of `k` exactly if `k` is a multiple of its stride. -/
theorem fesStep_multiples (of : Dict (OptVal ℝ)) (k n : Nat) (hk : k ≠ 0) (hn : k ≤ n) :
    (∃ t, 0 < t ∧ t ≤ n ∧ k ∣ t ∧ fesStep of t ≠ t) ↔
      ¬ (natOption of "stride" 0 ≠ 0 ∧ natOption of "stride" 0 ∣ k) := by
  constructor
  · rintro ⟨t, h0, -, ⟨m, rfl⟩, h⟩ ⟨h1, h2⟩
    refine h ?_
    rw [fesStep_eq, if_neg h1]
    exact Nat.div_mul_cancel (h2.mul_right m)
  · intro h
    refine ⟨k, by omega, hn, dvd_rfl, fun e => h ?_⟩
    rw [fesStep_eq] at e
    split at e
    · exact absurd e.symm hk
    · rename_i h1
      exact ⟨h1, ⟨k / natOption of "stride" 0, by rw [Nat.mul_comm]; exact e.symm⟩⟩

/-- **C137.** In a run that is at least as long as the stride of `[delta-f]` the warning about it is printed exactly if
some row of the file belongs to the FES of an earlier step. -/
theorem deltaF_warning_iff (sh : Shows) (hr : FinishedRun w file a config n s0) (hops : w.bdOps.Lawful)
    (o of : Dict (OptVal ℝ)) (ho : config.deltaF = some o) (hof : config.fes = some of)
    (hn : natOption o "stride" 0 ≤ n) :
    "Warning: the DeltaF stride is no multiple of the FES stride." ∈ (mainP sh w file).out ↔
      ∃ t, 0 < t ∧ t ≤ n ∧ natOption o "stride" 0 ∣ t ∧ fesStep of t ≠ t := by
  rw [finished_output sh hr hops, warning_mem _ _ _ _ _ _ _ (by decide), hof, ho]
  simp only [ifGiven, Option.getD_some]
  rw [mem_fesLines _ _ _ _ (by decide), mem_deltaFLines _ _ _ (by decide)]
  by_cases h0 : natOption o "stride" 0 = 0
  · simp only [h0]
    constructor
    · rintro ((⟨_, _, h⟩ | ⟨_, _, h⟩) | ⟨h, _⟩)
      · exact absurd h (by decide)
      · exact absurd h (by decide)
      · exact absurd rfl h
    · rintro ⟨t, h1, -, h2, -⟩
      have := Nat.eq_zero_of_zero_dvd h2
      omega
  · rw [fesStep_multiples of _ n h0 hn]
    constructor
    · rintro ((⟨_, _, h⟩ | ⟨_, _, h⟩) | ⟨_, h, _⟩)
      · exact absurd h (by decide)
      · exact absurd h (by decide)
      · exact h
    · exact fun h => Or.inr ⟨h0, h, rfl⟩

/-- **C137.** The warning about the write stride of `[fes]` is printed exactly if some file contains the FES of an earlier
step. -/
theorem write_warning_iff (sh : Shows) (hr : FinishedRun w file a config n s0) (hops : w.bdOps.Lawful)
    (of : Dict (OptVal ℝ)) (hof : config.fes = some of) (hn : natOption of "write-stride" 0 ≤ n) :
    "Warning: the write stride is no multiple of the update stride." ∈ (mainP sh w file).out ↔
      ∃ t, 0 < t ∧ t ≤ n ∧ natOption of "write-stride" 0 ∣ t ∧ fesStep of t ≠ t := by
  rw [finished_output sh hr hops, warning_mem _ _ _ _ _ _ _ (by decide), hof]
  have hd : "Warning: the write stride is no multiple of the update stride." ∈
      ifGiven (deltaFLines ((some of).getD [])) config.deltaF ↔ False := by
    rcases config.deltaF with _ | o
    · simp [ifGiven]
    · simp only [ifGiven]
      rw [mem_deltaFLines _ _ _ (by decide)]
      exact ⟨fun h => absurd h.2.2 (by decide), False.elim⟩
  rw [hd, or_false]
  simp only [ifGiven]
  rw [mem_fesLines _ _ _ _ (by decide)]
  by_cases h0 : natOption of "write-stride" 0 = 0
  · simp only [h0]
    constructor
    · rintro (⟨h, _⟩ | ⟨_, _, h⟩)
      · exact absurd rfl h
      · exact absurd h (by decide)
    · rintro ⟨t, h1, -, h2, -⟩
      have := Nat.eq_zero_of_zero_dvd h2
      omega
  · rw [fesStep_multiples of _ n h0 hn]
    constructor
    · rintro (⟨_, h, _⟩ | ⟨_, _, h⟩)
      · exact fun h' => h h'.2
      · exact absurd h (by decide)
    · refine fun h => Or.inl ⟨h0, fun h' => h ⟨fun e => ?_, h'⟩, rfl⟩
      rw [e] at h'
      exact h0 (Nat.eq_zero_of_zero_dvd h')

/-- **C137.** The same for the plots. -/
theorem plot_warning_iff (sh : Shows) (hr : FinishedRun w file a config n s0) (hops : w.bdOps.Lawful)
    (of : Dict (OptVal ℝ)) (hof : config.fes = some of) (hn : (intOption of "plot-stride").natAbs ≤ n) :
    "Warning: the plot stride is no multiple of the update stride." ∈ (mainP sh w file).out ↔
      ∃ t, 0 < t ∧ t ≤ n ∧ (intOption of "plot-stride").natAbs ∣ t ∧ fesStep of t ≠ t := by
  rw [finished_output sh hr hops, warning_mem _ _ _ _ _ _ _ (by decide), hof]
  have hd : "Warning: the plot stride is no multiple of the update stride." ∈
      ifGiven (deltaFLines ((some of).getD [])) config.deltaF ↔ False := by
    rcases config.deltaF with _ | o
    · simp [ifGiven]
    · simp only [ifGiven]
      rw [mem_deltaFLines _ _ _ (by decide)]
      exact ⟨fun h => absurd h.2.2 (by decide), False.elim⟩
  rw [hd, or_false]
  simp only [ifGiven]
  rw [mem_fesLines _ _ _ _ (by decide), Int.natCast_dvd]
  by_cases h0 : intOption of "plot-stride" = 0
  · simp only [h0]
    constructor
    · rintro (⟨_, _, h⟩ | ⟨h, _⟩)
      · exact absurd h (by decide)
      · exact absurd rfl h
    · rintro ⟨t, h1, -, h2, -⟩
      have := Nat.eq_zero_of_zero_dvd h2
      omega
  · have h0' : (intOption of "plot-stride").natAbs ≠ 0 := fun e => h0 (Int.natAbs_eq_zero.1 e)
    rw [fesStep_multiples of _ n h0' hn]
    constructor
    · rintro (⟨_, _, h⟩ | ⟨_, h, _⟩)
      · exact absurd h (by decide)
      · exact fun h' => h h'.2
    · refine fun h => Or.inr ⟨h0, fun h' => h ⟨fun e => ?_, h'⟩, rfl⟩
      rw [e] at h'
      exact h0' (Nat.eq_zero_of_zero_dvd h')

/-- **C137.** Without the warning every row of the free energy differences belongs to the histogram of its own step. -/
theorem deltaF_without_warning (sh : Shows) (hr : FinishedRun w file a config n s0) (hops : w.bdOps.Lawful)
    (o of : Dict (OptVal ℝ)) (ho : config.deltaF = some o) (hof : config.fes = some of)
    (hn : natOption o "stride" 0 ≤ n) (states : List (List (ℝ × ℝ))) (hst : stateRanges o = .ok states)
    (hs : ∀ s ∈ states, s.length = 1)
    (hw : "Warning: the DeltaF stride is no multiple of the FES stride." ∉ (mainP sh w file).out) :
    ∃ x h, a.sim.deltaF = some x ∧ a.sim.hist = some h ∧
      ((∀ t, 0 < t → t ≤ n → natOption o "stride" 0 ∣ t → ∀ s ∈ states, stateCounts (hr.histAt t) s ≠ 0) →
        (∀ s ∈ states, stateCounts h s ≠ 0) →
        x.file = seriesFile o n
          (fun t => ((t : ℝ) * a.cfg.ld.dt) :: freeEnergyDiffs a.cfg.ld.kt (hr.histAt t) states)
          (((n : ℝ) * a.cfg.ld.dt) :: freeEnergyDiffs a.cfg.ld.kt h states) w.emptyDeltaF) := by
  have hno : ∀ t, 0 < t → t ≤ n → natOption o "stride" 0 ∣ t → fesStep of t = t := by
    intro t h1 h2 h3
    by_contra h4
    exact hw ((deltaF_warning_iff sh hr hops o of ho hof hn).2 ⟨t, h1, h2, h3, h4⟩)
  obtain ⟨x, h, e1, e2, e3⟩ := main_deltaF hr o of ho hof states hst hs
  refine ⟨x, h, e1, e2, fun k1 k2 => ?_⟩
  rw [e3 (fun t h1 h2 h3 => by rw [hno t h1 h2 h3]; exact k1 t h1 h2 h3) k2]
  unfold seriesFile
  have hc : ∀ m1 m2, m2 ≤ n → (sampledSteps (seriesStride o) m1 m2).map (fun t : Nat => ((t : ℝ) * a.cfg.ld.dt) ::
      freeEnergyDiffs a.cfg.ld.kt (hr.histAt (fesStep of t)) states) =
      (sampledSteps (seriesStride o) m1 m2).map (fun t : Nat => ((t : ℝ) * a.cfg.ld.dt) ::
        freeEnergyDiffs a.cfg.ld.kt (hr.histAt t) states) := by
    intro m1 m2 hm
    refine List.map_congr_left (fun t ht => ?_)
    obtain ⟨h1, h2, h3⟩ := mem_sampledSteps.1 ht
    rw [hno t (by omega) (by omega) h3]
  rw [hc 0 n le_rfl, hc _ _ (Nat.div_mul_le_self _ _)]

end Bdld
