import Verif.Model.Report
import Verif.Spec.Report
import Verif.Props.MainSimulation
import Mathlib.Tactic.FieldSimp
import Mathlib.Tactic.Positivity
import Mathlib.Tactic.NormNum

/-
C99: the statistics of birth-death of a whole run and the reports about them.
C100: `walker_density_grid`.
-/

set_option linter.unusedSectionVars false

namespace Bdld

open Spec

/-! ### The report -/

theorem quotient_spec (f a b : Nat) : IsQuotient f a b (quotientOrNan (f * a) b) := by
  unfold IsQuotient quotientOrNan
  by_cases h : b = 0
  · rw [if_pos h]
    exact ⟨by simp [h], fun x hx => by cases hx⟩
  · rw [if_neg h]
    refine ⟨by simp [h], fun x hx => ?_⟩
    cases hx
    have : (b : ℚ) ≠ 0 := by exact_mod_cast h
    field_simp
    push_cast
    rfl

theorem percentage_bounds (a b : Nat) (h : a ≤ b) : IsPercentage (quotientOrNan (100 * a) b) := by
  intro x hx
  unfold quotientOrNan at hx
  split at hx
  · cases hx
  · rename_i hb
    cases hx
    have h1 : (0 : ℚ) < b := by exact_mod_cast Nat.pos_of_ne_zero hb
    have h2 : (a : ℚ) ≤ b := by exact_mod_cast h
    push_cast
    refine ⟨by positivity, ?_⟩
    rw [div_le_iff₀ h1]
    linarith

/-- The report on the screen. -/
theorem print_screen (s : BdStats) (filename : Option String) (hf : filename = none ∨ filename = some "") (step : Nat)
    (reset : Bool) : ∃ d k r q, (s.print filename step reset).2 = .report step s d k r q ∧
      IsQuotient 100 s.dupCount s.dupAttempts d ∧ IsQuotient 100 s.killCount s.killAttempts k ∧
      IsQuotient 1 s.dupCount s.killCount r ∧ IsQuotient 1 s.dupAttempts s.killAttempts q ∧
      (s.dupCount ≤ s.dupAttempts → IsPercentage d) ∧ (s.killCount ≤ s.killAttempts → IsPercentage k) := by
  have h : filename.getD "" = "" := by rcases hf with rfl | rfl <;> rfl
  refine ⟨_, _, quotientOrNan s.dupCount s.killCount, quotientOrNan s.dupAttempts s.killAttempts, ?_,
    quotient_spec _ _ _, quotient_spec _ _ _, ?_, ?_, percentage_bounds _ _, percentage_bounds _ _⟩
  · simp [BdStats.print, h]
  · simpa using quotient_spec 1 s.dupCount s.killCount
  · simpa using quotient_spec 1 s.dupAttempts s.killAttempts

/-- The line of the file. -/
theorem print_file (s : BdStats) (name : String) (hn : name ≠ "") (step : Nat) (reset : Bool) :
    (s.print (some name) step reset).2 =
      .line [step, s.dupCount, s.dupAttempts, s.killCount, s.killAttempts] := by
  simp [BdStats.print, hn, statsRow]

/-- Only with `reset` the counters start from zero again. -/
theorem print_reset (s : BdStats) (filename : Option String) (step : Nat) :
    (s.print filename step false).1 = s ∧ (s.print filename step true).1 = ⟨0, 0, 0, 0⟩ := ⟨rfl, rfl⟩

example : (BdStats.mk 1 4 0 0).print none 7 false =
    (⟨1, 4, 0, 0⟩, .report 7 ⟨1, 4, 0, 0⟩ (some 25) none none none) := by
  simp [BdStats.print, quotientOrNan]
  norm_num

/-! ### Counters of one step -/

section
variable {P B U R : Type}

theorem recalcAttempts_le (c : BdCfg P B U) (hx : ∀ b, ¬ (c.gt0 b = true ∧ c.lt0 b = true)) (b : B) (st : BdStats) :
    (recalcAttempts c b st).killAttempts + (recalcAttempts c b st).dupAttempts ≤ st.killAttempts + st.dupAttempts + 1 := by
  have := hx b
  unfold recalcAttempts
  cases h1 : c.gt0 b <;> cases h2 : c.lt0 b <;> simp_all <;> omega

theorem recalcEvent_attempts (c : BdCfg P B U) (b : B) (i j : Nat) (cur : Option (Nat × Nat)) (st : BdStats) :
    (recalcEvent c b i j cur st).2.killAttempts = st.killAttempts ∧
    (recalcEvent c b i j cur st).2.dupAttempts = st.dupAttempts := by
  unfold recalcEvent
  split
  · exact ⟨rfl, rfl⟩
  · split <;> exact ⟨rfl, rfl⟩

theorem recalcStep_attempts {c : BdCfg P B U} (hx : ∀ b, ¬ (c.gt0 b = true ∧ c.lt0 b = true)) {ops : RngOps R U}
    {n : Nat} {rand : List U} {l l' : RecalcLoop P B R} {i : Nat} (h : recalcStep c ops n rand l i = .ok l') :
    l'.stats.killAttempts + l'.stats.dupAttempts ≤ l.stats.killAttempts + l.stats.dupAttempts + 1 := by
  unfold recalcStep at h
  split at h
  · rename_i b r _ _
    have h1 := recalcAttempts_le c hx b l.stats
    simp only at h
    split at h
    · obtain ⟨⟨j, r'⟩, _, h⟩ := bind_ok h
      simp only at h
      have h2 := recalcEvent_attempts c b i j l.currEvent (recalcAttempts c b l.stats)
      split at h
      · cases h
      · obtain ⟨ps, _, h⟩ := bind_ok h
        cases h
        simp only
        omega
    · cases h
      exact h1
  · cases h

/-- One step of birth-death: counters grow, successes not more than attempts, and every walker does one attempt (at most
one in the recalculating mode, where walkers with rate zero do none). -/
theorem bd_step_counters {c : BdCfg P B U} (hc : c.Lawful) (hx : ∀ b, ¬ (c.gt0 b = true ∧ c.lt0 b = true))
    {ops : RngOps R U} (hops : ops.Lawful) {s s' : BdState P R} {ev : List (Nat × Nat)}
    (h : doBirthDeath c ops s = .ok (ev, s')) :
    CountersGrow s.stats s'.stats ∧
    s'.stats.killCount - s.stats.killCount ≤ s'.stats.killAttempts - s.stats.killAttempts ∧
    s'.stats.dupCount - s.stats.dupCount ≤ s'.stats.dupAttempts - s.stats.dupAttempts ∧
    s'.stats.killAttempts + s'.stats.dupAttempts ≤
      s.stats.killAttempts + s.stats.dupAttempts + s.particles.length ∧
    (c.recalcProbs = false → s'.stats.killAttempts + s'.stats.dupAttempts =
      s.stats.killAttempts + s.stats.dupAttempts + s.particles.length) := by
  cases hm : c.recalcProbs with
  | false =>
    obtain ⟨h1, h2, h3, h4, h5, h6, h7⟩ := bd_stats_bulk hc hops hm h
    exact ⟨⟨h5, h6, by omega, by omega⟩, by omega, by omega, by omega, fun _ => h3⟩
  | true =>
    obtain ⟨h1, h2, h3, h4, h5, h6, _⟩ := bd_stats_recalc hc hops hm h
    refine ⟨⟨h3, h4, h5, h6⟩, h1, h2, ?_, fun h => by cases h⟩
    unfold doBirthDeath at h
    rw [hm, if_pos rfl] at h
    unfold doRecalc at h
    obtain ⟨l, hl, h⟩ := bind_ok h
    cases h
    have := foldlM_ok_inv _ (fun pre (x : RecalcLoop P B R) => x.stats.killAttempts + x.stats.dupAttempts ≤
      s.stats.killAttempts + s.stats.dupAttempts + pre.length) _ [] _ _
      (fun pre i b b' _ hb he => by
        have := recalcStep_attempts hx he
        simp only [List.length_append, List.length_cons, List.length_nil]
        omega) (by simp) hl
    simpa [(hops.shuffle_perm _ _).length_eq] using this

end

/-! ### A whole run -/

variable {R : Type} {w : World R} {file : Option (List Section)} {a : AnySim R} {config : Input ℝ} {n : Nat}
  {s0 : Sim a.d R}

/-- The counters after step `t`. -/
noncomputable def FinishedRun.counters (_ : FinishedRun w file a config n s0) (t : Nat) : BdStats :=
  match dynSteps w a.cfg.kind a.cfg.ld a.cfg.bd t s0.dyn with
  | .ok y => (y.bd.map BdRunState.stats).getD ⟨0, 0, 0, 0⟩
  | .error _ => ⟨0, 0, 0, 0⟩

theorem realBdCfg_exclusive {P : Type} {d : Nat} (c : RateCfg d) (dt f : ℝ) (rc : Bool) (view : P → Walker d)
    (b : WithBot ℝ) : ¬ ((realBdCfg c dt f rc view).gt0 b = true ∧ (realBdCfg c dt f rc view).lt0 b = true) := by
  rintro ⟨h1, h2⟩
  have h1 : 0 < b := @of_decide_eq_true _ (Classical.propDecidable _) h1
  have h2 : b < 0 := @of_decide_eq_true _ (Classical.propDecidable _) h2
  exact lt_asymm h1 h2

/-- The birth-death part of one step. -/
theorem dynStep_counters (hr : FinishedRun w file a config n s0) (hops : w.bdOps.Lawful) (o : Dict (OptVal ℝ))
    (ho : config.birthDeath = some o) (t : Nat) (x y : Dyn a.d R) (z : BdRunState R) (hz : x.bd = some z)
    (h : dynStep w a.cfg.kind a.cfg.ld a.cfg.bd x (t + 1) = .ok y) :
    ∃ z', y.bd = some z' ∧ CountersGrow z.stats z'.stats ∧
      z'.stats.killCount - z.stats.killCount ≤ z'.stats.killAttempts - z.stats.killAttempts ∧
      z'.stats.dupCount - z.stats.dupCount ≤ z'.stats.dupAttempts - z.stats.dupAttempts ∧
      z'.stats.killAttempts + z'.stats.dupAttempts ≤ z.stats.killAttempts + z.stats.dupAttempts +
        (if natOption o "stride" 0 ∣ t + 1 then x.particles.length else 0) ∧
      (flagOption o "recalculate-probabilities" = false →
        z'.stats.killAttempts + z'.stats.dupAttempts = z.stats.killAttempts + z.stats.dupAttempts +
        (if natOption o "stride" 0 ∣ t + 1 then x.particles.length else 0)) ∧
      z'.log = z.log ++ if natOption o "stats-stride" 0 ≠ 0 ∧ natOption o "stats-stride" 0 ∣ t + 1
        then [(t + 1, z'.stats)] else [] := by
  obtain ⟨b, z0, corr, e1, e2, hf⟩ := (finished_bd hr).2 o ho
  obtain ⟨u, hu, h⟩ := bind_ok h
  rw [e1, hz] at h
  simp only at h
  obtain ⟨v, hv, h⟩ := bind_ok h
  cases h
  refine ⟨_, rfl, ?_⟩
  simp only
  unfold bdRun at hv
  rw [if_neg (by have := hf.stridePos; omega)] at hv
  obtain ⟨st, hst, hv⟩ := bind_ok hv
  cases hv
  have hlog : (if (truthyNat b.statsStride && (t + 1) % b.statsStride.getD 0 == 0) = true
      then z.log ++ [(t + 1, st.stats)] else z.log) = z.log ++
      if natOption o "stats-stride" 0 ≠ 0 ∧ natOption o "stats-stride" 0 ∣ t + 1 then [(t + 1, st.stats)] else [] := by
    have hss := hf.statsStride
    have hsp := hf.statsPos
    have hnat : natOption o "stats-stride" 0 = b.statsStride.getD 0 := by
      rw [hss]
      unfold natOption
      split <;> simp_all
    rw [hnat]
    cases hs : b.statsStride with
    | none => simp [truthyNat]
    | some k =>
      have hk := hsp k hs
      obtain ⟨k, rfl⟩ : ∃ j, k = j + 1 := ⟨k - 1, by omega⟩
      by_cases hd : k + 1 ∣ t + 1
      · simp [truthyNat, Nat.mod_eq_zero_of_dvd hd, hd]
      · have : ¬ (t + 1) % (k + 1) = 0 := fun h => hd (Nat.dvd_of_mod_eq_zero h)
        simp [truthyNat, this, hd]
  have hlen : u.particles.length = x.particles.length := (run_ok hu).2.1
  simp only
  rw [hlog, ← hf.stride]
  by_cases hd : b.stride ∣ t + 1
  · rw [if_pos (Nat.mod_eq_zero_of_dvd hd)] at hst
    rw [if_pos hd]
    cases hbd : doBirthDeath b.cfg w.bdOps ⟨u.particles, z.rng, z.stats⟩ with
    | error e => rw [hbd] at hst; cases hst
    | ok r =>
      rw [hbd] at hst
      cases hst
      have hlaw := (hr.setup.bd b e1).1
      have hrc : b.cfg.recalcProbs = flagOption o "recalculate-probabilities" := by rw [hf.cfg]; rfl
      obtain ⟨k1, k2, k3, k4, k5⟩ := bd_step_counters hlaw
        (by rw [hf.cfg]; exact realBdCfg_exclusive _ _ _ _ _) hops (ev := r.1) (s' := r.2) hbd
      simp only [hlen] at k1 k2 k3 k4 k5
      exact ⟨k1, k2, k3, k4, fun h => k5 (hrc.trans h), rfl⟩
  · rw [if_neg (fun h => hd (Nat.dvd_of_mod_eq_zero h))] at hst
    rw [if_neg hd]
    cases hst
    exact ⟨⟨le_refl _, le_refl _, le_refl _, le_refl _⟩, by simp, by simp, by simp, fun _ => by simp, rfl⟩

theorem succ_div_stride (n k t : Nat) : n * (t / k) + (if k ∣ t + 1 then n else 0) = n * ((t + 1) / k) := by
  rw [Nat.succ_div]
  split <;> ring

/-- State of the statistics after `t` steps. -/
theorem dynSteps_counters (hr : FinishedRun w file a config n s0) (hops : w.bdOps.Lawful) (o : Dict (OptVal ℝ))
    (ho : config.birthDeath = some o) : ∀ (t : Nat) (y : Dyn a.d R),
    dynSteps w a.cfg.kind a.cfg.ld a.cfg.bd t s0.dyn = .ok y →
    ∃ z, y.bd = some z ∧ z.stats = hr.counters t ∧
      SoundCounters s0.particles.length (natOption o "stride" 0) t z.stats ∧
      (flagOption o "recalculate-probabilities" = false →
        z.stats.killAttempts + z.stats.dupAttempts = s0.particles.length * (t / natOption o "stride" 0)) ∧
      z.log = (((List.range t).map (· + 1)).filter (fun i => decide (natOption o "stats-stride" 0 ≠ 0 ∧
        natOption o "stats-stride" 0 ∣ i))).map (fun i => (i, hr.counters i)) ∧
      ∀ i ≤ t, CountersGrow (hr.counters i) z.stats
  | 0, y, h => by
    obtain ⟨b, z, corr, e1, e2, hf⟩ := (finished_bd hr).2 o ho
    have hc : hr.counters 0 = z.stats := by
      unfold FinishedRun.counters
      rw [show dynSteps w a.cfg.kind a.cfg.ld a.cfg.bd 0 s0.dyn = .ok s0.dyn from rfl]
      simp only
      rw [show s0.dyn.bd = some z from e2]
      rfl
    cases h
    refine ⟨z, e2, hc.symm, ?_, ?_, ?_, ?_⟩
    · rw [hf.stats]
      exact ⟨le_refl _, le_refl _, by simp⟩
    · rw [hf.stats]
      simp
    · rw [hf.log]
      rfl
    · intro i hi
      obtain rfl : i = 0 := by omega
      rw [hc]
      exact ⟨le_refl _, le_refl _, le_refl _, le_refl _⟩
  | t + 1, y, h => by
    have hall := h
    obtain ⟨x, hx, h⟩ := bind_ok h
    obtain ⟨z, i1, i2, i3, i4, i5, i6⟩ := dynSteps_counters hr hops o ho t x hx
    obtain ⟨mass, hm, h0⟩ := finished_initial hr
    obtain ⟨_, hlen, _⟩ := dynSteps_inv w hops _ _ _ hr.setup.bd s0.dyn mass h0 t x hx
    have hlen : x.particles.length = s0.particles.length := hlen
    obtain ⟨z', k1, k2, k3, k4, k5, k6, k7⟩ := dynStep_counters hr hops o ho t x y z i1 h
    rw [hlen] at k5 k6
    have hc : hr.counters (t + 1) = z'.stats := by
      unfold FinishedRun.counters
      rw [hall]
      simp only [k1]
      rfl
    have hs := succ_div_stride s0.particles.length (natOption o "stride" 0) t
    refine ⟨z', k1, hc.symm, ⟨?_, ?_, ?_⟩, fun hb => ?_, ?_, fun i hi => ?_⟩
    · have := i3.kills; have := k2.kills; have := k2.killAttempts; omega
    · have := i3.dups; have := k2.dups; have := k2.dupAttempts; omega
    · have := i3.attempts; omega
    · have := i4 hb; have := k6 hb; omega
    · rw [k7, i5, List.range_succ, List.map_append, List.filter_append, List.map_append]
      congr 1
      by_cases hd : natOption o "stats-stride" 0 ≠ 0 ∧ natOption o "stats-stride" 0 ∣ t + 1
      · rw [if_pos hd]
        simp [hd, hc]
      · rw [if_neg hd]
        simp [hd]
    · rcases Nat.lt_or_ge t i with h1 | h1
      · obtain rfl : i = t + 1 := by omega
        rw [hc]
        exact ⟨le_refl _, le_refl _, le_refl _, le_refl _⟩
      · have := i6 i h1
        exact ⟨this.kills.trans k2.kills, this.dups.trans k2.dups, this.killAttempts.trans k2.killAttempts,
          this.dupAttempts.trans k2.dupAttempts⟩

/-- C99: the counters of a finished run with birth-death. They start at zero and never decrease; there are never more
successful events than attempts; every walker attempts one event per step of birth-death (at most one in the
recalculating mode). -/
theorem main_counters (hr : FinishedRun w file a config n s0) (hops : w.bdOps.Lawful) (o : Dict (OptVal ℝ))
    (ho : config.birthDeath = some o) :
    hr.counters 0 = ⟨0, 0, 0, 0⟩ ∧
    (∀ t ≤ n, SoundCounters s0.particles.length (natOption o "stride" 0) t (hr.counters t) ∧
      (flagOption o "recalculate-probabilities" = false → (hr.counters t).killAttempts + (hr.counters t).dupAttempts =
        s0.particles.length * (t / natOption o "stride" 0))) ∧
    ∀ i j, i ≤ j → j ≤ n → CountersGrow (hr.counters i) (hr.counters j) := by
  refine ⟨?_, fun t ht => ?_, fun i j hi hj => ?_⟩
  · obtain ⟨b, z, corr, e1, e2, hf⟩ := (finished_bd hr).2 o ho
    unfold FinishedRun.counters
    rw [show dynSteps w a.cfg.kind a.cfg.ld a.cfg.bd 0 s0.dyn = .ok s0.dyn from rfl]
    simp only
    rw [show s0.dyn.bd = some z from e2]
    exact hf.stats
  · obtain ⟨y, hy, _⟩ := finished_dynSteps hr t ht
    obtain ⟨z, k1, k2, k3, k4, _⟩ := dynSteps_counters hr hops o ho t y hy
    rw [← k2]
    exact ⟨k3, k4⟩
  · obtain ⟨y, hy, _⟩ := finished_dynSteps hr j hj
    obtain ⟨z, k1, k2, k3, k4, k5, k6⟩ := dynSteps_counters hr hops o ho j y hy
    rw [← k2]
    exact k6 i hi

/-- C99: the records are those counters at the multiples of `stats-stride`, or at the end if there is no such option. -/
theorem main_records (hr : FinishedRun w file a config n s0) (hops : w.bdOps.Lawful) (o : Dict (OptVal ℝ))
    (ho : config.birthDeath = some o) : ∃ z, a.sim.bd = some z ∧ z.stats = hr.counters n ∧
      z.log = (reportSteps o n).map (fun t => (t, hr.counters t)) := by
  obtain ⟨u, hu', h⟩ := bind_ok hr.sim
  have h1 := runSteps_dyn w a.cfg n s0 u hr.setup.bdSome hu'
  have h2 := final_dyn a.cfg n u a.sim h
  obtain ⟨z, k1, k2, _, _, k4, _⟩ := dynSteps_counters hr hops o ho n u.dyn h1
  obtain ⟨b, z0, corr', e1, _, hf⟩ := (finished_bd hr).2 o ho
  rw [e1] at h2
  unfold dynFinal at h2
  rw [k1] at h2
  have h3 := congrArg Dyn.bd h2
  simp only at h3
  refine ⟨_, h3, k2, ?_⟩
  have hss := hf.statsStride
  have hsp := hf.statsPos
  have hnat : natOption o "stats-stride" 0 = b.statsStride.getD 0 := by
    rw [hss]
    unfold natOption
    split <;> simp_all
  simp only [k4, k2, reportSteps, hnat]
  cases hs : b.statsStride with
  | none => simp [truthyNat]
  | some k =>
    have hk := hsp k hs
    obtain ⟨k, rfl⟩ : ∃ j, k = j + 1 := ⟨k - 1, by omega⟩
    simp [truthyNat]

/-- C99: what is written about the statistics in a finished run. With a file name one line per record, otherwise one
report per record with the right quotients; the percentages are between 0 and 100. -/
theorem main_statsOutput (hr : FinishedRun w file a config n s0) (hops : w.bdOps.Lawful) (o : Dict (OptVal ℝ))
    (ho : config.birthDeath = some o) : ∃ z, a.sim.bd = some z ∧
      (∀ name, name ≠ "" → statsOutput (some name) z.log = (reportSteps o n).map (fun t => .line [t,
        (hr.counters t).dupCount, (hr.counters t).dupAttempts, (hr.counters t).killCount,
        (hr.counters t).killAttempts])) ∧
      ∀ filename, filename = none ∨ filename = some "" → List.Forall₂ (fun t out => ∃ d k r q,
        out = .report t (hr.counters t) d k r q ∧
        IsQuotient 100 (hr.counters t).dupCount (hr.counters t).dupAttempts d ∧
        IsQuotient 100 (hr.counters t).killCount (hr.counters t).killAttempts k ∧
        IsQuotient 1 (hr.counters t).dupCount (hr.counters t).killCount r ∧
        IsQuotient 1 (hr.counters t).dupAttempts (hr.counters t).killAttempts q ∧ IsPercentage d ∧ IsPercentage k)
        (reportSteps o n) (statsOutput filename z.log) := by
  obtain ⟨z, h1, h2, h3⟩ := main_records hr hops o ho
  refine ⟨z, h1, fun name hn => ?_, fun filename hf => ?_⟩
  · rw [statsOutput, h3, List.map_map]
    refine List.map_congr_left (fun t _ => ?_)
    exact print_file _ _ hn _ _
  · rw [statsOutput, h3, List.map_map, List.forall₂_map_right_iff, List.forall₂_same]
    intro t ht
    have htn : t ≤ n := by
      unfold reportSteps at ht
      split at ht
      · simp at ht; omega
      · obtain ⟨i, hi, rfl⟩ := List.mem_map.1 (List.mem_filter.1 ht).1
        have := List.mem_range.1 hi
        omega
    obtain ⟨hs, _⟩ := (main_counters hr hops o ho).2.1 t htn
    obtain ⟨d, k, r, q, e, q1, q2, q3, q4, p1, p2⟩ := print_screen (hr.counters t) filename hf t false
    exact ⟨d, k, r, q, e, q1, q2, q3, q4, p1 hs.dups, p2 hs.kills⟩

/-! ### Density on a grid -/

theorem flatMap_pos_length {d : Nat} (ws : List (Walker d)) :
    (ws.flatMap (fun p => List.ofFn p.pos)).length = ws.length * d := by
  rw [List.length_flatMap]
  simp

theorem flatMap_pos_one (ws : List (Walker 1)) : ws.flatMap (fun p => List.ofFn p.pos) = ws.map (fun p => p.pos 0) := by
  induction ws with
  | nil => rfl
  | cons p ws ih => rw [List.flatMap_cons, ih]; simp

/-- Positions of the walkers. -/
def posOf {d : Nat} (ws : List (Walker d)) (i : Fin ws.length) : Fin d → ℝ := (ws.get i).pos

/-- `log ρ + U/kT` of a walker at `x` with energy `e`, where `ρ` is the kernel density estimate of `pos`. -/
noncomputable def rawRateAt {n d : Nat} (bw : Fin d → ℝ) (kt : ℝ) (pos : Fin n → Fin d → ℝ) (x : Fin d → ℝ) (e : ℝ) : ℝ :=
  Real.log (kde bw pos x) + e / kt

theorem kde_cons {n : Nat} (bw : Fin 1 → ℝ) (pos : Fin n → Fin 1 → ℝ) (x y : Fin 1 → ℝ) (hn : 0 < n) :
    kde bw (Fin.cons x pos : Fin (n + 1) → Fin 1 → ℝ) y = (kernel bw (y - x) + n * kde bw pos y) / (n + 1) := by
  have : (n : ℝ) ≠ 0 := by exact_mod_cast hn.ne'
  unfold kde
  rw [Fin.sum_univ_succ]
  simp only [Fin.cons_zero, Fin.cons_succ]
  push_cast
  field_simp

theorem densityRow_one (bw : Fin 1 → ℝ) (hbw : 0 < bw 0) (kt : ℝ) (ws : List (Walker 1)) (hw : 2 ≤ ws.length) (x e : ℝ) :
    densityRow bw kt ws [x] e = .ok ⟨[x],
      kde bw (Fin.cons (fun _ => x) (posOf ws) : Fin (ws.length + 1) → Fin 1 → ℝ) (fun _ => x),
      ((centred (fun i : Fin (ws.length + 1) => rawRateAt bw kt (Fin.cons (fun _ => x) (posOf ws))
        ((Fin.cons (fun _ => x) (posOf ws) : Fin (ws.length + 1) → Fin 1 → ℝ) i)
        ((Fin.cons e (fun i => (ws.get i).energy) : Fin (ws.length + 1) → ℝ) i)) 0 : ℝ) : WithBot ℝ)⟩ := by
  have hflat : ([x] ++ ws.flatMap (fun p => List.ofFn p.pos)).length = ws.length + 1 := by
    rw [List.length_append, flatMap_pos_length]; simp; omega
  have hpos : (fun (i : Fin (ws.length + 1)) (_ : Fin 1) => ([x] ++ ws.flatMap (fun p => List.ofFn p.pos)).getD i 0) =
      (Fin.cons (fun _ => x) (posOf ws) : Fin (ws.length + 1) → Fin 1 → ℝ) := by
    funext i k
    rw [flatMap_pos_one]
    refine Fin.cases ?_ (fun j => ?_) i
    · simp
    · obtain rfl : k = 0 := Subsingleton.elim _ _
      simp [posOf]
  have hene : (fun (i : Fin (ws.length + 1)) => (e :: ws.map (·.energy)).getD i 0) =
      (Fin.cons e (fun i => (ws.get i).energy) : Fin (ws.length + 1) → ℝ) := by
    funext i
    refine Fin.cases ?_ (fun j => ?_) i
    · simp
    · simp
  have hb : (fun _ : Fin 1 => firstOf bw) = bw := by
    funext k
    obtain rfl : k = 0 := Subsingleton.elim _ _
    simp [firstOf]
  unfold densityRow
  simp only
  rw [if_neg (by omega), if_neg (by rw [hflat]; simp), hpos, hb]
  have h0 := (density_agree (Fin.cons (fun _ => x) (posOf ws) : Fin (ws.length + 1) → Fin 1 → ℝ) bw).2
  have key := rates_eq ⟨bw, kt, .orig, fun _ => 0⟩ (fun k => by
    obtain rfl : k = 0 := Subsingleton.elim _ _
    exact hbw) (Fin.cons (fun _ => x) (posOf ws) : Fin (ws.length + 1) → Fin 1 → ℝ)
    (fun (i : Fin (ws.length + 1)) => (e :: ws.map (·.energy)).getD i 0) 0
  simp only [calcBetas] at key
  rw [key, h0]
  simp only [Fin.cons_zero, reduceCtorEq, if_false, add_zero]
  congr 3
  rw [hene]
  rfl

/-- C100 (partial). `walker_density_grid` in one dimension with at least two walkers: density and rate of an additional
walker at every point of the grid. The density of the grid point contains the kernel of the additional walker itself,
so that it is larger than the kernel density estimate of the walkers where this is below the maximum of the kernel.
Full claim: the same in every dimension and for every number of walkers; that is false, see
`densityGrid_dimension_false` and `densityGrid_single_false`. -/
theorem densityGrid_partial (bw : Fin 1 → ℝ) (hbw : 0 < bw 0) (kt : ℝ) (ws : List (Walker 1)) (hw : 2 ≤ ws.length)
    (grid energy : List ℝ) (hl : grid.length ≤ energy.length) :
    ∃ rows, walkerDensityGrid bw kt ws (grid.map (fun x => [x])) energy = .ok rows ∧ rows.length = grid.length ∧
      ∀ (i : Nat) (x e : ℝ) (row : DensityRow), grid[i]? = some x → energy[i]? = some e → rows[i]? = some row → row.point = [x] ∧
        row.rho = (kernel bw 0 + ws.length * kde bw (posOf ws) (fun _ => x)) / (ws.length + 1) ∧
        row.beta = ((centred (fun i : Fin (ws.length + 1) => rawRateAt bw kt (Fin.cons (fun _ => x) (posOf ws))
          ((Fin.cons (fun _ => x) (posOf ws) : Fin (ws.length + 1) → Fin 1 → ℝ) i)
          ((Fin.cons e (fun i => (ws.get i).energy) : Fin (ws.length + 1) → ℝ) i)) 0 : ℝ) : WithBot ℝ) := by
  let row : ℝ × ℝ → DensityRow := fun z => ⟨[z.1],
    kde bw (Fin.cons (fun _ => z.1) (posOf ws) : Fin (ws.length + 1) → Fin 1 → ℝ) (fun _ => z.1),
      ((centred (fun i : Fin (ws.length + 1) => rawRateAt bw kt (Fin.cons (fun _ => z.1) (posOf ws))
        ((Fin.cons (fun _ => z.1) (posOf ws) : Fin (ws.length + 1) → Fin 1 → ℝ) i)
        ((Fin.cons z.2 (fun i => (ws.get i).energy) : Fin (ws.length + 1) → ℝ) i)) 0 : ℝ) : WithBot ℝ)⟩
  have hm : ((grid.map (fun x => [x])).zip energy).mapM (fun x => densityRow bw kt ws x.1 x.2) =
      .ok ((grid.zip energy).map row) := by
    rw [List.zip_map_left, mapM_ok _ (fun z => row (z.1.getD 0 0, z.2)), List.map_map]
    · rfl
    · intro z hz
      obtain ⟨⟨x, e⟩, _, rfl⟩ := List.mem_map.1 hz
      exact densityRow_one bw hbw kt ws hw x e
  refine ⟨(grid.zip energy).map row, ?_, by simp [hl], fun i x e r hx he hrow => ?_⟩
  · unfold walkerDensityGrid
    rw [hm, ok_bind, if_neg (by simp [hl])]
    rfl
  · rw [List.getElem?_map, (List.getElem?_zip_eq_some (z := (x, e))).2 ⟨hx, he⟩] at hrow
    cases hrow
    refine ⟨rfl, ?_, rfl⟩
    simp only [row]
    rw [kde_cons _ _ _ _ (by omega)]
    simp

/-- In more than one dimension `walker_density_grid` raises `ValueError`, for any walkers, any grid and any energies. -/
theorem densityGrid_dimension_false {d : Nat} (hd : 2 ≤ d) (bw : Fin d → ℝ) (kt : ℝ) (ws : List (Walker d))
    (hw : 2 ≤ ws.length) (g : List ℝ) (grid : List (List ℝ)) (e : ℝ) (energy : List ℝ) :
    walkerDensityGrid bw kt ws (g :: grid) (e :: energy) = .error .valueError := by
  unfold walkerDensityGrid
  have h : densityRow bw kt ws g e = .error .valueError := by
    unfold densityRow
    simp only
    rw [if_neg (by omega), if_pos]
    rw [List.length_append, flatMap_pos_length]
    have := Nat.mul_le_mul_left ws.length hd
    omega
  rw [List.zip_cons_cons, List.mapM_cons]
  simp only [h]
  rfl

/-- With a single walker it raises `IndexError`. -/
theorem densityGrid_single_false {d : Nat} (bw : Fin d → ℝ) (kt : ℝ) (p : Walker d) (g : List ℝ) (grid : List (List ℝ))
    (e : ℝ) (energy : List ℝ) : walkerDensityGrid bw kt [p] (g :: grid) (e :: energy) = .error .indexError := by
  unfold walkerDensityGrid
  have h : densityRow bw kt [p] g e = .error .indexError := by
    simp [densityRow]
  rw [List.zip_cons_cons, List.mapM_cons]
  simp only [h]
  rfl

/-- Two walkers at 0 and 1, grid point 2. -/
example : ∃ rows, walkerDensityGrid (fun _ : Fin 1 => 1) 1 [⟨fun _ => 0, 0⟩, ⟨fun _ => 1, 0⟩] [[2]] [0] = .ok rows ∧
    rows.length = 1 := by
  obtain ⟨rows, h1, h2, _⟩ := densityGrid_partial (fun _ => 1) one_pos 1 [⟨fun _ => 0, 0⟩, ⟨fun _ => 1, 0⟩] (by simp)
    [2] [0] (by simp)
  exact ⟨rows, h1, h2⟩

end Bdld
