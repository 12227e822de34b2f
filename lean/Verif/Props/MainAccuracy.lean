import Verif.Props.MainExamples
import Verif.Props.Accuracy
import Verif.Props.Plot

/-
C106 for the whole program: the final FES of a run whose histogram is close to the Boltzmann distribution.
-/

namespace Bdld

open Spec

variable {R : Type} {w : World R} {file : Option (List Section)} {a : AnySim R} {config : Input ℝ} {n : Nat}
  {s0 : Sim a.d R}

/-- The final histogram of a run with `[fes]` has bins. -/
theorem main_counts_ne_nil (hr : FinishedRun w file a config n s0) (o : Dict (OptVal ℝ)) (ho : config.fes = some o)
    (h : Histogram ℝ) (hh : a.sim.hist = some h) : h.counts.flat ≠ [] := by
  obtain ⟨_, _, _, _, _, _, _, _, h4, _⟩ := setupOptional_parts w config _ _ _ _ rfl rfl hr.optional
  rw [ho] at h4
  obtain ⟨_, b, _, _, hb, _⟩ := h4
  obtain ⟨p1, p2, h0, x0, hh0, hx0, hs0⟩ := hr.setup.fes _ hb
  obtain ⟨h', hh', hbins⟩ := simulate_bins w a.cfg s0 h0 hh0 n a.sim hr.sim
  rw [hh] at hh'
  cases hh'
  obtain ⟨hc, hhc⟩ := Option.isSome_iff_exists.1 p1
  obtain ⟨_, h0', _, e0, _, _, he, _⟩ := hr.setup.hist hc.1 hc.2 hhc
  rw [hh0] at e0
  cases e0
  exact counts_ne_nil h (by rw [hbins]; exact he)

/-- **C106.** If the final histogram follows the Boltzmann distribution of the potential at the bin centres up to a factor
between `exp (-ε)` and `exp ε`, the final FES differs from the reference drawn in the plots by at most `2 kT ε`,
with the thermal energy of the dynamics. -/
theorem main_fes_accuracy (hr : FinishedRun w file a config n s0) (o : Dict (OptVal ℝ)) (ho : config.fes = some o)
    (h : Histogram ℝ) (hh : a.sim.hist = some h) (pts : List (List ℝ)) (hp : pointsOfAxes h.axes = .ok pts) (C ε : ℝ)
    (hnear : NearBoltzmann a.cfg.ld.pot (pts.map (fun q k => q.getD k 0)) a.cfg.ld.kt h.counts.flat C ε) :
    ∃ fes ref, a.sim.fes = some fes ∧ fesReference a.cfg.ld.pot h = .ok ref ∧ fes.flat.length = ref.length ∧
      ∀ (i : Nat) (r : ℝ), ref[i]? = some r →
        ∃ f : ℝ, fes.flat[i]? = some (f : WithTop ℝ) ∧ |f - r| ≤ 2 * a.cfg.ld.kt * ε := by
  have hc := main_counts_ne_nil hr o ho h hh
  have hne : pts.map (fun q (k : Fin a.d) => q.getD k 0) ≠ [] := by
    intro h0
    have := hnear.1
    rw [h0] at this
    exact hc (List.length_eq_zero_iff.mp this)
  obtain ⟨fes, ref, h1, h2, h3, h4, h5⟩ := fes_accuracy _ _ h.counts a.cfg.ld.kt C ε hr.constants.2.1 hne hnear
  obtain ⟨g, hg, hf⟩ := main_fes hr o ho
  rw [hh] at hg
  cases hg
  rw [fes_spec h.counts _ hr.constants.2.1 hc] at h1
  cases h1
  refine ⟨_, ref, hf, ?_, h3.trans h4.symm, h5⟩
  rw [fesReference, hp, ok_bind, h2]

/-- The example: counts 1 and 4 for a flat potential are within a factor 2 of 2 and 2. -/
example : ∃ s h, (s : Sim 1 Bool).hist = some h ∧ h.counts = ⟨[2], [1, 4]⟩ ∧ ∃ fes ref, s.fes = some fes ∧
    fesReference demoPotential h = .ok ref ∧ fes.flat.length = ref.length ∧
    ∀ (i : Nat) (r : ℝ), ref[i]? = some r → ∃ f : ℝ, fes.flat[i]? = some (f : WithTop ℝ) ∧ |f - r| ≤ 2 * 1 * Real.log 2 := by
  obtain ⟨s, h, s0, hr, _, hh, hc⟩ := demo_run "1" 1 demo_parseFes1
  have hl : h.shape = [2] := congrArg Nd.shape hc
  have ha : ∃ e, h.axes = [e] ∧ e.length = 2 := by
    have h1 : h.axes.map List.length = h.shape := axes_lengths h
    rw [hl] at h1
    match hx : h.axes, h1 with
    | [e], h1 => exact ⟨e, rfl, by simpa using h1⟩
    | _ :: _ :: _, h1 => simp at h1
  obtain ⟨e, he, hel⟩ := ha
  have hp : pointsOfAxes h.axes = .ok (e.map (fun x => [x])) := by rw [he]; exact points_1d _
  refine ⟨s, h, hh, hc, main_fes_accuracy hr (demoFesOpts 1) rfl h hh _ hp (Real.log 2) (Real.log 2) ?_⟩
  have h0 : ∀ x : Fin 1 → ℝ, demoPotential.energy x = 0 := by
    intro x
    simp [demoPotential, polyEnergy, coeffs1d, polyvalNd, horner]
  have h2 : 0 ≤ Real.log 2 := Real.log_nonneg (by norm_num)
  rw [hc]
  refine ⟨by simp [hel], fun i n x hi _ => ?_⟩
  have hx : (demoSimCfg.ld.pot).energy x = 0 := h0 x
  simp only [hx, zero_div, sub_zero]
  match i with
  | 0 =>
    simp at hi
    subst hi
    simp [abs_of_nonneg h2]
  | 1 =>
    simp at hi
    subst hi
    refine ⟨by norm_num, ?_⟩
    have h4 : Real.log (4 : ℕ) = Real.log 2 + Real.log 2 := by
      rw [← Real.log_mul (by norm_num) (by norm_num)]
      norm_num
    rw [h4]
    simp [abs_of_nonneg h2]
  | i + 2 => simp at hi

end Bdld
