import Verif.Props.NewtonSmooth
import Verif.Props.MuellerBrown
import Verif.Props.StationaryHarmonic
import Mathlib.Analysis.ODE.ExistUnique
import Mathlib.Analysis.Complex.ExponentialBounds

/-
C130: solutions of Newton's equations and runs without friction.
-/

namespace Bdld
open Spec Set

variable {d : Nat}

/-- There is a solution for every initial position and momentum. -/
theorem newton_exists (f : (Fin d → ℝ) → Fin d → ℝ) (hf : ContDiff ℝ 2 f) (m : ℝ) (x0 p0 : Fin d → ℝ) :
    ∃ T > 0, ∃ x p, NewtonPath f m T x p ∧ x 0 = x0 ∧ p 0 = p0 := by
  have hF : ContDiff ℝ 1 (fun s : Phase d => (((1 / m) • s.2, f s.1) : Phase d)) := by
    have := hf.of_le (show (1 : WithTop ℕ∞) ≤ 2 by norm_num)
    exact (contDiff_snd.const_smul (1 / m)).prodMk (this.comp contDiff_fst)
  obtain ⟨u, hu0, ε, hε, hu⟩ := hF.contDiffAt.exists_forall_mem_closedBall_exists_eq_forall_mem_Ioo_hasDerivAt₀ (x₀ := (x0, p0)) 0
  have mem : ∀ t ∈ Icc 0 (ε / 2), t ∈ Ioo (0 - ε) (0 + ε) := fun t ht => ⟨by linarith [ht.1], by linarith [ht.2]⟩
  refine ⟨ε / 2, by linarith, fun t => (u t).1, fun t => (u t).2, ⟨fun t ht => ?_, fun t ht => ?_⟩, by simp [hu0], by simp [hu0]⟩
  · have := (hasFDerivAt_fst (𝕜 := ℝ) (p := u t)).comp_hasDerivAt t (hu t (mem t ht))
    exact this.hasDerivWithinAt.congr_deriv (by funext k; simp [div_eq_inv_mul])
  · have := (hasFDerivAt_snd (𝕜 := ℝ) (p := u t)).comp_hasDerivAt t (hu t (mem t ht))
    exact this.hasDerivWithinAt.congr_deriv (by simp)

/-- Solutions keep their energy. -/
theorem newton_energy (f : (Fin d → ℝ) → Fin d → ℝ) (U : (Fin d → ℝ) → ℝ) (hU : ∀ x, HasFDerivAt U
      (∑ k, (-f x k) • ContinuousLinearMap.proj (R := ℝ) (φ := fun _ : Fin d => ℝ) k) x) (m T : ℝ) (hm : m ≠ 0) (x p : ℝ → Fin d → ℝ)
    (hn : NewtonPath f m T x p) (t : ℝ) (ht : t ∈ Icc 0 T) : hamiltonian U m (x t, p t) = hamiltonian U m (x 0, p 0) := by
  have hd : ∀ t ∈ Icc 0 T, HasDerivWithinAt (fun t => hamiltonian U m (x t, p t)) 0 (Icc 0 T) t := by
    intro t ht
    have h1 := (hU (x t)).comp_hasDerivWithinAt t (hn.pos t ht)
    have h2 : ∀ k, HasDerivWithinAt (fun t => p t k ^ 2 / (2 * m)) (2 * p t k * f (x t) k / (2 * m)) (Icc 0 T) t := fun k => by
      have := (((hasDerivWithinAt_pi.1 (hn.mom t ht)) k).pow 2).div_const (2 * m)
      exact this.congr_deriv (by simp)
    have h3 := h1.add (HasDerivWithinAt.fun_sum (u := Finset.univ) fun k _ => h2 k)
    refine h3.congr_deriv ?_
    simp only [sum_apply, smul_apply, ContinuousLinearMap.proj_apply, smul_eq_mul]
    rw [← Finset.sum_add_distrib]
    refine Finset.sum_eq_zero fun k _ => ?_
    field_simp
    ring
  have hc : ∀ t ∈ Icc 0 T, ‖hamiltonian U m (x t, p t) - hamiltonian U m (x 0, p 0)‖ ≤ 0 * (t - 0) := by
    refine norm_image_sub_le_of_norm_deriv_right_le_segment (f' := fun _ => 0) (fun t ht => (hd t ht).continuousWithinAt) ?_ (by simp)
    intro t ht
    exact (hd t ⟨ht.1, ht.2.le⟩).mono_of_mem_nhdsWithin (Icc_mem_nhdsGE_of_mem ht)
  have := hc t ht
  rw [zero_mul, norm_le_zero_iff, sub_eq_zero] at this
  exact this

/-- Position and momentum after `n` steps without friction. -/
theorem freeStep_iterate (c : LdCfg ℝ d) (q : LdParticle ℝ d) (n : ℕ) : ((freeStep c)^[n] q).mass = q.mass ∧
    (((freeStep c)^[n] q).pos, ((freeStep c)^[n] q).mom) = (verlet (fun x => (c.pot.evaluate x).2) q.mass c.dt)^[n] (q.pos, q.mom) := by
  induction n with
  | zero => exact ⟨rfl, rfl⟩
  | succ n ih =>
    rw [Function.iterate_succ_apply', Function.iterate_succ_apply', ← ih.2]
    refine ⟨ih.1, ?_⟩
    simp only [freeStep, ih.1]

/-- **C130.** Without friction and boundary condition the particles follow Newton's equations: positions and momenta after `n` steps differ
from the solution at the time `n dt` by at most `C dt²`. The constant belongs to the solution, the random numbers do not matter. -/
theorem frictionless_newton {R : Type} (pot : Potential ℝ d) (hbc : pot.bc = none) (hF : ContDiff ℝ 2 (fun x => (pot.evaluate x).2))
    (m T : ℝ) (hm : 0 < m) (x p : ℝ → Fin d → ℝ) (hn : NewtonPath (fun x => (pot.evaluate x).2) m T x p) :
    ∃ C h0 : ℝ, 0 < h0 ∧ ∀ dt kt, 0 ≤ dt → dt ≤ h0 → ∀ (normal : NormalOps R ℝ d) (s : LdState ℝ d R),
      (∀ q ∈ s.particles, LdOk (bussiCfg pot dt 0 kt) q) → ∀ n : ℕ, n * dt ≤ T →
      ∃ s' : LdState ℝ d R, s.iter .bussi (bussiCfg pot dt 0 kt) normal n = .ok s' ∧ s'.particles.length = s.particles.length ∧
        ∀ (i : ℕ) (q q' : LdParticle ℝ d), s.particles[i]? = some q → s'.particles[i]? = some q' → q.mass = m → q.pos = x 0 → q.mom = p 0 →
          ‖q'.pos - x (n * dt)‖ ≤ C * dt ^ 2 ∧ ‖q'.mom - p (n * dt)‖ ≤ C * dt ^ 2 := by
  obtain ⟨C, h0, hh0, h⟩ := newton_second_order _ hF m T hm x p hn
  refine ⟨C, h0, hh0, fun dt kt hdt hle normal s hs n hT => ?_⟩
  obtain ⟨r, hr⟩ := ld_frictionless pot dt kt hbc normal s hs n
  refine ⟨_, hr, by simp, fun i q q' hq hq' hqm hqx hqp => ?_⟩
  replace hq' : (s.particles.map (freeStep (bussiCfg pot dt 0 kt))^[n])[i]? = some q' := hq'
  rw [List.getElem?_map, hq, Option.map_some, Option.some.injEq] at hq'
  obtain ⟨-, e⟩ := freeStep_iterate (bussiCfg pot dt 0 kt) q n
  rw [hq', hqm, hqx, hqp] at e
  have := h dt hdt hle n hT
  rw [show (verlet (fun x => (pot.evaluate x).2) m dt)^[n] (x 0, p 0) = (q'.pos, q'.mom) from e.symm] at this
  exact this

/-- **C130.** The energy of the particles changes by at most `C dt²` as long as the solution exists, if the forces are minus the gradient. -/
theorem frictionless_energy {R : Type} (pot : Potential ℝ d) (hbc : pot.bc = none) (hF : ContDiff ℝ 2 (fun x => (pot.evaluate x).2))
    (hU : ∀ x, HasFDerivAt pot.energy (∑ k, (-(pot.evaluate x).2 k) • ContinuousLinearMap.proj (R := ℝ) (φ := fun _ : Fin d => ℝ) k) x)
    (m T : ℝ) (hm : 0 < m) (x p : ℝ → Fin d → ℝ) (hn : NewtonPath (fun x => (pot.evaluate x).2) m T x p) :
    ∃ C h0 : ℝ, 0 < h0 ∧ ∀ dt kt, 0 ≤ dt → dt ≤ h0 → ∀ (normal : NormalOps R ℝ d) (s : LdState ℝ d R),
      (∀ q ∈ s.particles, LdOk (bussiCfg pot dt 0 kt) q) → ∀ n : ℕ, n * dt ≤ T →
      ∃ s' : LdState ℝ d R, s.iter .bussi (bussiCfg pot dt 0 kt) normal n = .ok s' ∧ s'.particles.length = s.particles.length ∧
        ∀ (i : ℕ) (q q' : LdParticle ℝ d), s.particles[i]? = some q → s'.particles[i]? = some q' → q.mass = m → q.pos = x 0 → q.mom = p 0 →
          |hamiltonian pot.energy m (q'.pos, q'.mom) - hamiltonian pot.energy m (q.pos, q.mom)| ≤ C * dt ^ 2 := by
  obtain ⟨C, h0, hh0, h⟩ := frictionless_newton (R := R) pot hbc hF m T hm x p hn
  have hH : ContDiff ℝ 1 (hamiltonian pot.energy m) := by
    have hE : ContDiff ℝ 1 pot.energy := by
      rw [contDiff_one_iff_fderiv]
      refine ⟨fun x => (hU x).differentiableAt, ?_⟩
      rw [show fderiv ℝ pot.energy = _ from funext fun x => (hU x).fderiv]
      refine continuous_finsetSum _ fun k _ => Continuous.fun_smul ?_ continuous_const
      exact ((continuous_apply k).comp hF.continuous).neg
    refine (hE.comp contDiff_fst).add (ContDiff.sum fun k _ => ?_)
    exact (((contDiff_apply ℝ ℝ k).comp contDiff_snd).pow 2).div_const _
  have cs : ContinuousOn (fun t => ((x t, p t) : Phase d)) (Icc 0 T) :=
    ContinuousOn.prodMk (fun t ht => (hn.pos t ht).continuousWithinAt) (fun t ht => (hn.mom t ht).continuousWithinAt)
  obtain ⟨X, -, hX⟩ := bounded_on _ T cs
  obtain ⟨L, hL⟩ := (isCompact_closedBall (0 : Phase d) (X + 1)).exists_bound_of_continuousOn
    (hH.continuous_fderiv (by norm_num)).continuousOn
  refine ⟨max L 0 * |C|, min h0 (min 1 (1 / (|C| + 1))), by positivity, fun dt kt hdt hle normal s hs n hT => ?_⟩
  obtain ⟨s', e1, e2, e3⟩ := h dt kt hdt (hle.trans (min_le_left _ _)) normal s hs n hT
  refine ⟨s', e1, e2, fun i q q' hq hq' hqm hqx hqp => ?_⟩
  obtain ⟨b1, b2⟩ := e3 i q q' hq hq' hqm hqx hqp
  have ht : (n : ℝ) * dt ∈ Icc 0 T := ⟨by positivity, hT⟩
  have d1 : dt ≤ 1 := hle.trans ((min_le_right _ _).trans (min_le_left _ _))
  have d2 : (|C| + 1) * dt ≤ 1 := by
    have := hle.trans ((min_le_right _ _).trans (min_le_right _ _))
    rw [le_div_iff₀ (by positivity)] at this
    linarith
  have d3 : C * dt ^ 2 ≤ |C| * dt ^ 2 := mul_le_mul_of_nonneg_right (le_abs_self C) (by positivity)
  have d4 : |C| * dt ^ 2 ≤ 1 := by nlinarith [abs_nonneg C, mul_nonneg (abs_nonneg C) hdt]
  have b3 : ‖((q'.pos, q'.mom) : Phase d) - (x (n * dt), p (n * dt))‖ ≤ |C| * dt ^ 2 := by
    rw [Prod.mk_sub_mk, Prod.norm_mk]
    exact max_le (b1.trans d3) (b2.trans d3)
  rw [hqx, hqp, ← newton_energy _ _ hU m T hm.ne' x p hn _ ht, mul_assoc, ← Real.norm_eq_abs]
  have hxt := hX _ ht
  refine (Convex.norm_image_sub_le_of_norm_fderiv_le (𝕜 := ℝ) (s := Metric.closedBall 0 (X + 1)) (C := max L 0)
    (fun z _ => hH.differentiable (by norm_num) z) (fun z hz => (hL z hz).trans (le_max_left _ _)) (convex_closedBall _ _) ?_ ?_).trans
    (mul_le_mul_of_nonneg_left b3 (le_max_right _ _))
  · rw [mem_closedBall_zero_iff]; linarith
  · rw [mem_closedBall_zero_iff]
    calc ‖((q'.pos, q'.mom) : Phase d)‖ = ‖((x (n * dt), p (n * dt)) : Phase d) + ((q'.pos, q'.mom) - (x (n * dt), p (n * dt)))‖ := by
          rw [add_sub_cancel]
      _ ≤ _ := norm_add_le _ _
      _ ≤ X + 1 := add_le_add hxt (b3.trans d4)

/-! ### The potentials of the program -/

/-- **C130.** The hypotheses about the potential hold for all polynomial potentials. -/
theorem poly_newton {a : NdArr d} (h : ∀ k, 0 < a.shape k) (r : Option (List (ℝ × ℝ))) {pot : Potential ℝ d}
    (hp : newPolynomial a r = .ok pot) : pot.bc = none ∧ ContDiff ℝ 2 (fun x => (pot.evaluate x).2) ∧
      ∀ x, HasFDerivAt pot.energy (∑ k, (-(pot.evaluate x).2 k) • ContinuousLinearMap.proj (R := ℝ) (φ := fun _ : Fin d => ℝ) k) x := by
  unfold newPolynomial at hp
  split_ifs at hp
  cases hp
  exact ⟨rfl, polyForce_smooth a h, fun x => (poly_force a h x).2⟩

/-- **C130.** The hypotheses about the potential hold for the Müller-Brown potential with every scaling. -/
theorem mb_newton (A : Fin 4 → ℝ) : (MB.potential A).bc = none ∧ ContDiff ℝ 2 (fun x => ((MB.potential A).evaluate x).2) ∧
    ∀ x, HasFDerivAt (MB.potential A).energy
      (∑ k, (-((MB.potential A).evaluate x).2 k) • ContinuousLinearMap.proj (R := ℝ) (φ := fun _ : Fin 2 => ℝ) k) x := by
  refine ⟨rfl, mbForce_smooth A, fun x => ?_⟩
  have := (mb_force A x).2
  rw [show ((MB.potential A).evaluate x).2 = MB.force A x from congrArg Prod.snd (mb_evaluate A x)]
  exact this

/-! ### Examples -/

/-- A particle of mass 1 in the parabola `x² / 2`, starting at 1. -/
theorem parabola_newton (T : ℝ) : NewtonPath (polyForce parabola) 1 T (fun t _ => Real.cos t) (fun t _ => -Real.sin t) := by
  refine ⟨fun t _ => ?_, fun t _ => ?_⟩
  · rw [hasDerivWithinAt_pi]
    intro k
    simpa using (Real.hasDerivAt_cos t).hasDerivWithinAt
  · rw [hasDerivWithinAt_pi]
    intro k
    rw [parabola_force]
    exact (Real.hasDerivAt_sin t).fun_neg.hasDerivWithinAt.congr_deriv (by simp [harmonicForce])

/-- A hundred steps of length 0.01: the sum of the errors of position and momentum is at most 0.00025. -/
example (z : Phase 1) (hz : z = (verlet (polyForce parabola) 1 0.01)^[100] (fun _ => Real.cos 0, fun _ => -Real.sin 0)) :
    ‖z.1 - fun _ => Real.cos 1‖ + ‖z.2 - fun _ => -Real.sin 1‖ ≤ 0.00025 := by
  have hf : ∀ t : ℝ, polyForce parabola (fun _ => Real.cos t) = fun _ => -Real.cos t := fun t => by
    rw [parabola_force]; funext k; simp [harmonicForce]
  have hΩ : √((1 : ℝ) / 1) = 1 := by norm_num
  have h1 := Real.exp_one_lt_d9
  have h2 := Real.exp_pos 1
  have e2 : Real.exp (2 * (1 * 1)) = Real.exp 1 * Real.exp 1 := by rw [← Real.exp_add]; norm_num
  have bound : (1 * 1 / 4 + 1 / 12) * 1 * Real.exp (2 * (1 * 1)) * 0.01 ^ 2 ≤ 0.00025 := by
    rw [e2]
    nlinarith
  have := newton_global (polyForce parabola) 1 1 0.01 1 1 1 1 (fun t _ => Real.cos t) (fun t _ => -Real.sin t) (fun t _ => Real.sin t)
    (fun t _ => Real.cos t) one_pos one_pos (parabola_newton 1) (fun t _ => by
      simp only [hf]
      rw [hasDerivWithinAt_pi]
      intro k
      simpa using (Real.hasDerivAt_cos t).fun_neg.hasDerivWithinAt) (fun t _ => by
      rw [hasDerivWithinAt_pi]
      intro k
      exact (Real.hasDerivAt_sin t).hasDerivWithinAt)
    (fun t _ => (pi_norm_le_iff_of_nonneg zero_le_one).2 fun _ => Real.abs_sin_le_one t)
    (fun t _ => (pi_norm_le_iff_of_nonneg zero_le_one).2 fun _ => Real.abs_cos_le_one t)
    (fun t _ y _ => by
      rw [parabola_force, parabola_force, one_mul, ← norm_neg (y - _)]
      refine le_of_eq (congrArg _ ?_)
      funext k
      simp [harmonicForce]
      ring) (by norm_num) (by rw [hΩ]; norm_num) (by
        rw [hΩ]
        exact bound.trans (by norm_num)) 100 (by norm_num)
  rw [← hz, hΩ, show ((100 : ℕ) : ℝ) * 0.01 = 1 by norm_num] at this
  refine le_trans (le_of_eq ?_) (this.trans bound)
  rw [one_mul, one_mul]

/-- Every particle in the double well follows a solution for some time. -/
example (x0 p0 : Fin 1 → ℝ) : ∃ T > 0, ∃ x p, NewtonPath (polyForce doubleWell) 2 T x p ∧ x 0 = x0 ∧ p 0 = p0 :=
  newton_exists _ (polyForce_smooth _ (fun _ => by simp [doubleWell])) 2 x0 p0

end Bdld
