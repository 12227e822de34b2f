import Verif.Props.Newton
import Verif.Props.Polynomial
import Verif.Model.MuellerBrown
import Mathlib.Analysis.Calculus.ContDiff.Operations
import Mathlib.Analysis.SpecialFunctions.ExpDeriv

/-
C130: the frictionless dynamics follows Newton's equations, for all potentials with smooth forces.
-/

namespace Bdld
open Spec Set

variable {d : Nat}

/-- A bound for the continuous function `u` on `[0, T]`. -/
theorem bounded_on {E : Type} [NormedAddCommGroup E] (u : ℝ → E) (T : ℝ) (hu : ContinuousOn u (Icc 0 T)) :
    ∃ M, 0 ≤ M ∧ ∀ t ∈ Icc 0 T, ‖u t‖ ≤ M := by
  obtain ⟨M, h⟩ := isCompact_Icc.exists_bound_of_continuousOn hu
  exact ⟨max M 0, le_max_right _ _, fun t ht => (h t ht).trans (le_max_left _ _)⟩

/-- **C130.** Second order: for forces with continuous second derivatives, positions and momenta of the velocity Verlet steps differ from
the solution of Newton's equations by at most `C h²`, for all sufficiently small time steps `h`, as long as the solution exists. -/
theorem newton_second_order (f : (Fin d → ℝ) → Fin d → ℝ) (hf : ContDiff ℝ 2 f) (m T : ℝ) (hm : 0 < m) (x p : ℝ → Fin d → ℝ)
    (hn : NewtonPath f m T x p) : ∃ C h0 : ℝ, 0 < h0 ∧ ∀ h, 0 ≤ h → h ≤ h0 → ∀ n : ℕ, n * h ≤ T →
      ‖((verlet f m h)^[n] (x 0, p 0)).1 - x (n * h)‖ ≤ C * h ^ 2 ∧ ‖((verlet f m h)^[n] (x 0, p 0)).2 - p (n * h)‖ ≤ C * h ^ 2 := by
  have hd1 : Differentiable ℝ f := hf.differentiable (by norm_num)
  have hd2 : ContDiff ℝ 1 (fderiv ℝ f) := hf.fderiv_right (by norm_num)
  have hd2' : Differentiable ℝ (fderiv ℝ f) := hd2.differentiable (by norm_num)
  have hc2 : Continuous (fderiv ℝ (fderiv ℝ f)) := hd2.continuous_fderiv (by norm_num)
  have cx : ContinuousOn x (Icc 0 T) := fun t ht => (hn.pos t ht).continuousWithinAt
  have cp : ContinuousOn p (Icc 0 T) := fun t ht => (hn.mom t ht).continuousWithinAt
  have hpos : ∀ t ∈ Icc 0 T, HasDerivWithinAt x ((1 / m) • p t) (Icc 0 T) t := fun t ht =>
    (hn.pos t ht).congr_deriv (by funext k; simp [div_eq_inv_mul])
  have hv : ∀ t ∈ Icc 0 T, HasDerivWithinAt (fun t => (1 / m) • p t) ((1 / m) • f (x t)) (Icc 0 T) t := fun t ht =>
    (hn.mom t ht).const_smul (1 / m)
  have hg1 : ∀ t ∈ Icc 0 T, HasDerivWithinAt (fun t => f (x t)) (fderiv ℝ f (x t) ((1 / m) • p t)) (Icc 0 T) t := fun t ht =>
    (hd1 (x t)).hasFDerivAt.comp_hasDerivWithinAt t (hpos t ht)
  have hg2 : ∀ t ∈ Icc 0 T, HasDerivWithinAt (fun t => fderiv ℝ f (x t) ((1 / m) • p t))
      (fderiv ℝ (fderiv ℝ f) (x t) ((1 / m) • p t) ((1 / m) • p t) + fderiv ℝ f (x t) ((1 / m) • f (x t))) (Icc 0 T) t := fun t ht =>
    ((hd2' (x t)).hasFDerivAt.comp_hasDerivWithinAt t (hpos t ht)).clm_apply (hv t ht)
  have cDf : ContinuousOn (fun t => fderiv ℝ f (x t)) (Icc 0 T) := hd2.continuous.comp_continuousOn cx
  have cD2 : ContinuousOn (fun t => fderiv ℝ (fderiv ℝ f) (x t)) (Icc 0 T) := hc2.comp_continuousOn cx
  have cv : ContinuousOn (fun t => (1 / m) • p t) (Icc 0 T) := fun t ht => (hv t ht).continuousWithinAt
  obtain ⟨M1, -, hM1⟩ := bounded_on _ T (cDf.clm_apply cv)
  obtain ⟨M2, -, hM2⟩ := bounded_on _ T (((cD2.clm_apply cv).clm_apply cv).add (cDf.clm_apply ((hf.continuous.comp_continuousOn cx).const_smul (1 / m))))
  obtain ⟨X, -, hX⟩ := bounded_on x T cx
  obtain ⟨L0, hL0⟩ := (isCompact_closedBall (0 : Fin d → ℝ) (X + 1)).exists_bound_of_continuousOn hd2.continuous.continuousOn
  obtain ⟨L, hLd⟩ : ∃ L, L = max L0 1 := ⟨_, rfl⟩
  have hL : 0 < L := by rw [hLd]; positivity
  have hlip : ∀ t ∈ Icc 0 T, ∀ y, ‖y - x t‖ ≤ 1 → ‖f y - f (x t)‖ ≤ L * ‖y - x t‖ := by
    intro t ht y hy
    have hxt := hX t ht
    refine Convex.norm_image_sub_le_of_norm_fderiv_le (𝕜 := ℝ) (s := Metric.closedBall 0 (X + 1)) (fun z _ => hd1 z)
      (fun z hz => (hL0 z hz).trans (by rw [hLd]; exact le_max_left _ _)) (convex_closedBall _ _) ?_ ?_
    · rw [mem_closedBall_zero_iff]; linarith
    · rw [mem_closedBall_zero_iff]
      calc ‖y‖ = ‖x t + (y - x t)‖ := by rw [add_sub_cancel]
        _ ≤ ‖x t‖ + ‖y - x t‖ := norm_add_le _ _
        _ ≤ X + 1 := add_le_add hxt hy
  obtain ⟨Ω, hΩd⟩ : ∃ Ω, Ω = √(L / m) := ⟨_, rfl⟩
  have hΩ : 0 < Ω := by rw [hΩd]; positivity
  obtain ⟨C, hC⟩ : ∃ C, C = (Ω * M1 / 4 + M2 / 12) * T * Real.exp (2 * (Ω * T)) := ⟨_, rfl⟩
  refine ⟨max C (C / (m * Ω)), min (1 / Ω) (min 1 (m * Ω / (|C| + 1))), by positivity, fun h hh hle n hT => ?_⟩
  have b1 : Ω * h ≤ 1 := by
    have := hle.trans (min_le_left _ _)
    rw [le_div_iff₀ hΩ] at this
    linarith
  have b2 : h ≤ 1 := hle.trans ((min_le_right _ _).trans (min_le_left _ _))
  have b3 : (|C| + 1) * h ≤ m * Ω := by
    have := hle.trans ((min_le_right _ _).trans (min_le_right _ _))
    rw [le_div_iff₀ (by positivity)] at this
    linarith
  have b4 : C * h ^ 2 ≤ m * Ω * 1 := by
    have a1 : C * h ^ 2 ≤ |C| * h ^ 2 := mul_le_mul_of_nonneg_right (le_abs_self C) (by positivity)
    have a2 : |C| * h ^ 2 ≤ |C| * h := mul_le_mul_of_nonneg_left (by nlinarith) (abs_nonneg C)
    nlinarith
  have key := newton_global f m T h L M1 M2 1 x p _ _ hm hL hn hg1 hg2 hM1 hM2 hlip hh (by rw [← hΩd]; exact b1)
    (by rw [← hΩd, ← hC]; exact b4) n hT
  rw [← hΩd, ← hC] at key
  have k1 := norm_nonneg (((verlet f m h)^[n] (x 0, p 0)).1 - x (n * h))
  have k2 := norm_nonneg (((verlet f m h)^[n] (x 0, p 0)).2 - p (n * h))
  have hmΩ : 0 < m * Ω := mul_pos hm hΩ
  constructor
  · have : ‖((verlet f m h)^[n] (x 0, p 0)).1 - x (n * h)‖ ≤ C / (m * Ω) * h ^ 2 := by
      rw [div_mul_eq_mul_div, le_div_iff₀ hmΩ]
      linarith
    exact this.trans (mul_le_mul_of_nonneg_right (le_max_right _ _) (by positivity))
  · have : ‖((verlet f m h)^[n] (x 0, p 0)).2 - p (n * h)‖ ≤ C * h ^ 2 := by nlinarith
    exact this.trans (mul_le_mul_of_nonneg_right (le_max_left _ _) (by positivity))

/-! ### The potentials of the program -/

theorem polySum_smooth (s : Fin d → Nat) (c : (Fin d → Nat) → ℝ) : ContDiff ℝ 2 (polySum s c) := by
  unfold polySum
  refine ContDiff.sum fun e _ => contDiff_const.mul ?_
  unfold monomial
  exact contDiff_prod fun k _ => (contDiff_apply ℝ ℝ k).pow _

/-- Forces of polynomial potentials. -/
theorem polyForce_smooth (a : NdArr d) (h : ∀ k, 0 < a.shape k) : ContDiff ℝ 2 (polyForce a) := by
  rw [contDiff_pi]
  intro k
  have : (fun x => polyForce a x k) = fun x => -polySum (polyder a k).shape (polyder a k).val x := by
    funext x
    unfold polyForce
    rw [polyvalNd_eq d x _ fun j => polyder_shape_pos a h k j]
  rw [this]
  exact (polySum_smooth _ _).neg

/-- Forces of the Müller-Brown potential. -/
theorem mbForce_smooth (A : Fin 4 → ℝ) : ContDiff ℝ 2 (fun x => (MB.evaluate A x).2) := by
  rw [contDiff_pi]
  intro k
  have hr : List.finRange 4 = [0, 1, 2, 3] := by decide
  fin_cases k <;> simp only [MB.evaluate, hr, List.foldl_cons, List.foldl_nil, MB.expTmp] <;> simp <;> fun_prop

end Bdld
