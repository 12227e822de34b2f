import Verif.Spec.Generator
import Verif.Props.Newton
import Verif.Props.Stationary
import Mathlib.MeasureTheory.Integral.Pi

/-
C131: short steps follow the Fokker-Planck equations. Overdamped dynamics.
-/

namespace Bdld
open Spec Set MeasureTheory ProbabilityTheory Complex

variable {d : Nat}

/-! ### Plane waves -/

theorem dot_add (k x y : Fin d → ℝ) : dot k (fun j => x j + y j) = dot k x + dot k y := by
  unfold dot
  rw [← Finset.sum_add_distrib]
  exact Finset.sum_congr rfl fun j _ => by ring

theorem dot_mul (k x : Fin d → ℝ) (c : ℝ) : dot k (fun j => c * x j) = c * dot k x := by
  unfold dot
  rw [Finset.mul_sum]
  exact Finset.sum_congr rfl fun j _ => by ring

theorem wave_norm (k x : Fin d → ℝ) : ‖wave k x‖ = 1 := by
  rw [wave, mul_comm]
  exact Complex.norm_exp_ofReal_mul_I _

theorem wave_add (k x y : Fin d → ℝ) : wave k (fun j => x j + y j) = wave k x * wave k y := by
  rw [wave, wave, wave, dot_add, ← Complex.exp_add]
  push_cast
  congr 1
  ring

theorem wave_update (k x : Fin d → ℝ) (j : Fin d) (t : ℝ) :
    HasDerivAt (fun t : ℝ => wave k (Function.update x j t)) (I * k j * wave k (Function.update x j t)) t := by
  have h1 : HasDerivAt (fun t : ℝ => dot k (Function.update x j t)) (k j) t := by
    have : ∀ t, dot k (Function.update x j t) = k j * t + ∑ i ∈ Finset.univ.erase j, k i * x i := by
      intro t
      unfold dot
      rw [← Finset.add_sum_erase _ _ (Finset.mem_univ j), Function.update_self]
      congr 1
      exact Finset.sum_congr rfl fun i hi => by rw [Function.update_of_ne (Finset.ne_of_mem_erase hi)]
    simp only [this]
    simpa using ((hasDerivAt_id t).const_mul (k j)).add_const (∑ i ∈ Finset.univ.erase j, k i * x i)
  have h2 := ((h1.ofReal_comp).const_mul I).cexp
  refine h2.congr_deriv ?_
  rw [wave]
  ring

theorem wave_partial (k : Fin d → ℝ) (j : Fin d) (c : ℂ) : partialD (fun x => c * wave k x) j = fun x => c * (I * k j) * wave k x := by
  funext x
  unfold partialD
  have := ((wave_update k x j (x j)).const_mul c).deriv
  rw [Function.update_eq_self] at this
  rw [this]
  ring

/-- The operator of overdamped dynamics on a plane wave. -/
theorem smoluchowski_wave (f : (Fin d → ℝ) → Fin d → ℝ) (k x : Fin d → ℝ) :
    smoluchowski f (wave k) x = (I * dot k (f x) - dot k k) * wave k x := by
  have h1 : ∀ j, partialD (wave k) j = fun x => (I * k j) * wave k x := fun j => by
    have := wave_partial k j 1
    simpa using this
  unfold smoluchowski
  simp only [h1, wave_partial]
  unfold dot
  push_cast
  rw [Finset.mul_sum, ← Finset.sum_sub_distrib, Finset.sum_mul]
  refine Finset.sum_congr rfl fun j _ => ?_
  linear_combination (k j : ℂ) * k j * wave k x * Complex.I_mul_I

/-- Mean of a plane wave of normal numbers. -/
theorem wave_normal (k : Fin d → ℝ) (c : ℝ) : ∫ n, wave k (fun j => c * n j) ∂(standard d) = exp (-(c ^ 2 * dot k k / 2 : ℝ)) := by
  have h1 : ∀ n : Fin d → ℝ, wave k (fun j => c * n j) = ∏ j, exp (((c * k j : ℝ) : ℂ) * (n j : ℂ) * I) := by
    intro n
    rw [← Complex.exp_sum, wave, dot]
    congr 1
    push_cast
    rw [Finset.mul_sum]
    exact Finset.sum_congr rfl fun j _ => by ring
  simp only [h1]
  unfold standard normals
  rw [integral_fintype_prod_eq_prod (fun j (t : ℝ) => exp (((c * k j : ℝ) : ℂ) * (t : ℂ) * I))]
  simp only [← charFun_apply_real, charFun_gaussianReal]
  rw [← Complex.exp_sum]
  congr 1
  unfold dot
  push_cast
  rw [Finset.mul_sum, Finset.sum_div, ← Finset.sum_neg_distrib]
  refine Finset.sum_congr rfl fun j _ => ?_
  simp
  ring

/-- Second order for the exponential function in the left half plane. -/
theorem exp_second (z : ℂ) (hz : z.re ≤ 0) : ‖exp z - 1 - z‖ ≤ ‖z‖ ^ 2 / 2 ∧ ‖exp z - 1‖ ≤ ‖z‖ := by
  have hd : ∀ t : ℝ, HasDerivAt (fun t : ℝ => exp (t * z)) (z * exp (t * z)) t := fun t => by
    have := ((hasDerivAt_id t).ofReal_comp.mul_const z).cexp
    refine this.congr_deriv ?_
    simp; ring
  have hn : ∀ t : ℝ, 0 ≤ t → ‖exp (t * z)‖ ≤ 1 := fun t ht => by
    rw [Complex.norm_exp]
    refine Real.exp_le_one_iff.2 ?_
    simp only [Complex.mul_re, Complex.ofReal_re, Complex.ofReal_im, zero_mul, sub_zero]
    exact mul_nonpos_of_nonneg_of_nonpos ht hz
  have b1 := integrate_bound (fun t : ℝ => exp (t * z) - 1) (fun t => z * exp (t * z)) 0 1 ‖z‖ 0
    (fun t _ => ((hd t).sub_const 1).hasDerivWithinAt) (by simp) (fun t ht => by
      rw [norm_mul, pow_zero, mul_one]
      exact mul_le_of_le_one_right (norm_nonneg _) (hn t ht.1))
  have b2 := integrate_bound (fun t : ℝ => exp (t * z) - 1 - t * z) (fun t => z * (exp (t * z) - 1)) 0 1 (‖z‖ ^ 2) 1
    (fun t _ => by
      have := ((hd t).sub_const 1).sub ((hasDerivAt_id t).ofReal_comp.mul_const z)
      exact (this.congr_deriv (by simp; ring)).hasDerivWithinAt) (by simp) (fun t ht => by
      have := b1 t ht
      rw [norm_mul]
      refine (mul_le_mul_of_nonneg_left this (norm_nonneg _)).trans (le_of_eq ?_)
      push_cast
      ring)
  have m : (1 : ℝ) ∈ Icc (0 : ℝ) (0 + 1) := by constructor <;> norm_num
  have c1 := b1 1 m
  have c2 := b2 1 m
  constructor
  · refine le_trans (le_of_eq ?_) (c2.trans (le_of_eq ?_))
    · simp
    · push_cast; norm_num
  · refine le_trans (le_of_eq ?_) (c1.trans (le_of_eq ?_))
    · simp
    · norm_num

/-! ### Overdamped dynamics -/

/-- Mean of a plane wave after a step. -/
theorem overdamped_wave (f : (Fin d → ℝ) → Fin d → ℝ) (dt : ℝ) (hdt : 0 ≤ dt) (k x : Fin d → ℝ) :
    ∫ n, wave k (fun j => x j + dt * f x j + √(2 * dt) * n j) ∂(standard d) =
      wave k x * exp (dt * (I * dot k (f x) - dot k k)) := by
  have h1 : ∀ n : Fin d → ℝ, wave k (fun j => x j + dt * f x j + √(2 * dt) * n j) =
      wave k x * wave k (fun j => dt * f x j) * wave k (fun j => √(2 * dt) * n j) := fun n => by
    rw [← wave_add, ← wave_add]
  simp only [h1]
  rw [integral_const_mul, wave_normal, Real.sq_sqrt (by linarith), mul_assoc, wave, wave, dot_mul, ← Complex.exp_add]
  congr 2
  push_cast
  ring

/-- **C131.** Overdamped dynamics without boundary condition: in a step the mean of a plane wave changes by `dt` times the operator of the
Smoluchowski equation at unit temperature, up to an explicit multiple of `dt²`. -/
theorem overdamped_generator (pot : Potential ℝ d) (dt : ℝ) (hbc : pot.bc = none) (hdt : 0 ≤ dt) :
    ∃ T : (Fin d → ℝ) → (Fin d → ℝ) → (Fin d → ℝ),
      (∀ n p, Consistent (overdampedCfg pot dt) p → ∃ p', overdampedStep (overdampedCfg pot dt) n p = .ok p' ∧ p'.pos = T n p.pos) ∧
      ∀ k x, ‖(∫ n, wave k (T n x) ∂(standard d)) - (wave k x + dt * smoluchowski (fun x => (pot.evaluate x).2) (wave k) x)‖ ≤
        (dot k (pot.evaluate x).2 ^ 2 + dot k k ^ 2) / 2 * dt ^ 2 := by
  refine ⟨fun n x j => x j + dt * (pot.evaluate x).2 j + √(2 * dt) * n j, fun n p hp => ?_, fun k x => ?_⟩
  · obtain ⟨p', h1, _, h2⟩ := overdamped_euler_maruyama pot dt hbc n p hp
    exact ⟨p', h1, funext h2⟩
  · rw [overdamped_wave (fun x => (pot.evaluate x).2) dt hdt, smoluchowski_wave]
    have hk : 0 ≤ dot k k := Finset.sum_nonneg fun j _ => mul_self_nonneg _
    have e := (exp_second (dt * (I * dot k (pot.evaluate x).2 - dot k k)) (by
      simp
      exact mul_nonneg hdt hk)).1
    have n2 : ‖(dt : ℂ) * (I * dot k (pot.evaluate x).2 - dot k k)‖ ^ 2 = dt ^ 2 * (dot k (pot.evaluate x).2 ^ 2 + dot k k ^ 2) := by
      rw [norm_mul, mul_pow, ← Complex.normSq_eq_norm_sq (_ - _), Complex.normSq_apply, Complex.norm_real, Real.norm_eq_abs, sq_abs]
      simp
      left
      ring
    rw [n2] at e
    have : wave k x * exp (dt * (I * dot k (pot.evaluate x).2 - dot k k)) - (wave k x + dt * ((I * dot k (pot.evaluate x).2 - dot k k) * wave k x)) =
        wave k x * (exp (dt * (I * dot k (pot.evaluate x).2 - dot k k)) - 1 - dt * (I * dot k (pot.evaluate x).2 - dot k k)) := by ring
    rw [this, norm_mul, wave_norm, one_mul]
    refine e.trans (le_of_eq (by ring))

end Bdld
