import Verif.Props.NewtonSmooth
import Verif.Props.Generator
import Mathlib.Analysis.Calculus.Deriv.Slope

/-
C131: short steps follow the Fokker-Planck equations. Dynamics with momenta.
-/

namespace Bdld
open Spec Set MeasureTheory ProbabilityTheory Complex Filter Topology

variable {d : Nat}

/-- Plane wave of position and momentum. -/
noncomputable def wave2 (k q : Fin d → ℝ) (s : Phase d) : ℂ := wave k s.1 * wave q s.2

/-- The operator of Langevin dynamics on a plane wave. -/
theorem kramers_wave (f : (Fin d → ℝ) → Fin d → ℝ) (m γ kt : ℝ) (k q : Fin d → ℝ) (s : Phase d) :
    kramers f m γ kt (wave2 k q) s =
      (I * (dot k s.2 / m) + I * dot q (f s.1) - I * γ * dot q s.2 - γ * m * kt * dot q q) * wave2 k q s := by
  have h1 : ∀ j, partialD (fun x => wave2 k q (x, s.2)) j = fun x => (I * k j) * wave2 k q (x, s.2) := fun j => by
    have := wave_partial k j (wave q s.2)
    unfold wave2
    dsimp only
    simp only [mul_comm (wave k _) (wave q s.2)]
    rw [this]
    funext x
    ring
  have h2 : ∀ j, partialD (fun p => wave2 k q (s.1, p)) j = fun p => (wave k s.1 * (I * q j)) * wave q p := fun j => by
    exact wave_partial q j (wave k s.1)
  unfold kramers
  simp only [h1, h2, wave_partial]
  unfold wave2 dot
  push_cast
  rw [Finset.sum_div, Finset.mul_sum, Finset.mul_sum, Finset.mul_sum, Finset.mul_sum, ← Finset.sum_add_distrib, ← Finset.sum_sub_distrib,
    ← Finset.sum_sub_distrib, Finset.sum_mul]
  refine Finset.sum_congr rfl fun j _ => ?_
  linear_combination (γ : ℂ) * m * kt * q j * q j * wave k s.1 * wave q s.2 * Complex.I_mul_I

theorem wave_sub (k x y : Fin d → ℝ) : ‖wave k x - wave k y‖ ≤ |dot k x - dot k y| := by
  have h : wave k x - wave k y = wave k y * (exp (I * ((dot k x - dot k y : ℝ) : ℂ)) - 1) := by
    rw [mul_sub, mul_one, wave, wave, ← Complex.exp_add]
    congr 2
    push_cast
    ring
  rw [h, norm_mul, wave_norm, one_mul]
  refine ((exp_second _ (by simp)).2).trans (le_of_eq ?_)
  rw [norm_mul, Complex.norm_I, one_mul, Complex.norm_real, Real.norm_eq_abs]

theorem wave_sub_two (k x y : Fin d → ℝ) : ‖wave k x - wave k y‖ ≤ 2 :=
  (norm_sub_le _ _).trans (by rw [wave_norm, wave_norm]; norm_num)

theorem wave_continuous (k : Fin d → ℝ) : Continuous (wave k) := by
  unfold wave dot
  fun_prop

theorem integrable_wave {X : Type} [MeasurableSpace X] (μ : Measure X) [IsFiniteMeasure μ] (g : X → ℂ) (hg : Measurable g)
    (hb : ∀ x, ‖g x‖ ≤ 1) : Integrable g μ :=
  Integrable.of_bound hg.aestronglyMeasurable 1 (Eventually.of_forall hb)

/-- Mean of a plane wave after a step, with the force at the old position instead of the new one. -/
theorem bussi_wave_frozen (m dt c1 c2 : ℝ) (k q x p F : Fin d → ℝ) :
    ∫ n, wave k (fun j => x j + dt * ((c1 * p j + c2 * n j + dt / 2 * F j) / m)) *
        wave q (fun j => c1 * (c1 * p j + c2 * n j + dt / 2 * F j + dt / 2 * F j)) ∂(standard d) =
      exp (I * (dot k x + dt / m * (c1 * dot k p + dt / 2 * dot k F) + c1 * (c1 * dot q p + dt * dot q F)) -
        c2 ^ 2 * dot (fun j => dt / m * k j + c1 * q j) (fun j => dt / m * k j + c1 * q j) / 2) := by
  have h : ∀ n : Fin d → ℝ, wave k (fun j => x j + dt * ((c1 * p j + c2 * n j + dt / 2 * F j) / m)) *
        wave q (fun j => c1 * (c1 * p j + c2 * n j + dt / 2 * F j + dt / 2 * F j)) =
      exp (I * (dot k x + dt / m * (c1 * dot k p + dt / 2 * dot k F) + c1 * (c1 * dot q p + dt * dot q F))) *
        wave (fun j => dt / m * k j + c1 * q j) (fun j => c2 * n j) := by
    intro n
    unfold wave
    rw [← Complex.exp_add, ← Complex.exp_add]
    congr 1
    rw [← mul_add, ← mul_add]
    congr 1
    norm_cast
    unfold dot
    simp only [Finset.mul_sum, ← Finset.sum_add_distrib, mul_add]
    refine Finset.sum_congr rfl fun j _ => ?_
    ring
  simp only [h]
  rw [integral_const_mul, wave_normal, ← Complex.exp_add]
  congr 1
  push_cast
  ring

/-- Sum of the absolute values of the random numbers. -/
noncomputable def noiseSize (n : Fin d → ℝ) : ℝ := ∑ j, |n j|

theorem noiseSize_integrable : Integrable (noiseSize (d := d)) (standard d) := by
  unfold noiseSize standard normals
  refine integrable_finsetSum _ fun j _ => ?_
  refine integrable_comp_eval (X := fun _ : Fin d => ℝ) (i := j) (f := fun t : ℝ => |t|) ?_
  have := (memLp_id_gaussianReal (μ := 0) (v := (1 : ℝ).toNNReal) 1)
  exact (memLp_one_iff_integrable.1 this).abs

/-- The force at the new position instead of the old one makes a small difference. -/
theorem bussi_wave_defect (f : (Fin d → ℝ) → Fin d → ℝ) (hf : Continuous f) (m c1 c2 dt ε δ : ℝ) (k q x p : Fin d → ℝ) (hm : 0 < m)
    (hc1 : 0 ≤ c1) (hc1' : c1 ≤ 1) (hc2 : 0 ≤ c2) (hdt : 0 ≤ dt) (hε : 0 ≤ ε) (hδ : 0 < δ)
    (hfx : ∀ y, ‖y - x‖ ≤ δ → |dot q (f y) - dot q (f x)| ≤ ε) (hsmall : dt / m * (‖p‖ + dt / 2 * ‖f x‖) ≤ δ / 2) :
    ‖(∫ n, wave k (fun j => x j + dt * ((c1 * p j + c2 * n j + dt / 2 * f x j) / m)) *
        wave q (fun j => c1 * (c1 * p j + c2 * n j + dt / 2 * f x j +
          dt / 2 * f (fun j => x j + dt * ((c1 * p j + c2 * n j + dt / 2 * f x j) / m)) j)) ∂(standard d)) -
      ∫ n, wave k (fun j => x j + dt * ((c1 * p j + c2 * n j + dt / 2 * f x j) / m)) *
        wave q (fun j => c1 * (c1 * p j + c2 * n j + dt / 2 * f x j + dt / 2 * f x j)) ∂(standard d)‖ ≤
      dt * (ε / 2 + 4 * c2 / (m * δ) * ∫ n, noiseSize n ∂(standard d)) := by
  have hcont : ∀ g : (Fin d → ℝ) → Fin d → ℝ, Continuous g → Continuous fun n : Fin d → ℝ =>
      wave k (fun j => x j + dt * ((c1 * p j + c2 * n j + dt / 2 * f x j) / m)) *
        wave q (fun j => c1 * (c1 * p j + c2 * n j + dt / 2 * f x j + dt / 2 * g n j)) := by
    intro g hg
    refine ((wave_continuous k).comp ?_).mul ((wave_continuous q).comp ?_)
    · fun_prop
    · fun_prop
  have hnew : Continuous fun n : Fin d → ℝ => (fun j => x j + dt * ((c1 * p j + c2 * n j + dt / 2 * f x j) / m)) := by fun_prop
  have hint : ∀ g : (Fin d → ℝ) → Fin d → ℝ, Continuous g → Integrable (fun n : Fin d → ℝ =>
      wave k (fun j => x j + dt * ((c1 * p j + c2 * n j + dt / 2 * f x j) / m)) *
        wave q (fun j => c1 * (c1 * p j + c2 * n j + dt / 2 * f x j + dt / 2 * g n j))) (standard d) := fun g hg => by
    have : IsProbabilityMeasure (standard d) := by unfold standard normals; infer_instance
    exact integrable_wave _ _ (hcont g hg).measurable fun n => by rw [norm_mul, wave_norm, wave_norm, one_mul]
  have : IsProbabilityMeasure (standard d) := by unfold standard normals; infer_instance
  rw [← integral_sub (hint (fun n => f (fun j => x j + dt * ((c1 * p j + c2 * n j + dt / 2 * f x j) / m))) (hf.comp hnew)) (hint (fun _ => f x) continuous_const)]
  have hpt : ∀ n : Fin d → ℝ, ‖wave k (fun j => x j + dt * ((c1 * p j + c2 * n j + dt / 2 * f x j) / m)) *
        wave q (fun j => c1 * (c1 * p j + c2 * n j + dt / 2 * f x j +
          dt / 2 * f (fun j => x j + dt * ((c1 * p j + c2 * n j + dt / 2 * f x j) / m)) j)) -
      wave k (fun j => x j + dt * ((c1 * p j + c2 * n j + dt / 2 * f x j) / m)) *
        wave q (fun j => c1 * (c1 * p j + c2 * n j + dt / 2 * f x j + dt / 2 * f x j))‖ ≤
      dt * (ε / 2) + dt * (4 * c2 / (m * δ)) * noiseSize n := by
    intro n
    obtain ⟨y, hy⟩ : ∃ y, y = fun j => x j + dt * ((c1 * p j + c2 * n j + dt / 2 * f x j) / m) := ⟨_, rfl⟩
    rw [← hy, ← mul_sub, norm_mul, wave_norm, one_mul]
    have hns : 0 ≤ noiseSize n := Finset.sum_nonneg fun _ _ => abs_nonneg _
    have hpos1 : 0 ≤ dt * (ε / 2) := by positivity
    have hpos2 : 0 ≤ dt * (4 * c2 / (m * δ)) * noiseSize n := by positivity
    by_cases hyx : ‖y - x‖ ≤ δ
    · refine (wave_sub q _ _).trans ?_
      have e : dot q (fun j => c1 * (c1 * p j + c2 * n j + dt / 2 * f x j + dt / 2 * f y j)) -
          dot q (fun j => c1 * (c1 * p j + c2 * n j + dt / 2 * f x j + dt / 2 * f x j)) = c1 * (dt / 2) * (dot q (f y) - dot q (f x)) := by
        unfold dot
        rw [← Finset.sum_sub_distrib, ← Finset.sum_sub_distrib, Finset.mul_sum]
        exact Finset.sum_congr rfl fun j _ => by ring
      rw [e, abs_mul, abs_of_nonneg (by positivity)]
      calc c1 * (dt / 2) * |dot q (f y) - dot q (f x)| ≤ 1 * (dt / 2) * ε := by
            have := hfx y hyx
            gcongr
        _ ≤ _ := by linarith
    · refine (wave_sub_two q _ _).trans ?_
      rw [not_le] at hyx
      have hle : ‖y - x‖ ≤ dt / m * (‖p‖ + dt / 2 * ‖f x‖) + dt / m * (c2 * noiseSize n) := by
        rw [← mul_add]
        refine (pi_norm_le_iff_of_nonneg (by positivity)).2 fun j => ?_
        rw [Pi.sub_apply, hy, Real.norm_eq_abs]
        have hp := norm_le_pi_norm p j
        have hfj := norm_le_pi_norm (f x) j
        have hnj : |n j| ≤ noiseSize n := Finset.single_le_sum (f := fun j => |n j|) (fun _ _ => abs_nonneg _) (Finset.mem_univ j)
        rw [Real.norm_eq_abs] at hp hfj
        rw [show x j + dt * ((c1 * p j + c2 * n j + dt / 2 * f x j) / m) - x j = dt / m * (c1 * p j + c2 * n j + dt / 2 * f x j) by ring,
          abs_mul, abs_of_nonneg (by positivity)]
        refine mul_le_mul_of_nonneg_left ?_ (by positivity)
        have t1 : |c1 * p j| ≤ ‖p‖ := by
          rw [abs_mul, abs_of_nonneg hc1]
          exact (mul_le_of_le_one_left (abs_nonneg _) hc1').trans hp
        have t2 : |c2 * n j| ≤ c2 * noiseSize n := by
          rw [abs_mul, abs_of_nonneg hc2]
          exact mul_le_mul_of_nonneg_left hnj hc2
        have t3 : |dt / 2 * f x j| ≤ dt / 2 * ‖f x‖ := by
          rw [abs_mul, abs_of_nonneg (by positivity)]
          exact mul_le_mul_of_nonneg_left hfj (by positivity)
        have := abs_add_three (c1 * p j) (c2 * n j) (dt / 2 * f x j)
        linarith
      have h2 : δ / 2 ≤ dt / m * (c2 * noiseSize n) := by linarith
      have h3 : 2 ≤ dt * (4 * c2 / (m * δ)) * noiseSize n := by
        have : dt * (4 * c2 / (m * δ)) * noiseSize n = 4 / δ * (dt / m * (c2 * noiseSize n)) := by field_simp
        rw [this]
        calc (2 : ℝ) = 4 / δ * (δ / 2) := by field_simp; norm_num
          _ ≤ _ := mul_le_mul_of_nonneg_left h2 (by positivity)
      linarith
  refine (norm_integral_le_integral_norm _).trans ?_
  refine (integral_mono_of_nonneg (Eventually.of_forall fun _ => norm_nonneg _)
    ((integrable_const (dt * (ε / 2))).add (noiseSize_integrable.const_mul (dt * (4 * c2 / (m * δ))))) (Eventually.of_forall hpt)).trans ?_
  rw [integral_add' (integrable_const _) (noiseSize_integrable.const_mul _)]
  have e : ∫ n, dt * (4 * c2 / (m * δ)) * noiseSize n ∂(standard d) = dt * (4 * c2 / (m * δ)) * ∫ n, noiseSize n ∂(standard d) :=
    integral_const_mul _ _
  rw [e]
  simp
  rw [mul_add, mul_assoc]

/-- The mean of a plane wave with the force at the old position, as function of the time step. -/
noncomputable def frozenMean (m γ kt : ℝ) (k q x p F : Fin d → ℝ) (dt : ℝ) : ℂ :=
  exp (I * ((dot k x + dt / m * (Real.exp (-(γ * dt / 2)) * dot k p + dt / 2 * dot k F) +
      Real.exp (-(γ * dt / 2)) * (Real.exp (-(γ * dt / 2)) * dot q p + dt * dot q F) : ℝ) : ℂ) -
    ((m * kt * (1 - Real.exp (-(γ * dt))) * (dot q q / 2 + (dt / m * (dt / m) * dot k k + 2 * (dt / m * Real.exp (-(γ * dt / 2))) * dot k q +
      Real.exp (-(γ * dt / 2)) * Real.exp (-(γ * dt / 2)) * dot q q) / 2) : ℝ) : ℂ))

theorem frozenMean_deriv (f : (Fin d → ℝ) → Fin d → ℝ) (m γ kt : ℝ) (k q x p : Fin d → ℝ) :
    HasDerivAt (frozenMean m γ kt k q x p (f x)) (kramers f m γ kt (wave2 k q) (x, p)) 0 := by
  have hc : HasDerivAt (fun dt : ℝ => Real.exp (-(γ * dt / 2))) (-(γ / 2)) 0 := by
    have := ((((hasDerivAt_id (0 : ℝ)).const_mul γ).div_const 2).neg).exp
    refine this.congr_deriv ?_
    simp
  have hV : HasDerivAt (fun dt : ℝ => m * kt * (1 - Real.exp (-(γ * dt)))) (m * kt * γ) 0 := by
    have := ((((hasDerivAt_id (0 : ℝ)).const_mul γ).neg.exp).const_sub 1).const_mul (m * kt)
    refine this.congr_deriv ?_
    simp
  have hi : HasDerivAt (fun dt : ℝ => dt / m) (1 / m) 0 := (hasDerivAt_id (0 : ℝ)).div_const m
  have h2 : HasDerivAt (fun dt : ℝ => dt / 2) (1 / 2) 0 := (hasDerivAt_id (0 : ℝ)).div_const 2
  have h1 : HasDerivAt (fun dt : ℝ => dt) 1 0 := hasDerivAt_id (0 : ℝ)
  have hθ := ((hi.mul ((hc.mul_const (dot k p)).add (h2.mul_const (dot k (f x))))).const_add (dot k x)).add
    (hc.mul ((hc.mul_const (dot q p)).add (h1.mul_const (dot q (f x)))))
  have hρ := hV.mul (((((hi.mul hi).mul_const (dot k k)).add (((hi.mul hc).const_mul 2).mul_const (dot k q))).add
    ((hc.mul hc).mul_const (dot q q))).div_const 2 |>.const_add (dot q q / 2))
  have := ((hθ.ofReal_comp.const_mul I).sub hρ.ofReal_comp).cexp
  refine this.congr_deriv ?_
  rw [kramers_wave, wave2, wave, wave, ← Complex.exp_add]
  simp
  ring_nf

/-- Mean of a plane wave after a step. -/
noncomputable def bussiMean (f : (Fin d → ℝ) → Fin d → ℝ) (m γ kt : ℝ) (k q : Fin d → ℝ) (s : Phase d) (dt : ℝ) : ℂ :=
  ∫ n1, ∫ n2, wave2 k q (bussiParrinello f m dt (Real.exp (-(γ * dt / 2))) (√(m * kt * (1 - Real.exp (-(γ * dt))))) n1 n2 s)
    ∂(standard d) ∂(standard d)

theorem bussiMean_near (f : (Fin d → ℝ) → Fin d → ℝ) (hf : Continuous f) (m γ kt dt ε δ : ℝ) (k q x p : Fin d → ℝ) (hm : 0 < m)
    (hγ : 0 ≤ γ) (hkt : 0 ≤ kt) (hdt : 0 ≤ dt) (hε : 0 ≤ ε) (hδ : 0 < δ)
    (hfx : ∀ y, ‖y - x‖ ≤ δ → |dot q (f y) - dot q (f x)| ≤ ε) (hsmall : dt / m * (‖p‖ + dt / 2 * ‖f x‖) ≤ δ / 2) :
    ‖bussiMean f m γ kt k q (x, p) dt - frozenMean m γ kt k q x p (f x) dt‖ ≤
      dt * (ε / 2 + 4 * √(m * kt * (1 - Real.exp (-(γ * dt)))) / (m * δ) * ∫ n, noiseSize n ∂(standard d)) := by
  obtain ⟨c1, hc1⟩ : ∃ c1, c1 = Real.exp (-(γ * dt / 2)) := ⟨_, rfl⟩
  obtain ⟨c2, hc2⟩ : ∃ c2, c2 = √(m * kt * (1 - Real.exp (-(γ * dt)))) := ⟨_, rfl⟩
  have hV : 0 ≤ m * kt * (1 - Real.exp (-(γ * dt))) := by
    have : Real.exp (-(γ * dt)) ≤ 1 := Real.exp_le_one_iff.2 (by nlinarith [mul_nonneg hγ hdt])
    exact mul_nonneg (by positivity) (by linarith)
  have hc2s : c2 ^ 2 = m * kt * (1 - Real.exp (-(γ * dt))) := by rw [hc2, Real.sq_sqrt hV]
  have hinner : ∀ n1 : Fin d → ℝ, ∫ n2, wave2 k q (bussiParrinello f m dt c1 c2 n1 n2 (x, p)) ∂(standard d) =
      wave k (fun j => x j + dt * ((c1 * p j + c2 * n1 j + dt / 2 * f x j) / m)) *
        wave q (fun j => c1 * (c1 * p j + c2 * n1 j + dt / 2 * f x j +
          dt / 2 * f (fun j => x j + dt * ((c1 * p j + c2 * n1 j + dt / 2 * f x j) / m)) j)) * exp (-(c2 ^ 2 * dot q q / 2 : ℝ)) := by
    intro n1
    rw [← wave_normal, ← integral_const_mul]
    refine integral_congr_ae (Eventually.of_forall fun n2 => ?_)
    simp only [wave2, bussiParrinello, verlet]
    rw [wave_add q, mul_assoc]
  have hfroz : frozenMean m γ kt k q x p (f x) dt =
      (∫ n, wave k (fun j => x j + dt * ((c1 * p j + c2 * n j + dt / 2 * f x j) / m)) *
        wave q (fun j => c1 * (c1 * p j + c2 * n j + dt / 2 * f x j + dt / 2 * f x j)) ∂(standard d)) *
        exp (-(c2 ^ 2 * dot q q / 2 : ℝ)) := by
    have hdd : dot (fun j => dt / m * k j + c1 * q j) (fun j => dt / m * k j + c1 * q j) =
        dt / m * (dt / m) * dot k k + 2 * (dt / m * c1) * dot k q + c1 * c1 * dot q q := by
      unfold dot
      simp only [Finset.mul_sum, ← Finset.sum_add_distrib]
      exact Finset.sum_congr rfl fun j _ => by ring
    rw [bussi_wave_frozen, ← Complex.exp_add, frozenMean, hdd, hc2s, ← hc1]
    have hc : (c2 : ℂ) ^ 2 = m * kt * (1 - exp (-(γ * dt))) := by rw [← Complex.ofReal_pow, hc2s]; push_cast; rfl
    congr 1
    push_cast
    linear_combination (((dt : ℂ) / m) ^ 2 * dot k k / 2 + (dt : ℂ) / m * c1 * dot k q + (c1 : ℂ) ^ 2 * dot q q / 2) * hc
  have hmean : bussiMean f m γ kt k q (x, p) dt =
      (∫ n, wave k (fun j => x j + dt * ((c1 * p j + c2 * n j + dt / 2 * f x j) / m)) *
        wave q (fun j => c1 * (c1 * p j + c2 * n j + dt / 2 * f x j +
          dt / 2 * f (fun j => x j + dt * ((c1 * p j + c2 * n j + dt / 2 * f x j) / m)) j)) ∂(standard d)) *
        exp (-(c2 ^ 2 * dot q q / 2 : ℝ)) := by
    unfold bussiMean
    rw [← hc1, ← hc2]
    simp only [hinner]
    rw [integral_mul_const]
  rw [hmean, hfroz, ← sub_mul, norm_mul, ← hc2]
  have hq : 0 ≤ dot q q := Finset.sum_nonneg fun j _ => mul_self_nonneg _
  have he : ‖exp (-(c2 ^ 2 * dot q q / 2 : ℝ))‖ ≤ 1 := by
    rw [Complex.norm_exp]
    refine Real.exp_le_one_iff.2 ?_
    rw [Complex.neg_re, Complex.ofReal_re]
    have : 0 ≤ c2 ^ 2 * dot q q / 2 := by positivity
    linarith
  refine (mul_le_of_le_one_right (norm_nonneg _) he).trans ?_
  exact bussi_wave_defect f hf m c1 c2 dt ε δ k q x p hm (by rw [hc1]; positivity)
    (by rw [hc1]; exact Real.exp_le_one_iff.2 (by nlinarith [mul_nonneg hγ hdt])) (by rw [hc2]; positivity) hdt hε hδ hfx hsmall

theorem bussiMean_deriv (f : (Fin d → ℝ) → Fin d → ℝ) (hf : Continuous f) (m γ kt : ℝ) (k q : Fin d → ℝ) (s : Phase d) (hm : 0 < m)
    (hγ : 0 ≤ γ) (hkt : 0 ≤ kt) :
    HasDerivWithinAt (bussiMean f m γ kt k q s) (kramers f m γ kt (wave2 k q) s) (Ici 0) 0 := by
  obtain ⟨x, p⟩ := s
  have hdot : Continuous fun y => dot q (f y) := by unfold dot; fun_prop
  have hball : ∀ ε > 0, ∃ δ > 0, ∀ y, ‖y - x‖ ≤ δ → |dot q (f y) - dot q (f x)| ≤ ε := by
    intro ε hε
    obtain ⟨δ, hδ, h⟩ := Metric.continuous_iff.1 hdot x ε hε
    refine ⟨δ / 2, by linarith, fun y hy => ?_⟩
    have := h y (by rw [dist_eq_norm]; linarith)
    rw [Real.dist_eq] at this
    exact this.le
  have hzero : bussiMean f m γ kt k q (x, p) 0 = frozenMean m γ kt k q x p (f x) 0 := by
    obtain ⟨δ, hδ, h⟩ := hball 1 one_pos
    have := bussiMean_near f hf m γ kt 0 1 δ k q x p hm hγ hkt (le_refl _) zero_le_one hδ h (by simp; linarith)
    rw [zero_mul, norm_le_zero_iff, sub_eq_zero] at this
    exact this
  have hlo : (fun dt => bussiMean f m γ kt k q (x, p) dt - frozenMean m γ kt k q x p (f x) dt) =o[𝓝[≥] 0] fun dt : ℝ => dt := by
    rw [Asymptotics.isLittleO_iff]
    intro c hc
    obtain ⟨δ, hδ, h⟩ := hball c hc
    have t1 : Tendsto (fun dt : ℝ => dt / m * (‖p‖ + dt / 2 * ‖f x‖)) (𝓝[≥] 0) (𝓝 0) := by
      have : Continuous fun dt : ℝ => dt / m * (‖p‖ + dt / 2 * ‖f x‖) := by fun_prop
      have := this.tendsto 0
      simp only [zero_div, zero_mul] at this
      exact this.mono_left nhdsWithin_le_nhds
    have t2 : Tendsto (fun dt : ℝ => 4 * √(m * kt * (1 - Real.exp (-(γ * dt)))) / (m * δ) * ∫ n, noiseSize n ∂(standard d)) (𝓝[≥] 0) (𝓝 0) := by
      have : Continuous fun dt : ℝ => 4 * √(m * kt * (1 - Real.exp (-(γ * dt)))) / (m * δ) * ∫ n, noiseSize n ∂(standard d) := by fun_prop
      have := this.tendsto 0
      simp only [mul_zero, neg_zero, Real.exp_zero, sub_self, Real.sqrt_zero, zero_div, zero_mul] at this
      exact this.mono_left nhdsWithin_le_nhds
    filter_upwards [t1.eventually_le_const (show (0 : ℝ) < δ / 2 by linarith), t2.eventually_le_const (show (0 : ℝ) < c / 2 by linarith),
      self_mem_nhdsWithin] with dt h1 h2 h3
    have hdt : 0 ≤ dt := h3
    refine (bussiMean_near f hf m γ kt dt c δ k q x p hm hγ hkt hdt hc.le hδ h h1).trans ?_
    rw [Real.norm_of_nonneg hdt, mul_comm c dt]
    exact mul_le_mul_of_nonneg_left (by linarith) hdt
  have hfro := (frozenMean_deriv f m γ kt k q x p).hasDerivWithinAt (s := Ici 0)
  rw [hasDerivWithinAt_iff_isLittleO] at hfro ⊢
  have := hfro.add (hlo.congr_right fun dt => (sub_zero dt).symm)
  refine this.congr_left fun dt => ?_
  rw [hzero]
  ring

/-- **C131.** Dynamics with momenta without boundary condition: for short time steps the mean of a plane wave of position and momentum
changes by `dt` times the operator of the Klein-Kramers equation. -/
theorem bussi_generator (pot : Potential ℝ d) (friction kt m : ℝ) (hbc : pot.bc = none) (hF : Continuous (fun x => (pot.evaluate x).2))
    (hγ : 0 ≤ friction) (hkt : 0 ≤ kt) (hm : 0 < m) :
    ∃ T : ℝ → (Fin d → ℝ) → (Fin d → ℝ) → Phase d → Phase d,
      (∀ dt n1 n2 p, LdOk (bussiCfg pot dt friction kt) p → p.mass = m → ∃ p',
        bussiStep (bussiCfg pot dt friction kt) n1 n2 p = .ok p' ∧ (p'.pos, p'.mom) = T dt n1 n2 (p.pos, p.mom)) ∧
      ∀ k q s, HasDerivWithinAt (fun dt => ∫ n1, ∫ n2, wave2 k q (T dt n1 n2 s) ∂(standard d) ∂(standard d))
        (kramers (fun x => (pot.evaluate x).2) m friction kt (wave2 k q) s) (Ici 0) 0 := by
  refine ⟨fun dt => bussiParrinello (fun x => (pot.evaluate x).2) m dt (Real.exp (-(friction * dt / 2)))
    (√(m * kt * (1 - Real.exp (-(friction * dt))))), fun dt n1 n2 p hp hpm => ?_, fun k q s => ?_⟩
  · obtain ⟨p', h1, h2, _⟩ := bussi_rule pot dt friction kt hbc n1 n2 p hp
    rw [hpm] at h2
    exact ⟨p', h1, h2⟩
  · exact bussiMean_deriv _ hF m friction kt k q s hm hγ hkt

/-! ### Examples -/

/-- Overdamped dynamics in the double well: the mean of the cosine and the sine of the position after a step from 1. -/
example (dt : ℝ) (hdt : 0 ≤ dt) : ∃ pot, newPolynomial doubleWell none = .ok pot ∧ ∃ T : (Fin 1 → ℝ) → (Fin 1 → ℝ) → (Fin 1 → ℝ),
    (∀ n p, Consistent (overdampedCfg pot dt) p → ∃ p', overdampedStep (overdampedCfg pot dt) n p = .ok p' ∧ p'.pos = T n p.pos) ∧
    ‖(∫ n, wave (fun _ => 1) (T n fun _ => 1) ∂(standard 1)) - (exp I + dt * ((4 * I - 1) * exp I))‖ ≤ 17 / 2 * dt ^ 2 := by
  refine ⟨_, rfl, ?_⟩
  obtain ⟨T, h1, h2⟩ := overdamped_generator (d := 1) ⟨polyEnergy doubleWell, polyForce doubleWell, baseEvaluate (polyEnergy doubleWell) (polyForce doubleWell), _, none⟩
    dt rfl hdt
  refine ⟨T, h1, ?_⟩
  have hf : polyForce doubleWell (fun _ => 1) 0 = 4 := by
    have r3 : List.range 3 = [0, 1, 2] := by decide
    simp [polyForce, polyvalNd, polyder, doubleWell, horner, r3]
    norm_num
  have := h2 (fun _ => 1) (fun _ => 1)
  rw [smoluchowski_wave] at this
  have e1 : dot (d := 1) (fun _ => 1) (fun _ => 1) = 1 := by simp [dot]
  have e2 : dot (d := 1) (fun _ => 1) (polyForce doubleWell fun _ => 1) = 4 := by simp [dot, hf]
  simp only [baseEvaluate, wave, e1, e2] at this
  refine le_trans (le_of_eq ?_) (this.trans (le_of_eq ?_))
  · simp only [wave]
    push_cast
    ring_nf
  · ring

/-- The hypotheses are met by the double well with friction 10 and temperature 1. -/
example (k q : Fin 1 → ℝ) (s : Phase 1) : ∃ pot, newPolynomial doubleWell none = .ok pot ∧
    ∃ T : ℝ → (Fin 1 → ℝ) → (Fin 1 → ℝ) → Phase 1 → Phase 1,
      (∀ dt n1 n2 p, LdOk (bussiCfg pot dt 10 1) p → p.mass = 1 → ∃ p',
        bussiStep (bussiCfg pot dt 10 1) n1 n2 p = .ok p' ∧ (p'.pos, p'.mom) = T dt n1 n2 (p.pos, p.mom)) ∧
      HasDerivWithinAt (fun dt => ∫ n1, ∫ n2, wave2 k q (T dt n1 n2 s) ∂(standard 1) ∂(standard 1))
        (kramers (polyForce doubleWell) 1 10 1 (wave2 k q) s) (Ici 0) 0 := by
  refine ⟨_, rfl, ?_⟩
  obtain ⟨T, h1, h2⟩ := bussi_generator (d := 1) ⟨polyEnergy doubleWell, polyForce doubleWell, baseEvaluate (polyEnergy doubleWell) (polyForce doubleWell), _, none⟩
    10 1 1 rfl (polyForce_smooth _ (fun _ => by simp [doubleWell])).continuous (by norm_num) (by norm_num) (by norm_num)
  exact ⟨T, h1, h2 k q s⟩

end Bdld
