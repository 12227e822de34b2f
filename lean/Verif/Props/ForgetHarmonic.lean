import Verif.Props.Forget
import Verif.Props.StationaryHarmonic
import Mathlib.Analysis.Normed.Module.FiniteDimension

/-
C132: the largest time step for which walkers in a harmonic potential forget where they started, for the integrator of Bussi and
Parrinello.
-/

namespace Bdld

open Spec MeasureTheory ProbabilityTheory Filter Topology

variable {d : Nat}

/-- Distance of two walkers moved with the same random numbers, after a step from the distance `z` before. -/
noncomputable def harmonicDiff (κ : Fin d → ℝ) (m dt c : ℝ) (z : Phase d) : Phase d :=
  (fun k => (1 - κ k * dt ^ 2 / (2 * m)) * z.1 k + c * dt / m * z.2 k,
   fun k => c * (-(dt * κ k * (1 - κ k * dt ^ 2 / (4 * m))) * z.1 k) + c ^ 2 * (1 - κ k * dt ^ 2 / (2 * m)) * z.2 k)

theorem harmonic_diff (κ a : Fin d → ℝ) (m dt c amp : ℝ) (hm : m ≠ 0) (n1 n2 : Fin d → ℝ) (s t : Phase d) :
    bussiParrinello (harmonicForce κ a) m dt c amp n1 n2 s - bussiParrinello (harmonicForce κ a) m dt c amp n1 n2 t =
      harmonicDiff κ m dt c (s - t) := by
  refine Prod.ext (funext fun k => ?_) (funext fun k => ?_)
  · simp only [bussiParrinello, verlet, harmonicForce, harmonicDiff, Prod.fst_sub, Prod.snd_sub, Pi.sub_apply]
    field_simp
    ring
  · simp only [bussiParrinello, verlet, harmonicForce, harmonicDiff, Prod.fst_sub, Prod.snd_sub, Pi.sub_apply]
    field_simp
    ring

/-- The square of a distance that never grows. -/
noncomputable def shadowNorm (κ : Fin d → ℝ) (m dt : ℝ) (z : Phase d) : ℝ :=
  ∑ k, (shadowConstants κ m dt k * z.1 k ^ 2 + z.2 k ^ 2 / m)

theorem harmonicDiff_coord (κ m dt c x p : ℝ) (hm : m ≠ 0) :
    κ * (1 - κ * dt ^ 2 / (4 * m)) * ((1 - κ * dt ^ 2 / (2 * m)) * x + c * dt / m * p) ^ 2 +
      (c * (-(dt * κ * (1 - κ * dt ^ 2 / (4 * m))) * x) + c ^ 2 * (1 - κ * dt ^ 2 / (2 * m)) * p) ^ 2 / m =
    κ * (1 - κ * dt ^ 2 / (4 * m)) * x ^ 2 + p ^ 2 / m - (1 - c ^ 2) * (p ^ 2 / m) -
      (1 - c ^ 2) * ((-(dt * κ * (1 - κ * dt ^ 2 / (4 * m))) * x + c * (1 - κ * dt ^ 2 / (2 * m)) * p) ^ 2 / m) := by
  field_simp
  ring

/-- The distance of two walkers moved with the same random numbers never grows, with any friction. -/
theorem shadowNorm_le (κ : Fin d → ℝ) (m dt c : ℝ) (hm : 0 < m) (hc : c ^ 2 ≤ 1) (z : Phase d) :
    shadowNorm κ m dt (harmonicDiff κ m dt c z) ≤ shadowNorm κ m dt z := by
  unfold shadowNorm
  refine Finset.sum_le_sum fun k _ => ?_
  simp only [shadowConstants, harmonicDiff]
  rw [harmonicDiff_coord _ _ _ _ _ _ hm.ne']
  have h1 : 0 ≤ (1 - c ^ 2) * (z.2 k ^ 2 / m) := mul_nonneg (by linarith) (by positivity)
  have h2 : 0 ≤ (1 - c ^ 2) * ((-(dt * κ k * (1 - κ k * dt ^ 2 / (4 * m))) * z.1 k + c * (1 - κ k * dt ^ 2 / (2 * m)) * z.2 k) ^ 2 / m) :=
    mul_nonneg (by linarith) (by positivity)
  linarith

theorem shadow_pos (κ : Fin d → ℝ) (m dt : ℝ) (hm : 0 < m) (hκ : ∀ k, 0 < κ k) (hs : ∀ k, κ k * dt ^ 2 < 4 * m) (k : Fin d) :
    0 < shadowConstants κ m dt k :=
  mul_pos (hκ k) (by rw [sub_pos, div_lt_one (by linarith)]; exact hs k)

/-- With friction it shrinks. -/
theorem shadowNorm_lt (κ : Fin d → ℝ) (m dt c : ℝ) (hm : 0 < m) (hc : c ^ 2 < 1) (hdt : 0 < dt) (hκ : ∀ k, 0 < κ k)
    (hs : ∀ k, κ k * dt ^ 2 < 4 * m) (z : Phase d) (hz : z ≠ 0) :
    shadowNorm κ m dt (harmonicDiff κ m dt c z) < shadowNorm κ m dt z := by
  have hex : ∃ k, z.1 k ≠ 0 ∨ z.2 k ≠ 0 := by
    by_contra h
    push Not at h
    exact hz (Prod.ext (funext fun k => (h k).1) (funext fun k => (h k).2))
  obtain ⟨j, hj⟩ := hex
  have hpos : ∀ k, 0 ≤ (1 - c ^ 2) * (z.2 k ^ 2 / m) ∧ 0 ≤ (1 - c ^ 2) *
      ((-(dt * κ k * (1 - κ k * dt ^ 2 / (4 * m))) * z.1 k + c * (1 - κ k * dt ^ 2 / (2 * m)) * z.2 k) ^ 2 / m) := fun k =>
    ⟨mul_nonneg (by linarith) (by positivity), mul_nonneg (by linarith) (by positivity)⟩
  unfold shadowNorm
  refine Finset.sum_lt_sum (fun k _ => ?_) ⟨j, Finset.mem_univ _, ?_⟩
  · simp only [shadowConstants, harmonicDiff]
    rw [harmonicDiff_coord _ _ _ _ _ _ hm.ne']
    linarith [(hpos k).1, (hpos k).2]
  · simp only [shadowConstants, harmonicDiff]
    rw [harmonicDiff_coord _ _ _ _ _ _ hm.ne']
    rcases eq_or_ne (z.2 j) 0 with h0 | h0
    · have hx : z.1 j ≠ 0 := hj.resolve_right (not_not.2 h0)
      have hw := shadow_pos κ m dt hm hκ hs j
      unfold shadowConstants at hw
      have h1 : 0 < (1 - c ^ 2) * ((-(dt * κ j * (1 - κ j * dt ^ 2 / (4 * m))) * z.1 j + c * (1 - κ j * dt ^ 2 / (2 * m)) * z.2 j) ^ 2 / m) := by
        refine mul_pos (by linarith) (div_pos (sq_pos_of_ne_zero ?_) hm)
        rw [h0, mul_zero, add_zero]
        refine mul_ne_zero (neg_ne_zero.2 ?_) hx
        rw [mul_assoc]
        exact mul_ne_zero hdt.ne' hw.ne'
      linarith [(hpos j).1]
    · have h1 : 0 < (1 - c ^ 2) * (z.2 j ^ 2 / m) := mul_pos (by linarith) (div_pos (sq_pos_of_ne_zero h0) hm)
      linarith [(hpos j).2]

/-- A quadratic function that is everywhere smaller than another one is smaller by a factor. -/
theorem quadratic_ratio {E : Type} [NormedAddCommGroup E] [NormedSpace ℝ E] [FiniteDimensional ℝ E] (P Q : E → ℝ) (hP : Continuous P)
    (hQ : Continuous Q) (hP2 : ∀ (c : ℝ) z, P (c • z) = c ^ 2 * P z) (hQ2 : ∀ (c : ℝ) z, Q (c • z) = c ^ 2 * Q z) (h0 : ∀ z, 0 ≤ P z)
    (h : ∀ z, z ≠ 0 → P z < Q z) : ∃ r, 0 ≤ r ∧ r < 1 ∧ ∀ z, P z ≤ r * Q z := by
  have : ProperSpace E := FiniteDimensional.proper ℝ E
  have hz0 : P 0 = 0 := by have := hP2 0 0; simpa using this
  have hq0 : Q 0 = 0 := by have := hQ2 0 0; simpa using this
  rcases (Metric.sphere (0 : E) 1).eq_empty_or_nonempty with he | hne
  · refine ⟨0, le_rfl, one_pos, fun z => ?_⟩
    have hz : z = 0 := by
      by_contra hz
      have : ‖z‖⁻¹ • z ∈ Metric.sphere (0 : E) 1 := by
        rw [mem_sphere_zero_iff_norm, norm_smul, norm_inv, norm_norm, inv_mul_cancel₀ (norm_ne_zero_iff.2 hz)]
      rw [he] at this
      exact this
    rw [hz, hz0, zero_mul]
  · have hne0 : ∀ z ∈ Metric.sphere (0 : E) 1, z ≠ 0 := fun z hz h => by
      rw [mem_sphere_zero_iff_norm, h, norm_zero] at hz
      exact zero_ne_one hz
    have hQpos : ∀ z, z ≠ 0 → 0 < Q z := fun z hz => (h0 z).trans_lt (h z hz)
    obtain ⟨w, hw, hmax⟩ := (isCompact_sphere (0 : E) 1).exists_isMaxOn hne
      (f := fun z => P z / Q z) (hP.continuousOn.div hQ.continuousOn fun z hz => (hQpos z (hne0 z hz)).ne')
    refine ⟨P w / Q w, div_nonneg (h0 w) (hQpos w (hne0 w hw)).le, (div_lt_one (hQpos w (hne0 w hw))).2 (h w (hne0 w hw)), fun z => ?_⟩
    rcases eq_or_ne z 0 with rfl | hz
    · rw [hz0, hq0, mul_zero]
    · have hs : ‖z‖⁻¹ • z ∈ Metric.sphere (0 : E) 1 := by
        rw [mem_sphere_zero_iff_norm, norm_smul, norm_inv, norm_norm, inv_mul_cancel₀ (norm_ne_zero_iff.2 hz)]
      have h1 := hmax hs
      simp only [Set.mem_ofPred_eq] at h1
      rw [div_le_iff₀ (hQpos _ (hne0 _ hs)), hP2, hQ2] at h1
      have hn : 0 < (‖z‖⁻¹) ^ 2 := by
        have := norm_pos_iff.2 hz
        positivity
      nlinarith

theorem shadowNorm_nonneg (κ : Fin d → ℝ) (m dt : ℝ) (hm : 0 < m) (hκ : ∀ k, 0 < κ k) (hs : ∀ k, κ k * dt ^ 2 < 4 * m) (z : Phase d) :
    0 ≤ shadowNorm κ m dt z :=
  Finset.sum_nonneg fun k _ => add_nonneg (mul_nonneg (shadow_pos κ m dt hm hκ hs k).le (sq_nonneg _)) (by positivity)

theorem shadowNorm_bounds (κ : Fin d → ℝ) (m dt : ℝ) (hm : 0 < m) (hκ : ∀ k, 0 < κ k) (hs : ∀ k, κ k * dt ^ 2 < 4 * m) :
    ∃ C, 0 ≤ C ∧ ∀ z, ‖z‖ ≤ C * √(shadowNorm κ m dt z) := by
  refine ⟨∑ k, √(1 / shadowConstants κ m dt k) + √m, by positivity, fun z => ?_⟩
  have h0 := shadowNorm_nonneg κ m dt hm hκ hs z
  have hS : 0 ≤ ∑ k, √(1 / shadowConstants κ m dt k) := Finset.sum_nonneg fun k _ => Real.sqrt_nonneg _
  have hle : ∀ k, shadowConstants κ m dt k * z.1 k ^ 2 + z.2 k ^ 2 / m ≤ shadowNorm κ m dt z := fun k =>
    Finset.single_le_sum (f := fun k => shadowConstants κ m dt k * z.1 k ^ 2 + z.2 k ^ 2 / m)
      (fun k _ => add_nonneg (mul_nonneg (shadow_pos κ m dt hm hκ hs k).le (sq_nonneg _)) (by positivity)) (Finset.mem_univ k)
  have hn : 0 ≤ (∑ k, √(1 / shadowConstants κ m dt k) + √m) * √(shadowNorm κ m dt z) := by positivity
  rw [Prod.norm_def, max_le_iff]
  constructor
  · refine (pi_norm_le_iff_of_nonneg hn).2 fun k => ?_
    have hw := shadow_pos κ m dt hm hκ hs k
    have h1 : z.1 k ^ 2 ≤ 1 / shadowConstants κ m dt k * shadowNorm κ m dt z := by
      rw [one_div, ← div_eq_inv_mul, le_div_iff₀ hw, mul_comm]
      have := hle k
      have h2 : 0 ≤ z.2 k ^ 2 / m := by positivity
      linarith
    have h2 : |z.1 k| ≤ √(1 / shadowConstants κ m dt k) * √(shadowNorm κ m dt z) := by
      rw [← Real.sqrt_mul (by positivity)]
      exact Real.abs_le_sqrt h1
    have h3 : √(1 / shadowConstants κ m dt k) ≤ ∑ k, √(1 / shadowConstants κ m dt k) :=
      Finset.single_le_sum (f := fun k => √(1 / shadowConstants κ m dt k)) (fun k _ => Real.sqrt_nonneg _) (Finset.mem_univ k)
    rw [Real.norm_eq_abs]
    refine h2.trans (mul_le_mul_of_nonneg_right ?_ (Real.sqrt_nonneg _))
    linarith [Real.sqrt_nonneg m]
  · refine (pi_norm_le_iff_of_nonneg hn).2 fun k => ?_
    have h1 : z.2 k ^ 2 ≤ m * shadowNorm κ m dt z := by
      have := hle k
      have h2 : 0 ≤ shadowConstants κ m dt k * z.1 k ^ 2 := mul_nonneg (shadow_pos κ m dt hm hκ hs k).le (sq_nonneg _)
      have h3 : z.2 k ^ 2 / m ≤ shadowNorm κ m dt z := by linarith
      rwa [div_le_iff₀ hm, mul_comm] at h3
    have h2 : |z.2 k| ≤ √m * √(shadowNorm κ m dt z) := by
      rw [← Real.sqrt_mul hm.le]
      exact Real.abs_le_sqrt h1
    rw [Real.norm_eq_abs]
    refine h2.trans (mul_le_mul_of_nonneg_right ?_ (Real.sqrt_nonneg _))
    linarith

/-- Below the limit of the time step, walkers with friction approach each other. -/
theorem harmonic_contracts (κ a : Fin d → ℝ) (m dt c amp : ℝ) (hm : 0 < m) (hc : c ^ 2 < 1) (hdt : 0 < dt) (hκ : ∀ k, 0 < κ k)
    (hs : ∀ k, κ k * dt ^ 2 < 4 * m) : ∃ ρ, 0 ≤ ρ ∧ ρ < 1 ∧
      Contracts (bussiParrinello (harmonicForce κ a) m dt c amp) Set.univ (fun s t => √(shadowNorm κ m dt (s - t))) ρ := by
  obtain ⟨r, h0, h1, h2⟩ := quadratic_ratio (fun z => shadowNorm κ m dt (harmonicDiff κ m dt c z)) (shadowNorm κ m dt)
    (by unfold shadowNorm harmonicDiff; fun_prop) (by unfold shadowNorm; fun_prop)
    (fun b z => by
      simp only [shadowNorm, harmonicDiff, Prod.smul_fst, Prod.smul_snd, Pi.smul_apply, smul_eq_mul, Finset.mul_sum]
      exact Finset.sum_congr rfl fun k _ => by ring)
    (fun b z => by
      simp only [shadowNorm, Prod.smul_fst, Prod.smul_snd, Pi.smul_apply, smul_eq_mul, Finset.mul_sum]
      exact Finset.sum_congr rfl fun k _ => by ring)
    (fun z => shadowNorm_nonneg κ m dt hm hκ hs _) (fun z hz => shadowNorm_lt κ m dt c hm hc hdt hκ hs z hz)
  refine ⟨√r, Real.sqrt_nonneg _, by rw [Real.sqrt_lt' one_pos]; simpa using h1, fun n1 n2 s _ => ⟨trivial, fun t _ => ?_⟩⟩
  simp only
  rw [harmonic_diff κ a m dt c amp hm.ne', ← Real.sqrt_mul h0]
  exact Real.sqrt_le_sqrt (h2 _)

/-- Beyond the limit there are walkers that never approach each other. -/
theorem harmonic_apart (κ a : Fin d → ℝ) (m dt c amp : ℝ) (hm : 0 < m) (hc : 0 < c) (hdt : 0 < dt) (j : Fin d)
    (hj : 4 * m ≤ κ j * dt ^ 2) : ∃ (l : ℝ) (z : Phase d), l ≤ -1 ∧ (4 * m < κ j * dt ^ 2 → l < -1) ∧ z ≠ 0 ∧
      ∀ (noise : ℕ → ℕ → Fin d → ℝ) s n, moved (bussiParrinello (harmonicForce κ a) m dt c amp) noise n (s + z) -
        moved (bussiParrinello (harmonicForce κ a) m dt c amp) noise n s = l ^ n • z := by
  set b := 1 - κ j * dt ^ 2 / (2 * m) with hb
  set t := (1 + c ^ 2) * b with ht
  have hb1 : b ≤ -1 := by
    have : 2 ≤ κ j * dt ^ 2 / (2 * m) := by rw [le_div_iff₀ (by linarith)]; linarith
    linarith
  have ht1 : t ≤ -(1 + c ^ 2) := by nlinarith [sq_nonneg c]
  have hdisc : (1 - c ^ 2) ^ 2 ≤ t ^ 2 - 4 * c ^ 2 := by nlinarith [sq_nonneg c]
  have hd0 : 0 ≤ t ^ 2 - 4 * c ^ 2 := le_trans (sq_nonneg _) hdisc
  have hroot : 1 - c ^ 2 ≤ √(t ^ 2 - 4 * c ^ 2) := Real.le_sqrt_of_sq_le hdisc
  set l := (t - √(t ^ 2 - 4 * c ^ 2)) / 2 with hl
  have hchar : l ^ 2 - t * l + c ^ 2 = 0 := by
    have := Real.sq_sqrt hd0
    rw [hl]
    nlinarith
  have heig : harmonicDiff κ m dt c ((Pi.single j (c * dt / m), Pi.single j (l - b)) : Phase d) =
      l • ((Pi.single j (c * dt / m), Pi.single j (l - b)) : Phase d) := by
    refine Prod.ext (funext fun k => ?_) (funext fun k => ?_)
    · rcases eq_or_ne k j with rfl | hk
      · simp only [harmonicDiff, Pi.single_eq_same, Prod.smul_fst, Pi.smul_apply, smul_eq_mul, ← hb]
        ring
      · simp [harmonicDiff, Pi.single_eq_of_ne hk]
    · rcases eq_or_ne k j with rfl | hk
      · simp only [harmonicDiff, Pi.single_eq_same, Prod.smul_snd, Pi.smul_apply, smul_eq_mul, ← hb]
        have e : dt * κ k * (1 - κ k * dt ^ 2 / (4 * m)) * (c * dt / m) = c * (1 - b ^ 2) := by
          rw [hb]
          field_simp
          ring
        rw [ht] at hchar
        linear_combination (-c) * e - hchar
      · simp [harmonicDiff, Pi.single_eq_of_ne hk]
  have hlin : ∀ (x : ℝ) (z : Phase d), harmonicDiff κ m dt c (x • z) = x • harmonicDiff κ m dt c z := by
    intro x z
    refine Prod.ext (funext fun k => ?_) (funext fun k => ?_)
    · simp only [harmonicDiff, Prod.smul_fst, Prod.smul_snd, Pi.smul_apply, smul_eq_mul]
      ring
    · simp only [harmonicDiff, Prod.smul_fst, Prod.smul_snd, Pi.smul_apply, smul_eq_mul]
      ring
  refine ⟨l, (Pi.single j (c * dt / m), Pi.single j (l - b)), by rw [hl]; linarith, fun h => ?_, fun h => ?_, fun noise s n => ?_⟩
  · have : b < -1 := by
      have : 2 < κ j * dt ^ 2 / (2 * m) := by rw [lt_div_iff₀ (by linarith)]; linarith
      linarith
    have : t < -(1 + c ^ 2) := by nlinarith [sq_nonneg c]
    rw [hl]
    linarith
  · have h1 := congrFun (congrArg Prod.fst h) j
    simp only [Pi.single_eq_same, Prod.fst_zero, Pi.zero_apply] at h1
    have : 0 < c * dt / m := by positivity
    exact this.ne' h1
  · induction n with
    | zero => simp [moved]
    | succ n ih =>
      simp only [moved]
      rw [harmonic_diff κ a m dt c amp hm.ne', ih, hlin, heig, smul_smul, pow_succ]

end Bdld
