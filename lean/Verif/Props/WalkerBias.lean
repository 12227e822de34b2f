import Verif.Props.ManyWalkers
import Verif.Props.ManyWalkersDemo
import Mathlib.Probability.Moments.Variance
import Mathlib.MeasureTheory.Integral.Prod

/-
C146: the density at the walkers for a given number of walkers: expectation, spread and the share of the walker itself.
-/

namespace Bdld

open MeasureTheory ProbabilityTheory Filter Topology Spec

variable {d : Nat} {Ω : Type} [MeasurableSpace Ω] {P : Measure Ω} {ν : Measure (Fin d → ℝ)} {X : ℕ → Ω → Fin d → ℝ}

theorem kernel_sub_measurable (bw : Fin d → ℝ) (x : Fin d → ℝ) : Measurable (fun y => kernel bw (x - y)) :=
  ((kernel_continuous bw).comp (by fun_prop)).measurable

/-- Expectation of a function of one walker. -/
theorem Spec.Sample.expect (h : Sample P ν X) (f : (Fin d → ℝ) → ℝ) (hf : Measurable f) (i : ℕ) :
    ∫ ω, f (X i ω) ∂P = ∫ y, f y ∂ν := by
  rw [← h.law i]
  exact (integral_map (h.measurable i).aemeasurable hf.aestronglyMeasurable).symm

theorem Spec.Sample.kernel_integrable [IsProbabilityMeasure ν] (h : Sample P ν X) (bw : Fin d → ℝ) (hbw : ∀ k, 0 < bw k)
    (x : Fin d → ℝ) (i : ℕ) : Integrable (fun ω => kernel bw (x - X i ω)) P := by
  have := h.prob
  exact Integrable.of_bound ((kernel_sub_measurable bw x).comp (h.measurable i)).aestronglyMeasurable (kernel bw 0)
    (Eventually.of_forall fun ω => kernel_abs_le bw hbw _)

/-- **C146.** At a given point the estimate has no bias, for every number of walkers. -/
theorem kde_mean [IsProbabilityMeasure ν] (h : Sample P ν X) (bw : Fin d → ℝ) (hbw : ∀ k, 0 < bw k) (n : ℕ) (hn : n ≠ 0)
    (x : Fin d → ℝ) : ∫ ω, kde bw (fun j : Fin n => X j ω) x ∂P = smoothed bw ν x := by
  unfold kde
  rw [integral_div, integral_finsetSum _ (fun (j : Fin n) _ => h.kernel_integrable bw hbw x j)]
  have : ∀ j : Fin n, ∫ ω, kernel bw (x - X j ω) ∂P = smoothed bw ν x := fun j =>
    h.expect (fun y => kernel bw (x - y)) (kernel_sub_measurable bw x) j
  simp only [this, Finset.sum_const, Finset.card_univ, Fintype.card_fin, nsmul_eq_mul]
  have hn' : (n : ℝ) ≠ 0 := by exact_mod_cast hn
  field_simp

/-- **C146.** Its variance decreases with the number of walkers. -/
theorem kde_variance [IsProbabilityMeasure ν] (h : Sample P ν X) (bw : Fin d → ℝ) (hbw : ∀ k, 0 < bw k) (n : ℕ)
    (hn : n ≠ 0) (x : Fin d → ℝ) :
    variance (fun ω => kde bw (fun j : Fin n => X j ω) x) P = variance (fun y => kernel bw (x - y)) ν / n ∧
    variance (fun y => kernel bw (x - y)) ν ≤ kernel bw 0 * smoothed bw ν x := by
  have := h.prob
  have hm := kernel_sub_measurable bw x
  have hn' : (n : ℝ) ≠ 0 := by exact_mod_cast hn
  constructor
  · have hL : ∀ j ∈ Finset.range n, MemLp (fun ω => kernel bw (x - X j ω)) 2 P := fun j _ =>
      MemLp.of_bound (hm.comp (h.measurable j)).aestronglyMeasurable (kernel bw 0)
        (Eventually.of_forall fun ω => kernel_abs_le bw hbw _)
    have hI : Set.Pairwise (↑(Finset.range n)) (fun i j => IndepFun (fun ω => kernel bw (x - X i ω))
        (fun ω => kernel bw (x - X j ω)) P) := fun i _ j _ hij => (h.indep hij).comp hm hm
    have hs := IndepFun.variance_sum hL hI
    have hv : ∀ j, variance (fun ω => kernel bw (x - X j ω)) P = variance (fun y => kernel bw (x - y)) ν := by
      intro j
      rw [← h.law j]
      exact (variance_map hm.aemeasurable (h.measurable j).aemeasurable).symm
    simp only [hv, Finset.sum_const, Finset.card_range, nsmul_eq_mul] at hs
    have he : (fun ω => kde bw (fun j : Fin n => X j ω) x) =
        fun ω => (1 / n : ℝ) * (∑ j ∈ Finset.range n, fun ω => kernel bw (x - X j ω)) ω := by
      funext ω
      unfold kde
      rw [Finset.sum_apply, Finset.sum_range]
      ring
    rw [he, variance_const_mul, hs]
    field_simp
  · have h1 := variance_le_expectation_sq (μ := ν) (X := fun y => kernel bw (x - y)) hm.aestronglyMeasurable
    refine h1.trans ?_
    have hi := Bdld.kernel_integrable bw hbw ν x
    unfold smoothed
    rw [← integral_const_mul]
    refine integral_mono_of_nonneg (Eventually.of_forall fun y => sq_nonneg _) (hi.const_mul _)
      (Eventually.of_forall fun y => ?_)
    simp only [Pi.pow_apply, sq]
    exact mul_le_mul_of_nonneg_right (kernel_le_zero bw hbw _) (kernel_pos bw _ hbw).le

/-- **C146.** Probability of a deviation. -/
theorem kde_deviation [IsProbabilityMeasure ν] (h : Sample P ν X) (bw : Fin d → ℝ) (hbw : ∀ k, 0 < bw k) (n : ℕ)
    (hn : n ≠ 0) (x : Fin d → ℝ) {ε : ℝ} (hε : 0 < ε) :
    P {ω | ε ≤ |kde bw (fun j : Fin n => X j ω) x - smoothed bw ν x|} ≤
      ENNReal.ofReal (kernel bw 0 * smoothed bw ν x / (n * ε ^ 2)) := by
  have := h.prob
  have hmeas : Measurable (fun ω => kde bw (fun j : Fin n => X j ω) x) := by
    unfold kde
    exact (Finset.measurable_sum _ fun (j : Fin n) _ => (kernel_sub_measurable bw x).comp (h.measurable j)).div_const _
  have hnp : (0 : ℝ) < n := by exact_mod_cast Nat.pos_of_ne_zero hn
  have hb : ∀ ω, ‖kde bw (fun j : Fin n => X j ω) x‖ ≤ kernel bw 0 := by
    intro ω
    unfold kde
    rw [norm_div, Real.norm_of_nonneg hnp.le, div_le_iff₀ hnp]
    refine (norm_sum_le _ _).trans ((Finset.sum_le_sum fun j _ => kernel_abs_le bw hbw _).trans (le_of_eq ?_))
    simp [mul_comm]
  have h1 := meas_ge_le_variance_div_sq (μ := P) (MemLp.of_bound hmeas.aestronglyMeasurable (kernel bw 0)
    (Eventually.of_forall hb) : MemLp (fun ω => kde bw (fun j : Fin n => X j ω) x) 2 P) hε
  rw [kde_mean h bw hbw n hn x] at h1
  refine h1.trans (ENNReal.ofReal_le_ofReal ?_)
  obtain ⟨v1, v2⟩ := kde_variance h bw hbw n hn x
  rw [v1, div_div]
  exact div_le_div_of_nonneg_right v2 (by positivity)

/-- Expectation of a function of two walkers. -/
theorem Spec.Sample.expect_two [IsProbabilityMeasure ν] (h : Sample P ν X) (f : (Fin d → ℝ) → (Fin d → ℝ) → ℝ)
    (hf : Measurable (Function.uncurry f)) (B : ℝ) (hB : ∀ x y, ‖f x y‖ ≤ B) {i j : ℕ} (hij : i ≠ j) :
    ∫ ω, f (X i ω) (X j ω) ∂P = ∫ x, ∫ y, f x y ∂ν ∂ν := by
  have := h.prob
  have hlaw : P.map (fun ω => (X i ω, X j ω)) = ν.prod ν := by
    have := (indepFun_iff_map_prod_eq_prod_map_map (h.measurable i).aemeasurable (h.measurable j).aemeasurable).1
      (h.indep hij)
    rw [this, h.law i, h.law j]
  have h1 : ∫ ω, f (X i ω) (X j ω) ∂P = ∫ p, Function.uncurry f p ∂(ν.prod ν) := by
    rw [← hlaw]
    exact (integral_map ((h.measurable i).prodMk (h.measurable j)).aemeasurable hf.aestronglyMeasurable).symm
  rw [h1, integral_prod]
  · rfl
  · exact Integrable.of_bound hf.aestronglyMeasurable B (Eventually.of_forall fun p => hB p.1 p.2)

/-- **C146.** The density that the program calculates at a walker counts the walker itself: given the position `x` of the
walker (here: weighted with any bounded function of it), its expectation is `(K(0) + (n - 1) (K * ν)(x)) / n`. -/
theorem walker_mean [IsProbabilityMeasure ν] (h : Sample P ν X) (bw : Fin d → ℝ) (hbw : ∀ k, 0 < bw k) (n : ℕ)
    (i : Fin n) (g : (Fin d → ℝ) → ℝ) (hg : Measurable g) (B : ℝ) (hB : ∀ x, |g x| ≤ B) :
    ∫ ω, g (X i ω) * walkerDensity (fun j : Fin n => X j ω) bw i ∂P =
      ∫ x, g x * ((kernel bw 0 + (n - 1) * smoothed bw ν x) / n) ∂ν := by
  have := h.prob
  have hK := (kernel_continuous bw).measurable
  have hB0 : 0 ≤ B := (abs_nonneg _).trans (hB 0)
  have hf : Measurable (Function.uncurry (fun x y : Fin d → ℝ => g x * kernel bw (x - y))) := by
    unfold Function.uncurry
    exact (hg.comp measurable_fst).mul (hK.comp (measurable_fst.sub measurable_snd))
  have hfB : ∀ x y : Fin d → ℝ, ‖g x * kernel bw (x - y)‖ ≤ B * kernel bw 0 := by
    intro x y
    rw [norm_mul]
    exact mul_le_mul (hB x) (kernel_abs_le bw hbw _) (norm_nonneg _) hB0
  have hint : ∀ j : Fin n, Integrable (fun ω => g (X i ω) * kernel bw (X i ω - X j ω)) P := fun j =>
    Integrable.of_bound (hf.comp ((h.measurable i).prodMk (h.measurable j))).aestronglyMeasurable (B * kernel bw 0)
      (Eventually.of_forall fun ω => hfB _ _)
  have hgi : Integrable g ν := Integrable.of_bound hg.aestronglyMeasurable B (Eventually.of_forall fun x => hB x)
  have hsm := (smoothed_continuous bw hbw ν).measurable
  have hsB : ∀ x, ‖smoothed bw ν x‖ ≤ kernel bw 0 := by
    intro x
    unfold smoothed
    refine (norm_integral_le_of_norm_le_const (C := kernel bw 0) (Eventually.of_forall fun y => kernel_abs_le bw hbw _)).trans ?_
    simp
  have hgs : Integrable (fun x => g x * smoothed bw ν x) ν :=
    Integrable.of_bound (hg.mul hsm).aestronglyMeasurable (B * kernel bw 0) (Eventually.of_forall fun x => by
      rw [norm_mul]
      exact mul_le_mul (hB x) (hsB x) (norm_nonneg _) hB0)
  have hval : ∀ j : Fin n, ∫ ω, g (X i ω) * kernel bw (X i ω - X j ω) ∂P =
      if j = i then kernel bw 0 * ∫ x, g x ∂ν else ∫ x, g x * smoothed bw ν x ∂ν := by
    intro j
    split_ifs with hj
    · subst hj
      simp only [sub_self]
      rw [integral_mul_const, h.expect g hg j, mul_comm]
    · rw [h.expect_two (fun x y => g x * kernel bw (x - y)) hf _ hfB (i := i) (j := j)
        (fun e => hj (Fin.ext e.symm))]
      refine integral_congr_ae (Eventually.of_forall fun x => ?_)
      simp only [smoothed]
      exact integral_const_mul _ _
  have hn : (n : ℝ) ≠ 0 := by
    have := i.pos
    exact_mod_cast this.ne'
  have e1 : ∀ ω, g (X i ω) * walkerDensity (fun j : Fin n => X j ω) bw i =
      (∑ j : Fin n, g (X i ω) * kernel bw (X i ω - X j ω)) / n := by
    intro ω
    rw [(density_agree (fun j : Fin n => X j ω) bw).2 i]
    unfold kde
    rw [← Finset.mul_sum, mul_div_assoc]
  simp only [e1]
  rw [integral_div, integral_finsetSum _ (fun j _ => hint j), Finset.sum_congr rfl (fun j _ => hval j)]
  have e2 : (∑ j : Fin n, if j = i then kernel bw 0 * ∫ x, g x ∂ν else ∫ x, g x * smoothed bw ν x ∂ν) =
      kernel bw 0 * (∫ x, g x ∂ν) + (n - 1) * ∫ x, g x * smoothed bw ν x ∂ν := by
    rw [← Finset.add_sum_erase _ _ (Finset.mem_univ i), if_pos rfl, Finset.sum_congr rfl (g := fun _ => ∫ x, g x * smoothed bw ν x ∂ν)
      (fun j hj => if_neg (Finset.ne_of_mem_erase hj)), Finset.sum_const, Finset.card_erase_of_mem (Finset.mem_univ i),
      Finset.card_univ, Fintype.card_fin, nsmul_eq_mul, Nat.cast_pred i.pos]
  rw [e2]
  have e3 : (fun x => g x * ((kernel bw 0 + (n - 1) * smoothed bw ν x) / n)) =
      fun x => (kernel bw 0 / n) * g x + ((n - 1) / n) * (g x * smoothed bw ν x) := by
    funext x
    ring
  rw [e3, integral_add (hgi.const_mul _) (hgs.const_mul _), integral_const_mul, integral_const_mul]
  ring

theorem kernel_lt_zero (bw : Fin d → ℝ) (hbw : ∀ k, 0 < bw k) {x : Fin d → ℝ} (hx : x ≠ 0) : kernel bw x < kernel bw 0 := by
  obtain ⟨k, hk⟩ := Function.ne_iff.1 hx
  unfold kernel normalPdf
  refine Finset.prod_lt_prod (fun k _ => ?_) (fun k _ => ?_) ⟨k, Finset.mem_univ k, ?_⟩
  · have := hbw k
    positivity
  · have h := hbw k
    refine mul_le_mul_of_nonneg_left (Real.exp_le_exp.2 ?_) (by positivity)
    simp only [Pi.zero_apply, ne_eq, OfNat.ofNat_ne_zero, not_false_eq_true, zero_pow, zero_div, neg_zero]
    have : 0 ≤ x k ^ 2 / (2 * bw k ^ 2) := by positivity
    linarith
  · have h := hbw k
    refine mul_lt_mul_of_pos_left (Real.exp_lt_exp.2 ?_) (by positivity)
    simp only [Pi.zero_apply, ne_eq, OfNat.ofNat_ne_zero, not_false_eq_true, zero_pow, zero_div, neg_zero] at hk ⊢
    have : 0 < x k ^ 2 / (2 * bw k ^ 2) := by positivity
    linarith

/-- **C146.** On average the density at the walkers is too large by `(K(0) - ∫ (K * ν) dν) / n`; this is positive unless all
walkers are at the same point. -/
theorem walker_bias [IsProbabilityMeasure ν] (h : Sample P ν X) (bw : Fin d → ℝ) (hbw : ∀ k, 0 < bw k) (n : ℕ)
    (i : Fin n) :
    ∫ ω, walkerDensity (fun j : Fin n => X j ω) bw i ∂P - ∫ x, smoothed bw ν x ∂ν =
      (kernel bw 0 - ∫ x, smoothed bw ν x ∂ν) / n ∧
    0 ≤ kernel bw 0 - ∫ x, smoothed bw ν x ∂ν ∧
    (kernel bw 0 - ∫ x, smoothed bw ν x ∂ν = 0 ↔ ∃ a, ∀ᵐ y ∂ν, y = a) := by
  have hn : (n : ℝ) ≠ 0 := by
    have := i.pos
    exact_mod_cast this.ne'
  have hsB : ∀ x, smoothed bw ν x ≤ kernel bw 0 := by
    intro x
    unfold smoothed
    refine (integral_mono (Bdld.kernel_integrable bw hbw ν x) (integrable_const _) (fun y => kernel_le_zero bw hbw (x - y))).trans ?_
    simp
  have hsi : Integrable (smoothed bw ν) ν :=
    Integrable.of_bound (smoothed_continuous bw hbw ν).aestronglyMeasurable (kernel bw 0)
      (Eventually.of_forall fun x => by
        rw [Real.norm_of_nonneg (smoothed_pos bw hbw ν x).le]
        exact hsB x)
  have hd : kernel bw 0 - ∫ x, smoothed bw ν x ∂ν = ∫ x, (kernel bw 0 - smoothed bw ν x) ∂ν := by
    rw [integral_sub (integrable_const _) hsi]
    simp
  refine ⟨?_, ?_, ?_⟩
  · have h1 := walker_mean h bw hbw n i (fun _ => 1) measurable_const 1 (fun _ => by simp)
    simp only [one_mul] at h1
    rw [h1]
    have e : (fun x => (kernel bw 0 + (n - 1) * smoothed bw ν x) / n) =
        fun x => kernel bw 0 / n + ((n - 1) / n) * smoothed bw ν x := by
      funext x
      ring
    rw [e, integral_add (integrable_const _) (hsi.const_mul _), integral_const_mul]
    simp only [integral_const, probReal_univ, smul_eq_mul, one_mul]
    field_simp
    ring
  · rw [hd]
    exact integral_nonneg fun x => sub_nonneg.2 (hsB x)
  · rw [hd, integral_eq_zero_iff_of_nonneg (fun x => sub_nonneg.2 (hsB x)) ((integrable_const _).sub hsi)]
    constructor
    · intro h0
      obtain ⟨a, ha⟩ := h0.exists
      refine ⟨a, ?_⟩
      have ha' : smoothed bw ν a = kernel bw 0 := by
        simp only [Pi.zero_apply] at ha
        linarith
      have h2 : ∫ y, (kernel bw 0 - kernel bw (a - y)) ∂ν = 0 := by
        rw [integral_sub (integrable_const _) (Bdld.kernel_integrable bw hbw ν a)]
        unfold smoothed at ha'
        rw [ha']
        simp
      rw [integral_eq_zero_iff_of_nonneg (fun y => sub_nonneg.2 (kernel_le_zero bw hbw _))
        ((integrable_const _).sub (Bdld.kernel_integrable bw hbw ν a))] at h2
      filter_upwards [h2] with y hy
      by_contra hne
      have := kernel_lt_zero bw hbw (x := a - y) (sub_ne_zero.2 (fun e => hne e.symm))
      simp only [Pi.zero_apply] at hy
      linarith
    · rintro ⟨a, ha⟩
      filter_upwards [ha] with x hx
      have : smoothed bw ν x = kernel bw 0 := by
        unfold smoothed
        rw [integral_congr_ae (g := fun _ => kernel bw 0) (by
          filter_upwards [ha] with y hy
          rw [hx, hy, sub_self])]
        simp
      rw [this, sub_self]
      rfl

/-! ### Example -/

/-- Walkers in the unit square: the bias is positive. -/
example (n : ℕ) (i : Fin n) : ∫ x, smoothed ![0.1, 0.2] squareUniform x ∂squareUniform <
    ∫ ω, walkerDensity (fun j : Fin n => ω j) ![0.1, 0.2] i ∂(Measure.infinitePi (fun _ : ℕ => squareUniform)) := by
  have hbw : ∀ k, 0 < (![0.1, 0.2] : Fin 2 → ℝ) k := by
    intro k
    fin_cases k <;> norm_num
  obtain ⟨h1, h2, h3⟩ := walker_bias (sample_exists squareUniform) ![0.1, 0.2] hbw n i
  have hne : kernel ![0.1, 0.2] 0 - ∫ x, smoothed ![0.1, 0.2] squareUniform x ∂squareUniform ≠ 0 := by
    rw [ne_eq, h3]
    rintro ⟨a, ha⟩
    have h0 : squareUniform {a}ᶜ = 0 := ha
    have h4 : squareUniform {a} = 0 := by
      unfold squareUniform
      rw [Measure.pi_singleton]
      simp
    have h5 : squareUniform Set.univ = 0 := by
      rw [← Set.union_compl_self {a}]
      exact measure_union_null h4 h0
    simp at h5
  have hn : (0 : ℝ) < n := by exact_mod_cast i.pos
  have := div_pos (lt_of_le_of_ne h2 hne.symm) hn
  linarith

end Bdld
