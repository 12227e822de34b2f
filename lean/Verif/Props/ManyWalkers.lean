import Verif.Spec.ManyWalkers
import Verif.Props.Rates
import Mathlib.Probability.StrongLaw
import Mathlib.Topology.ContinuousMap.Compact

/-
C139: with many walkers the rates are those of the birth-death equation.
-/

namespace Bdld

open MeasureTheory ProbabilityTheory Filter Topology Spec

variable {d : Nat}

theorem kernel_continuous (bw : Fin d → ℝ) : Continuous (kernel bw) := by
  unfold kernel normalPdf
  fun_prop

theorem kernel_le_zero (bw : Fin d → ℝ) (hbw : ∀ k, 0 < bw k) (x : Fin d → ℝ) : kernel bw x ≤ kernel bw 0 := by
  unfold kernel normalPdf
  refine Finset.prod_le_prod (fun k _ => ?_) (fun k _ => ?_)
  · have := hbw k
    positivity
  · have h := hbw k
    refine mul_le_mul_of_nonneg_left (Real.exp_le_exp.2 ?_) (by positivity)
    simp only [Pi.zero_apply, ne_eq, OfNat.ofNat_ne_zero, not_false_eq_true, zero_pow, zero_div, neg_zero]
    have : 0 ≤ x k ^ 2 / (2 * bw k ^ 2) := by positivity
    linarith

theorem kernel_abs_le (bw : Fin d → ℝ) (hbw : ∀ k, 0 < bw k) (x : Fin d → ℝ) : ‖kernel bw x‖ ≤ kernel bw 0 := by
  rw [Real.norm_eq_abs, abs_of_pos (kernel_pos bw x hbw)]
  exact kernel_le_zero bw hbw x

theorem kernel_integrable (bw : Fin d → ℝ) (hbw : ∀ k, 0 < bw k) (ν : Measure (Fin d → ℝ)) [IsProbabilityMeasure ν]
    (x : Fin d → ℝ) : Integrable (fun y => kernel bw (x - y)) ν :=
  Integrable.of_bound ((kernel_continuous bw).comp (by fun_prop)).aestronglyMeasurable (kernel bw 0)
    (Eventually.of_forall fun y => kernel_abs_le bw hbw _)

theorem smoothed_continuous (bw : Fin d → ℝ) (hbw : ∀ k, 0 < bw k) (ν : Measure (Fin d → ℝ)) [IsProbabilityMeasure ν] :
    Continuous (smoothed bw ν) := by
  unfold smoothed
  refine continuous_of_dominated (bound := fun _ => kernel bw 0) (fun x => ?_) (fun x => ?_) (integrable_const _) ?_
  · exact ((kernel_continuous bw).comp (by fun_prop)).aestronglyMeasurable
  · exact Eventually.of_forall fun y => kernel_abs_le bw hbw _
  · exact Eventually.of_forall fun y => (kernel_continuous bw).comp (by fun_prop)

theorem smoothed_pos (bw : Fin d → ℝ) (hbw : ∀ k, 0 < bw k) (ν : Measure (Fin d → ℝ)) [IsProbabilityMeasure ν]
    (x : Fin d → ℝ) : 0 < smoothed bw ν x := by
  unfold smoothed
  rw [integral_pos_iff_support_of_nonneg (fun y => (kernel_pos bw _ hbw).le) (kernel_integrable bw hbw ν x)]
  have : Function.support (fun y => kernel bw (x - y)) = Set.univ :=
    Set.eq_univ_of_forall fun y => (kernel_pos bw _ hbw).ne'
  rw [this, measure_univ]
  exact one_pos

variable {Ω : Type} [MeasurableSpace Ω] {P : Measure Ω} {ν : Measure (Fin d → ℝ)} {X : ℕ → Ω → Fin d → ℝ}

theorem Spec.Sample.ident (h : Sample P ν X) (i : ℕ) : IdentDistrib (X i) (X 0) P P where
  aemeasurable_fst := (h.measurable i).aemeasurable
  aemeasurable_snd := (h.measurable 0).aemeasurable
  map_eq := by rw [h.law i, h.law 0]

/-- Averages over the walkers tend to the expectation. -/
theorem sample_average [IsProbabilityMeasure ν] (h : Sample P ν X) (f : (Fin d → ℝ) → ℝ)
    (hm : Measurable f) (hf : Integrable f ν) :
    ∀ᵐ ω ∂P, Tendsto (fun n : ℕ => (∑ i ∈ Finset.range n, f (X i ω)) / n) atTop (𝓝 (∫ y, f y ∂ν)) := by
  have hint : Integrable (fun ω => f (X 0 ω)) P := by
    rw [← h.law 0] at hf
    exact hf.comp_measurable (h.measurable 0)
  have h1 := strong_law_ae_real (μ := P) (fun i ω => f (X i ω)) hint
    (fun i j hij => (h.indep hij).comp hm hm) (fun i => (h.ident i).comp hm)
  have h2 : ∫ ω, f (X 0 ω) ∂P = ∫ y, f y ∂ν := by
    rw [← h.law 0]
    exact (integral_map (h.measurable 0).aemeasurable hm.aestronglyMeasurable).symm
  rw [← h2]
  exact h1

/-- The kernel centred at `y` as continuous function on the set. -/
noncomputable def kernelFun (bw : Fin d → ℝ) (S : Set (Fin d → ℝ)) (y : Fin d → ℝ) : C(S, ℝ) :=
  ⟨fun x => kernel bw (x.1 - y), (kernel_continuous bw).comp (by fun_prop)⟩

theorem kernelFun_continuous (bw : Fin d → ℝ) (S : Set (Fin d → ℝ)) : Continuous (kernelFun bw S) := by
  refine ContinuousMap.continuous_of_continuous_uncurry _ ?_
  exact (kernel_continuous bw).comp (by fun_prop)

/-- The kernel density estimate of independent walkers tends to the smoothed density, uniformly on every compact set. -/
theorem kde_uniform [IsProbabilityMeasure ν] (h : Sample P ν X) (bw : Fin d → ℝ) (hbw : ∀ k, 0 < bw k)
    {S : Set (Fin d → ℝ)} (hS : IsCompact S) :
    ∀ᵐ ω ∂P, ∀ ε > 0, ∃ N, ∀ n ≥ N, ∀ x ∈ S,
      |kde bw (fun j : Fin n => X j ω) x - smoothed bw ν x| < ε := by
  have : CompactSpace S := isCompact_iff_compactSpace.1 hS
  borelize C(S, ℝ)
  have hc := kernelFun_continuous bw S
  have hsm : StronglyMeasurable (kernelFun bw S) := hc.stronglyMeasurable
  have hb : ∀ y, ‖kernelFun bw S y‖ ≤ kernel bw 0 := fun y =>
    (ContinuousMap.norm_le _ (kernel_pos bw 0 hbw).le).2 (fun x => kernel_abs_le bw hbw _)
  have : IsProbabilityMeasure P := by
    have h1 : (P.map (X 0)) Set.univ = 1 := by rw [h.law 0]; exact measure_univ
    rw [Measure.map_apply (h.measurable 0) MeasurableSet.univ, Set.preimage_univ] at h1
    exact ⟨h1⟩
  have hint : Integrable (fun ω => kernelFun bw S (X 0 ω)) P :=
    Integrable.of_bound (hsm.comp_measurable (h.measurable 0)).aestronglyMeasurable (kernel bw 0)
      (Eventually.of_forall fun ω => hb _)
  have h1 := strong_law_ae (μ := P) (fun i ω => kernelFun bw S (X i ω)) hint
    (fun i j hij => (h.indep hij).comp hc.measurable hc.measurable) (fun i => (h.ident i).comp hc.measurable)
  have hval : ∀ x : S, (∫ ω, kernelFun bw S (X 0 ω) ∂P) x = smoothed bw ν x := by
    intro x
    have h2 := (ContinuousMap.evalCLM ℝ x).integral_comp_comm hint
    have h3 : (∫ ω, kernelFun bw S (X 0 ω) ∂P) x = ∫ ω, kernel bw (x.1 - X 0 ω) ∂P := h2.symm
    rw [h3]
    unfold smoothed
    rw [← h.law 0]
    exact (integral_map (h.measurable 0).aemeasurable
      ((kernel_continuous bw).comp (by fun_prop)).aestronglyMeasurable).symm
  filter_upwards [h1] with ω hω ε hε
  obtain ⟨N, hN⟩ := Metric.tendsto_atTop.1 hω ε hε
  refine ⟨N, fun n hn x hx => ?_⟩
  have h4 := (ContinuousMap.dist_apply_le_dist (⟨x, hx⟩ : S)).trans_lt (hN n hn)
  rw [hval, Real.dist_eq] at h4
  refine lt_of_eq_of_lt ?_ h4
  congr 2
  unfold kde
  rw [ContinuousMap.coe_smul, Pi.smul_apply, ContinuousMap.coe_sum, Finset.sum_apply, smul_eq_mul, div_eq_inv_mul,
    Finset.sum_range]
  rfl

theorem Spec.Sample.prob [IsProbabilityMeasure ν] (h : Sample P ν X) : IsProbabilityMeasure P := by
  have h1 : (P.map (X 0)) Set.univ = 1 := by rw [h.law 0]; exact measure_univ
  rw [Measure.map_apply (h.measurable 0) MeasurableSet.univ, Set.preimage_univ] at h1
  exact ⟨h1⟩

/-- Almost surely all walkers are where the distribution is. -/
theorem Spec.Sample.mem (h : Sample P ν X) {S : Set (Fin d → ℝ)} (hS : ∀ᵐ y ∂ν, y ∈ S) :
    ∀ᵐ ω ∂P, ∀ i, X i ω ∈ S := by
  rw [ae_all_iff]
  intro i
  rw [← h.law i] at hS
  exact ae_of_ae_map (h.measurable i).aemeasurable hS

private theorem log_close {a b m ε : ℝ} (hm : 0 < m) (hb : m ≤ b) (hε : 0 < ε)
    (h : |a - b| < min (m / 2) (ε * m / 2)) : |Real.log a - Real.log b| < ε := by
  have h1 : |a - b| < m / 2 := h.trans_le (min_le_left _ _)
  have h2 : |a - b| < ε * m / 2 := h.trans_le (min_le_right _ _)
  have ha : m / 2 < a := by
    have := (abs_lt.1 h1).1
    linarith
  have ha0 : 0 < a := by linarith
  have hb0 : 0 < b := by linarith
  have key : ∀ x y : ℝ, m / 2 < x → 0 < y → Real.log y - Real.log x ≤ (y - x) / x := by
    intro x y hx hy
    have hx0 : 0 < x := by linarith
    rw [← Real.log_div hy.ne' hx0.ne']
    refine (Real.log_le_sub_one_of_pos (div_pos hy hx0)).trans (le_of_eq ?_)
    field_simp
  have bound : ∀ x y : ℝ, m / 2 < x → |y - x| < ε * m / 2 → (y - x) / x < ε := by
    intro x y hx hxy
    have hx0 : 0 < x := by linarith
    rw [div_lt_iff₀ hx0]
    have := (abs_lt.1 hxy).2
    nlinarith
  rw [abs_lt]
  constructor
  · have g1 := key a b ha hb0
    have g2 := bound a b ha (by rw [abs_sub_comm]; exact h2)
    linarith
  · have g1 := key b a (by linarith) ha0
    have g2 := bound b a (by linarith) h2
    linarith

/-- The smoothed density is bounded from below on a compact set. -/
theorem smoothed_lower (bw : Fin d → ℝ) (hbw : ∀ k, 0 < bw k) (ν : Measure (Fin d → ℝ)) [IsProbabilityMeasure ν]
    {S : Set (Fin d → ℝ)} (hS : IsCompact S) : ∃ m, 0 < m ∧ ∀ x ∈ S, m ≤ smoothed bw ν x := by
  rcases S.eq_empty_or_nonempty with rfl | hne
  · exact ⟨1, one_pos, fun x hx => hx.elim⟩
  · obtain ⟨x0, hx0, hmin⟩ := hS.exists_isMinOn hne (smoothed_continuous bw hbw ν).continuousOn
    exact ⟨_, smoothed_pos bw hbw ν x0, fun x hx => hmin hx⟩

/-- The logarithms tend uniformly on every compact set, too. -/
theorem log_kde_uniform [IsProbabilityMeasure ν] (h : Sample P ν X) (bw : Fin d → ℝ) (hbw : ∀ k, 0 < bw k)
    {S : Set (Fin d → ℝ)} (hS : IsCompact S) :
    ∀ᵐ ω ∂P, ∀ ε > 0, ∃ N, ∀ n ≥ N, ∀ x ∈ S,
      |Real.log (kde bw (fun j : Fin n => X j ω) x) - Real.log (smoothed bw ν x)| < ε := by
  obtain ⟨m, hm, hlow⟩ := smoothed_lower bw hbw ν hS
  filter_upwards [kde_uniform h bw hbw hS] with ω hω ε hε
  obtain ⟨N, hN⟩ := hω (min (m / 2) (ε * m / 2)) (lt_min (by linarith) (by positivity))
  exact ⟨N, fun n hn x hx => log_close hm (hlow x hx) hε (hN n hn x hx)⟩

theorem log_smoothed_continuous (bw : Fin d → ℝ) (hbw : ∀ k, 0 < bw k) (ν : Measure (Fin d → ℝ))
    [IsProbabilityMeasure ν] : Continuous (fun x => Real.log (smoothed bw ν x)) :=
  (smoothed_continuous bw hbw ν).log (fun x => (smoothed_pos bw hbw ν x).ne')

theorem log_smoothed_integrable (bw : Fin d → ℝ) (hbw : ∀ k, 0 < bw k) (ν : Measure (Fin d → ℝ))
    [IsProbabilityMeasure ν] {S : Set (Fin d → ℝ)} (hS : IsCompact S) (hin : ∀ᵐ y ∂ν, y ∈ S) :
    Integrable (fun x => Real.log (smoothed bw ν x)) ν := by
  have hc := log_smoothed_continuous bw hbw ν
  obtain ⟨b, hb⟩ := hS.exists_bound_of_continuousOn hc.continuousOn
  refine Integrable.of_bound hc.aestronglyMeasurable b ?_
  filter_upwards [hin] with y hy using hb y hy

/-- The function `f` of the rates: `U / kT`, or the correction in the multiplicative variant. -/
noncomputable def rateTerm (c : RateCfg d) (U : (Fin d → ℝ) → ℝ) (x : Fin d → ℝ) : ℝ :=
  if c.variant = .mult then c.approx x else U x / c.kt

/-- C139: the rates of independent walkers in a bounded region. Almost surely, the rates of all walkers tend uniformly to
the rates of the birth-death equation for the distribution of the walkers, plus the correction in the additive variant. -/
theorem rates_many [IsProbabilityMeasure ν] (h : Sample P ν X) (c : RateCfg d) (hbw : ∀ k, 0 < c.bw k)
    (U : (Fin d → ℝ) → ℝ) {S : Set (Fin d → ℝ)} (hS : IsCompact S) (hin : ∀ᵐ y ∂ν, y ∈ S)
    (hm : Measurable (rateTerm c U)) (hf : Integrable (rateTerm c U) ν) :
    ∀ᵐ ω ∂P, ∀ ε > 0, ∃ N, ∀ n ≥ N, ∀ i : Fin n, ∃ b : ℝ,
      calcBetas c (fun j : Fin n => X j ω) (fun j => U (X j ω)) i = (b : WithBot ℝ) ∧
      |b - (limitRate c.bw ν (rateTerm c U) (X i ω) + if c.variant = .add then c.approx (X i ω) else 0)| < ε := by
  have hli := log_smoothed_integrable c.bw hbw ν hS hin
  have hlm := (log_smoothed_continuous c.bw hbw ν).measurable
  filter_upwards [log_kde_uniform h c.bw hbw hS, h.mem hin,
    sample_average h (fun y => Real.log (smoothed c.bw ν y) + rateTerm c U y) (hlm.add hm) (hli.add hf)]
    with ω hu hmem havg ε hε
  obtain ⟨N1, hN1⟩ := hu (ε / 3) (by linarith)
  obtain ⟨N2, hN2⟩ := Metric.tendsto_atTop.1 havg (ε / 3) (by linarith)
  refine ⟨max N1 N2, fun n hn i => ⟨_, rates_eq c hbw _ _ i, ?_⟩⟩
  have hn1 : N1 ≤ n := (le_max_left _ _).trans hn
  have hn0 : (0 : ℝ) < n := by exact_mod_cast i.pos
  have hraw : ∀ j : Fin n, rawRate c (fun j : Fin n => X j ω) (fun j => U (X j ω)) j =
      Real.log (kde c.bw (fun j : Fin n => X j ω) (X j ω)) + rateTerm c U (X j ω) := fun j => rfl
  have hi := hN1 n hn1 (X i ω) (hmem i)
  have ha := hN2 n ((le_max_right _ _).trans hn)
  rw [Real.dist_eq, Finset.sum_range] at ha
  have hdiff : |(∑ j : Fin n, rawRate c (fun j : Fin n => X j ω) (fun j => U (X j ω)) j) / n -
      (∑ j : Fin n, (Real.log (smoothed c.bw ν (X j ω)) + rateTerm c U (X j ω))) / n| ≤ ε / 3 := by
    rw [← sub_div, ← Finset.sum_sub_distrib, abs_div, abs_of_pos hn0, div_le_iff₀ hn0]
    refine (Finset.abs_sum_le_sum_abs _ _).trans ((Finset.sum_le_sum (g := fun _ => ε / 3)
      (fun j _ => ?_)).trans (le_of_eq ?_))
    · rw [hraw, add_sub_add_right_eq_sub]
      exact (hN1 n hn1 (X j ω) (hmem j)).le
    · rw [Finset.sum_const, Finset.card_univ, Fintype.card_fin, nsmul_eq_mul, mul_comm]
  unfold centred limitRate
  rw [hraw i]
  rw [abs_lt] at hi ha ⊢
  rw [abs_le] at hdiff
  constructor <;> linarith [hi.1, hi.2, ha.1, ha.2, hdiff.1, hdiff.2]

/-- C139, multiplicative variant: with the exact correction `-log (K * π)` and walkers distributed according to `π`, the
rates of all walkers tend to zero. -/
theorem rates_many_mult [IsProbabilityMeasure ν] (h : Sample P ν X) (c : RateCfg d) (hbw : ∀ k, 0 < c.bw k)
    (hv : c.variant = .mult) (U : (Fin d → ℝ) → ℝ) {S : Set (Fin d → ℝ)} (hS : IsCompact S) (hin : ∀ᵐ y ∂ν, y ∈ S)
    (ha : ∀ x, c.approx x = -Real.log (smoothed c.bw ν x)) :
    ∀ᵐ ω ∂P, ∀ ε > 0, ∃ N, ∀ n ≥ N, ∀ i : Fin n, ∃ b : ℝ,
      calcBetas c (fun j : Fin n => X j ω) (fun j => U (X j ω)) i = (b : WithBot ℝ) ∧ |b| < ε := by
  have hterm : rateTerm c U = fun x => -Real.log (smoothed c.bw ν x) := by
    funext x
    rw [rateTerm, if_pos hv, ha]
  have hli := log_smoothed_integrable c.bw hbw ν hS hin
  have hlm := (log_smoothed_continuous c.bw hbw ν).measurable
  have h1 := rates_many h c hbw U hS hin (by rw [hterm]; exact hlm.neg) (by rw [hterm]; exact hli.neg)
  filter_upwards [h1] with ω hω ε hε
  obtain ⟨N, hN⟩ := hω ε hε
  refine ⟨N, fun n hn i => ?_⟩
  obtain ⟨b, hb, hlt⟩ := hN n hn i
  refine ⟨b, hb, ?_⟩
  rw [hv, if_neg (by decide), hterm] at hlt
  unfold limitRate at hlt
  simpa using hlt

/-- C139, additive variant: with the exact correction
`-log ((K * π) / π) + ∫ log ((K * π) / π) dπ` and walkers distributed according to `π = exp(-U / kT) / Z`, the rates of
all walkers tend to zero. -/
theorem rates_many_add [IsProbabilityMeasure ν] (h : Sample P ν X) (c : RateCfg d) (hbw : ∀ k, 0 < c.bw k)
    (hv : c.variant = .add) (U : (Fin d → ℝ) → ℝ) (Z : ℝ) (hZ : 0 < Z) {S : Set (Fin d → ℝ)} (hS : IsCompact S)
    (hin : ∀ᵐ y ∂ν, y ∈ S) (hm : Measurable U) (hf : Integrable U ν)
    (ha : ∀ x, c.approx x = -Real.log (smoothed c.bw ν x / (Real.exp (-U x / c.kt) / Z)) +
      ∫ y, Real.log (smoothed c.bw ν y / (Real.exp (-U y / c.kt) / Z)) ∂ν) :
    ∀ᵐ ω ∂P, ∀ ε > 0, ∃ N, ∀ n ≥ N, ∀ i : Fin n, ∃ b : ℝ,
      calcBetas c (fun j : Fin n => X j ω) (fun j => U (X j ω)) i = (b : WithBot ℝ) ∧ |b| < ε := by
  have hterm : rateTerm c U = fun x => U x / c.kt := by
    funext x
    rw [rateTerm, hv, if_neg (by decide)]
  have hlog : ∀ x, Real.log (smoothed c.bw ν x / (Real.exp (-U x / c.kt) / Z)) =
      (Real.log (smoothed c.bw ν x) + U x / c.kt) + Real.log Z := by
    intro x
    rw [Real.log_div (smoothed_pos c.bw hbw ν x).ne' (div_pos (Real.exp_pos _) hZ).ne',
      Real.log_div (Real.exp_pos _).ne' hZ.ne', Real.log_exp]
    ring
  have hli := log_smoothed_integrable c.bw hbw ν hS hin
  have hfi : Integrable (fun x => U x / c.kt) ν := hf.div_const _
  have hint : ∫ y, Real.log (smoothed c.bw ν y / (Real.exp (-U y / c.kt) / Z)) ∂ν =
      (∫ y, (Real.log (smoothed c.bw ν y) + U y / c.kt) ∂ν) + Real.log Z := by
    have hsum : Integrable (fun y => Real.log (smoothed c.bw ν y) + U y / c.kt) ν := hli.add hfi
    simp only [hlog]
    rw [integral_add hsum (integrable_const _)]
    simp
  have h1 := rates_many h c hbw U hS hin (by rw [hterm]; exact hm.div_const _) (by rw [hterm]; exact hfi)
  filter_upwards [h1] with ω hω ε hε
  obtain ⟨N, hN⟩ := hω ε hε
  refine ⟨N, fun n hn i => ?_⟩
  obtain ⟨b, hb, hlt⟩ := hN n hn i
  refine ⟨b, hb, ?_⟩
  rw [hv, if_pos rfl, hterm, ha, hlog, hint] at hlt
  unfold limitRate at hlt
  refine lt_of_eq_of_lt ?_ hlt
  congr 1
  ring

/-- C139, original variant: the rates tend to the deviation of `log ((K * ν) / π)` from its average, whatever the
distribution of the walkers. They tend to zero only if the smoothed density is proportional to `π`. -/
theorem rates_many_orig [IsProbabilityMeasure ν] (h : Sample P ν X) (c : RateCfg d) (hbw : ∀ k, 0 < c.bw k)
    (hv : c.variant = .orig) (U : (Fin d → ℝ) → ℝ) {S : Set (Fin d → ℝ)} (hS : IsCompact S)
    (hin : ∀ᵐ y ∂ν, y ∈ S) (hm : Measurable U) (hf : Integrable U ν) :
    ∀ᵐ ω ∂P, ∀ ε > 0, ∃ N, ∀ n ≥ N, ∀ i : Fin n, ∃ b : ℝ,
      calcBetas c (fun j : Fin n => X j ω) (fun j => U (X j ω)) i = (b : WithBot ℝ) ∧
      |b - limitRate c.bw ν (fun x => U x / c.kt) (X i ω)| < ε := by
  have hterm : rateTerm c U = fun x => U x / c.kt := by
    funext x
    rw [rateTerm, hv, if_neg (by decide)]
  have h1 := rates_many h c hbw U hS hin (by rw [hterm]; exact hm.div_const _) (by rw [hterm]; exact hf.div_const _)
  rw [hterm, hv] at h1
  simpa using h1

/-- The rate of the birth-death equation vanishes on the whole region exactly if the smoothed density is proportional to
the Boltzmann factor there. -/
theorem limitRate_zero_iff (bw : Fin d → ℝ) (hbw : ∀ k, 0 < bw k) (ν : Measure (Fin d → ℝ)) [IsProbabilityMeasure ν]
    (U : (Fin d → ℝ) → ℝ) (kt : ℝ) {S : Set (Fin d → ℝ)} (hin : ∀ᵐ y ∂ν, y ∈ S) :
    (∀ x ∈ S, limitRate bw ν (fun x => U x / kt) x = 0) ↔
      ∃ a, 0 < a ∧ ∀ x ∈ S, smoothed bw ν x = a * Real.exp (-U x / kt) := by
  constructor
  · intro h
    refine ⟨Real.exp (∫ y, (Real.log (smoothed bw ν y) + U y / kt) ∂ν), Real.exp_pos _, fun x hx => ?_⟩
    have h1 := h x hx
    unfold limitRate at h1
    rw [← sub_eq_zero.1 h1, ← Real.exp_add, neg_div, add_neg_cancel_right, Real.exp_log (smoothed_pos bw hbw ν x)]
  · rintro ⟨a, ha, h⟩ x hx
    have h1 : ∀ y ∈ S, Real.log (smoothed bw ν y) + U y / kt = Real.log a := by
      intro y hy
      rw [h y hy, Real.log_mul ha.ne' (Real.exp_pos _).ne', Real.log_exp]
      ring
    have h2 : ∫ y, (Real.log (smoothed bw ν y) + U y / kt) ∂ν = Real.log a := by
      rw [integral_congr_ae (g := fun _ => Real.log a) (by filter_upwards [hin] with y hy using h1 y hy)]
      simp
    unfold limitRate
    rw [h2, h1 x hx, sub_self]

/-- The acceptance probability is at most `|β| dt f`. -/
theorem accept_small (dt f b : ℝ) : acceptProb dt f (b : WithBot ℝ) ≤ |b| * (dt * f) := by
  change 1 - Real.exp (-|b| * dt * f) ≤ _
  have := Real.add_one_le_exp (-|b| * dt * f)
  linarith

/-- C139: with the exact multiplicative correction and walkers distributed according to `π`, the acceptance probabilities
of all walkers tend to zero: large samples of the equilibrium distribution are left alone. -/
theorem accept_many_mult [IsProbabilityMeasure ν] (h : Sample P ν X) (c : RateCfg d) (hbw : ∀ k, 0 < c.bw k)
    (hv : c.variant = .mult) (U : (Fin d → ℝ) → ℝ) {S : Set (Fin d → ℝ)} (hS : IsCompact S) (hin : ∀ᵐ y ∂ν, y ∈ S)
    (ha : ∀ x, c.approx x = -Real.log (smoothed c.bw ν x)) (dt f : ℝ) (hdt : 0 < dt) (hf : 0 < f) :
    ∀ᵐ ω ∂P, ∀ ε > 0, ∃ N, ∀ n ≥ N, ∀ i : Fin n,
      acceptProb dt f (calcBetas c (fun j : Fin n => X j ω) (fun j => U (X j ω)) i) < ε := by
  filter_upwards [rates_many_mult h c hbw hv U hS hin ha] with ω hω ε hε
  obtain ⟨N, hN⟩ := hω (ε / (dt * f)) (by positivity)
  refine ⟨N, fun n hn i => ?_⟩
  obtain ⟨b, hb, hlt⟩ := hN n hn i
  rw [hb]
  exact (accept_small dt f b).trans_lt ((lt_div_iff₀ (by positivity)).1 hlt)

end Bdld
