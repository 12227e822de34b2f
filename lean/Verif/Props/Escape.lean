import Verif.Props.MainBox
import Mathlib.Analysis.Polynomial.Basic
import Mathlib.Analysis.Calculus.Deriv.Polynomial

/-
C158: overdamped walkers without walls run away in steep potentials.
-/

namespace Bdld

open MeasureTheory ProbabilityTheory Filter Topology Spec
open scoped ENNReal

/-- No boundary condition, and far outside the force moves a walker more than four times its distance. -/
structure Spec.SteepOutside (pot : Potential ℝ 1) (dt R : ℝ) : Prop where
  free : pot.bc = none
  positive : 0 < R
  steep : ∀ x : Fin 1 → ℝ, R ≤ |x 0| → 4 * |x 0| ≤ |pot.force x 0 * dt|

/-- The positions at a distance of at least `r`. -/
def Spec.beyond (r : ℝ) : Set (Fin 1 → ℝ) := {x | r ≤ |x 0|}

theorem beyond_measurable (r : ℝ) : MeasurableSet (beyond r) :=
  measurableSet_le measurable_const (measurable_pi_apply 0).abs

theorem eulerMove_free {d : Nat} {pot : Potential ℝ d} (h : pot.bc = none) (dt : ℝ) (noise x : Fin d → ℝ) (k : Fin d) :
    eulerMove pot dt noise x k = x k + pot.force x k * dt + Real.sqrt (2 * dt) * noise k := by
  simp only [eulerMove, eulerStep, boundary, h]
  rfl

/-- Large random numbers are improbable. -/
theorem noise_small (c : ℝ) (hc : 0 < c) : 1 - 1 / c ^ 2 ≤ (standard 1).real {noise | |noise 0| < c} := by
  have hl : (standard 1).map (fun noise : Fin 1 → ℝ => noise 0) = gaussianReal 0 1 := by
    have h := (measurePreserving_eval (fun _ : Fin 1 => gaussianReal 0 1) 0).map_eq
    have e : standard 1 = Measure.pi fun _ : Fin 1 => gaussianReal 0 1 := by
      unfold standard
      try unfold normals
      try simp
    rw [e]
    exact h
  have h1 := meas_ge_le_variance_div_sq (μ := gaussianReal 0 1) (X := id) (memLp_id_gaussianReal 2) hc
  rw [variance_id_gaussianReal] at h1
  have e : {noise : Fin 1 → ℝ | |noise 0| < c} = (fun noise : Fin 1 → ℝ => noise 0) ⁻¹' {y | c ≤ |id y - (gaussianReal 0 1)[id]|}ᶜ := by
    ext noise
    simp
  have hm : MeasurableSet {y : ℝ | c ≤ |id y - (gaussianReal 0 1)[id]|} :=
    measurableSet_le measurable_const (by fun_prop)
  rw [e, ← map_measureReal_apply (measurable_pi_apply 0) hm.compl, hl, probReal_compl_eq_one_sub hm]
  have h2 := ENNReal.toReal_mono ENNReal.ofReal_ne_top h1
  rw [ENNReal.toReal_ofReal (by positivity)] at h2
  rw [measureReal_def, sub_le_sub_iff_left]
  simpa using h2

section
variable {pot : Potential ℝ 1} {dt R : ℝ}

/-- A step doubles the distance unless the random number is large. -/
theorem steep_doubles (h : SteepOutside pot dt R) {r : ℝ} (hr : R ≤ r) (x noise : Fin 1 → ℝ) (hx : x ∈ beyond r)
    (hn : Real.sqrt (2 * dt) * |noise 0| ≤ r) : eulerMove pot dt noise x ∈ beyond (2 * r) := by
  have hx' : r ≤ |x 0| := hx
  change 2 * r ≤ |eulerMove pot dt noise x 0|
  rw [eulerMove_free h.free]
  have h1 := h.steep x (hr.trans hx')
  have h2 : |Real.sqrt (2 * dt) * noise 0| ≤ r := by
    rw [abs_mul, abs_of_nonneg (Real.sqrt_nonneg _)]
    exact hn
  have h3 : |pot.force x 0 * dt| ≤ |x 0 + pot.force x 0 * dt + Real.sqrt (2 * dt) * noise 0| + |x 0| + |Real.sqrt (2 * dt) * noise 0| := by
    have e : pot.force x 0 * dt = (x 0 + pot.force x 0 * dt + Real.sqrt (2 * dt) * noise 0) - x 0 - Real.sqrt (2 * dt) * noise 0 := by ring
    calc |pot.force x 0 * dt| = |(x 0 + pot.force x 0 * dt + Real.sqrt (2 * dt) * noise 0) - x 0 - Real.sqrt (2 * dt) * noise 0| := by
          rw [← e]
      _ ≤ |(x 0 + pot.force x 0 * dt + Real.sqrt (2 * dt) * noise 0) - x 0| + |Real.sqrt (2 * dt) * noise 0| := abs_sub _ _
      _ ≤ _ := by
        have := abs_sub (x 0 + pot.force x 0 * dt + Real.sqrt (2 * dt) * noise 0) (x 0)
        linarith
  linarith

/-- From outside, the walker is after `n` steps `2 ^ n` times as far away, with a probability near to 1. -/
theorem escape_far (h : SteepOutside pot dt R) (hF : Continuous pot.force) (hdt : 0 < dt) (n : ℕ) :
    ∀ r, R ≤ r → ∀ x ∈ beyond r, 1 - 4 * dt / r ^ 2 ≤ hitting (eulerMove pot dt) (beyond (2 ^ n * r)) n x := by
  have hM := measurable_eulerMove pot hF.measurable dt
  have hσ : 0 < Real.sqrt (2 * dt) := Real.sqrt_pos.2 (by linarith)
  induction n with
  | zero =>
    intro r hr x hx
    have r0 : 0 < r := h.positive.trans_le hr
    have : hitting (eulerMove pot dt) (beyond (2 ^ 0 * r)) 0 x = 1 := by
      rw [pow_zero, one_mul]
      exact Set.indicator_of_mem hx _
    rw [this]
    have : 0 ≤ 4 * dt / r ^ 2 := by positivity
    linarith
  | succ n ih =>
    intro r hr x hx
    have r0 : 0 < r := h.positive.trans_le hr
    have hA := beyond_measurable (2 ^ (n + 1) * r)
    have e : hitting (eulerMove pot dt) (beyond (2 ^ (n + 1) * r)) (n + 1) x =
        ∫ noise, hitting (eulerMove pot dt) (beyond (2 ^ (n + 1) * r)) n (eulerMove pot dt noise x) ∂standard 1 :=
      integral_map (measurable_from hM x).aemeasurable (hitting_measurable hM hA n).aestronglyMeasurable
    by_cases hbig : 1 ≤ 4 * dt / r ^ 2
    · have := (hitting_bounded hM hA (n + 1) x).1
      linarith
    rw [not_le] at hbig
    set G : Set (Fin 1 → ℝ) := {noise | |noise 0| < r / Real.sqrt (2 * dt)} with hG
    have hGm : MeasurableSet G := measurableSet_lt (measurable_pi_apply 0).abs measurable_const
    have hGp : 1 - 2 * dt / r ^ 2 ≤ (standard 1).real G := by
      have := noise_small (r / Real.sqrt (2 * dt)) (div_pos r0 hσ)
      rwa [div_pow, Real.sq_sqrt (by linarith), one_div_div] at this
    have hq : 4 * dt / (2 * r) ^ 2 = dt / r ^ 2 := by
      field_simp
      ring
    have hint : Integrable (fun noise => hitting (eulerMove pot dt) (beyond (2 ^ (n + 1) * r)) n (eulerMove pot dt noise x)) (standard 1) :=
      Integrable.of_bound ((hitting_measurable hM hA n).comp (measurable_from hM x)).aestronglyMeasurable 1 (ae_of_all _ fun y => by
        have := hitting_bounded hM hA n (eulerMove pot dt y x)
        rw [Real.norm_eq_abs, abs_le]
        exact ⟨by linarith, this.2⟩)
    have hdr : 0 < dt / r ^ 2 := by positivity
    have e4 : 4 * dt / r ^ 2 = 4 * (dt / r ^ 2) := by ring
    have e2 : 2 * dt / r ^ 2 = 2 * (dt / r ^ 2) := by ring
    rw [e4] at hbig ⊢
    rw [e2] at hGp
    rw [e]
    have hlow : ∫ noise, G.indicator (fun _ => 1 - dt / r ^ 2) noise ∂standard 1 ≤
        ∫ noise, hitting (eulerMove pot dt) (beyond (2 ^ (n + 1) * r)) n (eulerMove pot dt noise x) ∂standard 1 := by
      refine integral_mono ((integrable_const _).indicator hGm) hint fun noise => ?_
      dsimp only
      by_cases hn : noise ∈ G
      · rw [Set.indicator_of_mem hn]
        have hn' : |noise 0| < r / Real.sqrt (2 * dt) := hn
        have h1 := steep_doubles h hr x noise hx (by
          rw [lt_div_iff₀ hσ] at hn'
          linarith)
        have h2 := ih (2 * r) (by linarith) _ h1
        rw [hq, show (2 : ℝ) ^ n * (2 * r) = 2 ^ (n + 1) * r by ring] at h2
        exact h2
      · rw [Set.indicator_of_notMem hn]
        exact (hitting_bounded hM hA n _).1
    rw [integral_indicator_const _ hGm, smul_eq_mul] at hlow
    refine le_trans ?_ hlow
    nlinarith [mul_le_mul_of_nonneg_right hGp (show 0 ≤ 1 - dt / r ^ 2 by linarith)]

/-- **C158.** From every start: with a probability that does not depend on the number of steps the distance has doubled in every
step after the first. -/
theorem escape_probability (h : SteepOutside pot dt R) (hF : Continuous pot.force) (hdt : 0 < dt) (x : Fin 1 → ℝ) :
    ∃ r c : ℝ, 0 < r ∧ 0 < c ∧ ∀ n, c ≤ hitting (eulerMove pot dt) (beyond (2 ^ n * r)) (n + 1) x := by
  have hM := measurable_eulerMove pot hF.measurable dt
  have hσ : 0 < Real.sqrt (2 * dt) := Real.sqrt_pos.2 (by linarith)
  set r := max R (Real.sqrt (8 * dt)) with hr
  have hRr : R ≤ r := le_max_left _ _
  have r0 : 0 < r := h.positive.trans_le hRr
  have hr2 : 8 * dt ≤ r ^ 2 := by
    have h1 : Real.sqrt (8 * dt) ≤ r := le_max_right _ _
    calc 8 * dt = Real.sqrt (8 * dt) ^ 2 := (Real.sq_sqrt (by linarith)).symm
      _ ≤ r ^ 2 := pow_le_pow_left₀ (Real.sqrt_nonneg _) h1 2
  have hhalf : 1 / 2 ≤ 1 - 4 * dt / r ^ 2 := by
    have : 4 * dt / r ^ 2 ≤ 1 / 2 := by
      rw [div_le_iff₀ (by positivity)]
      linarith
    linarith
  set G : Set (Fin 1 → ℝ) := (fun noise => eulerMove pot dt noise x) ⁻¹' beyond r with hG
  have hGm : MeasurableSet G := measurable_from hM x (beyond_measurable r)
  have hGp : 0 < (standard 1).real G := by
    have hopen : IsOpen {noise : Fin 1 → ℝ | r < x 0 + pot.force x 0 * dt + Real.sqrt (2 * dt) * noise 0} :=
      isOpen_lt continuous_const (by fun_prop)
    have hne : {noise : Fin 1 → ℝ | r < x 0 + pot.force x 0 * dt + Real.sqrt (2 * dt) * noise 0}.Nonempty := by
      refine ⟨fun _ => (r + 1 - (x 0 + pot.force x 0 * dt)) / Real.sqrt (2 * dt), ?_⟩
      rw [Set.mem_ofPred_eq, mul_div_cancel₀ _ hσ.ne']
      linarith
    refine lt_of_le_of_ne measureReal_nonneg (Ne.symm ?_)
    rw [ne_eq, measureReal_eq_zero_iff]
    intro h0
    refine standard_open hopen hne (measure_mono_null (fun noise hn => ?_) h0)
    change r ≤ |eulerMove pot dt noise x 0|
    rw [eulerMove_free h.free]
    exact (le_of_lt hn).trans (le_abs_self _)
  refine ⟨r, (standard 1).real G * (1 / 2), r0, by positivity, fun n => ?_⟩
  have hA := beyond_measurable (2 ^ n * r)
  have e : hitting (eulerMove pot dt) (beyond (2 ^ n * r)) (n + 1) x =
      ∫ noise, hitting (eulerMove pot dt) (beyond (2 ^ n * r)) n (eulerMove pot dt noise x) ∂standard 1 :=
    integral_map (measurable_from hM x).aemeasurable (hitting_measurable hM hA n).aestronglyMeasurable
  have hint : Integrable (fun noise => hitting (eulerMove pot dt) (beyond (2 ^ n * r)) n (eulerMove pot dt noise x)) (standard 1) :=
    Integrable.of_bound ((hitting_measurable hM hA n).comp (measurable_from hM x)).aestronglyMeasurable 1 (ae_of_all _ fun y => by
      have := hitting_bounded hM hA n (eulerMove pot dt y x)
      rw [Real.norm_eq_abs, abs_le]
      exact ⟨by linarith, this.2⟩)
  rw [e, ← smul_eq_mul, ← integral_indicator_const _ hGm]
  refine integral_mono ((integrable_const _).indicator hGm) hint fun noise => ?_
  dsimp only
  by_cases hn : noise ∈ G
  · rw [Set.indicator_of_mem hn]
    exact hhalf.trans (escape_far h hF hdt n r hRr _ hn)
  · rw [Set.indicator_of_notMem hn]
    exact (hitting_bounded hM hA n _).1

theorem beyond_vanishes (μ : Measure (Fin 1 → ℝ)) [IsProbabilityMeasure μ] {r : ℝ} (hr : 0 < r) :
    Tendsto (fun n : ℕ => μ.real (beyond (2 ^ n * r))) atTop (𝓝 0) := by
  have h1 := tendsto_measure_iInter_atTop (μ := μ) (s := fun n : ℕ => beyond (2 ^ n * r))
    (fun n => (beyond_measurable _).nullMeasurableSet) (fun m n hmn x hx => by
      have hx' : 2 ^ n * r ≤ |x 0| := hx
      exact (mul_le_mul_of_nonneg_right (pow_le_pow_right₀ (by norm_num) hmn) hr.le).trans hx') ⟨0, measure_ne_top _ _⟩
  have e : ⋂ n : ℕ, beyond (2 ^ n * r) = ∅ := by
    refine Set.eq_empty_iff_forall_notMem.2 fun x hx => ?_
    have h2 : Tendsto (fun n : ℕ => (2 : ℝ) ^ n * r) atTop atTop :=
      (tendsto_pow_atTop_atTop_of_one_lt (by norm_num)).atTop_mul_const hr
    obtain ⟨n, hn⟩ := (h2.eventually (eventually_gt_atTop |x 0|)).exists
    have : 2 ^ n * r ≤ |x 0| := Set.mem_iInter.1 hx n
    linarith
  rw [e, measure_empty] at h1
  have := (ENNReal.tendsto_toReal ENNReal.zero_ne_top).comp h1
  rw [ENNReal.toReal_zero] at this
  exact this

/-- **C158.** No distribution of the positions is left unchanged by a step. -/
theorem escape_no_stationary (h : SteepOutside pot dt R) (hF : Continuous pot.force) (hdt : 0 < dt) (π : Measure (Fin 1 → ℝ))
    (hp : IsProbabilityMeasure π) : afterMove (eulerMove pot dt) π ≠ π := by
  intro hs
  have hM := measurable_eulerMove pot hF.measurable dt
  have hiter : ∀ n, (afterMove (eulerMove pot dt))^[n] π = π := fun n => Function.iterate_fixed hs n
  set r0 := max R (Real.sqrt (8 * dt)) with hr0
  have hRr : R ≤ r0 := le_max_left _ _
  have r0p : 0 < r0 := h.positive.trans_le hRr
  have hr2 : 8 * dt ≤ r0 ^ 2 := by
    have h1 : Real.sqrt (8 * dt) ≤ r0 := le_max_right _ _
    calc 8 * dt = Real.sqrt (8 * dt) ^ 2 := (Real.sq_sqrt (by linarith)).symm
      _ ≤ r0 ^ 2 := pow_le_pow_left₀ (Real.sqrt_nonneg _) h1 2
  have hhalf : 1 / 2 ≤ 1 - 4 * dt / r0 ^ 2 := by
    have : 4 * dt / r0 ^ 2 ≤ 1 / 2 := by
      rw [div_le_iff₀ (by positivity)]
      linarith
    linarith
  have hσ : 0 < Real.sqrt (2 * dt) := Real.sqrt_pos.2 (by linarith)
  have hpos : 0 < π.real (beyond r0) := stationary_reaches hF hp hs (beyond_measurable r0) fun x => by
    refine ⟨{noise | r0 < x 0 + pot.force x 0 * dt + Real.sqrt (2 * dt) * noise 0}, isOpen_lt continuous_const (by fun_prop),
      ⟨fun _ => (r0 + 1 - (x 0 + pot.force x 0 * dt)) / Real.sqrt (2 * dt), ?_⟩, fun noise hn => ?_⟩
    · rw [Set.mem_ofPred_eq, mul_div_cancel₀ _ hσ.ne']
      linarith
    · change r0 ≤ |eulerMove pot dt noise x 0|
      rw [eulerMove_free h.free]
      exact (le_of_lt hn).trans (le_abs_self _)
  have hbound : ∀ n : ℕ, π.real (beyond r0) * (1 / 2) ≤ π.real (beyond (2 ^ n * r0)) := fun n => by
    have hA := beyond_measurable (2 ^ n * r0)
    have e := hitting_probability hM hA π n
    rw [hiter] at e
    rw [e, ← smul_eq_mul, ← integral_indicator_const _ (beyond_measurable r0)]
    refine integral_mono ((integrable_const _).indicator (beyond_measurable r0)) (hitting_integrable hM hA π n) fun x => ?_
    by_cases hx : x ∈ beyond r0
    · rw [Set.indicator_of_mem hx]
      exact hhalf.trans (escape_far h hF hdt n r0 hRr x hx)
    · rw [Set.indicator_of_notMem hx]
      exact (hitting_bounded hM hA n x).1
  have := ge_of_tendsto' (beyond_vanishes π r0p) hbound
  linarith

/-- **C158.** From no start do the probabilities of all regions approach those of a distribution. -/
theorem escape_not_settles (h : SteepOutside pot dt R) (hF : Continuous pot.force) (hdt : 0 < dt) (friction kt m : ℝ) (z : Phase 1)
    (ν : Measure (Fin 1 → ℝ)) (hν : IsProbabilityMeasure ν) :
    ∃ M : ℝ, ¬ Settles (stepMap .overdamped pot dt friction kt m) (beyond M) (ν.real (beyond M)) z := by
  have hM := measurable_eulerMove pot hF.measurable dt
  obtain ⟨r, c, hr, hc, hn⟩ := escape_probability h hF hdt z.1
  obtain ⟨k, hk⟩ := ((beyond_vanishes ν hr).eventually (gt_mem_nhds hc)).exists
  refine ⟨2 ^ k * r, fun hs => ?_⟩
  have hlow : ∀ᶠ t : ℕ in atTop, c ≤ ((afterStep (stepMap .overdamped pot dt friction kt m))^[t] (Measure.dirac z)).real
      (Prod.fst ⁻¹' beyond (2 ^ k * r)) := by
    filter_upwards [eventually_ge_atTop (k + 1)] with t ht
    obtain ⟨n, rfl⟩ : ∃ n, t = n + 1 := ⟨t - 1, by omega⟩
    rw [← map_measureReal_apply measurable_fst (beyond_measurable _), eulerMove_iterate pot hF.measurable, Measure.map_dirac' measurable_fst]
    have hsub : beyond (2 ^ n * r) ⊆ beyond (2 ^ k * r) := fun x hx => by
      have hx' : 2 ^ n * r ≤ |x 0| := hx
      exact (mul_le_mul_of_nonneg_right (pow_le_pow_right₀ (by norm_num) (by omega)) hr.le).trans hx'
    have := afterMove_iterate_probability hM (Measure.dirac z.1) (n + 1)
    refine le_trans ?_ (measureReal_mono hsub)
    rw [hitting_probability hM (beyond_measurable _), integral_dirac]
    exact hn n
  have := ge_of_tendsto hs hlow
  linarith

end

/-! ### Polynomials -/

/-- The polynomial with the given coefficients. -/
noncomputable def Spec.polyOf (cs : List ℝ) : Polynomial ℝ := ∑ i ∈ Finset.range cs.length, Polynomial.C (cs.getD i 0) * Polynomial.X ^ i

theorem polyOf_eval (cs : List ℝ) (x : ℝ) : (polyOf cs).eval x = poly1 cs x := by
  simp [polyOf, poly1, Polynomial.eval_finsetSum]

theorem polyOf_coeff (cs : List ℝ) (i : ℕ) : (polyOf cs).coeff i = cs.getD i 0 := by
  unfold polyOf
  rw [Polynomial.finsetSum_coeff]
  simp only [Polynomial.coeff_C_mul, Polynomial.coeff_X_pow, mul_ite, mul_one, mul_zero]
  rw [Finset.sum_ite_eq]
  split
  · rfl
  · rename_i h
    rw [Finset.mem_range, not_lt] at h
    rw [List.getD_eq_default _ _ h]

theorem poly_steep (p : Polynomial ℝ) (hp : 1 < p.natDegree) (dt : ℝ) (hdt : 0 < dt) :
    ∃ R : ℝ, 0 < R ∧ ∀ x, R ≤ |x| → 4 * |x| ≤ |p.eval x * dt| := by
  have key : ∀ q : Polynomial ℝ, 1 < q.natDegree → ∃ R : ℝ, 0 < R ∧ ∀ x, R ≤ x → 4 * |x| ≤ |q.eval x * dt| := by
    intro q hq
    have hdeg : (Polynomial.X : Polynomial ℝ).degree < q.degree := by
      refine Polynomial.degree_lt_degree ?_
      rwa [Polynomial.natDegree_X]
    have ht := Polynomial.abs_div_tendsto_atTop_atTop_of_degree_gt q Polynomial.X hdeg Polynomial.X_ne_zero
    obtain ⟨R, hR⟩ := (ht.eventually (eventually_ge_atTop (4 / dt))).exists_forall_of_atTop
    refine ⟨max R 1, lt_of_lt_of_le one_pos (le_max_right _ _), fun x hx => ?_⟩
    have h1 := hR x ((le_max_left _ _).trans hx)
    have hx0 : 0 < |x| := abs_pos.2 (by linarith [(le_max_right R 1).trans hx])
    rw [Polynomial.eval_X, abs_div, div_le_div_iff₀ hdt hx0] at h1
    rw [abs_mul, abs_of_pos hdt]
    exact h1
  obtain ⟨R1, h1, h2⟩ := key p hp
  obtain ⟨R2, h3, h4⟩ := key (p.comp (-Polynomial.X)) (by rw [Polynomial.natDegree_comp, Polynomial.natDegree_neg, Polynomial.natDegree_X, mul_one]; exact hp)
  refine ⟨max R1 R2, lt_of_lt_of_le h1 (le_max_left _ _), fun x hx => ?_⟩
  rcases le_total 0 x with h0 | h0
  · rw [abs_of_nonneg h0] at hx
    exact h2 x ((le_max_left _ _).trans hx)
  · rw [abs_of_nonpos h0] at hx
    have := h4 (-x) ((le_max_right _ _).trans hx)
    simpa using this

theorem derivative_degree (cs : List ℝ) (hc : ∃ i, 3 ≤ i ∧ cs.getD i 0 ≠ 0) : 1 < (-(polyOf cs).derivative).natDegree := by
  obtain ⟨i, hi, hne⟩ := hc
  rw [Polynomial.natDegree_neg]
  obtain ⟨j, rfl⟩ : ∃ j, i = j + 1 := ⟨i - 1, by omega⟩
  refine lt_of_lt_of_le (show 1 < j by omega) (Polynomial.le_natDegree_of_ne_zero ?_)
  rw [Polynomial.coeff_derivative, polyOf_coeff]
  exact mul_ne_zero hne (by positivity)

/-! ### Runs of the program -/

/-- The options of a polynomial in one dimension without boundary condition. -/
structure FreePolynomial (config : Input ℝ) (cs : List ℝ) : Prop where
  type : StrOpt config.potential "type" "polynomial"
  oneDim : IntOpt config.potential "n_dim" 1
  coeffs : FloatsOpt config.potential "coeffs" cs
  open' : ¬ StrOpt config.potential "boundary-condition" "reflective" ∧ ¬ StrOpt config.potential "boundary-condition" "periodic"

theorem run_polynomial_force {R : Type} {w : World R} {inp : Option (List Section)} {cfg : SimCfg 1} {sim s0 : Sim 1 R} {config : Input ℝ} {n : ℕ}
    (hr : FinishedRun w inp ⟨1, cfg, sim⟩ config n s0) {cs : List ℝ} (h : FreePolynomial config cs) :
    cfg.ld.pot.bc = none ∧ ∀ x k, cfg.ld.pot.force x k = (-(polyOf cs).derivative).eval (x 0) := by
  have hp := main_potential hr
  refine ⟨?_, fun x k => ?_⟩
  · have h1 := hp.reflective
    have h2 := hp.periodic
    simp only at h1 h2
    cases hb : cfg.ld.pot.bc with
    | none => rfl
    | some b =>
      cases b with
      | reflective => exact absurd (h1.1 hb) h.open'.1
      | periodic => exact absurd (h2.1 hb) h.open'.2
  · obtain ⟨_, cs', lo, hi, hcs, _, _, _, he⟩ := hp.oneDim h.type h.oneDim
    obtain rfl := floatsOpt_unique hcs h.coeffs
    simp only at he
    have he' : cfg.ld.pot.energy = fun x : Fin 1 → ℝ => (polyOf cs').eval (x 0) := by
      funext y
      rw [he y 0, polyOf_eval]
    have hcons := hp.conservative x
    simp only at hcons
    have hd : HasFDerivAt (fun x : Fin 1 → ℝ => (polyOf cs').eval (x 0))
        ((polyOf cs').derivative.eval (x 0) • ContinuousLinearMap.proj (R := ℝ) (φ := fun _ : Fin 1 => ℝ) 0) x := by
      have hx : HasFDerivAt (fun x : Fin 1 → ℝ => x 0) (ContinuousLinearMap.proj (R := ℝ) (φ := fun _ : Fin 1 => ℝ) 0) x :=
        hasFDerivAt_apply (0 : Fin 1) x
      exact ((polyOf cs').hasDerivAt (x 0)).comp_hasFDerivAt x hx
    rw [he'] at hcons
    have hu := hcons.unique hd
    have := congrArg (fun f => f (fun _ => (1 : ℝ))) hu
    simp at this
    rw [Subsingleton.elim k 0, Polynomial.eval_neg, ← this, neg_neg]

/-- **C158.** The potentials of such runs are steep outside, with every time step. -/
theorem run_steep {R : Type} {w : World R} {inp : Option (List Section)} {cfg : SimCfg 1} {sim s0 : Sim 1 R} {config : Input ℝ} {n : ℕ}
    (hr : FinishedRun w inp ⟨1, cfg, sim⟩ config n s0) {cs : List ℝ} (h : FreePolynomial config cs) (hc : ∃ i, 3 ≤ i ∧ cs.getD i 0 ≠ 0)
    {dt : ℝ} (hdt : 0 < dt) : ∃ r, SteepOutside cfg.ld.pot dt r ∧ Continuous cfg.ld.pot.force := by
  obtain ⟨h1, h2⟩ := run_polynomial_force hr h
  obtain ⟨r, h3, h4⟩ := poly_steep _ (derivative_degree cs hc) dt hdt
  exact ⟨r, ⟨h1, h3, fun x hx => by rw [h2]; exact h4 (x 0) hx⟩, setupPotential_continuous w _ _ (finished_required hr).1⟩

/-- The polynomial potential as such. -/
noncomputable def freePot (cs : List ℝ) : Potential ℝ 1 where
  energy := fun x => poly1 cs (x 0)
  force := fun x _ => (-(polyOf cs).derivative).eval (x 0)
  evaluate := fun x => (poly1 cs (x 0), fun _ => (-(polyOf cs).derivative).eval (x 0))
  ranges := []
  bc := none

theorem freePot_continuous (cs : List ℝ) : Continuous (freePot cs).force :=
  continuous_pi fun _ => (-(polyOf cs).derivative).continuous.comp (continuous_apply 0)

theorem freePot_steep (cs : List ℝ) (hc : ∃ i, 3 ≤ i ∧ cs.getD i 0 ≠ 0) {dt : ℝ} (hdt : 0 < dt) : ∃ R, SteepOutside (freePot cs) dt R := by
  obtain ⟨R, h0, h1⟩ := poly_steep _ (derivative_degree cs hc) dt hdt
  exact ⟨R, rfl, h0, fun x hx => h1 (x 0) hx⟩

/-- **C158.** Overdamped runs of the program in a polynomial with a power above the second, without boundary condition: for every
start there is a probability that the walker is after every step twice as far away, and it does not depend on the number of steps. -/
theorem main_escape {cs : List ℝ} (hc : ∃ i, 3 ≤ i ∧ cs.getD i 0 ≠ 0) {dt : ℝ} (hdt : 0 < dt) (s : Phase 1) :
    ∃ r c : ℝ, 0 < r ∧ 0 < c ∧ ∀ {Ω R : Type} [MeasurableSpace Ω] (P : Measure Ω) (w : Ω → World R) (inp : Option (List Section))
      (cfg : Ω → SimCfg 1) (sim s0 : Ω → Sim 1 R) (config : Input ℝ) (n : ℕ) (pot : Potential ℝ 1) (mass : ℝ) (starts : List (Phase 1))
      (h : RandomRuns P w inp cfg sim s0 config n pot mass starts), FreePolynomial config cs → OverdampedOptions config dt →
      ∀ k, starts[k]? = some s → ∀ t, t + 1 ≤ n → c ≤ P.real {ω | 2 ^ t * r ≤ |(h.phase k (t + 1) ω).1 0|} := by
  obtain ⟨R0, hsteep⟩ := freePot_steep cs hc hdt
  have hF := freePot_continuous cs
  have hM := measurable_eulerMove (freePot cs) hF.measurable dt
  obtain ⟨r, c, hr, hc0, hn⟩ := escape_probability hsteep hF hdt s.1
  refine ⟨r, c, hr, hc0, fun P w inp cfg sim s0 config n pot mass starts h hp hl k hk t ht => ?_⟩
  have hprob := h.stream.prob
  obtain ⟨ω⟩ := P.nonempty_of_neZero
  obtain ⟨hbc, hforce⟩ := run_polynomial_force (h.run ω) hp
  rw [h.samePot ω] at hbc hforce
  have hmove : eulerMove pot dt = eulerMove (freePot cs) dt := by
    funext noise x k
    rw [eulerMove_free hbc, eulerMove_free (pot := freePot cs) rfl, hforce]
    rfl
  have hlaw := main_walker_law h k (t + 1) ht s hk
  rw [stepKind_overdamped hl] at hlaw
  have hm := h.phase_measurable k (t + 1) ht (List.getElem?_eq_some_iff.1 hk).1
  have hA := beyond_measurable (2 ^ t * r)
  have e : P.real {ω | 2 ^ t * r ≤ |(h.phase k (t + 1) ω).1 0|} = ((P.map (h.phase k (t + 1))).map Prod.fst).real (beyond (2 ^ t * r)) := by
    rw [map_measureReal_apply measurable_fst hA, map_measureReal_apply hm (measurable_fst hA)]
    rfl
  rw [e, hlaw, eulerMove_iterate pot h.force, Measure.map_dirac' measurable_fst, hmove, hitting_probability hM hA, integral_dirac]
  exact hn t

end Bdld
