import Verif.Props.EscapeBussi

/-
C160: walkers without walls run away in steep potentials of several dimensions, in particular in the Müller-Brown potential.
The distance is the largest coordinate (the norm of `Fin d → ℝ`).
-/

namespace Bdld

open MeasureTheory ProbabilityTheory Filter Topology Spec
open scoped ENNReal

/-- The positions at a distance of at least `r`. -/
def Spec.distant (d : ℕ) (r : ℝ) : Set (Fin d → ℝ) := {x | r ≤ ‖x‖}

/-- A dynamics with sets of outgoing states: outgoing walkers double their distance unless a random number is large, and every
walker can be outgoing after one step. -/
structure Spec.Doubling {d : ℕ} (T : (Fin d → ℝ) → (Fin d → ℝ) → Phase d → Phase d) (O : ℝ → Set (Phase d)) (amp R : ℝ) : Prop where
  measurable : Measurable (fun z : (Phase d × (Fin d → ℝ)) × (Fin d → ℝ) => T z.1.2 z.2 z.1.1)
  sets : ∀ r, MeasurableSet (O r)
  amp_pos : 0 < amp
  radius : 0 < R
  far : ∀ r s, s ∈ O r → r ≤ ‖s.1‖
  doubles : ∀ r, R ≤ r → ∀ s ∈ O r, ∀ n1 n2 : Fin d → ℝ, amp * ‖n1‖ ≤ r → amp * ‖n2‖ ≤ r → T n1 n2 s ∈ O (2 * r)
  enters : ∀ r, 0 < r → ∀ s, ∃ U1 U2 : Set (Fin d → ℝ), IsOpen U1 ∧ U1.Nonempty ∧ IsOpen U2 ∧ U2.Nonempty ∧
    ∀ n1 ∈ U1, ∀ n2 ∈ U2, T n1 n2 s ∈ O r

section
variable {d : ℕ}

theorem distant_measurable (r : ℝ) : MeasurableSet (distant d r) := measurableSet_le measurable_const measurable_norm

theorem distant_vanishes (μ : Measure (Fin d → ℝ)) [IsProbabilityMeasure μ] {r : ℝ} (hr : 0 < r) :
    Tendsto (fun n : ℕ => μ.real (distant d (2 ^ n * r))) atTop (𝓝 0) := by
  have h1 := tendsto_measure_iInter_atTop (μ := μ) (s := fun n : ℕ => distant d (2 ^ n * r))
    (fun n => (distant_measurable _).nullMeasurableSet) (fun m n hmn x hx => by
      have hx' : 2 ^ n * r ≤ ‖x‖ := hx
      exact (mul_le_mul_of_nonneg_right (pow_le_pow_right₀ (by norm_num) hmn) hr.le).trans hx') ⟨0, measure_ne_top _ _⟩
  have e : ⋂ n : ℕ, distant d (2 ^ n * r) = ∅ := by
    refine Set.eq_empty_iff_forall_notMem.2 fun x hx => ?_
    have h2 : Tendsto (fun n : ℕ => (2 : ℝ) ^ n * r) atTop atTop :=
      (tendsto_pow_atTop_atTop_of_one_lt (by norm_num)).atTop_mul_const hr
    obtain ⟨n, hn⟩ := (h2.eventually (eventually_gt_atTop ‖x‖)).exists
    have : 2 ^ n * r ≤ ‖x‖ := Set.mem_iInter.1 hx n
    linarith
  rw [e, measure_empty] at h1
  have := (ENNReal.tendsto_toReal ENNReal.zero_ne_top).comp h1
  rw [ENNReal.toReal_zero] at this
  exact this

/-- Large random vectors are improbable. -/
theorem noise_vector_small (c : ℝ) (hc : 0 < c) : 1 - d / c ^ 2 ≤ (standard d).real {noise | ‖noise‖ < c} := by
  have e : standard d = Measure.pi fun _ : Fin d => gaussianReal 0 1 := by
    unfold standard
    try unfold normals
    try simp
  have h1 := meas_ge_le_variance_div_sq (μ := gaussianReal 0 1) (X := id) (memLp_id_gaussianReal 2) hc
  rw [variance_id_gaussianReal] at h1
  have h2 := ENNReal.toReal_mono ENNReal.ofReal_ne_top h1
  rw [ENNReal.toReal_ofReal (by positivity)] at h2
  have hm : MeasurableSet {y : ℝ | c ≤ |id y - (gaussianReal 0 1)[id]|} :=
    measurableSet_le measurable_const (by fun_prop)
  have hk : ∀ k : Fin d, (standard d).real {noise | c ≤ |noise k|} ≤ 1 / c ^ 2 := fun k => by
    have hl : (standard d).map (fun noise : Fin d → ℝ => noise k) = gaussianReal 0 1 := by
      rw [e]
      exact (measurePreserving_eval (fun _ : Fin d => gaussianReal 0 1) k).map_eq
    have es : {noise : Fin d → ℝ | c ≤ |noise k|} = (fun noise : Fin d → ℝ => noise k) ⁻¹' {y | c ≤ |id y - (gaussianReal 0 1)[id]|} := by
      ext noise
      simp
    rw [es, ← map_measureReal_apply (measurable_pi_apply k) hm, hl]
    simpa [measureReal_def] using h2
  have hcompl : {noise : Fin d → ℝ | ‖noise‖ < c}ᶜ = ⋃ k, {noise | c ≤ |noise k|} := by
    ext noise
    simp [pi_norm_lt_iff hc]
  have hmm : MeasurableSet {noise : Fin d → ℝ | ‖noise‖ < c} := measurableSet_lt measurable_norm measurable_const
  have h3 : (standard d).real {noise : Fin d → ℝ | ‖noise‖ < c}ᶜ ≤ d / c ^ 2 := by
    rw [hcompl]
    refine (measureReal_iUnion_fintype_le _).trans ((Finset.sum_le_sum fun k _ => hk k).trans ?_)
    simp [div_eq_mul_inv]
  have hp : IsProbabilityMeasure (standard d) := by
    rw [e]
    infer_instance
  rw [probReal_compl_eq_one_sub hmm] at h3
  linarith

theorem afterStep_reaches {T : (Fin d → ℝ) → (Fin d → ℝ) → Phase d → Phase d}
    (hT : Measurable (fun z : (Phase d × (Fin d → ℝ)) × (Fin d → ℝ) => T z.1.2 z.2 z.1.1)) (μ : Measure (Phase d)) [IsProbabilityMeasure μ]
    {A B : Set (Phase d)} {G1 G2 : Set (Fin d → ℝ)} (hB : MeasurableSet B) (h : ∀ s ∈ A, ∀ n1 ∈ G1, ∀ n2 ∈ G2, T n1 n2 s ∈ B) :
    μ.real A * (standard d).real G1 * (standard d).real G2 ≤ (afterStep T μ).real B := by
  unfold afterStep
  rw [map_measureReal_apply hT hB, ← measureReal_prod_prod, ← measureReal_prod_prod]
  refine measureReal_mono ?_
  rintro ⟨⟨s, n1⟩, n2⟩ ⟨⟨hs, h1⟩, h2⟩
  exact h s hs n1 h1 n2 h2

variable {T : (Fin d → ℝ) → (Fin d → ℝ) → Phase d → Phase d} {O : ℝ → Set (Phase d)} {amp R : ℝ}

theorem doubling_escapes (h : Doubling T O amp R) {r : ℝ} (hr : R ≤ r) (hr2 : 3 * d * amp ≤ r) (μ : Measure (Phase d))
    [IsProbabilityMeasure μ] (n : ℕ) : μ.real (O r) * (1 / 2 + 1 / 2 * (1 / 4) ^ n) ≤ ((afterStep T)^[n] μ).real (O (2 ^ n * r)) := by
  have r0 : 0 < r := h.radius.trans_le hr
  induction n with
  | zero =>
    simp only [pow_zero, one_mul, Function.iterate_zero, id]
    norm_num
  | succ n ih =>
    have hprob := afterStep_iterate_probability h.measurable μ n
    set ρ := 2 ^ n * r with hρ
    have h1n : (1 : ℝ) ≤ 2 ^ n := one_le_pow₀ (by norm_num)
    have hρr : r ≤ ρ := le_mul_of_one_le_left r0.le h1n
    have ρ0 : 0 < ρ := r0.trans_le hρr
    have hstep := afterStep_reaches h.measurable ((afterStep T)^[n] μ) (A := O ρ) (B := O (2 * ρ)) (G1 := {n | ‖n‖ < ρ / amp})
      (G2 := {n | ‖n‖ < ρ / amp}) (h.sets _) (fun s hs n1 h1 n2 h2 => by
        have h1' : ‖n1‖ < ρ / amp := h1
        have h2' : ‖n2‖ < ρ / amp := h2
        rw [lt_div_iff₀ h.amp_pos] at h1' h2'
        exact h.doubles ρ (hr.trans hρr) s hs n1 n2 (by linarith) (by linarith))
    rw [Function.iterate_succ_apply', show (2 : ℝ) ^ (n + 1) * r = 2 * ρ by rw [hρ]; ring]
    refine le_trans ?_ hstep
    have hg := noise_vector_small (d := d) (ρ / amp) (div_pos ρ0 h.amp_pos)
    set g := (standard d).real {n | ‖n‖ < ρ / amp} with hgd
    have hu : d / (ρ / amp) ^ 2 ≤ 1 / 9 * (1 / 4) ^ n := by
      have h9 : 9 * d * amp ^ 2 ≤ r ^ 2 := by
        have hd : (d : ℝ) ≤ d ^ 2 := by exact_mod_cast Nat.le_self_pow two_ne_zero d
        have h3 : (3 * d * amp) ^ 2 ≤ r ^ 2 := pow_le_pow_left₀ (by have := h.amp_pos; positivity) hr2 2
        nlinarith [mul_le_mul_of_nonneg_right hd (sq_nonneg amp)]
      have e1 : (d : ℝ) / (ρ / amp) ^ 2 = d * amp ^ 2 / ρ ^ 2 := by
        rw [div_pow, div_div_eq_mul_div]
      rw [e1, hρ, mul_pow, ← pow_mul, mul_comm n 2, pow_mul, div_le_iff₀ (by positivity)]
      have e : (1 : ℝ) / 9 * (1 / 4) ^ n * ((2 ^ 2) ^ n * r ^ 2) = 1 / 9 * r ^ 2 * ((1 / 4) ^ n * (2 ^ 2) ^ n) := by ring
      rw [e, ← mul_pow]
      norm_num
      nlinarith
    set u : ℝ := (1 / 4) ^ n with hud
    have u0 : 0 < u := by positivity
    have u1 : u ≤ 1 := pow_le_one₀ (by norm_num) (by norm_num)
    have hg' : 1 - 1 / 9 * u ≤ g := by linarith
    have g2 : 1 - 2 / 9 * u ≤ g * g := by nlinarith
    have ha : 0 ≤ μ.real (O r) := measureReal_nonneg
    rw [pow_succ, ← hud, mul_assoc]
    have h5 : μ.real (O r) * (1 / 2 + 1 / 2 * (u * (1 / 4))) ≤ μ.real (O r) * (1 / 2 + 1 / 2 * u) * (g * g) := by
      rw [mul_assoc]
      refine mul_le_mul_of_nonneg_left ?_ ha
      nlinarith [mul_le_mul_of_nonneg_left g2 (show 0 ≤ 1 / 2 + 1 / 2 * u by linarith)]
    exact h5.trans (mul_le_mul_of_nonneg_right ih (mul_self_nonneg g))

/-- From every start: with a probability that does not depend on the number of steps the distance has doubled in every step after the
first. -/
theorem doubling_probability (h : Doubling T O amp R) (s : Phase d) : ∃ r c : ℝ, 0 < r ∧ 0 < c ∧ ∀ n,
    c ≤ ((afterStep T)^[n + 1] (Measure.dirac s)).real (Prod.fst ⁻¹' distant d (2 ^ n * r)) := by
  set r := max R (3 * d * amp) with hr
  have hRr : R ≤ r := le_max_left _ _
  have r0 : 0 < r := h.radius.trans_le hRr
  obtain ⟨U1, U2, o1, e1, o2, e2, hU⟩ := h.enters r r0 s
  have hfirst := afterStep_reaches h.measurable (Measure.dirac s) (A := {s}) (h.sets r)
    (fun s' hs n1 h1 n2 h2 => by
      rw [Set.mem_singleton_iff.1 hs]
      exact hU n1 h1 n2 h2)
  have hpos : ∀ U : Set (Fin d → ℝ), IsOpen U → U.Nonempty → 0 < (standard d).real U := fun U hU hn =>
    lt_of_le_of_ne measureReal_nonneg (Ne.symm (by
      rw [ne_eq, measureReal_eq_zero_iff]
      exact standard_open hU hn))
  have hd : (Measure.dirac s).real {s} = 1 := by
    rw [measureReal_def, Measure.dirac_apply' _ (measurableSet_singleton s)]
    simp
  rw [hd, one_mul] at hfirst
  have hp : IsProbabilityMeasure (afterStep T (Measure.dirac s)) := afterStep_iterate_probability h.measurable (Measure.dirac s) 1
  refine ⟨r, (standard d).real U1 * (standard d).real U2 * (1 / 2), r0, mul_pos (mul_pos (hpos _ o1 e1) (hpos _ o2 e2)) (by norm_num), fun n => ?_⟩
  have h1 := doubling_escapes h hRr (le_max_right _ _) (afterStep T (Measure.dirac s)) n
  rw [← Function.iterate_succ_apply] at h1
  have hprob := afterStep_iterate_probability h.measurable (Measure.dirac s) (n + 1)
  have h2 : ((afterStep T)^[n + 1] (Measure.dirac s)).real (O (2 ^ n * r)) ≤
      ((afterStep T)^[n + 1] (Measure.dirac s)).real (Prod.fst ⁻¹' distant d (2 ^ n * r)) := measureReal_mono fun s hs => h.far _ s hs
  refine le_trans ?_ (h1.trans h2)
  have h3 : (0 : ℝ) < (1 / 4) ^ n := by positivity
  exact mul_le_mul hfirst (by linarith) (by norm_num) measureReal_nonneg

/-- No distribution of positions and momenta is left unchanged by a step. -/
theorem doubling_no_stationary (h : Doubling T O amp R) (μ : Measure (Phase d)) (hμ : IsProbabilityMeasure μ) : afterStep T μ ≠ μ := by
  intro hs
  set r := max R (3 * d * amp) with hr
  have hRr : R ≤ r := le_max_left _ _
  have r0 : 0 < r := h.radius.trans_le hRr
  have hiter : ∀ n, (afterStep T)^[n] μ = μ := fun n => Function.iterate_fixed hs n
  have hpos : 0 < μ.real (O r) := by
    refine lt_of_le_of_ne measureReal_nonneg (Ne.symm ?_)
    rw [ne_eq, measureReal_eq_zero_iff]
    intro h0
    rw [← hs] at h0
    unfold afterStep at h0
    rw [Measure.map_apply h.measurable (h.sets r), Measure.measure_prod_null (h.measurable (h.sets r))] at h0
    have h1 := Measure.ae_ae_of_ae_prod h0
    obtain ⟨s, h2⟩ := h1.exists
    obtain ⟨U1, U2, o1, e1, o2, e2, hU⟩ := h.enters r r0 s
    have h3 : ∃ n1 ∈ U1, standard d (Prod.mk (s, n1) ⁻¹' ((fun z : (Phase d × (Fin d → ℝ)) × (Fin d → ℝ) =>
        T z.1.2 z.2 z.1.1) ⁻¹' O r)) = 0 := by
      by_contra hcon
      push Not at hcon
      refine standard_open o1 e1 (measure_mono_null (fun n1 hn1 => ?_) (ae_iff.1 h2))
      exact hcon n1 hn1
    obtain ⟨n1, hn1, h4⟩ := h3
    exact standard_open o2 e2 (measure_mono_null (fun n2 hn2 => hU n1 hn1 n2 hn2) h4)
  have hp : IsProbabilityMeasure (μ.map Prod.fst) := Measure.isProbabilityMeasure_map measurable_fst.aemeasurable
  have hbound : ∀ n : ℕ, μ.real (O r) * (1 / 2) ≤ (μ.map Prod.fst).real (distant d (2 ^ n * r)) := fun n => by
    have h1 := doubling_escapes h hRr (le_max_right _ _) μ n
    rw [hiter] at h1
    rw [map_measureReal_apply measurable_fst (distant_measurable _)]
    have h2 : μ.real (O (2 ^ n * r)) ≤ μ.real (Prod.fst ⁻¹' distant d (2 ^ n * r)) := measureReal_mono fun s hs => h.far _ s hs
    have h3 : (0 : ℝ) < (1 / 4) ^ n := by positivity
    nlinarith
  have := ge_of_tendsto' (distant_vanishes (μ.map Prod.fst) r0) hbound
  linarith

/-- From no start do the probabilities of all regions approach those of a distribution. -/
theorem doubling_not_settles (h : Doubling T O amp R) (z : Phase d) (ν : Measure (Fin d → ℝ)) (hν : IsProbabilityMeasure ν) :
    ∃ M : ℝ, ¬ Settles T (distant d M) (ν.real (distant d M)) z := by
  obtain ⟨r, c, hr, hc0, hn⟩ := doubling_probability h z
  obtain ⟨k, hk⟩ := ((distant_vanishes ν hr).eventually (gt_mem_nhds hc0)).exists
  refine ⟨2 ^ k * r, fun hs => ?_⟩
  have hlow : ∀ᶠ t : ℕ in atTop, c ≤ ((afterStep T)^[t] (Measure.dirac z)).real (Prod.fst ⁻¹' distant d (2 ^ k * r)) := by
    filter_upwards [eventually_ge_atTop (k + 1)] with t ht
    obtain ⟨n, rfl⟩ : ∃ n, t = n + 1 := ⟨t - 1, by omega⟩
    have hsub : distant d (2 ^ n * r) ⊆ distant d (2 ^ k * r) := fun x hx => by
      have hx' : 2 ^ n * r ≤ ‖x‖ := hx
      exact (mul_le_mul_of_nonneg_right (pow_le_pow_right₀ (by norm_num) (by omega)) hr.le).trans hx'
    have := afterStep_iterate_probability h.measurable (Measure.dirac z) (n + 1)
    exact (hn n).trans (measureReal_mono (Set.preimage_mono hsub))
  have := ge_of_tendsto hs hlow
  linarith

/-! ### The two dynamics -/

/-- No boundary condition, and a force of at least `L` times the distance far outside. -/
structure Spec.SteepFar (pot : Potential ℝ d) (L R : ℝ) : Prop where
  free : pot.bc = none
  positive : 0 < R
  steep : ∀ x : Fin d → ℝ, R ≤ ‖x‖ → L * ‖x‖ ≤ ‖pot.force x‖

variable {pot : Potential ℝ d} {dt m friction kt : ℝ}

theorem overdamped_doubling (h : SteepFar pot (4 / dt) R) (hF : Measurable pot.force) (hd : 0 < d) (hdt : 0 < dt) (friction kt m : ℝ) :
    Doubling (stepMap .overdamped pot dt friction kt m) (fun r => Prod.fst ⁻¹' distant d r) (Real.sqrt (2 * dt)) R where
  measurable := measurable_stepMap .overdamped pot hF dt friction kt m
  sets := fun r => measurable_fst (distant_measurable r)
  amp_pos := Real.sqrt_pos.2 (by linarith)
  radius := h.positive
  far := fun r s hs => hs
  doubles := fun r hr s hs n1 n2 h1 _ => by
    have hs' : r ≤ ‖s.1‖ := hs
    change 2 * r ≤ ‖(stepMap .overdamped pot dt friction kt m n1 n2 s).1‖
    rw [eulerMove_stepMap]
    have e : eulerMove pot dt n1 s.1 = s.1 + dt • pot.force s.1 + Real.sqrt (2 * dt) • n1 := by
      funext k
      rw [eulerMove_free h.free]
      simp only [Pi.add_apply, Pi.smul_apply, smul_eq_mul]
      ring
    have h2 := h.steep s.1 (hr.trans hs')
    have h3 : 4 * ‖s.1‖ ≤ ‖dt • pot.force s.1‖ := by
      rw [norm_smul, Real.norm_of_nonneg hdt.le]
      have := mul_le_mul_of_nonneg_left h2 hdt.le
      have e4 : dt * (4 / dt * ‖s.1‖) = 4 * ‖s.1‖ := by field_simp
      linarith
    have h4 : ‖Real.sqrt (2 * dt) • n1‖ ≤ r := by
      rw [norm_smul, Real.norm_of_nonneg (Real.sqrt_nonneg _)]
      exact h1
    have h5 : ‖dt • pot.force s.1‖ ≤ ‖eulerMove pot dt n1 s.1‖ + ‖s.1‖ + ‖Real.sqrt (2 * dt) • n1‖ := by
      have e5 : dt • pot.force s.1 = eulerMove pot dt n1 s.1 - s.1 - Real.sqrt (2 * dt) • n1 := by
        rw [e]
        abel
      rw [e5]
      exact (norm_sub_le _ _).trans (add_le_add_left (norm_sub_le _ _) _)
    linarith
  enters := fun r hr s => by
    have hσ : 0 < Real.sqrt (2 * dt) := Real.sqrt_pos.2 (by linarith)
    set k : Fin d := ⟨0, hd⟩
    refine ⟨{n | r < s.1 k + pot.force s.1 k * dt + Real.sqrt (2 * dt) * n k}, Set.univ, isOpen_lt continuous_const (by fun_prop),
      ⟨fun _ => (r + 1 - (s.1 k + pot.force s.1 k * dt)) / Real.sqrt (2 * dt), ?_⟩, isOpen_univ, ⟨0, trivial⟩, fun n1 h1 n2 _ => ?_⟩
    · rw [Set.mem_ofPred_eq, mul_div_cancel₀ _ hσ.ne']
      linarith
    · change r ≤ ‖(stepMap .overdamped pot dt friction kt m n1 n2 s).1‖
      rw [eulerMove_stepMap]
      refine le_trans ?_ (norm_le_pi_norm _ k)
      rw [eulerMove_free h.free, Real.norm_eq_abs]
      exact (le_of_lt h1).trans (le_abs_self _)

/-- Far outside, with the momentum that the force there gives in half a step, up to some multiple of the distance. -/
def Spec.leaving (pot : Potential ℝ d) (decay dt m r : ℝ) : Set (Phase d) :=
  {s | r ≤ ‖s.1‖ ∧ ‖s.2 - (decay * (dt / 2)) • pot.force s.1‖ ≤ (2 * m / dt + 1) * ‖s.1‖}

theorem leaving_measurable (hF : Measurable pot.force) (decay dt m r : ℝ) : MeasurableSet (leaving pot decay dt m r) := by
  have h1 : Measurable (fun s : Phase d => ‖s.1‖) := measurable_norm.comp measurable_fst
  have h3 : Measurable (fun s : Phase d => s.2 - (decay * (dt / 2)) • pot.force s.1) := measurable_pi_iff.2 fun k =>
    ((measurable_pi_apply k).comp measurable_snd).sub (((measurable_pi_apply k).comp (hF.comp measurable_fst)).const_mul (decay * (dt / 2)))
  have h4 : Measurable (fun s : Phase d => ‖s.2 - (decay * (dt / 2)) • pot.force s.1‖) := measurable_norm.comp h3
  exact (measurableSet_le measurable_const h1).inter (measurableSet_le h4 (h1.const_mul _))

theorem bussi_position (f : (Fin d → ℝ) → Fin d → ℝ) (m dt decay amp : ℝ) (n1 n2 : Fin d → ℝ) (s : Phase d) :
    (bussiParrinello f m dt decay amp n1 n2 s).1 = s.1 + (dt / m) • (decay • s.2 + amp • n1 + (dt / 2) • f s.1) := by
  funext k
  simp only [bussiParrinello, verlet, Pi.add_apply, Pi.smul_apply, smul_eq_mul]
  ring

theorem bussi_leaving (hdt : 0 < dt) (hm : 0 < m) {decay amp : ℝ} (ha0 : 0 ≤ decay) (ha1 : decay ≤ 1) (hc : 0 ≤ amp) {r : ℝ} (n1 n2 : Fin d → ℝ)
    (s : Phase d) (hx : ‖s.1‖ ≤ ‖(bussiParrinello pot.force m dt decay amp n1 n2 s).1‖)
    (hr : r ≤ ‖(bussiParrinello pot.force m dt decay amp n1 n2 s).1‖) (hn : amp * ‖n2‖ ≤ r) :
    bussiParrinello pot.force m dt decay amp n1 n2 s ∈ leaving pot decay dt m r := by
  refine ⟨hr, ?_⟩
  have e2 : (bussiParrinello pot.force m dt decay amp n1 n2 s).2 - (decay * (dt / 2)) • pot.force (bussiParrinello pot.force m dt decay amp n1 n2 s).1 =
      (decay * (m / dt)) • ((bussiParrinello pot.force m dt decay amp n1 n2 s).1 - s.1) + amp • n2 := by
    have em : m / dt * (dt / m) = 1 := by field_simp
    have e3 : (bussiParrinello pot.force m dt decay amp n1 n2 s).2 = decay • (decay • s.2 + amp • n1 + (dt / 2) • pot.force s.1 +
        (dt / 2) • pot.force (bussiParrinello pot.force m dt decay amp n1 n2 s).1) + amp • n2 := by
      funext k
      simp only [bussiParrinello, verlet, Pi.add_apply, Pi.smul_apply, smul_eq_mul]
    have e4 : (m / dt) • ((bussiParrinello pot.force m dt decay amp n1 n2 s).1 - s.1) = decay • s.2 + amp • n1 + (dt / 2) • pot.force s.1 := by
      rw [bussi_position, add_sub_cancel_left, smul_smul, em, one_smul]
    rw [e3, mul_smul, mul_smul, e4]
    module
  rw [e2]
  set y := (bussiParrinello pot.force m dt decay amp n1 n2 s).1
  have h1 := norm_add_le ((decay * (m / dt)) • (y - s.1)) (amp • n2)
  rw [norm_smul amp, Real.norm_of_nonneg hc] at h1
  have hmd : 0 < m / dt := div_pos hm hdt
  have h2 : ‖(decay * (m / dt)) • (y - s.1)‖ ≤ m / dt * (2 * ‖y‖) := by
    rw [norm_smul, Real.norm_of_nonneg (by positivity)]
    have h3 := norm_sub_le y s.1
    exact mul_le_mul (mul_le_of_le_one_left hmd.le ha1) (by linarith) (norm_nonneg _) hmd.le
  have e3 : (2 * m / dt + 1) * ‖y‖ = m / dt * (2 * ‖y‖) + ‖y‖ := by ring
  rw [e3]
  linarith

theorem bussi_far (hdt : 0 < dt) (hm : 0 < m) {decay amp : ℝ} (ha0 : 0 ≤ decay) (ha1 : decay ≤ 1) (hc : 0 ≤ amp) {r : ℝ} (n1 n2 : Fin d → ℝ)
    (s : Phase d) (hs : s ∈ leaving pot decay dt m r) (hn : amp * ‖n1‖ ≤ r) (hf : steepness dt m * ‖s.1‖ ≤ ‖pot.force s.1‖) :
    2 * ‖s.1‖ ≤ ‖(bussiParrinello pot.force m dt decay amp n1 n2 s).1‖ := by
  have hx : r ≤ ‖s.1‖ := hs.1
  have hp := hs.2
  set e := s.2 - (decay * (dt / 2)) • pot.force s.1 with he
  set y := (bussiParrinello pot.force m dt decay amp n1 n2 s).1 with hy
  have h1 : (dt ^ 2 / (2 * m) * (1 + decay ^ 2)) • pot.force s.1 = y - s.1 - (dt / m) • (decay • e + amp • n1) := by
    rw [hy, bussi_position, he]
    funext k
    simp only [Pi.add_apply, Pi.sub_apply, Pi.smul_apply, smul_eq_mul]
    field_simp
    ring
  have hdm : 0 < dt / m := div_pos hdt hm
  have h2 : (3 + dt / m * (2 * m / dt + 2)) * ‖s.1‖ ≤ ‖(dt ^ 2 / (2 * m) * (1 + decay ^ 2)) • pot.force s.1‖ := by
    rw [norm_smul, Real.norm_of_nonneg (show 0 ≤ dt ^ 2 / (2 * m) * (1 + decay ^ 2) by positivity)]
    have h3 : dt ^ 2 / (2 * m) * (steepness dt m * ‖s.1‖) ≤ dt ^ 2 / (2 * m) * ‖pot.force s.1‖ := mul_le_mul_of_nonneg_left hf (by positivity)
    have h4 : dt ^ 2 / (2 * m) * (steepness dt m * ‖s.1‖) = (3 + dt / m * (2 * m / dt + 2)) * ‖s.1‖ := by
      unfold steepness
      field_simp
    have h5 : dt ^ 2 / (2 * m) * ‖pot.force s.1‖ ≤ dt ^ 2 / (2 * m) * (1 + decay ^ 2) * ‖pot.force s.1‖ := by
      refine mul_le_mul_of_nonneg_right ?_ (norm_nonneg _)
      exact le_mul_of_one_le_right (by positivity) (by nlinarith)
    linarith
  have h6 : ‖y - s.1 - (dt / m) • (decay • e + amp • n1)‖ ≤ ‖y‖ + ‖s.1‖ + dt / m * ((2 * m / dt + 2) * ‖s.1‖) := by
    have h7 := norm_sub_le (y - s.1) ((dt / m) • (decay • e + amp • n1))
    have h8 := norm_sub_le y s.1
    have h9 : ‖(dt / m) • (decay • e + amp • n1)‖ ≤ dt / m * ((2 * m / dt + 2) * ‖s.1‖) := by
      rw [norm_smul, Real.norm_of_nonneg hdm.le]
      refine mul_le_mul_of_nonneg_left ?_ hdm.le
      have h10 := norm_add_le (decay • e) (amp • n1)
      rw [norm_smul, norm_smul, Real.norm_of_nonneg ha0, Real.norm_of_nonneg hc] at h10
      have h11 : decay * ‖e‖ ≤ ‖e‖ := mul_le_of_le_one_left (norm_nonneg _) ha1
      linarith
    linarith
  rw [h1] at h2
  linarith

theorem bussi_doubling (h : SteepFar pot (steepness dt m) R) (hF : Measurable pot.force) (hd : 0 < d) (hdt : 0 < dt) (hf : 0 < friction)
    (hkt : 0 < kt) (hm : 0 < m) : Doubling (stepMap .bussi pot dt friction kt m) (leaving pot (Real.exp (-(friction * dt / 2))) dt m)
      (√(m * kt * (1 - Real.exp (-(friction * dt))))) R where
  measurable := measurable_stepMap .bussi pot hF dt friction kt m
  sets := fun r => leaving_measurable hF _ _ _ r
  amp_pos := (thermostat_factors hdt hf hkt hm).2
  radius := h.positive
  far := fun r s hs => hs.1
  doubles := fun r hr s hs n1 n2 h1 h2 => by
    obtain ⟨a1, c0⟩ := thermostat_factors hdt hf hkt hm
    rw [stepMap_bussi pot dt friction kt m h.free]
    have hs1 : r ≤ ‖s.1‖ := hs.1
    have r0 : 0 < r := h.positive.trans_le hr
    have hfar := bussi_far (pot := pot) hdt hm (Real.exp_pos _).le a1 c0.le n1 n2 s hs h1 (h.steep s.1 (hr.trans hs1))
    exact bussi_leaving hdt hm (Real.exp_pos _).le a1 c0.le n1 n2 s (by linarith) (by linarith) (by linarith)
  enters := fun r hr s => by
    obtain ⟨a1, c0⟩ := thermostat_factors hdt hf hkt hm
    rw [stepMap_bussi pot dt friction kt m h.free]
    set amp := √(m * kt * (1 - Real.exp (-(friction * dt))))
    set a := Real.exp (-(friction * dt / 2))
    set k : Fin d := ⟨0, hd⟩
    refine ⟨{n1 | max r ‖s.1‖ < s.1 k + dt / m * (a * s.2 k + amp * n1 k + dt / 2 * pot.force s.1 k)}, {n2 | amp * ‖n2‖ < r},
      isOpen_lt continuous_const (by fun_prop), ?_, isOpen_lt (by fun_prop) continuous_const, ⟨0, by simpa using hr⟩, ?_⟩
    · refine ⟨fun _ => ((max r ‖s.1‖ + 1 - s.1 k) * m / dt - a * s.2 k - dt / 2 * pot.force s.1 k) / amp, ?_⟩
      rw [Set.mem_ofPred_eq, mul_div_cancel₀ _ c0.ne']
      have e : s.1 k + dt / m * (a * s.2 k + ((max r ‖s.1‖ + 1 - s.1 k) * m / dt - a * s.2 k - dt / 2 * pot.force s.1 k) +
          dt / 2 * pot.force s.1 k) = max r ‖s.1‖ + 1 := by
        field_simp
        ring
      rw [e]
      linarith
    · intro n1 h1 n2 h2
      have h1' : max r ‖s.1‖ < s.1 k + dt / m * (a * s.2 k + amp * n1 k + dt / 2 * pot.force s.1 k) := h1
      have h3 : max r ‖s.1‖ ≤ ‖(bussiParrinello pot.force m dt a amp n1 n2 s).1‖ := by
        refine le_trans ?_ (norm_le_pi_norm _ k)
        rw [bussi_position, Real.norm_eq_abs]
        exact h1'.le.trans (le_abs_self _)
      exact bussi_leaving hdt hm (Real.exp_pos _).le a1 c0.le n1 n2 s ((le_max_right _ _).trans h3) ((le_max_left _ _).trans h3) (le_of_lt h2)

end

end Bdld
