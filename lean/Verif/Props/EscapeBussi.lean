import Verif.Props.Escape

/-
C159: walkers with the dynamics of Bussi and Parrinello without walls run away in steep potentials.
-/

namespace Bdld

open MeasureTheory ProbabilityTheory Filter Topology Spec
open scoped ENNReal

/-- No boundary condition, and a force of at least `L` times the distance far outside. -/
structure Spec.SteepForce (pot : Potential ℝ 1) (L R : ℝ) : Prop where
  free : pot.bc = none
  positive : 0 < R
  steep : ∀ x : Fin 1 → ℝ, R ≤ |x 0| → L * |x 0| ≤ |pot.force x 0|

/-- Far outside, with the momentum that the force there gives in half a step, up to some multiple of the distance. -/
def Spec.outgoing (pot : Potential ℝ 1) (decay dt m r : ℝ) : Set (Phase 1) :=
  {s | r ≤ |s.1 0| ∧ |s.2 0 - decay * (dt / 2 * pot.force s.1 0)| ≤ (2 * m / dt + 1) * |s.1 0|}

/-- The steepness that is needed. -/
noncomputable def Spec.steepness (dt m : ℝ) : ℝ := 2 * m / dt ^ 2 * (3 + dt / m * (2 * m / dt + 2))

theorem outgoing_measurable {pot : Potential ℝ 1} (hF : Measurable pot.force) (decay dt m r : ℝ) : MeasurableSet (outgoing pot decay dt m r) := by
  have h1 : Measurable (fun s : Phase 1 => s.1 0) := (measurable_pi_apply 0).comp measurable_fst
  have h2 : Measurable (fun s : Phase 1 => s.2 0) := (measurable_pi_apply 0).comp measurable_snd
  have h3 : Measurable (fun s : Phase 1 => pot.force s.1 0) := (measurable_pi_apply 0).comp (hF.comp measurable_fst)
  exact (measurableSet_le measurable_const h1.abs).inter
    (measurableSet_le (h2.sub ((h3.const_mul _).const_mul _)).abs (h1.abs.const_mul _))

/-! ### One step -/

theorem outgoing_arith {x p f n1 a dt m r : ℝ} (hdt : 0 < dt) (hm : 0 < m) (ha0 : 0 ≤ a) (ha1 : a ≤ 1)
    (hx : r ≤ |x|) (hp : |p - a * (dt / 2 * f)| ≤ (2 * m / dt + 1) * |x|) (hn : |n1| ≤ r) (hf : steepness dt m * |x| ≤ |f|) :
    2 * |x| ≤ |x + dt * ((a * p + n1 + dt / 2 * f) / m)| := by
  set e := p - a * (dt / 2 * f) with he
  set y := x + dt * ((a * p + n1 + dt / 2 * f) / m) with hy
  have h1 : dt ^ 2 / (2 * m) * (1 + a ^ 2) * f = y - x - dt / m * (a * e + n1) := by
    rw [hy, he]
    field_simp
    ring
  have h2 : (3 + dt / m * (2 * m / dt + 2)) * |x| ≤ |dt ^ 2 / (2 * m) * (1 + a ^ 2) * f| := by
    rw [abs_mul, abs_of_nonneg (show 0 ≤ dt ^ 2 / (2 * m) * (1 + a ^ 2) by positivity)]
    have h3 : dt ^ 2 / (2 * m) * (steepness dt m * |x|) ≤ dt ^ 2 / (2 * m) * |f| := mul_le_mul_of_nonneg_left hf (by positivity)
    have h4 : dt ^ 2 / (2 * m) * (steepness dt m * |x|) = (3 + dt / m * (2 * m / dt + 2)) * |x| := by
      unfold steepness
      field_simp
    have h5 : dt ^ 2 / (2 * m) * |f| ≤ dt ^ 2 / (2 * m) * (1 + a ^ 2) * |f| := by
      refine mul_le_mul_of_nonneg_right ?_ (abs_nonneg _)
      exact le_mul_of_one_le_right (by positivity) (by nlinarith)
    linarith
  have h6 : |y - x - dt / m * (a * e + n1)| ≤ |y| + |x| + dt / m * ((2 * m / dt + 2) * |x|) := by
    have h7 := abs_sub (y - x) (dt / m * (a * e + n1))
    have h8 := abs_sub y x
    have h9 : |dt / m * (a * e + n1)| ≤ dt / m * ((2 * m / dt + 2) * |x|) := by
      rw [abs_mul, abs_of_nonneg (by positivity)]
      refine mul_le_mul_of_nonneg_left ?_ (by positivity)
      have h10 := abs_add_le (a * e) n1
      have h11 : |a * e| ≤ |e| := by
        rw [abs_mul, abs_of_nonneg ha0]
        exact mul_le_of_le_one_left (abs_nonneg _) ha1
      linarith
    linarith
  rw [h1] at h2
  linarith

theorem incoming_arith {x y f n2 a dt m r : ℝ} (hdt : 0 < dt) (hm : 0 < m) (ha0 : 0 ≤ a) (ha1 : a ≤ 1)
    (hx : |x| ≤ |y|) (hr : r ≤ |y|) (hn : |n2| ≤ r) :
    |a * (m * (y - x) / dt + dt / 2 * f) + n2 - a * (dt / 2 * f)| ≤ (2 * m / dt + 1) * |y| := by
  have e : a * (m * (y - x) / dt + dt / 2 * f) + n2 - a * (dt / 2 * f) = a * (m / dt * (y - x)) + n2 := by ring
  rw [e]
  have h1 := abs_add_le (a * (m / dt * (y - x))) n2
  have h2 : |a * (m / dt * (y - x))| ≤ m / dt * (2 * |y|) := by
    rw [abs_mul, abs_of_nonneg ha0]
    refine (mul_le_of_le_one_left (abs_nonneg _) ha1).trans ?_
    rw [abs_mul, abs_of_nonneg (by positivity)]
    refine mul_le_mul_of_nonneg_left ?_ (by positivity)
    have := abs_sub y x
    linarith
  have e2 : (2 * m / dt + 1) * |y| = m / dt * (2 * |y|) + |y| := by ring
  rw [e2]
  linarith

section
variable {pot : Potential ℝ 1} {dt m decay amp R : ℝ}

theorem bussi_outgoing_of (hdt : 0 < dt) (hm : 0 < m) (ha0 : 0 ≤ decay) (ha1 : decay ≤ 1) {r : ℝ} (n1 n2 : Fin 1 → ℝ) (s : Phase 1)
    (hx : |s.1 0| ≤ |(bussiParrinello pot.force m dt decay amp n1 n2 s).1 0|)
    (hr : r ≤ |(bussiParrinello pot.force m dt decay amp n1 n2 s).1 0|) (hn : |amp * n2 0| ≤ r) :
    bussiParrinello pot.force m dt decay amp n1 n2 s ∈ outgoing pot decay dt m r := by
  refine ⟨hr, ?_⟩
  set y := (bussiParrinello pot.force m dt decay amp n1 n2 s).1 with hy
  have e1 : y 0 = s.1 0 + dt * ((decay * s.2 0 + amp * n1 0 + dt / 2 * pot.force s.1 0) / m) := by
    simp only [hy, bussiParrinello, verlet]
  have e2 : (bussiParrinello pot.force m dt decay amp n1 n2 s).2 0 =
      decay * (m * (y 0 - s.1 0) / dt + dt / 2 * pot.force y 0) + amp * n2 0 := by
    have : m * (y 0 - s.1 0) / dt = decay * s.2 0 + amp * n1 0 + dt / 2 * pot.force s.1 0 := by
      rw [e1]
      field_simp
      ring
    rw [this]
    simp only [hy, bussiParrinello, verlet]
  rw [e2]
  exact incoming_arith hdt hm ha0 ha1 hx hr hn

/-- A step doubles the distance unless a random number is large. -/
theorem bussi_doubles (h : SteepForce pot (steepness dt m) R) (hdt : 0 < dt) (hm : 0 < m) (ha0 : 0 ≤ decay) (ha1 : decay ≤ 1) {r : ℝ}
    (hr : R ≤ r) (n1 n2 : Fin 1 → ℝ) (s : Phase 1) (hs : s ∈ outgoing pot decay dt m r) (h1 : |amp * n1 0| ≤ r) (h2 : |amp * n2 0| ≤ r) :
    bussiParrinello pot.force m dt decay amp n1 n2 s ∈ outgoing pot decay dt m (2 * r) := by
  have r0 : 0 < r := h.positive.trans_le hr
  have hd := outgoing_arith hdt hm ha0 ha1 hs.1 hs.2 h1 (h.steep s.1 (hr.trans hs.1))
  have e1 : (bussiParrinello pot.force m dt decay amp n1 n2 s).1 0 =
      s.1 0 + dt * ((decay * s.2 0 + amp * n1 0 + dt / 2 * pot.force s.1 0) / m) := by
    simp only [bussiParrinello, verlet]
  have hs1 : r ≤ |s.1 0| := hs.1
  refine bussi_outgoing_of hdt hm ha0 ha1 n1 n2 s ?_ ?_ (by linarith)
  · rw [e1]
    linarith
  · rw [e1]
    linarith

/-- From every state there are random numbers with which the walker is far outside after the step. -/
theorem bussi_enters (hdt : 0 < dt) (hm : 0 < m) (ha0 : 0 ≤ decay) (ha1 : decay ≤ 1) (hc : 0 < amp) {r : ℝ} (hr : 0 < r) (s : Phase 1) :
    ∃ U1 U2 : Set (Fin 1 → ℝ), IsOpen U1 ∧ U1.Nonempty ∧ IsOpen U2 ∧ U2.Nonempty ∧ ∀ n1 ∈ U1, ∀ n2 ∈ U2,
      bussiParrinello pot.force m dt decay amp n1 n2 s ∈ outgoing pot decay dt m r := by
  refine ⟨{n1 | max r |s.1 0| < s.1 0 + dt * ((decay * s.2 0 + amp * n1 0 + dt / 2 * pot.force s.1 0) / m)}, {n2 | |amp * n2 0| < r},
    isOpen_lt continuous_const (by fun_prop), ?_, isOpen_lt (by fun_prop) continuous_const, ⟨0, by simpa using hr⟩, ?_⟩
  · refine ⟨fun _ => ((max r |s.1 0| + 1 - s.1 0) * m / dt - decay * s.2 0 - dt / 2 * pot.force s.1 0) / amp, ?_⟩
    rw [Set.mem_ofPred_eq, mul_div_cancel₀ _ hc.ne']
    have e : s.1 0 + dt * ((decay * s.2 0 + ((max r |s.1 0| + 1 - s.1 0) * m / dt - decay * s.2 0 - dt / 2 * pot.force s.1 0) +
        dt / 2 * pot.force s.1 0) / m) = max r |s.1 0| + 1 := by
      field_simp
      ring
    rw [e]
    linarith
  · intro n1 h1 n2 h2
    have h1' : max r |s.1 0| < s.1 0 + dt * ((decay * s.2 0 + amp * n1 0 + dt / 2 * pot.force s.1 0) / m) := h1
    have e1 : (bussiParrinello pot.force m dt decay amp n1 n2 s).1 0 =
        s.1 0 + dt * ((decay * s.2 0 + amp * n1 0 + dt / 2 * pot.force s.1 0) / m) := by
      simp only [bussiParrinello, verlet]
    refine bussi_outgoing_of hdt hm ha0 ha1 n1 n2 s ?_ ?_ (le_of_lt h2)
    · rw [e1]
      exact (le_max_right _ _).trans (h1'.le.trans (le_abs_self _))
    · rw [e1]
      exact (le_max_left _ _).trans (h1'.le.trans (le_abs_self _))

end

/-! ### Distributions -/

/-- Lower bound for the probability of a set after a step. -/
theorem afterStep_spreads {T : (Fin 1 → ℝ) → (Fin 1 → ℝ) → Phase 1 → Phase 1}
    (hT : Measurable (fun z : (Phase 1 × (Fin 1 → ℝ)) × (Fin 1 → ℝ) => T z.1.2 z.2 z.1.1)) (μ : Measure (Phase 1)) [IsProbabilityMeasure μ]
    {A B : Set (Phase 1)} {G1 G2 : Set (Fin 1 → ℝ)} (hB : MeasurableSet B) (h : ∀ s ∈ A, ∀ n1 ∈ G1, ∀ n2 ∈ G2, T n1 n2 s ∈ B) :
    μ.real A * (standard 1).real G1 * (standard 1).real G2 ≤ (afterStep T μ).real B := by
  unfold afterStep
  rw [map_measureReal_apply hT hB, ← measureReal_prod_prod, ← measureReal_prod_prod]
  refine measureReal_mono ?_
  rintro ⟨⟨s, n1⟩, n2⟩ ⟨⟨hs, h1⟩, h2⟩
  exact h s hs n1 h1 n2 h2

theorem amp_small (amp : ℝ) (hc : 0 < amp) (r : ℝ) (hr : 0 < r) : 1 - amp ^ 2 / r ^ 2 ≤ (standard 1).real {n | |amp * n 0| ≤ r} := by
  have h1 := noise_small (r / amp) (div_pos hr hc)
  rw [div_pow, one_div_div] at h1
  refine h1.trans (measureReal_mono fun n hn => ?_)
  have hn' : |n 0| < r / amp := hn
  rw [lt_div_iff₀ hc] at hn'
  rw [Set.mem_ofPred_eq, abs_mul, abs_of_pos hc]
  linarith

section
variable {pot : Potential ℝ 1} {dt m decay amp R : ℝ}

/-- Half of what is outside doubles its distance in every step. -/
theorem bussi_escapes (h : SteepForce pot (steepness dt m) R) (hT : Measurable (fun z : (Phase 1 × (Fin 1 → ℝ)) × (Fin 1 → ℝ) =>
      bussiParrinello pot.force m dt decay amp z.1.2 z.2 z.1.1)) (hF : Measurable pot.force) (hdt : 0 < dt) (hm : 0 < m) (ha0 : 0 ≤ decay)
    (ha1 : decay ≤ 1) (hc : 0 < amp) {r : ℝ} (hr : R ≤ r) (hr2 : 3 * amp ≤ r) (μ : Measure (Phase 1)) [IsProbabilityMeasure μ] (n : ℕ) :
    μ.real (outgoing pot decay dt m r) * (1 / 2 + 1 / 2 * (1 / 4) ^ n) ≤
      ((afterStep (bussiParrinello pot.force m dt decay amp))^[n] μ).real (outgoing pot decay dt m (2 ^ n * r)) := by
  have r0 : 0 < r := h.positive.trans_le hr
  induction n with
  | zero =>
    simp only [pow_zero, one_mul, Function.iterate_zero, id]
    norm_num
  | succ n ih =>
    have hprob := afterStep_iterate_probability hT μ n
    set ρ := 2 ^ n * r with hρ
    have h1n : (1 : ℝ) ≤ 2 ^ n := one_le_pow₀ (by norm_num)
    have hρr : r ≤ ρ := le_mul_of_one_le_left r0.le h1n
    have ρ0 : 0 < ρ := r0.trans_le hρr
    have hstep := afterStep_spreads hT ((afterStep (bussiParrinello pot.force m dt decay amp))^[n] μ)
      (A := outgoing pot decay dt m ρ) (B := outgoing pot decay dt m (2 * ρ)) (G1 := {n | |amp * n 0| ≤ ρ}) (G2 := {n | |amp * n 0| ≤ ρ})
      (outgoing_measurable hF decay dt m _) (fun s hs n1 h1 n2 h2 => bussi_doubles h hdt hm ha0 ha1 (hr.trans hρr) n1 n2 s hs h1 h2)
    rw [Function.iterate_succ_apply', show (2 : ℝ) ^ (n + 1) * r = 2 * ρ by rw [hρ]; ring]
    refine le_trans ?_ hstep
    have hg := amp_small amp hc ρ ρ0
    set g := (standard 1).real {n | |amp * n 0| ≤ ρ} with hgd
    have hu : amp ^ 2 / ρ ^ 2 ≤ 1 / 9 * (1 / 4) ^ n := by
      rw [hρ, mul_pow, ← pow_mul, mul_comm n 2, pow_mul]
      rw [div_le_iff₀ (by positivity)]
      have e : (1 : ℝ) / 9 * (1 / 4) ^ n * ((2 ^ 2) ^ n * r ^ 2) = 1 / 9 * r ^ 2 * ((1 / 4) ^ n * (2 ^ 2) ^ n) := by ring
      rw [e, ← mul_pow]
      norm_num
      nlinarith
    set u : ℝ := (1 / 4) ^ n with hud
    have u0 : 0 < u := by positivity
    have u1 : u ≤ 1 := pow_le_one₀ (by norm_num) (by norm_num)
    have hg' : 1 - 1 / 9 * u ≤ g := by linarith
    have g2 : 1 - 2 / 9 * u ≤ g * g := by nlinarith
    have ha : 0 ≤ μ.real (outgoing pot decay dt m r) := measureReal_nonneg
    rw [pow_succ, ← hud, mul_assoc]
    have h5 : μ.real (outgoing pot decay dt m r) * (1 / 2 + 1 / 2 * (u * (1 / 4))) ≤
        μ.real (outgoing pot decay dt m r) * (1 / 2 + 1 / 2 * u) * (g * g) := by
      rw [mul_assoc]
      refine mul_le_mul_of_nonneg_left ?_ ha
      nlinarith [mul_le_mul_of_nonneg_left g2 (show 0 ≤ 1 / 2 + 1 / 2 * u by linarith)]
    exact h5.trans (mul_le_mul_of_nonneg_right ih (mul_self_nonneg g))

/-- **C159.** From every start: with a probability that does not depend on the number of steps the distance has doubled in every
step after the first. -/
theorem bussi_escape_probability (h : SteepForce pot (steepness dt m) R) (hT : Measurable (fun z : (Phase 1 × (Fin 1 → ℝ)) × (Fin 1 → ℝ) =>
      bussiParrinello pot.force m dt decay amp z.1.2 z.2 z.1.1)) (hF : Measurable pot.force) (hdt : 0 < dt) (hm : 0 < m) (ha0 : 0 ≤ decay)
    (ha1 : decay ≤ 1) (hc : 0 < amp) (s : Phase 1) : ∃ r c : ℝ, 0 < r ∧ 0 < c ∧ ∀ n,
      c ≤ ((afterStep (bussiParrinello pot.force m dt decay amp))^[n + 1] (Measure.dirac s)).real (Prod.fst ⁻¹' beyond (2 ^ n * r)) := by
  set r := max R (3 * amp) with hr
  have hRr : R ≤ r := le_max_left _ _
  have r0 : 0 < r := h.positive.trans_le hRr
  obtain ⟨U1, U2, o1, e1, o2, e2, hU⟩ := bussi_enters (pot := pot) hdt hm ha0 ha1 hc r0 s
  have hfirst := afterStep_spreads hT (Measure.dirac s) (A := {s}) (outgoing_measurable hF decay dt m r)
    (fun s' hs n1 h1 n2 h2 => by
      rw [Set.mem_singleton_iff.1 hs]
      exact hU n1 h1 n2 h2)
  have hpos : ∀ U : Set (Fin 1 → ℝ), IsOpen U → U.Nonempty → 0 < (standard 1).real U := fun U hU hn =>
    lt_of_le_of_ne measureReal_nonneg (Ne.symm (by
      rw [ne_eq, measureReal_eq_zero_iff]
      exact standard_open hU hn))
  have hd : (Measure.dirac s).real {s} = 1 := by
    rw [measureReal_def, Measure.dirac_apply' _ (measurableSet_singleton s)]
    simp
  rw [hd, one_mul] at hfirst
  have hp : IsProbabilityMeasure (afterStep (bussiParrinello pot.force m dt decay amp) (Measure.dirac s)) :=
    afterStep_iterate_probability hT (Measure.dirac s) 1
  refine ⟨r, (standard 1).real U1 * (standard 1).real U2 * (1 / 2), r0, mul_pos (mul_pos (hpos _ o1 e1) (hpos _ o2 e2)) (by norm_num), fun n => ?_⟩
  have h1 := bussi_escapes h hT hF hdt hm ha0 ha1 hc hRr (le_max_right _ _) (afterStep (bussiParrinello pot.force m dt decay amp) (Measure.dirac s)) n
  rw [← Function.iterate_succ_apply] at h1
  have hprob := afterStep_iterate_probability hT (Measure.dirac s) (n + 1)
  have h2 : ((afterStep (bussiParrinello pot.force m dt decay amp))^[n + 1] (Measure.dirac s)).real (outgoing pot decay dt m (2 ^ n * r)) ≤
      ((afterStep (bussiParrinello pot.force m dt decay amp))^[n + 1] (Measure.dirac s)).real (Prod.fst ⁻¹' beyond (2 ^ n * r)) :=
    measureReal_mono fun s hs => hs.1
  refine le_trans ?_ (h1.trans h2)
  have h3 : (0 : ℝ) < (1 / 4) ^ n := by positivity
  have h4 : 0 ≤ (standard 1).real U1 * (standard 1).real U2 := (mul_pos (hpos _ o1 e1) (hpos _ o2 e2)).le
  exact mul_le_mul hfirst (by linarith) (by norm_num) measureReal_nonneg

/-- **C159.** No distribution of positions and momenta is left unchanged by a step. -/
theorem bussi_no_stationary (h : SteepForce pot (steepness dt m) R) (hT : Measurable (fun z : (Phase 1 × (Fin 1 → ℝ)) × (Fin 1 → ℝ) =>
      bussiParrinello pot.force m dt decay amp z.1.2 z.2 z.1.1)) (hF : Measurable pot.force) (hdt : 0 < dt) (hm : 0 < m) (ha0 : 0 ≤ decay)
    (ha1 : decay ≤ 1) (hc : 0 < amp) (μ : Measure (Phase 1)) (hμ : IsProbabilityMeasure μ) :
    afterStep (bussiParrinello pot.force m dt decay amp) μ ≠ μ := by
  intro hs
  set r := max R (3 * amp) with hr
  have hRr : R ≤ r := le_max_left _ _
  have r0 : 0 < r := h.positive.trans_le hRr
  have hiter : ∀ n, (afterStep (bussiParrinello pot.force m dt decay amp))^[n] μ = μ := fun n => Function.iterate_fixed hs n
  have hO := outgoing_measurable hF decay dt m r
  have hpos : 0 < μ.real (outgoing pot decay dt m r) := by
    refine lt_of_le_of_ne measureReal_nonneg (Ne.symm ?_)
    rw [ne_eq, measureReal_eq_zero_iff]
    intro h0
    rw [← hs] at h0
    unfold afterStep at h0
    rw [Measure.map_apply hT hO, Measure.measure_prod_null (hT hO)] at h0
    have h1 := Measure.ae_ae_of_ae_prod h0
    obtain ⟨s, h2⟩ := h1.exists
    obtain ⟨U1, U2, o1, e1, o2, e2, hU⟩ := bussi_enters (pot := pot) hdt hm ha0 ha1 hc r0 s
    have h3 : ∃ n1 ∈ U1, standard 1 (Prod.mk (s, n1) ⁻¹' ((fun z : (Phase 1 × (Fin 1 → ℝ)) × (Fin 1 → ℝ) =>
        bussiParrinello pot.force m dt decay amp z.1.2 z.2 z.1.1) ⁻¹' outgoing pot decay dt m r)) = 0 := by
      by_contra hcon
      push Not at hcon
      refine standard_open o1 e1 (measure_mono_null (fun n1 hn1 => ?_) (ae_iff.1 h2))
      exact hcon n1 hn1
    obtain ⟨n1, hn1, h4⟩ := h3
    exact standard_open o2 e2 (measure_mono_null (fun n2 hn2 => hU n1 hn1 n2 hn2) h4)
  have hp : IsProbabilityMeasure (μ.map Prod.fst) := Measure.isProbabilityMeasure_map measurable_fst.aemeasurable
  have hbound : ∀ n : ℕ, μ.real (outgoing pot decay dt m r) * (1 / 2) ≤ (μ.map Prod.fst).real (beyond (2 ^ n * r)) := fun n => by
    have h1 := bussi_escapes h hT hF hdt hm ha0 ha1 hc hRr (le_max_right _ _) μ n
    rw [hiter] at h1
    rw [map_measureReal_apply measurable_fst (beyond_measurable _)]
    have h2 : μ.real (outgoing pot decay dt m (2 ^ n * r)) ≤ μ.real (Prod.fst ⁻¹' beyond (2 ^ n * r)) := measureReal_mono fun s hs => hs.1
    have h3 : (0 : ℝ) < (1 / 4) ^ n := by positivity
    nlinarith
  have := ge_of_tendsto' (beyond_vanishes (μ.map Prod.fst) r0) hbound
  linarith

end

/-! ### Runs of the program -/

theorem steepness_pos {dt m : ℝ} (hdt : 0 < dt) (hm : 0 < m) : 0 < steepness dt m := by
  unfold steepness
  positivity

theorem freePot_steepForce (cs : List ℝ) (hc : ∃ i, 3 ≤ i ∧ cs.getD i 0 ≠ 0) {L : ℝ} (hL : 0 < L) : ∃ R, SteepForce (freePot cs) L R := by
  obtain ⟨R, h0, h1⟩ := poly_steep _ (derivative_degree cs hc) (4 / L) (by positivity)
  refine ⟨R, rfl, h0, fun x hx => ?_⟩
  have := h1 (x 0) hx
  rw [abs_mul, abs_of_pos (show 0 < 4 / L by positivity), mul_div_assoc', le_div_iff₀ hL] at this
  change L * |x 0| ≤ |(-(polyOf cs).derivative).eval (x 0)|
  linarith

/-- The constants of the thermostat. -/
theorem thermostat_factors {dt friction kt m : ℝ} (hdt : 0 < dt) (hf : 0 < friction) (hkt : 0 < kt) (hm : 0 < m) :
    Real.exp (-(friction * dt / 2)) ≤ 1 ∧ 0 < √(m * kt * (1 - Real.exp (-(friction * dt)))) := by
  refine ⟨Real.exp_le_one_iff.2 (by have := mul_pos hf hdt; linarith), Real.sqrt_pos.2 (mul_pos (mul_pos hm hkt) ?_)⟩
  rw [sub_pos, Real.exp_lt_one_iff]
  have := mul_pos hf hdt
  linarith

/-- **C159.** No distribution is stationary in a polynomial with a power above the second. -/
theorem bussi_free_no_stationary {cs : List ℝ} (hc : ∃ i, 3 ≤ i ∧ cs.getD i 0 ≠ 0) {dt friction kt m : ℝ} (hdt : 0 < dt) (hf : 0 < friction)
    (hkt : 0 < kt) (hm : 0 < m) (μ : Measure (Phase 1)) (hμ : IsProbabilityMeasure μ) :
    afterStep (stepMap .bussi (freePot cs) dt friction kt m) μ ≠ μ := by
  obtain ⟨R0, hsteep⟩ := freePot_steepForce cs hc (steepness_pos hdt hm)
  have hF := (freePot_continuous cs).measurable
  have hT := measurable_stepMap .bussi (freePot cs) hF dt friction kt m
  obtain ⟨a1, c0⟩ := thermostat_factors hdt hf hkt hm
  rw [stepMap_bussi (freePot cs) dt friction kt m rfl] at hT ⊢
  exact bussi_no_stationary hsteep hT hF hdt hm (Real.exp_pos _).le a1 c0 μ hμ

/-- **C159.** From no start do the probabilities of all regions approach those of a distribution. -/
theorem bussi_not_settles {cs : List ℝ} (hc : ∃ i, 3 ≤ i ∧ cs.getD i 0 ≠ 0) {dt friction kt m : ℝ} (hdt : 0 < dt) (hf : 0 < friction)
    (hkt : 0 < kt) (hm : 0 < m) (z : Phase 1) (ν : Measure (Fin 1 → ℝ)) (hν : IsProbabilityMeasure ν) :
    ∃ M : ℝ, ¬ Settles (stepMap .bussi (freePot cs) dt friction kt m) (beyond M) (ν.real (beyond M)) z := by
  obtain ⟨R0, hsteep⟩ := freePot_steepForce cs hc (steepness_pos hdt hm)
  have hF := (freePot_continuous cs).measurable
  have hT := measurable_stepMap .bussi (freePot cs) hF dt friction kt m
  obtain ⟨a1, c0⟩ := thermostat_factors hdt hf hkt hm
  rw [stepMap_bussi (freePot cs) dt friction kt m rfl] at hT ⊢
  obtain ⟨r, c, hr, hc0, hn⟩ := bussi_escape_probability hsteep hT hF hdt hm (Real.exp_pos _).le a1 c0 z
  obtain ⟨k, hk⟩ := ((beyond_vanishes ν hr).eventually (gt_mem_nhds hc0)).exists
  refine ⟨2 ^ k * r, fun hs => ?_⟩
  have hlow : ∀ᶠ t : ℕ in atTop, c ≤ ((afterStep (bussiParrinello (freePot cs).force m dt (Real.exp (-(friction * dt / 2)))
      √(m * kt * (1 - Real.exp (-(friction * dt))))))^[t] (Measure.dirac z)).real (Prod.fst ⁻¹' beyond (2 ^ k * r)) := by
    filter_upwards [eventually_ge_atTop (k + 1)] with t ht
    obtain ⟨n, rfl⟩ : ∃ n, t = n + 1 := ⟨t - 1, by omega⟩
    have hsub : beyond (2 ^ n * r) ⊆ beyond (2 ^ k * r) := fun x hx => by
      have hx' : 2 ^ n * r ≤ |x 0| := hx
      exact (mul_le_mul_of_nonneg_right (pow_le_pow_right₀ (by norm_num) (by omega)) hr.le).trans hx'
    have := afterStep_iterate_probability hT (Measure.dirac z) (n + 1)
    exact (hn n).trans (measureReal_mono (Set.preimage_mono hsub))
  have := ge_of_tendsto hs hlow
  linarith

/-- **C159.** Runs of the program with the dynamics of Bussi and Parrinello in a polynomial with a power above the second, without
boundary condition. -/
theorem main_bussi_escape {cs : List ℝ} (hc : ∃ i, 3 ≤ i ∧ cs.getD i 0 ≠ 0) {dt friction kt mass : ℝ} (hdt : 0 < dt) (hf : 0 < friction)
    (hkt : 0 < kt) (hm : 0 < mass) (s : Phase 1) :
    ∃ r c : ℝ, 0 < r ∧ 0 < c ∧ ∀ {Ω R : Type} [MeasurableSpace Ω] (P : Measure Ω) (w : Ω → World R) (inp : Option (List Section))
      (cfg : Ω → SimCfg 1) (sim s0 : Ω → Sim 1 R) (config : Input ℝ) (n : ℕ) (pot : Potential ℝ 1) (starts : List (Phase 1))
      (h : RandomRuns P w inp cfg sim s0 config n pot mass starts), FreePolynomial config cs → BussiOptions config dt friction kt →
      ∀ k, starts[k]? = some s → ∀ t, t + 1 ≤ n → c ≤ P.real {ω | 2 ^ t * r ≤ |(h.phase k (t + 1) ω).1 0|} := by
  obtain ⟨R0, hsteep⟩ := freePot_steepForce cs hc (steepness_pos hdt hm)
  have hF := (freePot_continuous cs).measurable
  have hT := measurable_stepMap .bussi (freePot cs) hF dt friction kt mass
  obtain ⟨a1, c0⟩ := thermostat_factors hdt hf hkt hm
  rw [stepMap_bussi (freePot cs) dt friction kt mass rfl] at hT
  obtain ⟨r, c, hr, hc0, hn⟩ := bussi_escape_probability hsteep hT hF hdt hm (Real.exp_pos _).le a1 c0 s
  refine ⟨r, c, hr, hc0, fun P w inp cfg sim s0 config n pot starts h hp hl k hk t ht => ?_⟩
  have hprob := h.stream.prob
  obtain ⟨ω⟩ := P.nonempty_of_neZero
  obtain ⟨hbc, hforce⟩ := run_polynomial_force (h.run ω) hp
  rw [h.samePot ω] at hbc hforce
  have hforce' : pot.force = (freePot cs).force := by
    funext x k
    rw [hforce]
    rfl
  have hlaw := main_walker_law h k (t + 1) ht s hk
  rw [stepKind_bussi hl, stepMap_bussi pot dt friction kt mass hbc, hforce'] at hlaw
  have hm' := h.phase_measurable k (t + 1) ht (List.getElem?_eq_some_iff.1 hk).1
  have hA := beyond_measurable (2 ^ t * r)
  have e : P.real {ω | 2 ^ t * r ≤ |(h.phase k (t + 1) ω).1 0|} = (P.map (h.phase k (t + 1))).real (Prod.fst ⁻¹' beyond (2 ^ t * r)) := by
    rw [map_measureReal_apply hm' (measurable_fst hA)]
    rfl
  rw [e, hlaw]
  exact hn t

end Bdld
