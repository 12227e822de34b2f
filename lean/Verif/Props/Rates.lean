import Verif.Lemmas.Rates
import Verif.Props.BirthDeath
import Mathlib.Analysis.SpecialFunctions.Gaussian.GaussianIntegral
import Mathlib.MeasureTheory.Integral.Pi
import Mathlib.Tactic.NormNum

/-
C19 - C23: kernel, walker density, rates and acceptance probabilities (exact real arithmetic).
-/

namespace Bdld
open Spec

/-! ### Kernel (C22) -/

/-- **C22.** `calc_kernel` is the product of normal densities. -/
theorem kernel_eq_normal {d : Nat} (bw x : Fin d → ℝ) : calcKernel bw x = ∏ k, normalPdf (bw k) (x k) :=
  calcKernel_eq bw x

/-- **C22.** For positive bandwidths the kernel is positive, symmetric, and strictly maximal at distance
zero. -/
theorem kernel_shape {d : Nat} (bw : Fin d → ℝ) (hbw : ∀ k, 0 < bw k) (x : Fin d → ℝ) :
    0 < calcKernel bw x ∧ calcKernel bw (-x) = calcKernel bw x ∧ (x ≠ 0 → calcKernel bw x < calcKernel bw 0) := by
  refine ⟨by rw [calcKernel_eq]; exact kernel_pos bw x hbw, by rw [calcKernel_eq, calcKernel_eq, kernel_symm], ?_⟩
  intro hx
  unfold calcKernel
  apply mul_lt_mul_of_pos_left
  · apply Real.exp_lt_exp.2
    obtain ⟨k, hk⟩ := Function.ne_iff.1 hx
    have h1 : 0 < ∑ k, x k ^ 2 / (2 * bw k ^ 2) := by
      apply Finset.sum_pos'
      · intro j _; positivity
      · refine ⟨k, Finset.mem_univ _, ?_⟩
        have := hbw k
        have hk' : x k ≠ 0 := hk
        positivity
    simp only [Pi.zero_apply]
    simp
    exact h1
  · have : 0 < ∏ k, bw k := Finset.prod_pos (fun k _ => hbw k)
    positivity

theorem integral_normalPdf (σ : ℝ) (h : 0 < σ) : ∫ x : ℝ, normalPdf σ x = 1 := by
  unfold normalPdf
  have h1 : ∀ x : ℝ, Real.exp (-(x ^ 2 / (2 * σ ^ 2))) = Real.exp (-(1 / (2 * σ ^ 2)) * x ^ 2) := by
    intro x; congr 1; ring
  simp only [h1]
  rw [MeasureTheory.integral_const_mul, integral_gaussian]
  have h2 : Real.pi / (1 / (2 * σ ^ 2)) = σ ^ 2 * (2 * Real.pi) := by field_simp
  rw [h2, Real.sqrt_mul (sq_nonneg σ) (2 * Real.pi), Real.sqrt_sq h.le]
  have : σ * Real.sqrt (2 * Real.pi) ≠ 0 := by positivity
  field_simp

/-- **C22.** The kernel integrates to one over the whole space, in any dimension. -/
theorem kernel_integral {d : Nat} (bw : Fin d → ℝ) (hbw : ∀ k, 0 < bw k) :
    ∫ x : Fin d → ℝ, calcKernel bw x = 1 := by
  simp only [kernel_eq_normal]
  rw [MeasureTheory.integral_fintype_prod_volume_eq_prod (fun k x => normalPdf (bw k) x)]
  exact Finset.prod_eq_one (fun k _ => integral_normalPdf _ (hbw k))

/-- The hypotheses of the kernel theorems are met by a 2d bandwidth. -/
example : (∀ k, 0 < (![0.5, 2] : Fin 2 → ℝ) k) ∧ (![1, 0] : Fin 2 → ℝ) ≠ 0 := by
  refine ⟨fun k => ?_, fun h => ?_⟩
  · fin_cases k <;> norm_num
  · simpa using congrFun h 0

/-! ### Walker density (C21, C23) -/

/-- **C21.** The per-walker implementation is the kernel density estimate at every walker. -/
theorem density_manual {n d : Nat} (pos : Fin n → Fin d → ℝ) (bw : Fin d → ℝ) (i : Fin n) :
    walkerDensityManual pos bw i = kde bw pos (pos i) := by
  unfold walkerDensityManual npMean kde
  simp only [calcKernel_eq]

/-- **C21.** The pairwise-distance implementation is the kernel density estimate at every walker (in one and
in several dimensions). -/
theorem density_pdist {n d : Nat} (pos : Fin n → Fin d → ℝ) (bw : Fin d → ℝ) (i : Fin n) :
    walkerDensityPdist pos bw i = kde bw pos (pos i) := by
  unfold walkerDensityPdist npMean kde
  by_cases h : d = 1
  · subst h
    simp only [if_true, gaussMatrix1_eq]
  · simp only [if_neg h, gaussMatrixN_eq]

/-- **C21.** Both implementations agree, and `walker_density` is the kernel density estimate whichever is
used. -/
theorem density_agree {n d : Nat} (pos : Fin n → Fin d → ℝ) (bw : Fin d → ℝ) :
    walkerDensityPdist pos bw = walkerDensityManual pos bw ∧
    ∀ i, walkerDensity pos bw i = kde bw pos (pos i) := by
  refine ⟨funext fun i => (density_pdist pos bw i).trans (density_manual pos bw i).symm, fun i => ?_⟩
  unfold walkerDensity
  by_cases h : n ≤ 10000
  · rw [if_pos h]; exact density_pdist pos bw i
  · rw [if_neg h]; exact density_manual pos bw i

/-- **C23.** The density at every walker is at least the kernel height divided by the number of walkers, hence
strictly positive. -/
theorem density_lower_bound {n d : Nat} (pos : Fin n → Fin d → ℝ) (bw : Fin d → ℝ) (hbw : ∀ k, 0 < bw k)
    (i : Fin n) :
    calcKernel bw 0 / n ≤ walkerDensity pos bw i ∧ 0 < walkerDensity pos bw i := by
  have hn : (0 : ℝ) < n := by
    have := i.pos; exact_mod_cast this
  have h1 : calcKernel bw 0 / n ≤ walkerDensity pos bw i := by
    rw [(density_agree pos bw).2 i]
    unfold kde
    apply div_le_div_of_nonneg_right _ hn.le
    have := Finset.single_le_sum (f := fun j => kernel bw (pos i - pos j))
      (fun j _ => (kernel_pos bw _ hbw).le) (Finset.mem_univ i)
    simpa [calcKernel_eq] using this
  have h0 : 0 < calcKernel bw 0 / n := div_pos (by rw [calcKernel_eq]; exact kernel_pos bw 0 hbw) hn
  exact ⟨h1, h0.trans_le h1⟩

/-! ### Rates (C20, C23) -/

private theorem npLog_pos {x : ℝ} (h : 0 < x) : npLog x = ((Real.log x : ℝ) : WithBot ℝ) := by
  unfold npLog; rw [if_neg h.ne']

private theorem addB_coe (b x : ℝ) : addB (b : WithBot ℝ) x = ((b + x : ℝ) : WithBot ℝ) := rfl

private theorem meanFinite_coe {n : Nat} (b : Fin n → ℝ) :
    meanFinite (fun i => (b i : WithBot ℝ)) = (∑ i, b i) / n := by
  unfold meanFinite
  have : (Finset.univ.filter (fun i : Fin n => (b i : WithBot ℝ) ≠ ⊥)) = Finset.univ := by
    apply Finset.filter_true_of_mem
    intro i _
    exact WithBot.coe_ne_bot
  rw [this, Finset.card_univ, Fintype.card_fin]
  rfl

/-- The quantity whose deviation from the average is the rate: log of the walker density minus log of the
(smoothed) equilibrium density, up to a constant. -/
noncomputable def rawRate {n d : Nat} (c : RateCfg d) (pos : Fin n → Fin d → ℝ) (ene : Fin n → ℝ) (i : Fin n) : ℝ :=
  Real.log (kde c.bw pos (pos i)) + if c.variant = .mult then c.approx (pos i) else ene i / c.kt

/-- **C20, C23.** All rates are finite: the rate of a walker is the deviation of `log ρ + E/kT` (or
`log ρ + approx` for the multiplicative variant) from its average, plus the correction in the additive
variant. -/
theorem rates_eq {n d : Nat} (c : RateCfg d) (hbw : ∀ k, 0 < c.bw k) (pos : Fin n → Fin d → ℝ)
    (ene : Fin n → ℝ) (i : Fin n) :
    calcBetas c pos ene i = ((centred (rawRate c pos ene) i
      + (if c.variant = .add then c.approx (pos i) else 0) : ℝ) : WithBot ℝ) := by
  have hlog : ∀ i, npLog (walkerDensity pos c.bw i)
      = ((Real.log (kde c.bw pos (pos i)) : ℝ) : WithBot ℝ) := by
    intro i
    rw [npLog_pos (density_lower_bound pos c.bw hbw i).2, (density_agree pos c.bw).2]
  unfold calcBetas centred rawRate
  cases hv : c.variant
  · simp only [hlog, addB_coe, meanFinite_coe, if_neg (show ¬ ApproxVariant.orig = .mult by decide),
      if_neg (show ¬ ApproxVariant.orig = .add by decide), add_zero, mul_one_div]
    rfl
  · simp only [hlog, addB_coe, meanFinite_coe, if_neg (show ¬ ApproxVariant.add = .mult by decide),
      if_true, mul_one_div]
    rfl
  · simp only [hlog, addB_coe, meanFinite_coe, if_true,
      if_neg (show ¬ ApproxVariant.mult = .add by decide), add_zero]
    rfl

private theorem centred_sum {n : Nat} (v : Fin n → ℝ) : ∑ i, centred v i = 0 := by
  unfold centred
  rcases Nat.eq_zero_or_pos n with h | h
  · subst h; simp
  · rw [Finset.sum_sub_distrib, Finset.sum_const, Finset.card_univ, Fintype.card_fin, nsmul_eq_mul]
    have : (n : ℝ) ≠ 0 := by exact_mod_cast h.ne'
    field_simp
    ring

private theorem centred_shift {n : Nat} (v : Fin n → ℝ) (a : ℝ) (i : Fin n) :
    centred (fun i => v i + a) i = centred v i := by
  unfold centred
  have h : (n : ℝ) ≠ 0 := by have := i.pos; exact_mod_cast this.ne'
  rw [Finset.sum_add_distrib, Finset.sum_const, Finset.card_univ, Fintype.card_fin, nsmul_eq_mul]
  field_simp
  ring

/-- **C23.** Every rate is a finite number. -/
theorem rates_finite {n d : Nat} (c : RateCfg d) (hbw : ∀ k, 0 < c.bw k) (pos : Fin n → Fin d → ℝ)
    (ene : Fin n → ℝ) (i : Fin n) : calcBetas c pos ene i ≠ ⊥ := by
  rw [rates_eq c hbw]; exact WithBot.coe_ne_bot

/-- **C20.** The rates of the original and of the multiplicative variant sum to zero over all walkers. (In the
additive variant they sum to the sum of the corrections.) -/
theorem rates_sum {n d : Nat} (c : RateCfg d) (hbw : ∀ k, 0 < c.bw k) (pos : Fin n → Fin d → ℝ)
    (ene : Fin n → ℝ) :
    ∃ b : Fin n → ℝ, (∀ i, calcBetas c pos ene i = (b i : WithBot ℝ)) ∧
      ∑ i, b i = if c.variant = .add then ∑ i, c.approx (pos i) else 0 := by
  refine ⟨_, rates_eq c hbw pos ene, ?_⟩
  rw [Finset.sum_add_distrib, centred_sum, zero_add]
  split <;> simp

/-- **C20.** Adding a constant to all energies changes no rate (all variants). -/
theorem rates_energy_shift {n d : Nat} (c : RateCfg d) (hbw : ∀ k, 0 < c.bw k) (pos : Fin n → Fin d → ℝ)
    (ene : Fin n → ℝ) (a : ℝ) : calcBetas c pos (fun i => ene i + a) = calcBetas c pos ene := by
  funext i
  rw [rates_eq c hbw, rates_eq c hbw]
  have : rawRate c pos (fun i => ene i + a)
      = fun i => rawRate c pos ene i + (if c.variant = .mult then 0 else a / c.kt) := by
    funext i
    unfold rawRate
    by_cases hv : c.variant = .mult
    · simp [hv]
    · simp only [if_neg hv]; ring
  rw [this, centred_shift]

/-- **C20.** Translating all walkers by the same vector changes no rate of the original variant (energies
being given). -/
theorem rates_translate {n d : Nat} (c : RateCfg d) (hbw : ∀ k, 0 < c.bw k) (hv : c.variant = .orig)
    (pos : Fin n → Fin d → ℝ) (ene : Fin n → ℝ) (a : Fin d → ℝ) :
    calcBetas c (fun i => pos i + a) ene = calcBetas c pos ene := by
  funext i
  rw [rates_eq c hbw, rates_eq c hbw]
  have : rawRate c (fun i => pos i + a) ene = rawRate c pos ene := by
    funext i
    unfold rawRate kde
    simp only [add_sub_add_right_eq_sub, hv, if_neg (show ¬ ApproxVariant.orig = .mult by decide)]
  rw [this]
  simp [hv]

/-- **C20.** Renumbering the walkers renumbers the rates (all variants). -/
theorem rates_permute {n d : Nat} (c : RateCfg d) (hbw : ∀ k, 0 < c.bw k) (pos : Fin n → Fin d → ℝ)
    (ene : Fin n → ℝ) (σ : Equiv.Perm (Fin n)) (i : Fin n) :
    calcBetas c (pos ∘ σ) (ene ∘ σ) i = calcBetas c pos ene (σ i) := by
  rw [rates_eq c hbw, rates_eq c hbw]
  have h : ∀ i, rawRate c (pos ∘ σ) (ene ∘ σ) i = rawRate c pos ene (σ i) := by
    intro i
    unfold rawRate kde
    simp only [Function.comp]
    rw [Equiv.sum_comp σ (fun j => kernel c.bw (pos (σ i) - pos j))]
  unfold centred
  simp only [h, Function.comp]
  rw [Equiv.sum_comp σ (fun j => rawRate c pos ene j)]

/-- **C20**, consequence: a single walker has rate zero in the original and in the multiplicative variant. -/
theorem rates_single {d : Nat} (c : RateCfg d) (hbw : ∀ k, 0 < c.bw k) (hv : c.variant ≠ .add)
    (pos : Fin 1 → Fin d → ℝ) (ene : Fin 1 → ℝ) : calcBetas c pos ene 0 = ((0 : ℝ) : WithBot ℝ) := by
  rw [rates_eq c hbw]
  simp [centred, hv]

/-! ### Acceptance (C19) -/

/-- **C19.** The acceptance probability of a finite rate, for positive time step and rate factor: it lies in
`[0, 1)`, vanishes exactly for rate zero, depends only on the absolute value of the rate, and grows strictly
with it. -/
theorem acceptProb_spec (dt f : ℝ) (hdt : 0 < dt) (hf : 0 < f) (b : ℝ) :
    0 ≤ acceptProb dt f b ∧ acceptProb dt f b < 1 ∧ (acceptProb dt f b = 0 ↔ b = 0) ∧
    acceptProb dt f (-b : ℝ) = acceptProb dt f b ∧
    (∀ b' : ℝ, |b| < |b'| → acceptProb dt f b < acceptProb dt f b') := by
  have hdf : 0 < dt * f := mul_pos hdt hf
  have e : ∀ x : ℝ, acceptProb dt f (x : WithBot ℝ) = 1 - Real.exp (-(|x| * (dt * f))) := by
    intro x; show 1 - Real.exp (-|x| * dt * f) = _; rw [neg_mul, neg_mul, mul_assoc]
  rw [e, e]
  refine ⟨?_, ?_, ?_, ?_, ?_⟩
  · have : Real.exp (-(|b| * (dt * f))) ≤ 1 := by
      apply Real.exp_le_one_iff.2
      have := mul_nonneg (abs_nonneg b) hdf.le
      linarith
    linarith
  · have := Real.exp_pos (-(|b| * (dt * f)))
    linarith
  · constructor
    · intro h
      have h1 : Real.exp (-(|b| * (dt * f))) = 1 := by linarith
      rw [Real.exp_eq_one_iff] at h1
      have h2 : |b| * (dt * f) = 0 := by linarith
      rcases mul_eq_zero.1 h2 with h3 | h3
      · exact abs_eq_zero.1 h3
      · exact absurd h3 hdf.ne'
    · rintro rfl; simp
  · rw [abs_neg]
  · intro b' hb
    rw [e]
    have : Real.exp (-(|b'| * (dt * f))) < Real.exp (-(|b| * (dt * f))) := by
      apply Real.exp_lt_exp.2
      have := mul_lt_mul_of_pos_right hb hdf
      linarith
    linarith

/-- **C19.** For a non-zero rate the probability grows strictly with the time between birth-death steps and
with the rate factor. -/
theorem acceptProb_mono (dt dt' f f' : ℝ) (hdt : 0 < dt) (hf : 0 < f) (b : ℝ) (hb : b ≠ 0)
    (h : dt ≤ dt') (h' : f ≤ f') (hne : dt < dt' ∨ f < f') : acceptProb dt f b < acceptProb dt' f' b := by
  have e : ∀ dt f : ℝ, acceptProb dt f (b : WithBot ℝ) = 1 - Real.exp (-(|b| * (dt * f))) := by
    intro dt f; show 1 - Real.exp (-|b| * dt * f) = _; rw [neg_mul, neg_mul, mul_assoc]
  rw [e, e]
  have hlt : dt * f < dt' * f' := by
    rcases hne with h1 | h1
    · exact lt_of_lt_of_le (mul_lt_mul_of_pos_right h1 hf) (mul_le_mul_of_nonneg_left h' (by linarith))
    · exact lt_of_lt_of_le (mul_lt_mul_of_pos_left h1 hdt) (mul_le_mul_of_nonneg_right h (by linarith))
  have : Real.exp (-(|b| * (dt' * f'))) < Real.exp (-(|b| * (dt * f))) := by
    apply Real.exp_lt_exp.2
    have := mul_lt_mul_of_pos_left hlt (abs_pos.2 hb)
    linarith
  linarith

/-- **C19.** An infinite rate (vanishing density) is treated as the limit of very negative rates: it is
accepted with the limit of their probabilities, which is larger than that of every finite rate. -/
theorem acceptProb_infinite (dt f : ℝ) (hdt : 0 < dt) (hf : 0 < f) :
    Filter.Tendsto (fun b : ℝ => acceptProb dt f b) Filter.atBot (nhds (acceptProb dt f ⊥)) ∧
    ∀ b : ℝ, acceptProb dt f b < acceptProb dt f ⊥ := by
  have hdf : 0 < dt * f := mul_pos hdt hf
  have e : ∀ x : ℝ, acceptProb dt f (x : WithBot ℝ) = 1 - Real.exp (-(|x| * (dt * f))) := by
    intro x; show 1 - Real.exp (-|x| * dt * f) = _; rw [neg_mul, neg_mul, mul_assoc]
  have e1 : acceptProb dt f ⊥ = 1 - 0 := by simp [acceptProb]
  constructor
  · simp only [e, e1]
    apply Filter.Tendsto.sub tendsto_const_nhds
    apply Real.tendsto_exp_atBot.comp
    apply Filter.tendsto_neg_atTop_atBot.comp
    exact (Filter.tendsto_abs_atBot_atTop).atTop_mul_const hdf
  · intro b
    rw [e, e1]
    have := Real.exp_pos (-(|b| * (dt * f)))
    linarith

theorem realBdCfg_lawful {P : Type} {d : Nat} (c : RateCfg d) (dt f : ℝ) (recalc : Bool) (view : P → Walker d) :
    (realBdCfg c dt f recalc view).Lawful := fun ps => by simp [realBdCfg]

/-- **C19.** In a bulk birth-death step with the real rates, the walkers that trigger an event are exactly those
whose random number is at most `1 - exp(-|β| dt rate_factor)` and that were not selected to be killed before;
a positive rate means being killed, any other being duplicated. -/
theorem bd_real_bulk {P R : Type} {d : Nat} (c : RateCfg d) (hbw : ∀ k, 0 < c.bw k) (dt f : ℝ)
    (view : P → Walker d) {ops : RngOps R ℝ} (hops : ops.Lawful) {s s' : BdState P R} {ev : List (Nat × Nat)}
    (h : doBirthDeath (realBdCfg c dt f false view) ops s = .ok (ev, s')) :
    ∃ (recs : List BdEvent) (β : Fin s.particles.length → ℝ), ev = recs.map BdEvent.pair ∧
      (∀ i, calcBetas c (fun i : Fin s.particles.length => (view (s.particles.get i)).pos)
        (fun i => (view (s.particles.get i)).energy) i = (β i : WithBot ℝ)) ∧
      (∀ e ∈ recs, ∃ i : Fin s.particles.length, i.val = e.trigger ∧ ∃ u, (bdRand ops s)[i.val]? = some u ∧
        u ≤ 1 - Real.exp (-|β i| * dt * f) ∧ (0 < β i → e.kill = i.val) ∧ (β i ≤ 0 → e.dup = i.val)) ∧
      (∀ i : Fin s.particles.length, ∀ u, (bdRand ops s)[i.val]? = some u → u ≤ 1 - Real.exp (-|β i| * dt * f) →
        ∃ e ∈ recs, e.trigger = i.val ∨ e.kill = i.val) := by
  obtain ⟨recs, h1, h2, _, _, h5⟩ := bd_bulk_events_partial (realBdCfg_lawful c dt f false view) hops rfl h
  have hβ := rates_eq c hbw (fun i : Fin s.particles.length => (view (s.particles.get i)).pos)
    (fun i => (view (s.particles.get i)).energy)
  refine ⟨recs, _, h1, hβ, ?_, ?_⟩
  · intro e he
    obtain ⟨u, b, hu, hb, ha, hr⟩ := h2 e he
    have hlt : e.trigger < s.particles.length := by
      have := (List.getElem?_eq_some_iff.1 hb).1
      simpa [bdBeta, realBdCfg] using this
    refine ⟨⟨e.trigger, hlt⟩, rfl, u, hu, ?_⟩
    have hb' : b = calcBetas c (fun i : Fin s.particles.length => (view (s.particles.get i)).pos)
        (fun i => (view (s.particles.get i)).energy) ⟨e.trigger, hlt⟩ := by
      have hb2 : (List.ofFn (fun i : Fin s.particles.length =>
        calcBetas c (fun i : Fin s.particles.length => (view (s.particles.get i)).pos)
          (fun i => (view (s.particles.get i)).energy) i))[e.trigger]? = some b := hb
      rw [List.getElem?_eq_getElem (by simpa using hlt)] at hb2
      simp only [List.getElem_ofFn, Option.some.injEq] at hb2
      exact hb2.symm
    rw [hβ] at hb'
    subst hb'
    have ha' := @of_decide_eq_true _ (Classical.propDecidable _) ha
    refine ⟨ha', fun hpos => ?_, fun hneg => ?_⟩
    · have : (realBdCfg c dt f false view).gt0 ((_ : ℝ) : WithBot ℝ) = true :=
        @decide_eq_true _ (Classical.propDecidable _) (by exact_mod_cast hpos)
      rw [this] at hr
      simpa [RolesOk] using hr
    · have : (realBdCfg c dt f false view).gt0 ((_ : ℝ) : WithBot ℝ) = false :=
        @decide_eq_false _ (Classical.propDecidable _) (by rw [not_lt]; exact_mod_cast hneg)
      rw [this] at hr
      simpa [RolesOk] using hr
  · intro i u hu hle
    refine h5 i.val u (calcBetas c (fun i : Fin s.particles.length => (view (s.particles.get i)).pos)
        (fun i => (view (s.particles.get i)).energy) i) hu ?_ ?_
    · show (List.ofFn _)[i.val]? = _
      rw [List.getElem?_eq_getElem (by simp)]
      simp
    · rw [hβ]
      exact @decide_eq_true _ (Classical.propDecidable _) hle

/-- **C24 (partial)** with the real rates: with at least two walkers and all random numbers positive a step
never raises, in both modes. (A random number of exactly 0 together with a rate of exactly 0 can raise in the
recalculating mode, see `bd_total_recalc_false`.) -/
theorem bd_real_total_partial {P R : Type} {d : Nat} (c : RateCfg d) (dt f : ℝ) (recalc : Bool)
    (view : P → Walker d) {ops : RngOps R ℝ} (hops : ops.Lawful)
    (s : BdState P R) (hn : 2 ≤ s.particles.length) (hm : recalc = false ∨ (∀ u ∈ bdRand ops s, 0 < u)) :
    ∃ x, doBirthDeath (realBdCfg c dt f recalc view) ops s = .ok x := by
  cases recalc with
  | false => exact bd_total_bulk_partial (realBdCfg_lawful c dt f false view) hops rfl s hn
  | true =>
    have hm : ∀ u ∈ bdRand ops s, 0 < u := hm.resolve_left (by simp)
    refine bd_total_recalc_partial (realBdCfg_lawful c dt f true view) hops rfl s hn ?_
    intro u hu b ha
    have ha' : u ≤ acceptProb dt f b := @of_decide_eq_true _ (Classical.propDecidable _) ha
    have hne : b ≠ ((0 : ℝ) : WithBot ℝ) := by
      rintro rfl
      have h0 : acceptProb dt f ((0 : ℝ) : WithBot ℝ) = 0 := by simp [acceptProb]
      rw [h0] at ha'
      exact absurd (hm u hu) (not_lt.2 ha')
    rcases lt_or_gt_of_ne hne with h | h
    · exact Or.inr (@decide_eq_true _ (Classical.propDecidable _) h)
    · exact Or.inl (@decide_eq_true _ (Classical.propDecidable _) h)

/-- A generator that always returns 1/2, does not shuffle, and returns the integer 0. -/
noncomputable def halfRng : RngOps Unit ℝ where
  random := fun n r => (List.replicate n (1 / 2), r)
  shuffle := fun l r => (l, r)
  integers := fun _ r => (0, r)

theorem halfRng_lawful : halfRng.Lawful where
  random_length := fun n r => by simp [halfRng]
  shuffle_perm := fun l r => List.Perm.refl _
  integers_lt := fun n r h => h

/-- The hypotheses of `bd_real_bulk` and `bd_real_total_partial` are met: three walkers in two dimensions,
multiplicative variant, recalculating and bulk mode. -/
example (recalc : Bool) (c : RateCfg 2) (_ : c = ⟨![0.3, 0.4], 1, .mult, fun x => x 0 - x 1⟩) :
    (∀ k, 0 < c.bw k) ∧ ∃ x, doBirthDeath (realBdCfg c 0.1 2 recalc (id : Walker 2 → Walker 2)) halfRng
      ⟨[⟨![0, 0], 1⟩, ⟨![1, 2], 3⟩, ⟨![1, 1], 0⟩], (), ⟨0, 0, 0, 0⟩⟩ = .ok x := by
  subst_vars
  refine ⟨fun k => by fin_cases k <;> norm_num, ?_⟩
  apply bd_real_total_partial _ _ _ _ _ halfRng_lawful
  · decide
  · right
    intro u hu
    simp only [bdRand, halfRng] at hu
    rw [(List.mem_replicate.1 hu).2]
    norm_num

end Bdld
