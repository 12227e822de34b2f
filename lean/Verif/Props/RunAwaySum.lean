import Verif.Props.RunAwayRing

/-
C162: walkers run away in polynomials of several coordinates of the form ∑ p_k(x_k) + ∑ b_jk x_j x_k, without boundary condition and
with the periodic one. The potential of Wolfe and Quapp is one of them.
-/

namespace Bdld

open MeasureTheory ProbabilityTheory Filter Topology Spec

section
variable {d : ℕ}

/-- A polynomial of each coordinate and a quadratic form that couples them. -/
def Spec.sumEnergy (cs : Fin d → List ℝ) (b : Fin d → Fin d → ℝ) (x : Fin d → ℝ) : ℝ :=
  ∑ k, poly1 (cs k) (x k) + ∑ j, ∑ k, b j k * (x j * x k)

theorem sum_force {cs : Fin d → List ℝ} {b : Fin d → Fin d → ℝ} {F : (Fin d → ℝ) → Fin d → ℝ} (h : Conservative (sumEnergy cs b) F)
    (x : Fin d → ℝ) (i : Fin d) : F x i = (-(polyOf (cs i)).derivative).eval (x i) - ∑ j, (b j i + b i j) * x j := by
  have h1 : HasFDerivAt (fun y : Fin d → ℝ => ∑ k, (polyOf (cs k)).eval (y k)) (∑ k, (polyOf (cs k)).derivative.eval (x k) •
      ContinuousLinearMap.proj (R := ℝ) (φ := fun _ : Fin d => ℝ) k) x :=
    HasFDerivAt.fun_sum fun k _ => by
      have hx : HasFDerivAt (fun x : Fin d → ℝ => x k) (ContinuousLinearMap.proj (R := ℝ) (φ := fun _ : Fin d => ℝ) k) x := hasFDerivAt_apply k x
      exact ((polyOf (cs k)).hasDerivAt (x k)).comp_hasFDerivAt x hx
  have h2 : HasFDerivAt (fun y : Fin d → ℝ => ∑ j, ∑ k, b j k * (y j * y k)) (∑ j, ∑ k, b j k •
      (x j • ContinuousLinearMap.proj (R := ℝ) (φ := fun _ : Fin d => ℝ) k + x k • ContinuousLinearMap.proj (R := ℝ) (φ := fun _ : Fin d => ℝ) j)) x :=
    HasFDerivAt.fun_sum fun j _ => HasFDerivAt.fun_sum fun k _ => ((hasFDerivAt_apply j x).mul (hasFDerivAt_apply k x)).const_mul (b j k)
  have e : sumEnergy cs b = fun y : Fin d → ℝ => ∑ k, (polyOf (cs k)).eval (y k) + ∑ j, ∑ k, b j k * (y j * y k) := by
    funext y
    simp only [sumEnergy, polyOf_eval]
  have h3 := h x
  rw [e] at h3
  have hu := congrArg (fun f => f (Pi.single i (1 : ℝ))) (h3.unique (h1.add h2))
  simp [Pi.single_apply, Finset.sum_add_distrib] at hu
  rw [Polynomial.eval_neg]
  have e2 : ∑ j, (b j i + b i j) * x j = ∑ j, b j i * x j + ∑ j, b i j * x j := by
    rw [← Finset.sum_add_distrib]
    exact Finset.sum_congr rfl fun j _ => by ring
  rw [e2]
  linarith

/-- The force grows faster than the distance. -/
theorem sum_steep {cs : Fin d → List ℝ} {b : Fin d → Fin d → ℝ} {F : (Fin d → ℝ) → Fin d → ℝ} (h : Conservative (sumEnergy cs b) F)
    (hd : 0 < d) (hc : ∀ k, ∃ i, 3 ≤ i ∧ (cs k).getD i 0 ≠ 0) {L : ℝ} (hL : 0 < L) : ∃ R : ℝ, 0 < R ∧ ∀ x, R ≤ ‖x‖ → L * ‖x‖ ≤ ‖F x‖ := by
  set C := ∑ i, ∑ j, |b j i + b i j| with hC
  have hC0 : 0 ≤ C := Finset.sum_nonneg fun i _ => Finset.sum_nonneg fun j _ => abs_nonneg _
  have hLC : 0 < L + C := by linarith
  choose R hR0 hR using fun k => poly_steep _ (derivative_degree (cs k) (hc k)) (4 / (L + C)) (by positivity)
  have : Nonempty (Fin d) := ⟨⟨0, hd⟩⟩
  refine ⟨∑ k, R k, Finset.sum_pos (fun k _ => hR0 k) Finset.univ_nonempty, fun x hx => ?_⟩
  obtain ⟨i, hi⟩ : ∃ i, ‖x‖ = |x i| := by
    obtain ⟨i, _, hi⟩ := Finset.exists_mem_eq_sup' Finset.univ_nonempty (fun k => ‖x k‖₊)
    refine ⟨i, ?_⟩
    rw [Pi.norm_def, ← Finset.sup'_eq_sup Finset.univ_nonempty, hi]
    rfl
  have hRi : R i ≤ |x i| := by
    rw [← hi]
    exact (Finset.single_le_sum (f := R) (fun k _ => (hR0 k).le) (Finset.mem_univ i)).trans hx
  have h1 := hR i (x i) hRi
  rw [abs_mul, abs_of_pos (show 0 < 4 / (L + C) by positivity), mul_div_assoc', le_div_iff₀ hLC] at h1
  refine le_trans ?_ (norm_le_pi_norm (F x) i)
  rw [Real.norm_eq_abs, sum_force h x i]
  have h2 : |∑ j, (b j i + b i j) * x j| ≤ C * ‖x‖ := by
    refine (Finset.abs_sum_le_sum_abs _ _).trans ?_
    have h3 : ∑ j, |(b j i + b i j) * x j| ≤ (∑ j, |b j i + b i j|) * ‖x‖ := by
      rw [Finset.sum_mul]
      refine Finset.sum_le_sum fun j _ => ?_
      rw [abs_mul]
      exact mul_le_mul_of_nonneg_left (norm_le_pi_norm x j) (abs_nonneg _)
    refine h3.trans (mul_le_mul_of_nonneg_right ?_ (norm_nonneg _))
    exact Finset.single_le_sum (f := fun i => ∑ j, |b j i + b i j|) (fun i _ => Finset.sum_nonneg fun j _ => abs_nonneg _) (Finset.mem_univ i)
  have h4 := abs_sub_abs_le_abs_sub ((-(polyOf (cs i)).derivative).eval (x i)) (∑ j, (b j i + b i j) * x j)
  rw [hi] at h2 ⊢
  nlinarith

/-- Dynamics in a conservative potential with such an energy. -/
theorem sum_doubling {cs : Fin d → List ℝ} {b : Fin d → Fin d → ℝ} {pot : Potential ℝ d} (h : Conservative pot.energy pot.force)
    (he : pot.energy = sumEnergy cs b) (hbc : pot.bc ≠ some .reflective) (hd : 0 < d) (hc : ∀ k, ∃ i, 3 ≤ i ∧ (cs k).getD i 0 ≠ 0)
    {dt friction kt m : ℝ} (hdt : 0 < dt) (kind : LdKind) (hk : kind = .bussi → 0 < friction ∧ 0 < kt ∧ 0 < m) :
    ∃ O amp R, Doubling (stepMap kind pot dt friction kt m) O amp R := by
  have hF := conservative_measurable h
  rw [he] at h
  cases hb : pot.bc with
  | none =>
    have hfar : ∀ L : ℝ, 0 < L → ∃ R, SteepFar pot L R := fun L hL => by
      obtain ⟨R, h1, h2⟩ := sum_steep h hd hc hL
      exact ⟨R, hb, h1, h2⟩
    cases kind with
    | bussi =>
      obtain ⟨hf, hkt, hm⟩ := hk rfl
      obtain ⟨R, hs⟩ := hfar _ (steepness_pos hdt hm)
      exact ⟨_, _, R, bussi_doubling hs hF hd hdt hf hkt hm⟩
    | overdamped =>
      obtain ⟨R, hs⟩ := hfar (4 / dt) (by positivity)
      exact ⟨_, _, R, overdamped_doubling hs hF hd hdt friction kt m⟩
  | some c =>
    have hcp : c = .periodic := by
      cases c with
      | reflective => exact absurd hb hbc
      | periodic => rfl
    subst hcp
    have hfar : ∀ L : ℝ, 0 < L → ∃ R, SteepPeriodic pot L R := fun L hL => by
      obtain ⟨R, h1, h2⟩ := sum_steep h hd hc hL
      set W := ∑ k : Fin d, |(pot.ranges.getD k (0, 0)).2 - (pot.ranges.getD k (0, 0)).1| with hW
      exact ⟨max R W, hb, h1.trans_le (le_max_left _ _), fun k =>
        (Finset.single_le_sum (f := fun k : Fin d => |(pot.ranges.getD k (0, 0)).2 - (pot.ranges.getD k (0, 0)).1|)
          (fun _ _ => abs_nonneg _) (Finset.mem_univ k)).trans (le_max_right _ _), fun x hx => h2 x ((le_max_left _ _).trans hx)⟩
    cases kind with
    | bussi =>
      obtain ⟨hf, hkt, hm⟩ := hk rfl
      obtain ⟨R, hs⟩ := hfar _ (periodicSteepness_pos hdt hm)
      exact ⟨_, _, R, periodic_bussi_doubling hs hF hd hdt hf hkt hm⟩
    | overdamped =>
      obtain ⟨R, hs⟩ := hfar (5 / dt) (by positivity)
      exact ⟨_, _, R, periodic_overdamped_doubling hs hF hd hdt friction kt m⟩

/-- **C162.** No distribution is stationary. -/
theorem sum_no_stationary {cs : Fin d → List ℝ} {b : Fin d → Fin d → ℝ} {pot : Potential ℝ d} (h : Conservative pot.energy pot.force)
    (he : pot.energy = sumEnergy cs b) (hbc : pot.bc ≠ some .reflective) (hd : 0 < d) (hc : ∀ k, ∃ i, 3 ≤ i ∧ (cs k).getD i 0 ≠ 0)
    {dt friction kt m : ℝ} (hdt : 0 < dt) (kind : LdKind) (hk : kind = .bussi → 0 < friction ∧ 0 < kt ∧ 0 < m)
    (μ : Measure (Phase d)) (hμ : IsProbabilityMeasure μ) : afterStep (stepMap kind pot dt friction kt m) μ ≠ μ := by
  obtain ⟨O, amp, R, h⟩ := sum_doubling h he hbc hd hc hdt kind hk
  exact doubling_no_stationary h μ hμ

/-- **C162.** From no start do the probabilities of all regions approach those of a distribution. -/
theorem sum_not_settles {cs : Fin d → List ℝ} {b : Fin d → Fin d → ℝ} {pot : Potential ℝ d} (h : Conservative pot.energy pot.force)
    (he : pot.energy = sumEnergy cs b) (hbc : pot.bc ≠ some .reflective) (hd : 0 < d) (hc : ∀ k, ∃ i, 3 ≤ i ∧ (cs k).getD i 0 ≠ 0)
    {dt friction kt m : ℝ} (hdt : 0 < dt) (kind : LdKind) (hk : kind = .bussi → 0 < friction ∧ 0 < kt ∧ 0 < m)
    (z : Phase d) (ν : Measure (Fin d → ℝ)) (hν : IsProbabilityMeasure ν) :
    ∃ M : ℝ, ¬ Settles (stepMap kind pot dt friction kt m) (distant d M) (ν.real (distant d M)) z := by
  obtain ⟨O, amp, R, h⟩ := sum_doubling h he hbc hd hc hdt kind hk
  exact doubling_not_settles h z ν hν

/-! ### Runs of the program -/

/-- **C162.** Walkers of runs of the program with overdamped dynamics in such a potential. The bounds depend on the potential, the time
step and the start only. -/
theorem main_sum_overdamped {cs : Fin d → List ℝ} {b : Fin d → Fin d → ℝ} (hc : ∀ k, ∃ i, 3 ≤ i ∧ (cs k).getD i 0 ≠ 0) {pot : Potential ℝ d}
    (he : pot.energy = sumEnergy cs b) (hbc : pot.bc ≠ some .reflective) {dt : ℝ} (hdt : 0 < dt) (s : Phase d) :
    ∃ r c : ℝ, 0 < r ∧ 0 < c ∧ ∀ {Ω R : Type} [MeasurableSpace Ω] (P : Measure Ω) (w : Ω → World R) (inp : Option (List Section))
      (cfg : Ω → SimCfg d) (sim s0 : Ω → Sim d R) (config : Input ℝ) (n : ℕ) (mass : ℝ) (starts : List (Phase d))
      (h : RandomRuns P w inp cfg sim s0 config n pot mass starts), OverdampedOptions config dt →
      ∀ k, starts[k]? = some s → ∀ t, t + 1 ≤ n → c ≤ P.real {ω | 2 ^ t * r ≤ ‖(h.phase k (t + 1) ω).1‖} := by
  by_cases hcons : 0 < d ∧ Conservative pot.energy pot.force
  · obtain ⟨O, amp, R0, hdb⟩ := sum_doubling hcons.2 he hbc hcons.1 hc hdt (friction := 0) (kt := 0) (m := 0) .overdamped (by intro h; cases h)
    obtain ⟨r, c, hr, hc, hn⟩ := doubling_probability hdb s
    refine ⟨r, c, hr, hc, fun P w inp cfg sim s0 config n mass starts h hl k hk t ht => ?_⟩
    rw [run_distance h k s hk (t + 1) ht, stepKind_overdamped hl]
    exact hn t
  · refine ⟨1, 1, one_pos, one_pos, fun P w inp cfg sim s0 config n mass starts h hl k hk t ht => absurd ?_ hcons⟩
    have hprob := h.stream.prob
    obtain ⟨ω⟩ := P.nonempty_of_neZero
    have h1 := (main_potential (h.run ω)).dim
    have h2 := (main_potential (h.run ω)).conservative
    simp only [h.samePot ω] at h1 h2
    exact ⟨by omega, h2⟩

/-- **C162.** Walkers of runs of the program with the Bussi-Parinello thermostat in such a potential. -/
theorem main_sum_bussi {cs : Fin d → List ℝ} {b : Fin d → Fin d → ℝ} (hc : ∀ k, ∃ i, 3 ≤ i ∧ (cs k).getD i 0 ≠ 0) {pot : Potential ℝ d}
    (he : pot.energy = sumEnergy cs b) (hbc : pot.bc ≠ some .reflective) {dt friction kt mass : ℝ} (hdt : 0 < dt) (hf : 0 < friction)
    (hkt : 0 < kt) (hm : 0 < mass) (s : Phase d) :
    ∃ r c : ℝ, 0 < r ∧ 0 < c ∧ ∀ {Ω R : Type} [MeasurableSpace Ω] (P : Measure Ω) (w : Ω → World R) (inp : Option (List Section))
      (cfg : Ω → SimCfg d) (sim s0 : Ω → Sim d R) (config : Input ℝ) (n : ℕ) (starts : List (Phase d))
      (h : RandomRuns P w inp cfg sim s0 config n pot mass starts), BussiOptions config dt friction kt →
      ∀ k, starts[k]? = some s → ∀ t, t + 1 ≤ n → c ≤ P.real {ω | 2 ^ t * r ≤ ‖(h.phase k (t + 1) ω).1‖} := by
  by_cases hcons : 0 < d ∧ Conservative pot.energy pot.force
  · obtain ⟨O, amp, R0, hdb⟩ := sum_doubling hcons.2 he hbc hcons.1 hc hdt (friction := friction) (kt := kt) (m := mass) .bussi
      (fun _ => ⟨hf, hkt, hm⟩)
    obtain ⟨r, c, hr, hc, hn⟩ := doubling_probability hdb s
    refine ⟨r, c, hr, hc, fun P w inp cfg sim s0 config n starts h hl k hk t ht => ?_⟩
    rw [run_distance h k s hk (t + 1) ht, stepKind_bussi hl]
    exact hn t
  · refine ⟨1, 1, one_pos, one_pos, fun P w inp cfg sim s0 config n starts h hl k hk t ht => absurd ?_ hcons⟩
    have hprob := h.stream.prob
    obtain ⟨ω⟩ := P.nonempty_of_neZero
    have h1 := (main_potential (h.run ω)).dim
    have h2 := (main_potential (h.run ω)).conservative
    simp only [h.samePot ω] at h1 h2
    exact ⟨by omega, h2⟩

end

end Bdld
