import Verif.Props.RunAwayMueller

/-
C161: the periodic boundary condition does not keep walkers from running away in steep potentials. The program moves a walker outside
the range by one period only (C29), so that a walker that has come far enough outside doubles its distance as without boundary
condition.
-/

namespace Bdld

open MeasureTheory ProbabilityTheory Filter Topology Spec

section
variable {d : ℕ}

/-- Periodic boundary condition with periods of at most `R`, and a force of at least `L` times the distance from `R` on. -/
structure Spec.SteepPeriodic (pot : Potential ℝ d) (L R : ℝ) : Prop where
  periodic : pot.bc = some .periodic
  positive : 0 < R
  period : ∀ k : Fin d, |(pot.ranges.getD k (0, 0)).2 - (pot.ranges.getD k (0, 0)).1| ≤ R
  steep : ∀ x : Fin d → ℝ, R ≤ ‖x‖ → L * ‖x‖ ≤ ‖pot.force x‖

/-- The periodic boundary condition moves a walker by at most one period and leaves its momentum. -/
theorem periodic_near {ranges : List (ℝ × ℝ)} {R : ℝ} (hR : 0 < R)
    (h : ∀ k : Fin d, |(ranges.getD k (0, 0)).2 - (ranges.getD k (0, 0)).1| ≤ R) (s : Phase d) :
    ‖(boundary (some .periodic) ranges s).1 - s.1‖ ≤ R ∧ (boundary (some .periodic) ranges s).2 = s.2 := by
  refine ⟨(pi_norm_le_iff_of_nonneg hR.le).2 fun k => ?_, funext fun k => ?_⟩
  · have hk := h k
    rw [Pi.sub_apply, Real.norm_eq_abs]
    simp only [boundary, boundary1]
    split_ifs
    · rw [sub_sub_cancel_left, abs_neg]
      exact hk
    · rw [add_sub_cancel_left]
      exact hk
    · rw [sub_self, abs_zero]
      exact hR.le
  · simp only [boundary, boundary1]
    split_ifs <;> rfl

variable {pot : Potential ℝ d} {dt m friction kt R : ℝ}

/-! ### Overdamped dynamics -/

/-- Up to one period the move is the one without boundary condition. -/
theorem periodic_overdamped_move {L : ℝ} (h : SteepPeriodic pot L R) (dt friction kt m : ℝ) (n1 n2 : Fin d → ℝ) (s : Phase d) :
    ‖(stepMap .overdamped pot dt friction kt m n1 n2 s).1 - (s.1 + dt • pot.force s.1 + Real.sqrt (2 * dt) • n1)‖ ≤ R := by
  have h1 := (periodic_near h.positive h.period (fun k => s.1 k + pot.force s.1 k * dt + Real.sqrt (2 * dt) * n1 k, s.2)).1
  have e : (fun k => s.1 k + pot.force s.1 k * dt + Real.sqrt (2 * dt) * n1 k) = s.1 + dt • pot.force s.1 + Real.sqrt (2 * dt) • n1 := by
    funext k
    simp only [Pi.add_apply, Pi.smul_apply, smul_eq_mul]
    ring
  simp only [stepMap, eulerStep, h.periodic]
  rw [← e]
  exact h1

theorem periodic_overdamped_doubling (h : SteepPeriodic pot (5 / dt) R) (hF : Measurable pot.force) (hd : 0 < d) (hdt : 0 < dt)
    (friction kt m : ℝ) :
    Doubling (stepMap .overdamped pot dt friction kt m) (fun r => Prod.fst ⁻¹' distant d r) (Real.sqrt (2 * dt)) R where
  measurable := measurable_stepMap .overdamped pot hF dt friction kt m
  sets := fun r => measurable_fst (distant_measurable r)
  amp_pos := Real.sqrt_pos.2 (by linarith)
  radius := h.positive
  far := fun r s hs => hs
  doubles := fun r hr s hs n1 n2 h1 _ => by
    have hs' : r ≤ ‖s.1‖ := hs
    change 2 * r ≤ ‖(stepMap .overdamped pot dt friction kt m n1 n2 s).1‖
    have hmove := periodic_overdamped_move h dt friction kt m n1 n2 s
    set y := (stepMap .overdamped pot dt friction kt m n1 n2 s).1
    set z := s.1 + dt • pot.force s.1 + Real.sqrt (2 * dt) • n1 with hz
    have h2 := h.steep s.1 (hr.trans hs')
    have h3 : 5 * ‖s.1‖ ≤ ‖dt • pot.force s.1‖ := by
      rw [norm_smul, Real.norm_of_nonneg hdt.le]
      have := mul_le_mul_of_nonneg_left h2 hdt.le
      have e4 : dt * (5 / dt * ‖s.1‖) = 5 * ‖s.1‖ := by field_simp
      linarith
    have h4 : ‖Real.sqrt (2 * dt) • n1‖ ≤ r := by
      rw [norm_smul, Real.norm_of_nonneg (Real.sqrt_nonneg _)]
      exact h1
    have h5 : ‖dt • pot.force s.1‖ ≤ ‖y‖ + ‖y - z‖ + ‖s.1‖ + ‖Real.sqrt (2 * dt) • n1‖ := by
      have e5 : dt • pot.force s.1 = y - (y - z) - s.1 - Real.sqrt (2 * dt) • n1 := by
        rw [hz]
        abel
      rw [e5]
      exact (norm_sub_le _ _).trans (add_le_add_left ((norm_sub_le _ _).trans (add_le_add_left (norm_sub_le _ _) _)) _)
    linarith
  enters := fun r hr s => by
    have hσ : 0 < Real.sqrt (2 * dt) := Real.sqrt_pos.2 (by linarith)
    set k : Fin d := ⟨0, hd⟩
    refine ⟨{n | r + R < s.1 k + dt * pot.force s.1 k + Real.sqrt (2 * dt) * n k}, Set.univ, isOpen_lt continuous_const (by fun_prop),
      ⟨fun _ => (r + R + 1 - (s.1 k + dt * pot.force s.1 k)) / Real.sqrt (2 * dt), ?_⟩, isOpen_univ, ⟨0, trivial⟩, fun n1 h1 n2 _ => ?_⟩
    · rw [Set.mem_ofPred_eq, mul_div_cancel₀ _ hσ.ne']
      linarith
    · change r ≤ ‖(stepMap .overdamped pot dt friction kt m n1 n2 s).1‖
      have h1' : r + R < s.1 k + dt * pot.force s.1 k + Real.sqrt (2 * dt) * n1 k := h1
      have h2 := (norm_le_pi_norm _ k).trans (periodic_overdamped_move h dt friction kt m n1 n2 s)
      simp only [Pi.sub_apply, Pi.add_apply, Pi.smul_apply, smul_eq_mul, Real.norm_eq_abs] at h2
      refine le_trans ?_ (norm_le_pi_norm _ k)
      rw [Real.norm_eq_abs]
      refine le_trans ?_ (le_abs_self _)
      have := (abs_le.1 h2).1
      linarith

/-! ### The thermostat of Bussi and Parinello -/

/-- As `Spec.leaving`, with room for one period. -/
def Spec.departing (pot : Potential ℝ d) (decay dt m r : ℝ) : Set (Phase d) :=
  {s | r ≤ ‖s.1‖ ∧ ‖s.2 - (decay * (dt / 2)) • pot.force s.1‖ ≤ (3 * m / dt + 1) * ‖s.1‖}

/-- The force constant from which on the distances double. -/
noncomputable def Spec.periodicSteepness (dt m : ℝ) : ℝ := 2 * m / dt ^ 2 * (4 + dt / m * (3 * m / dt + 2))

theorem departing_measurable (hF : Measurable pot.force) (decay dt m r : ℝ) : MeasurableSet (departing pot decay dt m r) := by
  have h1 : Measurable (fun s : Phase d => ‖s.1‖) := measurable_norm.comp measurable_fst
  have h3 : Measurable (fun s : Phase d => s.2 - (decay * (dt / 2)) • pot.force s.1) := measurable_pi_iff.2 fun k =>
    ((measurable_pi_apply k).comp measurable_snd).sub (((measurable_pi_apply k).comp (hF.comp measurable_fst)).const_mul (decay * (dt / 2)))
  have h4 : Measurable (fun s : Phase d => ‖s.2 - (decay * (dt / 2)) • pot.force s.1‖) := measurable_norm.comp h3
  exact (measurableSet_le measurable_const h1).inter (measurableSet_le h4 (h1.const_mul _))

/-- A step is the one without boundary condition with a displacement of at most one period after the drift. -/
theorem periodic_bussi_move {L : ℝ} (h : SteepPeriodic pot L R) (dt friction kt m : ℝ) (n1 n2 : Fin d → ℝ) (s : Phase d) :
    ∃ (δ p1 : Fin d → ℝ), ‖δ‖ ≤ R ∧
      p1 = Real.exp (-(friction * dt / 2)) • s.2 + √(m * kt * (1 - Real.exp (-(friction * dt)))) • n1 + (dt / 2) • pot.force s.1 ∧
      (stepMap .bussi pot dt friction kt m n1 n2 s).1 = s.1 + (dt / m) • p1 + δ ∧
      (stepMap .bussi pot dt friction kt m n1 n2 s).2 = Real.exp (-(friction * dt / 2)) • (p1 + (dt / 2) •
        pot.force (stepMap .bussi pot dt friction kt m n1 n2 s).1) + √(m * kt * (1 - Real.exp (-(friction * dt)))) • n2 := by
  set a := Real.exp (-(friction * dt / 2)) with ha
  set c := √(m * kt * (1 - Real.exp (-(friction * dt)))) with hc
  set p1 : Fin d → ℝ := fun k => a * s.2 k + c * n1 k + dt / 2 * pot.force s.1 k with hp1
  set z : Phase d := (fun k => s.1 k + dt * (p1 k / m), p1) with hz
  obtain ⟨h1, h2⟩ := periodic_near h.positive h.period z
  have e1 : (stepMap .bussi pot dt friction kt m n1 n2 s).1 = (boundary (some .periodic) pot.ranges z).1 := by
    simp only [stepMap, bussiParrinelloStep, h.periodic, hz, hp1, ha, hc]
  have e2 : (stepMap .bussi pot dt friction kt m n1 n2 s).2 = fun k => a * ((boundary (some .periodic) pot.ranges z).2 k +
      dt / 2 * pot.force (boundary (some .periodic) pot.ranges z).1 k) + c * n2 k := by
    simp only [stepMap, bussiParrinelloStep, h.periodic, hz, hp1, ha, hc]
  refine ⟨(boundary (some .periodic) pot.ranges z).1 - z.1, p1, h1, ?_, ?_, ?_⟩
  · funext k
    simp only [hp1, Pi.add_apply, Pi.smul_apply, smul_eq_mul]
  · rw [e1]
    funext k
    simp only [hz, Pi.add_apply, Pi.sub_apply, Pi.smul_apply, smul_eq_mul]
    ring
  · rw [e2, e1, h2]
    funext k
    simp only [hz, Pi.add_apply, Pi.smul_apply, smul_eq_mul]

theorem periodic_bussi_departing {L : ℝ} (h : SteepPeriodic pot L R) (hdt : 0 < dt) (hf : 0 < friction) (hkt : 0 < kt) (hm : 0 < m) {r : ℝ}
    (n1 n2 : Fin d → ℝ) (s : Phase d) (hRr : R ≤ r) (hx : ‖s.1‖ ≤ ‖(stepMap .bussi pot dt friction kt m n1 n2 s).1‖)
    (hr : r ≤ ‖(stepMap .bussi pot dt friction kt m n1 n2 s).1‖) (hn : √(m * kt * (1 - Real.exp (-(friction * dt)))) * ‖n2‖ ≤ r) :
    stepMap .bussi pot dt friction kt m n1 n2 s ∈ departing pot (Real.exp (-(friction * dt / 2))) dt m r := by
  refine ⟨hr, ?_⟩
  obtain ⟨a1, c0⟩ := thermostat_factors hdt hf hkt hm
  have a0 := Real.exp_pos (-(friction * dt / 2))
  obtain ⟨δ, p1, hδ, _, e1, e2⟩ := periodic_bussi_move h dt friction kt m n1 n2 s
  set a := Real.exp (-(friction * dt / 2))
  set c := √(m * kt * (1 - Real.exp (-(friction * dt))))
  set y := (stepMap .bussi pot dt friction kt m n1 n2 s).1
  have em : m / dt * (dt / m) = 1 := by field_simp
  have e4 : p1 = (m / dt) • (y - s.1 - δ) := by
    have e5 : y - s.1 - δ = (dt / m) • p1 := by
      rw [e1]
      abel
    rw [e5, smul_smul, em, one_smul]
  have e6 : (stepMap .bussi pot dt friction kt m n1 n2 s).2 - (a * (dt / 2)) • pot.force y = (a * (m / dt)) • (y - s.1 - δ) + c • n2 := by
    rw [e2, mul_smul, mul_smul, ← e4]
    module
  rw [e6]
  have h1 := norm_add_le ((a * (m / dt)) • (y - s.1 - δ)) (c • n2)
  rw [norm_smul c, Real.norm_of_nonneg c0.le] at h1
  have hmd : 0 < m / dt := div_pos hm hdt
  have h2 : ‖(a * (m / dt)) • (y - s.1 - δ)‖ ≤ m / dt * (3 * ‖y‖) := by
    rw [norm_smul, Real.norm_of_nonneg (by positivity)]
    have h3 := norm_sub_le (y - s.1) δ
    have h4 := norm_sub_le y s.1
    exact mul_le_mul (mul_le_of_le_one_left hmd.le a1) (by linarith) (norm_nonneg _) hmd.le
  have e3 : (3 * m / dt + 1) * ‖y‖ = m / dt * (3 * ‖y‖) + ‖y‖ := by ring
  rw [e3]
  linarith

theorem periodic_bussi_far {L : ℝ} (h : SteepPeriodic pot L R) (hdt : 0 < dt) (hf : 0 < friction) (hkt : 0 < kt) (hm : 0 < m) {r : ℝ}
    (n1 n2 : Fin d → ℝ) (s : Phase d) (hRr : R ≤ r) (hs : s ∈ departing pot (Real.exp (-(friction * dt / 2))) dt m r)
    (hn : √(m * kt * (1 - Real.exp (-(friction * dt)))) * ‖n1‖ ≤ r) (hfor : periodicSteepness dt m * ‖s.1‖ ≤ ‖pot.force s.1‖) :
    2 * ‖s.1‖ ≤ ‖(stepMap .bussi pot dt friction kt m n1 n2 s).1‖ := by
  have hx : r ≤ ‖s.1‖ := hs.1
  have hp := hs.2
  obtain ⟨a1, c0⟩ := thermostat_factors hdt hf hkt hm
  have a0 := Real.exp_pos (-(friction * dt / 2))
  obtain ⟨δ, p1, hδ, ep, e1, _⟩ := periodic_bussi_move h dt friction kt m n1 n2 s
  set a := Real.exp (-(friction * dt / 2))
  set c := √(m * kt * (1 - Real.exp (-(friction * dt))))
  set y := (stepMap .bussi pot dt friction kt m n1 n2 s).1
  set e := s.2 - (a * (dt / 2)) • pot.force s.1 with he
  have h1 : (dt ^ 2 / (2 * m) * (1 + a ^ 2)) • pot.force s.1 = y - s.1 - δ - (dt / m) • (a • e + c • n1) := by
    rw [e1, ep, he]
    funext k
    simp only [Pi.add_apply, Pi.sub_apply, Pi.smul_apply, smul_eq_mul]
    field_simp
    ring
  have hdm : 0 < dt / m := div_pos hdt hm
  have h2 : (4 + dt / m * (3 * m / dt + 2)) * ‖s.1‖ ≤ ‖(dt ^ 2 / (2 * m) * (1 + a ^ 2)) • pot.force s.1‖ := by
    rw [norm_smul, Real.norm_of_nonneg (show 0 ≤ dt ^ 2 / (2 * m) * (1 + a ^ 2) by positivity)]
    have h3 : dt ^ 2 / (2 * m) * (periodicSteepness dt m * ‖s.1‖) ≤ dt ^ 2 / (2 * m) * ‖pot.force s.1‖ :=
      mul_le_mul_of_nonneg_left hfor (by positivity)
    have h4 : dt ^ 2 / (2 * m) * (periodicSteepness dt m * ‖s.1‖) = (4 + dt / m * (3 * m / dt + 2)) * ‖s.1‖ := by
      unfold periodicSteepness
      field_simp
    have h5 : dt ^ 2 / (2 * m) * ‖pot.force s.1‖ ≤ dt ^ 2 / (2 * m) * (1 + a ^ 2) * ‖pot.force s.1‖ := by
      refine mul_le_mul_of_nonneg_right ?_ (norm_nonneg _)
      exact le_mul_of_one_le_right (by positivity) (by nlinarith)
    linarith
  have h6 : ‖y - s.1 - δ - (dt / m) • (a • e + c • n1)‖ ≤ ‖y‖ + ‖s.1‖ + ‖δ‖ + dt / m * ((3 * m / dt + 2) * ‖s.1‖) := by
    have h7 := norm_sub_le (y - s.1 - δ) ((dt / m) • (a • e + c • n1))
    have h8 := norm_sub_le (y - s.1) δ
    have h8' := norm_sub_le y s.1
    have h9 : ‖(dt / m) • (a • e + c • n1)‖ ≤ dt / m * ((3 * m / dt + 2) * ‖s.1‖) := by
      rw [norm_smul, Real.norm_of_nonneg hdm.le]
      refine mul_le_mul_of_nonneg_left ?_ hdm.le
      have h10 := norm_add_le (a • e) (c • n1)
      rw [norm_smul, norm_smul, Real.norm_of_nonneg a0.le, Real.norm_of_nonneg c0.le] at h10
      have h11 : a * ‖e‖ ≤ ‖e‖ := mul_le_of_le_one_left (norm_nonneg _) a1
      linarith
    linarith
  rw [h1] at h2
  linarith

theorem periodic_bussi_doubling (h : SteepPeriodic pot (periodicSteepness dt m) R) (hF : Measurable pot.force) (hd : 0 < d) (hdt : 0 < dt)
    (hf : 0 < friction) (hkt : 0 < kt) (hm : 0 < m) :
    Doubling (stepMap .bussi pot dt friction kt m) (departing pot (Real.exp (-(friction * dt / 2))) dt m)
      (√(m * kt * (1 - Real.exp (-(friction * dt))))) R where
  measurable := measurable_stepMap .bussi pot hF dt friction kt m
  sets := fun r => departing_measurable hF _ _ _ r
  amp_pos := (thermostat_factors hdt hf hkt hm).2
  radius := h.positive
  far := fun r s hs => hs.1
  doubles := fun r hr s hs n1 n2 h1 h2 => by
    have hs1 : r ≤ ‖s.1‖ := hs.1
    have r0 : 0 < r := h.positive.trans_le hr
    have hfar := periodic_bussi_far h hdt hf hkt hm n1 n2 s hr hs h1 (h.steep s.1 (hr.trans hs1))
    exact periodic_bussi_departing h hdt hf hkt hm n1 n2 s (by linarith) (by linarith) (by linarith) (by linarith)
  enters := fun r hr s => by
    obtain ⟨a1, c0⟩ := thermostat_factors hdt hf hkt hm
    set amp := √(m * kt * (1 - Real.exp (-(friction * dt)))) with hamp
    set a := Real.exp (-(friction * dt / 2)) with ha
    set k : Fin d := ⟨0, hd⟩
    set ρ := max r R with hρ
    have ρ0 : 0 < ρ := hr.trans_le (le_max_left _ _)
    set M := max ρ ‖s.1‖ + R
    refine ⟨{n1 | M < s.1 k + dt / m * (a * s.2 k + amp * n1 k + dt / 2 * pot.force s.1 k)}, {n2 | amp * ‖n2‖ < ρ},
      isOpen_lt continuous_const (by fun_prop), ?_, isOpen_lt (by fun_prop) continuous_const, ⟨0, by simpa using ρ0⟩, ?_⟩
    · refine ⟨fun _ => ((M + 1 - s.1 k) * m / dt - a * s.2 k - dt / 2 * pot.force s.1 k) / amp, ?_⟩
      rw [Set.mem_ofPred_eq, mul_div_cancel₀ _ c0.ne']
      have e : s.1 k + dt / m * (a * s.2 k + ((M + 1 - s.1 k) * m / dt - a * s.2 k - dt / 2 * pot.force s.1 k) +
          dt / 2 * pot.force s.1 k) = M + 1 := by
        field_simp
        ring
      rw [e]
      linarith
    · intro n1 h1 n2 h2
      have h1' : M < s.1 k + dt / m * (a * s.2 k + amp * n1 k + dt / 2 * pot.force s.1 k) := h1
      have h3 : max ρ ‖s.1‖ ≤ ‖(stepMap .bussi pot dt friction kt m n1 n2 s).1‖ := by
        obtain ⟨δ, p1, hδ, ep, e1, _⟩ := periodic_bussi_move h dt friction kt m n1 n2 s
        refine le_trans ?_ (norm_le_pi_norm _ k)
        have h4 := (norm_le_pi_norm δ k).trans hδ
        rw [Real.norm_eq_abs] at h4 ⊢
        refine le_trans ?_ (le_abs_self _)
        rw [e1, ep]
        simp only [Pi.add_apply, Pi.smul_apply, smul_eq_mul]
        have h5 := (abs_le.1 h4).1
        have h6 : max ρ ‖s.1‖ = M - R := by simp [M]
        rw [h6]
        linarith
      have h4 := periodic_bussi_departing h hdt hf hkt hm n1 n2 s (le_max_right r R) ((le_max_right _ _).trans h3) ((le_max_left _ _).trans h3)
        (le_of_lt h2)
      exact ⟨(le_max_left r R).trans h4.1, h4.2⟩

end

/-! ### The Müller-Brown potential -/

/-- The Müller-Brown potential with the periodic boundary condition. -/
noncomputable def Spec.periodicMueller (A : Fin 4 → ℝ) : Potential ℝ 2 := { MB.potential A with bc := some .periodic }

theorem periodic_mueller_steep (A : Fin 4 → ℝ) (hA : A 3 ≠ 0) {L : ℝ} (hL : 0 < L) : ∃ R, SteepPeriodic (periodicMueller A) L R := by
  obtain ⟨R, h⟩ := mueller_steep A hA hL
  obtain ⟨W, hW⟩ : ∃ W : ℝ, ∀ k : Fin 2, |(MB.ranges.getD k (0, 0)).2 - (MB.ranges.getD k (0, 0)).1| ≤ W :=
    ⟨∑ k : Fin 2, |(MB.ranges.getD k (0, 0)).2 - (MB.ranges.getD k (0, 0)).1|, fun k =>
      Finset.single_le_sum (f := fun k : Fin 2 => |(MB.ranges.getD k (0, 0)).2 - (MB.ranges.getD k (0, 0)).1|)
        (fun _ _ => abs_nonneg _) (Finset.mem_univ k)⟩
  exact ⟨max R W, rfl, h.positive.trans_le (le_max_left _ _), fun k => (hW k).trans (le_max_right _ _),
    fun x hx => h.steep x ((le_max_left _ _).trans hx)⟩

theorem periodicSteepness_pos {dt m : ℝ} (hdt : 0 < dt) (hm : 0 < m) : 0 < periodicSteepness dt m := by
  unfold periodicSteepness
  positivity

theorem periodic_mueller_doubling (A : Fin 4 → ℝ) (hA : A 3 ≠ 0) {dt friction kt m : ℝ} (hdt : 0 < dt) (kind : LdKind)
    (hk : kind = .bussi → 0 < friction ∧ 0 < kt ∧ 0 < m) :
    ∃ O amp R, Doubling (stepMap kind (periodicMueller A) dt friction kt m) O amp R := by
  cases kind with
  | bussi =>
    obtain ⟨hf, hkt, hm⟩ := hk rfl
    obtain ⟨R, h⟩ := periodic_mueller_steep A hA (periodicSteepness_pos hdt hm)
    exact ⟨_, _, R, periodic_bussi_doubling h (mueller_continuous A).measurable two_pos hdt hf hkt hm⟩
  | overdamped =>
    obtain ⟨R, h⟩ := periodic_mueller_steep A hA (L := 5 / dt) (by positivity)
    exact ⟨_, _, R, periodic_overdamped_doubling h (mueller_continuous A).measurable two_pos hdt friction kt m⟩

/-- **C161.** No distribution is stationary in the Müller-Brown potential with periodic boundary condition, for both dynamics. -/
theorem periodic_mueller_no_stationary (A : Fin 4 → ℝ) (hA : A 3 ≠ 0) {dt friction kt m : ℝ} (hdt : 0 < dt) (kind : LdKind)
    (hk : kind = .bussi → 0 < friction ∧ 0 < kt ∧ 0 < m) (μ : Measure (Phase 2)) (hμ : IsProbabilityMeasure μ) :
    afterStep (stepMap kind (periodicMueller A) dt friction kt m) μ ≠ μ := by
  obtain ⟨O, amp, R, h⟩ := periodic_mueller_doubling A hA hdt kind hk
  exact doubling_no_stationary h μ hμ

/-- **C161.** From no start do the probabilities of all regions approach those of a distribution. -/
theorem periodic_mueller_not_settles (A : Fin 4 → ℝ) (hA : A 3 ≠ 0) {dt friction kt m : ℝ} (hdt : 0 < dt) (kind : LdKind)
    (hk : kind = .bussi → 0 < friction ∧ 0 < kt ∧ 0 < m) (z : Phase 2) (ν : Measure (Fin 2 → ℝ)) (hν : IsProbabilityMeasure ν) :
    ∃ M : ℝ, ¬ Settles (stepMap kind (periodicMueller A) dt friction kt m) (distant 2 M) (ν.real (distant 2 M)) z := by
  obtain ⟨O, amp, R, h⟩ := periodic_mueller_doubling A hA hdt kind hk
  exact doubling_not_settles h z ν hν

/-! ### Runs of the program -/

/-- The options of the Müller-Brown potential with periodic boundary condition. -/
structure PeriodicMueller (config : Input ℝ) (scaling : Option ℝ) : Prop where
  type : StrOpt config.potential "type" "mueller-brown"
  scaling : config.potential.get? "scaling-factor" = some (scaling.elim .none fun s => .base (.float s))
  closed : StrOpt config.potential "boundary-condition" "periodic"

theorem run_periodic_mueller {R : Type} {w : World R} {inp : Option (List Section)} {cfg : SimCfg 2} {sim s0 : Sim 2 R} {config : Input ℝ}
    {n : ℕ} (hr : FinishedRun w inp ⟨2, cfg, sim⟩ config n s0) {scaling : Option ℝ} (h : PeriodicMueller config scaling) :
    cfg.ld.pot = periodicMueller (MB.create MB.prefactors scaling) := by
  have hbc : cfg.ld.pot.bc = some .periodic := by
    have h2 := (main_potential hr).periodic
    simp only at h2
    exact h2.2 h.closed
  have hs := (finished_required hr).1
  have ht : config.potential.get? "type" = some (.base (.str "mueller-brown")) := h.type
  have e1 : config.potential.getItem "type" = .ok (.base (.str "mueller-brown")) := by
    unfold Dict.getItem
    rw [ht]
  have e2 : config.potential.getItem "scaling-factor" = .ok (scaling.elim .none fun s => .base (.float s)) := by
    unfold Dict.getItem
    rw [h.scaling]
  have e3 : (scaling.elim .none fun s => .base (.float s) : OptVal ℝ).asOptFloat = .ok scaling := by
    cases scaling <;> rfl
  unfold setupPotential at hs
  rw [e1] at hs
  simp only [ok_bind, e2, e3, pure_eq_ok] at hs
  obtain ⟨v, _, hs⟩ := bind_ok hs
  obtain ⟨bc, _, hs⟩ := bind_ok hs
  have h4 := Except.ok.inj hs
  simp only [AnyPotential.mk.injEq, heq_eq_eq, true_and] at h4
  rw [← h4] at hbc ⊢
  have h5 : bcOfOption bc = some .periodic := hbc
  unfold Potential.withBcOption
  rw [h5]
  rfl

/-- **C161.** Runs of the program in the Müller-Brown potential with periodic boundary condition, with overdamped dynamics. -/
theorem main_periodic_overdamped (scaling : Option ℝ) {dt : ℝ} (hdt : 0 < dt) (s : Phase 2) :
    ∃ r c : ℝ, 0 < r ∧ 0 < c ∧ ∀ {Ω R : Type} [MeasurableSpace Ω] (P : Measure Ω) (w : Ω → World R) (inp : Option (List Section))
      (cfg : Ω → SimCfg 2) (sim s0 : Ω → Sim 2 R) (config : Input ℝ) (n : ℕ) (pot : Potential ℝ 2) (mass : ℝ) (starts : List (Phase 2))
      (h : RandomRuns P w inp cfg sim s0 config n pot mass starts), PeriodicMueller config scaling → OverdampedOptions config dt →
      ∀ k, starts[k]? = some s → ∀ t, t + 1 ≤ n → c ≤ P.real {ω | 2 ^ t * r ≤ ‖(h.phase k (t + 1) ω).1‖} := by
  obtain ⟨O, amp, R0, hdb⟩ := periodic_mueller_doubling _ (mueller_prefactor scaling) hdt (friction := 0) (kt := 0) (m := 0) .overdamped
    (by intro h; cases h)
  obtain ⟨r, c, hr, hc, hn⟩ := doubling_probability hdb s
  refine ⟨r, c, hr, hc, fun P w inp cfg sim s0 config n pot mass starts h hp hl k hk t ht => ?_⟩
  have hprob := h.stream.prob
  obtain ⟨ω⟩ := P.nonempty_of_neZero
  have hpot := run_periodic_mueller (h.run ω) hp
  rw [h.samePot ω] at hpot
  rw [run_distance h k s hk (t + 1) ht, stepKind_overdamped hl, hpot]
  exact hn t

/-- **C161.** Runs of the program in the Müller-Brown potential with periodic boundary condition, with the Bussi-Parinello thermostat. -/
theorem main_periodic_bussi (scaling : Option ℝ) {dt friction kt mass : ℝ} (hdt : 0 < dt) (hf : 0 < friction) (hkt : 0 < kt) (hm : 0 < mass)
    (s : Phase 2) : ∃ r c : ℝ, 0 < r ∧ 0 < c ∧ ∀ {Ω R : Type} [MeasurableSpace Ω] (P : Measure Ω) (w : Ω → World R)
      (inp : Option (List Section)) (cfg : Ω → SimCfg 2) (sim s0 : Ω → Sim 2 R) (config : Input ℝ) (n : ℕ) (pot : Potential ℝ 2)
      (starts : List (Phase 2)) (h : RandomRuns P w inp cfg sim s0 config n pot mass starts), PeriodicMueller config scaling →
      BussiOptions config dt friction kt → ∀ k, starts[k]? = some s → ∀ t, t + 1 ≤ n →
      c ≤ P.real {ω | 2 ^ t * r ≤ ‖(h.phase k (t + 1) ω).1‖} := by
  obtain ⟨O, amp, R0, hdb⟩ := periodic_mueller_doubling _ (mueller_prefactor scaling) hdt (friction := friction) (kt := kt) (m := mass) .bussi
    (fun _ => ⟨hf, hkt, hm⟩)
  obtain ⟨r, c, hr, hc, hn⟩ := doubling_probability hdb s
  refine ⟨r, c, hr, hc, fun P w inp cfg sim s0 config n pot starts h hp hl k hk t ht => ?_⟩
  have hprob := h.stream.prob
  obtain ⟨ω⟩ := P.nonempty_of_neZero
  have hpot := run_periodic_mueller (h.run ω) hp
  rw [h.samePot ω] at hpot
  rw [run_distance h k s hk (t + 1) ht, stepKind_bussi hl, hpot]
  exact hn t

end Bdld
