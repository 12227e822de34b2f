import Verif.Props.RunAway

/-
C160 for the Müller-Brown potential: the fourth term grows without bound, so that walkers without walls run away.
-/

namespace Bdld

open MeasureTheory ProbabilityTheory Filter Topology Spec

/-! ### Bounds of the force -/

/-- The terms with a negative form are bounded. -/
theorem bounded_term {p q u v e : ℝ} (hp : |p| ≤ 20) (hq : |q| ≤ 20) (he : e ≤ -(u ^ 2 + v ^ 2)) : |(p * u + q * v) * Real.exp e| ≤ 20 := by
  rw [abs_mul, abs_of_pos (Real.exp_pos e)]
  have h1 : |p * u + q * v| ≤ 20 * (1 + (u ^ 2 + v ^ 2)) := by
    have h2 := abs_add_le (p * u) (q * v)
    rw [abs_mul, abs_mul] at h2
    have h3 : |p| * |u| ≤ 20 * |u| := mul_le_mul_of_nonneg_right hp (abs_nonneg _)
    have h4 : |q| * |v| ≤ 20 * |v| := mul_le_mul_of_nonneg_right hq (abs_nonneg _)
    have h5 := sq_abs u
    have h6 := sq_abs v
    nlinarith [sq_nonneg (|u| - 1 / 2), sq_nonneg (|v| - 1 / 2)]
  have h2 : 1 + (u ^ 2 + v ^ 2) ≤ Real.exp (u ^ 2 + v ^ 2) := by
    have := Real.add_one_le_exp (u ^ 2 + v ^ 2)
    linarith
  have h3 : Real.exp e ≤ Real.exp (-(u ^ 2 + v ^ 2)) := Real.exp_le_exp.2 he
  have h4 : Real.exp (u ^ 2 + v ^ 2) * Real.exp (-(u ^ 2 + v ^ 2)) = 1 := by
    rw [← Real.exp_add, add_neg_cancel, Real.exp_zero]
  calc |p * u + q * v| * Real.exp e ≤ 20 * (1 + (u ^ 2 + v ^ 2)) * Real.exp (-(u ^ 2 + v ^ 2)) :=
        mul_le_mul h1 h3 (Real.exp_pos _).le (by positivity)
    _ ≤ 20 * Real.exp (u ^ 2 + v ^ 2) * Real.exp (-(u ^ 2 + v ^ 2)) :=
        mul_le_mul_of_nonneg_right (by linarith) (Real.exp_pos _).le
    _ = 20 := by rw [mul_assoc, h4, mul_one]

/-- The last term grows. -/
theorem growing_term {p q u v e w : ℝ} (hu : w = |u|) (hv : |v| ≤ w) (hp : p = 7 / 5) (hq : q = 3 / 5)
    (he : 2 / 5 * (u ^ 2 + v ^ 2) ≤ e) : 8 / 25 * w ^ 3 ≤ |(p * u + q * v) * Real.exp e| := by
  have hw : 0 ≤ w := hu ▸ abs_nonneg u
  rw [abs_mul, abs_of_pos (Real.exp_pos e)]
  have h1 : 4 / 5 * w ≤ |p * u + q * v| := by
    have h2 : |p * u| ≤ |p * u + q * v| + |q * v| := by
      have := abs_sub (p * u + q * v) (q * v)
      rwa [add_sub_cancel_right] at this
    rw [abs_mul, abs_mul, hp, hq, abs_of_pos (show (0 : ℝ) < 7 / 5 by norm_num), abs_of_pos (show (0 : ℝ) < 3 / 5 by norm_num), ← hu] at h2
    rw [hp, hq]
    linarith
  have h2 : 2 / 5 * w ^ 2 ≤ Real.exp e := by
    have h3 := Real.add_one_le_exp e
    have h4 : w ^ 2 = u ^ 2 := by rw [hu, sq_abs]
    have := sq_nonneg v
    linarith
  calc 8 / 25 * w ^ 3 = 4 / 5 * w * (2 / 5 * w ^ 2) := by ring
    _ ≤ |p * u + q * v| * Real.exp e := mul_le_mul h1 h2 (by positivity) (abs_nonneg _)

theorem three_small {t0 t1 t2 t3 A0 A1 A2 A3 b : ℝ} (h0 : |t0| ≤ 20) (h1 : |t1| ≤ 20) (h2 : |t2| ≤ 20) (h3 : b ≤ |t3|) :
    |A3| * b - 20 * (|A0| + |A1| + |A2|) ≤ |-A0 * t0 + -A1 * t1 + -A2 * t2 + -A3 * t3| := by
  have e : A3 * t3 = -(-A0 * t0 + -A1 * t1 + -A2 * t2 + -A3 * t3) - A0 * t0 - A1 * t1 - A2 * t2 := by ring
  have h : |A3 * t3| ≤ |-A0 * t0 + -A1 * t1 + -A2 * t2 + -A3 * t3| + |A0 * t0| + |A1 * t1| + |A2 * t2| := by
    rw [e]
    refine (abs_sub _ _).trans (add_le_add ((abs_sub _ _).trans (add_le_add ((abs_sub _ _).trans (add_le_add ?_ le_rfl)) le_rfl)) le_rfl)
    rw [abs_neg]
  rw [abs_mul, abs_mul, abs_mul, abs_mul] at h
  have g0 := mul_le_mul_of_nonneg_left h0 (abs_nonneg A0)
  have g1 := mul_le_mul_of_nonneg_left h1 (abs_nonneg A1)
  have g2 := mul_le_mul_of_nonneg_left h2 (abs_nonneg A2)
  have g3 := mul_le_mul_of_nonneg_left h3 (abs_nonneg A3)
  linarith

theorem mueller_forms (i : Fin 4) (hi : i ≠ 3) : |2 * MB.a i| ≤ 20 ∧ |MB.b i| ≤ 20 ∧ |2 * MB.c i| ≤ 20 ∧
    ∀ u v : ℝ, MB.a i * u ^ 2 + MB.b i * u * v + MB.c i * v ^ 2 ≤ -(u ^ 2 + v ^ 2) := by
  have a0 : MB.a 0 = -1 := rfl
  have a1 : MB.a 1 = -1 := rfl
  have a2 : MB.a 2 = -13 / 2 := rfl
  have b0 : MB.b 0 = 0 := rfl
  have b1 : MB.b 1 = 0 := rfl
  have b2 : MB.b 2 = 11 := rfl
  have c0 : MB.c 0 = -10 := rfl
  have c1 : MB.c 1 = -10 := rfl
  have c2 : MB.c 2 = -13 / 2 := rfl
  match i, hi with
  | 0, _ =>
    rw [a0, b0, c0]
    exact ⟨by norm_num [abs_le], by norm_num [abs_le], by norm_num [abs_le], fun u v => by nlinarith [sq_nonneg v]⟩
  | 1, _ =>
    rw [a1, b1, c1]
    exact ⟨by norm_num [abs_le], by norm_num [abs_le], by norm_num [abs_le], fun u v => by nlinarith [sq_nonneg v]⟩
  | 2, _ =>
    rw [a2, b2, c2]
    exact ⟨by norm_num [abs_le], by norm_num [abs_le], by norm_num [abs_le], fun u v => by nlinarith [sq_nonneg (u - v)]⟩
  | 3, h => exact absurd rfl h

/-- The force of the Müller-Brown potential at the distance `w` from the centre of the last term. -/
theorem mueller_force_large (A : Fin 4 → ℝ) (x : Fin 2 → ℝ) :
    |A 3| * (8 / 25 * max |x 0 + 1| |x 1 - 1| ^ 3) - 20 * (|A 0| + |A 1| + |A 2|) ≤ ‖MB.force A x‖ := by
  have a3 : MB.a 3 = 7 / 10 := rfl
  have b3 : MB.b 3 = 6 / 10 := rfl
  have c3 : MB.c 3 = 7 / 10 := rfl
  have x3 : x 0 - MB.x0 3 = x 0 + 1 := by
    have : MB.x0 3 = -1 := rfl
    rw [this]
    ring
  have y3 : x 1 - MB.y0 3 = x 1 - 1 := rfl
  rcases le_total |x 1 - 1| |x 0 + 1| with hle | hle
  · rw [max_eq_left hle]
    refine le_trans ?_ (norm_le_pi_norm _ 0)
    set t : Fin 4 → ℝ := fun i => (2 * MB.a i * (x 0 - MB.x0 i) + MB.b i * (x 1 - MB.y0 i)) * MB.expTmp i (x 0) (x 1) with ht
    have e : MB.force A x 0 = -A 0 * t 0 + -A 1 * t 1 + -A 2 * t 2 + -A 3 * t 3 := by
      rw [MB.force_zero, Fin.sum_univ_four]
      simp only [ht]
      ring
    have hs : ∀ i, i ≠ 3 → |t i| ≤ 20 := fun i hi => by
      obtain ⟨h1, h2, _, h4⟩ := mueller_forms i hi
      exact bounded_term h1 h2 (h4 _ _)
    rw [e, Real.norm_eq_abs]
    refine three_small (hs 0 (by decide)) (hs 1 (by decide)) (hs 2 (by decide)) ?_
    simp only [ht, MB.expTmp]
    rw [x3, y3, a3, b3, c3]
    exact growing_term rfl hle (by norm_num) (by norm_num) (by nlinarith [sq_nonneg (x 0 + 1 + (x 1 - 1))])
  · rw [max_eq_right hle]
    refine le_trans ?_ (norm_le_pi_norm _ 1)
    set t : Fin 4 → ℝ := fun i => (MB.b i * (x 0 - MB.x0 i) + 2 * MB.c i * (x 1 - MB.y0 i)) * MB.expTmp i (x 0) (x 1) with ht
    have e : MB.force A x 1 = -A 0 * t 0 + -A 1 * t 1 + -A 2 * t 2 + -A 3 * t 3 := by
      rw [MB.force_one, Fin.sum_univ_four]
      simp only [ht]
      ring
    have hs : ∀ i, i ≠ 3 → |t i| ≤ 20 := fun i hi => by
      obtain ⟨_, h2, h3, h4⟩ := mueller_forms i hi
      exact bounded_term h2 h3 (h4 _ _)
    rw [e, Real.norm_eq_abs]
    refine three_small (hs 0 (by decide)) (hs 1 (by decide)) (hs 2 (by decide)) ?_
    simp only [ht, MB.expTmp]
    rw [x3, y3, a3, b3, c3, add_comm (6 / 10 * (x 0 + 1))]
    exact growing_term rfl hle (by norm_num) (by norm_num) (by nlinarith [sq_nonneg (x 0 + 1 + (x 1 - 1))])

/-- The Müller-Brown potential is steep outside. -/
theorem mueller_steep (A : Fin 4 → ℝ) (hA : A 3 ≠ 0) {L : ℝ} (hL : 0 < L) : ∃ R, SteepFar (MB.potential A) L R := by
  set C := 20 * (|A 0| + |A 1| + |A 2|) with hC
  have hC0 : 0 ≤ C := by positivity
  have hA0 : 0 < |A 3| := abs_pos.2 hA
  set K := (2 * L + C) / (|A 3| * (8 / 25)) with hK
  have hK0 : 0 ≤ K := by positivity
  refine ⟨K + 2, rfl, by linarith, fun x hx => ?_⟩
  have hf := mueller_force_large A x
  rw [← hC] at hf
  set w := max |x 0 + 1| |x 1 - 1| with hw
  have hxw : ‖x‖ ≤ w + 1 := by
    refine (pi_norm_le_iff_of_nonneg (by positivity)).2 fun k => ?_
    rw [Real.norm_eq_abs]
    match k with
    | 0 =>
      have h1 := abs_sub (x 0 + 1) 1
      rw [add_sub_cancel_right, abs_one] at h1
      exact h1.trans (by linarith [le_max_left |x 0 + 1| |x 1 - 1|])
    | 1 =>
      have h1 := abs_add_le (x 1 - 1) 1
      rw [sub_add_cancel, abs_one] at h1
      exact h1.trans (by linarith [le_max_right |x 0 + 1| |x 1 - 1|])
  have hw1 : K + 1 ≤ w := by linarith
  have hK' : 2 * L + C ≤ |A 3| * (8 / 25) * w := by
    have h1 : K * (|A 3| * (8 / 25)) = 2 * L + C := div_mul_cancel₀ _ (by positivity)
    nlinarith
  have h1 : L * ‖x‖ ≤ L * (w + 1) := mul_le_mul_of_nonneg_left hxw hL.le
  have h2 : (2 * L + C) * (w ^ 2) ≤ |A 3| * (8 / 25 * w ^ 3) := by
    have := mul_le_mul_of_nonneg_right hK' (sq_nonneg w)
    nlinarith
  have h3 : L * (w + 1) + C ≤ (2 * L + C) * w ^ 2 := by
    have hw1' : 1 ≤ w := by linarith
    have h4 : w ≤ w ^ 2 := by nlinarith
    have h5 : 1 ≤ w ^ 2 := by nlinarith
    nlinarith [mul_le_mul_of_nonneg_left h4 hL.le, mul_le_mul_of_nonneg_left h5 hL.le, mul_le_mul_of_nonneg_left h5 hC0]
  change L * ‖x‖ ≤ ‖MB.force A x‖
  linarith

/-! ### Dynamics in the Müller-Brown potential -/

theorem mueller_overdamped (A : Fin 4 → ℝ) (hA : A 3 ≠ 0) {dt : ℝ} (hdt : 0 < dt) (friction kt m : ℝ) :
    ∃ O amp R, Doubling (stepMap .overdamped (MB.potential A) dt friction kt m) O amp R := by
  obtain ⟨R, h⟩ := mueller_steep A hA (L := 4 / dt) (by positivity)
  exact ⟨_, _, R, overdamped_doubling h (mueller_continuous A).measurable two_pos hdt friction kt m⟩

theorem mueller_bussi (A : Fin 4 → ℝ) (hA : A 3 ≠ 0) {dt friction kt m : ℝ} (hdt : 0 < dt) (hf : 0 < friction) (hkt : 0 < kt) (hm : 0 < m) :
    ∃ O amp R, Doubling (stepMap .bussi (MB.potential A) dt friction kt m) O amp R := by
  obtain ⟨R, h⟩ := mueller_steep A hA (steepness_pos hdt hm)
  exact ⟨_, _, R, bussi_doubling h (mueller_continuous A).measurable two_pos hdt hf hkt hm⟩

/-- **C160.** No distribution is stationary in the Müller-Brown potential without walls, for both dynamics. -/
theorem mueller_no_stationary (A : Fin 4 → ℝ) (hA : A 3 ≠ 0) {dt friction kt m : ℝ} (hdt : 0 < dt) (hf : 0 < friction) (hkt : 0 < kt)
    (hm : 0 < m) (kind : LdKind) (μ : Measure (Phase 2)) (hμ : IsProbabilityMeasure μ) :
    afterStep (stepMap kind (MB.potential A) dt friction kt m) μ ≠ μ := by
  cases kind with
  | bussi =>
    obtain ⟨O, amp, R, h⟩ := mueller_bussi A hA hdt hf hkt hm
    exact doubling_no_stationary h μ hμ
  | overdamped =>
    obtain ⟨O, amp, R, h⟩ := mueller_overdamped A hA hdt friction kt m
    exact doubling_no_stationary h μ hμ

/-- **C160.** From no start do the probabilities of all regions approach those of a distribution. -/
theorem mueller_not_settles (A : Fin 4 → ℝ) (hA : A 3 ≠ 0) {dt friction kt m : ℝ} (hdt : 0 < dt) (hf : 0 < friction) (hkt : 0 < kt)
    (hm : 0 < m) (kind : LdKind) (z : Phase 2) (ν : Measure (Fin 2 → ℝ)) (hν : IsProbabilityMeasure ν) :
    ∃ M : ℝ, ¬ Settles (stepMap kind (MB.potential A) dt friction kt m) (distant 2 M) (ν.real (distant 2 M)) z := by
  cases kind with
  | bussi =>
    obtain ⟨O, amp, R, h⟩ := mueller_bussi A hA hdt hf hkt hm
    exact doubling_not_settles h z ν hν
  | overdamped =>
    obtain ⟨O, amp, R, h⟩ := mueller_overdamped A hA hdt friction kt m
    exact doubling_not_settles h z ν hν

/-! ### Runs of the program -/

/-- The options of the Müller-Brown potential without boundary condition. -/
structure FreeMueller (config : Input ℝ) (scaling : Option ℝ) : Prop where
  type : StrOpt config.potential "type" "mueller-brown"
  scaling : config.potential.get? "scaling-factor" = some (scaling.elim .none fun s => .base (.float s))
  open' : ¬ StrOpt config.potential "boundary-condition" "reflective" ∧ ¬ StrOpt config.potential "boundary-condition" "periodic"

theorem mueller_prefactor (scaling : Option ℝ) : MB.create MB.prefactors scaling 3 ≠ 0 := by
  have h : MB.prefactors 3 = 15 := rfl
  unfold MB.create
  cases scaling with
  | none =>
    change MB.prefactors 3 ≠ 0
    rw [h]
    norm_num
  | some s =>
    dsimp only
    split_ifs with hs
    · rw [h]
      norm_num
    · change MB.prefactors 3 * s ≠ 0
      rw [h]
      exact mul_ne_zero (by norm_num) hs

theorem run_mueller {R : Type} {w : World R} {inp : Option (List Section)} {cfg : SimCfg 2} {sim s0 : Sim 2 R} {config : Input ℝ} {n : ℕ}
    (hr : FinishedRun w inp ⟨2, cfg, sim⟩ config n s0) {scaling : Option ℝ} (h : FreeMueller config scaling) :
    cfg.ld.pot = MB.potential (MB.create MB.prefactors scaling) := by
  have hbc : cfg.ld.pot.bc = none := by
    have h1 := (main_potential hr).reflective
    have h2 := (main_potential hr).periodic
    simp only at h1 h2
    cases hb : cfg.ld.pot.bc with
    | none => rfl
    | some b =>
      cases b with
      | reflective => exact absurd (h1.1 hb) h.open'.1
      | periodic => exact absurd (h2.1 hb) h.open'.2
  have hs := (finished_required hr).1
  have ht : config.potential.get? "type" = some (.base (.str "mueller-brown")) := h.type
  have e1 : config.potential.getItem "type" = .ok (.base (.str "mueller-brown")) := by
    unfold Dict.getItem
    rw [ht]
  have e2 : config.potential.getItem "scaling-factor" = .ok (scaling.elim .none fun s => .base (.float s)) := by
    unfold Dict.getItem
    rw [h.scaling]
  have e3 : (scaling.elim .none fun s => .base (.float s) : OptVal ℝ).asOptFloat = .ok scaling := by
    cases scaling <;> rfl
  unfold setupPotential at hs
  rw [e1] at hs
  simp only [ok_bind, e2, e3, pure_eq_ok] at hs
  obtain ⟨v, _, hs⟩ := bind_ok hs
  obtain ⟨bc, _, hs⟩ := bind_ok hs
  have h4 := Except.ok.inj hs
  simp only [AnyPotential.mk.injEq, heq_eq_eq, true_and] at h4
  rw [← h4] at hbc ⊢
  have h5 : bcOfOption bc = none := hbc
  unfold Potential.withBcOption
  rw [h5]
  rfl

/-- The walkers of a run with a dynamics that doubles distances. -/
theorem run_distance {Ω R : Type} [MeasurableSpace Ω] {P : Measure Ω} {w : Ω → World R} {inp : Option (List Section)} {d : ℕ}
    {cfg : Ω → SimCfg d} {sim s0 : Ω → Sim d R} {config : Input ℝ} {n : ℕ} {pot : Potential ℝ d} {mass : ℝ} {starts : List (Phase d)}
    (h : RandomRuns P w inp cfg sim s0 config n pot mass starts) (k : ℕ) (s : Phase d) (hk : starts[k]? = some s) (t : ℕ) (ht : t ≤ n) (r : ℝ) :
    P.real {ω | r ≤ ‖(h.phase k t ω).1‖} = ((afterStep (dynamicsOf config.ld pot mass))^[t] (Measure.dirac s)).real (Prod.fst ⁻¹' distant d r) := by
  have hm := h.phase_measurable k t ht (List.getElem?_eq_some_iff.1 hk).1
  rw [← main_walker_law h k t ht s hk, map_measureReal_apply hm (measurable_fst (distant_measurable r))]
  rfl

/-- **C160.** Runs of the program in the Müller-Brown potential without boundary condition, with overdamped dynamics. -/
theorem main_mueller_overdamped (scaling : Option ℝ) {dt : ℝ} (hdt : 0 < dt) (s : Phase 2) :
    ∃ r c : ℝ, 0 < r ∧ 0 < c ∧ ∀ {Ω R : Type} [MeasurableSpace Ω] (P : Measure Ω) (w : Ω → World R) (inp : Option (List Section))
      (cfg : Ω → SimCfg 2) (sim s0 : Ω → Sim 2 R) (config : Input ℝ) (n : ℕ) (pot : Potential ℝ 2) (mass : ℝ) (starts : List (Phase 2))
      (h : RandomRuns P w inp cfg sim s0 config n pot mass starts), FreeMueller config scaling → OverdampedOptions config dt →
      ∀ k, starts[k]? = some s → ∀ t, t + 1 ≤ n → c ≤ P.real {ω | 2 ^ t * r ≤ ‖(h.phase k (t + 1) ω).1‖} := by
  obtain ⟨O, amp, R0, hdb⟩ := mueller_overdamped _ (mueller_prefactor scaling) hdt 0 0 0
  obtain ⟨r, c, hr, hc, hn⟩ := doubling_probability hdb s
  refine ⟨r, c, hr, hc, fun P w inp cfg sim s0 config n pot mass starts h hp hl k hk t ht => ?_⟩
  have hprob := h.stream.prob
  obtain ⟨ω⟩ := P.nonempty_of_neZero
  have hpot := run_mueller (h.run ω) hp
  rw [h.samePot ω] at hpot
  rw [run_distance h k s hk (t + 1) ht, stepKind_overdamped hl, hpot]
  exact hn t

/-- **C160.** Runs of the program in the Müller-Brown potential without boundary condition, with the Bussi-Parinello thermostat. -/
theorem main_mueller_bussi (scaling : Option ℝ) {dt friction kt mass : ℝ} (hdt : 0 < dt) (hf : 0 < friction) (hkt : 0 < kt) (hm : 0 < mass)
    (s : Phase 2) : ∃ r c : ℝ, 0 < r ∧ 0 < c ∧ ∀ {Ω R : Type} [MeasurableSpace Ω] (P : Measure Ω) (w : Ω → World R)
      (inp : Option (List Section)) (cfg : Ω → SimCfg 2) (sim s0 : Ω → Sim 2 R) (config : Input ℝ) (n : ℕ) (pot : Potential ℝ 2)
      (starts : List (Phase 2)) (h : RandomRuns P w inp cfg sim s0 config n pot mass starts), FreeMueller config scaling →
      BussiOptions config dt friction kt → ∀ k, starts[k]? = some s → ∀ t, t + 1 ≤ n →
      c ≤ P.real {ω | 2 ^ t * r ≤ ‖(h.phase k (t + 1) ω).1‖} := by
  obtain ⟨O, amp, R0, hdb⟩ := mueller_bussi _ (mueller_prefactor scaling) hdt hf hkt hm
  obtain ⟨r, c, hr, hc, hn⟩ := doubling_probability hdb s
  refine ⟨r, c, hr, hc, fun P w inp cfg sim s0 config n pot starts h hp hl k hk t ht => ?_⟩
  have hprob := h.stream.prob
  obtain ⟨ω⟩ := P.nonempty_of_neZero
  have hpot := run_mueller (h.run ω) hp
  rw [h.samePot ω] at hpot
  rw [run_distance h k s hk (t + 1) ht, stepKind_bussi hl, hpot]
  exact hn t

end Bdld
