import Verif.Props.RunAwayPeriodic

/-
C161 for one-dimensional polynomials with a power above 2 and periodic boundary condition.
-/

namespace Bdld

open MeasureTheory ProbabilityTheory Filter Topology Spec

/-- The polynomial with the periodic boundary condition at `lo` and `hi`. -/
noncomputable def Spec.ringPot (cs : List ℝ) (lo hi : ℝ) : Potential ℝ 1 :=
  { freePot cs with ranges := [(lo, hi)], bc := some .periodic }

theorem ring_steep {cs : List ℝ} (hc : ∃ i, 3 ≤ i ∧ cs.getD i 0 ≠ 0) (lo hi : ℝ) {L : ℝ} (hL : 0 < L) : ∃ R, SteepPeriodic (ringPot cs lo hi) L R := by
  obtain ⟨R, h⟩ := freePot_steepForce cs hc hL
  refine ⟨max R |hi - lo|, rfl, h.positive.trans_le (le_max_left _ _), fun k => ?_, fun x hx => ?_⟩
  · rw [Subsingleton.elim k 0]
    exact le_max_right _ _
  · have e : ∀ y : Fin 1 → ℝ, ‖y‖ = |y 0| := fun y => by
      rw [Pi.norm_def]
      simp
    rw [e] at hx ⊢
    rw [e]
    exact h.steep x ((le_max_left _ _).trans hx)

theorem ring_doubling {cs : List ℝ} (hc : ∃ i, 3 ≤ i ∧ cs.getD i 0 ≠ 0) (lo hi : ℝ) {dt friction kt m : ℝ} (hdt : 0 < dt) (kind : LdKind)
    (hk : kind = .bussi → 0 < friction ∧ 0 < kt ∧ 0 < m) :
    ∃ O amp R, Doubling (stepMap kind (ringPot cs lo hi) dt friction kt m) O amp R := by
  cases kind with
  | bussi =>
    obtain ⟨hf, hkt, hm⟩ := hk rfl
    obtain ⟨R, h⟩ := ring_steep hc lo hi (periodicSteepness_pos hdt hm)
    exact ⟨_, _, R, periodic_bussi_doubling h (freePot_continuous cs).measurable one_pos hdt hf hkt hm⟩
  | overdamped =>
    obtain ⟨R, h⟩ := ring_steep hc lo hi (L := 5 / dt) (by positivity)
    exact ⟨_, _, R, periodic_overdamped_doubling h (freePot_continuous cs).measurable one_pos hdt friction kt m⟩

/-- **C161.** No distribution is stationary in a polynomial with a power above 2 with periodic boundary condition. -/
theorem ring_no_stationary {cs : List ℝ} (hc : ∃ i, 3 ≤ i ∧ cs.getD i 0 ≠ 0) (lo hi : ℝ) {dt friction kt m : ℝ} (hdt : 0 < dt) (kind : LdKind)
    (hk : kind = .bussi → 0 < friction ∧ 0 < kt ∧ 0 < m) (μ : Measure (Phase 1)) (hμ : IsProbabilityMeasure μ) :
    afterStep (stepMap kind (ringPot cs lo hi) dt friction kt m) μ ≠ μ := by
  obtain ⟨O, amp, R, h⟩ := ring_doubling hc lo hi hdt kind hk
  exact doubling_no_stationary h μ hμ

/-- **C161.** From no start do the probabilities of all regions approach those of a distribution. -/
theorem ring_not_settles {cs : List ℝ} (hc : ∃ i, 3 ≤ i ∧ cs.getD i 0 ≠ 0) (lo hi : ℝ) {dt friction kt m : ℝ} (hdt : 0 < dt) (kind : LdKind)
    (hk : kind = .bussi → 0 < friction ∧ 0 < kt ∧ 0 < m) (z : Phase 1) (ν : Measure (Fin 1 → ℝ)) (hν : IsProbabilityMeasure ν) :
    ∃ M : ℝ, ¬ Settles (stepMap kind (ringPot cs lo hi) dt friction kt m) (distant 1 M) (ν.real (distant 1 M)) z := by
  obtain ⟨O, amp, R, h⟩ := ring_doubling hc lo hi hdt kind hk
  exact doubling_not_settles h z ν hν

/-! ### Runs of the program -/

/-- The options of a one-dimensional polynomial with periodic boundary condition. -/
structure RingPolynomial (config : Input ℝ) (cs : List ℝ) (lo hi : ℝ) : Prop where
  type : StrOpt config.potential "type" "polynomial"
  oneDim : IntOpt config.potential "n_dim" 1
  coeffs : FloatsOpt config.potential "coeffs" cs
  min : FloatOpt config.potential "min" lo
  max : FloatOpt config.potential "max" hi
  closed : StrOpt config.potential "boundary-condition" "periodic"

theorem run_ring {R : Type} {w : World R} {inp : Option (List Section)} {cfg : SimCfg 1} {sim s0 : Sim 1 R} {config : Input ℝ} {n : ℕ}
    (hr : FinishedRun w inp ⟨1, cfg, sim⟩ config n s0) {cs : List ℝ} {lo hi : ℝ} (h : RingPolynomial config cs lo hi) :
    cfg.ld.pot.bc = some .periodic ∧ cfg.ld.pot.ranges = [(lo, hi)] ∧ cfg.ld.pot.force = (ringPot cs lo hi).force := by
  have hp := main_potential hr
  obtain ⟨_, cs', lo', hi', hcs, hlo, hhi, hra, he⟩ := hp.oneDim h.type h.oneDim
  obtain rfl := floatsOpt_unique hcs h.coeffs
  have e1 := h.min
  have e2 := h.max
  unfold FloatOpt at hlo hhi e1 e2
  rw [hlo] at e1
  rw [hhi] at e2
  simp only at he hra
  refine ⟨?_, ?_, funext fun x => funext fun k => ?_⟩
  · have h2 := hp.periodic
    simp only at h2
    exact h2.2 h.closed
  · rw [hra]
    simp only [Option.some.injEq, OptVal.base.injEq, BaseVal.float.injEq] at e1 e2
    rw [e1, e2]
  · have he' : cfg.ld.pot.energy = fun x : Fin 1 → ℝ => (polyOf cs').eval (x 0) := by
      funext y
      rw [he y 0, polyOf_eval]
    have hcons := hp.conservative x
    simp only at hcons
    have hd : HasFDerivAt (fun x : Fin 1 → ℝ => (polyOf cs').eval (x 0))
        ((polyOf cs').derivative.eval (x 0) • ContinuousLinearMap.proj (R := ℝ) (φ := fun _ : Fin 1 => ℝ) 0) x := by
      have hx : HasFDerivAt (fun x : Fin 1 → ℝ => x 0) (ContinuousLinearMap.proj (R := ℝ) (φ := fun _ : Fin 1 => ℝ) 0) x :=
        hasFDerivAt_apply (0 : Fin 1) x
      exact ((polyOf cs').hasDerivAt (x 0)).comp_hasFDerivAt x hx
    rw [he'] at hcons
    have hu := hcons.unique hd
    have := congrArg (fun f => f (fun _ => (1 : ℝ))) hu
    simp at this
    change cfg.ld.pot.force x k = (-(polyOf cs').derivative).eval (x 0)
    rw [Subsingleton.elim k 0, Polynomial.eval_neg, ← this, neg_neg]

theorem stepMap_same {d : ℕ} {pot pot' : Potential ℝ d} (h1 : pot.bc = pot'.bc) (h2 : pot.ranges = pot'.ranges) (h3 : pot.force = pot'.force)
    (kind : LdKind) (dt friction kt m : ℝ) : stepMap kind pot dt friction kt m = stepMap kind pot' dt friction kt m := by
  funext n1 n2 s
  cases kind <;> simp only [stepMap, h1, h2, h3]

/-- **C161.** Runs of the program with a polynomial and periodic boundary condition, with overdamped dynamics. -/
theorem main_ring_overdamped {cs : List ℝ} (hc : ∃ i, 3 ≤ i ∧ cs.getD i 0 ≠ 0) (lo hi : ℝ) {dt : ℝ} (hdt : 0 < dt) (s : Phase 1) :
    ∃ r c : ℝ, 0 < r ∧ 0 < c ∧ ∀ {Ω R : Type} [MeasurableSpace Ω] (P : Measure Ω) (w : Ω → World R) (inp : Option (List Section))
      (cfg : Ω → SimCfg 1) (sim s0 : Ω → Sim 1 R) (config : Input ℝ) (n : ℕ) (pot : Potential ℝ 1) (mass : ℝ) (starts : List (Phase 1))
      (h : RandomRuns P w inp cfg sim s0 config n pot mass starts), RingPolynomial config cs lo hi → OverdampedOptions config dt →
      ∀ k, starts[k]? = some s → ∀ t, t + 1 ≤ n → c ≤ P.real {ω | 2 ^ t * r ≤ ‖(h.phase k (t + 1) ω).1‖} := by
  obtain ⟨O, amp, R0, hdb⟩ := ring_doubling hc lo hi hdt (friction := 0) (kt := 0) (m := 0) .overdamped (by intro h; cases h)
  obtain ⟨r, c, hr, hc, hn⟩ := doubling_probability hdb s
  refine ⟨r, c, hr, hc, fun P w inp cfg sim s0 config n pot mass starts h hp hl k hk t ht => ?_⟩
  have hprob := h.stream.prob
  obtain ⟨ω⟩ := P.nonempty_of_neZero
  obtain ⟨h1, h2, h3⟩ := run_ring (h.run ω) hp
  rw [h.samePot ω] at h1 h2 h3
  rw [run_distance h k s hk (t + 1) ht, stepKind_overdamped hl, stepMap_same (pot' := ringPot cs lo hi) h1 h2 h3]
  exact hn t

/-- **C161.** Runs of the program with a polynomial and periodic boundary condition, with the Bussi-Parinello thermostat. -/
theorem main_ring_bussi {cs : List ℝ} (hc : ∃ i, 3 ≤ i ∧ cs.getD i 0 ≠ 0) (lo hi : ℝ) {dt friction kt mass : ℝ} (hdt : 0 < dt)
    (hf : 0 < friction) (hkt : 0 < kt) (hm : 0 < mass) (s : Phase 1) :
    ∃ r c : ℝ, 0 < r ∧ 0 < c ∧ ∀ {Ω R : Type} [MeasurableSpace Ω] (P : Measure Ω) (w : Ω → World R)
      (inp : Option (List Section)) (cfg : Ω → SimCfg 1) (sim s0 : Ω → Sim 1 R) (config : Input ℝ) (n : ℕ) (pot : Potential ℝ 1)
      (starts : List (Phase 1)) (h : RandomRuns P w inp cfg sim s0 config n pot mass starts), RingPolynomial config cs lo hi →
      BussiOptions config dt friction kt → ∀ k, starts[k]? = some s → ∀ t, t + 1 ≤ n →
      c ≤ P.real {ω | 2 ^ t * r ≤ ‖(h.phase k (t + 1) ω).1‖} := by
  obtain ⟨O, amp, R0, hdb⟩ := ring_doubling hc lo hi hdt (friction := friction) (kt := kt) (m := mass) .bussi (fun _ => ⟨hf, hkt, hm⟩)
  obtain ⟨r, c, hr, hc, hn⟩ := doubling_probability hdb s
  refine ⟨r, c, hr, hc, fun P w inp cfg sim s0 config n pot starts h hp hl k hk t ht => ?_⟩
  have hprob := h.stream.prob
  obtain ⟨ω⟩ := P.nonempty_of_neZero
  obtain ⟨h1, h2, h3⟩ := run_ring (h.run ω) hp
  rw [h.samePot ω] at h1 h2 h3
  rw [run_distance h k s hk (t + 1) ht, stepKind_bussi hl, stepMap_same (pot' := ringPot cs lo hi) h1 h2 h3]
  exact hn t

end Bdld
