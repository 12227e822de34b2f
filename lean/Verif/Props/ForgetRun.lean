import Verif.Props.ForgetHarmonic
import Verif.Props.ForgetOverdamped

/-
C132 and C133 for the steps of the code and for whole simulations.
-/

namespace Bdld

open Spec MeasureTheory ProbabilityTheory Filter Topology

variable {d : Nat} {R : Type}

/-! ### The maps are those of the code -/

theorem kindCfg_pot (kind : LdKind) (pot : Potential ℝ d) (dt friction kt : ℝ) : (kindCfg kind pot dt friction kt).pot = pot := by
  cases kind <;> rfl

theorem walkerStep_two (kind : LdKind) (c : LdCfg ℝ d) (noise : ℕ → Fin d → ℝ) (p : LdParticle ℝ d) :
    walkerStep kind c noise p = walkerStep kind c (fun i => if i = 0 then noise 0 else noise 1) p := by
  cases kind <;> rfl

/-- The path of a walker of the code. -/
theorem walkerPath_moved (kind : LdKind) (pot : Potential ℝ d) (hev : ∀ x, pot.evaluate x = (pot.energy x, pot.force x))
    (hr : pot.bc = none ∨ d ≤ pot.ranges.length) (dt friction kt : ℝ) (noise : ℕ → ℕ → Fin d → ℝ) (p : LdParticle ℝ d)
    (hp : LdOk (kindCfg kind pot dt friction kt) p) (n : ℕ) :
    ∃ p', walkerPath kind (kindCfg kind pot dt friction kt) noise n p = .ok p' ∧
      (p'.pos, p'.mom) = moved (stepMap kind pot dt friction kt p.mass) noise n (p.pos, p.mom) ∧
      p'.mass = p.mass ∧ LdOk (kindCfg kind pot dt friction kt) p' := by
  induction n with
  | zero => exact ⟨p, rfl, rfl, rfl, hp⟩
  | succ n ih =>
    obtain ⟨q, h1, h2, h3, h4⟩ := ih
    obtain ⟨p', h5, h6⟩ := stepMap_step kind pot hev hr dt friction kt p.mass (noise n 0) (noise n 1) q h4 h3
    obtain ⟨_, h7, h8, h9⟩ := walkerStep_ok h5
    refine ⟨p', ?_, ?_, h8.trans h3, h7, by rw [h9, h8]; exact h4.2⟩
    · unfold walkerPath
      rw [h1, ok_bind, walkerStep_two]
      exact h5
    · rw [h6, h2]
      rfl

/-- **C133.** Two simulations with the same random numbers: after `n` steps each walker of one is closer to the same walker of the
other by the `n`-th power of the factor. -/
theorem runs_meet (kind : LdKind) (pot : Potential ℝ d) (hev : ∀ x, pot.evaluate x = (pot.energy x, pot.force x))
    (hr : pot.bc = none ∨ d ≤ pot.ranges.length) (dt friction kt m : ℝ) (normal : NormalOps R ℝ d) {S : Set (Phase d)}
    {D : Phase d → Phase d → ℝ} {ρ : ℝ} (hρ : 0 ≤ ρ) (h : Contracts (stepMap kind pot dt friction kt m) S D ρ)
    (s s' : LdState ℝ d R) (hrng : s.rng = s'.rng) (hlen : s.particles.length = s'.particles.length)
    (hs : ∀ p ∈ s.particles ++ s'.particles, LdOk (kindCfg kind pot dt friction kt) p ∧ p.mass = m ∧ (p.pos, p.mom) ∈ S) (n : ℕ) :
    ∃ u u', s.iter kind (kindCfg kind pot dt friction kt) normal n = .ok u ∧
      s'.iter kind (kindCfg kind pot dt friction kt) normal n = .ok u' ∧ u.rng = u'.rng ∧
      ∀ (k : ℕ) p p', s.particles[k]? = some p → s'.particles[k]? = some p' → ∃ q q', u.particles[k]? = some q ∧
        u'.particles[k]? = some q' ∧ D (q.pos, q.mom) (q'.pos, q'.mom) ≤ ρ ^ n * D (p.pos, p.mom) (p'.pos, p'.mom) := by
  have hr' : (kindCfg kind pot dt friction kt).pot.bc = none ∨ d ≤ (kindCfg kind pot dt friction kt).pot.ranges.length := by
    rw [kindCfg_pot]
    exact hr
  obtain ⟨u, hu⟩ := ld_no_error kind (kindCfg kind pot dt friction kt) normal hr' n s
  obtain ⟨u', hu'⟩ := ld_no_error kind (kindCfg kind pot dt friction kt) normal hr' n s'
  obtain ⟨a1, _, a3⟩ := ld_walker_path kind _ normal s u n hu
  obtain ⟨b1, _, b3⟩ := ld_walker_path kind _ normal s' u' n hu'
  refine ⟨u, u', hu, hu', by rw [a1, b1, hrng, hlen], fun k p p' hp hp' => ?_⟩
  obtain ⟨q, c1, c2⟩ := a3 k p hp
  obtain ⟨q', e1, e2⟩ := b3 k p' hp'
  refine ⟨q, q', c1, e1, ?_⟩
  obtain ⟨f1, f2, f3⟩ := hs p (List.mem_append_left _ (List.mem_of_getElem? hp))
  obtain ⟨g1, g2, g3⟩ := hs p' (List.mem_append_right _ (List.mem_of_getElem? hp'))
  obtain ⟨q1, i1, i2, _, _⟩ := walkerPath_moved kind pot hev hr dt friction kt _ p f1 n
  obtain ⟨q2, j1, j2, _, _⟩ := walkerPath_moved kind pot hev hr dt friction kt _ p' g1 n
  rw [c2] at i1
  rw [e2] at j1
  injection i1 with i1
  injection j1 with j1
  subst i1 j1
  rw [i2, j2, f2, g2, hrng, hlen]
  exact (moved_contracts hρ h _ n _ f3).2 _ g3

/-! ### Bussi and Parrinello -/

theorem stepMap_bussi (pot : Potential ℝ d) (dt friction kt m : ℝ) (hbc : pot.bc = none) :
    stepMap .bussi pot dt friction kt m = bussiParrinello pot.force m dt (Real.exp (-(friction * dt / 2)))
      (√(m * kt * (1 - Real.exp (-(friction * dt))))) := by
  funext n1 n2 s
  simp only [stepMap, bussiParrinelloStep, boundary, boundary1, hbc, bussiParrinello, verlet]

/-- The factor of the momentum is smaller than one with friction. -/
theorem decay_lt (friction dt : ℝ) (hf : 0 < friction) (hdt : 0 < dt) : Real.exp (-(friction * dt / 2)) ^ 2 < 1 := by
  rw [← Real.exp_nat_mul, Real.exp_lt_one_iff]
  push_cast
  nlinarith [mul_pos hf hdt]

/-- **C132.** In a harmonic potential without boundary condition, walkers with friction that are moved with the same random numbers
forget their starting points if and only if the square of the time step is smaller than four masses divided by each force constant,
however strong the friction is. -/
theorem bussi_limit (pot : Potential ℝ d) (dt friction kt m : ℝ) (hbc : pot.bc = none) (κ a : Fin d → ℝ)
    (hpot : ∀ x, pot.force x = harmonicForce κ a x) (hdt : 0 < dt) (hf : 0 < friction) (hm : 0 < m) (hκ : ∀ k, 0 < κ k)
    (noise : ℕ → ℕ → Fin d → ℝ) :
    (∀ s t : Phase d, Tendsto (fun n => dist (moved (stepMap .bussi pot dt friction kt m) noise n s)
        (moved (stepMap .bussi pot dt friction kt m) noise n t)) atTop (𝓝 0)) ↔ ∀ k, κ k * dt ^ 2 < 4 * m := by
  rw [stepMap_bussi pot dt friction kt m hbc, show pot.force = harmonicForce κ a from funext hpot]
  have hc := decay_lt friction dt hf hdt
  have hc0 := Real.exp_pos (-(friction * dt / 2))
  generalize Real.exp (-(friction * dt / 2)) = c at hc hc0 ⊢
  generalize √(m * kt * (1 - Real.exp (-(friction * dt)))) = amp
  constructor
  · intro h k
    by_contra hk
    rw [not_lt] at hk
    obtain ⟨l, z, hl, _, hz, happ⟩ := harmonic_apart κ a m dt c amp hm hc0 hdt k hk
    have h1 := h (0 + z) 0
    have h2 : ∀ n, ‖z‖ ≤ dist (moved (bussiParrinello (harmonicForce κ a) m dt c amp) noise n (0 + z))
        (moved (bussiParrinello (harmonicForce κ a) m dt c amp) noise n 0) := by
      intro n
      rw [dist_eq_norm, happ, norm_smul, norm_pow, Real.norm_eq_abs]
      have : 1 ≤ |l| ^ n := one_le_pow₀ (by rw [le_abs]; right; linarith)
      nlinarith [norm_nonneg z]
    exact hz (norm_le_zero_iff.1 (ge_of_tendsto' h1 h2))
  · intro hs s t
    obtain ⟨ρ, r0, r1, hρ⟩ := harmonic_contracts κ a m dt c amp hm hc hdt hκ hs
    obtain ⟨C, hC, hb⟩ := shadowNorm_bounds κ m dt hm hκ hs
    refine squeeze_zero (fun n => dist_nonneg) (fun n => ?_)
      (g := fun n => C * (ρ ^ n * √(shadowNorm κ m dt (s - t)))) ?_
    · rw [dist_eq_norm]
      exact (hb _).trans (mul_le_mul_of_nonneg_left ((moved_contracts r0 hρ noise n s trivial).2 t trivial) hC)
    · simpa using ((tendsto_pow_atTop_nhds_zero_of_lt_one r0 r1).mul_const (√(shadowNorm κ m dt (s - t)))).const_mul C

/-- **C132.** Beyond the limit there are starting points from which walkers that are moved with the same random numbers get away from
each other exponentially. -/
theorem bussi_diverges (pot : Potential ℝ d) (dt friction kt m : ℝ) (hbc : pot.bc = none) (κ a : Fin d → ℝ)
    (hpot : ∀ x, pot.force x = harmonicForce κ a x) (hdt : 0 < dt) (hm : 0 < m) (j : Fin d) (hj : 4 * m < κ j * dt ^ 2) :
    ∃ (l : ℝ) (z : Phase d), 1 < l ∧ z ≠ 0 ∧ ∀ (noise : ℕ → ℕ → Fin d → ℝ) s n,
      dist (moved (stepMap .bussi pot dt friction kt m) noise n (s + z)) (moved (stepMap .bussi pot dt friction kt m) noise n s) =
        l ^ n * ‖z‖ := by
  rw [stepMap_bussi pot dt friction kt m hbc, show pot.force = harmonicForce κ a from funext hpot]
  obtain ⟨l, z, _, hl, hz, happ⟩ := harmonic_apart κ a m dt (Real.exp (-(friction * dt / 2)))
    (√(m * kt * (1 - Real.exp (-(friction * dt))))) hm (Real.exp_pos _) hdt j hj.le
  refine ⟨|l|, z, by rw [lt_abs]; right; linarith [hl hj], hz, fun noise s n => ?_⟩
  rw [dist_eq_norm, happ, norm_smul, norm_pow, Real.norm_eq_abs]

/-- **C132.** Below the limit the distance of two walkers stays bounded, also without friction. -/
theorem bussi_bounded (pot : Potential ℝ d) (dt friction kt m : ℝ) (hbc : pot.bc = none) (κ a : Fin d → ℝ)
    (hpot : ∀ x, pot.force x = harmonicForce κ a x) (hdt : 0 ≤ dt) (hf : 0 ≤ friction) (hm : 0 < m) (hκ : ∀ k, 0 < κ k)
    (hs : ∀ k, κ k * dt ^ 2 < 4 * m) :
    ∃ C, ∀ (noise : ℕ → ℕ → Fin d → ℝ) s t n, dist (moved (stepMap .bussi pot dt friction kt m) noise n s)
      (moved (stepMap .bussi pot dt friction kt m) noise n t) ≤ C * √(shadowNorm κ m dt (s - t)) := by
  rw [stepMap_bussi pot dt friction kt m hbc, show pot.force = harmonicForce κ a from funext hpot]
  obtain ⟨C, hC, hb⟩ := shadowNorm_bounds κ m dt hm hκ hs
  have hc : Real.exp (-(friction * dt / 2)) ^ 2 ≤ 1 := by
    rw [← Real.exp_nat_mul, Real.exp_le_one_iff]
    push_cast
    nlinarith [mul_nonneg hf hdt]
  have hcon : Contracts (bussiParrinello (harmonicForce κ a) m dt (Real.exp (-(friction * dt / 2)))
      (√(m * kt * (1 - Real.exp (-(friction * dt)))))) Set.univ (fun s t => √(shadowNorm κ m dt (s - t))) 1 := by
    refine fun n1 n2 s _ => ⟨trivial, fun t _ => ?_⟩
    simp only
    rw [harmonic_diff κ a m dt _ _ hm.ne', one_mul]
    exact Real.sqrt_le_sqrt (shadowNorm_le κ m dt _ hm hc _)
  refine ⟨C, fun noise s t n => ?_⟩
  rw [dist_eq_norm]
  have h := (moved_contracts zero_le_one hcon noise n s trivial).2 t trivial
  rw [one_pow, one_mul] at h
  exact (hb _).trans (mul_le_mul_of_nonneg_left h hC)

/-- **C133.** In a harmonic potential the distribution of position and momentum converges to the stationary distribution of C107,
whatever the distribution of the starting points is. -/
theorem bussi_converges (pot : Potential ℝ d) (dt friction kt m : ℝ) (hbc : pot.bc = none) (κ a : Fin d → ℝ)
    (hpot : ∀ x, pot.force x = harmonicForce κ a x) (hdt : 0 < dt) (hf : 0 < friction) (hkt : 0 < kt) (hm : 0 < m) (hκ : ∀ k, 0 < κ k)
    (hs : ∀ k, κ k * dt ^ 2 < 4 * m) (μ : ℕ → ProbabilityMeasure (Phase d)) (π : ProbabilityMeasure (Phase d))
    (hμ : ∀ n, (μ n : Measure (Phase d)) = (afterStep (stepMap .bussi pot dt friction kt m))^[n] (μ 0))
    (hπ : (π : Measure (Phase d)) = harmonicState κ a m kt dt) : Tendsto μ atTop (𝓝 π) := by
  have hF : Measurable pot.force := by
    rw [show pot.force = harmonicForce κ a from funext hpot]
    exact measurable_harmonicForce κ a
  have hT := measurable_stepMap .bussi pot hF dt friction kt m
  have hc := decay_lt friction dt hf hdt
  obtain ⟨C, hC, hb⟩ := shadowNorm_bounds κ m dt hm hκ hs
  have hst := harmonic_stationary κ a m kt dt _ _ hm hkt hκ hs (half_constants friction dt kt m hdt.le hf.le hkt hm)
  obtain ⟨ρ, r0, r1, hρ⟩ := harmonic_contracts κ a m dt (Real.exp (-(friction * dt / 2)))
    (√(m * kt * (1 - Real.exp (-(friction * dt))))) hm hc hdt hκ hs
  rw [stepMap_bussi pot dt friction kt m hbc, show pot.force = harmonicForce κ a from funext hpot] at hT hμ
  refine contracts_converges (q := id) measurable_id hT r0 r1 hρ hC (fun s t => by rw [id, id, dist_eq_norm]; exact hb _) (μ 0) π
    (.of_forall fun _ => trivial) (.of_forall fun _ => trivial) μ π (fun n => by rw [Measure.map_id]; exact hμ n) fun n => ?_
  rw [Measure.map_id, hπ]
  exact Function.iterate_fixed hst n

/-! ### Overdamped dynamics -/

/-- Positions after a step whose new positions do not depend on the momenta. -/
theorem afterStep_positions {T : (Fin d → ℝ) → (Fin d → ℝ) → Phase d → Phase d} {G : (Fin d → ℝ) → (Fin d → ℝ) → Fin d → ℝ}
    (hT : Measurable (fun z : (Phase d × (Fin d → ℝ)) × (Fin d → ℝ) => T z.1.2 z.2 z.1.1))
    (hG : Measurable (fun z : (Fin d → ℝ) × (Fin d → ℝ) => G z.2 z.1)) (h : ∀ n1 n2 s, (T n1 n2 s).1 = G n1 s.1) (μ : Measure (Phase d))
    [IsProbabilityMeasure μ] : (afterStep T μ).map Prod.fst = afterMove G (μ.map Prod.fst) := by
  unfold afterStep afterMove
  rw [Measure.map_map measurable_fst hT]
  have e1 : (Prod.fst ∘ fun z : (Phase d × (Fin d → ℝ)) × (Fin d → ℝ) => T z.1.2 z.2 z.1.1) =
      (fun z : (Fin d → ℝ) × (Fin d → ℝ) => G z.2 z.1) ∘ (Prod.map Prod.fst id) ∘ Prod.fst := by
    funext z
    exact h _ _ _
  rw [e1, ← Measure.map_map hG ((measurable_fst.prodMap measurable_id).comp measurable_fst),
    ← Measure.map_map (measurable_fst.prodMap measurable_id) measurable_fst, Measure.map_fst_prod, measure_univ, one_smul,
    ← Measure.map_prod_map _ _ measurable_fst measurable_id, Measure.map_id]

theorem dist_posDist (s t : Phase d) : dist s.1 t.1 ≤ posDist s t := by
  unfold posDist
  rw [dist_pi_le_iff (Real.sqrt_nonneg _)]
  intro k
  rw [Real.dist_eq]
  refine Real.abs_le_sqrt ?_
  exact Finset.single_le_sum (f := fun k => (s.1 k - t.1 k) ^ 2) (fun k _ => sq_nonneg _) (Finset.mem_univ k)

/-- **C133.** The same for the positions of overdamped walkers. -/
theorem overdamped_converges (pot : Potential ℝ d) (dt friction kt m : ℝ) (hbc : pot.bc = none) (κ a : Fin d → ℝ)
    (hpot : ∀ x, pot.force x = harmonicForce κ a x) (hdt : 0 < dt) (hκ : ∀ k, 0 < κ k) (hs : ∀ k, κ k * dt < 2)
    (μ : Measure (Phase d)) [IsProbabilityMeasure μ] (law : ℕ → ProbabilityMeasure (Fin d → ℝ)) (limit : ProbabilityMeasure (Fin d → ℝ))
    (hlaw : ∀ n, (law n : Measure (Fin d → ℝ)) = ((afterStep (stepMap .overdamped pot dt friction kt m))^[n] μ).map Prod.fst)
    (hlimit : (limit : Measure (Fin d → ℝ)) = normals a (fun k => 1 / (κ k * (1 - κ k * dt / 2)))) : Tendsto law atTop (𝓝 limit) := by
  have hF : Measurable pot.force := by
    rw [show pot.force = harmonicForce κ a from funext hpot]
    exact measurable_harmonicForce κ a
  have hT := measurable_stepMap .overdamped pot hF dt friction kt m
  have hbound : ∃ ρ : ℝ, 0 ≤ ρ ∧ ρ < 1 ∧ ∀ k, |1 - κ k * dt| ≤ ρ := by
    have hlt : ∀ k, |1 - κ k * dt| < 1 := fun k => by
      have := mul_pos (hκ k) hdt
      rw [abs_lt]
      constructor <;> linarith [hs k]
    rcases isEmpty_or_nonempty (Fin d) with he | hne
    · exact ⟨0, le_rfl, one_pos, fun k => he.elim k⟩
    · obtain ⟨j, -, hj⟩ := Finset.exists_max_image Finset.univ (fun k => |1 - κ k * dt|) Finset.univ_nonempty
      exact ⟨_, abs_nonneg _, hlt j, fun k => hj k (Finset.mem_univ k)⟩
  obtain ⟨ρ, r0, r1, hρ⟩ := hbound
  have hcon := euler_contracts pot dt friction kt m ρ r0 (by rw [hbc]; simp) (fun h => absurd h (by rw [hbc]; simp))
    (fun x y _ _ => by
      rw [Finset.mul_sum]
      refine Finset.sum_le_sum fun k _ => ?_
      rw [hpot, hpot]
      have e : x k - y k + dt * (harmonicForce κ a x k - harmonicForce κ a y k) = (1 - κ k * dt) * (x k - y k) := by
        simp only [harmonicForce]
        ring
      rw [e, mul_pow]
      exact mul_le_mul_of_nonneg_right (sq_le_sq' (by linarith [(abs_le.1 (hρ k)).1]) (abs_le.1 (hρ k)).2) (sq_nonneg _))
  have hall : ∀ s : Phase d, s ∈ {s : Phase d | Allowed pot s.1} := fun s h => absurd h (by rw [hbc]; simp)
  have hlp : IsProbabilityMeasure (normals a (fun k => 1 / (κ k * (1 - κ k * dt / 2)))) := hlimit ▸ limit.2
  refine contracts_converges (q := Prod.fst) measurable_fst hT r0 r1 hcon zero_le_one (fun s t => ?_) μ
    ((limit : Measure (Fin d → ℝ)).prod (Measure.dirac (0 : Fin d → ℝ)))
    (.of_forall hall) (.of_forall hall) law limit hlaw fun n => ?_
  · rw [one_mul]
    exact dist_posDist s t
  · induction n with
    | zero =>
      rw [Function.iterate_zero, id, Measure.map_fst_prod, measure_univ, one_smul]
    | succ n ih =>
      rw [Function.iterate_succ_apply']
      have := afterStep_iterate_probability hT ((limit : Measure (Fin d → ℝ)).prod (Measure.dirac (0 : Fin d → ℝ))) n
      rw [afterStep_positions hT (G := fun n x k => x k + dt * harmonicForce κ a x k + √(2 * dt) * n k)
        (by unfold harmonicForce; fun_prop) (fun n1 n2 s => by rw [euler_harmonic pot dt friction kt m hbc κ a hpot]) _, ih, hlimit]
      exact euler_stationary κ a dt hdt.le hκ hs

/-- Steps in convex potentials bring walkers together. -/
theorem convex_contracts (pot : Potential ℝ d) (dt friction kt m μ L : ℝ) (hbc : pot.bc ≠ some .periodic)
    (hr : pot.bc = some .reflective → d ≤ pot.ranges.length ∧ ∀ r ∈ pot.ranges, r.1 ≤ r.2) (hdt : 0 < dt) (hlim : dt * L ^ 2 < 2 * μ)
    (h1 : ∀ x y, Allowed pot x → Allowed pot y → ∑ k, (x k - y k) * (pot.force x k - pot.force y k) ≤ -μ * ∑ k, (x k - y k) ^ 2)
    (h2 : ∀ x y, Allowed pot x → Allowed pot y → ∑ k, (pot.force x k - pot.force y k) ^ 2 ≤ L ^ 2 * ∑ k, (x k - y k) ^ 2) :
    √(1 - 2 * dt * μ + dt ^ 2 * L ^ 2) < 1 ∧ Contracts (stepMap .overdamped pot dt friction kt m) {s | Allowed pot s.1} posDist
      (√(1 - 2 * dt * μ + dt ^ 2 * L ^ 2)) := by
  constructor
  · rw [Real.sqrt_lt' one_pos]
    nlinarith
  · refine euler_contracts pot dt friction kt m _ (Real.sqrt_nonneg _) hbc hr fun x y hx hy => ?_
    refine (convex_closer pot.force (Allowed pot) dt μ L hdt.le h1 h2 x y hx hy).trans
      (mul_le_mul_of_nonneg_right ?_ (Finset.sum_nonneg fun k _ => sq_nonneg _))
    rcases le_total 0 (1 - 2 * dt * μ + dt ^ 2 * L ^ 2) with h | h
    · rw [Real.sq_sqrt h]
    · exact h.trans (sq_nonneg _)

/-- **C133.** Overdamped walkers in a convex potential without or with reflective boundary: simulations with the same random numbers
come together exponentially wherever they start. -/
theorem overdamped_runs_meet (pot : Potential ℝ d) (hev : ∀ x, pot.evaluate x = (pot.energy x, pot.force x)) (dt μ L : ℝ)
    (hbc : pot.bc ≠ some .periodic) (hr : pot.bc = some .reflective → d ≤ pot.ranges.length ∧ ∀ r ∈ pot.ranges, r.1 ≤ r.2)
    (hdt : 0 < dt) (hlim : dt * L ^ 2 < 2 * μ)
    (h1 : ∀ x y, Allowed pot x → Allowed pot y → ∑ k, (x k - y k) * (pot.force x k - pot.force y k) ≤ -μ * ∑ k, (x k - y k) ^ 2)
    (h2 : ∀ x y, Allowed pot x → Allowed pot y → ∑ k, (pot.force x k - pot.force y k) ^ 2 ≤ L ^ 2 * ∑ k, (x k - y k) ^ 2)
    (normal : NormalOps R ℝ d) (s s' : LdState ℝ d R) (hrng : s.rng = s'.rng) (hlen : s.particles.length = s'.particles.length) (m : ℝ)
    (hs : ∀ p ∈ s.particles ++ s'.particles, LdOk (overdampedCfg pot dt) p ∧ p.mass = m ∧ Allowed pot p.pos) (n : ℕ) :
    ∃ u u', s.iter .overdamped (overdampedCfg pot dt) normal n = .ok u ∧ s'.iter .overdamped (overdampedCfg pot dt) normal n = .ok u' ∧
      u.rng = u'.rng ∧ ∀ (k : ℕ) p p', s.particles[k]? = some p → s'.particles[k]? = some p' → ∃ q q', u.particles[k]? = some q ∧
        u'.particles[k]? = some q' ∧ √(∑ i, (q.pos i - q'.pos i) ^ 2) ≤
          √(1 - 2 * dt * μ + dt ^ 2 * L ^ 2) ^ n * √(∑ i, (p.pos i - p'.pos i) ^ 2) := by
  have hr' : pot.bc = none ∨ d ≤ pot.ranges.length := by
    cases hb : pot.bc with
    | none => exact .inl rfl
    | some b =>
      cases b with
      | periodic => exact absurd hb hbc
      | reflective => exact .inr (hr hb).1
  exact runs_meet .overdamped pot hev hr' dt 0 0 m normal (Real.sqrt_nonneg _)
    (convex_contracts pot dt 0 0 m μ L hbc hr hdt hlim h1 h2).2 s s' hrng hlen hs n

/-- **C133.** In the same situation the distributions of the positions come together, whatever they are at the beginning. -/
theorem overdamped_distributions_meet (pot : Potential ℝ d) (hF : Measurable pot.force) (dt friction kt m μ L : ℝ)
    (hbc : pot.bc ≠ some .periodic) (hr : pot.bc = some .reflective → d ≤ pot.ranges.length ∧ ∀ r ∈ pot.ranges, r.1 ≤ r.2)
    (hdt : 0 < dt) (hlim : dt * L ^ 2 < 2 * μ)
    (h1 : ∀ x y, Allowed pot x → Allowed pot y → ∑ k, (x k - y k) * (pot.force x k - pot.force y k) ≤ -μ * ∑ k, (x k - y k) ^ 2)
    (h2 : ∀ x y, Allowed pot x → Allowed pot y → ∑ k, (pot.force x k - pot.force y k) ^ 2 ≤ L ^ 2 * ∑ k, (x k - y k) ^ 2)
    (P Q : Measure (Phase d)) [IsProbabilityMeasure P] [IsProbabilityMeasure Q] (hP : ∀ᵐ s ∂P, Allowed pot s.1)
    (hQ : ∀ᵐ s ∂Q, Allowed pot s.1) (f : (Fin d → ℝ) → ℝ) (B : ℝ) (hB : ∀ x, |f x| ≤ B) (K : NNReal) (hK : LipschitzWith K f) :
    Tendsto (fun n => ∫ s, f s.1 ∂((afterStep (stepMap .overdamped pot dt friction kt m))^[n] P) -
      ∫ s, f s.1 ∂((afterStep (stepMap .overdamped pot dt friction kt m))^[n] Q)) atTop (𝓝 0) := by
  obtain ⟨a1, a2⟩ := convex_contracts pot dt friction kt m μ L hbc hr hdt hlim h1 h2
  exact contracts_tendsto (measurable_stepMap .overdamped pot hF dt friction kt m) (Real.sqrt_nonneg _) a1 a2
    (f := fun s => f s.1) (hK.continuous.measurable.comp measurable_fst) (fun s => hB _) K.coe_nonneg
    (fun s _ t _ => by
      have h3 := hK.dist_le_mul s.1 t.1
      rw [Real.dist_eq] at h3
      exact h3.trans (mul_le_mul_of_nonneg_left (dist_posDist s t) K.coe_nonneg)) P Q hP hQ

end Bdld
