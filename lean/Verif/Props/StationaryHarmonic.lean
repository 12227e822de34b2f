import Verif.Props.Stationary
import Verif.Props.Polynomial
import Mathlib.Probability.Moments.Variance

/-
C107 for harmonic potentials: the exact stationary distribution of both integrators, and the exact error of the
distribution of the positions.
-/

namespace Bdld

open Spec MeasureTheory ProbabilityTheory

open scoped ENNReal

variable {d : Nat}

/-- Force of a harmonic potential with force constants `κ` and minimum `a`. -/
def harmonicForce (κ a : Fin d → ℝ) (x : Fin d → ℝ) : Fin d → ℝ := fun k => -(κ k * (x k - a k))

/-- Its energy. -/
noncomputable def harmonicEnergy (κ a : Fin d → ℝ) (x : Fin d → ℝ) : ℝ := ∑ k, κ k / 2 * (x k - a k) ^ 2

/-- Force constants of the energy that is conserved exactly. -/
noncomputable def shadowConstants (κ : Fin d → ℝ) (m dt : ℝ) : Fin d → ℝ := fun k => κ k * (1 - κ k * dt ^ 2 / (4 * m))

theorem measurable_harmonicForce (κ a : Fin d → ℝ) : Measurable (harmonicForce κ a) := by
  unfold harmonicForce
  fun_prop

theorem measurable_harmonicEnergy (κ a : Fin d → ℝ) : Measurable (harmonicEnergy κ a) := by
  unfold harmonicEnergy
  fun_prop

/-- A deterministic step in a harmonic potential conserves the energy with slightly smaller force constants exactly. -/
theorem harmonic_conserved (κ a : Fin d → ℝ) (m dt : ℝ) (hm : m ≠ 0) (s : Phase d) :
    hamiltonian (harmonicEnergy (shadowConstants κ m dt) a) m (verlet (harmonicForce κ a) m dt s) =
      hamiltonian (harmonicEnergy (shadowConstants κ m dt) a) m s := by
  have h := verlet_energy (harmonicForce κ a) (harmonicEnergy κ a) m dt hm s
  generalize verlet (harmonicForce κ a) m dt s = t at h ⊢
  have h1 : harmonicEnergy κ a t.1 - harmonicEnergy κ a s.1 +
      ∑ k, (harmonicForce κ a s.1 k + harmonicForce κ a t.1 k) / 2 * (t.1 k - s.1 k) = 0 := by
    unfold harmonicEnergy harmonicForce
    rw [← Finset.sum_sub_distrib, ← Finset.sum_add_distrib]
    exact Finset.sum_eq_zero fun k _ => by ring
  have h2 : ∀ x : Fin d → ℝ, harmonicEnergy (shadowConstants κ m dt) a x =
      harmonicEnergy κ a x - dt ^ 2 / (8 * m) * ∑ k, harmonicForce κ a x k ^ 2 := by
    intro x
    unfold harmonicEnergy harmonicForce shadowConstants
    rw [Finset.mul_sum, ← Finset.sum_sub_distrib]
    refine Finset.sum_congr rfl fun k _ => ?_
    field_simp
    ring
  simp only at h
  rw [h1] at h
  unfold hamiltonian at h ⊢
  rw [h2, h2]
  linarith

/-- The canonical distribution of a harmonic potential, normalised. -/
theorem canonical_harmonic (κ a : Fin d → ℝ) (m kt : ℝ) (hm : 0 < m) (hk : 0 < kt) (hκ : ∀ k, 0 < κ k) :
    ∃ K : ℝ≥0∞, K ≠ 0 ∧ K ≠ ∞ ∧ canonical (harmonicEnergy κ a) m kt =
      K • ((normals a (fun k => kt / κ k)).prod (normals (fun _ => 0) (fun _ => m * kt))) := by
  obtain ⟨K, h0, h1, h2⟩ := canonical_prod (harmonicEnergy κ a) (measurable_harmonicEnergy κ a) m kt hm hk
  obtain ⟨L, l0, l1, l2⟩ := normals_density a (fun k => kt / κ k) (fun k => div_pos hk (hκ k))
  refine ⟨K * L, mul_ne_zero h0 l0, ENNReal.mul_ne_top h1 l1, ?_⟩
  rw [h2]
  have e : (fun x : Fin d → ℝ => ENNReal.ofReal (Real.exp (-harmonicEnergy κ a x / kt))) =
      fun x => ENNReal.ofReal (Real.exp (-∑ k, (x k - a k) ^ 2 / (2 * (kt / κ k)))) := by
    funext x
    unfold harmonicEnergy
    congr 2
    rw [neg_div, Finset.sum_div]
    congr 1
    refine Finset.sum_congr rfl fun k _ => ?_
    have := (hκ k).ne'
    field_simp
  rw [e, l2, Measure.prod_smul_right, Measure.prod_smul_left, smul_smul]

theorem smul_cancel {α : Type} [MeasurableSpace α] (K : ℝ≥0∞) (h0 : K ≠ 0) (h1 : K ≠ ∞) (μ ν : Measure α) (h : K • μ = K • ν) :
    μ = ν := by
  have := congrArg (fun x => K⁻¹ • x) h
  simpa only [smul_smul, ENNReal.inv_mul_cancel h0 h1, one_smul] using this

/-- Position and momentum in the stationary state: independent normal numbers, the momenta with variance `m kT`, the
positions with variance `kT / (κ (1 - κ dt² / 4m))`. -/
noncomputable def harmonicState (κ a : Fin d → ℝ) (m kt dt : ℝ) : Measure (Phase d) :=
  (normals a (fun k => kt / shadowConstants κ m dt k)).prod (normals (fun _ => 0) (fun _ => m * kt))

/-- Stationary state of the scheme of Bussi and Parrinello in a harmonic potential. -/
theorem harmonic_stationary (κ a : Fin d → ℝ) (m kt dt decay amp : ℝ) (hm : 0 < m) (hk : 0 < kt) (hκ : ∀ k, 0 < κ k)
    (hdt : ∀ k, κ k * dt ^ 2 < 4 * m) (hc : decay ^ 2 * (m * kt) + amp ^ 2 = m * kt) :
    afterStep (bussiParrinello (harmonicForce κ a) m dt decay amp) (harmonicState κ a m kt dt) = harmonicState κ a m kt dt := by
  have hpos : ∀ k, 0 < shadowConstants κ m dt k := fun k =>
    mul_pos (hκ k) (by rw [sub_pos, div_lt_one (by linarith)]; exact hdt k)
  obtain ⟨K, h0, h1, h2⟩ := canonical_harmonic (shadowConstants κ m dt) a m kt hm hk hpos
  have h := step_canonical (harmonicForce κ a) (measurable_harmonicForce κ a) _ (measurable_harmonicEnergy _ a) m kt dt decay amp hm
    hk (harmonic_conserved κ a m dt hm.ne') hc
  rw [h2, afterStep_smul _ (measurable_harmonicForce κ a)] at h
  exact smul_cancel K h0 h1 _ _ h

/-- The constants of a half step keep the variance of the momenta. -/
theorem half_constants (friction dt kt m : ℝ) (hdt : 0 ≤ dt) (hf : 0 ≤ friction) (hkt : 0 < kt) (hm : 0 < m) :
    Real.exp (-(friction * dt / 2)) ^ 2 * (m * kt) + Real.sqrt (m * kt * (1 - Real.exp (-(friction * dt)))) ^ 2 = m * kt := by
  have he : Real.exp (-(friction * dt)) ≤ 1 := Real.exp_le_one_iff.2 (by nlinarith [mul_nonneg hf hdt])
  rw [Real.sq_sqrt (mul_nonneg (mul_pos hm hkt).le (by linarith)), ← Real.exp_nat_mul,
    show ((2 : ℕ) : ℝ) * -(friction * dt / 2) = -(friction * dt) by push_cast; ring]
  ring

/-- **C107.** For every potential without boundary condition: walkers with canonical distribution keep it, for any number
of steps `n`, up to `n` times the mean of `|1 - exp(-ΔH / kT)|` with the energy error `ΔH` of the step without thermostat. -/
theorem bussi_deviation (pot : Potential ℝ d) (dt friction kt m : ℝ) (hbc : pot.bc = none) (hU : Measurable pot.energy)
    (hF : Measurable (fun x => (pot.evaluate x).2)) (hdt : 0 ≤ dt) (hf : 0 ≤ friction) (hkt : 0 < kt) (hm : 0 < m) :
    ∃ T : (Fin d → ℝ) → (Fin d → ℝ) → Phase d → Phase d,
      (∀ n1 n2 p, LdOk (bussiCfg pot dt friction kt) p → p.mass = m → ∃ p',
        bussiStep (bussiCfg pot dt friction kt) n1 n2 p = .ok p' ∧ (p'.pos, p'.mom) = T n1 n2 (p.pos, p.mom) ∧
        p'.mass = m ∧ LdOk (bussiCfg pot dt friction kt) p') ∧
      ∀ n A, (afterStep T)^[n] (canonical pot.energy m kt) A ≤
          canonical pot.energy m kt A + n * weightError (fun x => (pot.evaluate x).2) pot.energy m kt dt ∧
        canonical pot.energy m kt A ≤
          (afterStep T)^[n] (canonical pot.energy m kt) A + n * weightError (fun x => (pot.evaluate x).2) pot.energy m kt dt := by
  refine ⟨bussiParrinello (fun x => (pot.evaluate x).2) m dt (Real.exp (-(friction * dt / 2)))
    (Real.sqrt (m * kt * (1 - Real.exp (-(friction * dt))))), fun n1 n2 p hp hpm => ?_, fun n A => ?_⟩
  · obtain ⟨p', h1, h2, h3, h4⟩ := bussi_rule pot dt friction kt hbc n1 n2 p hp
    rw [hpm] at h2
    exact ⟨p', h1, h2, h3.trans hpm, h4⟩
  · exact steps_deviation _ hF _ hU m kt dt _ _ hm hkt (half_constants friction dt kt m hdt hf hkt hm) n A

/-- **C107.** The stationary distribution of the integrator for a harmonic potential without boundary condition: walkers
distributed like this are distributed like this after any number of steps. -/
theorem bussi_stationary (pot : Potential ℝ d) (dt friction kt m : ℝ) (hbc : pot.bc = none) (κ a : Fin d → ℝ)
    (hpot : ∀ x, (pot.evaluate x).2 = harmonicForce κ a x) (hdt : 0 ≤ dt) (hf : 0 ≤ friction) (hkt : 0 < kt) (hm : 0 < m)
    (hκ : ∀ k, 0 < κ k) (hs : ∀ k, κ k * dt ^ 2 < 4 * m) :
    ∃ T : (Fin d → ℝ) → (Fin d → ℝ) → Phase d → Phase d,
      (∀ n1 n2 p, LdOk (bussiCfg pot dt friction kt) p → p.mass = m → ∃ p',
        bussiStep (bussiCfg pot dt friction kt) n1 n2 p = .ok p' ∧ (p'.pos, p'.mom) = T n1 n2 (p.pos, p.mom) ∧
        p'.mass = m ∧ LdOk (bussiCfg pot dt friction kt) p') ∧
      ∀ n, (afterStep T)^[n] (harmonicState κ a m kt dt) = harmonicState κ a m kt dt := by
  have hF : (fun x => (pot.evaluate x).2) = harmonicForce κ a := funext hpot
  refine ⟨bussiParrinello (harmonicForce κ a) m dt (Real.exp (-(friction * dt / 2)))
    (Real.sqrt (m * kt * (1 - Real.exp (-(friction * dt))))), fun n1 n2 p hp hpm => ?_, fun n => ?_⟩
  · obtain ⟨p', h1, h2, h3, h4⟩ := bussi_rule pot dt friction kt hbc n1 n2 p hp
    rw [hF, hpm] at h2
    exact ⟨p', h1, h2, h3.trans hpm, h4⟩
  · exact Function.iterate_fixed
      (harmonic_stationary κ a m kt dt _ _ hm hkt hκ hs (half_constants friction dt kt m hdt hf hkt hm)) n

/-! ### The error of the distribution -/

theorem normals_shift (a v : Fin d → ℝ) : (normals (fun _ => 0) v).map (fun x k => a k + x k) = normals a v := by
  unfold normals
  have h2 : ∀ k, (gaussianReal 0 (v k).toNNReal).map (fun y => a k + y) = gaussianReal (a k) (v k).toNNReal := fun k => by
    rw [gaussianReal_map_const_add, zero_add]
  rw [Measure.pi_map_pi (f := fun k (y : ℝ) => a k + y) (hμ := fun k => by rw [h2]; infer_instance) (fun _ => by fun_prop)]
  show Measure.pi (fun _ : Fin d => _) = Measure.pi _
  congr 1
  funext k
  exact h2 k

/-- The thermostat does not change the positions. -/
theorem afterHalf_fst (decay amp : ℝ) (μ : Measure (Phase d)) [SFinite μ] : (afterHalf decay amp μ).map Prod.fst = μ.map Prod.fst := by
  unfold afterHalf
  rw [Measure.map_map measurable_fst (measurable_half _ _)]
  have h : (Prod.fst ∘ fun z : Phase d × (Fin d → ℝ) => halfStep decay amp z.2 z.1) = Prod.fst ∘ Prod.fst := rfl
  rw [h, ← Measure.map_map measurable_fst measurable_fst, Measure.map_fst_prod]
  simp

/-- Affine combination of normal positions and centred normal numbers. -/
theorem normals_affine (A b a v w u : Fin d → ℝ) (hv : ∀ k, 0 ≤ v k) (hw : ∀ k, 0 ≤ w k)
    (h : ∀ k, A k ^ 2 * v k + b k ^ 2 * w k = u k) :
    ((normals a v).prod (normals (fun _ => 0) w)).map (fun z k => a k + (A k * (z.1 k - a k) + b k * z.2 k)) = normals a u := by
  have h1 := normals_combination A b v w u hv hw h
  rw [← normals_shift a v, ← normals_shift a u, ← h1, Measure.map_map (by fun_prop) (by fun_prop)]
  nth_rw 1 [← Measure.map_id (μ := normals (fun _ => 0) w)]
  rw [Measure.map_prod_map _ _ (by fun_prop) measurable_id, Measure.map_map (by fun_prop) (by fun_prop)]
  congr 1
  funext z k
  simp

/-- **C107.** From the canonical distribution of a harmonic potential, one step leads to normal positions whose variance
is larger by the factor `1 + κ² dt⁴ / 4m²`. -/
theorem harmonic_bias (κ a : Fin d → ℝ) (m kt dt decay amp : ℝ) (hm : 0 < m) (hk : 0 < kt) (hκ : ∀ k, 0 < κ k)
    (hc : decay ^ 2 * (m * kt) + amp ^ 2 = m * kt) :
    (afterStep (bussiParrinello (harmonicForce κ a) m dt decay amp)
      ((normals a (fun k => kt / κ k)).prod (normals (fun _ => 0) (fun _ => m * kt)))).map Prod.fst =
    normals a (fun k => kt / κ k * (1 + κ k ^ 2 * dt ^ 4 / (4 * m ^ 2))) := by
  have hF := measurable_harmonicForce κ a
  have hV := (verlet_volume _ hF m dt).measurable
  have h1 := half_prod (normals a (fun k => kt / κ k)) 1 (m * kt) decay amp (mul_pos hm hk).le hc
  rw [one_smul] at h1
  rw [afterStep_eq _ hF, afterHalf_fst, h1, Measure.map_map measurable_fst hV]
  refine Eq.trans ?_ (normals_affine (fun k => 1 - κ k * dt ^ 2 / (2 * m)) (fun _ => dt / m) a (fun k => kt / κ k)
    (fun _ => m * kt) _ (fun k => (div_pos hk (hκ k)).le) (fun _ => (mul_pos hm hk).le) fun k => ?_)
  · congr 1
    funext z k
    simp only [Function.comp_apply, verlet, harmonicForce]
    field_simp
    ring
  · have := (hκ k).ne'
    field_simp
    ring

/-- The canonical distribution of a harmonic potential itself is not stationary for any positive time step. -/
theorem harmonic_not_canonical (κ a : Fin d → ℝ) (m kt dt decay amp : ℝ) (hm : 0 < m) (hk : 0 < kt) (hκ : ∀ k, 0 < κ k)
    (hc : decay ^ 2 * (m * kt) + amp ^ 2 = m * kt) (hdt : dt ≠ 0) (hd : 0 < d) :
    afterStep (bussiParrinello (harmonicForce κ a) m dt decay amp)
      ((normals a (fun k => kt / κ k)).prod (normals (fun _ => 0) (fun _ => m * kt))) ≠
    (normals a (fun k => kt / κ k)).prod (normals (fun _ => 0) (fun _ => m * kt)) := by
  intro h
  have h1 := harmonic_bias κ a m kt dt decay amp hm hk hκ hc
  rw [h, Measure.map_fst_prod, measure_univ, one_smul] at h1
  have h2 := congrArg (Measure.map (Function.eval (⟨0, hd⟩ : Fin d))) h1
  unfold normals at h2
  rw [(measurePreserving_eval _ _).map_eq, (measurePreserving_eval _ _).map_eq] at h2
  have h3 := congrArg (fun μ => variance id μ) h2
  simp only [variance_id_gaussianReal] at h3
  have hp : 0 < kt / κ ⟨0, hd⟩ := div_pos hk (hκ _)
  have hb : 0 < κ ⟨0, hd⟩ ^ 2 * dt ^ 4 / (4 * m ^ 2) := by
    have := hκ ⟨0, hd⟩
    positivity
  rw [Real.coe_toNNReal _ hp.le, Real.coe_toNNReal _ (by positivity)] at h3
  nlinarith

/-! ### Overdamped dynamics -/

/-- Stationary distribution of the Euler-Maruyama step in a harmonic potential. -/
theorem euler_stationary (κ a : Fin d → ℝ) (dt : ℝ) (hdt : 0 ≤ dt) (hκ : ∀ k, 0 < κ k) (hs : ∀ k, κ k * dt < 2) :
    afterMove (fun n x k => x k + dt * harmonicForce κ a x k + Real.sqrt (2 * dt) * n k)
      (normals a (fun k => 1 / (κ k * (1 - κ k * dt / 2)))) = normals a (fun k => 1 / (κ k * (1 - κ k * dt / 2))) := by
  have hpos : ∀ k, 0 < κ k * (1 - κ k * dt / 2) := fun k => mul_pos (hκ k) (by linarith [hs k])
  unfold afterMove
  refine Eq.trans ?_ (normals_affine (fun k => 1 - κ k * dt) (fun _ => Real.sqrt (2 * dt)) a
    (fun k => 1 / (κ k * (1 - κ k * dt / 2))) (fun _ => 1) _ (fun k => (one_div_pos.2 (hpos k)).le) (fun _ => zero_le_one)
    fun k => ?_)
  · congr 1
    funext z k
    simp only [harmonicForce]
    ring
  · rw [Real.sq_sqrt (by linarith)]
    have h1 := (hκ k).ne'
    have h2 : 1 - κ k * dt / 2 ≠ 0 := by linarith [hs k]
    have h3 : (2 - κ k * dt) ≠ 0 := by linarith [hs k]
    field_simp
    ring

/-- **C107.** The stationary distribution of the overdamped integrator for a harmonic potential without boundary condition:
normal positions with variance `1 / (κ (1 - κ dt / 2))`. -/
theorem overdamped_stationary (pot : Potential ℝ d) (dt : ℝ) (hbc : pot.bc = none) (κ a : Fin d → ℝ)
    (hpot : ∀ x, (pot.evaluate x).2 = harmonicForce κ a x) (hdt : 0 ≤ dt) (hκ : ∀ k, 0 < κ k) (hs : ∀ k, κ k * dt < 2) :
    ∃ T : (Fin d → ℝ) → (Fin d → ℝ) → (Fin d → ℝ),
      (∀ n p, Consistent (overdampedCfg pot dt) p → ∃ p', overdampedStep (overdampedCfg pot dt) n p = .ok p' ∧
        p'.pos = T n p.pos) ∧
      ∀ n, (afterMove T)^[n] (normals a (fun k => 1 / (κ k * (1 - κ k * dt / 2)))) =
        normals a (fun k => 1 / (κ k * (1 - κ k * dt / 2))) := by
  refine ⟨fun n x k => x k + dt * harmonicForce κ a x k + Real.sqrt (2 * dt) * n k, fun n p hp => ?_, fun n => ?_⟩
  · obtain ⟨p', h1, _, h2⟩ := overdamped_euler_maruyama pot dt hbc n p hp
    exact ⟨p', h1, funext fun k => by rw [h2, hpot]⟩
  · exact Function.iterate_fixed (euler_stationary κ a dt hdt hκ hs) n

/-! ### Examples -/

/-- The polynomial `x² / 2` of the input `coeffs = 0, 0, 0.5`. -/
noncomputable def parabola : NdArr 1 := ⟨fun _ => 3, fun i => if i 0 = 2 then 1 / 2 else 0⟩

theorem parabola_force (x : Fin 1 → ℝ) : polyForce parabola x = harmonicForce (fun _ => 1) (fun _ => 0) x := by
  funext k
  have hk : k = 0 := Subsingleton.elim _ _
  subst hk
  simp [polyForce, parabola, polyder, polyvalNd, horner, harmonicForce, List.range, List.range.loop, Fin.cons]
  ring

/-- A walker in this potential with usual parameters is stationary with variance 1 / (1 - 0.01² / 4) of the position. -/
example : ∃ p, newPolynomial parabola none = .ok p ∧ ∃ T : (Fin 1 → ℝ) → (Fin 1 → ℝ) → Phase 1 → Phase 1,
    (∀ n1 n2 q, LdOk (bussiCfg p 0.01 10 1) q → q.mass = 1 → ∃ q',
      bussiStep (bussiCfg p 0.01 10 1) n1 n2 q = .ok q' ∧ (q'.pos, q'.mom) = T n1 n2 (q.pos, q.mom) ∧
      q'.mass = 1 ∧ LdOk (bussiCfg p 0.01 10 1) q') ∧
    ∀ n, (afterStep T)^[n] (harmonicState (fun _ => 1) (fun _ => 0) 1 1 0.01) =
      harmonicState (fun _ => 1) (fun _ => 0) 1 1 0.01 := by
  refine ⟨_, rfl, bussi_stationary _ 0.01 10 1 1 rfl (fun _ => 1) (fun _ => 0) (fun x => parabola_force x) (by norm_num)
    (by norm_num) (by norm_num) (by norm_num) (by norm_num) (by norm_num)⟩

/-- The same for overdamped dynamics. -/
example : ∃ p, newPolynomial parabola none = .ok p ∧ ∃ T : (Fin 1 → ℝ) → (Fin 1 → ℝ) → (Fin 1 → ℝ),
    (∀ n q, Consistent (overdampedCfg p 0.01) q → ∃ q', overdampedStep (overdampedCfg p 0.01) n q = .ok q' ∧ q'.pos = T n q.pos) ∧
    ∀ n, (afterMove T)^[n] (normals (fun _ => 0) (fun _ => 1 / (1 * (1 - 1 * 0.01 / 2)))) =
      normals (fun _ => 0) (fun _ => 1 / (1 * (1 - 1 * 0.01 / 2))) :=
  ⟨_, rfl, overdamped_stationary _ 0.01 rfl (fun _ => 1) (fun _ => 0) (fun x => parabola_force x) (by norm_num)
    (by norm_num) (by norm_num)⟩

/-- A double well with minima at -1 and 1. -/
noncomputable def twoWells : Potential ℝ 1 :=
  ⟨fun x => (x 0 ^ 2 - 1) ^ 2, fun x _ => -4 * x 0 * (x 0 ^ 2 - 1),
    fun x => ((x 0 ^ 2 - 1) ^ 2, fun _ => -4 * x 0 * (x 0 ^ 2 - 1)), [], none⟩

/-- The hypotheses about measurability hold for it. -/
example : ∃ T : (Fin 1 → ℝ) → (Fin 1 → ℝ) → Phase 1 → Phase 1, ∀ n A,
    (afterStep T)^[n] (canonical twoWells.energy 1 1) A ≤ canonical twoWells.energy 1 1 A +
      n * weightError (fun x => (twoWells.evaluate x).2) twoWells.energy 1 1 0.01 := by
  obtain ⟨T, _, h⟩ := bussi_deviation twoWells 0.01 10 1 1 rfl (by unfold twoWells; fun_prop) (by unfold twoWells; fun_prop)
    (by norm_num) (by norm_num) (by norm_num) (by norm_num)
  exact ⟨T, fun n A => (h n A).1⟩

end Bdld
