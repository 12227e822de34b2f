import Verif.Lemmas.Measure
import Verif.Props.LangevinReal

/-
C107: stationary distributions of the integrators in exact real arithmetic.
-/

namespace Bdld

open Spec MeasureTheory ProbabilityTheory

open scoped ENNReal

variable {d : Nat}

/-! ### The thermostat -/

/-- Half a step of the thermostat acting on the momentum of a walker. -/
noncomputable def halfStep (decay amp : ℝ) (noise : Fin d → ℝ) (s : Phase d) : Phase d :=
  (s.1, fun k => decay * s.2 k + amp * noise k)

/-- Distribution after half a step of the thermostat. -/
noncomputable def afterHalf (decay amp : ℝ) (μ : Measure (Phase d)) : Measure (Phase d) :=
  (μ.prod (standard d)).map (fun z => halfStep decay amp z.2 z.1)

instance normals_prob (a v : Fin d → ℝ) : IsProbabilityMeasure (normals a v) := by
  unfold normals
  infer_instance

theorem measurable_half (decay amp : ℝ) : Measurable (fun z : Phase d × (Fin d → ℝ) => halfStep decay amp z.2 z.1) := by
  unfold halfStep
  fun_prop

/-- Linear combinations of normal numbers, all coordinates. -/
theorem normals_combination (A b : Fin d → ℝ) (v w u : Fin d → ℝ) (hv : ∀ k, 0 ≤ v k) (hw : ∀ k, 0 ≤ w k)
    (h : ∀ k, A k ^ 2 * v k + b k ^ 2 * w k = u k) :
    ((normals (fun _ => 0) v).prod (normals (fun _ => 0) w)).map (fun z k => A k * z.1 k + b k * z.2 k) =
      normals (fun _ => 0) u := by
  unfold normals
  rw [← (measurePreserving_arrowProdEquivProdArrow ℝ ℝ (Fin d) (fun k => gaussianReal 0 (v k).toNNReal)
    (fun k => gaussianReal 0 (w k).toNNReal)).map_eq, Measure.map_map]
  · have h1 : (fun (z : (Fin d → ℝ) × (Fin d → ℝ)) k => A k * z.1 k + b k * z.2 k) ∘
        (MeasurableEquiv.arrowProdEquivProdArrow ℝ ℝ (Fin d)) =
        fun x i => (fun y : ℝ × ℝ => A i * y.1 + b i * y.2) (x i) := rfl
    have h2 : ∀ k, ((gaussianReal 0 (v k).toNNReal).prod (gaussianReal 0 (w k).toNNReal)).map
        (fun y : ℝ × ℝ => A k * y.1 + b k * y.2) = gaussianReal 0 (u k).toNNReal := by
      intro k
      apply gaussian_combination
      rw [Real.coe_toNNReal _ (hv k), Real.coe_toNNReal _ (hw k), Real.coe_toNNReal, h]
      rw [← h]
      exact add_nonneg (mul_nonneg (sq_nonneg _) (hv k)) (mul_nonneg (sq_nonneg _) (hw k))
    rw [h1, Measure.pi_map_pi (f := fun i (y : ℝ × ℝ) => A i * y.1 + b i * y.2)
      (hμ := fun k => by rw [h2]; infer_instance) (fun _ => by fun_prop)]
    show Measure.pi (fun _ : Fin d => _) = Measure.pi _
    congr 1
    funext i
    exact h2 i
  · fun_prop
  · exact MeasurableEquiv.measurable _

/-- The canonical distribution is a product of a distribution of the position and normal momenta. -/
theorem canonical_prod (U : (Fin d → ℝ) → ℝ) (hU : Measurable U) (m kt : ℝ) (hm : 0 < m) (hk : 0 < kt) : ∃ K : ℝ≥0∞, K ≠ 0 ∧ K ≠ ∞ ∧
    canonical U m kt = (volume.withDensity (fun x => ENNReal.ofReal (Real.exp (-U x / kt)))).prod
      (K • normals (fun _ => 0) (fun _ : Fin d => m * kt)) := by
  obtain ⟨K, h0, h1, h2⟩ := normals_density (fun _ : Fin d => (0 : ℝ)) (fun _ => m * kt) (fun _ => mul_pos hm hk)
  refine ⟨K, h0, h1, ?_⟩
  rw [← h2, prod_withDensity (by fun_prop) (by fun_prop)]
  unfold canonical
  rw [Measure.volume_eq_prod]
  congr 1
  funext s
  rw [← ENNReal.ofReal_mul (Real.exp_pos _).le, ← Real.exp_add]
  congr 2
  unfold hamiltonian
  rw [neg_div, neg_div, ← neg_add, add_div, Finset.sum_div]
  congr 2
  refine Finset.sum_congr rfl fun k _ => ?_
  rw [sub_zero, div_div]
  congr 1
  ring

/-- The thermostat leaves every distribution with independent normal momenta of variance `m kT` alone, whatever the
distribution of the positions. -/
theorem half_prod (α : Measure (Fin d → ℝ)) [SFinite α] (K : ℝ≥0∞) (v decay amp : ℝ) (hv : 0 ≤ v)
    (h : decay ^ 2 * v + amp ^ 2 = v) :
    afterHalf decay amp (α.prod (K • normals (fun _ => 0) (fun _ => v))) = α.prod (K • normals (fun _ => 0) (fun _ => v)) := by
  have h1 : ((normals (fun _ => 0) (fun _ : Fin d => v)).prod (standard d)).map (fun z k => decay * z.1 k + amp * z.2 k) =
      normals (fun _ => 0) (fun _ => v) :=
    normals_combination (fun _ => decay) (fun _ => amp) _ _ _ (fun _ => hv) (fun _ => zero_le_one) (fun _ => by rw [mul_one]; exact h)
  have i1 : SFinite (K • normals (fun _ => 0) (fun _ : Fin d => v)) := inferInstance
  have i2 : SFinite ((K • normals (fun _ => 0) (fun _ : Fin d => v)).prod (standard d)) := inferInstance
  unfold afterHalf
  rw [← (measurePreserving_prodAssoc α (K • normals (fun _ => 0) (fun _ : Fin d => v)) (standard d)).symm.map_eq,
    Measure.map_map (measurable_half _ _) (MeasurableEquiv.measurable _)]
  have h2 : (fun z : Phase d × (Fin d → ℝ) => halfStep decay amp z.2 z.1) ∘ MeasurableEquiv.prodAssoc.symm =
      Prod.map id (fun (z : (Fin d → ℝ) × (Fin d → ℝ)) k => decay * z.1 k + amp * z.2 k) := rfl
  rw [h2, ← Measure.map_prod_map _ _ measurable_id (by fun_prop), Measure.map_id, Measure.prod_smul_left, Measure.map_smul, h1]

/-- The thermostat leaves the canonical distribution alone. -/
theorem half_canonical (U : (Fin d → ℝ) → ℝ) (hU : Measurable U) (m kt decay amp : ℝ) (hm : 0 < m) (hk : 0 < kt)
    (h : decay ^ 2 * (m * kt) + amp ^ 2 = m * kt) : afterHalf decay amp (canonical U m kt) = canonical U m kt := by
  obtain ⟨K, h0, h1, h2⟩ := canonical_prod U hU m kt hm hk
  rw [h2]
  exact half_prod _ K (m * kt) decay amp (mul_pos hm hk).le h

/-! ### The complete step -/

/-- Distribution after a step: half a step of the thermostat, the deterministic step, half a step of the thermostat. -/
theorem afterStep_eq (f : (Fin d → ℝ) → Fin d → ℝ) (hf : Measurable f) (m dt decay amp : ℝ) (μ : Measure (Phase d)) [SFinite μ] :
    afterStep (bussiParrinello f m dt decay amp) μ = afterHalf decay amp ((afterHalf decay amp μ).map (verlet f m dt)) := by
  have hV := (verlet_volume f hf m dt).measurable
  have hH := measurable_half (d := d) decay amp
  unfold afterStep afterHalf
  rw [Measure.map_map hV hH]
  have h1 : (fun z : (Phase d × (Fin d → ℝ)) × (Fin d → ℝ) => bussiParrinello f m dt decay amp z.1.2 z.2 z.1.1) =
      (fun z : Phase d × (Fin d → ℝ) => halfStep decay amp z.2 z.1) ∘
        Prod.map (verlet f m dt ∘ fun z : Phase d × (Fin d → ℝ) => halfStep decay amp z.2 z.1) id := rfl
  rw [h1, ← Measure.map_map hH ((hV.comp hH).prodMap measurable_id), ← Measure.map_prod_map _ _ (hV.comp hH) measurable_id,
    Measure.map_id]

/-- The deterministic step leaves the canonical distribution of an exactly conserved energy alone. -/
theorem verlet_canonical (f : (Fin d → ℝ) → Fin d → ℝ) (hf : Measurable f) (U : (Fin d → ℝ) → ℝ) (hU : Measurable U) (m kt dt : ℝ)
    (h : ∀ s, hamiltonian U m (verlet f m dt s) = hamiltonian U m s) :
    (canonical U m kt).map (verlet f m dt) = canonical U m kt := by
  have hV := verlet_volume f hf m dt
  have hρ : Measurable (fun s : Phase d => ENNReal.ofReal (Real.exp (-hamiltonian U m s / kt))) := by
    unfold hamiltonian
    fun_prop
  have h1 := map_withDensity_comp volume (verlet f m dt) hV.measurable _ hρ
  rw [hV.map_eq] at h1
  have h2 : (fun s : Phase d => ENNReal.ofReal (Real.exp (-hamiltonian U m s / kt))) ∘ verlet f m dt =
      fun s => ENNReal.ofReal (Real.exp (-hamiltonian U m s / kt)) := by
    funext s
    simp only [Function.comp_apply, h]
  rw [h2] at h1
  exact h1

instance canonical_sfinite (U : (Fin d → ℝ) → ℝ) (m kt : ℝ) : SFinite (canonical U m kt) := by
  unfold canonical
  infer_instance

/-- **C107.** If the deterministic part of a step conserves an energy `U + p² / 2m` exactly, the canonical distribution
of this energy is stationary under the complete step. -/
theorem step_canonical (f : (Fin d → ℝ) → Fin d → ℝ) (hf : Measurable f) (U : (Fin d → ℝ) → ℝ) (hU : Measurable U)
    (m kt dt decay amp : ℝ) (hm : 0 < m) (hk : 0 < kt) (h : ∀ s, hamiltonian U m (verlet f m dt s) = hamiltonian U m s)
    (hc : decay ^ 2 * (m * kt) + amp ^ 2 = m * kt) :
    afterStep (bussiParrinello f m dt decay amp) (canonical U m kt) = canonical U m kt := by
  rw [afterStep_eq f hf, half_canonical U hU m kt decay amp hm hk hc, verlet_canonical f hf U hU m kt dt h,
    half_canonical U hU m kt decay amp hm hk hc]

/-! ### Energy error of the deterministic step -/

/-- **C107.** The change of the total energy in a deterministic step: the error of the trapezoidal rule for the work of
the force, and a difference of the squared forces. -/
theorem verlet_energy (f : (Fin d → ℝ) → Fin d → ℝ) (U : (Fin d → ℝ) → ℝ) (m dt : ℝ) (hm : m ≠ 0) (s : Phase d) :
    let t := verlet f m dt s
    hamiltonian U m t - hamiltonian U m s =
      (U t.1 - U s.1 + ∑ k, (f s.1 k + f t.1 k) / 2 * (t.1 k - s.1 k)) +
        dt ^ 2 / (8 * m) * (∑ k, f t.1 k ^ 2 - ∑ k, f s.1 k ^ 2) := by
  intro t
  have h1 : ∀ k, t.1 k - s.1 k = dt * ((s.2 k + dt / 2 * f s.1 k) / m) := fun k => by
    show s.1 k + dt * ((s.2 k + dt / 2 * f s.1 k) / m) - s.1 k = _
    ring
  have h2 : ∀ k, t.2 k = s.2 k + dt / 2 * f s.1 k + dt / 2 * f t.1 k := fun k => rfl
  unfold hamiltonian
  have h3 : ∑ k, t.2 k ^ 2 / (2 * m) - ∑ k, s.2 k ^ 2 / (2 * m) =
      ∑ k, (f s.1 k + f t.1 k) / 2 * (t.1 k - s.1 k) + dt ^ 2 / (8 * m) * (∑ k, f t.1 k ^ 2 - ∑ k, f s.1 k ^ 2) := by
    rw [← Finset.sum_sub_distrib, ← Finset.sum_sub_distrib, Finset.mul_sum, ← Finset.sum_add_distrib]
    refine Finset.sum_congr rfl fun k _ => ?_
    rw [h1, h2]
    field_simp
    ring
  linarith

/-- The inverse of the deterministic step. -/
noncomputable def verletBack (f : (Fin d → ℝ) → Fin d → ℝ) (m dt : ℝ) (s : Phase d) : Phase d :=
  ((verlet f m dt (s.1, fun k => -s.2 k)).1, fun k => -(verlet f m dt (s.1, fun k => -s.2 k)).2 k)

theorem verletBack_verlet (f : (Fin d → ℝ) → Fin d → ℝ) (m dt : ℝ) (s : Phase d) :
    verletBack f m dt (verlet f m dt s) = s ∧ verlet f m dt (verletBack f m dt s) = s := by
  constructor
  · unfold verletBack
    rw [show s = (s.1, s.2) from rfl, verlet_reverse]
    simp
  · have h := verlet_reverse f m dt s.1 (fun k => -s.2 k)
    simp only [neg_neg] at h
    exact h

theorem measurable_verletBack (f : (Fin d → ℝ) → Fin d → ℝ) (hf : Measurable f) (m dt : ℝ) : Measurable (verletBack f m dt) := by
  have h1 : Measurable (fun s : Phase d => ((s.1, fun k => -s.2 k) : Phase d)) := by fun_prop
  have h2 := (verlet_volume f hf m dt).measurable.comp h1
  exact (measurable_fst.comp h2).prodMk (measurable_pi_lambda _ fun k =>
    ((measurable_pi_apply k).comp (measurable_snd.comp h2)).neg)

/-- Distribution after a deterministic step: the density is transported. -/
theorem verlet_canonical_map (f : (Fin d → ℝ) → Fin d → ℝ) (hf : Measurable f) (U : (Fin d → ℝ) → ℝ) (hU : Measurable U)
    (m kt dt : ℝ) : (canonical U m kt).map (verlet f m dt) =
      volume.withDensity (fun s => ENNReal.ofReal (Real.exp (-hamiltonian U m (verletBack f m dt s) / kt))) := by
  have hV := verlet_volume f hf m dt
  have hB : Measurable (verletBack f m dt) := measurable_verletBack f hf m dt
  have hH : Measurable (fun s : Phase d => hamiltonian U m s) := by
    unfold hamiltonian
    fun_prop
  have hρ : Measurable (fun s : Phase d => ENNReal.ofReal (Real.exp (-hamiltonian U m (verletBack f m dt s) / kt))) := by
    have := hH.comp hB
    exact ENNReal.measurable_ofReal.comp (Real.measurable_exp.comp (this.neg.div_const kt))
  have h1 := map_withDensity_comp volume (verlet f m dt) hV.measurable _ hρ
  rw [hV.map_eq] at h1
  have h2 : (fun s : Phase d => ENNReal.ofReal (Real.exp (-hamiltonian U m (verletBack f m dt s) / kt))) ∘ verlet f m dt =
      fun s => ENNReal.ofReal (Real.exp (-hamiltonian U m s / kt)) := by
    funext s
    simp only [Function.comp_apply, (verletBack_verlet f m dt s).1]
  rw [h2] at h1
  exact h1

theorem afterHalf_mono (decay amp : ℝ) (μ ν : Measure (Phase d)) (h : μ ≤ ν) [SFinite μ] [SFinite ν] :
    afterHalf decay amp μ ≤ afterHalf decay amp ν :=
  Measure.map_mono (Measure.prod_mono h le_rfl) (measurable_half _ _)

theorem afterHalf_smul (decay amp : ℝ) (c : ℝ≥0∞) (μ : Measure (Phase d)) [SFinite μ] :
    afterHalf decay amp (c • μ) = c • afterHalf decay amp μ := by
  unfold afterHalf
  rw [Measure.prod_smul_left, Measure.map_smul]

instance afterHalf_sfinite (decay amp : ℝ) (μ : Measure (Phase d)) [SFinite μ] : SFinite (afterHalf decay amp μ) := by
  unfold afterHalf
  infer_instance

instance afterStep_sfinite (step : (Fin d → ℝ) → (Fin d → ℝ) → Phase d → Phase d) (μ : Measure (Phase d)) [SFinite μ] :
    SFinite (afterStep step μ) := by
  unfold afterStep
  have i1 : SFinite (μ.prod (standard d)) := inferInstance
  have i2 : SFinite ((μ.prod (standard d)).prod (standard d)) := inferInstance
  infer_instance

theorem afterStep_mono (f : (Fin d → ℝ) → Fin d → ℝ) (hf : Measurable f) (m dt decay amp : ℝ) (μ ν : Measure (Phase d))
    (h : μ ≤ ν) [SFinite μ] [SFinite ν] :
    afterStep (bussiParrinello f m dt decay amp) μ ≤ afterStep (bussiParrinello f m dt decay amp) ν := by
  rw [afterStep_eq f hf, afterStep_eq f hf]
  exact afterHalf_mono _ _ _ _ (Measure.map_mono (afterHalf_mono _ _ _ _ h) (verlet_volume f hf m dt).measurable)

theorem afterStep_smul (f : (Fin d → ℝ) → Fin d → ℝ) (hf : Measurable f) (m dt decay amp : ℝ) (c : ℝ≥0∞) (μ : Measure (Phase d))
    [SFinite μ] :
    afterStep (bussiParrinello f m dt decay amp) (c • μ) = c • afterStep (bussiParrinello f m dt decay amp) μ := by
  rw [afterStep_eq f hf, afterStep_eq f hf, afterHalf_smul, Measure.map_smul, afterHalf_smul]

theorem afterHalf_add (decay amp : ℝ) (μ ν : Measure (Phase d)) [SFinite μ] [SFinite ν] :
    afterHalf decay amp (μ + ν) = afterHalf decay amp μ + afterHalf decay amp ν := by
  unfold afterHalf
  rw [Measure.add_prod, Measure.map_add _ _ (measurable_half _ _)]

theorem afterHalf_univ (decay amp : ℝ) (μ : Measure (Phase d)) [SFinite μ] : afterHalf decay amp μ Set.univ = μ Set.univ := by
  unfold afterHalf
  rw [Measure.map_apply (measurable_half _ _) MeasurableSet.univ, Set.preimage_univ, ← Set.univ_prod_univ, Measure.prod_prod,
    measure_univ (μ := standard d), mul_one]

theorem afterStep_add (f : (Fin d → ℝ) → Fin d → ℝ) (hf : Measurable f) (m dt decay amp : ℝ) (μ ν : Measure (Phase d))
    [SFinite μ] [SFinite ν] : afterStep (bussiParrinello f m dt decay amp) (μ + ν) =
      afterStep (bussiParrinello f m dt decay amp) μ + afterStep (bussiParrinello f m dt decay amp) ν := by
  rw [afterStep_eq f hf, afterStep_eq f hf, afterStep_eq f hf, afterHalf_add,
    Measure.map_add _ _ (verlet_volume f hf m dt).measurable, afterHalf_add]

theorem afterStep_univ (f : (Fin d → ℝ) → Fin d → ℝ) (hf : Measurable f) (m dt decay amp : ℝ) (μ : Measure (Phase d)) [SFinite μ] :
    afterStep (bussiParrinello f m dt decay amp) μ Set.univ = μ Set.univ := by
  rw [afterStep_eq f hf, afterHalf_univ, Measure.map_apply (verlet_volume f hf m dt).measurable MeasurableSet.univ,
    Set.preimage_univ, afterHalf_univ]

/-- Mean error of the weight in a deterministic step. -/
noncomputable def weightError (f : (Fin d → ℝ) → Fin d → ℝ) (U : (Fin d → ℝ) → ℝ) (m kt dt : ℝ) : ℝ≥0∞ :=
  ∫⁻ s, ENNReal.ofReal |1 - Real.exp (-(hamiltonian U m (verlet f m dt s) - hamiltonian U m s) / kt)| ∂canonical U m kt

/-- A deterministic step changes the canonical distribution by a measure of the size of the mean error. -/
theorem verlet_deviation (f : (Fin d → ℝ) → Fin d → ℝ) (hf : Measurable f) (U : (Fin d → ℝ) → ℝ) (hU : Measurable U) (m kt dt : ℝ) :
    ∃ E : Measure (Phase d), SFinite E ∧ E Set.univ = weightError f U m kt dt ∧
      (canonical U m kt).map (verlet f m dt) ≤ canonical U m kt + E ∧
      canonical U m kt ≤ (canonical U m kt).map (verlet f m dt) + E := by
  have hV := verlet_volume f hf m dt
  have hB : Measurable (verletBack f m dt) := measurable_verletBack f hf m dt
  have hH : Measurable (fun s : Phase d => hamiltonian U m s) := by
    unfold hamiltonian
    fun_prop
  have hr : Measurable (fun s : Phase d => Real.exp (-hamiltonian U m s / kt)) := Real.measurable_exp.comp (hH.neg.div_const kt)
  have hb : Measurable (fun s : Phase d => Real.exp (-hamiltonian U m (verletBack f m dt s) / kt)) := hr.comp hB
  have hE : Measurable (fun s : Phase d => ENNReal.ofReal
      |Real.exp (-hamiltonian U m (verletBack f m dt s) / kt) - Real.exp (-hamiltonian U m s / kt)|) :=
    ENNReal.measurable_ofReal.comp (hb.sub hr).abs
  have key : ∀ a b : ℝ, 0 ≤ b → ENNReal.ofReal a ≤ ENNReal.ofReal b + ENNReal.ofReal |a - b| := fun a b h => by
    rw [← ENNReal.ofReal_add h (abs_nonneg _)]
    exact ENNReal.ofReal_le_ofReal (by linarith [le_abs_self (a - b)])
  refine ⟨volume.withDensity (fun s => ENNReal.ofReal
      |Real.exp (-hamiltonian U m (verletBack f m dt s) / kt) - Real.exp (-hamiltonian U m s / kt)|), ?_, ?_, ?_, ?_⟩
  · infer_instance
  · rw [withDensity_apply _ MeasurableSet.univ, Measure.restrict_univ, ← hV.lintegral_comp hE]
    unfold weightError canonical
    rw [lintegral_withDensity_eq_lintegral_mul _ hr.ennreal_ofReal]
    · refine lintegral_congr fun s => ?_
      simp only [Pi.mul_apply]
      rw [(verletBack_verlet f m dt s).1, ← ENNReal.ofReal_mul (Real.exp_pos _).le, ← abs_of_pos (Real.exp_pos (-hamiltonian U m s / kt)),
        ← abs_mul, abs_of_pos (Real.exp_pos (-hamiltonian U m s / kt)), mul_sub, mul_one, ← Real.exp_add]
      congr 5
      ring
    · exact ENNReal.measurable_ofReal.comp (measurable_const.sub
        (Real.measurable_exp.comp (((hH.comp hV.measurable).sub hH).neg.div_const kt))).abs
  · rw [verlet_canonical_map f hf U hU, canonical, ← withDensity_add_left hr.ennreal_ofReal]
    refine withDensity_mono (Filter.Eventually.of_forall fun s => key _ _ (Real.exp_pos _).le)
  · rw [verlet_canonical_map f hf U hU, canonical, ← withDensity_add_left hb.ennreal_ofReal]
    refine withDensity_mono (Filter.Eventually.of_forall fun s => ?_)
    simp only [Pi.add_apply]
    rw [abs_sub_comm]
    exact key _ _ (Real.exp_pos _).le

/-- **C107.** For every potential: the distribution after `n` steps that started from the canonical one deviates from it
at most by `n` times the mean of `|1 - exp(-ΔH / kT)|`, where `ΔH` is the energy error of a deterministic step. -/
theorem steps_deviation (f : (Fin d → ℝ) → Fin d → ℝ) (hf : Measurable f) (U : (Fin d → ℝ) → ℝ) (hU : Measurable U)
    (m kt dt decay amp : ℝ) (hm : 0 < m) (hk : 0 < kt) (hc : decay ^ 2 * (m * kt) + amp ^ 2 = m * kt) (n : Nat) :
    ∀ A, (afterStep (bussiParrinello f m dt decay amp))^[n] (canonical U m kt) A ≤
        canonical U m kt A + n * weightError f U m kt dt ∧
      canonical U m kt A ≤
        (afterStep (bussiParrinello f m dt decay amp))^[n] (canonical U m kt) A + n * weightError f U m kt dt := by
  have hsf : ∀ n, SFinite ((afterStep (bussiParrinello f m dt decay amp))^[n] (canonical U m kt)) := by
    intro n
    induction n with
    | zero => exact canonical_sfinite U m kt
    | succ n ih =>
      rw [Function.iterate_succ_apply']
      infer_instance
  have hO := half_canonical U hU m kt decay amp hm hk hc
  obtain ⟨E, iE, hE, h1, h2⟩ := verlet_deviation f hf U hU m kt dt
  have hS : afterStep (bussiParrinello f m dt decay amp) (canonical U m kt) =
      afterHalf decay amp ((canonical U m kt).map (verlet f m dt)) := by
    rw [afterStep_eq f hf, hO]
  have h3 : afterStep (bussiParrinello f m dt decay amp) (canonical U m kt) ≤ canonical U m kt + afterHalf decay amp E := by
    rw [hS]
    refine (afterHalf_mono _ _ _ _ h1).trans ?_
    rw [afterHalf_add, hO]
  have h4 : canonical U m kt ≤ afterStep (bussiParrinello f m dt decay amp) (canonical U m kt) + afterHalf decay amp E := by
    rw [hS]
    refine hO.symm.le.trans ((afterHalf_mono _ _ _ _ h2).trans ?_)
    rw [afterHalf_add]
  suffices h : ∃ F : Measure (Phase d), SFinite F ∧ F Set.univ = n * weightError f U m kt dt ∧
      (afterStep (bussiParrinello f m dt decay amp))^[n] (canonical U m kt) ≤ canonical U m kt + F ∧
      canonical U m kt ≤ (afterStep (bussiParrinello f m dt decay amp))^[n] (canonical U m kt) + F by
    obtain ⟨F, _, hF, h5, h6⟩ := h
    intro A
    have hA : F A ≤ n * weightError f U m kt dt := hF ▸ measure_mono (Set.subset_univ A)
    exact ⟨(Measure.le_iff'.1 h5 A).trans (by rw [Measure.add_apply]; gcongr),
      (Measure.le_iff'.1 h6 A).trans (by rw [Measure.add_apply]; gcongr)⟩
  induction n with
  | zero => exact ⟨0, inferInstance, by simp, by simp, by simp⟩
  | succ n ih =>
    obtain ⟨F, iF, hF, h5, h6⟩ := ih
    have := hsf n
    refine ⟨afterHalf decay amp E + afterStep (bussiParrinello f m dt decay amp) F, inferInstance, ?_, ?_, ?_⟩
    · rw [Measure.add_apply, afterHalf_univ, afterStep_univ f hf, hE, hF]
      push_cast
      ring
    · rw [Function.iterate_succ_apply']
      refine (afterStep_mono f hf m dt decay amp _ _ h5).trans ?_
      rw [afterStep_add f hf, ← add_assoc]
      exact add_le_add_left h3 _
    · rw [Function.iterate_succ_apply']
      refine h4.trans ?_
      have h7 := afterStep_mono f hf m dt decay amp _ _ h6
      rw [afterStep_add f hf] at h7
      refine (add_le_add_left h7 _).trans ?_
      rw [add_assoc, add_comm (afterStep _ F)]

end Bdld
