import Verif.Props.Stationary
import Verif.Props.MainPath
import Mathlib.MeasureTheory.Measure.OpenPos

/-
C108: what the boundary conditions do to distributions and to the reversibility of the dynamics.
-/

namespace Bdld

open Spec MeasureTheory ProbabilityTheory

open scoped ENNReal

variable {d : Nat}

/-! ### Reflective boundary: walkers accumulate exactly at the boundary -/

theorem measurable_boundary (bc : Option BoundaryCondition) (ranges : List (ℝ × ℝ)) :
    Measurable (boundary (d := d) bc ranges) := by
  have h1 : ∀ r : ℝ × ℝ, Measurable (fun z : ℝ × ℝ => boundary1 bc r z.1 z.2) := by
    intro r
    have ha : MeasurableSet {z : ℝ × ℝ | r.2 < z.1 ∧ r.1 ≤ z.1} :=
      (measurableSet_lt measurable_const measurable_fst).inter (measurableSet_le measurable_const measurable_fst)
    have hb : MeasurableSet {z : ℝ × ℝ | z.1 < r.1} := measurableSet_lt measurable_fst measurable_const
    unfold boundary1
    cases bc with
    | none => exact measurable_fst.prodMk measurable_snd
    | some b =>
      cases b with
      | reflective => exact Measurable.ite ha (by fun_prop) (Measurable.ite hb (by fun_prop) (by fun_prop))
      | periodic => exact Measurable.ite ha (by fun_prop) (Measurable.ite hb (by fun_prop) (by fun_prop))
  unfold boundary
  refine Measurable.prodMk (measurable_pi_lambda _ fun k => ?_) (measurable_pi_lambda _ fun k => ?_)
  · exact measurable_fst.comp ((h1 _).comp (g := fun z : ℝ × ℝ => boundary1 bc (ranges.getD k (0, 0)) z.1 z.2)
      (f := fun s : Phase d => (s.1 k, s.2 k)) (by fun_prop))
  · exact measurable_snd.comp ((h1 _).comp (g := fun z : ℝ × ℝ => boundary1 bc (ranges.getD k (0, 0)) z.1 z.2)
      (f := fun s : Phase d => (s.1 k, s.2 k)) (by fun_prop))

theorem standard_tail (k : Fin d) (c σ : ℝ) (hσ : 0 < σ) :
    standard d {n | c < σ * n k} ≠ 0 ∧ standard d {n | σ * n k < c} ≠ 0 := by
  have hp := measurePreserving_eval (fun _ : Fin d => gaussianReal 0 (1 : ℝ).toNNReal) k
  have h1 : (1 : ℝ).toNNReal ≠ 0 := by simp
  have ho : ∀ s : Set ℝ, MeasurableSet s → volume s ≠ 0 → standard d {n | n k ∈ s} ≠ 0 := by
    intro s hs hv h0
    have : gaussianReal 0 (1 : ℝ).toNNReal s = 0 := by
      rw [← hp.measure_preimage hs.nullMeasurableSet]
      exact h0
    exact hv (gaussianReal_absolutelyContinuous' 0 h1 this)
  constructor
  · have : {n : Fin d → ℝ | c < σ * n k} = {n | n k ∈ Set.Ioi (c / σ)} := by
      ext n
      simp only [Set.mem_ofPred_eq, Set.mem_Ioi, div_lt_iff₀ hσ, mul_comm]
    rw [this]
    exact ho _ measurableSet_Ioi (by simp)
  · have : {n : Fin d → ℝ | σ * n k < c} = {n | n k ∈ Set.Iio (c / σ)} := by
      ext n
      simp only [Set.mem_ofPred_eq, Set.mem_Iio, lt_div_iff₀ hσ, mul_comm]
    rw [this]
    exact ho _ measurableSet_Iio (by simp)

/-- With normal noise every coordinate exceeds every bound with positive probability. -/
theorem exceed_pos (μ : Measure (Phase d)) [IsProbabilityMeasure μ] (k : Fin d) (g : Phase d → ℝ) (hg : Measurable g) (c σ : ℝ)
    (hσ : 0 < σ) : (μ.prod (standard d)) {z | c < g z.1 + σ * z.2 k} ≠ 0 ∧
      (μ.prod (standard d)) {z | g z.1 + σ * z.2 k < c} ≠ 0 := by
  have hm : Measurable (fun z : Phase d × (Fin d → ℝ) => g z.1 + σ * z.2 k) :=
    (hg.comp measurable_fst).add (by fun_prop)
  constructor
  · intro h
    rw [Measure.measure_prod_null (measurableSet_lt measurable_const hm)] at h
    obtain ⟨s, hs⟩ := h.exists
    refine (standard_tail k (c - g s) σ hσ).1 (Eq.trans ?_ hs)
    refine congrArg _ ?_
    ext n
    simp only [Set.mem_ofPred_eq, Set.mem_preimage]
    constructor <;> intro <;> linarith
  · intro h
    rw [Measure.measure_prod_null (measurableSet_lt hm measurable_const)] at h
    obtain ⟨s, hs⟩ := h.exists
    refine (standard_tail k (c - g s) σ hσ).2 (Eq.trans ?_ hs)
    refine congrArg _ ?_
    ext n
    simp only [Set.mem_ofPred_eq, Set.mem_preimage]
    constructor <;> intro <;> linarith

/-- Positive probability of a set that contains the states beyond a bound. -/
theorem afterStep_pos (μ : Measure (Phase d)) [IsProbabilityMeasure μ] (T : (Fin d → ℝ) → (Fin d → ℝ) → Phase d → Phase d)
    (hT : Measurable (fun z : (Phase d × (Fin d → ℝ)) × (Fin d → ℝ) => T z.1.2 z.2 z.1.1)) (A : Set (Phase d)) (hA : MeasurableSet A)
    (S : Set (Phase d × (Fin d → ℝ))) (hS : (μ.prod (standard d)) S ≠ 0)
    (h : ∀ z ∈ S, ∀ n2, T z.2 n2 z.1 ∈ A) : 0 < afterStep T μ A := by
  unfold afterStep
  rw [Measure.map_apply hT hA]
  refine lt_of_lt_of_le (pos_iff_ne_zero.2 ?_) (measure_mono (s := S ×ˢ Set.univ) fun z hz => h z.1 hz.1 z.2)
  rw [Measure.prod_prod, measure_univ, mul_one]
  exact hS

/-- The step of a walker with the given dynamics as a function of position and momentum. -/
noncomputable def stepMap (kind : LdKind) (pot : Potential ℝ d) (dt friction kt m : ℝ) (n1 n2 : Fin d → ℝ) (s : Phase d) : Phase d :=
  match kind with
  | .overdamped => eulerStep pot.force (boundary pot.bc pot.ranges) dt n1 s
  | .bussi => bussiParrinelloStep pot.force (boundary pot.bc pot.ranges) dt friction kt m n1 n2 s

/-- Constants of the integrator. -/
noncomputable def kindCfg (kind : LdKind) (pot : Potential ℝ d) (dt friction kt : ℝ) : LdCfg ℝ d :=
  match kind with
  | .overdamped => overdampedCfg pot dt
  | .bussi => bussiCfg pot dt friction kt

/-- The integrators compute this map. -/
theorem stepMap_step (kind : LdKind) (pot : Potential ℝ d) (hev : ∀ x, pot.evaluate x = (pot.energy x, pot.force x))
    (hr : pot.bc = none ∨ d ≤ pot.ranges.length) (dt friction kt m : ℝ) (n1 n2 : Fin d → ℝ) (p : LdParticle ℝ d)
    (hp : LdOk (kindCfg kind pot dt friction kt) p) (hm : p.mass = m) :
    ∃ p', walkerStep kind (kindCfg kind pot dt friction kt) (fun i => if i = 0 then n1 else n2) p = .ok p' ∧
      (p'.pos, p'.mom) = stepMap kind pot dt friction kt m n1 n2 (p.pos, p.mom) := by
  have hpot : (kindCfg kind pot dt friction kt).pot = pot := by cases kind <;> rfl
  have hb : ∀ pos mom, ∃ x, (kindCfg kind pot dt friction kt).pot.applyBc pos mom = .ok x := by
    intro pos mom
    rw [hpot]
    unfold Potential.applyBc
    cases hc : pot.bc with
    | none => exact ⟨_, rfl⟩
    | some b =>
      have hd : d ≤ pot.ranges.length := hr.resolve_left (by rw [hc]; simp)
      cases b with
      | reflective => exact ⟨_, applyReflective_eq _ hd _ _⟩
      | periodic => exact ⟨_, applyPeriodic_eq _ hd _ _⟩
  obtain ⟨p', h⟩ := walkerStep_total hb (fun i => if i = 0 then n1 else n2) p
  refine ⟨p', h, ?_⟩
  subst hm
  cases kind with
  | overdamped => exact overdamped_step pot hev dt n1 p p' hp h
  | bussi => exact bussi_step pot hev dt friction kt n1 n2 p p' hp h

theorem measurable_stepMap (kind : LdKind) (pot : Potential ℝ d) (hf : Measurable pot.force) (dt friction kt m : ℝ) :
    Measurable (fun z : (Phase d × (Fin d → ℝ)) × (Fin d → ℝ) => stepMap kind pot dt friction kt m z.1.2 z.2 z.1.1) := by
  have hb := measurable_boundary (d := d) pot.bc pot.ranges
  have hf' : ∀ k, Measurable (fun x => pot.force x k) := fun k => (measurable_pi_apply k).comp hf
  cases kind with
  | overdamped =>
    unfold stepMap eulerStep
    simp only
    refine hb.comp ?_
    fun_prop
  | bussi =>
    unfold stepMap bussiParrinelloStep
    simp only
    have h1 : Measurable (fun z : (Phase d × (Fin d → ℝ)) × (Fin d → ℝ) => boundary pot.bc pot.ranges
        ((fun k => z.1.1.1 k + dt * ((Real.exp (-(friction * dt / 2)) * z.1.1.2 k +
          Real.sqrt (m * kt * (1 - Real.exp (-(friction * dt)))) * z.1.2 k + dt / 2 * pot.force z.1.1.1 k) / m),
        fun k => Real.exp (-(friction * dt / 2)) * z.1.1.2 k +
          Real.sqrt (m * kt * (1 - Real.exp (-(friction * dt)))) * z.1.2 k + dt / 2 * pot.force z.1.1.1 k) : Phase d)) :=
      hb.comp (by fun_prop)
    refine (measurable_fst.comp h1).prodMk (measurable_pi_lambda _ fun k => ?_)
    refine Measurable.add (Measurable.const_mul (Measurable.add ?_ (Measurable.const_mul ?_ _)) _) (by fun_prop)
    · exact (measurable_pi_apply k).comp (measurable_snd.comp h1)
    · exact (hf' k).comp (measurable_fst.comp h1)

/-- Coordinate beyond the boundary after the drift. -/
theorem boundary_reflective (ranges : List (ℝ × ℝ)) (k : Fin d) (r : ℝ × ℝ) (hr : ranges[k.val]? = some r) (hle : r.1 ≤ r.2)
    (s : Phase d) : (r.2 < s.1 k → (boundary (some .reflective) ranges s).1 k = r.2) ∧
      (s.1 k < r.1 → (boundary (some .reflective) ranges s).1 k = r.1) := by
  have hg : ranges.getD k (0, 0) = r := by simp [List.getD_eq_getElem?_getD, hr]
  unfold boundary boundary1
  simp only [hg]
  constructor
  · intro h
    rw [if_pos ⟨h, hle.trans h.le⟩]
  · intro h
    rw [if_neg (by intro h'; exact absurd h'.2 (not_le.2 h)), if_pos h]

/-- **C108** (what the code does): with a reflective boundary and noise, a walker is with positive probability exactly at
either end of each range after every step, whatever its distribution before. -/
theorem reflective_atom (kind : LdKind) (pot : Potential ℝ d) (hf : Measurable pot.force) (hbc : pot.bc = some .reflective)
    (dt friction kt m : ℝ) (hdt : 0 < dt) (hfr : 0 < friction) (hkt : 0 < kt) (hm : 0 < m) (k : Fin d) (r : ℝ × ℝ)
    (hr : pot.ranges[k.val]? = some r) (hle : r.1 ≤ r.2) (μ : Measure (Phase d)) [IsProbabilityMeasure μ] :
    0 < afterStep (stepMap kind pot dt friction kt m) μ {s | s.1 k = r.2} ∧
      0 < afterStep (stepMap kind pot dt friction kt m) μ {s | s.1 k = r.1} := by
  have hA : ∀ c : ℝ, MeasurableSet {s : Phase d | s.1 k = c} := fun c =>
    measurableSet_eq_fun ((measurable_pi_apply k).comp measurable_fst) measurable_const
  have hT := measurable_stepMap kind pot hf dt friction kt m
  have hf' : Measurable (fun x => pot.force x k) := (measurable_pi_apply k).comp hf
  cases kind with
  | overdamped =>
    have hσ : 0 < Real.sqrt (2 * dt) := Real.sqrt_pos.2 (by linarith)
    have hg : Measurable (fun s : Phase d => s.1 k + pot.force s.1 k * dt) := by fun_prop
    refine ⟨afterStep_pos μ _ hT _ (hA _) _ (exceed_pos μ k _ hg r.2 _ hσ).1 fun z hz n2 => ?_,
      afterStep_pos μ _ hT _ (hA _) _ (exceed_pos μ k _ hg r.1 _ hσ).2 fun z hz n2 => ?_⟩
    · simp only [Set.mem_ofPred_eq, stepMap, eulerStep, hbc]
      exact (boundary_reflective _ k r hr hle _).1 hz
    · simp only [Set.mem_ofPred_eq, stepMap, eulerStep, hbc]
      exact (boundary_reflective _ k r hr hle _).2 hz
  | bussi =>
    have he : Real.exp (-(friction * dt)) < 1 := by
      rw [Real.exp_lt_one_iff]
      nlinarith [mul_pos hfr hdt]
    have hσ : 0 < dt * (Real.sqrt (m * kt * (1 - Real.exp (-(friction * dt)))) / m) :=
      mul_pos hdt (div_pos (Real.sqrt_pos.2 (mul_pos (mul_pos hm hkt) (by linarith))) hm)
    have hg : Measurable (fun s : Phase d => s.1 k + dt * ((Real.exp (-(friction * dt / 2)) * s.2 k + dt / 2 * pot.force s.1 k) / m)) := by
      fun_prop
    have e : ∀ z : Phase d × (Fin d → ℝ), z.1.1 k + dt * ((Real.exp (-(friction * dt / 2)) * z.1.2 k +
          Real.sqrt (m * kt * (1 - Real.exp (-(friction * dt)))) * z.2 k + dt / 2 * pot.force z.1.1 k) / m) =
        z.1.1 k + dt * ((Real.exp (-(friction * dt / 2)) * z.1.2 k + dt / 2 * pot.force z.1.1 k) / m) +
          dt * (Real.sqrt (m * kt * (1 - Real.exp (-(friction * dt)))) / m) * z.2 k := fun z => by ring
    refine ⟨afterStep_pos μ _ hT _ (hA _) _ (exceed_pos μ k _ hg r.2 _ hσ).1 fun z hz n2 => ?_,
      afterStep_pos μ _ hT _ (hA _) _ (exceed_pos μ k _ hg r.1 _ hσ).2 fun z hz n2 => ?_⟩
    · simp only [Set.mem_ofPred_eq, stepMap, bussiParrinelloStep, hbc]
      refine (boundary_reflective _ k r hr hle _).1 ?_
      exact lt_of_lt_of_eq hz (e z).symm
    · simp only [Set.mem_ofPred_eq, stepMap, bussiParrinelloStep, hbc]
      refine (boundary_reflective _ k r hr hle _).2 ?_
      exact lt_of_eq_of_lt (e z) hz

/-- A hyperplane has volume zero. -/
theorem volume_plane (k : Fin d) (c : ℝ) : volume {s : Phase d | s.1 k = c} = 0 := by
  have h1 : {s : Phase d | s.1 k = c} = {x : Fin d → ℝ | x k = c} ×ˢ Set.univ := by
    ext s
    simp
  have h2 : volume {x : Fin d → ℝ | x k = c} = 0 := by
    rw [volume_pi]
    exact Measure.pi_hyperplane (fun _ : Fin d => (volume : Measure ℝ)) k c
  rw [h1, Measure.volume_eq_prod, Measure.prod_prod, h2, zero_mul]

theorem afterStep_probability (μ : Measure (Phase d)) [IsProbabilityMeasure μ] (T : (Fin d → ℝ) → (Fin d → ℝ) → Phase d → Phase d)
    (hT : Measurable (fun z : (Phase d × (Fin d → ℝ)) × (Fin d → ℝ) => T z.1.2 z.2 z.1.1)) :
    IsProbabilityMeasure (afterStep T μ) := by
  unfold afterStep
  exact Measure.isProbabilityMeasure_map hT.aemeasurable

/-- **C108** (negation). With a reflective boundary the distribution of a walker has no density after any number of steps,
and no distribution with a density is stationary: not the canonical one, nor any other. -/
theorem reflective_no_density (kind : LdKind) (pot : Potential ℝ d) (hf : Measurable pot.force) (hbc : pot.bc = some .reflective)
    (dt friction kt m : ℝ) (hdt : 0 < dt) (hfr : 0 < friction) (hkt : 0 < kt) (hm : 0 < m) (k : Fin d) (r : ℝ × ℝ)
    (hr : pot.ranges[k.val]? = some r) (hle : r.1 ≤ r.2) (μ : Measure (Phase d)) [IsProbabilityMeasure μ] (n : Nat) :
    ¬ (afterStep (stepMap kind pot dt friction kt m))^[n + 1] μ ≪ volume ∧
      (μ ≪ volume → afterStep (stepMap kind pot dt friction kt m) μ ≠ μ) := by
  have hT := measurable_stepMap kind pot hf dt friction kt m
  have hp : ∀ n, IsProbabilityMeasure ((afterStep (stepMap kind pot dt friction kt m))^[n] μ) := by
    intro n
    induction n with
    | zero => simpa
    | succ n ih =>
      rw [Function.iterate_succ_apply']
      exact afterStep_probability _ _ hT
  have key : ∀ ν : Measure (Phase d), IsProbabilityMeasure ν → ¬ afterStep (stepMap kind pot dt friction kt m) ν ≪ volume := by
    intro ν hν hac
    exact (reflective_atom kind pot hf hbc dt friction kt m hdt hfr hkt hm k r hr hle ν).1.ne' (hac (volume_plane k r.2))
  refine ⟨?_, fun hac he => key μ inferInstance (by rw [he]; exact hac)⟩
  rw [Function.iterate_succ_apply']
  exact key _ (hp n)

/-! ### Periodic boundary: large steps leave the range, the rest is a motion on the circle -/

/-- With a periodic boundary and noise, a walker is outside of the range with positive probability after every step. -/
theorem periodic_escape (kind : LdKind) (pot : Potential ℝ d) (hf : Measurable pot.force) (hbc : pot.bc = some .periodic)
    (dt friction kt m : ℝ) (hdt : 0 < dt) (hfr : 0 < friction) (hkt : 0 < kt) (hm : 0 < m) (k : Fin d) (r : ℝ × ℝ)
    (hr : pot.ranges[k.val]? = some r) (hle : r.1 ≤ r.2) (μ : Measure (Phase d)) [IsProbabilityMeasure μ] :
    0 < afterStep (stepMap kind pot dt friction kt m) μ {s | r.2 < s.1 k} ∧
      0 < afterStep (stepMap kind pot dt friction kt m) μ {s | s.1 k < r.1} := by
  have hT := measurable_stepMap kind pot hf dt friction kt m
  have hf' : Measurable (fun x => pot.force x k) := (measurable_pi_apply k).comp hf
  have hA1 : MeasurableSet {s : Phase d | r.2 < s.1 k} :=
    measurableSet_lt measurable_const ((measurable_pi_apply k).comp measurable_fst)
  have hA2 : MeasurableSet {s : Phase d | s.1 k < r.1} :=
    measurableSet_lt ((measurable_pi_apply k).comp measurable_fst) measurable_const
  have hg : pot.ranges.getD k (0, 0) = r := by simp [List.getD_eq_getElem?_getD, hr]
  have hb : ∀ s : Phase d, (r.2 + (r.2 - r.1) < s.1 k → r.2 < (boundary (some .periodic) pot.ranges s).1 k) ∧
      (s.1 k < r.1 - (r.2 - r.1) → (boundary (some .periodic) pot.ranges s).1 k < r.1) := by
    intro s
    unfold boundary boundary1
    simp only [hg]
    constructor
    · intro h
      rw [if_pos ⟨by linarith, by linarith⟩]
      dsimp only
      linarith
    · intro h
      rw [if_neg (by intro h'; linarith [h'.2]), if_pos (by linarith)]
      dsimp only
      linarith
  cases kind with
  | overdamped =>
    have hσ : 0 < Real.sqrt (2 * dt) := Real.sqrt_pos.2 (by linarith)
    have hg : Measurable (fun s : Phase d => s.1 k + pot.force s.1 k * dt) := by fun_prop
    refine ⟨afterStep_pos μ _ hT _ hA1 _ (exceed_pos μ k _ hg (r.2 + (r.2 - r.1)) _ hσ).1 fun z hz n2 => ?_,
      afterStep_pos μ _ hT _ hA2 _ (exceed_pos μ k _ hg (r.1 - (r.2 - r.1)) _ hσ).2 fun z hz n2 => ?_⟩
    · simp only [Set.mem_ofPred_eq, stepMap, eulerStep, hbc]
      exact (hb _).1 hz
    · simp only [Set.mem_ofPred_eq, stepMap, eulerStep, hbc]
      exact (hb _).2 hz
  | bussi =>
    have he : Real.exp (-(friction * dt)) < 1 := by
      rw [Real.exp_lt_one_iff]
      nlinarith [mul_pos hfr hdt]
    have hσ : 0 < dt * (Real.sqrt (m * kt * (1 - Real.exp (-(friction * dt)))) / m) :=
      mul_pos hdt (div_pos (Real.sqrt_pos.2 (mul_pos (mul_pos hm hkt) (by linarith))) hm)
    have hg : Measurable (fun s : Phase d => s.1 k + dt * ((Real.exp (-(friction * dt / 2)) * s.2 k + dt / 2 * pot.force s.1 k) / m)) := by
      fun_prop
    have e : ∀ z : Phase d × (Fin d → ℝ), z.1.1 k + dt * ((Real.exp (-(friction * dt / 2)) * z.1.2 k +
          Real.sqrt (m * kt * (1 - Real.exp (-(friction * dt)))) * z.2 k + dt / 2 * pot.force z.1.1 k) / m) =
        z.1.1 k + dt * ((Real.exp (-(friction * dt / 2)) * z.1.2 k + dt / 2 * pot.force z.1.1 k) / m) +
          dt * (Real.sqrt (m * kt * (1 - Real.exp (-(friction * dt)))) / m) * z.2 k := fun z => by ring
    refine ⟨afterStep_pos μ _ hT _ hA1 _ (exceed_pos μ k _ hg (r.2 + (r.2 - r.1)) _ hσ).1 fun z hz n2 => ?_,
      afterStep_pos μ _ hT _ hA2 _ (exceed_pos μ k _ hg (r.1 - (r.2 - r.1)) _ hσ).2 fun z hz n2 => ?_⟩
    · simp only [Set.mem_ofPred_eq, stepMap, bussiParrinelloStep, hbc]
      exact (hb _).1 (lt_of_lt_of_eq hz (e z).symm)
    · simp only [Set.mem_ofPred_eq, stepMap, bussiParrinelloStep, hbc]
      exact (hb _).2 (lt_of_eq_of_lt (e z) hz)

/-- Positions that differ by whole multiples of the lengths of the ranges, with the same momenta. -/
def SameOnTorus (ranges : List (ℝ × ℝ)) (s t : Phase d) : Prop :=
  s.2 = t.2 ∧ ∀ k : Fin d, ∃ z : ℤ, s.1 k = t.1 k + z * ((ranges.getD k (0, 0)).2 - (ranges.getD k (0, 0)).1)

theorem boundary_torus (ranges : List (ℝ × ℝ)) (s : Phase d) : SameOnTorus ranges (boundary (some .periodic) ranges s) s := by
  refine ⟨funext fun k => ?_, fun k => ?_⟩
  · unfold boundary boundary1
    dsimp only
    split_ifs <;> rfl
  · unfold boundary boundary1
    dsimp only
    split_ifs
    · exact ⟨-1, by push_cast; ring⟩
    · exact ⟨1, by push_cast; ring⟩
    · exact ⟨0, by simp⟩

theorem SameOnTorus.trans {ranges : List (ℝ × ℝ)} {s t u : Phase d} (h : SameOnTorus ranges s t) (h' : SameOnTorus ranges t u) :
    SameOnTorus ranges s u := by
  refine ⟨h.1.trans h'.1, fun k => ?_⟩
  obtain ⟨a, ha⟩ := h.2 k
  obtain ⟨b, hb⟩ := h'.2 k
  exact ⟨a + b, by rw [ha, hb]; push_cast; ring⟩

/-- A force with the periods of the ranges. -/
def PeriodicForce (ranges : List (ℝ × ℝ)) (f : (Fin d → ℝ) → Fin d → ℝ) : Prop :=
  ∀ s t : Phase d, SameOnTorus ranges s t → f s.1 = f t.1

theorem stepMap_torus (kind : LdKind) (pot : Potential ℝ d) (hbc : pot.bc = some .periodic)
    (hp : PeriodicForce pot.ranges pot.force) (dt friction kt m : ℝ) (n1 n2 : Fin d → ℝ) (s t : Phase d)
    (h : SameOnTorus pot.ranges s t) :
    SameOnTorus pot.ranges (stepMap kind pot dt friction kt m n1 n2 s)
      (stepMap kind { pot with bc := none } dt friction kt m n1 n2 t) := by
  have hnone : ∀ u : Phase d, boundary none pot.ranges u = u := fun u => rfl
  have hf := hp s t h
  cases kind with
  | overdamped =>
    unfold stepMap eulerStep
    simp only [hbc, hnone]
    refine (boundary_torus _ _).trans ⟨h.1, fun k => ?_⟩
    obtain ⟨z, hz⟩ := h.2 k
    exact ⟨z, by simp only [hz, hf]; ring⟩
  | bussi =>
    unfold stepMap bussiParrinelloStep
    simp only [hbc, hnone]
    have hs : SameOnTorus pot.ranges
        ((fun k => s.1 k + dt * ((Real.exp (-(friction * dt / 2)) * s.2 k +
            Real.sqrt (m * kt * (1 - Real.exp (-(friction * dt)))) * n1 k + dt / 2 * pot.force s.1 k) / m),
          fun k => Real.exp (-(friction * dt / 2)) * s.2 k +
            Real.sqrt (m * kt * (1 - Real.exp (-(friction * dt)))) * n1 k + dt / 2 * pot.force s.1 k) : Phase d)
        ((fun k => t.1 k + dt * ((Real.exp (-(friction * dt / 2)) * t.2 k +
            Real.sqrt (m * kt * (1 - Real.exp (-(friction * dt)))) * n1 k + dt / 2 * pot.force t.1 k) / m),
          fun k => Real.exp (-(friction * dt / 2)) * t.2 k +
            Real.sqrt (m * kt * (1 - Real.exp (-(friction * dt)))) * n1 k + dt / 2 * pot.force t.1 k) : Phase d) := by
      refine ⟨funext fun k => by simp only [h.1, hf], fun k => ?_⟩
      obtain ⟨z, hz⟩ := h.2 k
      exact ⟨z, by simp only [hz, hf, h.1]; ring⟩
    have hq := (boundary_torus pot.ranges _).trans hs
    have hf2 := hp _ _ hq
    refine ⟨funext fun k => ?_, hq.2⟩
    have h2 := congrFun hq.1 k
    dsimp only at hf2 h2 ⊢
    rw [hf2, h2]

/-- Path for a given sequence of random numbers. -/
noncomputable def pathOf (kind : LdKind) (pot : Potential ℝ d) (dt friction kt m : ℝ) (noise : List ((Fin d → ℝ) × (Fin d → ℝ)))
    (s : Phase d) : Phase d :=
  noise.foldl (fun s n => stepMap kind pot dt friction kt m n.1 n.2 s) s

/-- **C108** (periodic boundary). If the force has the periods of the ranges, a path with the boundary condition and the path
of the same walker without it agree up to whole periods after every number of steps, with the same momenta. -/
theorem periodic_path (kind : LdKind) (pot : Potential ℝ d) (hbc : pot.bc = some .periodic)
    (hp : PeriodicForce pot.ranges pot.force) (dt friction kt m : ℝ) (noise : List ((Fin d → ℝ) × (Fin d → ℝ))) (s : Phase d) :
    SameOnTorus pot.ranges (pathOf kind pot dt friction kt m noise s)
      (pathOf kind { pot with bc := none } dt friction kt m noise s) := by
  have : ∀ (noise : List ((Fin d → ℝ) × (Fin d → ℝ))) (s t : Phase d), SameOnTorus pot.ranges s t →
      SameOnTorus pot.ranges (pathOf kind pot dt friction kt m noise s)
        (pathOf kind { pot with bc := none } dt friction kt m noise t) := by
    intro noise
    induction noise with
    | nil => exact fun s t h => h
    | cons n l ih =>
      intro s t h
      exact ih _ _ (stepMap_torus kind pot hbc hp dt friction kt m n.1 n.2 s t h)
  exact this noise s s ⟨rfl, fun k => ⟨0, by simp⟩⟩

/-! ### Time reversal -/

/-- Reversal of the momenta. -/
def reversed (s : Phase d) : Phase d := (s.1, fun k => -s.2 k)

theorem boundary1_back (r : ℝ × ℝ) (x a p p' : ℝ) (h : r.1 < x ∧ x < r.2) :
    (boundary1 (some .periodic) r ((boundary1 (some .periodic) r (x + a) p).1 - a) p').1 = x := by
  have h0 := h.1.trans h.2
  by_cases h1 : r.2 < x + a
  · have e : boundary1 (some .periodic) r (x + a) p = (x + a - (r.2 - r.1), p) := by
      unfold boundary1
      exact if_pos ⟨h1, by linarith⟩
    rw [e]
    unfold boundary1
    dsimp only
    rw [if_neg (by intro h'; linarith [h'.1]), if_pos (by linarith [h.2])]
    dsimp only
    ring
  · by_cases h2 : x + a < r.1
    · have e : boundary1 (some .periodic) r (x + a) p = (x + a + (r.2 - r.1), p) := by
        unfold boundary1
        dsimp only
        rw [if_neg (fun h' => h1 h'.1), if_pos h2]
      rw [e]
      unfold boundary1
      dsimp only
      rw [if_pos ⟨by linarith [h.1], by linarith [h.1]⟩]
      dsimp only
      ring
    · have e : boundary1 (some .periodic) r (x + a) p = (x + a, p) := by
        unfold boundary1
        dsimp only
        rw [if_neg (fun h' => h1 h'.1), if_neg h2]
      rw [e]
      unfold boundary1
      dsimp only
      rw [if_neg (by intro h'; linarith [h'.1, h.2]), if_neg (by linarith [h.1])]
      dsimp only
      ring

/-- Position strictly inside of all ranges. -/
def StrictlyInside (ranges : List (ℝ × ℝ)) (s : Phase d) : Prop :=
  ∀ k : Fin d, (ranges.getD k (0, 0)).1 < s.1 k ∧ s.1 k < (ranges.getD k (0, 0)).2

theorem periodic_back (pot : Potential ℝ d) (hbc : pot.bc = some .periodic) (dt kt m : ℝ)
    (n1 n2 n1' n2' : Fin d → ℝ) (s : Phase d) (hs : StrictlyInside pot.ranges s) :
    reversed (stepMap .bussi pot dt 0 kt m n1' n2' (reversed (stepMap .bussi pot dt 0 kt m n1 n2 s))) = s := by
  have hT : ∀ (n1 n2 : Fin d → ℝ) (s : Phase d), stepMap .bussi pot dt 0 kt m n1 n2 s =
      ((boundary (some .periodic) pot.ranges (fun k => s.1 k + dt * ((s.2 k + dt / 2 * pot.force s.1 k) / m),
          fun k => s.2 k + dt / 2 * pot.force s.1 k)).1,
        fun k => s.2 k + dt / 2 * pot.force s.1 k + dt / 2 * pot.force (boundary (some .periodic) pot.ranges
          (fun k => s.1 k + dt * ((s.2 k + dt / 2 * pot.force s.1 k) / m), fun k => s.2 k + dt / 2 * pot.force s.1 k)).1 k) := by
    intro n1 n2 s
    unfold stepMap bussiParrinelloStep
    simp only [hbc, zero_mul, zero_div, neg_zero, Real.exp_zero, sub_self, mul_zero, Real.sqrt_zero, one_mul, add_zero]
    refine Prod.ext rfl (funext fun k => ?_)
    dsimp only
    rw [congrFun (boundary_torus pot.ranges _).1 k]
  rw [hT n1 n2 s]
  generalize hp : (fun k => s.2 k + dt / 2 * pot.force s.1 k) = p
  have hpk : ∀ k, s.2 k + dt / 2 * pot.force s.1 k = p k := fun k => congrFun hp k
  simp only [hpk]
  generalize hq : (boundary (some .periodic) pot.ranges (fun k => s.1 k + dt * (p k / m), p)).1 = q
  rw [hT]
  have hx : ∀ p'' : Fin d → ℝ, (boundary (some .periodic) pot.ranges
      (fun k => q k + dt * ((-(p k + dt / 2 * pot.force q k) + dt / 2 * pot.force q k) / m), p'')).1 = s.1 := by
    intro p''
    funext k
    have h := boundary1_back (pot.ranges.getD k (0, 0)) (s.1 k) (dt * (p k / m)) (p k) (p'' k) (hs k)
    refine Eq.trans ?_ h
    rw [← hq]
    unfold boundary
    dsimp only
    congr 2
    ring
  unfold reversed
  dsimp only
  rw [hx]
  refine Prod.ext rfl (funext fun k => ?_)
  dsimp only
  rw [← hpk k]
  ring

/-- **C108** (partial): without friction and with a periodic boundary, reversing the momenta leads back to the initial
state, along every path whose positions are strictly inside the ranges. Positions exactly at an edge are excluded. -/
theorem periodic_reversible_partial (pot : Potential ℝ d) (hbc : pot.bc = some .periodic) (dt kt m : ℝ)
    (noise noise' : List ((Fin d → ℝ) × (Fin d → ℝ))) (hl : noise.length = noise'.length) (s : Phase d)
    (hs : ∀ l, l <+: noise → l ≠ noise → StrictlyInside pot.ranges (pathOf .bussi pot dt 0 kt m l s)) :
    reversed (pathOf .bussi pot dt 0 kt m noise' (reversed (pathOf .bussi pot dt 0 kt m noise s))) = s := by
  induction noise using List.reverseRecOn generalizing noise' with
  | nil =>
    have : noise' = [] := List.length_eq_zero_iff.1 hl.symm
    subst this
    simp [pathOf, reversed]
  | append_singleton l n ih =>
    cases noise' with
    | nil => simp at hl
    | cons n' l' =>
      have h1 := hs l (List.prefix_append l [n]) (by simp)
      have h2 := periodic_back pot hbc dt kt m n.1 n.2 n'.1 n'.2 _ h1
      have h3 : stepMap .bussi pot dt 0 kt m n'.1 n'.2
          (reversed (stepMap .bussi pot dt 0 kt m n.1 n.2 (pathOf .bussi pot dt 0 kt m l s))) =
          reversed (pathOf .bussi pot dt 0 kt m l s) := by
        conv_rhs => rw [← h2]
        simp [reversed]
      have e1 : pathOf .bussi pot dt 0 kt m (l ++ [n]) s =
          stepMap .bussi pot dt 0 kt m n.1 n.2 (pathOf .bussi pot dt 0 kt m l s) := by
        simp [pathOf]
      have e2 : ∀ t, pathOf .bussi pot dt 0 kt m (n' :: l') t =
          pathOf .bussi pot dt 0 kt m l' (stepMap .bussi pot dt 0 kt m n'.1 n'.2 t) := fun t => rfl
      rw [e1, e2, h3]
      refine ih l' (by simpa using hl) fun l0 h0 hne => hs l0 (h0.trans (List.prefix_append l [n])) ?_
      intro he
      rw [he] at h0
      have := h0.length_le
      simp at this

/-! ### Examples -/

/-- No force between 0 and 1. -/
def freeBox (bc : Option BoundaryCondition) : Potential ℝ 1 := ⟨fun _ => 0, fun _ _ => 0, fun _ => (0, fun _ => 0), [(0, 1)], bc⟩

theorem freeBox_step (bc : BoundaryCondition) (x p : ℝ) :
    stepMap .bussi (freeBox (some bc)) 1 0 1 1 0 0 (fun _ => x, fun _ => p) =
      (fun _ => (boundary1 (some bc) (0, 1) (x + p) p).1, fun _ => (boundary1 (some bc) (0, 1) (x + p) p).2) := by
  unfold stepMap bussiParrinelloStep boundary freeBox
  simp

/-- **C108** (negation). With a reflective boundary the frictionless dynamics is not reversible, even from the middle of the
range: two different states end up in the same one. -/
theorem reflective_not_reversible :
    stepMap .bussi (freeBox (some .reflective)) 1 0 1 1 0 0 (fun _ => 1 / 2, fun _ => 1) =
      stepMap .bussi (freeBox (some .reflective)) 1 0 1 1 0 0 (fun _ => 3 / 4, fun _ => 1) ∧
    reversed (stepMap .bussi (freeBox (some .reflective)) 1 0 1 1 0 0
      (reversed (stepMap .bussi (freeBox (some .reflective)) 1 0 1 1 0 0 (fun _ => 1 / 2, fun _ => 1)))) =
      (fun _ => 1, fun _ => 1) := by
  have b1 : boundary1 (some .reflective) (0, 1) (1 / 2 + 1) 1 = (1, -1) := if_pos (by norm_num)
  have b2 : boundary1 (some .reflective) (0, 1) (3 / 4 + 1) 1 = (1, -1) := if_pos (by norm_num)
  have b3 : boundary1 (some .reflective) (0, 1) (1 + 1) 1 = (1, -1) := if_pos (by norm_num)
  refine ⟨by rw [freeBox_step, freeBox_step, b1, b2], ?_⟩
  rw [freeBox_step, b1]
  unfold reversed
  dsimp only
  rw [neg_neg, freeBox_step, b3]
  simp

/-- **C108** (negation). With a periodic boundary a walker that starts at one edge of the range comes back at the other. -/
theorem periodic_edge_not_reversible :
    reversed (stepMap .bussi (freeBox (some .periodic)) 1 0 1 1 0 0
      (reversed (stepMap .bussi (freeBox (some .periodic)) 1 0 1 1 0 0 (fun _ => 1, fun _ => 1 / 2)))) =
      (fun _ => 0, fun _ => 1 / 2) := by
  have b1 : boundary1 (some .periodic) (0, 1) (1 + 1 / 2) (1 / 2) = (1 / 2, 1 / 2) :=
    (if_pos (by norm_num)).trans (by norm_num)
  have b2 : boundary1 (some .periodic) (0, 1) (1 / 2 + -(1 / 2)) (-(1 / 2)) = (0, -(1 / 2)) := by
    unfold boundary1
    norm_num
  rw [freeBox_step, b1]
  unfold reversed
  dsimp only
  rw [freeBox_step, b2]
  simp

/-- The hypotheses are met by walkers without force: the distributions of a walker that starts in the middle. -/
example (kind : LdKind) (n : Nat) : ¬ (afterStep (stepMap kind (freeBox (some .reflective)) 0.01 10 1 1))^[n + 1]
    (Measure.dirac (fun _ => 1 / 2, fun _ => 0)) ≪ volume :=
  (reflective_no_density kind (freeBox (some .reflective)) measurable_const rfl 0.01 10 1 1 (by norm_num) (by norm_num) (by norm_num)
    (by norm_num) 0 (0, 1) rfl (by norm_num) _ n).1

example (kind : LdKind) : 0 < afterStep (stepMap kind (freeBox (some .periodic)) 0.01 10 1 1)
    (Measure.dirac (fun _ => 1 / 2, fun _ => 0)) {s | 1 < s.1 0} :=
  (periodic_escape kind (freeBox (some .periodic)) measurable_const rfl 0.01 10 1 1 (by norm_num) (by norm_num) (by norm_num)
    (by norm_num) 0 (0, 1) rfl (by norm_num) _).1

/-- A force with period 1 that is not constant. -/
noncomputable def waves : Potential ℝ 1 :=
  ⟨fun x => -Real.cos (2 * Real.pi * x 0), fun x _ => -(2 * Real.pi) * Real.sin (2 * Real.pi * x 0),
    fun x => (-Real.cos (2 * Real.pi * x 0), fun _ => -(2 * Real.pi) * Real.sin (2 * Real.pi * x 0)), [(0, 1)], some .periodic⟩

example (kind : LdKind) (noise : List ((Fin 1 → ℝ) × (Fin 1 → ℝ))) (s : Phase 1) :
    SameOnTorus waves.ranges (pathOf kind waves 0.01 10 1 1 noise s)
      (pathOf kind { waves with bc := none } 0.01 10 1 1 noise s) := by
  refine periodic_path kind waves rfl ?_ _ _ _ _ _ _
  intro s t h
  obtain ⟨z, hz⟩ := h.2 0
  funext k
  have hz' : s.1 0 = t.1 0 + z := by
    rw [hz]
    simp [waves]
  simp only [waves, hz']
  congr 1
  rw [show 2 * Real.pi * (t.1 0 + z) = 2 * Real.pi * t.1 0 + z * (2 * Real.pi) by ring, Real.sin_add_int_mul_two_pi]

/-- Two steps through the boundary and back. -/
example : reversed (pathOf .bussi (freeBox (some .periodic)) 1 0 1 1 [(0, 0), (0, 0)]
    (reversed (pathOf .bussi (freeBox (some .periodic)) 1 0 1 1 [(0, 0), (0, 0)] (fun _ => 1 / 2, fun _ => 3 / 4)))) =
    (fun _ => 1 / 2, fun _ => 3 / 4) := by
  refine periodic_reversible_partial (freeBox (some .periodic)) rfl 1 1 1 _ _ rfl _ fun l hl hne k => ?_
  have b1 : boundary1 (some .periodic) (0, 1) (1 / 2 + 3 / 4) (3 / 4) = (1 / 4, 3 / 4) :=
    (if_pos (by norm_num)).trans (by norm_num)
  have hk : k = 0 := Subsingleton.elim _ _
  subst hk
  have hr : (freeBox (some .periodic)).ranges.getD ((0 : Fin 1) : Nat) (0, 0) = (0, 1) := rfl
  rw [hr]
  match l, hl, hne with
  | [], _, _ => simp only [pathOf, List.foldl_nil]; norm_num
  | [a], hl, _ =>
    have : a = (0, 0) := by
      obtain ⟨t, ht⟩ := hl
      simp at ht
      exact ht.1
    subst this
    simp only [pathOf, List.foldl_cons, List.foldl_nil]
    rw [freeBox_step, b1]
    norm_num
  | [a, b], hl, hne =>
    exact absurd (hl.eq_of_length (by simp)) hne
  | a :: b :: c :: l, hl, _ =>
    have := hl.length_le
    simp at this

end Bdld
