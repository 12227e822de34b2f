import Verif.Props.Doeblin
import Verif.Props.LongRunDeltaF

/-
C157, part 2: runs of the program with overdamped walkers in a box with reflective boundary.
-/

namespace Bdld

open MeasureTheory ProbabilityTheory Filter Topology Spec
open scoped ENNReal

variable {d : Nat}

/-! ### The forces of the program are continuous -/

theorem horner_continuous {X : Type} [TopologicalSpace X] (n : Nat) (x : X → ℝ) (hx : Continuous x) (c : X → Nat → ℝ)
    (hc : ∀ i, Continuous (fun z => c z i)) : Continuous (fun z => horner n (x z) (c z)) := by
  unfold horner
  have h : ∀ (l : List Nat) (s : X → ℝ), Continuous s →
      Continuous (fun z => (l.map (fun i => c z (n - (i + 2)))).foldl (fun c0 ci => ci + c0 * x z) (s z)) := by
    intro l
    induction l with
    | nil => exact fun s hs => hs
    | cons i l ih => exact fun s hs => ih (fun z => c z (n - (i + 2)) + s z * x z) ((hc _).add (hs.mul hx))
  exact h _ _ (hc _)

theorem polyvalNd_continuous {X : Type} [TopologicalSpace X] : ∀ (d : Nat) (x : X → Fin d → ℝ) (_ : Continuous x) (shape : Fin d → Nat)
    (v : X → (Fin d → Nat) → ℝ) (_ : ∀ i, Continuous (fun z => v z i)), Continuous (fun z => polyvalNd d (x z) ⟨shape, v z⟩)
  | 0, _, _, _, _, hv => hv _
  | d + 1, x, hx, shape, v, hv => by
    unfold polyvalNd
    refine polyvalNd_continuous d (fun z => Fin.tail (x z)) (continuous_pi fun k => (continuous_apply k.succ).comp hx) (Fin.tail shape)
      (fun z idx => horner (shape 0) (x z 0) (fun i => v z (Fin.cons i idx))) fun idx => ?_
    exact horner_continuous _ _ ((continuous_apply 0).comp hx) _ fun i => hv _

theorem polyForce_continuous (a : NdArr d) : Continuous (polyForce a) :=
  continuous_pi fun k => (polyvalNd_continuous d id continuous_id (polyder a k).shape (fun _ => (polyder a k).val)
    fun _ => continuous_const).neg

theorem mueller_continuous (A : Fin 4 → ℝ) : Continuous (MB.force A) := by
  refine continuous_pi fun k => ?_
  fin_cases k
  · simp only [MB.force, MB.expTmp, List.finRange_succ, List.finRange_zero, List.map_cons, List.map_nil, List.foldl_cons, List.foldl_nil]
    simp only [Fin.zero_eta, Matrix.cons_val_zero]
    fun_prop
  · simp only [MB.force, MB.expTmp, List.finRange_succ, List.finRange_zero, List.map_cons, List.map_nil, List.foldl_cons, List.foldl_nil]
    simp only [Fin.mk_one, Matrix.cons_val_one]
    fun_prop

theorem newPolynomial_continuous (a : NdArr d) (r : Option (List (ℝ × ℝ))) (p : Potential ℝ d) (h : newPolynomial a r = .ok p) :
    Continuous p.force := by
  unfold newPolynomial at h
  split at h
  · cases h
  · split at h
    · cases h
    · cases h
      exact polyForce_continuous a

/-- The force of every potential that the program creates is continuous. -/
theorem setupPotential_continuous {R : Type} (w : World R) (o : Dict (OptVal ℝ)) (p : AnyPotential) (h : setupPotential w o = .ok p) :
    Continuous p.pot.force := by
  unfold setupPotential at h
  obtain ⟨v, _, h⟩ := bind_ok h
  obtain ⟨q, hq, h⟩ := bind_ok h
  obtain ⟨v2, _, h⟩ := bind_ok h
  obtain ⟨bc, _, h⟩ := bind_ok h
  cases h
  suffices hc : Continuous q.pot.force from hc
  split at hq
  · unfold setupPolynomial at hq
    obtain ⟨v3, _, hq⟩ := bind_ok hq
    split at hq
    · obtain ⟨r, _, hq⟩ := bind_ok hq
      obtain ⟨v4, _, hq⟩ := bind_ok hq
      split at hq
      · cases hq
      · obtain ⟨cs, _, hq⟩ := bind_ok hq
        obtain ⟨p', hp, hq⟩ := bind_ok hq
        cases hq
        exact newPolynomial_continuous _ _ _ hp
    · obtain ⟨r, _, hq⟩ := bind_ok hq
      obtain ⟨v4, _, hq⟩ := bind_ok hq
      obtain ⟨name, _, hq⟩ := bind_ok hq
      split at hq
      · cases hq
      · obtain ⟨rows, _, hq⟩ := bind_ok hq
        obtain ⟨a, _, hq⟩ := bind_ok hq
        obtain ⟨p', hp, hq⟩ := bind_ok hq
        cases hq
        exact newPolynomial_continuous _ _ _ hp
    · cases hq
  · obtain ⟨v3, _, hq⟩ := bind_ok hq
    obtain ⟨sc, _, hq⟩ := bind_ok hq
    cases hq
    exact mueller_continuous _
  · cases hq

/-- Continuous forces are bounded in the box. -/
theorem box_bounded {F : (Fin d → ℝ) → Fin d → ℝ} (hF : Continuous F) (lo hi : Fin d → ℝ) :
    ∃ B, ∀ x ∈ Set.Icc lo hi, ∀ k, |F x k| ≤ B := by
  obtain ⟨B, hB⟩ := (isCompact_Icc (a := lo) (b := hi)).exists_bound_of_continuousOn hF.continuousOn
  exact ⟨B, fun x hx k => by
    rw [← Real.norm_eq_abs]
    exact (norm_le_pi_norm _ k).trans (hB x hx)⟩

/-! ### The distribution at which the walkers settle -/

/-- The distribution of the walkers after a step is the same as before it. -/
structure Spec.StationaryInBox (pot : Potential ℝ d) (dt : ℝ) (lo hi : Fin d → ℝ) (π : Measure (Fin d → ℝ)) : Prop where
  prob : IsProbabilityMeasure π
  stationary : afterMove (eulerMove pot dt) π = π
  inside : π (Set.Icc lo hi) = 1

/-- C157: a region that covers a part of the box is occupied. -/
theorem box_positive {pot : Potential ℝ d} {lo hi : Fin d → ℝ} (h : ReflectiveBox pot lo hi) (hF : Continuous pot.force) {dt : ℝ}
    (hdt : 0 < dt) {π : Measure (Fin d → ℝ)} (hπ : StationaryInBox pot dt lo hi π) {A : Set (Fin d → ℝ)} (hA : MeasurableSet A)
    (hv : volume (A ∩ Set.Icc lo hi) ≠ 0) : 0 < π.real A := by
  have := hπ.prob
  obtain ⟨B, hB⟩ := box_bounded hF lo hi
  obtain ⟨q, q0, q1, hq⟩ := box_common h hF.measurable hdt hB
  have hM := measurable_eulerMove pot hF.measurable dt
  have h1 : π A = ∫⁻ x, nextPosition (eulerMove pot dt) x A ∂π := by
    conv_lhs => rw [← hπ.stationary]
    unfold afterMove
    rw [Measure.map_apply hM hA, Measure.prod_apply (hM hA)]
    refine lintegral_congr fun x => ?_
    unfold nextPosition
    rw [Measure.map_apply (measurable_from hM x) hA]
    rfl
  have h2 : q * volume (A ∩ Set.Icc lo hi) ≤ π A := by
    calc q * volume (A ∩ Set.Icc lo hi) = ∫⁻ _ in Set.Icc lo hi, q * volume (A ∩ Set.Icc lo hi) ∂π := by
          rw [lintegral_const, Measure.restrict_apply_univ, hπ.inside, mul_one]
      _ ≤ ∫⁻ x in Set.Icc lo hi, nextPosition (eulerMove pot dt) x A ∂π := by
          refine setLIntegral_mono' measurableSet_Icc fun x hx => ?_
          have := hq x hx A
          rwa [Measure.smul_apply, Measure.restrict_apply hA, smul_eq_mul] at this
      _ ≤ ∫⁻ x, nextPosition (eulerMove pot dt) x A ∂π := setLIntegral_le_lintegral _ _
      _ = π A := h1.symm
  refine lt_of_le_of_ne measureReal_nonneg (Ne.symm ?_)
  rw [ne_eq, measureReal_eq_zero_iff]
  intro h0
  rw [h0, nonpos_iff_eq_zero, mul_eq_zero] at h2
  exact h2.elim q0 hv

/-- **C157.** Overdamped walkers in a box with reflective boundary, in a potential with continuous force: there is exactly one
stationary distribution, and from every start the distribution of the positions approaches it geometrically. -/
theorem box_converges {pot : Potential ℝ d} {lo hi : Fin d → ℝ} (h : ReflectiveBox pot lo hi) (hF : Continuous pot.force) {dt : ℝ}
    (hdt : 0 < dt) : ∃ π : Measure (Fin d → ℝ), StationaryInBox pot dt lo hi π ∧
      (∀ ν : Measure (Fin d → ℝ), IsProbabilityMeasure ν → afterMove (eulerMove pot dt) ν = ν → ν = π) ∧
      ∃ r : ℝ, 0 ≤ r ∧ r < 1 ∧ ∀ (friction kt m : ℝ) (μ : Measure (Phase d)), IsProbabilityMeasure μ → ∀ n A, MeasurableSet A →
        |((afterStep (stepMap .overdamped pot dt friction kt m))^[n + 1] μ).real (Prod.fst ⁻¹' A) - π.real A| ≤ r ^ n := by
  obtain ⟨B, hB⟩ := box_bounded hF lo hi
  obtain ⟨π, p1, p2, p3, p4, r, r0, r1, hr⟩ := box_stationary h hF.measurable hdt hB
  refine ⟨π, ⟨p1, p2, p3⟩, p4, r, r0, r1, fun friction kt m μ hμ n A hA => ?_⟩
  have hprob : IsProbabilityMeasure (μ.map Prod.fst) := Measure.isProbabilityMeasure_map measurable_fst.aemeasurable
  have := hr (μ.map Prod.fst) hprob n A hA
  rwa [← eulerMove_iterate pot hF.measurable dt friction kt m μ, map_measureReal_apply measurable_fst hA] at this

theorem settles_box {pot : Potential ℝ d} {lo hi : Fin d → ℝ} (h : ReflectiveBox pot lo hi) (hF : Continuous pot.force) {dt : ℝ}
    (hdt : 0 < dt) {π : Measure (Fin d → ℝ)} (hπ : StationaryInBox pot dt lo hi π) (friction kt m : ℝ) {A : Set (Fin d → ℝ)}
    (hA : MeasurableSet A) (z : Phase d) : Settles (stepMap .overdamped pot dt friction kt m) A (π.real A) z := by
  obtain ⟨π', _, hu, r, r0, r1, hr⟩ := box_converges h hF hdt
  obtain rfl := hu π hπ.prob hπ.stationary
  unfold Settles
  rw [← tendsto_add_atTop_iff_nat 1, tendsto_iff_dist_tendsto_zero]
  refine squeeze_zero (fun _ => dist_nonneg) (fun n => ?_) (tendsto_pow_atTop_nhds_zero_of_lt_one r0 r1)
  rw [Real.dist_eq]
  exact hr friction kt m _ inferInstance n A hA

/-! ### Walkers on the walls -/

theorem eulerMove_wall {pot : Potential ℝ d} {lo hi : Fin d → ℝ} (h : ReflectiveBox pot lo hi) (dt : ℝ) (noise x : Fin d → ℝ) (k : Fin d)
    (hy : hi k < x k + pot.force x k * dt + Real.sqrt (2 * dt) * noise k) : eulerMove pot dt noise x k = hi k := by
  have e : eulerMove pot dt noise x k = (boundary1 (some .reflective) (lo k, hi k)
      (x k + pot.force x k * dt + Real.sqrt (2 * dt) * noise k) 0).1 := by
    simp only [eulerMove, eulerStep, boundary, h.reflective, h.ranges k]
    rfl
  rw [e]
  unfold boundary1
  have := h.lt k
  dsimp only
  rw [if_pos ⟨hy, by linarith⟩]

theorem eulerMove_wall' {pot : Potential ℝ d} {lo hi : Fin d → ℝ} (h : ReflectiveBox pot lo hi) (dt : ℝ) (noise x : Fin d → ℝ) (k : Fin d)
    (hy : x k + pot.force x k * dt + Real.sqrt (2 * dt) * noise k < lo k) : eulerMove pot dt noise x k = lo k := by
  have e : eulerMove pot dt noise x k = (boundary1 (some .reflective) (lo k, hi k)
      (x k + pot.force x k * dt + Real.sqrt (2 * dt) * noise k) 0).1 := by
    simp only [eulerMove, eulerStep, boundary, h.reflective, h.ranges k]
    rfl
  rw [e]
  unfold boundary1
  have := h.lt k
  dsimp only
  rw [if_neg (by rintro ⟨h1, h2⟩; linarith), if_pos hy]

/-- Every open set of random numbers has positive probability. -/
theorem standard_open {U : Set (Fin d → ℝ)} (hU : IsOpen U) (hne : U.Nonempty) : standard d U ≠ 0 := by
  have e : standard d = normals (fun _ => 0) (fun _ => 1) := by
    unfold standard normals
    simp
  rw [e, ne_eq, normals_null _ _ (fun _ => one_pos)]
  exact (hU.measure_pos volume hne).ne'

theorem stationary_reaches {pot : Potential ℝ d} (hF : Continuous pot.force) {dt : ℝ} {π : Measure (Fin d → ℝ)}
    (hp : IsProbabilityMeasure π) (hs : afterMove (eulerMove pot dt) π = π) {A : Set (Fin d → ℝ)} (hA : MeasurableSet A)
    (h : ∀ x, ∃ U : Set (Fin d → ℝ), IsOpen U ∧ U.Nonempty ∧ ∀ noise ∈ U, eulerMove pot dt noise x ∈ A) : 0 < π.real A := by
  have hM := measurable_eulerMove pot hF.measurable dt
  have h1 : π A = ∫⁻ x, standard d (Prod.mk x ⁻¹' ((fun z : (Fin d → ℝ) × (Fin d → ℝ) => eulerMove pot dt z.2 z.1) ⁻¹' A)) ∂π := by
    conv_lhs => rw [← hs]
    unfold afterMove
    rw [Measure.map_apply hM hA, Measure.prod_apply (hM hA)]
  refine lt_of_le_of_ne measureReal_nonneg (Ne.symm ?_)
  rw [ne_eq, measureReal_eq_zero_iff, h1, lintegral_eq_zero_iff (measurable_measure_prodMk_left (hM hA))]
  intro h0
  obtain ⟨x, hx⟩ := h0.exists
  obtain ⟨U, u1, u2, u3⟩ := h x
  refine standard_open u1 u2 (measure_mono_null (fun noise hn => ?_) hx)
  exact u3 noise hn

/-- **C157.** A part of the walkers is exactly on the walls: both ends of the range of every coordinate are occupied. -/
theorem box_walls {pot : Potential ℝ d} {lo hi : Fin d → ℝ} (h : ReflectiveBox pot lo hi) (hF : Continuous pot.force) {dt : ℝ}
    (hdt : 0 < dt) {π : Measure (Fin d → ℝ)} (hπ : StationaryInBox pot dt lo hi π) (k : Fin d) :
    0 < π.real {x | x k = lo k} ∧ 0 < π.real {x | x k = hi k} := by
  have hσ : 0 < Real.sqrt (2 * dt) := Real.sqrt_pos.2 (by linarith)
  have hm : ∀ c : ℝ, MeasurableSet {x : Fin d → ℝ | x k = c} := fun c => measurableSet_eq_fun (measurable_pi_apply k) measurable_const
  refine ⟨stationary_reaches hF hπ.prob hπ.stationary (hm _) fun x => ?_, stationary_reaches hF hπ.prob hπ.stationary (hm _) fun x => ?_⟩
  · refine ⟨{noise | x k + pot.force x k * dt + Real.sqrt (2 * dt) * noise k < lo k}, isOpen_lt (by fun_prop) continuous_const,
      ⟨fun _ => (lo k - 1 - (x k + pot.force x k * dt)) / Real.sqrt (2 * dt), ?_⟩, fun noise hn => eulerMove_wall' h dt noise x k hn⟩
    rw [Set.mem_ofPred_eq, mul_div_cancel₀ _ hσ.ne']
    linarith
  · refine ⟨{noise | hi k < x k + pot.force x k * dt + Real.sqrt (2 * dt) * noise k}, isOpen_lt continuous_const (by fun_prop),
      ⟨fun _ => (hi k + 1 - (x k + pot.force x k * dt)) / Real.sqrt (2 * dt), ?_⟩, fun noise hn => eulerMove_wall h dt noise x k hn⟩
    rw [Set.mem_ofPred_eq, mul_div_cancel₀ _ hσ.ne']
    linarith

/-- **C157.** So the distribution at which the walkers settle is never the canonical distribution in the box, nor any other
distribution with a density, with every time step. -/
theorem box_no_density {pot : Potential ℝ d} {lo hi : Fin d → ℝ} (h : ReflectiveBox pot lo hi) (hF : Continuous pot.force) {dt : ℝ}
    (hdt : 0 < dt) {π : Measure (Fin d → ℝ)} (hπ : StationaryInBox pot dt lo hi π) (k : Fin d) (f : (Fin d → ℝ) → ℝ≥0∞) :
    π ≠ volume.withDensity f := by
  intro e
  have h1 := (box_walls h hF hdt hπ k).1
  have h2 : volume {x : Fin d → ℝ | x k = lo k} = 0 :=
    Measure.pi_hyperplane (fun _ : Fin d => (volume : Measure ℝ)) k (lo k)
  have h3 := withDensity_absolutelyContinuous volume f h2
  rw [← e] at h3
  rw [measureReal_def, h3] at h1
  simp at h1

theorem box_not_canonical {pot : Potential ℝ d} {lo hi : Fin d → ℝ} (h : ReflectiveBox pot lo hi) (hF : Continuous pot.force) {dt : ℝ}
    (hdt : 0 < dt) {π : Measure (Fin d → ℝ)} (hπ : StationaryInBox pot dt lo hi π) (k : Fin d) (kt : ℝ) :
    π ≠ canonicalIn pot.energy kt (Set.Icc lo hi) := by
  intro e
  have h1 := (box_walls h hF hdt hπ k).1
  have h2 : volume {x : Fin d → ℝ | x k = lo k} = 0 :=
    Measure.pi_hyperplane (fun _ : Fin d => (volume : Measure ℝ)) k (lo k)
  have h3 : (volume.restrict (Set.Icc lo hi)).withDensity (weight pot.energy kt) {x : Fin d → ℝ | x k = lo k} = 0 :=
    withDensity_absolutelyContinuous _ _ (Measure.restrict_le_self.absolutelyContinuous h2)
  rw [e, measureReal_def, canonicalIn, Measure.smul_apply, h3] at h1
  simp at h1

/-! ### Runs of the program -/

/-- The potential that the program creates from the options, with reflective boundary in the box. -/
structure BoxPotential (o : Dict (OptVal ℝ)) (pot : Potential ℝ d) (lo hi : Fin d → ℝ) : Prop where
  setup : ∃ (R : Type) (w : World R), setupPotential w o = .ok ⟨d, pot⟩
  valid : ValidPotential o
  reflective : StrOpt o "boundary-condition" "reflective"
  ranges : ∀ k : Fin d, pot.ranges.getD k (0, 0) = (lo k, hi k)
  lt : ∀ k, lo k < hi k

theorem BoxPotential.box {o : Dict (OptVal ℝ)} {pot : Potential ℝ d} {lo hi : Fin d → ℝ} (h : BoxPotential o pot lo hi) :
    ReflectiveBox pot lo hi ∧ Continuous pot.force := by
  obtain ⟨R, w, hw⟩ := h.setup
  exact ⟨⟨(setupPotential_facts w o h.valid _ hw).reflective.2 h.reflective, h.ranges, h.lt⟩, setupPotential_continuous w o _ hw⟩

section
variable {o : Dict (OptVal ℝ)} {pot : Potential ℝ d} {lo hi : Fin d → ℝ} {S : Finset (Phase d)} {bins : List (List ℝ)} {file : Bool} {s W : ℕ}

/-- **C157.** The histogram of long overdamped runs in a box: all bins are near to the probabilities of the stationary distribution,
whatever the potential and wherever the walkers start. -/
theorem main_box_histogram (hp : BoxPotential o pot lo hi) {dt mass : ℝ} (hdt : 0 < dt) {π : Measure (Fin d → ℝ)}
    (hπ : StationaryInBox pot dt lo hi π) (hs : 0 < s) (hW : 0 < W) (hfile : file = true ∨ s ≤ W) {ε δ : ℝ} (hε : 0 < ε) (hδ : 0 < δ) :
    ∃ n0 N0 : ℕ, ∀ {Ω R : Type} [MeasurableSpace Ω] (P : Measure Ω) (w : Ω → World R) (inp : Option (List Section))
      (cfg : Ω → SimCfg d) (sim s0 : Ω → Sim d R) (config : Input ℝ) (n : ℕ) (starts : List (Phase d)),
      CountingRuns P w inp cfg sim s0 config n pot mass starts (dynamicsOf config.ld pot mass) S bins file s W →
      OverdampedOptions config dt → n0 ≤ n → N0 ≤ starts.length →
      P {ω | ¬ ∃ H, (sim ω).hist = some H ∧ H.bins = bins ∧ ∀ idx ∈ indices (bins.map (fun e => e.length - 1)),
        |(H.data idx : ℝ) / (starts.length * (countedSteps file s W n).length : ℕ) - π.real (binRegion bins idx)| < ε} ≤
        ENNReal.ofReal δ := by
  obtain ⟨hbox, hF⟩ := hp.box
  obtain ⟨n0, N0, h⟩ := main_long_histogram (measurable_stepMap .overdamped pot hF.measurable dt 0 0 0)
    (S := S) (bins := bins) (p := fun idx => π.real (binRegion bins idx)) (indices (bins.map (fun e => e.length - 1)))
    (fun idx _ z _ => settles_box hbox hF hdt hπ 0 0 0 (binRegion_measurable bins idx) z) hs hW hfile hε hδ
  exact ⟨n0, N0, fun P w inp cfg sim s0 config n starts hrun hl hn hN =>
    h P w inp cfg sim s0 config n pot mass starts
      ⟨hrun.random, by rw [stepKind_overdamped hl]; rfl, hrun.inside, hrun.trajectories, hrun.histogram⟩ hn hN⟩

theorem overdamped_kt {Ω R : Type} {w : Ω → World R} {inp : Option (List Section)} {cfg : Ω → SimCfg d} {sim s0 : Ω → Sim d R}
    {config : Input ℝ} {n : ℕ} {dt : ℝ} (hr : ∀ ω, FinishedRun (w ω) inp ⟨d, cfg ω, sim ω⟩ config n (s0 ω)) (hl : OverdampedOptions config dt)
    (ω : Ω) : (cfg ω).ld.kt = 1 := by
  obtain ⟨dt', k1, _, k5⟩ := (main_constants (hr ω)).1 hl.type
  simp only at k5
  rw [k5]
  rfl

/-- **C157.** The free energies at the end of these runs: the difference of two bins that cover a part of the box is near to the
difference of the logarithms of their probabilities in the stationary distribution. -/
theorem main_box_fes (hp : BoxPotential o pot lo hi) {dt mass : ℝ} (hdt : 0 < dt) {π : Measure (Fin d → ℝ)}
    (hπ : StationaryInBox pot dt lo hi π) (hs : 0 < s) (hW : 0 < W) (hfile : file = true ∨ s ≤ W)
    {i j : ℕ} {idx jdx : List Nat} (hi' : (indices (bins.map (fun e => e.length - 1)))[i]? = some idx)
    (hj' : (indices (bins.map (fun e => e.length - 1)))[j]? = some jdx) (hvi : volume (binRegion bins idx ∩ Set.Icc lo hi) ≠ 0)
    (hvj : volume (binRegion bins jdx ∩ Set.Icc lo hi) ≠ 0) {ε δ : ℝ} (hε : 0 < ε) (hδ : 0 < δ) :
    ∃ n0 N0 : ℕ, ∀ {Ω R : Type} [MeasurableSpace Ω] (P : Measure Ω) (w : Ω → World R) (inp : Option (List Section))
      (cfg : Ω → SimCfg d) (sim s0 : Ω → Sim d R) (config : Input ℝ) (n : ℕ) (starts : List (Phase d)),
      CountingRuns P w inp cfg sim s0 config n pot mass starts (dynamicsOf config.ld pot mass) S bins file s W →
      OverdampedOptions config dt → config.fes ≠ none → n0 ≤ n → N0 ≤ starts.length →
      P {ω | ¬ ∃ fes, (sim ω).fes = some fes ∧ ∃ f g : ℝ, fes.flat[i]? = some (f : WithTop ℝ) ∧ fes.flat[j]? = some (g : WithTop ℝ) ∧
        |(f - g) - Real.log (π.real (binRegion bins jdx) / π.real (binRegion bins idx))| < ε} ≤ ENNReal.ofReal δ := by
  obtain ⟨hbox, hF⟩ := hp.box
  obtain ⟨n0, N0, h⟩ := main_long_fes (measurable_stepMap .overdamped pot hF.measurable dt 0 0 0)
    (S := S) (bins := bins) (p := fun idx => π.real (binRegion bins idx)) hi' hj'
    (box_positive hbox hF hdt hπ (binRegion_measurable bins idx) hvi) (box_positive hbox hF hdt hπ (binRegion_measurable bins jdx) hvj)
    (fun idx _ z _ => settles_box hbox hF hdt hπ 0 0 0 (binRegion_measurable bins idx) z) hs hW hfile 1 hε hδ
  refine ⟨n0, N0, fun P w inp cfg sim s0 config n starts hrun hl hfes hn hN => ?_⟩
  have := h P w inp cfg sim s0 config n pot mass starts
      ⟨hrun.random, by rw [stepKind_overdamped hl]; rfl, hrun.inside, hrun.trajectories, hrun.histogram⟩ hfes
      (overdamped_kt hrun.random.run hl) hn hN
  simpa only [one_mul] using this

/-- **C157.** The free energy differences at the end of these runs. -/
theorem main_box_deltaF (hp : BoxPotential o pot lo hi) {dt mass : ℝ} (hdt : 0 < dt) {π : Measure (Fin d → ℝ)}
    (hπ : StationaryInBox pot dt lo hi π) (hs : 0 < s) (hW : 0 < W) (hfile : file = true ∨ s ≤ W)
    {states : List (List (ℝ × ℝ))} (hone : ∀ z ∈ states, z.length = 1)
    (hpos : ∀ z ∈ states, 0 < stateShare bins (fun idx => π.real (binRegion bins idx)) z) {ε δ : ℝ} (hε : 0 < ε) (hδ : 0 < δ) :
    ∃ n0 N0 : ℕ, ∀ {Ω R : Type} [MeasurableSpace Ω] (P : Measure Ω) (w : Ω → World R) (inp : Option (List Section))
      (cfg : Ω → SimCfg d) (sim s0 : Ω → Sim d R) (config : Input ℝ) (n : ℕ) (starts : List (Phase d)) (o' : Dict (OptVal ℝ)),
      CountingRuns P w inp cfg sim s0 config n pot mass starts (dynamicsOf config.ld pot mass) S bins file s W →
      OverdampedOptions config dt → config.fes ≠ none → config.deltaF = some o' → stateRanges o' = .ok states →
      seriesStride o' = 0 → hasFilename o' = true → n0 ≤ n → N0 ≤ starts.length →
      P {ω | ¬ ∃ x, (sim ω).deltaF = some x ∧ LastRowNear x (n * (cfg ω).ld.dt) 1 ε
        (stateShare bins fun idx => π.real (binRegion bins idx)) states} ≤ ENNReal.ofReal δ := by
  obtain ⟨hbox, hF⟩ := hp.box
  obtain ⟨n0, N0, h⟩ := main_long_deltaF (measurable_stepMap .overdamped pot hF.measurable dt 0 0 0)
    (S := S) (bins := bins) (p := fun idx => π.real (binRegion bins idx))
    (fun idx _ z _ => settles_box hbox hF hdt hπ 0 0 0 (binRegion_measurable bins idx) z) hone hpos hs hW hfile 1 hε hδ
  exact ⟨n0, N0, fun P w inp cfg sim s0 config n starts o' hrun hl hfes ho hst hstr hfn hn hN =>
    h P w inp cfg sim s0 config n pot mass starts o'
      ⟨hrun.random, by rw [stepKind_overdamped hl]; rfl, hrun.inside, hrun.trajectories, hrun.histogram⟩ hfes ho hst hstr hfn
      (overdamped_kt hrun.random.run hl) hn hN⟩

end

end Bdld
