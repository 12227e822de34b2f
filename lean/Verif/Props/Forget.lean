import Verif.Spec.Forget
import Verif.Props.BoundaryDistribution
import Mathlib.MeasureTheory.Measure.Portmanteau

/-
C133: walkers forget where they started. General part: steps that bring any two walkers closer together if both are moved
with the same random numbers.
-/

namespace Bdld

open Spec MeasureTheory ProbabilityTheory Filter Topology

variable {d : Nat}

theorem moved_contracts {T : (Fin d → ℝ) → (Fin d → ℝ) → Phase d → Phase d} {S : Set (Phase d)} {D : Phase d → Phase d → ℝ} {ρ : ℝ}
    (hρ : 0 ≤ ρ) (h : Contracts T S D ρ) (noise : Nat → Nat → Fin d → ℝ) (n : Nat) (s : Phase d) (hs : s ∈ S) :
    moved T noise n s ∈ S ∧ ∀ t ∈ S, D (moved T noise n s) (moved T noise n t) ≤ ρ ^ n * D s t := by
  induction n generalizing s with
  | zero => exact ⟨hs, fun t _ => by simp [moved]⟩
  | succ n ih =>
    refine ⟨(h _ _ _ (ih s hs).1).1, fun t ht => ?_⟩
    have h1 := (h (noise n 0) (noise n 1) _ (ih s hs).1).2 _ (ih t ht).1
    have h2 := mul_le_mul_of_nonneg_left ((ih s hs).2 t ht) hρ
    simp only [moved]
    rw [pow_succ]
    calc _ ≤ _ := h1
      _ ≤ _ := h2
      _ = _ := by ring

theorem meanAfter_measurable {T : (Fin d → ℝ) → (Fin d → ℝ) → Phase d → Phase d}
    (hT : Measurable (fun z : (Phase d × (Fin d → ℝ)) × (Fin d → ℝ) => T z.1.2 z.2 z.1.1)) {f : Phase d → ℝ} (hf : Measurable f) :
    Measurable (meanAfter T f) := by
  unfold meanAfter
  have h1 : StronglyMeasurable (fun z : (Phase d × (Fin d → ℝ)) × (Fin d → ℝ) => f (T z.1.2 z.2 z.1.1)) :=
    (hf.comp hT).stronglyMeasurable
  have h2 : StronglyMeasurable (fun z : Phase d × (Fin d → ℝ) => ∫ n2, f (T z.2 n2 z.1) ∂(standard d)) := h1.integral_prod_right'
  exact h2.integral_prod_right'.measurable

theorem integral_bounded {X : Type} [MeasurableSpace X] (μ : Measure X) [IsProbabilityMeasure μ] {f : X → ℝ} {B : ℝ}
    (hB : ∀ s, |f s| ≤ B) : |∫ x, f x ∂μ| ≤ B := by
  have h := norm_integral_le_of_norm_le_const (μ := μ) (f := f) (C := B) (.of_forall hB)
  simpa using h

theorem meanAfter_bounded {T : (Fin d → ℝ) → (Fin d → ℝ) → Phase d → Phase d} {f : Phase d → ℝ} {B : ℝ} (hB : ∀ s, |f s| ≤ B)
    (s : Phase d) : |meanAfter T f s| ≤ B := by
  unfold meanAfter
  exact integral_bounded _ fun n1 => integral_bounded _ fun n2 => hB _

theorem bounded_integrable {X : Type} [MeasurableSpace X] (μ : Measure X) [IsFiniteMeasure μ] {f : X → ℝ} (hf : Measurable f) {B : ℝ}
    (hB : ∀ s, |f s| ≤ B) : Integrable f μ :=
  (integrable_const B).mono' hf.aestronglyMeasurable (.of_forall hB)

theorem meanAfter_afterStep {T : (Fin d → ℝ) → (Fin d → ℝ) → Phase d → Phase d}
    (hT : Measurable (fun z : (Phase d × (Fin d → ℝ)) × (Fin d → ℝ) => T z.1.2 z.2 z.1.1)) {f : Phase d → ℝ} (hf : Measurable f)
    {B : ℝ} (hB : ∀ s, |f s| ≤ B) (μ : Measure (Phase d)) [IsProbabilityMeasure μ] :
    ∫ s, f s ∂(afterStep T μ) = ∫ s, meanAfter T f s ∂μ := by
  unfold afterStep meanAfter
  have i0 : Integrable (fun z : (Phase d × (Fin d → ℝ)) × (Fin d → ℝ) => f (T z.1.2 z.2 z.1.1))
      ((μ.prod (standard d)).prod (standard d)) := bounded_integrable _ (hf.comp hT) fun _ => hB _
  rw [integral_map hT.aemeasurable hf.aestronglyMeasurable, integral_prod _ i0]
  have h1 : StronglyMeasurable (fun z : (Phase d × (Fin d → ℝ)) × (Fin d → ℝ) => f (T z.1.2 z.2 z.1.1)) :=
    (hf.comp hT).stronglyMeasurable
  have h2 : Measurable (fun z : Phase d × (Fin d → ℝ) => ∫ n2, f (T z.2 n2 z.1) ∂(standard d)) :=
    h1.integral_prod_right'.measurable
  rw [integral_prod _ (bounded_integrable _ h2 fun z =>
    integral_bounded _ fun n2 => hB _)]

theorem meanAfter_close {T : (Fin d → ℝ) → (Fin d → ℝ) → Phase d → Phase d}
    (hT : Measurable (fun z : (Phase d × (Fin d → ℝ)) × (Fin d → ℝ) => T z.1.2 z.2 z.1.1)) {S : Set (Phase d)}
    {D : Phase d → Phase d → ℝ} {ρ L B : ℝ} (h : Contracts T S D ρ) {f : Phase d → ℝ} (hf : Measurable f) (hB : ∀ s, |f s| ≤ B)
    (hL0 : 0 ≤ L) (hL : ∀ s ∈ S, ∀ t ∈ S, |f s - f t| ≤ L * D s t) :
    ∀ s ∈ S, ∀ t ∈ S, |meanAfter T f s - meanAfter T f t| ≤ L * ρ * D s t := by
  intro s hs t ht
  have m1 : ∀ u : Phase d, Measurable (fun z : (Fin d → ℝ) × (Fin d → ℝ) => f (T z.1 z.2 u)) := fun u =>
    (hf.comp hT).comp ((measurable_const.prodMk measurable_fst).prodMk measurable_snd)
  have m2 : ∀ u : Phase d, Measurable (fun n1 => ∫ n2, f (T n1 n2 u) ∂(standard d)) := fun u =>
    (m1 u).stronglyMeasurable.integral_prod_right'.measurable
  have b2 : ∀ u n1, |∫ n2, f (T n1 n2 u) ∂(standard d)| ≤ B := fun u n1 =>
    integral_bounded _ fun n2 => hB _
  have i1 : ∀ u n1, Integrable (fun n2 => f (T n1 n2 u)) (standard d) := fun u n1 =>
    bounded_integrable _ ((m1 u).comp (measurable_const.prodMk measurable_id)) fun _ => hB _
  unfold meanAfter
  rw [← integral_sub (bounded_integrable _ (m2 s) (b2 s)) (bounded_integrable _ (m2 t) (b2 t))]
  have h2 : ∀ n1, |∫ n2, f (T n1 n2 s) ∂(standard d) - ∫ n2, f (T n1 n2 t) ∂(standard d)| ≤ L * ρ * D s t := by
    intro n1
    rw [← integral_sub (i1 s n1) (i1 t n1)]
    refine integral_bounded _ fun n2 => ?_
    have h3 := hL _ (h n1 n2 s hs).1 _ (h n1 n2 t ht).1
    have h4 := mul_le_mul_of_nonneg_left ((h n1 n2 s hs).2 t ht) hL0
    calc _ ≤ _ := h3
      _ ≤ _ := h4
      _ = _ := by ring
  exact integral_bounded _ h2

theorem afterStep_iterate_probability {T : (Fin d → ℝ) → (Fin d → ℝ) → Phase d → Phase d}
    (hT : Measurable (fun z : (Phase d × (Fin d → ℝ)) × (Fin d → ℝ) => T z.1.2 z.2 z.1.1)) (μ : Measure (Phase d))
    [IsProbabilityMeasure μ] (n : ℕ) : IsProbabilityMeasure ((afterStep T)^[n] μ) := by
  induction n with
  | zero => assumption
  | succ n ih =>
    rw [Function.iterate_succ_apply']
    have := ih
    exact afterStep_probability _ T hT

/-- Means after `n` steps, with functions of the state before. -/
theorem mean_iterate {T : (Fin d → ℝ) → (Fin d → ℝ) → Phase d → Phase d}
    (hT : Measurable (fun z : (Phase d × (Fin d → ℝ)) × (Fin d → ℝ) => T z.1.2 z.2 z.1.1)) {S : Set (Phase d)}
    {D : Phase d → Phase d → ℝ} {ρ : ℝ} (hρ : 0 ≤ ρ) (h : Contracts T S D ρ) (n : ℕ) {f : Phase d → ℝ} (hf : Measurable f) {B L : ℝ}
    (hB : ∀ s, |f s| ≤ B) (hL0 : 0 ≤ L) (hL : ∀ s ∈ S, ∀ t ∈ S, |f s - f t| ≤ L * D s t) :
    ∃ g : Phase d → ℝ, Measurable g ∧ (∀ s, |g s| ≤ B) ∧ (∀ s ∈ S, ∀ t ∈ S, |g s - g t| ≤ L * ρ ^ n * D s t) ∧
      ∀ (μ : Measure (Phase d)) [IsProbabilityMeasure μ], ∫ s, f s ∂((afterStep T)^[n] μ) = ∫ s, g s ∂μ := by
  induction n generalizing f L with
  | zero => exact ⟨f, hf, hB, by simpa using hL, fun _ _ => rfl⟩
  | succ n ih =>
    obtain ⟨g, g1, g2, g3, g4⟩ := ih (meanAfter_measurable hT hf) (meanAfter_bounded hB) (mul_nonneg hL0 hρ)
      (meanAfter_close hT h hf hB hL0 hL)
    refine ⟨g, g1, g2, fun s hs t ht => (g3 s hs t ht).trans (le_of_eq (by ring)), fun μ _ => ?_⟩
    rw [Function.iterate_succ_apply']
    have := afterStep_iterate_probability hT μ n
    rw [meanAfter_afterStep hT hf hB, g4]

/-- **C133.** Two walkers that start at `s` and `t`: the means of any observable after `n` steps differ at most by the distance
of the starting points times the `n`-th power of the factor. -/
theorem contracts_means {T : (Fin d → ℝ) → (Fin d → ℝ) → Phase d → Phase d}
    (hT : Measurable (fun z : (Phase d × (Fin d → ℝ)) × (Fin d → ℝ) => T z.1.2 z.2 z.1.1)) {S : Set (Phase d)}
    {D : Phase d → Phase d → ℝ} {ρ : ℝ} (hρ : 0 ≤ ρ) (h : Contracts T S D ρ) (n : ℕ) {f : Phase d → ℝ} (hf : Measurable f) {B L : ℝ}
    (hB : ∀ s, |f s| ≤ B) (hL0 : 0 ≤ L) (hL : ∀ s ∈ S, ∀ t ∈ S, |f s - f t| ≤ L * D s t) (s t : Phase d) (hs : s ∈ S) (ht : t ∈ S) :
    |∫ u, f u ∂((afterStep T)^[n] (Measure.dirac s)) - ∫ u, f u ∂((afterStep T)^[n] (Measure.dirac t))| ≤ L * ρ ^ n * D s t := by
  obtain ⟨g, _, _, g3, g4⟩ := mean_iterate hT hρ h n hf hB hL0 hL
  rw [g4, g4, integral_dirac, integral_dirac]
  exact g3 s hs t ht

/-- The means of two distributions approach each other, whatever the distributions are. -/
theorem contracts_tendsto {T : (Fin d → ℝ) → (Fin d → ℝ) → Phase d → Phase d}
    (hT : Measurable (fun z : (Phase d × (Fin d → ℝ)) × (Fin d → ℝ) => T z.1.2 z.2 z.1.1)) {S : Set (Phase d)}
    {D : Phase d → Phase d → ℝ} {ρ : ℝ} (hρ : 0 ≤ ρ) (hρ1 : ρ < 1) (h : Contracts T S D ρ) {f : Phase d → ℝ} (hf : Measurable f) {B L : ℝ}
    (hB : ∀ s, |f s| ≤ B) (hL0 : 0 ≤ L) (hL : ∀ s ∈ S, ∀ t ∈ S, |f s - f t| ≤ L * D s t) (μ ν : Measure (Phase d))
    [IsProbabilityMeasure μ] [IsProbabilityMeasure ν] (hμ : ∀ᵐ s ∂μ, s ∈ S) (hν : ∀ᵐ s ∂ν, s ∈ S) :
    Tendsto (fun n => ∫ s, f s ∂((afterStep T)^[n] μ) - ∫ s, f s ∂((afterStep T)^[n] ν)) atTop (𝓝 0) := by
  choose g g1 g2 g3 g4 using fun n => mean_iterate hT hρ h n hf hB hL0 hL
  have e : ∀ n, ∫ s, f s ∂((afterStep T)^[n] μ) - ∫ s, f s ∂((afterStep T)^[n] ν) = ∫ z, (g n z.1 - g n z.2) ∂(μ.prod ν) := by
    intro n
    have i1 : Integrable (fun z : Phase d × Phase d => g n z.1) (μ.prod ν) :=
      bounded_integrable _ ((g1 n).comp measurable_fst) fun z => g2 n z.1
    have i2 : Integrable (fun z : Phase d × Phase d => g n z.2) (μ.prod ν) :=
      bounded_integrable _ ((g1 n).comp measurable_snd) fun z => g2 n z.2
    rw [integral_sub i1 i2, integral_fun_fst, integral_fun_snd, g4, g4]
    simp
  simp_rw [e]
  have hS : ∀ᵐ z ∂(μ.prod ν), z.1 ∈ S ∧ z.2 ∈ S :=
    (Measure.quasiMeasurePreserving_fst.ae hμ).and (Measure.quasiMeasurePreserving_snd.ae hν)
  rw [show (0 : ℝ) = ∫ _, (0 : ℝ) ∂(μ.prod ν) by simp]
  refine tendsto_integral_of_dominated_convergence (fun _ => 2 * B)
    (fun n => (((g1 n).comp measurable_fst).sub ((g1 n).comp measurable_snd)).aestronglyMeasurable) (integrable_const _)
    (fun n => .of_forall fun z => ?_) ?_
  · have h1 := abs_le.1 (g2 n z.1)
    have h2 := abs_le.1 (g2 n z.2)
    rw [Real.norm_eq_abs, abs_le]
    constructor <;> linarith
  · filter_upwards [hS] with z hz
    rw [tendsto_zero_iff_abs_tendsto_zero]
    refine squeeze_zero (fun n => abs_nonneg _) (fun n => g3 n z.1 hz.1 z.2 hz.2) ?_
    have := ((tendsto_pow_atTop_nhds_zero_of_lt_one hρ hρ1).const_mul L).mul_const (D z.1 z.2)
    simpa using this

/-- Convergence to the stationary distribution `π`, from any distribution `μ` of the starting points, for the part `q` of the
state that the distance is about. -/
theorem contracts_converges {Y : Type} [PseudoMetricSpace Y] [MeasurableSpace Y] [BorelSpace Y] {q : Phase d → Y} (hq : Measurable q)
    {T : (Fin d → ℝ) → (Fin d → ℝ) → Phase d → Phase d}
    (hT : Measurable (fun z : (Phase d × (Fin d → ℝ)) × (Fin d → ℝ) => T z.1.2 z.2 z.1.1)) {S : Set (Phase d)}
    {D : Phase d → Phase d → ℝ} {ρ C : ℝ} (hρ : 0 ≤ ρ) (hρ1 : ρ < 1) (h : Contracts T S D ρ) (hC : 0 ≤ C)
    (hD : ∀ s t, dist (q s) (q t) ≤ C * D s t) (μ π : Measure (Phase d)) [IsProbabilityMeasure μ] [IsProbabilityMeasure π]
    (hμ : ∀ᵐ s ∂μ, s ∈ S) (hπ : ∀ᵐ s ∂π, s ∈ S) (law : ℕ → ProbabilityMeasure Y) (limit : ProbabilityMeasure Y)
    (hlaw : ∀ n, (law n : Measure Y) = ((afterStep T)^[n] μ).map q) (hlimit : ∀ n, ((afterStep T)^[n] π).map q = limit) :
    Tendsto law atTop (𝓝 limit) := by
  rw [tendsto_iff_forall_lipschitz_integral_tendsto]
  rintro f ⟨b, hb⟩ ⟨L, hL⟩
  have hf := hL.continuous.measurable
  have hB : ∀ s, |f (q s)| ≤ |f (q 0)| + b := fun s => by
    have h1 := hb (q s) (q 0)
    rw [Real.dist_eq] at h1
    have h2 := abs_add_le (f (q s) - f (q 0)) (f (q 0))
    rw [sub_add_cancel] at h2
    linarith
  have h1 := contracts_tendsto hT hρ hρ1 h (f := fun s => f (q s)) (hf.comp hq) hB (L := (L : ℝ) * C) (mul_nonneg L.coe_nonneg hC)
    (fun s _ t _ => by
      have h2 := hL.dist_le_mul (q s) (q t)
      rw [Real.dist_eq] at h2
      have h3 := mul_le_mul_of_nonneg_left (hD s t) L.coe_nonneg
      calc _ ≤ _ := h2
        _ ≤ _ := h3
        _ = _ := by ring) μ π hμ hπ
  have e1 : ∀ n, ∫ y, f y ∂(law n : Measure Y) = ∫ s, f (q s) ∂((afterStep T)^[n] μ) := fun n => by
    rw [hlaw, integral_map hq.aemeasurable hf.aestronglyMeasurable]
  have e2 : ∀ n, ∫ y, f y ∂(limit : Measure Y) = ∫ s, f (q s) ∂((afterStep T)^[n] π) := fun n => by
    rw [← hlimit n, integral_map hq.aemeasurable hf.aestronglyMeasurable]
  have h2 := h1.add_const (∫ y, f y ∂(limit : Measure Y))
  rw [zero_add] at h2
  refine h2.congr fun n => ?_
  rw [e1, e2 n, sub_add_cancel]

end Bdld
