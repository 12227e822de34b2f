import Verif.Spec.Stationary
import Mathlib.MeasureTheory.Integral.Pi
import Mathlib.MeasureTheory.Measure.Prod
import Mathlib.MeasureTheory.Measure.WithDensity

/-
Measures with densities: products, images, normal distributions.
-/

namespace Bdld

open Spec MeasureTheory ProbabilityTheory

open scoped ENNReal

/-- Fubini for a product of functions of one coordinate each. -/
theorem lintegral_pi_prod (d : Nat) (f : Fin d → ℝ → ℝ≥0∞) (hf : ∀ k, Measurable (f k)) :
    ∫⁻ x : Fin d → ℝ, ∏ k, f k (x k) = ∏ k, ∫⁻ t, f k t := by
  induction d with
  | zero => simp [volume_pi]
  | succ d ih =>
    have h := (volume_preserving_piFinSuccAbove (fun _ : Fin (d + 1) => ℝ) 0).symm
    rw [← h.lintegral_comp_emb (MeasurableEquiv.measurableEmbedding _)]
    have e : ∀ z : ℝ × (Fin d → ℝ), ∏ k, f k ((MeasurableEquiv.piFinSuccAbove (fun _ : Fin (d + 1) => ℝ) 0).symm z k) =
        f 0 z.1 * ∏ k : Fin d, f k.succ (z.2 k) := fun z => by
      rw [Fin.prod_univ_succ]
      rfl
    simp_rw [e]
    have hm : Measurable (fun y : Fin d → ℝ => ∏ k : Fin d, f k.succ (y k)) :=
      Finset.measurable_prod _ (fun k _ => (hf k.succ).comp (measurable_pi_apply k))
    rw [Measure.volume_eq_prod, lintegral_prod_mul (hf 0).aemeasurable hm.aemeasurable, ih _ (fun k => hf k.succ),
      Fin.prod_univ_succ]

/-- A product of measures with densities has the product as density. -/
theorem pi_withDensity {d : Nat} (f : Fin d → ℝ → ℝ≥0∞) (hf : ∀ k, Measurable (f k))
    [∀ k, SigmaFinite (volume.withDensity (f k))] :
    Measure.pi (fun k => volume.withDensity (f k)) = (volume : Measure (Fin d → ℝ)).withDensity (fun x => ∏ k, f k (x k)) := by
  refine (Measure.pi_eq fun s hs => ?_)
  rw [withDensity_apply _ (MeasurableSet.univ_pi hs), ← lintegral_indicator (MeasurableSet.univ_pi hs)]
  have h : ∀ x : Fin d → ℝ, (Set.univ.pi s).indicator (fun x => ∏ k, f k (x k)) x = ∏ k, (s k).indicator (f k) (x k) := by
    intro x
    by_cases hx : x ∈ Set.univ.pi s
    · rw [Set.indicator_of_mem hx]
      exact Finset.prod_congr rfl fun k _ => (Set.indicator_of_mem (hx k (Set.mem_univ _)) _).symm
    · rw [Set.indicator_of_notMem hx]
      simp only [Set.mem_pi, Set.mem_univ, forall_const, not_forall] at hx
      obtain ⟨k, hk⟩ := hx
      exact (Finset.prod_eq_zero (Finset.mem_univ k) (Set.indicator_of_notMem hk _)).symm
  simp_rw [h]
  rw [lintegral_pi_prod d _ (fun k => (hf k).indicator (hs k))]
  exact Finset.prod_congr rfl fun k _ => by rw [withDensity_apply _ (hs k), lintegral_indicator (hs k)]

/-- Image of a measure whose density is a function of the image point. -/
theorem map_withDensity_comp {α β : Type} [MeasurableSpace α] [MeasurableSpace β] (μ : Measure α) (g : α → β) (hg : Measurable g)
    (ρ : β → ℝ≥0∞) (hρ : Measurable ρ) : (μ.withDensity (ρ ∘ g)).map g = (μ.map g).withDensity ρ := by
  ext s hs
  rw [Measure.map_apply hg hs, withDensity_apply _ (hg hs), withDensity_apply _ hs, setLIntegral_map hs hρ hg]
  rfl

/-- The normal distribution as a density without normalisation. -/
theorem normals_density {d : Nat} (a v : Fin d → ℝ) (hv : ∀ k, 0 < v k) : ∃ K : ℝ≥0∞, K ≠ 0 ∧ K ≠ ∞ ∧
    (volume : Measure (Fin d → ℝ)).withDensity (fun x => ENNReal.ofReal (Real.exp (-∑ k, (x k - a k) ^ 2 / (2 * v k)))) =
      K • normals a v := by
  have h0 : ∀ k, (v k).toNNReal ≠ 0 := fun k => by simpa using hv k
  have h1 : normals a v = Measure.pi (fun k => volume.withDensity (gaussianPDF (a k) (v k).toNNReal)) := by
    unfold normals
    congr 1
    funext k
    exact gaussianReal_of_var_ne_zero _ (h0 k)
  have : ∀ k, SigmaFinite ((volume : Measure ℝ).withDensity (gaussianPDF (a k) (v k).toNNReal)) := fun k => by
    rw [← gaussianReal_of_var_ne_zero _ (h0 k)]
    infer_instance
  rw [h1, pi_withDensity _ (fun k => measurable_gaussianPDF _ _)]
  refine ⟨ENNReal.ofReal (∏ k, Real.sqrt (2 * Real.pi * v k)), ?_, ENNReal.ofReal_ne_top, ?_⟩
  · have : 0 < ∏ k, Real.sqrt (2 * Real.pi * v k) :=
      Finset.prod_pos fun k _ => Real.sqrt_pos.2 (mul_pos (mul_pos two_pos Real.pi_pos) (hv k))
    simpa using this
  · have hm : Measurable (fun x : Fin d → ℝ => ∏ k, gaussianPDF (a k) (v k).toNNReal (x k)) :=
      Finset.measurable_prod _ (fun k _ => (measurable_gaussianPDF _ _).comp (measurable_pi_apply k))
    rw [← withDensity_smul _ hm]
    congr 1
    funext x
    simp only [Pi.smul_apply, smul_eq_mul, gaussianPDF]
    rw [← ENNReal.ofReal_prod_of_nonneg (fun k _ => gaussianPDFReal_nonneg _ _ _),
      ← ENNReal.ofReal_mul (Finset.prod_nonneg fun k _ => Real.sqrt_nonneg _), ← Finset.prod_mul_distrib]
    congr 1
    rw [← Finset.sum_neg_distrib, Real.exp_sum]
    refine Finset.prod_congr rfl fun k _ => ?_
    have hs : Real.sqrt (2 * Real.pi * v k) ≠ 0 := (Real.sqrt_pos.2 (mul_pos (mul_pos two_pos Real.pi_pos) (hv k))).ne'
    simp only [gaussianPDFReal, Real.coe_toNNReal _ (hv k).le]
    rw [← mul_assoc, mul_inv_cancel₀ hs, one_mul, neg_div]

end Bdld
