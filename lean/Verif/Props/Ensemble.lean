import Verif.Spec.Ensemble
import Verif.Props.Forget
import Mathlib.Probability.Moments.Variance

/-
C154: distribution and independence of walkers that take their random vectors from one stream, and the spread of averages
over the walkers.
-/

namespace Bdld

open MeasureTheory ProbabilityTheory Filter Spec

variable {d : Nat} {Ω : Type} [MeasurableSpace Ω] {P : Measure Ω} {g : ℕ → Ω → Fin d → ℝ}
  {T : (Fin d → ℝ) → (Fin d → ℝ) → Phase d → Phase d}

/-- The stream with the vectors in `S` and zeros elsewhere. -/
noncomputable def fillStream (S : Finset ℕ) (y : S → Fin d → ℝ) (i : ℕ) : Fin d → ℝ :=
  if h : i ∈ S then y ⟨i, h⟩ else 0

theorem fillStream_measurable (S : Finset ℕ) : Measurable (fillStream S : (S → Fin d → ℝ) → ℕ → Fin d → ℝ) := by
  refine measurable_pi_lambda _ fun i => ?_
  unfold fillStream
  by_cases h : i ∈ S
  · simp only [h, dif_pos]
    exact measurable_pi_apply _
  · simp only [h, dif_neg, not_false_eq_true]
    exact measurable_const

/-- Functions of different vectors of the stream are independent. -/
theorem Spec.NormalStream.indep_of_disjoint (h : NormalStream P g) {α β : Type} [MeasurableSpace α] [MeasurableSpace β]
    {F : (ℕ → Fin d → ℝ) → α} {G : (ℕ → Fin d → ℝ) → β} (hF : Measurable F) (hG : Measurable G) {S R : Finset ℕ}
    (hS : OnlyOn S F) (hR : OnlyOn R G) (hSR : Disjoint S R) :
    IndepFun (fun ω => F (fun i => g i ω)) (fun ω => G (fun i => g i ω)) P := by
  have h1 := h.indep.indepFun_finset S R hSR h.measurable
  have h2 := h1.comp (hF.comp (fillStream_measurable S)) (hG.comp (fillStream_measurable R))
  have e1 : (fun ω => F (fun i => g i ω)) = (F ∘ fillStream S) ∘ fun ω (i : S) => g i ω := by
    funext ω
    refine hS _ _ fun i hi => ?_
    simp [fillStream, hi]
  have e2 : (fun ω => G (fun i => g i ω)) = (G ∘ fillStream R) ∘ fun ω (i : R) => g i ω := by
    funext ω
    refine hR _ _ fun i hi => ?_
    simp [fillStream, hi]
  rw [e1, e2]
  exact h2

theorem noisePath_measurable (hT : Measurable (fun z : (Phase d × (Fin d → ℝ)) × (Fin d → ℝ) => T z.1.2 z.2 z.1.1))
    (a b : ℕ → ℕ) (s : Phase d) (t : ℕ) : Measurable (fun g => noisePath T a b g t s) := by
  induction t with
  | zero => exact measurable_const
  | succ t ih => exact hT.comp ((ih.prodMk (measurable_pi_apply (a t))).prodMk (measurable_pi_apply (b t)))

theorem taken_mono (a b : ℕ → ℕ) {m n : ℕ} (h : m ≤ n) : taken a b m ⊆ taken a b n :=
  Finset.union_subset_union (Finset.image_subset_image (Finset.range_subset_range.2 h))
    (Finset.image_subset_image (Finset.range_subset_range.2 h))

theorem noisePath_only (a b : ℕ → ℕ) (s : Phase d) (t : ℕ) : OnlyOn (taken a b t) (fun g => noisePath T a b g t s) := by
  induction t with
  | zero => exact fun _ _ _ => rfl
  | succ t ih =>
    intro g g' h
    simp only [noisePath]
    have h1 := ih g g' fun i hi => h i (taken_mono a b (Nat.le_succ t) hi)
    simp only at h1
    rw [h1, h (a t), h (b t)]
    · exact Finset.mem_union_right _ (Finset.mem_image_of_mem _ (Finset.self_mem_range_succ t))
    · exact Finset.mem_union_left _ (Finset.mem_image_of_mem _ (Finset.self_mem_range_succ t))

theorem Spec.NormalStream.prob (h : NormalStream P g) : IsProbabilityMeasure P := by
  have h1 : (P.map (g 0)) Set.univ = 1 := by rw [h.law 0]; exact measure_univ
  rw [Measure.map_apply (h.measurable 0) MeasurableSet.univ, Set.preimage_univ] at h1
  exact ⟨h1⟩

theorem Spec.NormalStream.stream_measurable (h : NormalStream P g) : Measurable (fun ω i => g i ω) :=
  measurable_pi_lambda _ h.measurable

/-- All the vectors taken in the first `n` steps are different. -/
def Spec.AllDifferent (a b : ℕ → ℕ) (n : ℕ) : Prop :=
  (∀ i < n, ∀ j < n, a i = a j → i = j) ∧ (∀ i < n, ∀ j < n, b i = b j → i = j) ∧ ∀ i < n, ∀ j < n, a i ≠ b j

theorem different_notMem {a b : ℕ → ℕ} {n t : ℕ} (h : AllDifferent a b n) (ht : t < n) :
    a t ∉ taken a b t ∧ b t ∉ taken a b t := by
  obtain ⟨h1, h2, h3⟩ := h
  simp only [taken, Finset.mem_union, Finset.mem_image, Finset.mem_range, not_or, not_exists, not_and]
  refine ⟨⟨fun i hi e => ?_, fun i hi e => ?_⟩, fun i hi e => ?_, fun i hi e => ?_⟩
  · have := h1 i (by omega) t ht e
    omega
  · exact h3 t ht i (by omega) e.symm
  · exact h3 i (by omega) t ht e
  · have := h2 i (by omega) t ht e
    omega

/-- **C154.** The distribution of a walker after `t` steps. -/
theorem noisePath_law (h : NormalStream P g)
    (hT : Measurable (fun z : (Phase d × (Fin d → ℝ)) × (Fin d → ℝ) => T z.1.2 z.2 z.1.1)) (a b : ℕ → ℕ) (s : Phase d)
    (n : ℕ) (hf : AllDifferent a b n) (t : ℕ) (ht : t ≤ n) :
    P.map (fun ω => noisePath T a b (fun i => g i ω) t s) = (afterStep T)^[t] (Measure.dirac s) := by
  have := h.prob
  induction t with
  | zero =>
    simp only [noisePath, Function.iterate_zero, id]
    rw [Measure.map_const, measure_univ, one_smul]
  | succ t ih =>
    have ih := ih (by omega)
    obtain ⟨n1, n2⟩ := different_notMem hf (t := t) (by omega)
    have hp := noisePath_measurable hT a b s t
    have hpo := noisePath_only (T := T) a b s t
    have hpm : Measurable (fun ω => noisePath T a b (fun i => g i ω) t s) := hp.comp h.stream_measurable
    have i1 : IndepFun (fun ω => noisePath T a b (fun i => g i ω) t s) (g (a t)) P :=
      h.indep_of_disjoint (F := fun g => noisePath T a b g t s) (G := fun g => g (a t)) hp (measurable_pi_apply (a t)) hpo
        (R := {a t}) (fun g g' hg => hg _ (Finset.mem_singleton_self _)) (Finset.disjoint_singleton_right.2 n1)
    have hpo2 : OnlyOn (insert (a t) (taken a b t)) (fun g => (noisePath T a b g t s, g (a t))) := by
      intro g g' hg
      have := hpo g g' fun i hi => hg i (Finset.mem_insert_of_mem hi)
      simp only at this ⊢
      rw [this, hg (a t) (Finset.mem_insert_self _ _)]
    have i2 : IndepFun (fun ω => (noisePath T a b (fun i => g i ω) t s, g (a t) ω)) (g (b t)) P :=
      h.indep_of_disjoint (F := fun g => (noisePath T a b g t s, g (a t))) (G := fun g => g (b t))
        (hp.prodMk (measurable_pi_apply (a t))) (measurable_pi_apply (b t)) hpo2
        (R := {b t}) (fun g g' hg => hg _ (Finset.mem_singleton_self _)) (Finset.disjoint_singleton_right.2 (by
          rw [Finset.mem_insert, not_or]
          exact ⟨(hf.2.2 t (by omega) t (by omega)).symm, n2⟩))
    rw [indepFun_iff_map_prod_eq_prod_map_map hpm.aemeasurable (h.measurable _).aemeasurable, ih, h.law] at i1
    rw [indepFun_iff_map_prod_eq_prod_map_map (hpm.prodMk (h.measurable _)).aemeasurable (h.measurable _).aemeasurable, i1,
      h.law] at i2
    rw [Function.iterate_succ_apply', afterStep, ← i2,
      Measure.map_map hT ((hpm.prodMk (h.measurable _)).prodMk (h.measurable _))]
    rfl

/-- **C154.** Walkers that take different vectors are independent of each other, with all their past. -/
theorem noisePath_indep (h : NormalStream P g)
    (hT : Measurable (fun z : (Phase d × (Fin d → ℝ)) × (Fin d → ℝ) => T z.1.2 z.2 z.1.1)) (a b a' b' : ℕ → ℕ) (s s' : Phase d)
    (n : ℕ) (hd : Disjoint (taken a b n) (taken a' b' n)) :
    IndepFun (fun ω (t : Fin (n + 1)) => noisePath T a b (fun i => g i ω) t s)
      (fun ω (t : Fin (n + 1)) => noisePath T a' b' (fun i => g i ω) t s') P := by
  refine h.indep_of_disjoint (F := fun g (t : Fin (n + 1)) => noisePath T a b g t s)
    (G := fun g (t : Fin (n + 1)) => noisePath T a' b' g t s') (measurable_pi_lambda _ fun t => noisePath_measurable hT a b s t)
    (measurable_pi_lambda _ fun t => noisePath_measurable hT a' b' s' t) (S := taken a b n) (R := taken a' b' n) ?_ ?_ hd
  · intro g g' hg
    funext t
    exact noisePath_only a b s t g g' fun i hi => hg i (taken_mono a b (Nat.lt_succ_iff.1 t.2) hi)
  · intro g g' hg
    funext t
    exact noisePath_only a' b' s' t g g' fun i hi => hg i (taken_mono a' b' (Nat.lt_succ_iff.1 t.2) hi)

/-- Averages of independent numbers between 0 and 1. -/
theorem average_spread [IsProbabilityMeasure P] (N : ℕ) (hN : N ≠ 0) (A : ℕ → Ω → ℝ)
    (hm : ∀ k < N, Measurable (A k)) (h01 : ∀ k < N, ∀ ω, A k ω ∈ Set.Icc (0 : ℝ) 1)
    (hi : ∀ k < N, ∀ l < N, k ≠ l → IndepFun (A k) (A l) P) {ε : ℝ} (hε : 0 < ε) :
    P {ω | ε ≤ |(∑ k ∈ Finset.range N, A k ω) / N - (∑ k ∈ Finset.range N, ∫ ω, A k ω ∂P) / N|} ≤
      ENNReal.ofReal (1 / (4 * N * ε ^ 2)) := by
  have hNp : (0 : ℝ) < N := by exact_mod_cast Nat.pos_of_ne_zero hN
  have hL : ∀ k ∈ Finset.range N, MemLp (A k) 2 P := fun k hk => by
    have hk := Finset.mem_range.1 hk
    refine MemLp.of_bound (hm k hk).aestronglyMeasurable 1 (Eventually.of_forall fun ω => ?_)
    rw [Real.norm_eq_abs, abs_le]
    have := h01 k hk ω
    exact ⟨by linarith [this.1], this.2⟩
  have hI : Set.Pairwise (↑(Finset.range N)) (fun i j => IndepFun (A i) (A j) P) := fun i hi' j hj hij =>
    hi i (Finset.mem_range.1 hi') j (Finset.mem_range.1 hj) hij
  have hv := IndepFun.variance_sum hL hI
  have hv2 : variance (∑ k ∈ Finset.range N, A k) P ≤ N * (1 / 4) := by
    rw [hv]
    have : ∀ k ∈ Finset.range N, variance (A k) P ≤ 1 / 4 := fun k hk => by
      have hk := Finset.mem_range.1 hk
      have := variance_le_sq_of_bounded (μ := P) (X := A k) (a := 0) (b := 1) (Eventually.of_forall (h01 k hk))
        (hm k hk).aemeasurable
      norm_num at this ⊢
      exact this
    refine (Finset.sum_le_sum this).trans (le_of_eq ?_)
    simp
  set Y : Ω → ℝ := fun ω => (1 / N : ℝ) * (∑ k ∈ Finset.range N, A k) ω with hY
  have hYm : MemLp Y 2 P := (memLp_finsetSum' _ hL).const_mul _
  have hmean : ∫ ω, Y ω ∂P = (∑ k ∈ Finset.range N, ∫ ω, A k ω ∂P) / N := by
    rw [hY, integral_const_mul]
    simp only [Finset.sum_apply]
    rw [integral_finsetSum _ (fun k hk => (hL k hk).integrable (by norm_num)), one_div, inv_mul_eq_div]
  have h1 := meas_ge_le_variance_div_sq hYm hε
  rw [hmean] at h1
  have e : {ω | ε ≤ |(∑ k ∈ Finset.range N, A k ω) / N - (∑ k ∈ Finset.range N, ∫ ω, A k ω ∂P) / N|} =
      {ω | ε ≤ |Y ω - (∑ k ∈ Finset.range N, ∫ ω, A k ω ∂P) / N|} := by
    ext ω
    simp only [Set.mem_ofPred_eq, hY, Finset.sum_apply, one_div, inv_mul_eq_div]
  rw [e]
  refine h1.trans (ENNReal.ofReal_le_ofReal ?_)
  rw [hY, variance_const_mul]
  have h2 : (1 / (N : ℝ)) ^ 2 * variance (∑ k ∈ Finset.range N, A k) P ≤ 1 / (4 * N) := by
    refine (mul_le_mul_of_nonneg_left hv2 (by positivity)).trans (le_of_eq ?_)
    field_simp
  refine (div_le_div_of_nonneg_right h2 (by positivity)).trans (le_of_eq ?_)
  field_simp

end Bdld
