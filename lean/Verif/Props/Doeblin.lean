import Verif.Props.MainLongRun

/-
C157: overdamped walkers in a box with reflective boundary settle, whatever the potential.
-/

namespace Bdld

open MeasureTheory ProbabilityTheory Spec Filter Topology

open scoped ENNReal

noncomputable section

/-! ### Chains that come back to the same distribution with some probability in every step -/

section
variable {X : Type} [MeasurableSpace X]

theorem chain_bounded {κ : X → Measure X} (hp : ∀ x, IsProbabilityMeasure (κ x)) {g : ℕ → X → ℝ} (hm : ∀ n, Measurable (g n))
    (h0 : ∀ x, 0 ≤ g 0 x ∧ g 0 x ≤ 1) (hs : ∀ n x, g (n + 1) x = ∫ y, g n y ∂κ x) (n : ℕ) (x : X) : 0 ≤ g n x ∧ g n x ≤ 1 := by
  induction n generalizing x with
  | zero => exact h0 x
  | succ n ih =>
    rw [hs]
    have hi : Integrable (g n) (κ x) := Integrable.of_bound (hm n).aestronglyMeasurable 1 (ae_of_all _ fun y => by
      rw [Real.norm_eq_abs, abs_le]
      exact ⟨by linarith [(ih y).1], (ih y).2⟩)
    refine ⟨integral_nonneg fun y => (ih y).1, ?_⟩
    calc ∫ y, g n y ∂κ x ≤ ∫ _, (1 : ℝ) ∂κ x := integral_mono hi (integrable_const _) fun y => (ih y).2
      _ = 1 := by simp

/-- Doeblin: if all steps from the set `B` have the common part `lam`, the values of a function after `n` steps from `B` are in an
interval whose length shrinks geometrically. -/
theorem doeblin {κ : X → Measure X} (hp : ∀ x, IsProbabilityMeasure (κ x)) {B : Set X} (hin : ∀ x, κ x Bᶜ = 0)
    {lam : Measure X} [IsFiniteMeasure lam] (hlam : ∀ x ∈ B, lam ≤ κ x) (hlamB : lam Bᶜ = 0) {c : ℝ} (hc : lam.real Set.univ = c)
    {g : ℕ → X → ℝ} (hm : ∀ n, Measurable (g n)) (h0 : ∀ x, 0 ≤ g 0 x ∧ g 0 x ≤ 1) (hs : ∀ n x, g (n + 1) x = ∫ y, g n y ∂κ x) :
    ∃ a b : ℕ → ℝ, Monotone a ∧ Antitone b ∧ (∀ n, b n - a n = (1 - c) ^ n) ∧ (∀ n, ∀ x ∈ B, a n ≤ g n x ∧ g n x ≤ b n) ∧
      ∀ n x, a n ≤ g (n + 1) x ∧ g (n + 1) x ≤ b n := by
  have hb := chain_bounded hp hm h0 hs
  have hint : ∀ (μ : Measure X) [IsFiniteMeasure μ] n, Integrable (g n) μ := fun μ _ n =>
    Integrable.of_bound (hm n).aestronglyMeasurable 1 (ae_of_all _ fun y => by
      rw [Real.norm_eq_abs, abs_le]
      exact ⟨by linarith [(hb n y).1], (hb n y).2⟩)
  let a : ℕ → ℝ := fun n => Nat.rec 0 (fun n an => (1 - c) * an + ∫ y, g n y ∂lam) n
  let b : ℕ → ℝ := fun n => Nat.rec 1 (fun n bn => (1 - c) * bn + ∫ y, g n y ∂lam) n
  have ha1 : ∀ n, a (n + 1) = (1 - c) * a n + ∫ y, g n y ∂lam := fun n => rfl
  have hb1 : ∀ n, b (n + 1) = (1 - c) * b n + ∫ y, g n y ∂lam := fun n => rfl
  have haeK : ∀ x, ∀ᵐ y ∂κ x, y ∈ B := fun x => by
    rw [ae_iff]
    exact hin x
  have haeL : ∀ᵐ y ∂lam, y ∈ B := by
    rw [ae_iff]
    exact hlamB
  have hsubL : ∀ n (t : ℝ), ∫ y, (g n y - t) ∂lam = (∫ y, g n y ∂lam) - t * c := fun n t => by
    rw [integral_sub (hint lam n) (integrable_const _), integral_const, hc, smul_eq_mul, mul_comm]
  have hsubL' : ∀ n (t : ℝ), ∫ y, (t - g n y) ∂lam = t * c - ∫ y, g n y ∂lam := fun n t => by
    rw [integral_sub (integrable_const _) (hint lam n), integral_const, hc, smul_eq_mul, mul_comm]
  have hsubK : ∀ x n (t : ℝ), ∫ y, (g n y - t) ∂κ x = (∫ y, g n y ∂κ x) - t := fun x n t => by
    rw [integral_sub (hint _ n) (integrable_const _), integral_const]
    simp
  have hsubK' : ∀ x n (t : ℝ), ∫ y, (t - g n y) ∂κ x = t - ∫ y, g n y ∂κ x := fun x n t => by
    rw [integral_sub (integrable_const _) (hint _ n), integral_const]
    simp
  have hB : ∀ n, ∀ x ∈ B, a n ≤ g n x ∧ g n x ≤ b n := by
    intro n
    induction n with
    | zero => exact fun x _ => h0 x
    | succ n ih =>
      intro x hx
      rw [hs, ha1, hb1]
      have h1 : ∫ y, (g n y - a n) ∂lam ≤ ∫ y, (g n y - a n) ∂κ x :=
        integral_mono_measure (hlam x hx) ((haeK x).mono fun y hy => sub_nonneg.2 (ih y hy).1) ((hint _ n).sub (integrable_const _))
      have h2 : ∫ y, (b n - g n y) ∂lam ≤ ∫ y, (b n - g n y) ∂κ x :=
        integral_mono_measure (hlam x hx) ((haeK x).mono fun y hy => sub_nonneg.2 (ih y hy).2) ((integrable_const _).sub (hint _ n))
      rw [hsubL, hsubK] at h1
      rw [hsubL', hsubK'] at h2
      constructor <;> linarith
  refine ⟨a, b, monotone_nat_of_le_succ fun n => ?_, antitone_nat_of_succ_le fun n => ?_, fun n => ?_, hB, fun n x => ?_⟩
  · have h1 : 0 ≤ ∫ y, (g n y - a n) ∂lam := integral_nonneg_of_ae (haeL.mono fun y hy => sub_nonneg.2 (hB n y hy).1)
    rw [hsubL] at h1
    rw [ha1]
    linarith
  · have h1 : 0 ≤ ∫ y, (b n - g n y) ∂lam := integral_nonneg_of_ae (haeL.mono fun y hy => sub_nonneg.2 (hB n y hy).2)
    rw [hsubL'] at h1
    rw [hb1]
    linarith
  · induction n with
    | zero => simp [a, b]
    | succ n ih =>
      rw [ha1, hb1, pow_succ, ← ih]
      ring
  · rw [hs]
    have h1 : 0 ≤ ∫ y, (g n y - a n) ∂κ x := integral_nonneg_of_ae ((haeK x).mono fun y hy => sub_nonneg.2 (hB n y hy).1)
    have h2 : 0 ≤ ∫ y, (b n - g n y) ∂κ x := integral_nonneg_of_ae ((haeK x).mono fun y hy => sub_nonneg.2 (hB n y hy).2)
    rw [hsubK] at h1
    rw [hsubK'] at h2
    constructor <;> linarith

/-- The common limit. -/
theorem doeblin_limit {κ : X → Measure X} (hp : ∀ x, IsProbabilityMeasure (κ x)) {B : Set X} (hin : ∀ x, κ x Bᶜ = 0)
    {lam : Measure X} [IsFiniteMeasure lam] (hlam : ∀ x ∈ B, lam ≤ κ x) (hlamB : lam Bᶜ = 0) {c : ℝ} (hc : lam.real Set.univ = c)
    (hc1 : c ≤ 1) {g : ℕ → X → ℝ} (hm : ∀ n, Measurable (g n)) (h0 : ∀ x, 0 ≤ g 0 x ∧ g 0 x ≤ 1)
    (hs : ∀ n x, g (n + 1) x = ∫ y, g n y ∂κ x) : ∃ p, ∀ n x, |g (n + 1) x - p| ≤ (1 - c) ^ n := by
  obtain ⟨a, b, h1, h2, h3, _, h5⟩ := doeblin hp hin hlam hlamB hc hm h0 hs
  have hle : ∀ n m, a n ≤ b m := fun n m => by
    have e := h3 (max n m)
    have : 0 ≤ (1 - c) ^ (max n m) := pow_nonneg (by linarith) _
    linarith [h1 (le_max_left n m), h2 (le_max_right n m)]
  refine ⟨⨆ n, a n, fun n x => ?_⟩
  have hbdd : BddAbove (Set.range a) := ⟨b 0, by rintro _ ⟨n, rfl⟩; exact hle n 0⟩
  have l1 : a n ≤ ⨆ n, a n := le_ciSup hbdd n
  have l2 : ⨆ n, a n ≤ b n := ciSup_le fun m => hle m n
  have := h3 n
  rw [abs_le]
  constructor <;> linarith [(h5 n x).1, (h5 n x).2]

end

/-! ### Positions of overdamped walkers -/

variable {d : ℕ}

/-- The potential has the reflective boundary condition in a box. -/
structure Spec.ReflectiveBox (pot : Potential ℝ d) (lo hi : Fin d → ℝ) : Prop where
  reflective : pot.bc = some .reflective
  ranges : ∀ k : Fin d, pot.ranges.getD k (0, 0) = (lo k, hi k)
  lt : ∀ k, lo k < hi k

/-- The next position of an overdamped walker. -/
def Spec.eulerMove (pot : Potential ℝ d) (dt : ℝ) (noise x : Fin d → ℝ) : Fin d → ℝ :=
  (eulerStep pot.force (boundary pot.bc pot.ranges) dt noise (x, 0)).1

/-- The positions do not depend on the momenta. -/
theorem eulerMove_stepMap (pot : Potential ℝ d) (dt friction kt m : ℝ) (n1 n2 : Fin d → ℝ) (s : Phase d) :
    (stepMap .overdamped pot dt friction kt m n1 n2 s).1 = eulerMove pot dt n1 s.1 := by
  funext k
  simp only [stepMap, eulerMove, eulerStep, boundary, boundary1]
  cases pot.bc with
  | none => rfl
  | some b => cases b <;> (dsimp only; split_ifs <;> rfl)

theorem measurable_eulerMove (pot : Potential ℝ d) (hF : Measurable pot.force) (dt : ℝ) :
    Measurable (fun z : (Fin d → ℝ) × (Fin d → ℝ) => eulerMove pot dt z.2 z.1) := by
  have h := (measurable_stepMap .overdamped pot hF dt 0 0 0).fst
  have h2 : Measurable (fun z : (Fin d → ℝ) × (Fin d → ℝ) => (((z.1, (0 : Fin d → ℝ)), z.2), (0 : Fin d → ℝ))) := by fun_prop
  exact h.comp h2

theorem eulerMove_afterStep (pot : Potential ℝ d) (hF : Measurable pot.force) (dt friction kt m : ℝ) (μ : Measure (Phase d))
    [IsProbabilityMeasure μ] : (afterStep (stepMap .overdamped pot dt friction kt m) μ).map Prod.fst =
      afterMove (eulerMove pot dt) (μ.map Prod.fst) := by
  exact afterStep_positions (measurable_stepMap .overdamped pot hF dt friction kt m) (measurable_eulerMove pot hF dt)
    (eulerMove_stepMap pot dt friction kt m) μ

theorem afterMove_probability {step : (Fin d → ℝ) → (Fin d → ℝ) → (Fin d → ℝ)}
    (hM : Measurable (fun z : (Fin d → ℝ) × (Fin d → ℝ) => step z.2 z.1)) (μ : Measure (Fin d → ℝ)) [IsProbabilityMeasure μ] :
    IsProbabilityMeasure (afterMove step μ) := Measure.isProbabilityMeasure_map hM.aemeasurable

theorem afterMove_iterate_probability {step : (Fin d → ℝ) → (Fin d → ℝ) → (Fin d → ℝ)}
    (hM : Measurable (fun z : (Fin d → ℝ) × (Fin d → ℝ) => step z.2 z.1)) (μ : Measure (Fin d → ℝ)) [IsProbabilityMeasure μ] (n : ℕ) :
    IsProbabilityMeasure ((afterMove step)^[n] μ) := by
  induction n with
  | zero => simpa
  | succ n ih =>
    rw [Function.iterate_succ_apply']
    exact afterMove_probability hM _

theorem eulerMove_iterate (pot : Potential ℝ d) (hF : Measurable pot.force) (dt friction kt m : ℝ) (μ : Measure (Phase d))
    [IsProbabilityMeasure μ] (n : ℕ) : ((afterStep (stepMap .overdamped pot dt friction kt m))^[n] μ).map Prod.fst =
      (afterMove (eulerMove pot dt))^[n] (μ.map Prod.fst) := by
  induction n with
  | zero => rfl
  | succ n ih =>
    have := afterStep_iterate_probability (measurable_stepMap .overdamped pot hF dt friction kt m) μ n
    rw [Function.iterate_succ_apply', Function.iterate_succ_apply', eulerMove_afterStep pot hF, ih]

/-- The distribution of the next position. -/
def Spec.nextPosition (step : (Fin d → ℝ) → (Fin d → ℝ) → (Fin d → ℝ)) (x : Fin d → ℝ) : Measure (Fin d → ℝ) :=
  (standard d).map (fun noise => step noise x)

/-- Probability to be in a region after `n` steps from a position. -/
def Spec.hitting (step : (Fin d → ℝ) → (Fin d → ℝ) → (Fin d → ℝ)) (A : Set (Fin d → ℝ)) : ℕ → (Fin d → ℝ) → ℝ
  | 0 => A.indicator 1
  | n + 1 => fun x => ∫ y, Spec.hitting step A n y ∂nextPosition step x

section
variable {step : (Fin d → ℝ) → (Fin d → ℝ) → (Fin d → ℝ)} (hM : Measurable (fun z : (Fin d → ℝ) × (Fin d → ℝ) => step z.2 z.1))
  {A : Set (Fin d → ℝ)} (hA : MeasurableSet A)
include hM

theorem measurable_from (x : Fin d → ℝ) : Measurable (fun noise => step noise x) :=
  hM.comp (measurable_prodMk_left (x := x))

theorem nextPosition_probability (x : Fin d → ℝ) : IsProbabilityMeasure (nextPosition step x) :=
  Measure.isProbabilityMeasure_map (measurable_from hM x).aemeasurable

include hA

theorem hitting_measurable (n : ℕ) : Measurable (hitting step A n) := by
  induction n with
  | zero => exact measurable_one.indicator hA
  | succ n ih =>
    have e : hitting step A (n + 1) = fun x => ∫ noise, hitting step A n (step noise x) ∂standard d := by
      funext x
      exact integral_map (measurable_from hM x).aemeasurable ih.aestronglyMeasurable
    rw [e]
    have := (ih.comp hM).stronglyMeasurable
    exact (this.integral_prod_right' (ν := standard d)).measurable

theorem hitting_bounded (n : ℕ) (x : Fin d → ℝ) : 0 ≤ hitting step A n x ∧ hitting step A n x ≤ 1 :=
  chain_bounded (nextPosition_probability hM) (hitting_measurable hM hA) (fun x => by
    unfold hitting
    by_cases h : x ∈ A <;> simp [h]) (fun _ _ => rfl) n x

theorem hitting_integrable (μ : Measure (Fin d → ℝ)) [IsFiniteMeasure μ] (n : ℕ) : Integrable (hitting step A n) μ :=
  Integrable.of_bound (hitting_measurable hM hA n).aestronglyMeasurable 1 (ae_of_all _ fun y => by
    have := hitting_bounded hM hA n y
    rw [Real.norm_eq_abs, abs_le]
    exact ⟨by linarith, this.2⟩)

theorem hitting_afterMove (μ : Measure (Fin d → ℝ)) [IsProbabilityMeasure μ] (n : ℕ) :
    ∫ x, hitting step A n x ∂afterMove step μ = ∫ x, hitting step A (n + 1) x ∂μ := by
  have hm := hitting_measurable hM hA n
  have := afterMove_probability hM μ
  have hint : Integrable (fun z : (Fin d → ℝ) × (Fin d → ℝ) => hitting step A n (step z.2 z.1)) (μ.prod (standard d)) :=
    (hitting_integrable hM hA (afterMove step μ) n).comp_aemeasurable hM.aemeasurable
  unfold afterMove
  rw [integral_map hM.aemeasurable hm.aestronglyMeasurable, integral_prod _ hint]
  refine integral_congr_ae (ae_of_all _ fun x => ?_)
  exact (integral_map (measurable_from hM x).aemeasurable hm.aestronglyMeasurable).symm

theorem hitting_iterate (μ : Measure (Fin d → ℝ)) [IsProbabilityMeasure μ] (k n : ℕ) :
    ∫ x, hitting step A k x ∂(afterMove step)^[n] μ = ∫ x, hitting step A (k + n) x ∂μ := by
  induction n generalizing k with
  | zero => rfl
  | succ n ih =>
    have := afterMove_iterate_probability hM μ n
    rw [Function.iterate_succ_apply', hitting_afterMove hM hA, ih, Nat.add_right_comm, Nat.add_assoc]

/-- The probability after `n` steps of any distribution. -/
theorem hitting_probability (μ : Measure (Fin d → ℝ)) [IsProbabilityMeasure μ] (n : ℕ) :
    ((afterMove step)^[n] μ).real A = ∫ x, hitting step A n x ∂μ := by
  have h := hitting_iterate hM hA μ 0 n
  rw [Nat.zero_add] at h
  rw [← h]
  unfold hitting
  rw [integral_indicator_one hA]

end

/-! ### Walkers in a box -/

theorem box_fixed {pot : Potential ℝ d} {lo hi : Fin d → ℝ} (h : ReflectiveBox pot lo hi) (dt : ℝ) (noise x : Fin d → ℝ) :
    eulerMove pot dt noise x ∈ Set.Icc lo hi ∧
      ((fun k => x k + pot.force x k * dt + Real.sqrt (2 * dt) * noise k) ∈ Set.Icc lo hi →
        eulerMove pot dt noise x = fun k => x k + pot.force x k * dt + Real.sqrt (2 * dt) * noise k) := by
  have e : ∀ k, eulerMove pot dt noise x k = (boundary1 (some .reflective) (lo k, hi k)
      (x k + pot.force x k * dt + Real.sqrt (2 * dt) * noise k) 0).1 := fun k => by
    simp only [eulerMove, eulerStep, boundary, h.reflective, h.ranges k]
    rfl
  refine ⟨⟨fun k => ?_, fun k => ?_⟩, fun hy => funext fun k => ?_⟩
  · rw [e]
    unfold boundary1
    have := h.lt k
    dsimp only
    split_ifs with h1 h2
    · exact this.le
    · exact le_rfl
    · exact not_lt.1 h2
  · rw [e]
    unfold boundary1
    have := h.lt k
    dsimp only
    split_ifs with h1 h2
    · exact le_rfl
    · exact this.le
    · by_contra h3
      exact h1 ⟨not_le.1 h3, not_lt.1 h2⟩
  · rw [e]
    unfold boundary1
    dsimp only
    have h1 : lo k ≤ _ := hy.1 k
    have h2 : _ ≤ hi k := hy.2 k
    rw [if_neg (by intro h3; linarith [h3.1]), if_neg (by intro h3; linarith)]

/-- All positions of the box have a common part of the distribution of the next position. -/
theorem box_common {pot : Potential ℝ d} {lo hi : Fin d → ℝ} (h : ReflectiveBox pot lo hi) (hF : Measurable pot.force) {dt : ℝ}
    (hdt : 0 < dt) {F : ℝ} (hb : ∀ x ∈ Set.Icc lo hi, ∀ k, |pot.force x k| ≤ F) :
    ∃ q : ℝ≥0∞, q ≠ 0 ∧ q ≠ ∞ ∧ ∀ x ∈ Set.Icc lo hi, q • volume.restrict (Set.Icc lo hi) ≤ nextPosition (eulerMove pot dt) x := by
  obtain ⟨K, k0, k1, hK⟩ := normals_density (d := d) (fun _ => 0) (fun _ => 1) (fun _ => one_pos)
  have hσ : 0 < Real.sqrt (2 * dt) := Real.sqrt_pos.2 (by linarith)
  set σ := Real.sqrt (2 * dt) with hσd
  set R : ℝ := (∑ k, (hi k - lo k)) + F * dt with hR
  set e0 : ℝ := Real.exp (-∑ _k : Fin d, (R / σ) ^ 2 / (2 * 1)) with he0
  have hM := measurable_eulerMove pot hF dt
  refine ⟨K⁻¹ * (ENNReal.ofReal e0 * ENNReal.ofReal |(σ ^ d)⁻¹|), ?_, ?_, fun x hx => ?_⟩
  · refine mul_ne_zero (ENNReal.inv_ne_zero.2 k1) (mul_ne_zero ?_ ?_)
    · simpa using Real.exp_pos _
    · rw [ENNReal.ofReal_ne_zero_iff]
      exact abs_pos.2 (inv_ne_zero (pow_ne_zero d hσ.ne'))
  · exact ENNReal.mul_ne_top (ENNReal.inv_ne_top.2 k0) (ENNReal.mul_ne_top ENNReal.ofReal_ne_top ENNReal.ofReal_ne_top)
  · refine Measure.le_iff.2 fun A hA => ?_
    set m : Fin d → ℝ := fun k => x k + pot.force x k * dt with hm
    set D : Set (Fin d → ℝ) := A ∩ Set.Icc lo hi with hD
    have hDm : MeasurableSet D := hA.inter measurableSet_Icc
    set S : Set (Fin d → ℝ) := (σ • ·) ⁻¹' ((m + ·) ⁻¹' D) with hS
    have hSm : MeasurableSet S := by
      refine (measurable_const_smul σ) ((measurable_const_add m) hDm)
    have hvol : volume S = ENNReal.ofReal |(σ ^ d)⁻¹| * volume D := by
      rw [hS, Measure.addHaar_preimage_smul _ hσ.ne', measure_preimage_add, Module.finrank_fin_fun]
    have hle : ENNReal.ofReal e0 * volume S ≤ K * standard d S := by
      have : K * standard d S = (K • normals (fun _ : Fin d => (0 : ℝ)) (fun _ => 1)) S := by
        rw [Measure.smul_apply, smul_eq_mul]
      rw [this, ← hK, withDensity_apply _ hSm, ← setLIntegral_const]
      refine setLIntegral_mono' hSm fun y hy => ENNReal.ofReal_le_ofReal ?_
      rw [he0, Real.exp_le_exp, neg_le_neg_iff]
      refine Finset.sum_le_sum fun k _ => ?_
      have hyD : m + σ • y ∈ Set.Icc lo hi := hy.2
      have h1 := hyD.1 k
      have h2 := hyD.2 k
      have h3 := hx.1 k
      have h4 := hx.2 k
      have h5 := abs_le.1 (hb x hx k)
      simp only [Pi.add_apply, Pi.smul_apply, smul_eq_mul, hm] at h1 h2
      have hside : hi k - lo k ≤ ∑ k, (hi k - lo k) :=
        Finset.single_le_sum (f := fun k => hi k - lo k) (fun j _ => by linarith [h.lt j]) (Finset.mem_univ k)
      have h6 : |σ * y k| ≤ R := by
        rw [abs_le, hR]
        constructor <;> nlinarith
      have h7 : |y k - 0| ≤ R / σ := by
        rw [le_div_iff₀ hσ, sub_zero, mul_comm, ← abs_of_pos hσ, ← abs_mul]
        exact h6
      have h8 : (y k - 0) ^ 2 ≤ (R / σ) ^ 2 := sq_le_sq' (abs_le.1 h7).1 (abs_le.1 h7).2
      linarith
    have hsub : S ⊆ (fun noise => eulerMove pot dt noise x) ⁻¹' A := by
      intro y hy
      have hy' : (fun k => x k + pot.force x k * dt + σ * y k) ∈ D := hy
      rw [Set.mem_preimage, (box_fixed h dt y x).2 hy'.2]
      exact hy'.1
    rw [Measure.smul_apply, smul_eq_mul, Measure.restrict_apply hA, nextPosition, Measure.map_apply (measurable_from hM x) hA]
    refine le_trans ?_ (measure_mono hsub)
    calc K⁻¹ * (ENNReal.ofReal e0 * ENNReal.ofReal |(σ ^ d)⁻¹|) * volume D = K⁻¹ * (ENNReal.ofReal e0 * volume S) := by
          rw [hvol]
          ring
      _ ≤ K⁻¹ * (K * standard d S) := by gcongr
      _ = standard d S := by rw [← mul_assoc, ENNReal.inv_mul_cancel k0 k1, one_mul]

/-- The probability that an overdamped walker in a box is in a region approaches a limit that does not depend on its
start, geometrically and at the same rate for all starts and all regions. -/
theorem box_settles {pot : Potential ℝ d} {lo hi : Fin d → ℝ} (h : ReflectiveBox pot lo hi) (hF : Measurable pot.force) {dt : ℝ}
    (hdt : 0 < dt) {F : ℝ} (hb : ∀ x ∈ Set.Icc lo hi, ∀ k, |pot.force x k| ≤ F) :
    ∃ r : ℝ, 0 ≤ r ∧ r < 1 ∧ ∃ p : Set (Fin d → ℝ) → ℝ, ∀ A, MeasurableSet A → ∀ n x,
      |hitting (eulerMove pot dt) A (n + 1) x - p A| ≤ r ^ n := by
  obtain ⟨q, q0, q1, hq⟩ := box_common h hF hdt hb
  have hM := measurable_eulerMove pot hF dt
  have hp := nextPosition_probability hM
  have hlo : lo ∈ Set.Icc lo hi := ⟨le_rfl, fun k => (h.lt k).le⟩
  have hvol : volume (Set.Icc lo hi) = ∏ k, ENNReal.ofReal (hi k - lo k) := Real.volume_Icc_pi
  have hv0 : volume (Set.Icc lo hi) ≠ 0 := by
    rw [hvol, Finset.prod_ne_zero_iff]
    intro k _
    simpa using h.lt k
  have hv1 : volume (Set.Icc lo hi) ≠ ∞ := by
    rw [hvol]
    exact ENNReal.prod_ne_top fun k _ => ENNReal.ofReal_ne_top
  set lam : Measure (Fin d → ℝ) := q • volume.restrict (Set.Icc lo hi) with hlam
  have hu : lam Set.univ = q * volume (Set.Icc lo hi) := by
    rw [hlam, Measure.smul_apply, smul_eq_mul, Measure.restrict_apply_univ]
  have hfin : IsFiniteMeasure lam := ⟨by rw [hu]; exact (ENNReal.mul_ne_top q1 hv1).lt_top⟩
  have hc0 : 0 < lam.real Set.univ := by
    rw [Measure.real, hu]
    exact ENNReal.toReal_pos (mul_ne_zero q0 hv0) (ENNReal.mul_ne_top q1 hv1)
  have hc1 : lam.real Set.univ ≤ 1 := by
    have := hp lo
    have h1 := hq lo hlo Set.univ
    rw [measure_univ (μ := nextPosition (eulerMove pot dt) lo)] at h1
    exact ENNReal.toReal_le_of_le_ofReal zero_le_one (by rw [ENNReal.ofReal_one]; exact h1)
  have key : ∀ A, MeasurableSet A → ∃ p, ∀ n x, |hitting (eulerMove pot dt) A (n + 1) x - p| ≤ (1 - lam.real Set.univ) ^ n :=
    fun A hA => doeblin_limit hp (B := Set.Icc lo hi) (fun x => by
      rw [nextPosition, Measure.map_apply (measurable_from hM x) measurableSet_Icc.compl]
      have : (fun noise => eulerMove pot dt noise x) ⁻¹' (Set.Icc lo hi)ᶜ = ∅ :=
        Set.eq_empty_iff_forall_notMem.2 fun y hy => hy (box_fixed h dt y x).1
      rw [this, measure_empty]) hq (by
      rw [hlam, Measure.smul_apply, Measure.restrict_apply measurableSet_Icc.compl]
      simp) rfl hc1 (hitting_measurable hM hA) (hitting_bounded hM hA 0) (fun _ _ => rfl)
  classical
  refine ⟨1 - lam.real Set.univ, by linarith, by linarith, fun A => if hA : MeasurableSet A then (key A hA).choose else 0, fun A hA n x => ?_⟩
  dsimp only
  rw [dif_pos hA]
  exact (key A hA).choose_spec n x

/-! ### The stationary distribution -/

section
variable {X : Type} [MeasurableSpace X]

/-- A uniform limit of probability measures is one. -/
theorem limit_measure (μ : ℕ → Measure X) [∀ n, IsProbabilityMeasure (μ n)] (p : Set X → ℝ) (ε : ℕ → ℝ) (hε : Tendsto ε atTop (𝓝 0))
    (h : ∀ n A, MeasurableSet A → |(μ n).real A - p A| ≤ ε n) :
    ∃ π : Measure X, IsProbabilityMeasure π ∧ ∀ A, MeasurableSet A → π.real A = p A := by
  have hlim : ∀ A, MeasurableSet A → Tendsto (fun n => (μ n).real A) atTop (𝓝 (p A)) := fun A hA => by
    rw [tendsto_iff_dist_tendsto_zero]
    exact squeeze_zero (fun _ => dist_nonneg) (fun n => by rw [Real.dist_eq]; exact h n A hA) hε
  have h0 : ∀ A, MeasurableSet A → 0 ≤ p A := fun A hA => ge_of_tendsto' (hlim A hA) fun n => measureReal_nonneg
  have hempty : p ∅ = 0 := tendsto_nhds_unique (hlim ∅ MeasurableSet.empty) (by simp)
  have huniv : p Set.univ = 1 := tendsto_nhds_unique (hlim _ MeasurableSet.univ) (by simp)
  have hsum : ∀ f : ℕ → Set X, (∀ i, MeasurableSet (f i)) → Pairwise (Function.onFun _root_.Disjoint f) →
      HasSum (fun i => p (f i)) (p (⋃ i, f i)) := by
    intro f hf hd
    rw [hasSum_iff_tendsto_nat_of_nonneg fun i => h0 _ (hf i)]
    have hfin : ∀ k, ∑ i ∈ Finset.range k, p (f i) = p (⋃ i ∈ Finset.range k, f i) := fun k => by
      refine tendsto_nhds_unique (tendsto_finsetSum _ fun i _ => hlim _ (hf i)) ?_
      refine (hlim _ (Finset.measurableSet_biUnion _ fun i _ => hf i)).congr fun n => ?_
      exact measureReal_biUnion_finset (fun i _ j _ hij => hd hij) (fun i _ => hf i)
    rw [Metric.tendsto_atTop]
    intro e he
    obtain ⟨n, hn⟩ := (hε.eventually (gt_mem_nhds (show (0 : ℝ) < e / 3 by linarith))).exists
    have hm : Tendsto (fun k => (μ n).real (⋃ i ∈ Finset.range k, f i)) atTop (𝓝 ((μ n).real (⋃ i, f i))) := by
      have hs : HasSum (fun i => (μ n).real (f i)) ((μ n).real (⋃ i, f i)) := by
        have e1 := measure_iUnion (μ := μ n) hd hf
        have e2 : ∑' i, (μ n) (f i) ≠ ∞ := by rw [← e1]; exact measure_ne_top _ _
        have := ENNReal.hasSum_toReal e2
        rw [← ENNReal.tsum_toReal_eq (fun i => measure_ne_top _ _), ← e1] at this
        exact this
      refine hs.tendsto_sum_nat.congr fun k => ?_
      exact (measureReal_biUnion_finset (fun i _ j _ hij => hd hij) (fun i _ => hf i)).symm
    obtain ⟨K, hK⟩ := Metric.tendsto_atTop.1 hm (e / 3) (by linarith)
    refine ⟨K, fun k hk => ?_⟩
    have h1 := h n _ (Finset.measurableSet_biUnion (Finset.range k) fun i _ => hf i)
    have h2 := h n _ (MeasurableSet.iUnion hf)
    have h3 := hK k hk
    rw [Real.dist_eq] at h3 ⊢
    rw [hfin]
    rw [abs_le] at h1 h2
    rw [abs_lt] at h3 ⊢
    constructor <;> linarith [h1.1, h1.2, h2.1, h2.2, h3.1, h3.2]
  let π : Measure X := Measure.ofMeasurable (fun A _ => ENNReal.ofReal (p A)) (by rw [hempty, ENNReal.ofReal_zero]) (fun f hf hd => by
    have := hsum f hf hd
    rw [← this.tsum_eq, ENNReal.ofReal_tsum_of_nonneg (fun i => h0 _ (hf i)) this.summable])
  have hπ : ∀ A, MeasurableSet A → π A = ENNReal.ofReal (p A) := fun A hA => Measure.ofMeasurable_apply A hA
  refine ⟨π, ⟨by rw [hπ _ MeasurableSet.univ, huniv, ENNReal.ofReal_one]⟩, fun A hA => ?_⟩
  rw [Measure.real, hπ A hA, ENNReal.toReal_ofReal (h0 A hA)]

/-- Integrals of numbers between 0 and 1 differ at most by the largest difference of the probabilities. -/
theorem integral_near (μ ν : Measure X) [IsProbabilityMeasure μ] [IsProbabilityMeasure ν] {ε : ℝ}
    (h : ∀ A, MeasurableSet A → |μ.real A - ν.real A| ≤ ε) {f : X → ℝ} (hf : Measurable f) (hb : ∀ x, 0 ≤ f x ∧ f x ≤ 1) :
    |(∫ x, f x ∂μ) - ∫ x, f x ∂ν| ≤ ε := by
  have hint : ∀ (μ : Measure X) [IsProbabilityMeasure μ], Integrable f μ := fun μ _ =>
    Integrable.of_bound hf.aestronglyMeasurable 1 (ae_of_all _ fun y => by
      rw [Real.norm_eq_abs, abs_le]
      exact ⟨by linarith [(hb y).1], (hb y).2⟩)
  have e : ∀ (μ : Measure X) [IsProbabilityMeasure μ], ∫ x, f x ∂μ = ∫ t in Set.Ioc 0 1, μ.real {a | t ≤ f a} := fun μ _ =>
    (hint μ).integral_eq_integral_Ioc_meas_le (ae_of_all _ fun x => (hb x).1) (ae_of_all _ fun x => (hb x).2)
  have hanti : ∀ (μ : Measure X) [IsProbabilityMeasure μ], Antitone (fun t : ℝ => μ.real {a | t ≤ f a}) := fun μ _ s t hst =>
    measureReal_mono fun a ha => le_trans hst ha
  have hint' : ∀ (μ : Measure X) [IsProbabilityMeasure μ], Integrable (fun t : ℝ => μ.real {a | t ≤ f a}) (volume.restrict (Set.Ioc 0 1)) :=
    fun μ _ => Integrable.of_bound (hanti μ).measurable.aestronglyMeasurable 1 (ae_of_all _ fun t => by
      rw [Real.norm_eq_abs, abs_of_nonneg measureReal_nonneg]
      exact measureReal_le_one)
  rw [e μ, e ν, ← integral_sub (hint' μ) (hint' ν), ← Real.norm_eq_abs]
  have := norm_setIntegral_le_of_norm_le_const (μ := (volume : Measure ℝ)) (s := Set.Ioc (0 : ℝ) 1) (C := ε)
    (f := fun t => μ.real {a | t ≤ f a} - ν.real {a | t ≤ f a}) (by simp) (fun t _ => by
      rw [Real.norm_eq_abs]
      exact h _ (measurableSet_le measurable_const hf))
  simpa using this

end

/-- **C157.** There is exactly one stationary distribution of the positions of overdamped walkers in a box, and the distribution of
a walker approaches it geometrically from every start, at the same rate for all starts and all regions. -/
theorem box_stationary {pot : Potential ℝ d} {lo hi : Fin d → ℝ} (h : ReflectiveBox pot lo hi) (hF : Measurable pot.force) {dt : ℝ}
    (hdt : 0 < dt) {F : ℝ} (hb : ∀ x ∈ Set.Icc lo hi, ∀ k, |pot.force x k| ≤ F) :
    ∃ π : Measure (Fin d → ℝ), IsProbabilityMeasure π ∧ afterMove (eulerMove pot dt) π = π ∧ π (Set.Icc lo hi) = 1 ∧
      (∀ ν : Measure (Fin d → ℝ), IsProbabilityMeasure ν → afterMove (eulerMove pot dt) ν = ν → ν = π) ∧
      ∃ r : ℝ, 0 ≤ r ∧ r < 1 ∧ ∀ (μ : Measure (Fin d → ℝ)), IsProbabilityMeasure μ → ∀ n A, MeasurableSet A →
        |((afterMove (eulerMove pot dt))^[n + 1] μ).real A - π.real A| ≤ r ^ n := by
  obtain ⟨r, r0, r1, p, hp⟩ := box_settles h hF hdt hb
  have hM := measurable_eulerMove pot hF dt
  have hrate : ∀ (μ : Measure (Fin d → ℝ)), IsProbabilityMeasure μ → ∀ n A, MeasurableSet A →
      |((afterMove (eulerMove pot dt))^[n + 1] μ).real A - p A| ≤ r ^ n := by
    intro μ _ n A hA
    rw [hitting_probability hM hA]
    have e : (∫ x, hitting (eulerMove pot dt) A (n + 1) x ∂μ) - p A = ∫ x, (hitting (eulerMove pot dt) A (n + 1) x - p A) ∂μ := by
      rw [integral_sub (hitting_integrable hM hA μ _) (integrable_const _)]
      simp
    rw [e, ← Real.norm_eq_abs]
    have := norm_integral_le_of_norm_le_const (μ := μ) (C := r ^ n) (f := fun x => hitting (eulerMove pot dt) A (n + 1) x - p A)
      (ae_of_all _ fun x => by rw [Real.norm_eq_abs]; exact hp A hA n x)
    simpa using this
  have hr0 : Tendsto (fun n => r ^ n) atTop (𝓝 0) := tendsto_pow_atTop_nhds_zero_of_lt_one r0 r1
  have hprob := fun n => afterMove_iterate_probability hM (Measure.dirac lo) n
  obtain ⟨π, hπ, hπp⟩ := limit_measure (fun n => (afterMove (eulerMove pot dt))^[n + 1] (Measure.dirac lo)) p _ hr0
    (fun n A hA => hrate _ inferInstance n A hA)
  have hrate' : ∀ (μ : Measure (Fin d → ℝ)), IsProbabilityMeasure μ → ∀ n A, MeasurableSet A →
      |((afterMove (eulerMove pot dt))^[n + 1] μ).real A - π.real A| ≤ r ^ n := fun μ hμ n A hA => by
    rw [hπp A hA]
    exact hrate μ hμ n A hA
  have hext : ∀ ν ν' : Measure (Fin d → ℝ), IsProbabilityMeasure ν → IsProbabilityMeasure ν' →
      (∀ A, MeasurableSet A → ν.real A = ν'.real A) → ν = ν' := fun ν ν' _ _ he =>
    Measure.ext fun A hA => (ENNReal.toReal_eq_toReal_iff' (measure_ne_top _ _) (measure_ne_top _ _)).1 (he A hA)
  have hstat : afterMove (eulerMove pot dt) π = π := by
    refine hext _ _ (afterMove_probability hM π) hπ fun A hA => ?_
    have h1 : (afterMove (eulerMove pot dt) π).real A = ∫ x, hitting (eulerMove pot dt) A 1 x ∂π := hitting_probability hM hA π 1
    have h2 : ∀ n, |(∫ x, hitting (eulerMove pot dt) A 1 x ∂(afterMove (eulerMove pot dt))^[n + 1] (Measure.dirac lo)) -
        ∫ x, hitting (eulerMove pot dt) A 1 x ∂π| ≤ r ^ n := fun n =>
      integral_near _ π (fun A hA => hrate' _ inferInstance n A hA) (hitting_measurable hM hA 1) (hitting_bounded hM hA 1)
    have h3 : ∀ n, (∫ x, hitting (eulerMove pot dt) A 1 x ∂(afterMove (eulerMove pot dt))^[n + 1] (Measure.dirac lo)) =
        ((afterMove (eulerMove pot dt))^[n + 1 + 1] (Measure.dirac lo)).real A := fun n => by
      rw [hitting_iterate hM hA, hitting_probability hM hA, Nat.add_comm 1 (n + 1)]
    have t1 : Tendsto (fun n => ((afterMove (eulerMove pot dt))^[n + 1 + 1] (Measure.dirac lo)).real A) atTop
        (𝓝 (∫ x, hitting (eulerMove pot dt) A 1 x ∂π)) := by
      rw [tendsto_iff_dist_tendsto_zero]
      exact squeeze_zero (fun _ => dist_nonneg) (fun n => by rw [Real.dist_eq, ← h3]; exact h2 n) hr0
    have t2 : Tendsto (fun n => ((afterMove (eulerMove pot dt))^[n + 1 + 1] (Measure.dirac lo)).real A) atTop (𝓝 (π.real A)) := by
      rw [tendsto_iff_dist_tendsto_zero]
      exact squeeze_zero (fun _ => dist_nonneg) (fun n => by rw [Real.dist_eq]; exact hrate' _ inferInstance (n + 1) A hA)
        (hr0.comp (tendsto_add_atTop_nat 1))
    rw [h1]
    exact tendsto_nhds_unique t1 t2
  refine ⟨π, hπ, hstat, ?_, fun ν hν hs => ?_, r, r0, r1, hrate'⟩
  · rw [← hstat, afterMove, Measure.map_apply hM measurableSet_Icc]
    have : (fun z : (Fin d → ℝ) × (Fin d → ℝ) => eulerMove pot dt z.2 z.1) ⁻¹' Set.Icc lo hi = Set.univ :=
      Set.eq_univ_of_forall fun z => (box_fixed h dt z.2 z.1).1
    rw [this, measure_univ]
  · refine hext _ _ hν hπ fun A hA => ?_
    have hfix : ∀ n, (afterMove (eulerMove pot dt))^[n] ν = ν := fun n => Function.iterate_fixed hs n
    have t : Tendsto (fun _ : ℕ => ν.real A) atTop (𝓝 (π.real A)) := by
      rw [tendsto_iff_dist_tendsto_zero]
      refine squeeze_zero (fun _ => dist_nonneg) (fun n => ?_) hr0
      have := hrate' ν hν n A hA
      rw [hfix] at this
      rw [Real.dist_eq]
      exact this
    exact tendsto_nhds_unique tendsto_const_nhds t

end

end Bdld
