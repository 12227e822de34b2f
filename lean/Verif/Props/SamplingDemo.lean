import Verif.Props.SamplingCanonical

/-
C153: the theorems about samples for the potential `U(x) = x` in the unit interval with two bins.
-/

namespace Bdld

open MeasureTheory ProbabilityTheory Filter Topology Spec

/-- The unit interval. -/
def unitSegment : Set (Fin 1 → ℝ) := Set.univ.pi (fun _ => Set.Icc 0 1)

/-- An empty histogram of the unit interval with two bins. -/
noncomputable def twoBins : Histogram ℝ := ⟨[[0, 1 / 2, 1]], fun _ => 0⟩

theorem segment_weight : ∫⁻ x in unitSegment, weight rampPotential.energy 1 x ≠ 0 ∧
    ∫⁻ x in unitSegment, weight rampPotential.energy 1 x ≠ ⊤ := by
  have hm : MeasurableSet unitSegment := MeasurableSet.univ_pi fun _ => measurableSet_Icc
  have hv : volume unitSegment = 1 := by
    unfold unitSegment
    rw [volume_pi_pi]
    simp
  have hb : ∀ x ∈ unitSegment, ENNReal.ofReal (Real.exp (-1)) ≤ weight rampPotential.energy 1 x ∧
      weight rampPotential.energy 1 x ≤ 1 := by
    intro x hx
    have h := Set.mem_univ_pi.1 hx 0
    simp only [weight, rampPotential, div_one]
    refine ⟨ENNReal.ofReal_le_ofReal (Real.exp_le_exp.2 (by linarith [h.2])), ?_⟩
    rw [ENNReal.ofReal_le_one, Real.exp_le_one_iff]
    linarith [h.1]
  constructor
  · have : ∫⁻ _ in unitSegment, ENNReal.ofReal (Real.exp (-1)) ≤ ∫⁻ x in unitSegment, weight rampPotential.energy 1 x :=
      setLIntegral_mono' hm fun x hx => (hb x hx).1
    rw [setLIntegral_const, hv, mul_one] at this
    have hp : 0 < ENNReal.ofReal (Real.exp (-1)) := ENNReal.ofReal_pos.2 (Real.exp_pos _)
    exact (hp.trans_le this).ne'
  · have : ∫⁻ x in unitSegment, weight rampPotential.energy 1 x ≤ ∫⁻ _ in unitSegment, 1 :=
      setLIntegral_mono' hm fun x hx => (hb x hx).2
    rw [setLIntegral_const, hv, mul_one] at this
    exact (this.trans_lt ENNReal.one_lt_top).ne

/-- The canonical distribution in the unit interval. -/
noncomputable def segmentCanonical : Measure (Fin 1 → ℝ) := canonicalIn rampPotential.energy 1 unitSegment

instance : IsProbabilityMeasure segmentCanonical := canonicalIn_prob _ _ _ segment_weight.1 segment_weight.2

theorem twoBins_good : ∀ e ∈ twoBins.bins, GoodEdges e := by
  intro e he
  simp only [twoBins, List.mem_singleton] at he
  subst he
  refine ⟨by simp, ?_⟩
  simp
  norm_num

theorem twoBins_even (k : Fin 1) : (0 : ℝ) < 1 / 2 ∧ EvenBins (1 / 2) (twoBins.bins[k]'(by simp [twoBins])) := by
  refine ⟨by norm_num, ?_⟩
  have : twoBins.bins[k]'(by simp [twoBins]) = [0, 1 / 2, 1] := by
    fin_cases k
    rfl
  rw [this]
  intro i lo hi h1 h2
  match i with
  | 0 =>
    simp at h1 h2
    subst h1 h2
    norm_num
  | 1 =>
    simp at h1 h2
    subst h1 h2
    norm_num
  | i + 2 => simp at h2

theorem twoBins_indices : indices twoBins.shape = [[0], [1]] := by
  simp [twoBins, Histogram.shape, indices, List.range_succ_eq_map]

theorem twoBins_zero (x : Fin 1 → ℝ) : x ∈ binRegion twoBins.bins [0] ↔ 0 ≤ x 0 ∧ x 0 < 1 / 2 := by
  simp [binRegion, twoBins, InBin, InBin1]

theorem twoBins_one (x : Fin 1 → ℝ) : x ∈ binRegion twoBins.bins [1] ↔ 1 / 2 ≤ x 0 ∧ x 0 ≤ 1 := by
  simp [binRegion, twoBins, InBin, InBin1, le_iff_lt_or_eq]

theorem twoBins_inside : ∀ idx ∈ indices twoBins.shape, binRegion twoBins.bins idx ⊆ unitSegment := by
  intro idx h x hx
  have h2 : (1 : ℝ) / 2 ≤ 1 := by norm_num
  refine Set.mem_univ_pi.2 fun k => ?_
  rw [Subsingleton.elim k 0]
  rw [twoBins_indices] at h
  simp only [List.mem_cons, List.not_mem_nil, or_false] at h
  rcases h with rfl | rfl
  · rw [twoBins_zero] at hx
    exact ⟨hx.1, by linarith [hx.2]⟩
  · rw [twoBins_one] at hx
    exact ⟨by linarith [hx.1], hx.2⟩

theorem twoBins_change (i : Nat) (idx : List Nat) (c : Fin 1 → ℝ) (hi : (indices twoBins.shape)[i]? = some idx)
    (hc : [(fun _ : Fin 1 => (1 : ℝ) / 4), fun _ => 3 / 4][i]? = some c) :
    ∀ x ∈ binRegion twoBins.bins idx, |rampPotential.energy x - rampPotential.energy c| ≤ 1 / 4 := by
  rw [twoBins_indices] at hi
  intro x hx
  match i with
  | 0 =>
    simp at hi hc
    subst hi hc
    rw [twoBins_zero] at hx
    simp only [rampPotential]
    rw [abs_le]
    constructor <;> linarith [hx.1, hx.2]
  | 1 =>
    simp at hi hc
    subst hi hc
    rw [twoBins_one] at hx
    simp only [rampPotential]
    rw [abs_le]
    constructor <;> linarith [hx.1, hx.2]
  | i + 2 => simp at hi

/-- Every bin has a positive probability. -/
theorem twoBins_pos (idx : List Nat) (h : idx ∈ indices twoBins.shape) :
    0 < segmentCanonical.real (binRegion twoBins.bins idx) := by
  obtain ⟨i, hi⟩ := List.getElem?_of_mem h
  have hl : i < 2 := by
    have := (List.getElem?_eq_some_iff.1 hi).1
    rwa [twoBins_indices] at this
  obtain ⟨c, hc⟩ : ∃ c, [(fun _ : Fin 1 => (1 : ℝ) / 4), fun _ => 3 / 4][i]? = some c :=
    ⟨_, List.getElem?_eq_getElem (by simpa using hl)⟩
  refine (canonicalIn_near rampPotential.energy 1 one_pos unitSegment (binRegion twoBins.bins idx) segment_weight.1
    segment_weight.2 (binRegion_measurable _ _) (twoBins_inside idx h) (1 / 2) (by norm_num) ?_
    (rampPotential.energy c) (1 / 4) (twoBins_change i idx c hi hc)).2.1
  rw [binRegion_volume (d := 1) twoBins.bins rfl (fun _ => 1 / 2) (fun k => (twoBins_even k).2) idx h]
  simp

/-- The free energy difference of the two halves from independent samples, at most 1/2 wrong because of the bins. -/
example : ∀ᵐ ω ∂(Measure.infinitePi (fun _ : ℕ => segmentCanonical)), ∀ η > 0, ∀ᶠ n in atTop, ∃ H fes ref D,
    twoBins.add (firstSamples (fun i => ω i) n) = .ok H ∧ calculateFes H.counts 1 true = .ok fes ∧
    calculateReference rampPotential [fun _ => 1 / 4, fun _ => 3 / 4] true = .ok ref ∧
    calculateDeltaF fes 1 [[true, false], [false, true]] = .ok D ∧ fes.flat.length = 2 ∧ ref.length = 2 ∧
    (∀ (i : Nat) (r : ℝ), ref[i]? = some r →
      ∃ f : ℝ, fes.flat[i]? = some (f : WithTop ℝ) ∧ |f - r| ≤ 2 * (1 / 4) + η) ∧
    List.Forall₂ (fun x s => |x - referenceDeltaF rampPotential [fun _ => 1 / 4, fun _ => 3 / 4] 1 s [true, false]|
      ≤ 2 * (1 / 4) + η) D [[false, true]] :=
  canonical_fes rampPotential 1 one_pos unitSegment segment_weight.1 segment_weight.2 (sample_exists segmentCanonical)
    twoBins twoBins_good rfl (fun _ => 1 / 2) twoBins_even twoBins_inside _ (by rw [twoBins_indices]; rfl) (1 / 4)
    twoBins_change [true, false] [[false, true]] (by simp)

/-- The free energy difference itself tends to the one of the probabilities of the two halves. -/
example : ∀ᵐ ω ∂(Measure.infinitePi (fun _ : ℕ => segmentCanonical)), ∃ (H : ℕ → Histogram ℝ) (D : ℕ → List ℝ),
    (∀ n, twoBins.add (firstSamples (fun i => ω i) n) = .ok (H n)) ∧
    (∀ᶠ n in atTop, (do let fes ← calculateFes (H n).counts 1 true
                        calculateDeltaF fes 1 [[true, false], [false, true]]) = .ok (D n)) ∧
    ∃ f : ℕ → ℝ, (∀ n, (D n)[0]? = some (f n)) ∧ Tendsto f atTop (𝓝 (-1 * Real.log
      (segmentCanonical.real {x | 1 / 2 ≤ x 0 ∧ x 0 ≤ 1} / segmentCanonical.real {x | 0 ≤ x 0 ∧ x 0 < 1 / 2}))) := by
  have hz : {x : Fin 1 → ℝ | 0 ≤ x 0 ∧ x 0 < 1 / 2} = binRegion twoBins.bins [0] :=
    Set.ext fun x => (twoBins_zero x).symm
  have ho : {x : Fin 1 → ℝ | 1 / 2 ≤ x 0 ∧ x 0 ≤ 1} = binRegion twoBins.bins [1] :=
    Set.ext fun x => (twoBins_one x).symm
  have p0 := twoBins_pos [0] (by simp [twoBins_indices])
  have p1 := twoBins_pos [1] (by simp [twoBins_indices])
  have h := deltaF_limit (sample_exists segmentCanonical) twoBins twoBins_good rfl 1 one_pos [true, false] [[false, true]] (by
    simp [twoBins_indices, markedSum, p0, p1])
  filter_upwards [h] with ω hω
  obtain ⟨H, D, h1, h2, h3⟩ := hω
  refine ⟨H, D, h1, h2, ?_⟩
  obtain ⟨f, f1, f2⟩ := h3 0 [false, true] rfl
  refine ⟨f, f1, ?_⟩
  rw [hz, ho]
  simpa [twoBins_indices, markedSum] using f2

/-- The free energy surface tends to `kT ln(p_max / p)` in both bins. -/
example : ∀ᵐ ω ∂(Measure.infinitePi (fun _ : ℕ => segmentCanonical)), ∃ (H : ℕ → Histogram ℝ) (fes : ℕ → Nd (WithTop ℝ)),
    (∀ n, twoBins.add (firstSamples (fun i => ω i) n) = .ok (H n)) ∧ (∀ n, calculateFes (H n).counts 1 true = .ok (fes n)) ∧
    ∃ f : ℕ → ℝ, (∀ᶠ n in atTop, (fes n).flat[1]? = some (f n : WithTop ℝ)) ∧
      Tendsto f atTop (𝓝 (1 * Real.log (largest ((indices twoBins.shape).map fun j =>
        segmentCanonical.real (binRegion twoBins.bins j)) / segmentCanonical.real (binRegion twoBins.bins [1])))) := by
  filter_upwards [fes_limit (sample_exists segmentCanonical) twoBins twoBins_good rfl (fun _ => rfl) 1 one_pos] with ω hω
  obtain ⟨H, fes, h1, h2, h3⟩ := hω
  exact ⟨H, fes, h1, h2, (h3 1 [1] (by rw [twoBins_indices]; rfl)).2 (twoBins_pos [1] (by simp [twoBins_indices]))⟩

/-- With 10000 samples the fraction in the left half is wrong by 1/20 or more with a probability of at most 1/100. -/
example : (Measure.infinitePi (fun _ : ℕ => segmentCanonical)) {ω | ∃ h', twoBins.add (firstSamples (fun i => ω i) 10000) = .ok h' ∧
    (1 : ℝ) / 20 ≤ |(h'.data [0] : ℝ) / (10000 : ℕ) - segmentCanonical.real (binRegion twoBins.bins [0])|} ≤
      ENNReal.ofReal (1 / 100) := by
  refine (histogram_deviation (sample_exists segmentCanonical) twoBins twoBins_good rfl (fun _ => rfl) [0] 10000 (by norm_num)
    (by norm_num) _ rfl).trans (ENNReal.ofReal_le_ofReal ?_)
  generalize segmentCanonical.real (binRegion twoBins.bins [0]) = q
  rw [div_le_iff₀ (by norm_num)]
  nlinarith [sq_nonneg (q - 1 / 2)]

end Bdld
