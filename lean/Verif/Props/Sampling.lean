import Verif.Spec.Sampling
import Verif.Props.Accuracy
import Verif.Props.Histogram
import Verif.Props.WalkerBias
import Verif.Props.Grid

/-
C153: free energy surfaces and free energy differences of many independent samples.
-/

namespace Bdld

open MeasureTheory ProbabilityTheory Filter Topology Spec

/-! ### Bins are measurable -/

theorem inBin1_measurable (e : List ℝ) (i : Nat) : MeasurableSet {x : ℝ | InBin1 e i x} := by
  cases h1 : e[i]? with
  | none => simp [InBin1, h1]
  | some lo =>
    cases h2 : e[i + 1]? with
    | none => simp [InBin1, h2]
    | some hi =>
      have : {x : ℝ | InBin1 e i x} = Set.Ici lo ∩ (Set.Iio hi ∪ (if i + 2 = e.length then {hi} else ∅)) := by
        ext x
        simp only [InBin1, h1, h2, Option.some.injEq, Set.mem_ofPred_eq, Set.mem_inter_iff, Set.mem_Ici, Set.mem_union,
          Set.mem_Iio]
        constructor
        · rintro ⟨_, _, rfl, rfl, h3, h4⟩
          refine ⟨h3, h4.imp_right fun h => ?_⟩
          rw [if_pos h.1]
          exact h.2
        · rintro ⟨h3, h4⟩
          refine ⟨lo, hi, rfl, rfl, h3, h4.imp_right fun h => ?_⟩
          split at h
          · exact ⟨by assumption, h⟩
          · exact absurd h (Set.notMem_empty _)
      rw [this]
      refine measurableSet_Ici.inter (measurableSet_Iio.union ?_)
      split <;> simp

theorem binRegion_measurable {d : Nat} (bins : List (List ℝ)) (idx : List Nat) :
    MeasurableSet (binRegion bins idx : Set (Fin d → ℝ)) := by
  induction d generalizing bins idx with
  | zero => exact Set.Subsingleton.measurableSet (fun _ _ _ _ => Subsingleton.elim _ _)
  | succ d ih =>
    cases bins with
    | nil =>
      convert MeasurableSet.empty
      ext x
      simp [binRegion, List.ofFn_succ, InBin]
    | cons e es =>
      cases idx with
      | nil =>
        convert MeasurableSet.empty
        ext x
        simp [binRegion, InBin]
      | cons i is =>
        have : (binRegion (e :: es) (i :: is) : Set (Fin (d + 1) → ℝ)) =
            (fun x => x 0) ⁻¹' {y | InBin1 e i y} ∩ (fun x k => x (Fin.succ k)) ⁻¹' (binRegion es is) := by
          ext x
          simp [binRegion, List.ofFn_succ, InBin]
        rw [this]
        exact (measurable_pi_apply 0 (inBin1_measurable e i)).inter
          ((measurable_pi_lambda _ fun k => measurable_pi_apply _) (ih es is))

/-! ### Counts -/

/-- The first `n` samples as the rows of an array. -/
def firstSamples {d : Nat} (x : ℕ → Fin d → ℝ) (n : ℕ) : List (List ℝ) := (List.range n).map (fun i => List.ofFn (x i))

open scoped Classical in
theorem count_firstSamples {d : Nat} (bins : List (List ℝ)) (idx : List Nat) (x : ℕ → Fin d → ℝ) (n : ℕ) :
    (countInBin bins idx (firstSamples x n) : ℝ) = ∑ i ∈ Finset.range n, (binRegion bins idx).indicator 1 (x i) := by
  induction n with
  | zero => simp [firstSamples, countInBin]
  | succ n ih =>
    rw [Finset.sum_range_succ, ← ih]
    unfold firstSamples countInBin
    rw [List.range_succ, List.map_append, List.countP_append, Nat.cast_add]
    congr 1
    simp only [List.map_cons, List.map_nil, List.countP_cons, List.countP_nil, zero_add, decide_eq_true_eq,
      Set.indicator_apply, binRegion, Set.mem_ofPred_eq, Pi.one_apply]
    split <;> simp

/-- The histogram after adding the first `n` samples. -/
theorem add_firstSamples {d : Nat} (h : Histogram ℝ) (hg : ∀ e ∈ h.bins, GoodEdges e) (hd : h.bins.length = d)
    (x : ℕ → Fin d → ℝ) (n : ℕ) : ∃ h', h.add (firstSamples x n) = .ok h' ∧ h'.bins = h.bins ∧
      ∀ idx, h'.data idx = h.data idx + countInBin h.bins idx (firstSamples x n) := by
  refine (histogram_add h hg _).2 fun p hp => ?_
  obtain ⟨i, _, rfl⟩ := List.mem_map.1 hp
  rw [List.length_ofFn, hd]

variable {d : Nat} {Ω : Type} [MeasurableSpace Ω] {P : Measure Ω} {ν : Measure (Fin d → ℝ)} {X : ℕ → Ω → Fin d → ℝ}

theorem integral_binRegion (bins : List (List ℝ)) (idx : List Nat) :
    ∫ y, (binRegion bins idx).indicator (1 : (Fin d → ℝ) → ℝ) y ∂ν = ν.real (binRegion bins idx) :=
  integral_indicator_one (binRegion_measurable bins idx)

theorem indicator_measurable (bins : List (List ℝ)) (idx : List Nat) :
    Measurable ((binRegion bins idx).indicator (1 : (Fin d → ℝ) → ℝ)) :=
  measurable_one.indicator (binRegion_measurable bins idx)

theorem indicator_bound (bins : List (List ℝ)) (idx : List Nat) (y : Fin d → ℝ) :
    ‖(binRegion bins idx).indicator (1 : (Fin d → ℝ) → ℝ) y‖ ≤ 1 := by
  by_cases hy : y ∈ (binRegion bins idx : Set (Fin d → ℝ)) <;> simp [hy]

/-- **C153.** The fraction of the samples in every bin tends to the probability of the bin, whatever the histogram contained
before. -/
theorem histogram_frequency [IsProbabilityMeasure ν] (hs : Sample P ν X) (h : Histogram ℝ)
    (hg : ∀ e ∈ h.bins, GoodEdges e) (hd : h.bins.length = d) :
    ∀ᵐ ω ∂P, ∃ H : ℕ → Histogram ℝ, (∀ n, h.add (firstSamples (fun i => X i ω) n) = .ok (H n)) ∧
      ∀ idx, Tendsto (fun n => ((H n).data idx : ℝ) / n) atTop (𝓝 (ν.real (binRegion h.bins idx))) := by
  have h1 : ∀ᵐ ω ∂P, ∀ idx, Tendsto (fun n : ℕ => (∑ i ∈ Finset.range n,
      (binRegion h.bins idx).indicator (1 : (Fin d → ℝ) → ℝ) (X i ω)) / n) atTop (𝓝 (ν.real (binRegion h.bins idx))) := by
    rw [ae_all_iff]
    intro idx
    rw [← integral_binRegion]
    exact sample_average hs _ (indicator_measurable _ _)
      (Integrable.of_bound (indicator_measurable _ _).aestronglyMeasurable 1 (Eventually.of_forall (indicator_bound _ _)))
  filter_upwards [h1] with ω hω
  choose H h2 h3 h4 using add_firstSamples h hg hd (fun i => X i ω)
  refine ⟨H, h2, fun idx => ?_⟩
  have h5 : Tendsto (fun n : ℕ => (h.data idx : ℝ) / n) atTop (𝓝 0) := tendsto_const_div_atTop_nhds_zero_nat _
  have h6 := h5.add (hω idx)
  rw [zero_add] at h6
  refine h6.congr fun n => ?_
  rw [h4 n idx, Nat.cast_add, count_firstSamples, add_div]

/-- **C153.** Bins without probability stay as they are. -/
theorem histogram_never [IsProbabilityMeasure ν] (hs : Sample P ν X) (h : Histogram ℝ)
    (hg : ∀ e ∈ h.bins, GoodEdges e) (hd : h.bins.length = d) :
    ∀ᵐ ω ∂P, ∀ idx, ν (binRegion h.bins idx) = 0 → ∀ n h', h.add (firstSamples (fun i => X i ω) n) = .ok h' →
      h'.data idx = h.data idx := by
  have h1 : ∀ᵐ ω ∂P, ∀ idx, ν (binRegion h.bins idx) = 0 → ∀ i, X i ω ∉ binRegion h.bins idx := by
    rw [ae_all_iff]
    intro idx
    by_cases h0 : ν (binRegion h.bins idx) = 0
    · have : ∀ᵐ ω ∂P, ∀ i, X i ω ∉ binRegion h.bins idx := by
        rw [ae_all_iff]
        intro i
        rw [← hs.law i, Measure.map_apply (hs.measurable i) (binRegion_measurable _ _)] at h0
        exact measure_eq_zero_iff_ae_notMem.1 h0
      filter_upwards [this] with ω hω _ using hω
    · exact Eventually.of_forall fun ω hc => absurd hc h0
  filter_upwards [h1] with ω hω idx h0 n h' hh
  obtain ⟨h'', h2, _, h4⟩ := add_firstSamples h hg hd (fun i => X i ω) n
  rw [h2] at hh
  cases hh
  have h5 : (countInBin h.bins idx (firstSamples (fun i => X i ω) n) : ℝ) = 0 := by
    rw [count_firstSamples]
    exact Finset.sum_eq_zero fun i _ => Set.indicator_of_notMem (hω idx h0 i) _
  rw [h4, show countInBin h.bins idx (firstSamples (fun i => X i ω) n) = 0 by exact_mod_cast h5, add_zero]

/-- **C153.** For a given number of samples: probability that the fraction in a bin differs from the probability of the
bin by at least `ε`. -/
theorem histogram_deviation [IsProbabilityMeasure ν] (hs : Sample P ν X) (h : Histogram ℝ)
    (hg : ∀ e ∈ h.bins, GoodEdges e) (hd : h.bins.length = d) (h0 : ∀ idx, h.data idx = 0) (idx : List Nat) (n : ℕ) (hn : n ≠ 0)
    {ε : ℝ} (hε : 0 < ε) (p : ℝ) (hp : p = ν.real (binRegion h.bins idx)) :
    P {ω | ∃ h', h.add (firstSamples (fun i => X i ω) n) = .ok h' ∧ ε ≤ |(h'.data idx : ℝ) / n - p|} ≤
      ENNReal.ofReal (p * (1 - p) / (n * ε ^ 2)) := by
  have := hs.prob
  have hnp : (0 : ℝ) < n := by exact_mod_cast Nat.pos_of_ne_zero hn
  set g : (Fin d → ℝ) → ℝ := (binRegion h.bins idx).indicator 1 with hgd
  have hgm : Measurable g := indicator_measurable _ _
  have hgb : ∀ y, ‖g y‖ ≤ 1 := indicator_bound _ _
  have hL : ∀ j ∈ Finset.range n, MemLp (fun ω => g (X j ω)) 2 P := fun j _ =>
    MemLp.of_bound (hgm.comp (hs.measurable j)).aestronglyMeasurable 1 (Eventually.of_forall fun ω => hgb _)
  have hI : Set.Pairwise (↑(Finset.range n)) (fun i j => IndepFun (fun ω => g (X i ω)) (fun ω => g (X j ω)) P) :=
    fun i _ j _ hij => (hs.indep hij).comp hgm hgm
  have hv : ∀ j, variance (fun ω => g (X j ω)) P = p * (1 - p) := by
    intro j
    have hsq : ∀ y, g y ^ 2 = g y := by
      intro y
      rw [hgd]
      by_cases hy : y ∈ (binRegion h.bins idx : Set (Fin d → ℝ)) <;> simp [hy]
    rw [variance_eq_sub (X := fun ω => g (X j ω)) (MemLp.of_bound (hgm.comp (hs.measurable j)).aestronglyMeasurable 1
      (Eventually.of_forall fun ω => hgb _))]
    simp only [Pi.pow_apply, hsq]
    rw [hs.expect g hgm j, integral_binRegion, ← hp]
    ring
  have hvs := IndepFun.variance_sum hL hI
  simp only [hv, Finset.sum_const, Finset.card_range, nsmul_eq_mul] at hvs
  set Y : Ω → ℝ := fun ω => (1 / n : ℝ) * (∑ j ∈ Finset.range n, fun ω => g (X j ω)) ω with hY
  have hYm : MemLp Y 2 P := (memLp_finsetSum' _ hL).const_mul _
  have hvY : variance Y P = p * (1 - p) / n := by
    rw [hY, variance_const_mul, hvs]
    field_simp
  have hmean : ∫ ω, Y ω ∂P = p := by
    rw [hY, integral_const_mul]
    simp only [Finset.sum_apply]
    rw [integral_finsetSum _ (fun j hj => (hL j hj).integrable (by norm_num))]
    have : ∀ j, ∫ ω, g (X j ω) ∂P = p := fun j => by rw [hs.expect g hgm j, integral_binRegion, ← hp]
    simp only [this, Finset.sum_const, Finset.card_range, nsmul_eq_mul]
    field_simp
  have h1 := meas_ge_le_variance_div_sq hYm hε
  rw [hmean, hvY, div_div] at h1
  refine (measure_mono ?_).trans h1
  rintro ω ⟨h', hh, hω⟩
  obtain ⟨h'', h2, _, h4⟩ := add_firstSamples h hg hd (fun i => X i ω) n
  rw [h2] at hh
  cases hh
  rw [h4, h0, zero_add, count_firstSamples] at hω
  simp only [Set.mem_ofPred_eq, hY, Finset.sum_apply]
  rwa [one_div, inv_mul_eq_div]

/-! ### Free energies -/

theorem largest_tendsto (l : List (List Nat)) (c : ℕ → List Nat → ℝ) (p : List Nat → ℝ)
    (h : ∀ idx ∈ l, Tendsto (fun n => c n idx) atTop (𝓝 (p idx))) :
    Tendsto (fun n => largest (l.map (c n))) atTop (𝓝 (largest (l.map p))) := by
  induction l with
  | nil => simp [largest]
  | cons a l ih =>
    simp only [largest, List.map_cons, List.foldr_cons] at ih ⊢
    exact (h a List.mem_cons_self).max (ih fun idx hi => h idx (List.mem_cons_of_mem _ hi))

theorem markedSum_tendsto (l : List (List Nat)) (mask : List Bool) (c : ℕ → List Nat → ℝ) (p : List Nat → ℝ)
    (h : ∀ idx ∈ l, Tendsto (fun n => c n idx) atTop (𝓝 (p idx))) :
    Tendsto (fun n => markedSum (l.map (c n)) mask) atTop (𝓝 (markedSum (l.map p) mask)) := by
  induction l generalizing mask with
  | nil => simp [markedSum]
  | cons a l ih =>
    cases mask with
    | nil => simp [markedSum]
    | cons b mask =>
      have := ih mask fun idx hi => h idx (List.mem_cons_of_mem _ hi)
      simp only [markedSum, List.map_cons, List.zipWith_cons_cons, List.sum_cons] at this ⊢
      cases b with
      | false => simpa using this
      | true => exact (h a List.mem_cons_self).add this

theorem maxCount_largest (l : List Nat) (m : ℝ) (hm : 0 ≤ m) :
    (maxCount l : ℝ) / m = largest (l.map (fun n : Nat => (n : ℝ) / m)) := by
  induction l with
  | nil => simp [maxCount, largest]
  | cons a l ih =>
    simp only [maxCount, largest, List.map_cons, List.foldr_cons] at ih ⊢
    rw [← ih, Nat.cast_max, max_div_div_right hm]

theorem le_largest (l : List ℝ) (x : ℝ) (h : x ∈ l) : x ≤ largest l := by
  induction l with
  | nil => simp at h
  | cons a l ih =>
    simp only [largest, List.foldr_cons] at ih ⊢
    rcases List.mem_cons.1 h with rfl | h
    · exact le_max_left _ _
    · exact (ih h).trans (le_max_right _ _)

theorem indices_ne_nil (bins : List (List ℝ)) (hg : ∀ e ∈ bins, GoodEdges e) :
    indices (bins.map (fun e => e.length - 1)) ≠ [] := by
  induction bins with
  | nil => simp [indices]
  | cons e es ih =>
    have h1 := ih fun e' he => hg e' (List.mem_cons_of_mem _ he)
    have h2 := (hg e List.mem_cons_self).1
    obtain ⟨k, hk⟩ : ∃ k, e.length - 1 = k + 1 := ⟨e.length - 2, by omega⟩
    simp only [List.map_cons, indices, hk, List.range_succ_eq_map, List.flatMap_cons]
    simp [h1]

/-- **C153.** The free energy surface of the samples: bins without probability stay infinite, in all other bins it becomes
finite and tends to `kT ln(p_max / p)`, where `p` is the probability of the bin. -/
theorem fes_limit [IsProbabilityMeasure ν] (hs : Sample P ν X) (h : Histogram ℝ)
    (hg : ∀ e ∈ h.bins, GoodEdges e) (hd : h.bins.length = d) (h0 : ∀ idx, h.data idx = 0) (kt : ℝ) (hk : 0 < kt) :
    ∀ᵐ ω ∂P, ∃ (H : ℕ → Histogram ℝ) (fes : ℕ → Nd (WithTop ℝ)),
      (∀ n, h.add (firstSamples (fun i => X i ω) n) = .ok (H n)) ∧ (∀ n, calculateFes (H n).counts kt true = .ok (fes n)) ∧
      ∀ (i : Nat) (idx : List Nat), (indices h.shape)[i]? = some idx →
        (ν.real (binRegion h.bins idx) = 0 → ∀ n, (fes n).flat[i]? = some ⊤) ∧
        (0 < ν.real (binRegion h.bins idx) → ∃ f : ℕ → ℝ, (∀ᶠ n in atTop, (fes n).flat[i]? = some (f n : WithTop ℝ)) ∧
          Tendsto f atTop (𝓝 (kt * Real.log (largest ((indices h.shape).map fun j => ν.real (binRegion h.bins j)) /
            ν.real (binRegion h.bins idx))))) := by
  filter_upwards [histogram_frequency hs h hg hd, histogram_never hs h hg hd] with ω hω hω'
  obtain ⟨H, h1, h2⟩ := hω
  have hb : ∀ n, (H n).bins = h.bins := fun n => by
    obtain ⟨h', g1, g2, _⟩ := add_firstSamples h hg hd (fun i => X i ω) n
    rw [h1 n] at g1
    cases g1
    exact g2
  have hsh : ∀ n, (H n).shape = h.shape := fun n => by unfold Histogram.shape; rw [hb n]
  have hfl : ∀ n, (H n).counts.flat = (indices h.shape).map (H n).data := fun n => by
    unfold Histogram.counts Nd.ofFn
    rw [hsh n]
  have hne : ∀ n, (H n).counts.flat ≠ [] := fun n => by
    rw [hfl n]
    simpa [Histogram.shape] using indices_ne_nil h.bins hg
  refine ⟨H, _, h1, fun n => fes_spec _ kt hk (hne n), fun i idx hi => ⟨fun hp n => ?_, fun hp => ?_⟩⟩
  · have h3 := hω' idx ((measureReal_eq_zero_iff).1 hp) n (H n) (h1 n)
    simp only [Nd.map, hfl n, List.getElem?_map, hi, Option.map_some]
    rw [h3, h0]
    simp [freeEnergy]
  · refine ⟨fun n => kt * Real.log ((maxCount (H n).counts.flat : ℝ) / (H n).data idx), ?_, ?_⟩
    · have h3 := (h2 idx).eventually_ne hp.ne'
      filter_upwards [h3] with n hn
      have hn0 : (H n).data idx ≠ 0 := by
        intro hz
        simp [hz] at hn
      simp only [Nd.map, hfl n, List.getElem?_map, hi, Option.map_some, freeEnergy, if_neg hn0]
    · have h3 := largest_tendsto (indices h.shape) (fun n idx => ((H n).data idx : ℝ) / n)
        (fun j => ν.real (binRegion h.bins j)) (fun idx _ => h2 idx)
      have h4 := h3.div (h2 idx) hp.ne'
      have h5 : 0 < largest ((indices h.shape).map fun j => ν.real (binRegion h.bins j)) :=
        hp.trans_le (le_largest _ _ (List.mem_map_of_mem (List.mem_of_getElem? hi)))
      refine ((h4.log (div_pos h5 hp).ne').const_mul kt).congr' ?_
      filter_upwards [eventually_gt_atTop 0] with n hn
      have hn' : (n : ℝ) ≠ 0 := by exact_mod_cast hn.ne'
      have e := maxCount_largest (H n).counts.flat n n.cast_nonneg
      rw [hfl n, List.map_map] at e
      simp only [Function.comp_def] at e
      simp only [Pi.div_apply]
      rw [← e, hfl n, div_div_div_cancel_right₀ hn']

/-- **C153.** The free energy differences of the samples tend to `-kT ln` of the ratio of the probabilities of the bins of
the states. -/
theorem deltaF_limit [IsProbabilityMeasure ν] (hs : Sample P ν X) (h : Histogram ℝ)
    (hg : ∀ e ∈ h.bins, GoodEdges e) (hd : h.bins.length = d) (kt : ℝ) (hk : 0 < kt)
    (first : List Bool) (states : List (List Bool)) (hm : ∀ m ∈ first :: states, m.length = (indices h.shape).length ∧
      0 < markedSum ((indices h.shape).map fun j => ν.real (binRegion h.bins j)) m) :
    ∀ᵐ ω ∂P, ∃ (H : ℕ → Histogram ℝ) (D : ℕ → List ℝ),
      (∀ n, h.add (firstSamples (fun i => X i ω) n) = .ok (H n)) ∧
      (∀ᶠ n in atTop, (do let fes ← calculateFes (H n).counts kt true
                          calculateDeltaF fes kt (first :: states)) = .ok (D n)) ∧
      ∀ (i : Nat) (s : List Bool), states[i]? = some s → ∃ f : ℕ → ℝ, (∀ n, (D n)[i]? = some (f n)) ∧
        Tendsto f atTop (𝓝 (-kt * Real.log
          (markedSum ((indices h.shape).map fun j => ν.real (binRegion h.bins j)) s /
            markedSum ((indices h.shape).map fun j => ν.real (binRegion h.bins j)) first))) := by
  filter_upwards [histogram_frequency hs h hg hd] with ω hω
  obtain ⟨H, h1, h2⟩ := hω
  have hb : ∀ n, (H n).bins = h.bins := fun n => by
    obtain ⟨h', g1, g2, _⟩ := add_firstSamples h hg hd (fun i => X i ω) n
    rw [h1 n] at g1
    cases g1
    exact g2
  have hsh : ∀ n, (H n).shape = h.shape := fun n => by unfold Histogram.shape; rw [hb n]
  have hfl : ∀ n, (H n).counts.flat = (indices h.shape).map (H n).data := fun n => by
    unfold Histogram.counts Nd.ofFn
    rw [hsh n]
  have hne : ∀ n, (H n).counts.flat ≠ [] := fun n => by
    rw [hfl n]
    simpa [Histogram.shape] using indices_ne_nil h.bins hg
  have hlim : ∀ m : List Bool, Tendsto (fun n => (countsIn (H n).counts.flat m : ℝ) / n) atTop
      (𝓝 (markedSum ((indices h.shape).map fun j => ν.real (binRegion h.bins j)) m)) := by
    intro m
    refine (markedSum_tendsto (indices h.shape) m (fun n idx => ((H n).data idx : ℝ) / n) _ (fun idx _ => h2 idx)).congr
      fun n => ?_
    rw [← countsIn_sum, hfl n, List.map_map]
    rfl
  refine ⟨H, fun n => states.map (fun m => -kt * Real.log
        ((countsIn (H n).counts.flat m : ℝ) / countsIn (H n).counts.flat first)), h1, ?_, fun i s hi => ?_⟩
  · have h3 : ∀ᶠ n in atTop, ∀ m ∈ first :: states, countsIn (H n).counts.flat m ≠ 0 := by
      have : ∀ m ∈ (first :: states).toFinset, ∀ᶠ n in atTop, countsIn (H n).counts.flat m ≠ 0 := by
        intro m hm'
        filter_upwards [(hlim m).eventually_ne (hm m (List.mem_toFinset.1 hm')).2.ne'] with n hn hz
        simp [hz] at hn
      filter_upwards [(Filter.eventually_all_finset _).2 this] with n hn m hm' using hn m (List.mem_toFinset.2 hm')
    filter_upwards [h3] with n hn
    rw [deltaF_spec _ kt hk _ (hne n) (fun m hm' => by rw [hfl n, List.length_map]; exact (hm m hm').1) hn]
    rfl
  · refine ⟨_, fun n => by rw [List.getElem?_map, hi]; rfl, ?_⟩
    have p1 := (hm s (List.mem_cons_of_mem _ (List.mem_of_getElem? hi))).2
    have p2 := (hm first List.mem_cons_self).2
    refine ((((hlim s).div (hlim first) p2.ne').log (div_pos p1 p2).ne').const_mul (-kt)).congr' ?_
    filter_upwards [eventually_gt_atTop 0] with n hn
    have hn' : (n : ℝ) ≠ 0 := by exact_mod_cast hn.ne'
    simp only [Pi.div_apply]
    rw [div_div_div_cancel_right₀ hn']

end Bdld
