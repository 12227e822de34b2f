import Verif.Props.Sampling
import Mathlib.MeasureTheory.Measure.Lebesgue.Basic

/-
C153: samples of the canonical distribution: the free energy surface and the free energy differences come close to those
of the potential.
-/

namespace Bdld

open MeasureTheory ProbabilityTheory Filter Topology Spec

theorem linEdges_evenly (lo hi : ℝ) (n : Nat) : EvenBins ((hi - lo) / n) (linEdges lo hi n) := by
  intro i a b ha hb
  unfold linEdges at ha hb
  rw [List.getElem?_map] at ha hb
  obtain ⟨j, hj, rfl⟩ := Option.map_eq_some_iff.1 ha
  obtain ⟨k, hk, rfl⟩ := Option.map_eq_some_iff.1 hb
  obtain ⟨h1, h2⟩ := List.getElem?_eq_some_iff.1 hj
  obtain ⟨h3, h4⟩ := List.getElem?_eq_some_iff.1 hk
  rw [List.getElem_range] at h2 h4
  subst h2 h4
  push_cast
  ring

theorem inBin1_volume (e : List ℝ) (w : ℝ) (h : EvenBins w e) (i : Nat) (hi : i < e.length - 1) :
    volume {x : ℝ | InBin1 e i x} = ENNReal.ofReal w := by
  have h1 : e[i]? = some e[i] := List.getElem?_eq_getElem (by omega)
  have h2 : e[i + 1]? = some e[i + 1] := List.getElem?_eq_getElem (by omega)
  have hw := h i _ _ h1 h2
  rw [← hw]
  apply le_antisymm
  · rw [← Real.volume_Icc]
    refine measure_mono ?_
    rintro x ⟨lo, hi', g1, g2, g3, g4⟩
    rw [h1] at g1
    rw [h2] at g2
    cases g1
    cases g2
    exact ⟨g3, g4.elim le_of_lt fun g => g.2.le⟩
  · rw [← Real.volume_Ico]
    refine measure_mono ?_
    rintro x ⟨g1, g2⟩
    exact ⟨_, _, h1, h2, g1, .inl g2⟩

theorem binRegion_pi {d : Nat} (bins : List (List ℝ)) (idx : List Nat) (hb : bins.length = d) (hi : idx.length = d) :
    (binRegion bins idx : Set (Fin d → ℝ)) =
      Set.univ.pi (fun k : Fin d => {y : ℝ | InBin1 (bins[k]'(by omega)) (idx[k]'(by omega)) y}) := by
  induction d generalizing bins idx with
  | zero =>
    obtain rfl := List.length_eq_zero_iff.1 hb
    obtain rfl := List.length_eq_zero_iff.1 hi
    ext x
    simp [binRegion, InBin]
  | succ d ih =>
    match bins, idx, hb, hi with
    | e :: es, i :: is, hb, hi =>
      have h := ih es is (by simpa using hb) (by simpa using hi)
      ext x
      have hx := congrArg (fun s => (fun k => x (Fin.succ k)) ∈ s) h
      simp only [binRegion, Set.mem_ofPred_eq, Set.mem_univ_pi, eq_iff_iff] at hx
      simp only [binRegion, Set.mem_ofPred_eq, List.ofFn_succ, InBin, Set.mem_univ_pi, Fin.forall_fin_succ]
      rw [hx]
      simp

theorem indices_mem_length (s : List Nat) (idx : List Nat) (h : idx ∈ indices s) :
    idx.length = s.length ∧ ∀ (k : Nat) (h1 : k < idx.length) (h2 : k < s.length), idx[k] < s[k] := by
  induction s generalizing idx with
  | nil =>
    simp only [indices, List.mem_singleton] at h
    subst h
    simp
  | cons n s ih =>
    simp only [indices, List.mem_flatMap, List.mem_map, List.mem_range] at h
    obtain ⟨i, hi, t, ht, rfl⟩ := h
    obtain ⟨h1, h2⟩ := ih t ht
    refine ⟨by simp [h1], fun k g1 g2 => ?_⟩
    cases k with
    | zero => simpa using hi
    | succ k =>
      simp only [List.getElem_cons_succ]
      exact h2 k _ _

/-- All bins have the same volume. -/
theorem binRegion_volume {d : Nat} (bins : List (List ℝ)) (hb : bins.length = d) (w : Fin d → ℝ)
    (hw : ∀ k : Fin d, EvenBins (w k) (bins[k]'(by omega))) (idx : List Nat)
    (hi : idx ∈ indices (bins.map (fun e => e.length - 1))) :
    volume (binRegion bins idx : Set (Fin d → ℝ)) = ∏ k, ENNReal.ofReal (w k) := by
  obtain ⟨h1, h2⟩ := indices_mem_length _ _ hi
  rw [List.length_map] at h1
  rw [binRegion_pi bins idx hb (h1.trans hb), volume_pi_pi]
  refine Finset.prod_congr rfl fun k _ => ?_
  refine inBin1_volume _ _ (hw k) _ ?_
  have := h2 k (by omega) (by simp; omega)
  simpa using this

/-- Points in the same bin are near to each other. -/
theorem binRegion_near {d : Nat} (bins : List (List ℝ)) (hb : bins.length = d) (w : Fin d → ℝ)
    (hw : ∀ k : Fin d, EvenBins (w k) (bins[k]'(by omega))) (idx : List Nat)
    (hi : idx ∈ indices (bins.map (fun e => e.length - 1))) (x y : Fin d → ℝ) (hx : x ∈ binRegion bins idx)
    (hy : y ∈ binRegion bins idx) (k : Fin d) : |x k - y k| ≤ w k := by
  obtain ⟨h1, h2⟩ := indices_mem_length _ _ hi
  rw [List.length_map] at h1
  rw [binRegion_pi bins idx hb (h1.trans hb), Set.mem_univ_pi] at hx hy
  obtain ⟨lo, hi', g1, g2, g3, g4⟩ := hx k
  obtain ⟨lo', hi'', f1, f2, f3, f4⟩ := hy k
  rw [g1] at f1
  rw [g2] at f2
  cases f1
  cases f2
  have hk := hw k _ _ _ g1 g2
  have g5 : x k ≤ hi' := g4.elim le_of_lt fun g => g.2.le
  have f5 : y k ≤ hi' := f4.elim le_of_lt fun g => g.2.le
  rw [abs_le]
  constructor <;> linarith

/-! ### The canonical distribution -/

variable {d : Nat}

theorem weight_measurable {U : (Fin d → ℝ) → ℝ} (hU : Measurable U) (kt : ℝ) : Measurable (weight U kt) := by
  unfold weight
  exact ((hU.neg.div_const kt).exp).ennreal_ofReal

theorem canonicalIn_prob (U : (Fin d → ℝ) → ℝ) (kt : ℝ) (S : Set (Fin d → ℝ)) (h0 : ∫⁻ x in S, weight U kt x ≠ 0)
    (h1 : ∫⁻ x in S, weight U kt x ≠ ⊤) : IsProbabilityMeasure (canonicalIn U kt S) := by
  refine ⟨?_⟩
  unfold canonicalIn
  rw [Measure.smul_apply, withDensity_apply _ MeasurableSet.univ, setLIntegral_univ, smul_eq_mul]
  exact ENNReal.inv_mul_cancel h0 h1

/-- Probability of a region in which the energy hardly changes. -/
theorem canonicalIn_near (U : (Fin d → ℝ) → ℝ) (kt : ℝ) (hk : 0 < kt) (S A : Set (Fin d → ℝ))
    (h0 : ∫⁻ x in S, weight U kt x ≠ 0) (h1 : ∫⁻ x in S, weight U kt x ≠ ⊤) (hA : MeasurableSet A) (hAS : A ⊆ S) (V : ℝ)
    (hV : 0 < V) (hv : volume A = ENNReal.ofReal V) (u δ : ℝ) (hδ : ∀ x ∈ A, |U x - u| ≤ δ) :
    let Z := (∫⁻ x in S, weight U kt x).toReal
    0 < Z ∧ 0 < (canonicalIn U kt S).real A ∧
      |Real.log ((canonicalIn U kt S).real A) - (Real.log (V / Z) - u / kt)| ≤ δ / kt := by
  intro Z
  have hZ : 0 < Z := ENNReal.toReal_pos h0 h1
  have e1 : (canonicalIn U kt S) A = (∫⁻ x in S, weight U kt x)⁻¹ * ∫⁻ x in A, weight U kt x := by
    unfold canonicalIn
    rw [Measure.smul_apply, withDensity_apply _ hA, Measure.restrict_restrict hA, Set.inter_eq_left.2 hAS, smul_eq_mul]
  have lo : ENNReal.ofReal (Real.exp (-(u + δ) / kt) * V) ≤ ∫⁻ x in A, weight U kt x := by
    rw [ENNReal.ofReal_mul (Real.exp_pos _).le, ← hv, ← setLIntegral_const]
    refine setLIntegral_mono' hA fun x hx => ENNReal.ofReal_le_ofReal (Real.exp_le_exp.2 ?_)
    refine div_le_div_of_nonneg_right ?_ hk.le
    have := (abs_le.1 (hδ x hx)).2
    linarith
  have hi : ∫⁻ x in A, weight U kt x ≤ ENNReal.ofReal (Real.exp (-(u - δ) / kt) * V) := by
    rw [ENNReal.ofReal_mul (Real.exp_pos _).le, ← hv, ← setLIntegral_const]
    refine setLIntegral_mono' hA fun x hx => ENNReal.ofReal_le_ofReal (Real.exp_le_exp.2 ?_)
    refine div_le_div_of_nonneg_right ?_ hk.le
    have := (abs_le.1 (hδ x hx)).1
    linarith
  have hne : ∫⁻ x in A, weight U kt x ≠ ⊤ := (hi.trans_lt ENNReal.ofReal_lt_top).ne
  have e2 : (canonicalIn U kt S).real A = (∫⁻ x in A, weight U kt x).toReal / Z := by
    rw [measureReal_def, e1, ENNReal.toReal_mul, ENNReal.toReal_inv, mul_comm, div_eq_mul_inv]
  have lo' : Real.exp (-(u + δ) / kt) * V ≤ (∫⁻ x in A, weight U kt x).toReal :=
    (ENNReal.ofReal_le_iff_le_toReal hne).1 lo
  have hi' : (∫⁻ x in A, weight U kt x).toReal ≤ Real.exp (-(u - δ) / kt) * V :=
    ENNReal.toReal_le_of_le_ofReal (by positivity) hi
  generalize (∫⁻ x in A, weight U kt x).toReal = B at e2 lo' hi'
  have hB : 0 < B := lt_of_lt_of_le (by positivity) lo'
  refine ⟨hZ, by rw [e2]; positivity, ?_⟩
  rw [e2, Real.log_div hB.ne' hZ.ne', Real.log_div hV.ne' hZ.ne']
  have l1 := Real.log_le_log (by positivity) lo'
  have l2 := Real.log_le_log hB hi'
  rw [Real.log_mul (Real.exp_pos _).ne' hV.ne', Real.log_exp] at l1 l2
  have q1 : -(u + δ) / kt = -(u / kt) - δ / kt := by ring
  have q2 : -(u - δ) / kt = -(u / kt) + δ / kt := by ring
  rw [q1] at l1
  rw [q2] at l2
  rw [abs_le]
  constructor <;> linarith

variable {Ω : Type} [MeasurableSpace Ω] {P : Measure Ω} {X : ℕ → Ω → Fin d → ℝ}

/-- **C153.** Histograms of independent samples of the canonical distribution come near to the Boltzmann distribution at
points of the bins, up to the change of the energy within a bin. -/
theorem canonical_near (p : Potential ℝ d) (kt : ℝ) (hk : 0 < kt) (S : Set (Fin d → ℝ))
    (hZ0 : ∫⁻ x in S, weight p.energy kt x ≠ 0) (hZ1 : ∫⁻ x in S, weight p.energy kt x ≠ ⊤)
    (hs : Sample P (canonicalIn p.energy kt S) X) (h : Histogram ℝ) (hg : ∀ e ∈ h.bins, GoodEdges e)
    (hd : h.bins.length = d) (w : Fin d → ℝ) (hw : ∀ k : Fin d, 0 < w k ∧ EvenBins (w k) (h.bins[k]'(by omega)))
    (hin : ∀ idx ∈ indices h.shape, binRegion h.bins idx ⊆ S)
    (pos : List (Fin d → ℝ)) (hl : pos.length = (indices h.shape).length) (δ : ℝ)
    (hδ : ∀ (i : Nat) (idx : List Nat) (c : Fin d → ℝ), (indices h.shape)[i]? = some idx → pos[i]? = some c →
      ∀ x ∈ binRegion h.bins idx, |p.energy x - p.energy c| ≤ δ) :
    ∀ᵐ ω ∂P, ∀ ε, δ / kt < ε → ∀ᶠ n in atTop, ∃ H C, h.add (firstSamples (fun i => X i ω) n) = .ok H ∧
      NearBoltzmann p pos kt H.counts.flat C ε := by
  have := canonicalIn_prob p.energy kt S hZ0 hZ1
  set V : ℝ := ∏ k, w k with hVd
  have hV : 0 < V := Finset.prod_pos fun k _ => (hw k).1
  set Z : ℝ := (∫⁻ x in S, weight p.energy kt x).toReal with hZd
  have hvol : ∀ idx ∈ indices h.shape, volume (binRegion h.bins idx : Set (Fin d → ℝ)) = ENNReal.ofReal V := by
    intro idx hi
    rw [binRegion_volume h.bins hd w (fun k => (hw k).2) idx hi, hVd,
      ENNReal.ofReal_prod_of_nonneg fun k _ => (hw k).1.le]
  filter_upwards [histogram_frequency hs h hg hd] with ω hω ε hε
  obtain ⟨H, h1, h2⟩ := hω
  have hfl : ∀ n, (H n).counts.flat = (indices h.shape).map (H n).data := fun n => by
    obtain ⟨h', g1, g2, _⟩ := add_firstSamples h hg hd (fun i => X i ω) n
    rw [h1 n] at g1
    cases g1
    unfold Histogram.counts Nd.ofFn Histogram.shape
    rw [g2]
  have hev : ∀ i ∈ Finset.range pos.length, ∀ᶠ n in atTop, ∀ (m : Nat) (x : Fin d → ℝ),
      (H n).counts.flat[i]? = some m → pos[i]? = some x →
      m ≠ 0 ∧ |Real.log m - ((Real.log n + Real.log (V / Z)) - p.energy x / kt)| ≤ ε := by
    intro i hi
    rw [Finset.mem_range] at hi
    have hi' : i < (indices h.shape).length := by omega
    have hidx := List.getElem?_eq_getElem hi'
    have hpos := List.getElem?_eq_getElem hi
    generalize (indices h.shape)[i] = idx at hidx
    generalize pos[i] = c at hpos
    have hmem := List.mem_of_getElem? hidx
    obtain ⟨_, g2, g3⟩ := canonicalIn_near p.energy kt hk S (binRegion h.bins idx) hZ0 hZ1 (binRegion_measurable _ _)
      (hin idx hmem) V hV (hvol idx hmem) (p.energy c) δ (hδ i idx c hidx hpos)
    have hlog := (h2 idx).log g2.ne'
    have hpi : 0 < ε - δ / kt := by linarith
    filter_upwards [(h2 idx).eventually_ne g2.ne', Metric.tendsto_nhds.1 hlog _ hpi, eventually_gt_atTop 0]
      with n n1 n2 n3 m x hm hx
    rw [hfl n, List.getElem?_map, hidx] at hm
    rw [hpos] at hx
    cases hx
    cases hm
    have hm0 : (H n).data idx ≠ 0 := by
      intro hz
      simp [hz] at n1
    refine ⟨hm0, ?_⟩
    have hn : (n : ℝ) ≠ 0 := by exact_mod_cast n3.ne'
    rw [Real.dist_eq, Real.log_div (by exact_mod_cast hm0) hn] at n2
    rw [abs_le] at g3 ⊢
    have n4 := (abs_lt.1 n2)
    constructor <;> linarith [g3.1, g3.2, n4.1, n4.2]
  filter_upwards [(Filter.eventually_all_finset _).2 hev] with n hn
  refine ⟨H n, _, h1 n, by rw [hfl n, List.length_map, hl], fun i m x hm hx => hn i ?_ m x hm hx⟩
  rw [Finset.mem_range]
  exact (List.getElem?_eq_some_iff.1 hx).1

/-- **C153.** With enough samples the free energy surface differs from the reference by at most twice the change of the
energy within a bin (plus any `η > 0`), and so do the free energy differences. -/
theorem canonical_fes (p : Potential ℝ d) (kt : ℝ) (hk : 0 < kt) (S : Set (Fin d → ℝ))
    (hZ0 : ∫⁻ x in S, weight p.energy kt x ≠ 0) (hZ1 : ∫⁻ x in S, weight p.energy kt x ≠ ⊤)
    (hs : Sample P (canonicalIn p.energy kt S) X) (h : Histogram ℝ) (hg : ∀ e ∈ h.bins, GoodEdges e)
    (hd : h.bins.length = d) (w : Fin d → ℝ) (hw : ∀ k : Fin d, 0 < w k ∧ EvenBins (w k) (h.bins[k]'(by omega)))
    (hin : ∀ idx ∈ indices h.shape, binRegion h.bins idx ⊆ S)
    (pos : List (Fin d → ℝ)) (hl : pos.length = (indices h.shape).length) (δ : ℝ)
    (hδ : ∀ (i : Nat) (idx : List Nat) (c : Fin d → ℝ), (indices h.shape)[i]? = some idx → pos[i]? = some c →
      ∀ x ∈ binRegion h.bins idx, |p.energy x - p.energy c| ≤ δ)
    (first : List Bool) (states : List (List Bool)) (hm : ∀ m ∈ first :: states, m.length = pos.length ∧ true ∈ m) :
    ∀ᵐ ω ∂P, ∀ η > 0, ∀ᶠ n in atTop, ∃ H fes ref D, h.add (firstSamples (fun i => X i ω) n) = .ok H ∧
      calculateFes H.counts kt true = .ok fes ∧ calculateReference p pos true = .ok ref ∧
      calculateDeltaF fes kt (first :: states) = .ok D ∧ fes.flat.length = pos.length ∧ ref.length = pos.length ∧
      (∀ (i : Nat) (r : ℝ), ref[i]? = some r →
        ∃ f : ℝ, fes.flat[i]? = some (f : WithTop ℝ) ∧ |f - r| ≤ 2 * δ + η) ∧
      List.Forall₂ (fun x s => |x - referenceDeltaF p pos kt s first| ≤ 2 * δ + η) D states := by
  have hne : pos ≠ [] := by
    rintro rfl
    have := indices_ne_nil h.bins hg
    rw [List.length_nil] at hl
    exact this (List.length_eq_zero_iff.1 hl.symm)
  filter_upwards [canonical_near p kt hk S hZ0 hZ1 hs h hg hd w hw hin pos hl δ hδ] with ω hω η hη
  have hε : δ / kt < (2 * δ + η) / (2 * kt) := by
    rw [div_lt_div_iff₀ hk (by positivity)]
    nlinarith
  filter_upwards [hω _ hε] with n hn
  obtain ⟨H, C, g1, g2⟩ := hn
  obtain ⟨fes, ref, f1, f2, f3, f4, f5⟩ := fes_accuracy p pos H.counts kt C _ hk hne g2
  obtain ⟨D, d1, d2⟩ := deltaF_accuracy p pos H.counts kt C _ hk hne g2 first states hm
  rw [f1, ok_bind] at d1
  have e : 2 * kt * ((2 * δ + η) / (2 * kt)) = 2 * δ + η := by field_simp
  rw [e] at f5 d2
  exact ⟨H, fes, ref, D, g1, f1, f2, d1, f3, f4, f5, d2⟩

end Bdld
