import Verif.Props.MainLongRun
import Verif.Props.Sampling

/-
C156: free energy differences of long runs.
-/

namespace Bdld

open MeasureTheory ProbabilityTheory Spec

noncomputable section

namespace Spec

/-- Probability of the bins of a one-dimensional histogram whose centres lie in the state. -/
def stateShare (bins : List (List ℝ)) (p : List Nat → ℝ) (s : List (ℝ × ℝ)) : ℝ :=
  markedSum ((indices (bins.map (fun e => e.length - 1))).map p) ((binCenters (bins.headD [])).map (fun x => decide (InState [x] s)))

end Spec

/-- Counts of marked bins divided by a number. -/
theorem countsIn_share (l : List (List Nat)) (data : List Nat → ℕ) (mask : List Bool) (M : ℝ) :
    (countsIn (l.map data) mask : ℝ) / M = markedSum (l.map (fun idx => (data idx : ℝ) / M)) mask := by
  induction l generalizing mask with
  | nil => simp [markedSum, countsIn]
  | cons a l ih =>
    cases mask with
    | nil => simp [markedSum, countsIn]
    | cons b mask =>
      have := ih mask
      unfold markedSum countsIn at this ⊢
      simp only [List.map_cons, List.zipWith_cons_cons, List.sum_cons, Nat.cast_add, add_div]
      rw [this]
      cases b <;> simp

/-- Sums of marked numbers that are near to others. -/
theorem markedSum_near (l : List (List Nat)) (mask : List Bool) (x p : List Nat → ℝ) {η : ℝ} (hη : 0 ≤ η)
    (h : ∀ idx ∈ l, |x idx - p idx| ≤ η) : |markedSum (l.map x) mask - markedSum (l.map p) mask| ≤ l.length * η := by
  induction l generalizing mask with
  | nil => simp [markedSum]
  | cons a l ih =>
    cases mask with
    | nil =>
      simp only [markedSum, List.map_cons, List.zipWith_nil_right, List.sum_nil, sub_self, abs_zero]
      positivity
    | cons b mask =>
      have h1 := ih mask (fun idx hi => h idx (List.mem_cons_of_mem _ hi))
      have h2 := h a List.mem_cons_self
      unfold markedSum at h1 ⊢
      simp only [List.map_cons, List.zipWith_cons_cons, List.sum_cons, List.length_cons, Nat.cast_add, Nat.cast_one]
      rw [abs_le] at h1 h2 ⊢
      cases b
      · simp only [Bool.false_eq_true, if_false]
        constructor <;> linarith [h1.1, h1.2]
      · simp only [if_true]
        constructor <;> linarith [h1.1, h1.2, h2.1, h2.2]

/-- One distance for all states. -/
theorem all_ratios_near (kt : ℝ) {q ε : ℝ} (hq : 0 < q) (hε : 0 < ε) (ps : List ℝ) (hp : ∀ p ∈ ps, 0 < p) :
    ∃ η : ℝ, 0 < η ∧ ∀ p ∈ ps, ∀ x y, |x - p| < η → |y - q| < η → 0 < x ∧ 0 < y ∧ |kt * Real.log (y / x) - kt * Real.log (q / p)| < ε := by
  induction ps with
  | nil => exact ⟨1, one_pos, by simp⟩
  | cons p ps ih =>
    obtain ⟨η1, h1, h2⟩ := ih (fun r hr => hp r (List.mem_cons_of_mem _ hr))
    obtain ⟨η2, h3, h4⟩ := log_ratio_near kt (hp p List.mem_cons_self) hq hε
    refine ⟨min η1 η2, lt_min h1 h3, fun r hr x y hx hy => ?_⟩
    rcases List.mem_cons.1 hr with rfl | hr
    · exact h4 x y (lt_of_lt_of_le hx (min_le_right _ _)) (lt_of_lt_of_le hy (min_le_right _ _))
    · exact h2 r hr x y (lt_of_lt_of_le hx (min_le_left _ _)) (lt_of_lt_of_le hy (min_le_left _ _))

variable {d : ℕ}

/-- The file of the free energy differences has one row at the end of a run: the time and, for every state after the first one, a
number nearer than `ε` to `-kT ln` of the ratio of the probabilities. -/
def Spec.LastRowNear (x : SeriesState ℝ) (time kt ε : ℝ) (share : List (ℝ × ℝ) → ℝ) (states : List (List (ℝ × ℝ))) : Prop :=
  ∃ D : List ℝ, x.file = [time :: D] ∧ List.Forall₂ (fun f s => |f - -kt * Real.log (share s / share (states.headD []))| < ε) D states.tail

/-- **C156.** If the probabilities of the bins settle, the free energy differences that a run with enough steps and walkers writes at
its end are near to `-kT ln` of the ratios of the limits, except for a small probability. -/
theorem main_long_deltaF {T : (Fin d → ℝ) → (Fin d → ℝ) → Phase d → Phase d}
    (hT : Measurable (fun z : (Phase d × (Fin d → ℝ)) × (Fin d → ℝ) => T z.1.2 z.2 z.1.1)) {S : Finset (Phase d)}
    {bins : List (List ℝ)} {p : List Nat → ℝ}
    (hS : ∀ idx ∈ indices (bins.map (fun e => e.length - 1)), ∀ z ∈ S, Settles T (binRegion bins idx) (p idx) z)
    {states : List (List (ℝ × ℝ))} (hone : ∀ s ∈ states, s.length = 1) (hpos : ∀ s ∈ states, 0 < stateShare bins p s)
    {file : Bool} {s W : ℕ} (hs : 0 < s) (hW : 0 < W) (hf : file = true ∨ s ≤ W) (kt : ℝ) {ε δ : ℝ} (hε : 0 < ε) (hδ : 0 < δ) :
    ∃ n0 N0 : ℕ, ∀ {Ω R : Type} [MeasurableSpace Ω] (P : Measure Ω) (w : Ω → World R) (inp : Option (List Section))
      (cfg : Ω → SimCfg d) (sim s0 : Ω → Sim d R) (config : Input ℝ) (n : ℕ) (pot : Potential ℝ d) (mass : ℝ)
      (starts : List (Phase d)) (o : Dict (OptVal ℝ)), CountingRuns P w inp cfg sim s0 config n pot mass starts T S bins file s W →
      config.fes ≠ none → config.deltaF = some o → stateRanges o = .ok states → seriesStride o = 0 → hasFilename o = true →
      (∀ ω, (cfg ω).ld.kt = kt) → n0 ≤ n → N0 ≤ starts.length →
      P {ω | ¬ ∃ x, (sim ω).deltaF = some x ∧ LastRowNear x (n * (cfg ω).ld.dt) kt ε (stateShare bins p) states} ≤
        ENNReal.ofReal δ := by
  cases states with
  | nil =>
    refine ⟨0, 0, fun P w inp cfg sim s0 config n pot mass starts o h hfes ho hst _ _ _ _ _ => ?_⟩
    have := h.random.stream.prob
    obtain ⟨ω⟩ := P.nonempty_of_neZero
    obtain ⟨_, _, _, _, _, _, _, _, _, h5, _⟩ := setupOptional_parts (w ω) config _ _ _ _ rfl rfl (h.random.run ω).optional
    rw [ho] at h5
    obtain ⟨_, y, b, _, _, hb, _⟩ := h5
    obtain ⟨_, _, _, _, states, hst', hm⟩ := setupDeltaF_inv (w ω) _ _ _ _ _ hb
    rw [hst] at hst'
    cases hst'
    unfold setupDeltaF at hm
    simp at hm
    cases hm
  | cons first rest =>
    set I := indices (bins.map (fun e => e.length - 1)) with hI
    have hq := hpos first List.mem_cons_self
    obtain ⟨η, hη, hnear⟩ := all_ratios_near kt hq hε ((first :: rest).map (stateShare bins p)) (fun r hr => by
      obtain ⟨s, hs', rfl⟩ := List.mem_map.1 hr
      exact hpos s hs')
    have hη' : 0 < η / (I.length + 1) := by positivity
    obtain ⟨n0, N0, h0⟩ := main_long_histogram hT I hS hs hW hf hη' hδ
    refine ⟨n0, N0, fun P w inp cfg sim s0 config n pot mass starts o h hfes ho hst hstr hfile hkt hn hN => ?_⟩
    refine (measure_mono ?_).trans (h0 P w inp cfg sim s0 config n pot mass starts h hn hN)
    intro ω hω
    rw [Set.mem_ofPred_eq] at hω ⊢
    intro ⟨H, h1, h2, h3⟩
    refine hω ?_
    obtain ⟨of, hof⟩ := Option.ne_none_iff_exists'.1 hfes
    obtain ⟨x, H', e1, e2, e3⟩ := main_deltaF (h.random.run ω) o of ho hof _ hst hone
    simp only at e1 e2 e3
    rw [h1] at e2
    cases e2
    set M : ℝ := ((starts.length * (countedSteps file s W n).length : ℕ) : ℝ) with hM
    have hfl : H.counts.flat = I.map H.data := by
      unfold Histogram.counts Nd.ofFn Histogram.shape
      rw [h2]
    have hclose : ∀ s, |(stateCounts H s : ℝ) / M - stateShare bins p s| < η := by
      intro s
      unfold stateCounts
      rw [hfl, countsIn_share, h2]
      refine lt_of_le_of_lt (markedSum_near I _ _ p hη'.le fun idx hi => (h3 idx hi).le) ?_
      rw [mul_div_assoc', div_lt_iff₀ (by positivity)]
      nlinarith
    have hall : ∀ s ∈ first :: rest, 0 < (stateCounts H s : ℝ) / M ∧ 0 < (stateCounts H first : ℝ) / M ∧
        |kt * Real.log ((stateCounts H first : ℝ) / M / ((stateCounts H s : ℝ) / M)) -
          kt * Real.log (stateShare bins p first / stateShare bins p s)| < ε := fun s hs' =>
      hnear _ (List.mem_map.2 ⟨s, hs', rfl⟩) _ _ (hclose s) (hclose first)
    have hMpos : 0 < M := by
      rcases lt_or_eq_of_le (show (0 : ℝ) ≤ M from Nat.cast_nonneg _) with hlt | heq
      · exact hlt
      · have := (hall first List.mem_cons_self).1
        rw [← heq, div_zero] at this
        exact absurd this (lt_irrefl _)
    have hcounts : ∀ s ∈ first :: rest, 0 < (stateCounts H s : ℝ) := fun s hs' => by
      have := mul_pos (hall s hs').1 hMpos
      rwa [div_mul_cancel₀ _ hMpos.ne'] at this
    refine ⟨x, e1, freeEnergyDiffs kt H (first :: rest), ?_, ?_⟩
    · rw [e3 (fun t h1 _ h3 => by rw [hstr, zero_dvd_iff] at h3; omega) (fun s hs' => by
        have := hcounts s hs'
        exact_mod_cast this.ne'), seriesFile, if_pos hfile, if_pos hstr, hkt ω]
    · unfold freeEnergyDiffs
      rw [List.tail_cons, List.forall₂_map_left_iff, List.forall₂_same]
      intro s hs'
      have hs' : s ∈ first :: rest := List.mem_cons_of_mem _ hs'
      have := (hall s hs').2.2
      have c1 := hcounts s hs'
      have c2 := hcounts first List.mem_cons_self
      have c3 := hpos s hs'
      rw [div_div_div_cancel_right₀ hMpos.ne', Real.log_div c2.ne' c1.ne', Real.log_div hq.ne' c3.ne'] at this
      simp only [List.headD_cons]
      rw [Real.log_div c1.ne' c2.ne', Real.log_div c3.ne' hq.ne']
      convert this using 2
      ring

/-! ### Parabolas -/

theorem markedSum_pos (l : List ℝ) (mask : List Bool) (h : ∀ x ∈ l, 0 < x) (hl : mask.length ≤ l.length) (hm : true ∈ mask) :
    0 < markedSum l mask := by
  induction l generalizing mask with
  | nil =>
    rw [List.length_nil, Nat.le_zero, List.length_eq_zero_iff] at hl
    subst hl
    cases hm
  | cons a l ih =>
    cases mask with
    | nil => cases hm
    | cons b mask =>
      have hnn : 0 ≤ markedSum l mask := by
        refine List.sum_nonneg fun x hx => ?_
        obtain ⟨i, hi, rfl⟩ := List.mem_iff_getElem.1 hx
        rw [List.getElem_zipWith]
        split
        · exact (h _ (List.mem_cons_of_mem _ (List.getElem_mem _))).le
        · exact le_rfl
      have e : markedSum (a :: l) (b :: mask) = (if b then a else 0) + markedSum l mask := by
        simp [markedSum]
      rw [e]
      cases b with
      | true =>
        have := h a List.mem_cons_self
        simp only [if_true]
        linarith
      | false =>
        have hm' : true ∈ mask := by simpa using hm
        have := ih mask (fun x hx => h x (List.mem_cons_of_mem _ hx)) (by simpa using hl) hm'
        simpa using this

/-- States that contain the centre of a bin have a probability. -/
theorem stateShare_pos {oh : Dict (OptVal ℝ)} {bins : List (List ℝ)} (hb : RequestedBins oh 1 bins) (p : List Nat → ℝ)
    (hp : ∀ idx ∈ indices (bins.map (fun e => e.length - 1)), 0 < p idx) (s : List (ℝ × ℝ))
    (hs : ∃ x ∈ binCenters (bins.headD []), InState [x] s) : 0 < stateShare bins p s := by
  obtain ⟨edges, rfl⟩ := List.length_eq_one_iff.1 hb.dims
  refine markedSum_pos _ _ (fun x hx => ?_) ?_ ?_
  · obtain ⟨idx, hi, rfl⟩ := List.mem_map.1 hx
    exact hp idx hi
  · simp only [List.headD_cons, List.map_cons, List.map_nil, List.length_map, binCenters, List.length_zipWith, List.length_tail]
    have : (indices [edges.length - 1]).length = edges.length - 1 := by simp [indices]
    omega
  · obtain ⟨x, hx, hi⟩ := hs
    exact List.mem_map.2 ⟨x, hx, by simpa using hi⟩

section
variable {S : Finset (Phase 1)} {bins : List (List ℝ)} {oh : Dict (OptVal ℝ)} {file : Bool} {s W : ℕ}

/-- **C156.** Bussi-Parinello dynamics in the parabola `c0 + c1 x + c2 x²`: the written free energy differences are near to those of
the canonical distribution with the force constant `2 c2 (1 - c2 dt² / (2 m))`, except for a small probability. -/
theorem main_bussi_deltaF {c0 c1 c2 dt friction kt mass : ℝ} (hc : 0 < c2) (hdt : 0 < dt) (hf : 0 < friction) (hkt : 0 < kt)
    (hm : 0 < mass) (hlim : c2 * dt ^ 2 < 2 * mass) (hb : RequestedBins oh 1 bins) (hs : 0 < s) (hW : 0 < W) (hfile : file = true ∨ s ≤ W)
    {states : List (List (ℝ × ℝ))} (hone : ∀ z ∈ states, z.length = 1)
    (hstates : ∀ z ∈ states, ∃ x ∈ binCenters (bins.headD []), InState [x] z) {ε δ : ℝ} (hε : 0 < ε) (hδ : 0 < δ) :
    ∃ n0 N0 : ℕ, ∀ {Ω R : Type} [MeasurableSpace Ω] (P : Measure Ω) (w : Ω → World R) (inp : Option (List Section))
      (cfg : Ω → SimCfg 1) (sim s0 : Ω → Sim 1 R) (config : Input ℝ) (n : ℕ) (pot : Potential ℝ 1) (starts : List (Phase 1))
      (o : Dict (OptVal ℝ)), CountingRuns P w inp cfg sim s0 config n pot mass starts (dynamicsOf config.ld pot mass) S bins file s W →
      Parabola config c0 c1 c2 → BussiOptions config dt friction kt → config.fes ≠ none → config.deltaF = some o →
      stateRanges o = .ok states → seriesStride o = 0 → hasFilename o = true → n0 ≤ n → N0 ≤ starts.length →
      P {ω | ¬ ∃ x, (sim ω).deltaF = some x ∧ LastRowNear x (n * dt) kt ε
        (stateShare bins fun idx => (parabolaLaw c1 c2 kt (2 * c2 * (1 - c2 * dt ^ 2 / (2 * mass)))).real (binRegion bins idx)) states} ≤
        ENNReal.ofReal δ := by
  have hpos : 0 < kt / (2 * c2 * (1 - c2 * dt ^ 2 / (2 * mass))) := by
    refine div_pos hkt (mul_pos (by linarith) ?_)
    rw [sub_pos, div_lt_one (by linarith)]
    exact hlim
  obtain ⟨n0, N0, h⟩ := main_long_deltaF (bussiHarmonic_measurable (fun _ : Fin 1 => 2 * c2) (fun _ => -c1 / (2 * c2)) dt friction kt mass)
    (S := S) (bins := bins) (p := fun idx => (parabolaLaw c1 c2 kt (2 * c2 * (1 - c2 * dt ^ 2 / (2 * mass)))).real (binRegion bins idx))
    (fun idx hi z _ => by
      have := settles_bussi (fun _ : Fin 1 => 2 * c2) (fun _ => -c1 / (2 * c2)) dt friction kt mass hdt hf hkt hm (fun _ => by linarith)
        (fun _ => by linarith) bins idx hb.dims (by rw [(indices_mem_length _ _ hi).1, List.length_map, hb.dims]) z
      convert this using 2
      unfold parabolaLaw shadowConstants
      congr 1
      funext k
      congr 3
      field_simp
      ring) hone
    (fun z hz => stateShare_pos hb _ (fun idx hi => requested_positive hb _ _ (fun _ => hpos) _ hi) z (hstates z hz)) hs hW hfile kt hε hδ
  refine ⟨n0, N0, fun P w inp cfg sim s0 config n pot starts o hrun hp hl hfes ho hst hstr hfn hn hN => ?_⟩
  have hcfg : ∀ ω, (cfg ω).ld.kt = kt ∧ (cfg ω).ld.dt = dt := fun ω => by
    obtain ⟨dt', friction', kt', k1, _, k3, _, k5⟩ := (main_constants (hrun.random.run ω)).2.1 hl.type
    simp only at k5
    have e := (floatOf_opt k3).symm.trans (floatOf_opt hl.kt)
    have e' := (floatOf_opt k1).symm.trans (floatOf_opt hl.timestep)
    rw [k5, e, e']
    exact ⟨rfl, rfl⟩
  have := h P w inp cfg sim s0 config n pot mass starts o (hrun.bussi hp hc hl) hfes ho hst hstr hfn (fun ω => (hcfg ω).1) hn hN
  simpa only [(hcfg _).2] using this

theorem overdamped_constants {Ω R : Type} {w : Ω → World R} {inp : Option (List Section)} {cfg : Ω → SimCfg 1} {sim s0 : Ω → Sim 1 R}
    {config : Input ℝ} {n : ℕ} {dt : ℝ} (hr : ∀ ω, FinishedRun (w ω) inp ⟨1, cfg ω, sim ω⟩ config n (s0 ω)) (hl : OverdampedOptions config dt)
    (ω : Ω) : (cfg ω).ld.kt = 1 ∧ (cfg ω).ld.dt = dt := by
  obtain ⟨dt', k1, _, k5⟩ := (main_constants (hr ω)).1 hl.type
  simp only at k5
  have e' := (floatOf_opt k1).symm.trans (floatOf_opt hl.timestep)
  rw [k5, e']
  exact ⟨rfl, rfl⟩

/-- **C156.** Overdamped dynamics in a parabola: the same with the force constant `2 c2 (1 - c2 dt)` and `kT = 1`. -/
theorem main_overdamped_deltaF {c0 c1 c2 dt mass : ℝ} (hc : 0 < c2) (hdt : 0 < dt) (hlim : c2 * dt < 1)
    (hb : RequestedBins oh 1 bins) (hs : 0 < s) (hW : 0 < W) (hfile : file = true ∨ s ≤ W)
    {states : List (List (ℝ × ℝ))} (hone : ∀ z ∈ states, z.length = 1)
    (hstates : ∀ z ∈ states, ∃ x ∈ binCenters (bins.headD []), InState [x] z) {ε δ : ℝ} (hε : 0 < ε) (hδ : 0 < δ) :
    ∃ n0 N0 : ℕ, ∀ {Ω R : Type} [MeasurableSpace Ω] (P : Measure Ω) (w : Ω → World R) (inp : Option (List Section))
      (cfg : Ω → SimCfg 1) (sim s0 : Ω → Sim 1 R) (config : Input ℝ) (n : ℕ) (pot : Potential ℝ 1) (starts : List (Phase 1))
      (o : Dict (OptVal ℝ)), CountingRuns P w inp cfg sim s0 config n pot mass starts (dynamicsOf config.ld pot mass) S bins file s W →
      Parabola config c0 c1 c2 → OverdampedOptions config dt → config.fes ≠ none → config.deltaF = some o →
      stateRanges o = .ok states → seriesStride o = 0 → hasFilename o = true → n0 ≤ n → N0 ≤ starts.length →
      P {ω | ¬ ∃ x, (sim ω).deltaF = some x ∧ LastRowNear x (n * dt) 1 ε
        (stateShare bins fun idx => (parabolaLaw c1 c2 1 (2 * c2 * (1 - c2 * dt))).real (binRegion bins idx)) states} ≤
        ENNReal.ofReal δ := by
  have hpos : 0 < 1 / (2 * c2 * (1 - c2 * dt)) := one_div_pos.2 (mul_pos (by linarith) (by linarith))
  obtain ⟨n0, N0, h⟩ := main_long_deltaF (eulerHarmonic_measurable (fun _ : Fin 1 => 2 * c2) (fun _ => -c1 / (2 * c2)) dt)
    (S := S) (bins := bins) (p := fun idx => (parabolaLaw c1 c2 1 (2 * c2 * (1 - c2 * dt))).real (binRegion bins idx))
    (fun idx hi z _ => by
      have := settles_euler (fun _ : Fin 1 => 2 * c2) (fun _ => -c1 / (2 * c2)) dt hdt (fun _ => by linarith)
        (fun _ => by linarith) bins idx hb.dims (by rw [(indices_mem_length _ _ hi).1, List.length_map, hb.dims]) z
      convert this using 2
      unfold parabolaLaw
      congr 1
      funext k
      congr 2
      ring) hone
    (fun z hz => stateShare_pos hb _ (fun idx hi => requested_positive hb _ _ (fun _ => hpos) _ hi) z (hstates z hz)) hs hW hfile 1 hε hδ
  refine ⟨n0, N0, fun P w inp cfg sim s0 config n pot starts o hrun hp hl hfes ho hst hstr hfn hn hN => ?_⟩
  have hcfg := overdamped_constants hrun.random.run hl
  have := h P w inp cfg sim s0 config n pot mass starts o (hrun.overdamped hp hc hl) hfes ho hst hstr hfn (fun ω => (hcfg ω).1) hn hN
  simpa only [(hcfg _).2] using this

/-- **C156.** The free energies of two bins at the end of overdamped runs. -/
theorem main_overdamped_fes {c0 c1 c2 dt mass : ℝ} (hc : 0 < c2) (hdt : 0 < dt) (hlim : c2 * dt < 1)
    (hb : RequestedBins oh 1 bins) (hs : 0 < s) (hW : 0 < W) (hfile : file = true ∨ s ≤ W)
    {i j : ℕ} {idx jdx : List Nat} (hi : (indices (bins.map (fun e => e.length - 1)))[i]? = some idx)
    (hj : (indices (bins.map (fun e => e.length - 1)))[j]? = some jdx) {ε δ : ℝ} (hε : 0 < ε) (hδ : 0 < δ) :
    ∃ n0 N0 : ℕ, ∀ {Ω R : Type} [MeasurableSpace Ω] (P : Measure Ω) (w : Ω → World R) (inp : Option (List Section))
      (cfg : Ω → SimCfg 1) (sim s0 : Ω → Sim 1 R) (config : Input ℝ) (n : ℕ) (pot : Potential ℝ 1) (starts : List (Phase 1)),
      CountingRuns P w inp cfg sim s0 config n pot mass starts (dynamicsOf config.ld pot mass) S bins file s W →
      Parabola config c0 c1 c2 → OverdampedOptions config dt → config.fes ≠ none → n0 ≤ n → N0 ≤ starts.length →
      P {ω | ¬ ∃ fes, (sim ω).fes = some fes ∧ ∃ f g : ℝ, fes.flat[i]? = some (f : WithTop ℝ) ∧ fes.flat[j]? = some (g : WithTop ℝ) ∧
        |(f - g) - 1 * Real.log ((parabolaLaw c1 c2 1 (2 * c2 * (1 - c2 * dt))).real (binRegion bins jdx) /
          (parabolaLaw c1 c2 1 (2 * c2 * (1 - c2 * dt))).real (binRegion bins idx))| < ε} ≤ ENNReal.ofReal δ := by
  have hpos : 0 < 1 / (2 * c2 * (1 - c2 * dt)) := one_div_pos.2 (mul_pos (by linarith) (by linarith))
  obtain ⟨n0, N0, h⟩ := main_long_fes (eulerHarmonic_measurable (fun _ : Fin 1 => 2 * c2) (fun _ => -c1 / (2 * c2)) dt)
    (S := S) (bins := bins) (p := fun idx => (parabolaLaw c1 c2 1 (2 * c2 * (1 - c2 * dt))).real (binRegion bins idx)) hi hj
    (requested_positive hb _ _ (fun _ => hpos) _ (List.mem_of_getElem? hi)) (requested_positive hb _ _ (fun _ => hpos) _ (List.mem_of_getElem? hj))
    (fun idx hk z _ => by
      have hi' : idx ∈ indices (bins.map (fun e => e.length - 1)) := by
        simp only [List.mem_cons, List.not_mem_nil, or_false] at hk
        rcases hk with rfl | rfl
        · exact List.mem_of_getElem? hi
        · exact List.mem_of_getElem? hj
      have := settles_euler (fun _ : Fin 1 => 2 * c2) (fun _ => -c1 / (2 * c2)) dt hdt (fun _ => by linarith)
        (fun _ => by linarith) bins idx hb.dims (by rw [(indices_mem_length _ _ hi').1, List.length_map, hb.dims]) z
      convert this using 2
      unfold parabolaLaw
      congr 1
      funext k
      congr 2
      ring) hs hW hfile 1 hε hδ
  exact ⟨n0, N0, fun P w inp cfg sim s0 config n pot starts hrun hp hl hfes hn hN =>
    h P w inp cfg sim s0 config n pot mass starts (hrun.overdamped hp hc hl) hfes (fun ω => (overdamped_constants hrun.random.run hl ω).1) hn hN⟩

end

end

end Bdld
