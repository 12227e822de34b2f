import Verif.Spec.LongRun
import Verif.Props.MainEnsemble
import Verif.Props.DiskNames
import Verif.Props.MainAnalysis

/-
C155, part 1: the histogram of long runs with many walkers, for every dynamics whose probabilities settle.
-/

namespace Bdld

open MeasureTheory ProbabilityTheory Filter Topology Spec

variable {d : Nat}

/-! ### Means over steps -/

theorem early_steps {l : List ℕ} (h : AtMostTwice l) (t0 : ℕ) : l.countP (fun t => decide (t < t0)) ≤ 2 * t0 := by
  induction t0 with
  | zero => simp
  | succ t0 ih =>
    have e : ∀ l : List ℕ, l.countP (fun t => decide (t < t0 + 1)) = l.countP (fun t => decide (t < t0)) + l.count t0 := by
      intro l
      induction l with
      | nil => rfl
      | cons t l ih =>
        rw [List.countP_cons, List.countP_cons, List.count_cons, ih]
        by_cases h1 : t < t0
        · have h2 : t < t0 + 1 := by omega
          have h3 : ¬ t = t0 := by omega
          simp [h1, h2, h3]
          omega
        · by_cases h3 : t = t0
          · simp [h3]
            omega
          · have h2 : ¬ t < t0 + 1 := by omega
            simp [h1, h2, h3]
    rw [e]
    have := h t0
    omega

/-- The mean over many steps is near to the limit. -/
theorem steps_mean {u : ℕ → ℝ} {p ε : ℝ} {t0 : ℕ} (hu : ∀ t, |u t - p| ≤ 1) (ht : ∀ t, t0 ≤ t → |u t - p| ≤ ε) (hε : 0 ≤ ε)
    {l : List ℕ} (hl : AtMostTwice l) (hne : l ≠ []) : |(l.map u).sum / l.length - p| ≤ ε + 2 * t0 / l.length := by
  have h1 : ∀ l : List ℕ, |(l.map u).sum - l.length * p| ≤ l.countP (fun t => decide (t < t0)) + l.length * ε := by
    intro l
    induction l with
    | nil => simp
    | cons t l ih =>
      rw [List.map_cons, List.sum_cons, List.length_cons, List.countP_cons]
      push_cast
      have e : u t + (l.map u).sum - ((l.length : ℝ) + 1) * p = (u t - p) + ((l.map u).sum - l.length * p) := by ring
      rw [e]
      refine (abs_add_le _ _).trans ?_
      by_cases h2 : t < t0
      · simp only [h2, decide_true, if_true]
        linarith [hu t]
      · simp only [h2, decide_false]
        push_cast
        linarith [ht t (not_lt.1 h2)]
  have hpos : (0 : ℝ) < l.length := by exact_mod_cast List.length_pos_iff.2 hne
  have h2 := h1 l
  have h3 : ((l.countP (fun t => decide (t < t0)) : ℕ) : ℝ) ≤ 2 * t0 := by exact_mod_cast early_steps hl t0
  have e : (l.map u).sum / l.length - p = ((l.map u).sum - l.length * p) / l.length := by field_simp
  rw [e, abs_div, abs_of_pos hpos, div_le_iff₀ hpos, add_mul, div_mul_cancel₀ _ hpos.ne']
  linarith

theorem list_mean {α : Type} {f : α → ℝ} {p ε : ℝ} {l : List α} (h : ∀ x ∈ l, |f x - p| ≤ ε) (hne : l ≠ []) :
    |(l.map f).sum / l.length - p| ≤ ε := by
  have h1 : ∀ l : List α, (∀ x ∈ l, |f x - p| ≤ ε) → |(l.map f).sum - l.length * p| ≤ l.length * ε := by
    intro l
    induction l with
    | nil => simp
    | cons x l ih =>
      intro h
      rw [List.map_cons, List.sum_cons, List.length_cons]
      push_cast
      have e : f x + (l.map f).sum - ((l.length : ℝ) + 1) * p = (f x - p) + ((l.map f).sum - l.length * p) := by ring
      rw [e]
      refine (abs_add_le _ _).trans ?_
      linarith [h x List.mem_cons_self, ih fun y hy => h y (List.mem_cons_of_mem _ hy)]
  have hpos : (0 : ℝ) < l.length := by exact_mod_cast List.length_pos_iff.2 hne
  have e : (l.map f).sum / l.length - p = ((l.map f).sum - l.length * p) / l.length := by field_simp
  rw [e, abs_div, abs_of_pos hpos, div_le_iff₀ hpos]
  linarith [h1 l h]

/-- The mean probability over many steps is near to the limit, whatever the starting points in a finite set are. -/
theorem meanProbability_near {T : (Fin d → ℝ) → (Fin d → ℝ) → Phase d → Phase d}
    (hT : Measurable (fun z : (Phase d × (Fin d → ℝ)) × (Fin d → ℝ) => T z.1.2 z.2 z.1.1)) {A : Set (Fin d → ℝ)} {p : ℝ}
    {S : Finset (Phase d)} (hS : ∀ s ∈ S, Settles T A p s) {ε : ℝ} (hε : 0 < ε) :
    ∃ K : ℕ, ∀ starts : List (Phase d), starts ≠ [] → (∀ s ∈ starts, s ∈ S) → ∀ l : List ℕ, AtMostTwice l → l ≠ [] → K ≤ l.length →
      |meanProbability T starts A l - p| ≤ ε := by
  have h1 : ∀ s, ∃ t0 : ℕ, s ∈ S → ∀ t, t0 ≤ t → |((afterStep T)^[t] (Measure.dirac s)).real (Prod.fst ⁻¹' A) - p| ≤ ε / 2 := by
    intro s
    by_cases hs : s ∈ S
    · obtain ⟨t0, h⟩ := Metric.tendsto_atTop.1 (hS s hs) (ε / 2) (by linarith)
      exact ⟨t0, fun _ t ht => by have := (h t ht).le; rwa [Real.dist_eq] at this⟩
    · exact ⟨0, fun h => absurd h hs⟩
  choose t0 h1 using h1
  obtain ⟨K, hK⟩ := exists_nat_gt ((2 * (S.sup t0 : ℕ) : ℝ) / (ε / 2))
  refine ⟨K, fun starts hne hst l hl hln hKl => ?_⟩
  refine list_mean (fun s hs => ?_) hne
  have hsS := hst s hs
  have hu : ∀ t, ((afterStep T)^[t] (Measure.dirac s)).real (Prod.fst ⁻¹' A) ∈ Set.Icc (0 : ℝ) 1 := fun t => by
    have := afterStep_iterate_probability hT (Measure.dirac s) t
    exact ⟨measureReal_nonneg, measureReal_le_one⟩
  have hp : p ∈ Set.Icc (0 : ℝ) 1 :=
    isClosed_Icc.mem_of_tendsto (hS s hsS) (Eventually.of_forall hu)
  have hlen : (0 : ℝ) < l.length := by exact_mod_cast List.length_pos_iff.2 hln
  refine (steps_mean (t0 := S.sup t0) (fun t => ?_) (fun t ht => h1 s hsS t ((Finset.le_sup hsS).trans ht)) (by linarith) hl hln).trans ?_
  · have := hu t
    rw [abs_le]
    constructor <;> linarith [this.1, this.2, hp.1, hp.2]
  · have : (2 * (S.sup t0 : ℕ) : ℝ) / l.length ≤ ε / 2 := by
      rw [div_le_iff₀ hlen]
      rw [div_lt_iff₀ (by linarith)] at hK
      have h3 : (K : ℝ) ≤ l.length := by exact_mod_cast hKl
      nlinarith
    linarith

/-! ### The counted steps -/

theorem relativeSteps_mem {k a b t : ℕ} (h : t ∈ relativeSteps k a b) : a < t ∧ t ≤ b := by
  unfold relativeSteps at h
  obtain ⟨y, hy, rfl⟩ := List.mem_map.1 h
  rw [mem_sampledSteps] at hy
  omega

theorem relativeSteps_nodup (k a b : ℕ) : (relativeSteps k a b).Nodup :=
  (sampledSteps_nodup k 0 (b - a)).map fun x y h => by simpa using h

theorem blocks_nodup (s W : ℕ) : ∀ m, ((List.range m).flatMap (fun b => relativeSteps s (b * W) ((b + 1) * W))).Nodup ∧
    ∀ t ∈ (List.range m).flatMap (fun b => relativeSteps s (b * W) ((b + 1) * W)), t ≤ m * W
  | 0 => by simp
  | m + 1 => by
    obtain ⟨h1, h2⟩ := blocks_nodup s W m
    rw [List.range_succ, List.flatMap_append, List.flatMap_singleton]
    refine ⟨List.nodup_append.2 ⟨h1, relativeSteps_nodup _ _ _, fun a ha b hb e => ?_⟩, fun t ht => ?_⟩
    · have := (relativeSteps_mem hb).1
      have := h2 a ha
      omega
    · rcases List.mem_append.1 ht with ht | ht
      · exact (h2 t ht).trans (Nat.mul_le_mul_right W (by omega))
      · exact (relativeSteps_mem ht).2

theorem twice_append {l l' : List ℕ} (h : l.Nodup) (h' : l'.Nodup) : AtMostTwice (l ++ l') := fun t => by
  rw [List.count_append]
  have := List.nodup_iff_count_le_one.1 h t
  have := List.nodup_iff_count_le_one.1 h' t
  omega

theorem countedSteps_twice (file : Bool) (s W n : ℕ) : AtMostTwice (countedSteps file s W n) := by
  unfold countedSteps
  cases file with
  | true =>
    rw [if_pos rfl]
    refine twice_append (sampledSteps_nodup _ _ _) ?_
    split
    · exact sampledSteps_nodup _ _ _
    · exact List.nodup_nil
  | false =>
    rw [if_neg (by simp)]
    refine twice_append (blocks_nodup s W _).1 ?_
    split <;> exact relativeSteps_nodup _ _ _

theorem countedSteps_le (file : Bool) (s W n : ℕ) : ∀ t ∈ countedSteps file s W n, t ≤ n := by
  intro t ht
  have hW := Nat.div_mul_le_self n W
  unfold countedSteps at ht
  cases file with
  | true =>
    rw [if_pos rfl, List.mem_append] at ht
    rcases ht with ht | ht
    · exact (mem_sampledSteps.1 ht).2.1.trans hW
    · split at ht
      · exact (mem_sampledSteps.1 ht).2.1
      · cases ht
  | false =>
    rw [if_neg (by simp), List.mem_append] at ht
    rcases ht with ht | ht
    · exact ((blocks_nodup s W _).2 t ht).trans hW
    · split at ht <;> exact (relativeSteps_mem ht).2

theorem sampledSteps_many {s : ℕ} (hs : 0 < s) (k m : ℕ) (h : k * s ≤ m) : k ≤ (sampledSteps s 0 m).length := by
  have h1 : ((List.range k).map fun i => (i + 1) * s) ⊆ sampledSteps s 0 m := by
    intro t ht
    obtain ⟨i, hi, rfl⟩ := List.mem_map.1 ht
    rw [List.mem_range] at hi
    exact mem_sampledSteps.2 ⟨Nat.mul_pos (by omega) hs, (Nat.mul_le_mul_right s hi).trans h, Dvd.intro_left _ rfl⟩
  have h2 : ((List.range k).map fun i => (i + 1) * s).Nodup := List.nodup_range.map fun a b e => by
    have := Nat.eq_of_mul_eq_mul_right hs e
    omega
  have := (h2.subperm h1).length_le
  rwa [List.length_map, List.length_range] at this

theorem blocks_many {s W : ℕ} (hs : 0 < s) (h : s ≤ W) :
    ∀ m, m ≤ ((List.range m).flatMap (fun b => relativeSteps s (b * W) ((b + 1) * W))).length
  | 0 => Nat.zero_le _
  | m + 1 => by
    have h1 := blocks_many hs h m
    rw [List.range_succ, List.flatMap_append, List.flatMap_singleton, List.length_append]
    have : 1 ≤ (relativeSteps s (m * W) ((m + 1) * W)).length := by
      unfold relativeSteps
      rw [List.length_map]
      refine sampledSteps_many hs 1 _ ?_
      rw [Nat.add_mul]
      omega
    omega

/-- Long runs count many steps, if the trajectories are written to files or the write stride of the trajectories is not
smaller than the stride of the histogram. -/
theorem countedSteps_many {file : Bool} {s W : ℕ} (hs : 0 < s) (hW : 0 < W) (h : file = true ∨ s ≤ W) (K : ℕ) :
    ∃ n0, ∀ n, n0 ≤ n → K ≤ (countedSteps file s W n).length := by
  cases file with
  | true =>
    refine ⟨K * s + W, fun n hn => ?_⟩
    unfold countedSteps
    rw [if_pos rfl, List.length_append]
    have := sampledSteps_many hs K (n / W * W) (by
      have := Nat.div_add_mod n W
      have := Nat.mod_lt n hW
      rw [mul_comm (n / W) W]
      omega)
    omega
  | false =>
    have h : s ≤ W := by simpa using h
    refine ⟨K * W, fun n hn => ?_⟩
    unfold countedSteps
    rw [if_neg (by simp), List.length_append]
    have h1 := blocks_many hs h (n / W)
    have h2 : K ≤ n / W := (Nat.le_div_iff_mul_le hW).2 hn
    omega

/-- Without files and with a stride longer than the write stride the histogram counts nothing, however long the run is. -/
theorem countedSteps_none {s W : ℕ} (hW : 0 < W) (h : W < s) (n : ℕ) : countedSteps false s W n = [] := by
  have hr : ∀ a b, b - a < s → relativeSteps s a b = [] := by
    intro a b hab
    refine List.eq_nil_iff_forall_not_mem.2 fun t ht => ?_
    unfold relativeSteps at ht
    obtain ⟨y, hy, rfl⟩ := List.mem_map.1 ht
    rw [mem_sampledSteps] at hy
    have := Nat.le_of_dvd hy.1 hy.2.2
    omega
  unfold countedSteps
  rw [if_neg (by simp)]
  have h1 : (List.range (n / W)).flatMap (fun b => relativeSteps s (b * W) ((b + 1) * W)) = [] := by
    rw [List.flatMap_eq_nil_iff]
    intro b _
    refine hr _ _ ?_
    rw [Nat.add_mul]
    omega
  rw [h1, List.nil_append]
  split
  · exact hr _ _ (by omega)
  · refine hr _ _ ?_
    have := Nat.div_add_mod n W
    have := Nat.mod_lt n hW
    rw [mul_comm (n / W) W]
    omega

/-! ### Long runs -/

variable {Ω R : Type} [MeasurableSpace Ω]

/-- Runs with random numbers as in C154 with the dynamics `T`, whose walkers start in `S` and that have trajectories and a
histogram with the given bins and strides that is never reset. -/
structure CountingRuns (P : Measure Ω) (w : Ω → World R) (inp : Option (List Section)) (cfg : Ω → SimCfg d)
    (sim s0 : Ω → Sim d R) (config : Input ℝ) (n : ℕ) (pot : Potential ℝ d) (mass : ℝ) (starts : List (Phase d))
    (T : (Fin d → ℝ) → (Fin d → ℝ) → Phase d → Phase d) (S : Finset (Phase d)) (bins : List (List ℝ)) (file : Bool)
    (s W : ℕ) : Prop where
  random : RandomRuns P w inp cfg sim s0 config n pot mass starts
  dynamics : dynamicsOf config.ld pot mass = T
  inside : ∀ z ∈ starts, z ∈ S
  trajectories : ∃ o, config.trajectories = some o ∧ natOption o "write-stride" 100 = W ∧ hasFilename o = file
  histogram : ∃ o, config.histogram = some o ∧ natOption o "stride" 1 = s ∧ o.get? "reset" = some .none ∧ RequestedBins o d bins

/-- Histogram of a run: the positions at the counted steps, and the origin once. -/
theorem CountingRuns.data {P : Measure Ω} {w : Ω → World R} {inp : Option (List Section)} {cfg : Ω → SimCfg d}
    {sim s0 : Ω → Sim d R} {config : Input ℝ} {n : ℕ} {pot : Potential ℝ d} {mass : ℝ} {starts : List (Phase d)}
    {T : (Fin d → ℝ) → (Fin d → ℝ) → Phase d → Phase d} {S : Finset (Phase d)} {bins : List (List ℝ)} {file : Bool} {s W : ℕ}
    (h : CountingRuns P w inp cfg sim s0 config n pot mass starts T S bins file s W) (hN : starts ≠ []) (ω : Ω) :
    ∃ H, (sim ω).hist = some H ∧ H.bins = bins ∧ ∀ idx, (H.data idx : ℝ) = countInBin bins idx [List.replicate d 0] +
      ∑ k ∈ Finset.range starts.length, ((countedSteps file s W n).map
        (fun t => (binRegion bins idx).indicator (1 : (Fin d → ℝ) → ℝ) (h.random.phase k t ω).1)).sum := by
  obtain ⟨o, ho, hW, hf⟩ := h.trajectories
  obtain ⟨oh, hoh, hs, hreset, hb⟩ := h.histogram
  have hw : 0 < (s0 ω).particles.length := by
    have := congrArg List.length (h.random.startsAt ω)
    rw [List.length_map] at this
    rw [this]
    exact List.length_pos_iff.2 hN
  obtain ⟨H, e1, _, e2⟩ := main_histogram (h.random.run ω) (h.random.lawful ω) o oh ho hoh hreset hw
  obtain ⟨edges, b1, _, H', b2, b3⟩ := main_bins (h.random.run ω) oh hoh
  have := Option.some.inj (e1.symm.trans b2)
  subst this
  have hbins : H.bins = bins := b3.trans (requested_unique b1 hb)
  refine ⟨H, e1, hbins, fun idx => ?_⟩
  rw [e2, Nat.cast_add, hbins, hW, hs, hf, ← h.random.count bins idx _ (countedSteps_le file s W n) ω]
  rfl

/-- **C155.** If the probabilities of some bins settle, the histogram of every run with enough steps and enough walkers divided
by the number of samples is near to the limits in all these bins, except for a small probability. -/
theorem main_long_histogram {T : (Fin d → ℝ) → (Fin d → ℝ) → Phase d → Phase d}
    (hT : Measurable (fun z : (Phase d × (Fin d → ℝ)) × (Fin d → ℝ) => T z.1.2 z.2 z.1.1)) {S : Finset (Phase d)}
    {bins : List (List ℝ)} {p : List Nat → ℝ} (I : List (List Nat)) (hS : ∀ idx ∈ I, ∀ z ∈ S, Settles T (binRegion bins idx) (p idx) z)
    {file : Bool} {s W : ℕ} (hs : 0 < s) (hW : 0 < W) (hf : file = true ∨ s ≤ W) {ε δ : ℝ} (hε : 0 < ε) (hδ : 0 < δ) :
    ∃ n0 N0 : ℕ, ∀ {Ω R : Type} [MeasurableSpace Ω] (P : Measure Ω) (w : Ω → World R) (inp : Option (List Section))
      (cfg : Ω → SimCfg d) (sim s0 : Ω → Sim d R) (config : Input ℝ) (n : ℕ) (pot : Potential ℝ d) (mass : ℝ)
      (starts : List (Phase d)), CountingRuns P w inp cfg sim s0 config n pot mass starts T S bins file s W →
      n0 ≤ n → N0 ≤ starts.length → P {ω | ¬ ∃ H, (sim ω).hist = some H ∧ H.bins = bins ∧ ∀ idx ∈ I,
        |(H.data idx : ℝ) / (starts.length * (countedSteps file s W n).length : ℕ) - p idx| < ε} ≤ ENNReal.ofReal δ := by
  induction I generalizing δ with
  | nil =>
    refine ⟨0, 1, fun P w inp cfg sim s0 config n pot mass starts h _ hN => ?_⟩
    have hN : starts ≠ [] := List.length_pos_iff.1 hN
    have e : {ω | ¬ ∃ H, (sim ω).hist = some H ∧ H.bins = bins ∧ ∀ idx ∈ ([] : List (List Nat)),
        |(H.data idx : ℝ) / (starts.length * (countedSteps file s W n).length : ℕ) - p idx| < ε} = ∅ := by
      refine Set.eq_empty_iff_forall_notMem.2 fun ω hω => hω ?_
      obtain ⟨H, h1, h2, _⟩ := h.data hN ω
      exact ⟨H, h1, h2, by simp⟩
    rw [e, measure_empty]
    exact zero_le
  | cons idx I ih =>
    obtain ⟨n1, N1, h1⟩ := ih (fun i hi => hS i (List.mem_cons_of_mem _ hi)) (δ := δ / 2) (by linarith)
    obtain ⟨K, hK⟩ := meanProbability_near hT (hS idx List.mem_cons_self) (ε := ε / 3) (by linarith)
    obtain ⟨n2, hn2⟩ := countedSteps_many hs hW hf (max K 1)
    obtain ⟨N2, hN2⟩ := exists_nat_gt (3 / ε)
    obtain ⟨N3, hN3⟩ := exists_nat_gt (1 / (4 * (ε / 3) ^ 2 * (δ / 2)))
    refine ⟨max n1 n2, max (max N1 N2) (max N3 1), fun P w inp cfg sim s0 config n pot mass starts h hn hN => ?_⟩
    have hn' := le_max_left n1 n2
    have hn'' := le_max_right n1 n2
    have hNN : N1 ≤ starts.length ∧ N2 ≤ starts.length ∧ N3 ≤ starts.length ∧ 1 ≤ starts.length := by
      simp only [max_le_iff] at hN
      tauto
    obtain ⟨a1, a2, a3, a4⟩ := hNN
    have hne : starts ≠ [] := List.length_pos_iff.1 a4
    have hlen := hn2 n (hn''.trans hn)
    have hlK : K ≤ (countedSteps file s W n).length := (le_max_left _ _).trans hlen
    have hl1 : 1 ≤ (countedSteps file s W n).length := (le_max_right _ _).trans hlen
    have hln : countedSteps file s W n ≠ [] := List.length_pos_iff.1 hl1
    have hspread := main_region_spread h.random hne (binRegion bins idx) (binRegion_measurable bins idx)
      (countedSteps file s W n) hln (countedSteps_le file s W n) (ε := ε / 3) (by linarith)
    rw [h.dynamics] at hspread
    have hmean := hK starts hne h.inside _ (countedSteps_twice file s W n) hln hlK
    have hrest := h1 P w inp cfg sim s0 config n pot mass starts h (hn'.trans hn) a1
    have hNpos : (0 : ℝ) < starts.length := by exact_mod_cast a4
    have hLpos : (1 : ℝ) ≤ (countedSteps file s W n).length := by exact_mod_cast hl1
    have hbound : ENNReal.ofReal (1 / (4 * starts.length * (ε / 3) ^ 2)) ≤ ENNReal.ofReal (δ / 2) := by
      refine ENNReal.ofReal_le_ofReal ?_
      have h3 : (N3 : ℝ) ≤ starts.length := by exact_mod_cast a3
      have h4 := hN3.le.trans h3
      have h5 : (0 : ℝ) < (ε / 3) ^ 2 := by positivity
      rw [div_le_iff₀ (by positivity)] at h4 ⊢
      nlinarith
    have hsub : {ω | ¬ ∃ H, (sim ω).hist = some H ∧ H.bins = bins ∧ ∀ i ∈ idx :: I,
        |(H.data i : ℝ) / (starts.length * (countedSteps file s W n).length : ℕ) - p i| < ε} ⊆
        {ω | ε / 3 ≤ |(∑ k ∈ Finset.range starts.length, h.random.share (binRegion bins idx) (countedSteps file s W n) k ω) /
          starts.length - meanProbability T starts (binRegion bins idx) (countedSteps file s W n)|} ∪
        {ω | ¬ ∃ H, (sim ω).hist = some H ∧ H.bins = bins ∧ ∀ i ∈ I,
          |(H.data i : ℝ) / (starts.length * (countedSteps file s W n).length : ℕ) - p i| < ε} := by
      intro ω hω
      by_contra hc
      rw [Set.mem_union, not_or] at hc
      obtain ⟨c1, c2⟩ := hc
      rw [Set.mem_ofPred_eq, not_le] at c1
      rw [Set.mem_ofPred_eq, not_not] at c2
      obtain ⟨H, d1, d2, d3⟩ := c2
      refine hω ⟨H, d1, d2, fun i hi => ?_⟩
      rcases List.mem_cons.1 hi with rfl | hi
      · obtain ⟨H', e1, _, e3⟩ := h.data hne ω
        rw [d1] at e1
        cases e1
        have hc0 : ((countInBin bins i [List.replicate d 0] : ℕ) : ℝ) ≤ 1 := by
          have : countInBin bins i [List.replicate d 0] ≤ 1 := by
            unfold countInBin
            exact List.countP_le_length
          exact_mod_cast this
        have hc1 : (0 : ℝ) ≤ (countInBin bins i [List.replicate d 0] : ℕ) := Nat.cast_nonneg _
        have e : (H.data i : ℝ) / (starts.length * (countedSteps file s W n).length : ℕ) =
            (countInBin bins i [List.replicate d 0] : ℕ) / (starts.length * (countedSteps file s W n).length) +
            (∑ k ∈ Finset.range starts.length, h.random.share (binRegion bins i) (countedSteps file s W n) k ω) / starts.length := by
          rw [e3 i, Nat.cast_mul, add_div]
          congr 1
          unfold RandomRuns.share
          rw [← Finset.sum_div, div_div, mul_comm (starts.length : ℝ)]
        have h6 : (countInBin bins i [List.replicate d 0] : ℕ) / ((starts.length : ℝ) * (countedSteps file s W n).length) ≤ ε / 3 := by
          have h7 : (N2 : ℝ) ≤ starts.length := by exact_mod_cast a2
          have h8 := hN2.le.trans h7
          rw [div_le_iff₀ hε] at h8
          rw [div_le_iff₀ (by positivity)]
          nlinarith [mul_pos hNpos hε]
        have h9 : 0 ≤ (countInBin bins i [List.replicate d 0] : ℕ) / ((starts.length : ℝ) * (countedSteps file s W n).length) := by
          positivity
        rw [e]
        rw [abs_lt] at c1 ⊢
        rw [abs_le] at hmean
        constructor <;> linarith [c1.1, c1.2, hmean.1, hmean.2]
      · exact d3 i hi
    refine (measure_mono hsub).trans ((measure_union_le _ _).trans ?_)
    refine (add_le_add (hspread.trans hbound) hrest).trans ?_
    rw [← ENNReal.ofReal_add (by linarith) (by linarith)]
    exact ENNReal.ofReal_le_ofReal (by linarith)

/-! ### Free energies -/

/-- Ratios of numbers that are near to positive numbers. -/
theorem log_ratio_near {p q ε : ℝ} (kt : ℝ) (hp : 0 < p) (hq : 0 < q) (hε : 0 < ε) :
    ∃ η : ℝ, 0 < η ∧ ∀ x y, |x - p| < η → |y - q| < η → 0 < x ∧ 0 < y ∧ |kt * Real.log (y / x) - kt * Real.log (q / p)| < ε := by
  have hc : ContinuousAt (fun z : ℝ × ℝ => kt * Real.log (z.2 / z.1)) (p, q) := by
    refine continuousAt_const.mul (ContinuousAt.log (continuousAt_snd.div continuousAt_fst hp.ne') ?_)
    exact (div_pos hq hp).ne'
  obtain ⟨η, h1, h2⟩ := Metric.continuousAt_iff.1 hc ε hε
  refine ⟨min η (min p q), lt_min h1 (lt_min hp hq), fun x y hx hy => ?_⟩
  have hx1 := lt_of_lt_of_le hx (min_le_left _ _)
  have hy1 := lt_of_lt_of_le hy (min_le_left _ _)
  have hx2 := lt_of_lt_of_le hx ((min_le_right _ _).trans (min_le_left _ _))
  have hy2 := lt_of_lt_of_le hy ((min_le_right _ _).trans (min_le_right _ _))
  rw [abs_lt] at hx2 hy2
  refine ⟨by linarith [hx2.1], by linarith [hy2.1], ?_⟩
  have := h2 (x := (x, y)) (by rw [Prod.dist_eq, max_lt_iff, Real.dist_eq, Real.dist_eq]; exact ⟨hx1, hy1⟩)
  rwa [Real.dist_eq] at this

/-- **C155.** In the same situation the difference of the free energies of two bins at the end of the run is near to `kT` times
the logarithm of the quotient of the limits, except for a small probability. -/
theorem main_long_fes {T : (Fin d → ℝ) → (Fin d → ℝ) → Phase d → Phase d}
    (hT : Measurable (fun z : (Phase d × (Fin d → ℝ)) × (Fin d → ℝ) => T z.1.2 z.2 z.1.1)) {S : Finset (Phase d)}
    {bins : List (List ℝ)} {i j : ℕ} {idx jdx : List Nat} (hi : (indices (bins.map (fun e => e.length - 1)))[i]? = some idx)
    (hj : (indices (bins.map (fun e => e.length - 1)))[j]? = some jdx) {p : List Nat → ℝ}
    (hp : 0 < p idx) (hq : 0 < p jdx) (hS : ∀ k ∈ [idx, jdx], ∀ z ∈ S, Settles T (binRegion bins k) (p k) z)
    {file : Bool} {s W : ℕ} (hs : 0 < s) (hW : 0 < W) (hf : file = true ∨ s ≤ W) (kt : ℝ) {ε δ : ℝ} (hε : 0 < ε) (hδ : 0 < δ) :
    ∃ n0 N0 : ℕ, ∀ {Ω R : Type} [MeasurableSpace Ω] (P : Measure Ω) (w : Ω → World R) (inp : Option (List Section))
      (cfg : Ω → SimCfg d) (sim s0 : Ω → Sim d R) (config : Input ℝ) (n : ℕ) (pot : Potential ℝ d) (mass : ℝ)
      (starts : List (Phase d)), CountingRuns P w inp cfg sim s0 config n pot mass starts T S bins file s W →
      config.fes ≠ none → (∀ ω, (cfg ω).ld.kt = kt) → n0 ≤ n → N0 ≤ starts.length →
      P {ω | ¬ ∃ fes, (sim ω).fes = some fes ∧ ∃ f g : ℝ, fes.flat[i]? = some (f : WithTop ℝ) ∧ fes.flat[j]? = some (g : WithTop ℝ) ∧
        |(f - g) - kt * Real.log (p jdx / p idx)| < ε} ≤ ENNReal.ofReal δ := by
  obtain ⟨η, hη, hnear⟩ := log_ratio_near kt hp hq hε
  obtain ⟨n0, N0, h0⟩ := main_long_histogram hT [idx, jdx] hS hs hW hf hη hδ
  refine ⟨n0, N0, fun P w inp cfg sim s0 config n pot mass starts h hfes hkt hn hN => ?_⟩
  refine (measure_mono ?_).trans (h0 P w inp cfg sim s0 config n pot mass starts h hn hN)
  intro ω hω
  rw [Set.mem_ofPred_eq] at hω ⊢
  intro ⟨H, h1, h2, h3⟩
  refine hω ?_
  obtain ⟨o, ho⟩ := Option.ne_none_iff_exists'.1 hfes
  obtain ⟨H', e1, e2⟩ := main_fes (h.random.run ω) o ho
  simp only at e1 e2
  rw [h1] at e1
  cases e1
  rw [hkt ω] at e2
  obtain ⟨x0, y0, hxy⟩ := hnear _ _ (h3 idx (by simp)) (h3 jdx (by simp))
  set M : ℝ := ((starts.length * (countedSteps file s W n).length : ℕ) : ℝ) with hM
  have hMpos : 0 < M := by
    rcases lt_or_eq_of_le (show (0 : ℝ) ≤ M from Nat.cast_nonneg _) with hlt | heq
    · exact hlt
    · rw [← heq, div_zero] at x0
      exact absurd x0 (lt_irrefl _)
  have hx : (0 : ℝ) < H.data idx := by
    have := mul_pos x0 hMpos
    rwa [div_mul_cancel₀ _ hMpos.ne'] at this
  have hy : (0 : ℝ) < H.data jdx := by
    have := mul_pos y0 hMpos
    rwa [div_mul_cancel₀ _ hMpos.ne'] at this
  have hfl : H.counts.flat = (indices (bins.map (fun e => e.length - 1))).map H.data := by
    unfold Histogram.counts Nd.ofFn Histogram.shape
    rw [h2]
  have hx0 : H.data idx ≠ 0 := by
    intro hz
    simp [hz] at hx
  have hy0 : H.data jdx ≠ 0 := by
    intro hz
    simp [hz] at hy
  have hmax : (0 : ℝ) < (maxCount H.counts.flat : ℕ) := by
    have := maxCount_ge H.counts.flat (H.data idx) (by
      rw [hfl]
      exact List.mem_map.2 ⟨idx, List.mem_of_getElem? hi, rfl⟩)
    have : (H.data idx : ℝ) ≤ (maxCount H.counts.flat : ℕ) := by exact_mod_cast this
    linarith
  refine ⟨_, e2, kt * Real.log ((maxCount H.counts.flat : ℝ) / H.data idx), kt * Real.log ((maxCount H.counts.flat : ℝ) / H.data jdx),
    ?_, ?_, ?_⟩
  · simp only [Nd.map, List.getElem?_map]
    rw [hfl, List.getElem?_map, hi, Option.map_some, Option.map_some, ← hfl]
    simp only [freeEnergy, if_neg hx0]
  · simp only [Nd.map, List.getElem?_map]
    rw [hfl, List.getElem?_map, hj, Option.map_some, Option.map_some, ← hfl]
    simp only [freeEnergy, if_neg hy0]
  · have e : kt * Real.log ((maxCount H.counts.flat : ℝ) / H.data idx) - kt * Real.log ((maxCount H.counts.flat : ℝ) / H.data jdx) =
        kt * Real.log ((H.data jdx : ℝ) / M / ((H.data idx : ℝ) / M)) := by
      rw [div_div_div_cancel_right₀ hMpos.ne', Real.log_div hmax.ne' hx.ne', Real.log_div hmax.ne' hy.ne', Real.log_div hy.ne' hx.ne']
      ring
    rw [e]
    exact hxy

end Bdld
