import Verif.Lemmas.HistogramAction

/-
C06, C07, C10: what the histogram contains during and after a simulation.

Throughout `W` is the write stride of the trajectories (= update stride of the histogram), `k` the stride of
the histogram, `n` the number of steps.
-/

namespace Bdld
open Spec

/-- The objects set up by main for `[trajectories]` and `[histogram]`, as far as the theorems need them:
positive strides, at least one particle, constant number and dimension of particles, well-formed bins. -/
structure HistSetup {F : Type} [LinearOrder F] (c : TrajCfg F) (hc : HistCfg) (hist : Nat → Snapshot F)
    (h0 : Histogram F) : Prop where
  good : GoodHist c hist
  stride_pos : 0 < c.stride
  write_pos : 0 < c.writeStride
  part_pos : 0 < c.nParticles
  hstride_pos : 0 < hc.stride
  update : hc.updateStride = c.writeStride
  edges : ∀ e ∈ h0.bins, GoodEdges e
  dim : ∀ t, ∀ p ∈ (hist t).pos, p.length = h0.bins.length

/-- The histogram holds its content at the beginning of the run plus, per bin, the number of
(step, particle) pairs with step in the list `steps` (counted with multiplicity) and position in the bin. -/
def HoldsSince {F : Type} [LinearOrder F] (hist : Nat → Snapshot F) (h0 h : Histogram F)
    (steps : List Nat) : Prop :=
  h.bins = h0.bins ∧
    ∀ idx, h.data idx = h0.data idx + countInBin h0.bins idx (positionsAt hist steps)

/-- The same without the initial content. -/
def HoldsOnly {F : Type} [LinearOrder F] (hist : Nat → Snapshot F) (h0 h : Histogram F)
    (steps : List Nat) : Prop :=
  h.bins = h0.bins ∧ ∀ idx, h.data idx = countInBin h0.bins idx (positionsAt hist steps)

private theorem HistHolds.only {F : Type} [LinearOrder F] {hist : Nat → Snapshot F} {h0 h : Histogram F}
    {steps : List Nat} (hH : HistHolds hist h0 h false steps) : HoldsOnly hist h0 h steps :=
  ⟨hH.1, fun idx => by rw [hH.2]; simp⟩

/-- Objects made by the constructors satisfy the requirements on strides and edges. -/
theorem histCfg_new {F : Type} [Field F] [LinearOrder F] [IsStrictOrderedRing F] (c : TrajCfg F)
    (nDim : Nat) (nBins : List Nat) (ranges : List (F × F)) (stride : Option Nat) (reset : Option (List Nat))
    (hasFile : Bool) (writeStride : Option Nat) (hc : HistCfg) (h0 : Histogram F)
    (h : HistCfg.new c nDim nBins ranges stride reset hasFile writeStride = .ok (hc, h0)) :
    0 < hc.stride ∧ hc.updateStride = c.writeStride ∧ (∀ e ∈ h0.bins, GoodEdges e) ∧
      h0.bins.length = nDim ∧ hc.reset = reset.getD [] ∧
      ∀ idx, h0.data idx = countInBin h0.bins idx [List.replicate nDim 0] := by
  unfold HistCfg.new at h
  by_cases h1 : nDim ≠ nBins.length
  · rw [if_pos h1] at h; cases h
  rw [if_neg h1] at h
  by_cases h2 : nDim ≠ ranges.length
  · simp only [if_pos h2] at h; cases h
  simp only [if_neg h2] at h
  cases h3 : Histogram.new nBins ranges with
  | error e => rw [h3] at h; cases h
  | ok h' =>
    rw [h3] at h
    simp only [pure_eq_ok, ok_bind] at h
    by_cases h4 : (truthyNat writeStride && !hasFile) = true
    · rw [if_pos h4] at h; cases h
    · rw [if_neg h4] at h
      injection h with h
      injection h with ha hb
      subst ha hb
      have hn := histogram_new_data nBins ranges h' h3
      push Not at h1 h2
      refine ⟨?_, rfl, hn.1, ?_, rfl, ?_⟩
      · rcases stride with _ | _ | s <;> simp [pyOrNat]
      · rw [hn.2.1]; exact h1.symm
      · rw [h1]; exact hn.2.2

/-- The blocks `a, …, b - 1` of a ledger. -/
private def blocks (blk : Nat → List Nat) (W a b : Nat) : List Nat :=
  (List.range' a (b - a)).flatMap (fun j => blk ((j + 1) * W))

private theorem blocks_self (blk : Nat → List Nat) (W a : Nat) : blocks blk W a a = [] := by
  simp [blocks]

private theorem blocks_succ (blk : Nat → List Nat) (W a b : Nat) (h : a ≤ b) :
    blocks blk W a b ++ blk ((b + 1) * W) = blocks blk W a (b + 1) := by
  unfold blocks
  rw [show b + 1 - a = (b - a) + 1 by omega, List.range'_concat, List.flatMap_append]
  simp only [List.flatMap_cons, List.flatMap_nil, List.append_nil]
  rw [show a + 1 * (b - a) = b by omega]

/-- Counting from a step `r` on, after which there is no reset. -/
private theorem ledger_from (blk : Nat → List Nat) (W : Nat) (reset : List Nat) (r : Nat)
    (base : Bool) (h0 : ledger blk W reset r = (base, [])) (d : Nat)
    (hno : ∀ s, r < s → s ≤ r + d → s ∉ reset) :
    ledger blk W reset (r + d) = (base, blocks blk W (r / W) ((r + d) / W)) := by
  induction d with
  | zero => rw [Nat.add_zero, h0, blocks_self]
  | succ d ih =>
    have ih := ih (fun s h1 h2 => hno s h1 (by omega))
    rw [← Nat.add_assoc]
    simp only [ledger, ih]
    rw [if_neg (hno (r + d + 1) (by omega) (by omega))]
    by_cases hd : W ∣ r + d + 1
    · rw [if_pos hd, Nat.succ_div_of_dvd hd, ← blocks_succ _ _ _ _ (Nat.div_le_div_right (by omega))]
      rw [← Nat.succ_div_of_dvd hd, Nat.div_mul_cancel hd]
    · rw [if_neg hd, Nat.succ_div_of_not_dvd hd]

private theorem ledger_noreset (blk : Nat → List Nat) (W : Nat) (n : Nat) :
    ledger blk W [] n = (true, blocks blk W 0 (n / W)) := by
  have := ledger_from blk W [] 0 true rfl n (by simp)
  simpa using this

private theorem ledger_reset (blk : Nat → List Nat) (W : Nat) (reset : List Nat) (r n : Nat)
    (hr : r ∈ reset) (h0 : 0 < r) (hle : r ≤ n) (hno : ∀ s, r < s → s ≤ n → s ∉ reset) :
    ledger blk W reset n = (false, blocks blk W (r / W) (n / W)) := by
  obtain ⟨d, rfl⟩ := Nat.exists_eq_add_of_le hle
  apply ledger_from blk W reset r false _ d hno
  obtain ⟨m, rfl⟩ : ∃ m, r = m + 1 := ⟨r - 1, by omega⟩
  simp only [ledger]
  rw [if_pos hr]

/-- Sampling relative to `a` is sampling if the stride divides `a`. -/
theorem relativeSteps_eq (k a b : Nat) (hd : k ∣ a) :
    relativeSteps k a b = sampledSteps k a b := by
  apply eq_of_strictIncr _ (sampledSteps_pairwise _ _ _)
  · intro x
    unfold relativeSteps
    rw [List.mem_map]
    constructor
    · rintro ⟨y, hy, rfl⟩
      rw [mem_sampledSteps] at hy ⊢
      exact ⟨by omega, by omega, Nat.dvd_add hd hy.2.2⟩
    · intro hx
      rw [mem_sampledSteps] at hx
      refine ⟨x - a, mem_sampledSteps.2 ⟨by omega, by omega, Nat.dvd_sub hx.2.2 hd⟩, by omega⟩
  · unfold relativeSteps
    rw [List.pairwise_map]
    exact (sampledSteps_pairwise k 0 (b - a)).imp (fun h => by omega)

private theorem mem_relativeSteps (k a b t : Nat) (h : t ∈ relativeSteps k a b) : a < t ∧ t ≤ b := by
  unfold relativeSteps at h
  obtain ⟨y, hy, rfl⟩ := List.mem_map.1 h
  rw [mem_sampledSteps] at hy
  omega

private theorem block_exact (withFile : Bool) (k W j : Nat) (hok : withFile = true ∨ k ∣ W) :
    blockSteps withFile k W ((j + 1) * W) = sampledSteps k (j * W) ((j + 1) * W) := by
  unfold blockSteps
  rw [show (j + 1) * W - W = j * W by rw [Nat.succ_mul]; omega]
  cases withFile with
  | true => rfl
  | false =>
    rw [if_neg (by simp)]
    exact relativeSteps_eq _ _ _ (Dvd.dvd.mul_left (hok.resolve_left (by simp)) j)

private theorem blocks_exact (withFile : Bool) (k W a b : Nat) (hok : withFile = true ∨ k ∣ W) (h : a ≤ b) :
    blocks (blockSteps withFile k W) W a b = sampledSteps k (a * W) (b * W) := by
  obtain ⟨d, rfl⟩ := Nat.exists_eq_add_of_le h
  induction d with
  | zero => simp [blocks_self]
  | succ d ih =>
    rw [← Nat.add_assoc, ← blocks_succ _ _ _ _ (by omega), ih (by omega), block_exact _ _ _ _ hok,
      sampledSteps_append _ (Nat.mul_le_mul_right _ (by omega)) (Nat.mul_le_mul_right _ (by omega))]

private theorem mem_blocks (withFile : Bool) (k W a b t : Nat)
    (ht : t ∈ blocks (blockSteps withFile k W) W a b) : a * W < t ∧ t ≤ b * W := by
  unfold blocks at ht
  obtain ⟨j, hj, hm⟩ := List.mem_flatMap.1 ht
  rw [List.mem_range'] at hj
  obtain ⟨i, hi, rfl⟩ := hj
  have h2 : (a + 1 * i) * W < t ∧ t ≤ (a + 1 * i + 1) * W := by
    unfold blockSteps at hm
    rw [show (a + 1 * i + 1) * W - W = (a + 1 * i) * W by rw [Nat.succ_mul]; omega] at hm
    cases withFile with
    | true =>
      rw [if_pos rfl, mem_sampledSteps] at hm
      exact ⟨hm.1, hm.2.1⟩
    | false =>
      rw [if_neg (by simp)] at hm
      exact mem_relativeSteps _ _ _ _ hm
  have h3 : a * W ≤ (a + 1 * i) * W := Nat.mul_le_mul_right _ (by omega)
  have h4 : (a + 1 * i + 1) * W ≤ b * W := Nat.mul_le_mul_right _ (by omega)
  omega

section
variable {F : Type} [LinearOrder F] (c : TrajCfg F) (hc : HistCfg) (hist : Nat → Snapshot F)
  (gt : Nat → F) (gp gm : Nat → List (List F)) (h0 : Histogram F)

/-- **C06 (partial)**, during the run. Full claim: after `n` steps (no resets) the histogram holds exactly
the positions at the multiples of its stride in `1..n`. During the run this holds up to the last multiple of
the trajectory write stride, if the trajectories are written to file or the histogram stride divides
their write stride. (See `histogram_final_file`, `histogram_final_nofile` for the end of the
simulation.) -/
theorem histogram_during_partial (hS : HistSetup c hc hist h0) (withFile : Bool) (n : Nat)
    (hr : hc.reset = []) (hok : withFile = true ∨ hc.stride ∣ c.writeStride) :
    ∃ t h, thSteps c hc hist n (TrajState.init c withFile gt gp gm, h0) = .ok (t, h) ∧
      HoldsSince hist h0 h (sampledSteps hc.stride 0 (n / c.writeStride * c.writeStride)) := by
  obtain ⟨t, h, e, _, hH⟩ := thSteps_inv c hc hist hS.good hS.stride_pos hS.write_pos hS.part_pos
    hS.hstride_pos hS.update withFile gt gp gm h0 hS.edges hS.dim n
  rw [hr, ledger_noreset, blocks_exact _ _ _ _ _ hok (Nat.zero_le _), Nat.zero_mul] at hH
  exact ⟨t, h, e, hH⟩

/-- **C06 (partial)**, end of the simulation: the claim holds in full if the trajectories are *not* written
to file, the histogram stride divides their write stride, and the number of steps is *not* a multiple of
the write stride. -/
theorem histogram_final_partial (hS : HistSetup c hc hist h0) (n : Nat) (hr : hc.reset = [])
    (hok : hc.stride ∣ c.writeStride) (hn : ¬ c.writeStride ∣ n) :
    ∃ t h, thSimulate c hc hist n (TrajState.init c false gt gp gm, h0) = .ok (t, h) ∧
      HoldsSince hist h0 h (sampledSteps hc.stride 0 n) := by
  have hn0 : 0 < n := by
    rcases Nat.eq_zero_or_pos n with rfl | h
    · simp at hn
    · exact h
  obtain ⟨t, h, e, hH⟩ := thSimulate_inv c hc hist hS.good hS.stride_pos hS.write_pos hS.part_pos
    hS.hstride_pos hS.update false gt gp gm h0 hS.edges hS.dim n hn0
  rw [hr, ledger_noreset, blocks_exact _ _ _ _ _ (Or.inr hok) (Nat.zero_le _),
    Nat.zero_mul, finalSteps, if_neg hn, if_neg (by simp),
    relativeSteps_eq _ _ _ (Dvd.dvd.mul_left hok _),
    sampledSteps_append _ (Nat.zero_le _) (Nat.div_mul_le_self _ _)] at hH
  exact ⟨t, h, e, hH⟩

/-- What the histogram holds at the end if the trajectories *are* written to file: the complete blocks,
and, if the number of steps is a multiple of the write stride, the last block a second time. The steps
after the last complete block are never counted. -/
theorem histogram_final_file (hS : HistSetup c hc hist h0) (n : Nat) (hn : 0 < n) (hr : hc.reset = []) :
    ∃ t h, thSimulate c hc hist n (TrajState.init c true gt gp gm, h0) = .ok (t, h) ∧
      HoldsSince hist h0 h (sampledSteps hc.stride 0 (n / c.writeStride * c.writeStride) ++
        if c.writeStride ∣ n then sampledSteps hc.stride (n - c.writeStride) n else []) := by
  obtain ⟨t, h, e, hH⟩ := thSimulate_inv c hc hist hS.good hS.stride_pos hS.write_pos hS.part_pos
    hS.hstride_pos hS.update true gt gp gm h0 hS.edges hS.dim n hn
  rw [hr, ledger_noreset, blocks_exact _ _ _ _ _ (Or.inl rfl) (Nat.zero_le _),
    Nat.zero_mul] at hH
  exact ⟨t, h, e, hH⟩

/-- What the histogram holds at the end if the trajectories are *not* written to file: in every block
the steps whose distance from the beginning of the block is a multiple of the stride, including the last
incomplete block; if there is no incomplete block, the last complete block is counted twice. -/
theorem histogram_final_nofile (hS : HistSetup c hc hist h0) (n : Nat) (hn : 0 < n) (hr : hc.reset = []) :
    ∃ t h, thSimulate c hc hist n (TrajState.init c false gt gp gm, h0) = .ok (t, h) ∧
      HoldsSince hist h0 h (
        (List.range (n / c.writeStride)).flatMap
          (fun b => relativeSteps hc.stride (b * c.writeStride) ((b + 1) * c.writeStride)) ++
        if c.writeStride ∣ n then relativeSteps hc.stride (n - c.writeStride) n
        else relativeSteps hc.stride (n / c.writeStride * c.writeStride) n) := by
  obtain ⟨t, h, e, hH⟩ := thSimulate_inv c hc hist hS.good hS.stride_pos hS.write_pos hS.part_pos
    hS.hstride_pos hS.update false gt gp gm h0 hS.edges hS.dim n hn
  rw [hr, ledger_noreset] at hH
  have e1 : blocks (blockSteps false hc.stride c.writeStride) c.writeStride 0 (n / c.writeStride) =
      (List.range (n / c.writeStride)).flatMap
        (fun b => relativeSteps hc.stride (b * c.writeStride) ((b + 1) * c.writeStride)) := by
    unfold blocks blockSteps
    rw [Nat.sub_zero, ← List.range_eq_range']
    congr 1
    funext j
    rw [if_neg (by simp), show (j + 1) * c.writeStride - c.writeStride = j * c.writeStride by
      rw [Nat.succ_mul]; omega]
  rw [e1] at hH
  exact ⟨t, h, e, hH⟩

/-- **C07 (partial).** Full claim: the histogram does not depend on whether the trajectories are written to
file. Proved (for the final histogram, and every reset list) if the histogram stride divides the write
stride of the trajectories and the number of steps is a multiple of it. -/
theorem histogram_file_independent_partial (hS : HistSetup c hc hist h0) (n : Nat) (hn : 0 < n)
    (hok : hc.stride ∣ c.writeStride) (hd : c.writeStride ∣ n) :
    ∃ t h t' h', thSimulate c hc hist n (TrajState.init c true gt gp gm, h0) = .ok (t, h) ∧
      thSimulate c hc hist n (TrajState.init c false gt gp gm, h0) = .ok (t', h') ∧
      h.bins = h'.bins ∧ h.data = h'.data := by
  obtain ⟨t, h, e, hH⟩ := thSimulate_inv c hc hist hS.good hS.stride_pos hS.write_pos hS.part_pos
    hS.hstride_pos hS.update true gt gp gm h0 hS.edges hS.dim n hn
  obtain ⟨t', h', e', hH'⟩ := thSimulate_inv c hc hist hS.good hS.stride_pos hS.write_pos hS.part_pos
    hS.hstride_pos hS.update false gt gp gm h0 hS.edges hS.dim n hn
  have hblk : ∀ m, c.writeStride ∣ m →
      blockSteps true hc.stride c.writeStride m = blockSteps false hc.stride c.writeStride m := by
    intro m hm
    rcases Nat.eq_zero_or_pos m with rfl | h
    · simp [blockSteps, relativeSteps]
    · obtain ⟨q, rfl⟩ := hm
      obtain ⟨b, rfl⟩ : ∃ b, q = b + 1 := ⟨q - 1, by rcases q with _ | q <;> simp at h ⊢⟩
      rw [Nat.mul_comm, block_exact _ _ _ _ (Or.inl rfl), block_exact _ _ _ _ (Or.inr hok)]
  have hled : ∀ m, ledger (blockSteps true hc.stride c.writeStride) c.writeStride hc.reset m
      = ledger (blockSteps false hc.stride c.writeStride) c.writeStride hc.reset m := by
    intro m
    induction m with
    | zero => rfl
    | succ m ih =>
      simp only [ledger, ih]
      by_cases hm : c.writeStride ∣ m + 1
      · rw [if_pos hm, if_pos hm, hblk _ hm]
      · rw [if_neg hm, if_neg hm]
  refine ⟨t, h, t', h', e, e', hH.1.trans hH'.1.symm, ?_⟩
  funext idx
  rw [hH.2, hH'.2, hled, finalSteps, finalSteps, if_pos hd, if_pos hd, hblk n hd]

/-- **C07 (partial)**, during the run: at every step the histograms with and without trajectory files agree if
the histogram stride divides the write stride (no resets). -/
theorem histogram_file_independent_during_partial (hS : HistSetup c hc hist h0) (n : Nat)
    (hr : hc.reset = []) (hok : hc.stride ∣ c.writeStride) :
    ∃ t h t' h', thSteps c hc hist n (TrajState.init c true gt gp gm, h0) = .ok (t, h) ∧
      thSteps c hc hist n (TrajState.init c false gt gp gm, h0) = .ok (t', h') ∧
      h.bins = h'.bins ∧ h.data = h'.data := by
  obtain ⟨t, h, e, a1, a2⟩ := histogram_during_partial c hc hist gt gp gm h0 hS true n hr (Or.inl rfl)
  obtain ⟨t', h', e', b1, b2⟩ := histogram_during_partial c hc hist gt gp gm h0 hS false n hr (Or.inr hok)
  exact ⟨t, h, t', h', e, e', a1.trans b1.symm, funext (fun idx => (a2 idx).trans (b2 idx).symm)⟩

/-- **C10 (partial).** Full claim: after a reset at step `r` the histogram contains only data of steps
after `r`. Proved if `r` is a multiple of the trajectory write stride, at every later step `n` of the run
(`r` being the last reset up to `n`). Nothing of the initial content remains either. -/
theorem histogram_reset_partial (hS : HistSetup c hc hist h0) (withFile : Bool) (r n : Nat)
    (hr : r ∈ hc.reset) (hr0 : 0 < r) (hle : r ≤ n) (hlast : ∀ s, r < s → s ≤ n → s ∉ hc.reset)
    (hW : c.writeStride ∣ r) :
    ∃ t h steps, thSteps c hc hist n (TrajState.init c withFile gt gp gm, h0) = .ok (t, h) ∧
      HoldsOnly hist h0 h steps ∧ (∀ s ∈ steps, r < s ∧ s ≤ n) ∧
      ((withFile = true ∨ hc.stride ∣ c.writeStride) →
        steps = sampledSteps hc.stride r (n / c.writeStride * c.writeStride)) := by
  obtain ⟨t, h, e, _, hH⟩ := thSteps_inv c hc hist hS.good hS.stride_pos hS.write_pos hS.part_pos
    hS.hstride_pos hS.update withFile gt gp gm h0 hS.edges hS.dim n
  rw [ledger_reset _ _ _ r n hr hr0 hle hlast] at hH
  refine ⟨t, h, _, e, hH.only, ?_, ?_⟩
  · intro s hs
    have := mem_blocks _ _ _ _ _ _ hs
    rw [Nat.div_mul_cancel hW] at this
    have h2 := Nat.div_mul_le_self n c.writeStride
    omega
  · intro hok
    rw [blocks_exact _ _ _ _ _ hok (Nat.div_le_div_right hle), Nat.div_mul_cancel hW]

/-- **C10 (partial)**, final histogram: the same if in addition the reset was before the last step. -/
theorem histogram_reset_final_partial (hS : HistSetup c hc hist h0) (withFile : Bool) (r n : Nat)
    (hr : r ∈ hc.reset) (hr0 : 0 < r) (hlt : r < n) (hlast : ∀ s, r < s → s ≤ n → s ∉ hc.reset)
    (hW : c.writeStride ∣ r) :
    ∃ t h steps, thSimulate c hc hist n (TrajState.init c withFile gt gp gm, h0) = .ok (t, h) ∧
      HoldsOnly hist h0 h steps ∧ (∀ s ∈ steps, r < s ∧ s ≤ n) := by
  obtain ⟨t, h, e, hH⟩ := thSimulate_inv c hc hist hS.good hS.stride_pos hS.write_pos hS.part_pos
    hS.hstride_pos hS.update withFile gt gp gm h0 hS.edges hS.dim n (by omega)
  rw [ledger_reset _ _ _ r n hr hr0 (by omega) hlast] at hH
  refine ⟨t, h, _, e, hH.only, ?_⟩
  intro s hs
  rcases List.mem_append.1 hs with hs | hs
  · have := mem_blocks _ _ _ _ _ _ hs
    rw [Nat.div_mul_cancel hW] at this
    have h2 := Nat.div_mul_le_self n c.writeStride
    omega
  · unfold finalSteps at hs
    by_cases hd : c.writeStride ∣ n
    · rw [if_pos hd] at hs
      have hnr : c.writeStride ≤ n - r := Nat.le_of_dvd (by omega) (Nat.dvd_sub hd hW)
      have : n - c.writeStride < s ∧ s ≤ n := by
        unfold blockSteps at hs
        cases withFile with
        | true => rw [if_pos rfl, mem_sampledSteps] at hs; exact ⟨hs.1, hs.2.1⟩
        | false => rw [if_neg (by simp)] at hs; exact mem_relativeSteps _ _ _ _ hs
      omega
    · rw [if_neg hd] at hs
      cases withFile with
      | true => simp at hs
      | false =>
        rw [if_neg (by simp)] at hs
        have h1 := mem_relativeSteps _ _ _ _ hs
        have h2 : r / c.writeStride * c.writeStride ≤ n / c.writeStride * c.writeStride :=
          Nat.mul_le_mul_right _ (Nat.div_le_div_right (by omega))
        rw [Nat.div_mul_cancel hW] at h2
        omega

/-- What the histogram holds after a reset at any step `r` (with trajectory files): the steps after the
last multiple of the write stride *before or at* `r`. -/
theorem histogram_reset_file (hS : HistSetup c hc hist h0) (r n : Nat)
    (hr : r ∈ hc.reset) (hr0 : 0 < r) (hle : r ≤ n) (hlast : ∀ s, r < s → s ≤ n → s ∉ hc.reset) :
    ∃ t h, thSteps c hc hist n (TrajState.init c true gt gp gm, h0) = .ok (t, h) ∧
      HoldsOnly hist h0 h (sampledSteps hc.stride (r / c.writeStride * c.writeStride)
        (n / c.writeStride * c.writeStride)) := by
  obtain ⟨t, h, e, _, hH⟩ := thSteps_inv c hc hist hS.good hS.stride_pos hS.write_pos hS.part_pos
    hS.hstride_pos hS.update true gt gp gm h0 hS.edges hS.dim n
  rw [ledger_reset _ _ _ r n hr hr0 hle hlast,
    blocks_exact _ _ _ _ _ (Or.inl rfl) (Nat.div_le_div_right hle)] at hH
  exact ⟨t, h, e, hH.only⟩

end

/-! ### Examples and counterexamples

One particle in one dimension, at position `t` at step `t`; bins of width one around the integers, so the
count of bin `t` tells how often step `t` was counted. -/

/-- Test system: write stride 2. -/
def exTraj : TrajCfg Int := ⟨1, 2, 1, false, fun t => t⟩
/-- Positions of the test system. -/
def exHist : Nat → Snapshot Int := fun t => ⟨[[(t : Int)]], [[0]]⟩
/-- Empty histogram of the test system. -/
def exH0 : Histogram Int := ⟨[[0, 1, 2, 3, 4, 5, 6, 7]], fun _ => 0⟩
/-- Counts of the steps 1, …, m. -/
def exCounts (r : Except PyErr (TrajState Int × Histogram Int)) (m : Nat) : Option (List Nat) :=
  match r with
  | .ok (_, h) => some ((List.range m).map (fun i => h.data [i + 1]))
  | .error _ => none
/-- Initial state of the test system. -/
def exInit (withFile : Bool) : TrajState Int × Histogram Int :=
  (TrajState.init exTraj withFile (fun _ => 9) (fun _ => [[9]]) (fun _ => [[9]]), exH0)

/-- The test system satisfies the hypotheses of the theorems. -/
theorem exSetup (reset : List Nat) : HistSetup exTraj ⟨1, reset, 2⟩ exHist exH0 where
  good := fun _ => ⟨rfl, rfl⟩
  stride_pos := by decide
  write_pos := by decide
  part_pos := by decide
  hstride_pos := Nat.one_pos
  update := rfl
  edges := by
    intro e he
    simp only [exH0, List.mem_singleton] at he
    subst he
    unfold GoodEdges
    decide
  dim := by
    intro t p hp
    simp only [exHist, List.mem_singleton] at hp
    subst hp; rfl

/-- `histogram_final_partial` applies: three steps, no file; all counted once. -/
example : exCounts (thSimulate exTraj ⟨1, [], 2⟩ exHist 3 (exInit false)) 4 = some [1, 1, 1, 0] := by
  decide +kernel
/-- Counterexample to C06: four steps, no file; the last two are counted twice. -/
theorem histogram_final_false_nofile :
    exCounts (thSimulate exTraj ⟨1, [], 2⟩ exHist 4 (exInit false)) 4 = some [1, 1, 2, 2] := by
  decide +kernel
/-- Counterexample to C06: four steps, with file; the last two are counted twice. -/
theorem histogram_final_false_file_double :
    exCounts (thSimulate exTraj ⟨1, [], 2⟩ exHist 4 (exInit true)) 4 = some [1, 1, 2, 2] := by
  decide +kernel
/-- Counterexample to C06: three steps, with file; the last one is never counted. -/
theorem histogram_final_false_file_lost :
    exCounts (thSimulate exTraj ⟨1, [], 2⟩ exHist 3 (exInit true)) 4 = some [1, 1, 0, 0] := by
  decide +kernel
/-- Counterexample to C06 with a stride that does not divide the write stride: stride 3, write stride 4; without
file the steps 3 and 7 are counted instead of 3 and 6. -/
theorem histogram_final_false_stride :
    exCounts (thSteps { exTraj with writeStride := 4 } ⟨3, [], 4⟩ exHist 8
      (TrajState.init { exTraj with writeStride := 4 } false (fun _ => 9) (fun _ => [[9]]) (fun _ => [[9]]),
        ⟨[[0, 1, 2, 3, 4, 5, 6, 7, 8, 9]], fun _ => 0⟩)) 8
      = some [0, 0, 1, 0, 0, 0, 1, 0] := by
  decide +kernel

/-- Negation of C06: the histogram is not always the number of sampled positions. -/
theorem histogram_final_false :
    ¬ ∀ (c : TrajCfg Int) (hc : HistCfg) (hist : Nat → Snapshot Int) (h0 : Histogram Int) (withFile : Bool)
      (gt : Nat → Int) (gp gm : Nat → List (List Int)) (n : Nat) (t : TrajState Int) (h : Histogram Int),
      HistSetup c hc hist h0 → hc.reset = [] → 0 < n →
      thSimulate c hc hist n (TrajState.init c withFile gt gp gm, h0) = .ok (t, h) →
      HoldsSince hist h0 h (sampledSteps hc.stride 0 n) := by
  intro H
  obtain ⟨t, h, e, hH⟩ := histogram_final_file exTraj ⟨1, [], 2⟩ exHist (fun _ => 9) (fun _ => [[9]])
    (fun _ => [[9]]) exH0 (exSetup []) 3 (by decide) rfl
  have h1 := (H exTraj ⟨1, [], 2⟩ exHist exH0 true (fun _ => 9) (fun _ => [[9]]) (fun _ => [[9]]) 3 t h
    (exSetup []) rfl (by decide) e).2 [3]
  have h2 := hH.2 [3]
  have h3 := histogram_final_false_file_lost
  unfold exInit at h3
  rw [e] at h3
  simp only [exCounts, Option.some.injEq] at h3
  have h4 : h.data [3] = 0 := by
    have := congrArg (fun l => l[2]?) h3
    simpa using this
  rw [h4] at h1
  have h5 : countInBin exH0.bins [3] (positionsAt exHist (sampledSteps 1 0 3)) = 1 := by
    have hb : ∀ p, InBin exH0.bins [3] p ↔ binOf exH0.bins p = some [3] :=
      fun p => (binOf_iff exH0.bins (exSetup []).edges p [3]).symm
    unfold countInBin
    simp only [hb]
    rw [show (positionsAt exHist (sampledSteps 1 0 3)) = [[1], [2], [3]] by decide +kernel]
    simp [show binOf exH0.bins [1] = some [1] by decide +kernel,
      show binOf exH0.bins [2] = some [2] by decide +kernel,
      show binOf exH0.bins [3] = some [3] by decide +kernel]
  simp only [exH0] at h1 h5
  omega

/-- Negation of C07: three steps with write stride 2; the third step is counted without trajectory files
but not with them. -/
theorem histogram_file_independent_false :
    exCounts (thSimulate exTraj ⟨1, [], 2⟩ exHist 3 (exInit true)) 3
      ≠ exCounts (thSimulate exTraj ⟨1, [], 2⟩ exHist 3 (exInit false)) 3 := by
  decide +kernel

/-- `histogram_reset_partial` applies: reset at 2, after step 6 only 3 to 6 are counted. -/
example : exCounts (thSteps exTraj ⟨1, [2], 2⟩ exHist 6 (exInit true)) 6 = some [0, 0, 1, 1, 1, 1] := by
  decide +kernel
/-- Counterexample to C10: reset at 3 with write stride 2; step 3 is counted afterwards. -/
theorem histogram_reset_false :
    exCounts (thSteps exTraj ⟨1, [3], 2⟩ exHist 4 (exInit true)) 4 = some [0, 0, 1, 1] := by
  decide +kernel
/-- Counterexample to C10: reset at the last step, a multiple of the write stride; the final run counts the
last block again. -/
theorem histogram_reset_last_false :
    exCounts (thSimulate exTraj ⟨1, [4], 2⟩ exHist 4 (exInit true)) 4 = some [0, 0, 1, 1] := by
  decide +kernel

end Bdld
