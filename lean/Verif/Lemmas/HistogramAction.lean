import Verif.Lemmas.Trajectory
import Verif.Props.Histogram
import Verif.Model.HistogramAction
import Verif.Spec.Ledger

/-
Helper lemmas: which trajectory data the histogram action adds, and the invariant of the main loop.
-/

namespace Bdld
open Spec

theorem isRing_shift {α} {data : List α} {f : Nat → α} {W b r : Nat}
    (h : IsRing data f W 1 (b * W + r)) : IsRing data (fun t => f (b * W + t)) W 1 r := by
  refine ⟨h.1, ?_⟩
  intro k h1 h2 h3
  have := h.2 (b * W + k) (by omega) (by omega) (by omega)
  rw [show b * W + k - 1 = (k - 1) + W * b by rw [Nat.mul_comm W b]; omega, Nat.add_mul_mod_self_left] at this
  simpa using this

/-- With the save counter at zero (no trajectory files) the sampling is relative to the block. -/
theorem gvd_relative {α} (data : List α) (f : Nat → α) (W k b r : Nat) (hW : 0 < W) (hk : 0 < k)
    (hr : 0 < r) (hrW : r ≤ W) (hring : IsRing data f W 1 (b * W + r)) :
    getValidData data ((b * W + r : Nat) : Int) k 1 (0 : Nat)
      = .ok ((relativeSteps k (b * W) (b * W + r)).map f) := by
  have h1 := getValidData_nat data W 1 k (b * W + r) 0 hring.1 hW Nat.one_pos hk (by omega)
  have h2 := getValidData_nat data W 1 k r 0 hring.1 hW Nat.one_pos hk (by omega)
  have h3 := gvd_one data (fun t => f (b * W + t)) W k r 0 hW hk (isRing_shift hring) (by omega)
    (by simpa using hrW)
  simp only [Nat.mul_one, Nat.div_one] at h1 h2
  have e : (b * W + r) % W = r % W := by rw [Nat.add_comm, Nat.mul_comm, Nat.add_mul_mod_self_left]
  rw [e] at h1
  have h4 : getValidData data ((b * W + r : Nat) : Int) k 1 (0 : Nat) = getValidData data (r : Nat) k 1 (0 : Nat) := by
    rw [show ((1 : Int)) = ((1 : Nat) : Int) from rfl, h1, h2]
  rw [h4, h3, relativeSteps, Nat.add_sub_cancel_left, List.map_map]
  rfl

/-- A request starting exactly one block before a step that is no block boundary yields nothing. -/
theorem gvd_block_back {α} (data : List α) (W k n : Nat) (hlen : data.length = W) (hW : 0 < W)
    (hk : 0 < k) (hn : ¬ W ∣ n) :
    getValidData data (n : Int) k 1 ((n : Int) - W) = .ok [] := by
  have hmod : n % W ≠ 0 := fun h => hn (Nat.dvd_of_mod_eq_zero h)
  have e0 : pyMod ((n : Int) - W) W = ((n % W : Nat) : Int) := by
    unfold pyMod
    rw [Int.fmod_eq_emod_of_nonneg _ (by omega), Int.sub_emod, Int.emod_self, sub_zero,
      Int.emod_emod_of_dvd _ (dvd_refl _)]
    rfl
  have e1 : ∀ x : Int, pyDiv x 1 = x := by intro x; simp [pyDiv, Int.fdiv_one]
  have e2 : 0 ≤ pyMod ((n : Int) - W) k ∧ pyMod ((n : Int) - W) k < k := by
    unfold pyMod
    rw [Int.fmod_eq_emod_of_nonneg _ (by omega)]
    exact ⟨Int.emod_nonneg _ (by omega), Int.emod_lt_of_pos _ (by omega)⟩
  obtain ⟨j, hj⟩ := Int.eq_ofNat_of_zero_le e2.1
  unfold getValidData
  rw [if_neg (by omega)]
  simp only [mul_one, hlen]
  rw [if_neg (by omega)]
  simp only [e0, e1, pyMod_natCast]
  rw [if_neg (by omega), if_neg (by omega), if_neg (by omega), hj]
  rw [hj] at e2
  rw [show ((n % W : Nat) : Int) + ((k : Int) - 1) - (j : Int) = ((n % W + (k - 1 - j) : Nat) : Int) by omega,
    pySlice_some _ _ _ _ hk]
  congr 1
  have : sliceIdx (min (n % W + (k - 1 - j)) data.length) (min (n % W) data.length) k = [] := by
    apply List.eq_nil_iff_forall_not_mem.2
    intro x hx
    rw [mem_sliceIdx] at hx
    omega
  rw [this]; rfl

/-- Adding the positions of a list of steps. -/
theorem addTrajData_steps {F : Type} [LinearOrder F] (c : TrajCfg F) (hc : HistCfg)
    (hist : Nat → Snapshot F) (t : TrajState F) (h : Histogram F) (hg : ∀ e ∈ h.bins, GoodEdges e)
    (hdim : ∀ t, ∀ p ∈ (hist t).pos, p.length = h.bins.length) (step : Nat) (steps : List Nat)
    (hd : getTrajData c t hc.stride step = .ok (steps.map (fun t => (hist t).pos))) :
    ∃ h', addTrajData c hc t h step = .ok h' ∧ h'.bins = h.bins ∧
      ∀ idx, h'.data idx = h.data idx + countInBin h.bins idx (positionsAt hist steps) := by
  unfold addTrajData
  rw [hd, ok_bind, show (steps.map (fun t => (hist t).pos)).flatten = positionsAt hist steps by
    unfold positionsAt; rw [List.flatMap_def]]
  apply (histogram_add h hg _).2
  intro p hp
  unfold positionsAt at hp
  obtain ⟨t, _, ht⟩ := List.mem_flatMap.1 hp
  exact hdim t p ht

theorem countInBin_append {F : Type _} [LinearOrder F] (bins : List (List F)) (idx : List Nat)
    (a b : List (List F)) : countInBin bins idx (a ++ b) = countInBin bins idx a + countInBin bins idx b := by
  unfold countInBin; rw [List.countP_append]

theorem positionsAt_append {F : Type _} (hist : Nat → Snapshot F) (a b : List Nat) :
    positionsAt hist (a ++ b) = positionsAt hist a ++ positionsAt hist b := by
  unfold positionsAt; rw [List.flatMap_append]

/-- The steps added at the end of a block. -/
def blockSteps (withFile : Bool) (k W n : Nat) : List Nat :=
  if withFile then sampledSteps k (n - W) n else relativeSteps k (n - W) n

/-- What the histogram contains: the initial content (if not reset) and the positions at the given
steps. -/
def HistHolds {F : Type} [LinearOrder F] (hist : Nat → Snapshot F) (h0 h : Histogram F) (base : Bool)
    (steps : List Nat) : Prop :=
  h.bins = h0.bins ∧ ∀ idx, h.data idx =
    (if base then h0.data idx else 0) + countInBin h0.bins idx (positionsAt hist steps)

/-- Invariant on the trajectory part. -/
structure THTraj {F : Type} (c : TrajCfg F) (hist : Nat → Snapshot F) (withFile : Bool) (now : Nat)
    (t : TrajState F) : Prop where
  inv : TrajInv c hist now t
  file : withFile = true → FileInv c hist now (now / c.writeStride * c.writeStride) t
  nofile : withFile = false → t.files = none ∧ t.lastWrite = 0

theorem write_none {F : Type} (c : TrajCfg F) (s : TrajState F) (k : Nat) (h : s.files = none) :
    s.write c k = .ok s := by
  unfold TrajState.write; rw [h]

theorem div_mul_step {W n : Nat} :
    (n + 1) / W * W = if W ∣ n + 1 then n + 1 else n / W * W := by
  by_cases h : W ∣ n + 1
  · rw [if_pos h, Nat.div_mul_cancel h]
  · rw [if_neg h, Nat.succ_div_of_not_dvd h]

theorem trajRun_step {F : Type} (c : TrajCfg F) (hist : Nat → Snapshot F) (hh : GoodHist c hist)
    (hs : 0 < c.stride) (hW : 0 < c.writeStride) (hn : 0 < c.nParticles) (withFile : Bool) (now : Nat)
    (t : TrajState F) (h : THTraj c hist withFile now t) :
    ∃ t', t.run c (now + 1) (hist (now + 1)) = .ok t' ∧ THTraj c hist withFile (now + 1) t' := by
  obtain ⟨s1, h1, hf1, hl1, h2⟩ := run_store c hist hh hW now t h.inv
  cases withFile with
  | false =>
    obtain ⟨ha, hb⟩ := h.nofile rfl
    rw [write_none c s1 _ (hf1.trans ha), ite_self] at h2
    exact ⟨s1, h2, h1, by simp, fun _ => ⟨hf1.trans ha, hl1.trans hb⟩⟩
  | true =>
    have hf := h.file rfl
    by_cases hd : c.writeStride ∣ now + 1
    · rw [if_pos hd] at h2
      obtain ⟨s2, h3, h4, h5⟩ := write_inv c hist hh hs hW hn (now + 1) _ s1 h1
        (hl1.trans hf.last_eq) (Nat.le_succ_of_le hf.le) hf.window (hf1.trans hf.files)
      refine ⟨s2, h2.trans h3, h4, fun _ => ?_, by simp⟩
      rw [div_mul_step, if_pos hd]; exact h5
    · rw [if_neg hd] at h2
      refine ⟨s1, h2, h1, fun _ => ?_, by simp⟩
      rw [div_mul_step, if_neg hd]
      refine ⟨hl1.trans hf.last_eq, Nat.le_succ_of_le hf.le, ?_, hf1.trans hf.files⟩
      have hne : now + 1 ≠ c.writeStride * (now / c.writeStride * c.writeStride / c.writeStride + 1) := by
        intro he; exact hd ⟨_, he⟩
      have := hf.window
      omega

theorem getTrajData_block {F : Type} (c : TrajCfg F) (hist : Nat → Snapshot F) (hW : 0 < c.writeStride)
    (withFile : Bool) (now k : Nat) (hk : 0 < k) (t : TrajState F) (h : THTraj c hist withFile now t)
    (hd : c.writeStride ∣ now) (h0 : 0 < now) :
    getTrajData c t k now = .ok ((blockSteps withFile k c.writeStride now).map (fun t => (hist t).pos)) := by
  have hle := Nat.le_of_dvd h0 hd
  unfold getTrajData blockSteps
  cases withFile with
  | false =>
    obtain ⟨ha, hb⟩ := h.nofile rfl
    simp only [hb]
    rw [if_pos (by omega), if_neg (by simp)]
    obtain ⟨q, rfl⟩ := hd
    obtain ⟨b, rfl⟩ : ∃ b, q = b + 1 := ⟨q - 1, by rcases q with _ | q <;> simp at h0 ⊢⟩
    have e : c.writeStride * (b + 1) = b * c.writeStride + c.writeStride := by ring
    have := gvd_relative t.positions (fun t => (hist t).pos) c.writeStride k b c.writeStride hW hk hW
      (le_refl _) (e ▸ h.inv.positions)
    rw [e, Nat.add_sub_cancel]
    exact this
  | true =>
    have hf := h.file rfl
    have hl : t.lastWrite = now := by rw [hf.last_eq, Nat.div_mul_cancel hd]
    simp only [hl, ne_eq, not_true_eq_false, if_false]
    rw [if_pos trivial, show ((now : Int) - c.writeStride) = ((now - c.writeStride : Nat) : Int) by omega]
    apply gvd_one t.positions _ c.writeStride k now _ hW hk h.inv.positions (by omega)
    obtain ⟨q, rfl⟩ := hd
    obtain ⟨b, rfl⟩ : ∃ b, q = b + 1 := ⟨q - 1, by rcases q with _ | q <;> simp at h0 ⊢⟩
    rw [show c.writeStride * (b + 1) - c.writeStride = c.writeStride * b by
      rw [Nat.mul_add]; omega, Nat.mul_div_cancel_left _ hW]

/-- The main loop keeps the ledger. -/
theorem thSteps_inv {F : Type} [LinearOrder F] (c : TrajCfg F) (hc : HistCfg) (hist : Nat → Snapshot F)
    (hh : GoodHist c hist) (hs : 0 < c.stride) (hW : 0 < c.writeStride) (hn : 0 < c.nParticles)
    (hk : 0 < hc.stride) (hu : hc.updateStride = c.writeStride) (withFile : Bool)
    (gt : Nat → F) (gp gm : Nat → List (List F)) (h0 : Histogram F) (hg : ∀ e ∈ h0.bins, GoodEdges e)
    (hdim : ∀ t, ∀ p ∈ (hist t).pos, p.length = h0.bins.length) (n : Nat) :
    ∃ t h, thSteps c hc hist n (TrajState.init c withFile gt gp gm, h0) = .ok (t, h) ∧
      THTraj c hist withFile n t ∧
      HistHolds hist h0 h (ledger (blockSteps withFile hc.stride c.writeStride) c.writeStride hc.reset n).1
        (ledger (blockSteps withFile hc.stride c.writeStride) c.writeStride hc.reset n).2 := by
  induction n with
  | zero =>
    refine ⟨_, _, rfl, ⟨init_inv c hist withFile gt gp gm, ?_, ?_⟩, rfl, ?_⟩
    · rintro rfl
      refine ⟨by simp [TrajState.init], by simp, by simpa using hW, ?_⟩
      simp only [TrajState.init, if_true, Nat.zero_div, Nat.zero_mul, sampledSteps_self, List.map_nil]
      rw [List.map_const', List.length_range]
    · rintro rfl; simp [TrajState.init]
    · intro idx; simp [ledger, positionsAt, countInBin]
  | succ n ih =>
    obtain ⟨t, h, e1, hT, hH⟩ := ih
    obtain ⟨t', e2, hT'⟩ := trajRun_step c hist hh hs hW hn withFile n t hT
    set L := ledger (blockSteps withFile hc.stride c.writeStride) c.writeStride hc.reset n with hL
    have hadd : ∃ h', (if pyMod ((n + 1 : Nat) : Int) hc.updateStride = 0 then
          addTrajData c hc t' h (n + 1) else .ok h) = .ok h' ∧
        HistHolds hist h0 h' L.1 (if c.writeStride ∣ n + 1 then
          L.2 ++ blockSteps withFile hc.stride c.writeStride (n + 1) else L.2) := by
      have hmod : (pyMod ((n + 1 : Nat) : Int) hc.updateStride = 0) ↔ c.writeStride ∣ n + 1 := by
        rw [hu, pyMod_natCast]
        constructor
        · intro h; exact Nat.dvd_of_mod_eq_zero (by omega)
        · intro h; rw [Nat.mod_eq_zero_of_dvd h]; rfl
      by_cases hd : c.writeStride ∣ n + 1
      · rw [if_pos (hmod.2 hd), if_pos hd]
        obtain ⟨h', a1, a2, a3⟩ := addTrajData_steps c hc hist t' h (by rw [hH.1]; exact hg)
          (by rw [hH.1]; exact hdim) (n + 1) _
          (getTrajData_block c hist hW withFile (n + 1) hc.stride hk t' hT' hd (by omega))
        refine ⟨h', a1, a2.trans hH.1, ?_⟩
        intro idx
        rw [a3, hH.2, hH.1, positionsAt_append, countInBin_append, Nat.add_assoc]
      · rw [if_neg (fun h => hd (hmod.1 h)), if_neg hd]
        exact ⟨h, rfl, hH⟩
    obtain ⟨h', a1, a2⟩ := hadd
    refine ⟨t', if n + 1 ∈ hc.reset then h'.clear else h', ?_, hT', ?_⟩
    · simp only [thSteps, e1, ok_bind, e2, histRun]
      rw [if_neg (by omega)]
      simp only [pure_eq_ok]
      rw [a1]; rfl
    · simp only [ledger, ← hL]
      by_cases hr : n + 1 ∈ hc.reset
      · rw [if_pos hr, if_pos hr]
        exact ⟨a2.1, fun idx => by simp [Histogram.clear, positionsAt, countInBin]⟩
      · rw [if_neg hr, if_neg hr]
        by_cases hd : c.writeStride ∣ n + 1
        · simpa only [if_pos hd] using a2
        · simpa only [if_neg hd] using a2

/-- The steps added by the final run. -/
def finalSteps (withFile : Bool) (k W n : Nat) : List Nat :=
  if W ∣ n then blockSteps withFile k W n
  else if withFile then [] else relativeSteps k (n / W * W) n

theorem thSimulate_inv {F : Type} [LinearOrder F] (c : TrajCfg F) (hc : HistCfg) (hist : Nat → Snapshot F)
    (hh : GoodHist c hist) (hs : 0 < c.stride) (hW : 0 < c.writeStride) (hn : 0 < c.nParticles)
    (hk : 0 < hc.stride) (hu : hc.updateStride = c.writeStride) (withFile : Bool)
    (gt : Nat → F) (gp gm : Nat → List (List F)) (h0 : Histogram F) (hg : ∀ e ∈ h0.bins, GoodEdges e)
    (hdim : ∀ t, ∀ p ∈ (hist t).pos, p.length = h0.bins.length) (n : Nat) (h0n : 0 < n) :
    ∃ t h, thSimulate c hc hist n (TrajState.init c withFile gt gp gm, h0) = .ok (t, h) ∧
      HistHolds hist h0 h (ledger (blockSteps withFile hc.stride c.writeStride) c.writeStride hc.reset n).1
        ((ledger (blockSteps withFile hc.stride c.writeStride) c.writeStride hc.reset n).2 ++
          finalSteps withFile hc.stride c.writeStride n) := by
  obtain ⟨t, h, e1, hT, hH⟩ := thSteps_inv c hc hist hh hs hW hn hk hu withFile gt gp gm h0 hg hdim n
  -- the state of the trajectory after its final run
  have hfin : ∃ t', t.finalRun c n = .ok t' ∧
      getTrajData c t' hc.stride n
        = .ok ((finalSteps withFile hc.stride c.writeStride n).map (fun t => (hist t).pos)) := by
    cases withFile with
    | false =>
      obtain ⟨ha, hb⟩ := hT.nofile rfl
      refine ⟨t, write_none c t n ha, ?_⟩
      unfold finalSteps
      by_cases hd : c.writeStride ∣ n
      · rw [if_pos hd]; exact getTrajData_block c hist hW false n hc.stride hk t hT hd h0n
      · rw [if_neg hd, if_neg (by simp)]
        unfold getTrajData
        simp only [hb]
        rw [if_pos (by omega)]
        have hdm := Nat.div_add_mod n c.writeStride
        have hm : n % c.writeStride ≠ 0 := fun h => hd (Nat.dvd_of_mod_eq_zero h)
        have e : n = n / c.writeStride * c.writeStride + n % c.writeStride := by
          rw [Nat.mul_comm]; omega
        have := gvd_relative t.positions (fun t => (hist t).pos) c.writeStride hc.stride
          (n / c.writeStride) (n % c.writeStride) hW hk (by omega)
          (Nat.le_of_lt (Nat.mod_lt _ hW)) (by rw [← e]; exact hT.inv.positions)
        rw [← e] at this
        exact this
    | true =>
      have hf := hT.file rfl
      obtain ⟨s2, h3, h4, h5⟩ := write_inv c hist hh hs hW hn n _ t hT.inv hf.last_eq hf.le
        (Nat.le_of_lt hf.window) hf.files
      refine ⟨s2, h3, ?_⟩
      unfold finalSteps
      by_cases hd : c.writeStride ∣ n
      · rw [if_pos hd]
        refine getTrajData_block c hist hW true n hc.stride hk s2 ⟨h4, fun _ => ?_, by simp⟩ hd h0n
        rw [Nat.div_mul_cancel hd]; exact h5
      · rw [if_neg hd, if_pos rfl]
        unfold getTrajData
        simp only [h5.last_eq, ne_eq, not_true_eq_false, if_false]
        exact gvd_block_back s2.positions c.writeStride hc.stride n h4.positions.1 hW hk hd
  obtain ⟨t', e2, e3⟩ := hfin
  obtain ⟨h', a1, a2, a3⟩ := addTrajData_steps c hc hist t' h (by rw [hH.1]; exact hg)
    (by rw [hH.1]; exact hdim) n _ e3
  refine ⟨t', h', ?_, a2.trans hH.1, ?_⟩
  · simp only [thSimulate, e1, ok_bind, e2, histFinal, a1]; rfl
  · intro idx
    rw [a3, hH.2, hH.1, positionsAt_append, countInBin_append, Nat.add_assoc]

end Bdld
