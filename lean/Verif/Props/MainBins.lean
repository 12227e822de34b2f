import Verif.Spec.BinsRequested
import Verif.Props.ConsoleSetup
import Verif.Props.MainFiles
import Verif.Props.FesGrid

/-
C150: the histogram of a run has the bins requested in the input file.
-/

namespace Bdld

open Spec

variable {R : Type} {w : World R} {file : Option (List Section)} {a : AnySim R} {config : Input ℝ} {n : Nat} {s0 : Sim a.d R}

/-- C150: the bins set up by `setupHistogram`. -/
theorem setupHistogram_requested {d : Nat} (o : Dict (OptVal ℝ)) (t : TrajCfg ℝ) (b : HistCfg × GridOut × Histogram ℝ)
    (h : setupHistogram d o t = .ok b) : RequestedBins o d b.2.2.bins := by
  rw [setupHistogram_bins] at h
  obtain ⟨rb, hrb, h⟩ := bind_ok h
  obtain ⟨_, _, h⟩ := bind_ok h
  obtain ⟨stride, _, h⟩ := bind_ok h
  obtain ⟨_, _, h⟩ := bind_ok h
  obtain ⟨reset, _, h⟩ := bind_ok h
  obtain ⟨_, _, h⟩ := bind_ok h
  obtain ⟨filename, _, h⟩ := bind_ok h
  obtain ⟨_, _, h⟩ := bind_ok h
  obtain ⟨writeStride, _, h⟩ := bind_ok h
  obtain ⟨y, hy, h⟩ := bind_ok h
  obtain ⟨_, _, h⟩ := bind_ok h
  cases h
  have e := histogramBins_inv hrb
  unfold HistCfg.new at hy
  by_cases h1 : d ≠ rb.2.length
  · rw [if_pos h1] at hy; cases hy
  rw [if_neg h1] at hy
  by_cases h2 : d ≠ rb.1.length
  · rw [if_pos h2] at hy; cases hy
  rw [if_neg h2] at hy
  push Not at h1 h2
  obtain ⟨g, hg, hy⟩ := bind_ok hy
  have hyg : y.2 = g := by
    by_cases h3 : (truthyNat writeStride && !truthyStr filename) = true
    · rw [if_pos h3] at hy; cases hy
    · rw [if_neg h3] at hy; cases hy; rfl
  obtain ⟨_, c2, _, c4, c5, _⟩ := new_cases rb.2 rb.1 g hg
  simp only
  rw [hyg]
  refine ⟨by rw [c2, ← h1], fun k hk => ?_⟩
  have hk1 : k < rb.1.length := by omega
  have hk2 : k < rb.2.length := by omega
  have hz : (rb.2.zip rb.1)[k]? = some (rb.2[k], rb.1[k]) := by
    rw [List.getElem?_eq_getElem (by rw [List.length_zip]; omega), List.getElem_zip]
  have hrange : rb.1 = (floatsOf o "min").zip (floatsOf o "max") := by rw [e]
  have hbins : rb.2 = natsOf o "bins" := by rw [e]
  have hr1 : rb.1[k]? = some rb.1[k] := List.getElem?_eq_getElem hk1
  have hr2 : rb.2[k]? = some rb.2[k] := List.getElem?_eq_getElem hk2
  obtain ⟨m1, m2⟩ : (floatsOf o "min")[k]? = some rb.1[k].1 ∧ (floatsOf o "max")[k]? = some rb.1[k].2 := by
    have : ((floatsOf o "min").zip (floatsOf o "max"))[k]? = some rb.1[k] := (congrArg (·[k]?) hrange).symm.trans hr1
    exact List.getElem?_zip_eq_some.1 this
  have hkg : k < g.bins.length := by rw [c2]; omega
  have hnp : npEdges rb.2[k] rb.1[k] = .ok g.bins[k] := by
    have := (List.forall₂_iff_get.1 c5).2 k (by rw [List.length_zip]; omega) hkg
    simpa using this
  have hn1 : 1 ≤ rb.2[k] := c4 (rb.2[k], rb.1[k]) (List.mem_of_getElem? hz)
  unfold npEdges at hnp
  by_cases hlt : rb.1[k].2 < rb.1[k].1
  · rw [if_pos hlt] at hnp; cases hnp
  rw [if_neg hlt] at hnp
  refine ⟨rb.1[k].1, rb.1[k].2, rb.2[k], ⟨m1, m2, by rw [← hbins]; exact hr2⟩, hn1, not_lt.1 hlt, ?_⟩
  rw [List.getElem?_eq_getElem hkg]
  unfold widened
  by_cases heq : rb.1[k].1 = rb.1[k].2
  · rw [if_pos heq] at hnp ⊢
    exact congrArg some (Except.ok.inj hnp).symm
  · rw [if_neg heq] at hnp ⊢
    exact congrArg some (Except.ok.inj hnp).symm

/-- C150: the bins of the histogram of a finished run, at the beginning, after every step and at the end. -/
theorem main_bins (hr : FinishedRun w file a config n s0) (oh : Dict (OptVal ℝ)) (hoh : config.histogram = some oh) :
    ∃ edges, RequestedBins oh a.d edges ∧ (∀ t ≤ n, (hr.histAt t).bins = edges) ∧
      ∃ h, a.sim.hist = some h ∧ h.bins = edges := by
  obtain ⟨_, _, _, _, _, _, _, h3, _⟩ := setupOptional_parts w config _ _ _ _ rfl rfl hr.optional
  rw [hoh] at h3
  obtain ⟨t, b, _, hb, _, hb2⟩ := h3
  refine ⟨b.2.2.bins, setupHistogram_requested _ _ _ hb, fun k hk => ?_, simulate_bins w a.cfg s0 _ hb2 n a.sim hr.sim⟩
  obtain ⟨v, hv, _⟩ := bind_ok hr.sim
  obtain ⟨u, hu⟩ := runSteps_le w a.cfg s0 n v hv k hk
  obtain ⟨g, hg, hgb⟩ := runSteps_bins w a.cfg s0 _ hb2 k u hu
  unfold FinishedRun.histAt
  rw [hu]
  simp [hg, hgb]

theorem inBin_getElem {F : Type} [LinearOrder F] : ∀ (es : List (List F)) (is : List Nat) (xs : List F),
    InBin es is xs ↔ is.length = es.length ∧ xs.length = es.length ∧
      ∀ (k : Nat) e i x, es[k]? = some e → is[k]? = some i → xs[k]? = some x → InBin1 e i x
  | [], [], [] => by simp [InBin]
  | [], i :: is, xs => by simp [InBin]
  | [], [], x :: xs => by simp [InBin]
  | e :: es, [], xs => by simp [InBin]
  | e :: es, i :: is, [] => by simp [InBin]
  | e :: es, i :: is, x :: xs => by
    simp only [InBin, List.length_cons, Nat.add_right_cancel_iff]
    rw [inBin_getElem es is xs]
    constructor
    · rintro ⟨h1, h2, h3, h4⟩
      refine ⟨h2, h3, fun k => ?_⟩
      rcases k with _ | k
      · intro e' i' x' a b c
        cases a; cases b; cases c
        exact h1
      · intro e' i' x' a b c
        exact h4 k e' i' x' a b c
    · rintro ⟨h1, h2, h3⟩
      exact ⟨h3 0 e i x rfl rfl rfl, h1, h2, fun k e' i' x' a b c => h3 (k + 1) e' i' x' a b c⟩

theorem inBin1_interval (lo hi : ℝ) (n : Nat) (hn : 1 ≤ n) (i : Nat) (x : ℝ) :
    InBin1 ((List.range (n + 1)).map fun j : Nat => lo + j * ((hi - lo) / n)) i x ↔ InInterval lo hi n i x := by
  have hn0 : (n : ℝ) ≠ 0 := by exact_mod_cast (by omega : n ≠ 0)
  unfold InBin1 InInterval
  simp only [List.length_map, List.length_range, List.getElem?_map]
  constructor
  · rintro ⟨l, h, h1, h2, h3, h4⟩
    have hi1 : i + 1 < n + 1 := by
      by_contra hc
      rw [List.getElem?_eq_none (by simpa using hc)] at h2
      cases h2
    rw [List.getElem?_range (by omega)] at h1
    rw [List.getElem?_range hi1] at h2
    cases h1; cases h2
    refine ⟨by omega, h3, ?_⟩
    rcases h4 with h4 | ⟨h4, h5⟩
    · left; push_cast at h4; exact h4
    · right
      have : i + 1 = n := by omega
      refine ⟨this, ?_⟩
      rw [h5, this]
      field_simp
      ring
  · rintro ⟨h1, h2, h3⟩
    refine ⟨_, _, by rw [List.getElem?_range (by omega)]; rfl, by rw [List.getElem?_range (by omega)]; rfl, h2, ?_⟩
    rcases h3 with h3 | ⟨h3, h4⟩
    · left; push_cast; exact h3
    · right
      refine ⟨by omega, ?_⟩
      rw [h3, h4]
      field_simp
      ring

/-- C150: a position is counted in a bin if its coordinates are in the requested intervals. -/
theorem requested_cell {o : Dict (OptVal ℝ)} {d : Nat} {edges : List (List ℝ)} (h : RequestedBins o d edges)
    (hne : ∀ k < d, (floatsOf o "min")[k]? ≠ (floatsOf o "max")[k]?) (idx : List Nat) (p : List ℝ) :
    InBin edges idx p ↔ InBins o d idx p := by
  rw [inBin_getElem, h.dims]
  unfold InBins
  refine and_congr_right fun h1 => and_congr_right fun h2 => ?_
  have key : ∀ k lo hi m, k < d → BinOptions o k lo hi m → 1 ≤ m ∧ edges[k]? = some ((List.range (m + 1)).map fun i : Nat =>
      lo + i * ((hi - lo) / m)) := by
    intro k lo hi m hk ho
    obtain ⟨lo', hi', m', ho', hm, _, he⟩ := h.edges k hk
    have e1 := ho.min.symm.trans ho'.min
    have e2 := ho.max.symm.trans ho'.max
    have e3 := ho.bins.symm.trans ho'.bins
    cases e1; cases e2; cases e3
    refine ⟨hm, ?_⟩
    rw [he]
    unfold widened
    rw [if_neg]
    intro hc
    refine hne k hk ?_
    rw [ho.min, ho.max, hc]
  constructor
  · intro H k lo hi m i x ho hi' hx
    have hk : k < d := by rw [← h1]; exact (List.getElem?_eq_some_iff.1 hi').1
    obtain ⟨hm, he⟩ := key k lo hi m hk ho
    exact (inBin1_interval lo hi m hm i x).1 (H k _ i x he hi' hx)
  · intro H k e i x he hi' hx
    have hk : k < d := by rw [← h1]; exact (List.getElem?_eq_some_iff.1 hi').1
    obtain ⟨lo, hi, m, ho, hm, _, _⟩ := h.edges k hk
    obtain ⟨_, he'⟩ := key k lo hi m hk ho
    rw [he'] at he
    cases he
    exact (inBin1_interval lo hi m hm i x).2 (H k lo hi m i x ho hi' hx)

/-- Number of positions in a cell. -/
noncomputable def Spec.countInBins (o : Dict (OptVal ℝ)) (d : Nat) (idx : List Nat) (points : List (List ℝ)) : Nat := by
  classical exact points.countP (fun p => decide (InBins o d idx p))

theorem count_requested {o : Dict (OptVal ℝ)} {d : Nat} {edges : List (List ℝ)} (h : RequestedBins o d edges)
    (hne : ∀ k < d, (floatsOf o "min")[k]? ≠ (floatsOf o "max")[k]?) (idx : List Nat) (points : List (List ℝ)) :
    countInBin edges idx points = countInBins o d idx points := by
  unfold countInBin countInBins
  refine congrArg (fun f => List.countP f points) (funext fun p => ?_)
  exact decide_eq_decide.2 (requested_cell h hne idx p)

/-- C150: what is counted during the run, by the requested intervals. -/
theorem main_cells (hr : FinishedRun w file a config n s0) (hops : w.bdOps.Lawful) (o oh : Dict (OptVal ℝ))
    (ho : config.trajectories = some o) (hoh : config.histogram = some oh)
    (hne : ∀ k < a.d, (floatsOf oh "min")[k]? ≠ (floatsOf oh "max")[k]?)
    (hreset : oh.get? "reset" = some .none) (hw : 0 < s0.particles.length)
    (hd : hasFilename o = true ∨ natOption oh "stride" 1 ∣ natOption o "write-stride" 100) (t : Nat) (ht : t ≤ n)
    (idx : List Nat) :
    (hr.histAt t).data idx = countInBins oh a.d idx [List.replicate a.d 0] + countInBins oh a.d idx (positionsAt hr.snaps
      (sampledSteps (natOption oh "stride" 1) 0 (t / natOption o "write-stride" 100 * natOption o "write-stride" 100))) := by
  obtain ⟨h0, _, hb, hdata⟩ := main_histAt hr hops o oh ho hoh hreset hw hd t ht
  obtain ⟨edges, he, hall, _⟩ := main_bins hr oh hoh
  rw [hall t ht] at hb
  rw [hdata, ← hb, count_requested he hne, count_requested he hne]

/-- C150: the points listed in the files of the free energy are the middles of the intervals. -/
theorem requested_centers {o : Dict (OptVal ℝ)} {d : Nat} {edges : List (List ℝ)} (h : RequestedBins o d edges)
    (k : Nat) (lo hi : ℝ) (m i : Nat) (ho : BinOptions o k lo hi m) (hk : k < d) (hne : lo ≠ hi) (hi' : i < m) :
    ∃ e, edges[k]? = some e ∧ (binCenters e)[i]? = some (lo + (i + 1 / 2) * ((hi - lo) / m)) := by
  obtain ⟨lo', hi'', m', ho', hm, _, he⟩ := h.edges k hk
  have e1 := ho.min.symm.trans ho'.min
  have e2 := ho.max.symm.trans ho'.max
  have e3 := ho.bins.symm.trans ho'.bins
  cases e1; cases e2; cases e3
  refine ⟨_, he, ?_⟩
  unfold widened
  rw [if_neg hne]
  exact binCenters_linEdges lo hi m i hi'

end Bdld
