import Verif.Model.Fes
import Verif.Props.Histogram
import Verif.Lemmas.Except
import Mathlib.Tactic.Ring
import Mathlib.Tactic.FieldSimp

/-
Location of the FES values (C79): the grid of the FES has its points at the centres of the histogram bins.
-/

namespace Bdld

set_option linter.unusedSectionVars false

section
variable {F : Type} [Field F] [LinearOrder F] [IsStrictOrderedRing F] [Inhabited F]

theorem binCenters_linEdges (lo hi : F) (n i : Nat) (hi' : i < n) :
    (binCenters (linEdges lo hi n))[i]? = some (lo + ((i : F) + 1 / 2) * ((hi - lo) / n)) := by
  have h1 : (linEdges lo hi n)[i]? = some (lo + (i : F) * ((hi - lo) / n)) := by
    simp only [linEdges, List.getElem?_map, List.getElem?_range (show i < n + 1 by omega), Option.map_some]
  have h2 : (linEdges lo hi n)[i + 1]? = some (lo + ((i + 1 : Nat) : F) * ((hi - lo) / n)) := by
    simp only [linEdges, List.getElem?_map, List.getElem?_range (show i + 1 < n + 1 by omega), Option.map_some]
  unfold binCenters
  rw [List.getElem?_zipWith, h1, List.getElem?_tail, h2]
  simp only [Option.some.injEq, Nat.cast_add, Nat.cast_one]
  ring

theorem binCenters_length (lo hi : F) (n : Nat) : (binCenters (linEdges lo hi n)).length = n := by
  simp [binCenters, linEdges]

/-- One dimension: the points of the new grid are the bin centres. -/
theorem linspace_binCenters (lo hi : F) (n : Nat) :
    linspace ((binCenters (linEdges lo hi n)).headD default) ((binCenters (linEdges lo hi n)).getLastD default) n =
      binCenters (linEdges lo hi n) := by
  apply List.ext_getElem?
  intro i
  by_cases hin : i < n
  · have h0 : (binCenters (linEdges lo hi n)).headD default = lo + ((0 : F) + 1 / 2) * ((hi - lo) / n) := by
      have := binCenters_linEdges lo hi n 0 (by omega)
      rw [List.headD_eq_head?_getD, List.head?_eq_getElem?, this]
      simp
    have h1 : (binCenters (linEdges lo hi n)).getLastD default =
        lo + (((n - 1 : Nat) : F) + 1 / 2) * ((hi - lo) / n) := by
      have := binCenters_linEdges lo hi n (n - 1) (by omega)
      rw [List.getLastD_eq_getLast?, List.getLast?_eq_getElem?, binCenters_length, this]
      rfl
    rw [binCenters_linEdges lo hi n i hin, h0, h1]
    simp only [linspace, List.getElem?_map, List.getElem?_range hin, Option.map_some, Option.some.injEq]
    by_cases hn : n = 1
    · subst hn
      have : i = 0 := by omega
      subst this
      simp
    · have hn1 : ((n : F) - 1) ≠ 0 := by
        intro h
        apply hn
        have : (n : F) = ((1 : Nat) : F) := by rw [Nat.cast_one]; linarith
        exact Nat.cast_injective this
      rw [Nat.cast_sub (by omega), Nat.cast_one]
      have : lo + ((n : F) - 1 + 1 / 2) * ((hi - lo) / n) - (lo + (0 + 1 / 2) * ((hi - lo) / n)) =
          ((hi - lo) / n) * ((n : F) - 1) := by ring
      rw [this, mul_div_cancel_right₀ _ hn1]
      ring
  · rw [List.getElem?_eq_none (by simp [linspace]; omega),
      List.getElem?_eq_none (by rw [binCenters_length]; omega)]

/-- A list of edges made by numpy for some range and number of bins. -/
def Spec.UniformEdges (e : List F) : Prop := ∃ lo hi n, e = linEdges lo hi n

/-- **C79.** For every histogram with uniform bins the FES grid has its points at the bin centres. -/
theorem fes_points (h : Histogram F) (hu : ∀ e ∈ h.bins, Spec.UniformEdges e) : h.fesAxes = h.axes := by
  obtain ⟨bins, data⟩ := h
  simp only [Histogram.fesAxes, Histogram.pointRanges, Histogram.axes, Histogram.shape, List.map_map] at hu ⊢
  induction bins with
  | nil => rfl
  | cons e bins ih =>
    obtain ⟨lo, hi, n, rfl⟩ := hu e List.mem_cons_self
    have hlen : (linEdges lo hi n).length - 1 = n := by simp [linEdges]
    rw [List.map_cons, List.map_cons, List.zipWith_cons_cons, ih (fun e he => hu e (List.mem_cons_of_mem _ he)),
      List.map_cons, hlen]
    congr 1
    exact linspace_binCenters lo hi n

theorem npEdges_uniform (n : Nat) (r : F × F) (e : List F) (h : npEdges n r = .ok e) : Spec.UniformEdges e := by
  unfold npEdges at h
  split at h
  · cases h
  · split at h <;> cases h
    · exact ⟨_, _, _, rfl⟩
    · exact ⟨_, _, _, rfl⟩

theorem mapM_npEdges (l : List (Nat × (F × F))) (bins : List (List F))
    (h : l.mapM (fun nr => npEdges nr.1 nr.2) = .ok bins) : ∀ e ∈ bins, Spec.UniformEdges e := by
  induction l generalizing bins with
  | nil => cases h; simp
  | cons x l ih =>
    rw [List.mapM_cons] at h
    cases hx : npEdges x.1 x.2 with
    | error e => rw [hx] at h; cases h
    | ok e0 =>
      rw [hx] at h
      cases hl : l.mapM (fun nr => npEdges nr.1 nr.2) with
      | error e => rw [hl] at h; cases h
      | ok es =>
        rw [hl] at h
        cases h
        intro e he
        rcases List.mem_cons.1 he with rfl | he
        · exact npEdges_uniform _ _ _ hx
        · exact ih es hl e he

/-- **C79.** In particular for every histogram that can be set up, also after adding data and clearing, since
these keep the bins. -/
theorem fes_points_new (nBins : List Nat) (ranges : List (F × F)) (h h' : Histogram F)
    (hn : Histogram.new nBins ranges = .ok h) (hb : h'.bins = h.bins) : h'.fesAxes = h'.axes := by
  apply fes_points
  rw [hb]
  unfold Histogram.new at hn
  by_cases h1 : nBins.length < ranges.length
  · rw [if_pos h1] at hn; cases hn
  · by_cases h2 : (nBins.zip ranges).any (fun nr => nr.1 == 0) = true
    · rw [if_neg h1, if_pos h2] at hn; cases hn
    · by_cases h3 : ranges.length < nBins.length
      · rw [if_neg h1, if_neg h2, if_pos h3] at hn; cases hn
      · rw [if_neg h1, if_neg h2, if_neg h3] at hn
        simp only at hn
        cases hm : (nBins.zip ranges).mapM (fun nr => npEdges nr.1 nr.2) with
        | error e => rw [hm] at hn; cases hn
        | ok bins =>
          rw [hm, ok_bind] at hn
          have hk := mapM_npEdges _ bins hm
          cases hd : histogramdd bins [List.replicate nBins.length 0] with
          | error e => rw [hd] at hn; cases hn
          | ok data =>
            rw [hd, ok_bind] at hn
            cases hn
            exact hk

/-- Example: four bins in (0, 8). -/
example : (⟨[linEdges (0 : ℚ) 8 4], fun _ => 0⟩ : Histogram ℚ).fesAxes = [[1, 3, 5, 7]] := by
  rw [fes_points _ (by intro e he; simp only [List.mem_singleton] at he; exact ⟨0, 8, 4, he⟩)]
  norm_num [Histogram.axes, binCenters, linEdges, List.range_succ]

end

end Bdld
