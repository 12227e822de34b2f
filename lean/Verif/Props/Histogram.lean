import Verif.Lemmas.Bins
import Verif.Lemmas.Except
import Mathlib.Algebra.Order.Field.Basic
import Mathlib.Algebra.Order.Field.Rat
import Mathlib.Algebra.BigOperators.Group.List.Basic
import Mathlib.Tactic.NormNum
import Mathlib.Tactic.Linarith
import Mathlib.Tactic.Positivity

/-
C08, C09: creating, filling and clearing a histogram.
-/

namespace Bdld
open Spec
open scoped Classical in
/-- Number of points in a bin (specification). -/
noncomputable def Spec.countInBin {F : Type _} [LinearOrder F] (bins : List (List F)) (idx : List Nat)
    (points : List (List F)) : Nat :=
  points.countP (fun p => decide (InBin bins idx p))

open scoped Classical in
/-- Number of points in the range of the histogram (specification). -/
noncomputable def Spec.countInRange {F : Type _} [LinearOrder F] (bins : List (List F))
    (points : List (List F)) : Nat :=
  points.countP (fun p => decide (InRange bins p))

/-- All multi-indices of an array of the given shape in row-major order (specification). -/
def Spec.allIndices : List Nat → List (List Nat)
  | [] => [[]]
  | n :: ns => (List.range n).flatMap (fun i => (Spec.allIndices ns).map (i :: ·))

/-- Sum of all counts (specification). -/
def Spec.total (shape : List Nat) (data : List Nat → Nat) : Nat :=
  ((Spec.allIndices shape).map data).sum

/-- **C09.** `add` raises for points of the wrong dimension; otherwise every bin increases by exactly the
number of points in it and the edges stay the same. -/
theorem histogram_add {F : Type _} [LinearOrder F] (h : Histogram F) (hg : ∀ e ∈ h.bins, GoodEdges e)
    (points : List (List F)) :
    ((∃ p ∈ points, p.length ≠ h.bins.length) → h.add points = .error .valueError) ∧
    ((∀ p ∈ points, p.length = h.bins.length) → ∃ h', h.add points = .ok h' ∧ h'.bins = h.bins ∧
      ∀ idx, h'.data idx = h.data idx + countInBin h.bins idx points) := by
  constructor
  · rintro ⟨p, hp, hne⟩
    unfold Histogram.add histogramdd
    rw [if_neg]
    · rfl
    · intro hall
      rw [List.all_eq_true] at hall
      exact hne (by simpa using hall p hp)
  · intro hall
    unfold Histogram.add histogramdd
    rw [if_pos (by rw [List.all_eq_true]; intro p hp; simpa using hall p hp)]
    refine ⟨_, rfl, rfl, ?_⟩
    intro idx
    show h.data idx + points.countP _ = h.data idx + countInBin h.bins idx points
    unfold countInBin
    congr 2
    funext p
    exact decide_eq_decide.2 (binOf_iff h.bins hg p idx)

private theorem mem_allIndices (bins : List (List F)) [LinearOrder F] (p : List F) (idx : List Nat)
    (h : binOf bins p = some idx) : idx ∈ allIndices (bins.map (fun e => e.length - 1)) := by
  induction bins generalizing p idx with
  | nil => cases p <;> simp [binOf] at h; simp [allIndices, h]
  | cons e es ih =>
    cases p with
    | nil => simp [binOf] at h
    | cons x xs =>
      simp only [binOf] at h
      cases hb : binIndex e x with
      | none => rw [hb] at h; simp at h
      | some i =>
        cases hbs : binOf es xs with
        | none => rw [hb, hbs] at h; simp at h
        | some is =>
          rw [hb, hbs] at h
          simp only [Option.some.injEq] at h
          subst h
          have hi : i < e.length - 1 := by
            unfold binIndex at hb
            simp only at hb
            generalize (if e.getLast? = some x then searchRight e x - 1 else searchRight e x) = k at hb
            by_cases hc : 1 ≤ k ∧ k + 1 ≤ e.length
            · rw [if_pos hc] at hb; injection hb with hb; omega
            · rw [if_neg hc] at hb; cases hb
          simp only [List.map_cons, allIndices, List.mem_flatMap, List.mem_range, List.mem_map]
          exact ⟨i, hi, is, ih xs is hbs, rfl⟩

private theorem nodup_allIndices (shape : List Nat) : (allIndices shape).Nodup := by
  induction shape with
  | nil => simp [allIndices]
  | cons n ns ih =>
    simp only [allIndices]
    rw [List.nodup_flatMap]
    refine ⟨fun i _ => ih.map (fun a b h => by simpa using h), ?_⟩
    apply List.nodup_range.imp
    intro i j hij
    rw [Function.onFun, List.disjoint_left]
    intro a ha hb
    simp only [List.mem_map] at ha hb
    obtain ⟨x, _, rfl⟩ := ha
    obtain ⟨y, _, hy⟩ := hb
    simp at hy
    exact hij hy.1.symm

private theorem sum_single (l : List (List Nat)) (hn : l.Nodup) (a : List Nat) :
    (l.map (fun idx => if a = idx then 1 else 0)).sum = if a ∈ l then 1 else 0 := by
  induction l with
  | nil => simp
  | cons b l ih =>
    rw [List.nodup_cons] at hn
    rw [List.map_cons, List.sum_cons, ih hn.2]
    by_cases h : a = b
    · subst h; simp [hn.1]
    · simp [h]

private theorem sum_add (l : List (List Nat)) (f g : List Nat → Nat) :
    (l.map (fun i => f i + g i)).sum = (l.map f).sum + (l.map g).sum := by
  induction l with
  | nil => rfl
  | cons a l ih => simp only [List.map_cons, List.sum_cons, ih]; omega

private theorem sum_countInBin {F : Type _} [LinearOrder F] (bins : List (List F))
    (hg : ∀ e ∈ bins, GoodEdges e) (points : List (List F)) :
    ((allIndices (bins.map (fun e => e.length - 1))).map
      (fun idx => countInBin bins idx points)).sum = countInRange bins points := by
  classical
  induction points with
  | nil => simp [countInBin, countInRange]
  | cons p ps ih =>
    have h1 : ∀ idx, countInBin bins idx (p :: ps)
        = countInBin bins idx ps + (if binOf bins p = some idx then 1 else 0) := by
      intro idx
      simp only [countInBin, List.countP_cons, decide_eq_true_eq, binOf_iff bins hg]
    have h2 : countInRange bins (p :: ps)
        = countInRange bins ps + (if ∃ idx, binOf bins p = some idx then 1 else 0) := by
      simp only [countInRange, List.countP_cons, decide_eq_true_eq, inRange_iff bins hg]
    rw [h2, ← ih]
    simp only [h1]
    rw [sum_add]
    congr 1
    cases hb : binOf bins p with
    | none => simp
    | some a =>
      simp only [Option.some.injEq, exists_eq', if_true]
      rw [sum_single _ (nodup_allIndices _), if_pos (mem_allIndices _ p a hb)]

/-- **C09**, total: the sum of all counts increases by exactly the number of points inside the range
(points outside are ignored, every point inside is counted once). -/
theorem histogram_add_total {F : Type _} [LinearOrder F] (h h' : Histogram F)
    (hg : ∀ e ∈ h.bins, GoodEdges e) (points : List (List F)) (hadd : h.add points = .ok h') :
    total (h.bins.map (fun e => e.length - 1)) h'.data
      = total (h.bins.map (fun e => e.length - 1)) h.data + countInRange h.bins points := by
  by_cases hall : ∀ p ∈ points, p.length = h.bins.length
  · obtain ⟨h2, e1, _, e3⟩ := (histogram_add h hg points).2 hall
    rw [hadd] at e1
    injection e1 with e1
    subst e1
    unfold total
    have : h'.data = fun idx => h.data idx + countInBin h.bins idx points := funext e3
    rw [this, sum_add, sum_countInBin h.bins hg]
  · have := (histogram_add h hg points).1 (by simpa using hall)
    rw [this] at hadd; cases hadd

/-- **C09**, uniqueness: a point of the range lies in exactly one bin, a point outside in none. -/
theorem histogram_bin_unique {F : Type _} [LinearOrder F] (bins : List (List F))
    (hg : ∀ e ∈ bins, GoodEdges e) (p : List F) :
    (InRange bins p → ∃! idx, InBin bins idx p) ∧ (¬ InRange bins p → ∀ idx, ¬ InBin bins idx p) := by
  constructor
  · intro h
    obtain ⟨idx, hi⟩ := (inRange_iff bins hg p).1 h
    refine ⟨idx, (binOf_iff bins hg p idx).1 hi, ?_⟩
    intro j hj
    have := (binOf_iff bins hg p j).2 hj
    rw [hi] at this; injection this with this; exact this.symm
  · intro h idx hi
    exact h ((inRange_iff bins hg p).2 ⟨idx, (binOf_iff bins hg p idx).2 hi⟩)

/-- **C09**, order independence: permuting the points does not change the result. -/
theorem histogram_add_perm {F : Type _} [LinearOrder F] (h : Histogram F) (a b : List (List F))
    (hp : a.Perm b) : h.add a = h.add b := by
  unfold Histogram.add histogramdd
  have h1 : a.all (fun p => p.length == h.bins.length) = b.all (fun p => p.length == h.bins.length) := by
    rw [Bool.eq_iff_iff, List.all_eq_true, List.all_eq_true]
    exact ⟨fun H x hx => H x (hp.mem_iff.2 hx), fun H x hx => H x (hp.mem_iff.1 hx)⟩
  rw [h1]
  congr 1
  split
  · congr 1; funext idx; exact hp.countP_eq _
  · rfl

/-- **C09**, splitting: adding a list of points at once or in two parts gives the same histogram. -/
theorem histogram_add_append {F : Type _} [LinearOrder F] (h : Histogram F) (a b : List (List F)) :
    h.add (a ++ b) = (do let h' ← h.add a; h'.add b) := by
  unfold Histogram.add histogramdd
  rw [List.all_append]
  by_cases ha : a.all (fun p => p.length == h.bins.length) = true
  · by_cases hb : b.all (fun p => p.length == h.bins.length) = true
    · rw [if_pos (by rw [ha, hb]; rfl), if_pos ha]
      simp only [ok_bind, pure_eq_ok]
      rw [if_pos hb]
      simp only [ok_bind]
      congr 2
      funext idx
      rw [List.countP_append, Nat.add_assoc]
    · rw [if_neg (by rw [ha]; simpa using hb), if_pos ha]
      simp only [ok_bind, pure_eq_ok]
      rw [if_neg hb]
      rfl
  · rw [if_neg (by simp only [Bool.and_eq_true]; tauto), if_neg ha]
    rfl

/-- Non-vacuity and boundary behaviour: edges 0,1,2. The value 1 belongs to the second bin, the value 2
(last edge) too, values outside are dropped. -/
example : GoodEdges ([0, 1, 2] : List Int) ∧
    (({ bins := [[0, 1, 2]], data := fun _ => 0 } : Histogram Int).add
      [[0], [1], [2], [3], [-1]]).map (fun h => (h.data [0], h.data [1], h.data [2])) = .ok (1, 2, 0) := by
  refine ⟨⟨by decide, by decide⟩, by decide⟩

/-! ### Creation -/

section New
variable {F : Type _} [Field F] [LinearOrder F]

theorem linEdges_good [IsStrictOrderedRing F] (lo hi : F) (n : Nat) (hn : 1 ≤ n) (h : lo < hi) :
    GoodEdges (linEdges lo hi n) ∧ (linEdges lo hi n).head? = some lo ∧
      (linEdges lo hi n).getLast? = some hi ∧ (linEdges lo hi n).length = n + 1 := by
  have hn0 : (0 : F) < n := by exact_mod_cast hn
  have hstep : 0 < (hi - lo) / n := div_pos (sub_pos.2 h) hn0
  refine ⟨⟨by simp [linEdges]; omega, ?_⟩, ?_, ?_, by simp [linEdges]⟩
  · unfold linEdges
    rw [List.pairwise_map]
    apply List.pairwise_lt_range.imp
    intro a b hab
    have : (a : F) < b := by exact_mod_cast hab
    have := mul_lt_mul_of_pos_right this hstep
    linarith
  · simp [linEdges, List.head?_eq_getElem?]
  · rw [List.getLast?_eq_getElem?]
    simp only [linEdges, List.length_map, List.length_range, Nat.add_sub_cancel, List.getElem?_map]
    rw [List.getElem?_range (by omega)]
    simp only [Option.map_some, Option.some.injEq]
    rw [mul_div_cancel₀ _ (ne_of_gt hn0), add_sub_cancel]

theorem npEdges_good [IsStrictOrderedRing F] (n : Nat) (hn : 1 ≤ n) (r : F × F) (e : List F)
    (h : npEdges n r = .ok e) : GoodEdges e ∧ e.length = n + 1 ∧
      (r.1 < r.2 → e.head? = some r.1 ∧ e.getLast? = some r.2) := by
  unfold npEdges at h
  split at h
  · cases h
  · rename_i h1
    split at h
    · rename_i h2
      injection h with h
      subst h
      have hlt : r.1 - 1 / 2 < r.2 + 1 / 2 := by rw [h2]; linarith
      have := linEdges_good (r.1 - 1 / 2) (r.2 + 1 / 2) n hn hlt
      exact ⟨this.1, this.2.2.2, fun h3 => absurd h2 (ne_of_lt h3)⟩
    · rename_i h2
      injection h with h
      subst h
      have hlt : r.1 < r.2 := lt_of_le_of_ne (not_lt.1 h1) h2
      have := linEdges_good r.1 r.2 n hn hlt
      exact ⟨this.1, this.2.2.2, fun _ => ⟨this.2.1, this.2.2.1⟩⟩

private theorem mapM_edges [IsStrictOrderedRing F] (l : List (Nat × (F × F))) (bins : List (List F))
    (hpos : ∀ nr ∈ l, 1 ≤ nr.1) (h : l.mapM (fun nr => npEdges nr.1 nr.2) = .ok bins) :
    List.Forall₂ (fun nr e => npEdges nr.1 nr.2 = .ok e) l bins ∧ ∀ e ∈ bins, GoodEdges e := by
  induction l generalizing bins with
  | nil => 
    rw [List.mapM_nil] at h; injection h with h; subst h; simp
  | cons a l ih =>
    rw [List.mapM_cons] at h
    cases h1 : npEdges a.1 a.2 with
    | error e => rw [h1] at h; cases h
    | ok e1 =>
      rw [h1, ok_bind] at h
      cases h2 : l.mapM (fun nr => npEdges nr.1 nr.2) with
      | error e => rw [h2] at h; cases h
      | ok es =>
        rw [h2, ok_bind] at h
        injection h with h
        subst h
        obtain ⟨i1, i2⟩ := ih es (fun nr hnr => hpos nr (by simp [hnr])) h2
        refine ⟨List.Forall₂.cons h1 i1, ?_⟩
        intro e he
        rcases List.mem_cons.1 he with rfl | he
        · exact (npEdges_good a.1 (hpos a (by simp)) a.2 e h1).1
        · exact i2 e he

theorem new_cases [IsStrictOrderedRing F] (nBins : List Nat) (ranges : List (F × F)) (h : Histogram F)
    (hnew : Histogram.new nBins ranges = .ok h) :
    (∀ e ∈ h.bins, GoodEdges e) ∧ h.bins.length = nBins.length ∧ nBins.length = ranges.length ∧
    (∀ nr ∈ nBins.zip ranges, 1 ≤ nr.1) ∧
    List.Forall₂ (fun nr e => npEdges nr.1 nr.2 = .ok e) (nBins.zip ranges) h.bins ∧
    (∀ idx, h.data idx = countInBin h.bins idx [List.replicate nBins.length 0]) := by
  unfold Histogram.new at hnew
  by_cases c1 : nBins.length < ranges.length
  · rw [if_pos c1] at hnew; cases hnew
  by_cases c2 : (nBins.zip ranges).any (fun nr => nr.1 == 0) = true
  · rw [if_neg c1, if_pos c2] at hnew; cases hnew
  by_cases c3 : ranges.length < nBins.length
  · rw [if_neg c1, if_neg c2, if_pos c3] at hnew; cases hnew
  rw [if_neg c1, if_neg c2, if_neg c3] at hnew
  simp only [pure_eq_ok] at hnew
  cases h2 : (nBins.zip ranges).mapM (fun nr => npEdges nr.1 nr.2) with
  | error e => rw [h2] at hnew; cases hnew
  | ok bins =>
    rw [h2, ok_bind] at hnew
    have hpos : ∀ nr ∈ nBins.zip ranges, 1 ≤ nr.1 := by
      intro nr hnr
      by_contra hc
      apply c2
      rw [List.any_eq_true]
      exact ⟨nr, hnr, by simp; omega⟩
    obtain ⟨hl', hg⟩ := mapM_edges _ bins hpos h2
    have hl := hl'.length_eq
    rw [List.length_zip] at hl
    have hlen : bins.length = nBins.length := by omega
    unfold histogramdd at hnew
    rw [if_pos (by simp [hlen]), ok_bind] at hnew
    injection hnew with hnew
    subst hnew
    refine ⟨hg, hlen, by omega, hpos, hl', ?_⟩
    intro idx
    show List.countP _ _ = countInBin bins idx _
    unfold countInBin
    congr 1
    funext p
    exact decide_eq_decide.2 (binOf_iff bins hg p idx)

/-- What a new histogram contains: one count in the bin of the origin (if the origin is in the range). -/
theorem histogram_new_data [IsStrictOrderedRing F] (nBins : List Nat) (ranges : List (F × F)) (h : Histogram F)
    (hnew : Histogram.new nBins ranges = .ok h) :
    (∀ e ∈ h.bins, GoodEdges e) ∧ h.bins.length = nBins.length ∧
    ∀ idx, h.data idx = countInBin h.bins idx [List.replicate nBins.length 0] :=
  ⟨(new_cases nBins ranges h hnew).1, (new_cases nBins ranges h hnew).2.1,
    (new_cases nBins ranges h hnew).2.2.2.2.2⟩

/-- **C08 (partial).** Full claim: a new histogram has zero counts everywhere. Proved if the origin is
outside of the range of the histogram. If it is inside the claim is false: see `histogram_new_false` and
`histogram_new_data`. -/
theorem histogram_new_partial [IsStrictOrderedRing F] (nBins : List Nat) (ranges : List (F × F)) (h : Histogram F)
    (hnew : Histogram.new nBins ranges = .ok h)
    (hout : ¬ InRange h.bins (List.replicate nBins.length 0)) (idx : List Nat) : h.data idx = 0 := by
  obtain ⟨hg, _, _, _, _, hd⟩ := new_cases nBins ranges h hnew
  rw [hd idx]
  unfold countInBin
  rw [List.countP_eq_zero]
  intro p hp
  simp only [List.mem_singleton] at hp
  subst hp
  simpa using (histogram_bin_unique h.bins hg _).2 hout idx

private theorem inRange_zero [IsStrictOrderedRing F] (l : List (Nat × (F × F))) (bins : List (List F))
    (hpos : ∀ nr ∈ l, 1 ≤ nr.1) (hl : List.Forall₂ (fun nr e => npEdges nr.1 nr.2 = .ok e) l bins)
    (h : InRange bins (List.replicate l.length 0)) :
    ∀ nr ∈ l, nr.2.1 < nr.2.2 → nr.2.1 ≤ 0 ∧ 0 ≤ nr.2.2 := by
  induction hl with
  | nil => simp
  | @cons a e l es h1 _ ih =>
    rw [List.length_cons, List.replicate_succ] at h
    simp only [InRange] at h
    intro nr hnr hlt
    rcases List.mem_cons.1 hnr with rfl | hnr
    · obtain ⟨lo, hi, e1, e2, e3, e4⟩ := h.1
      obtain ⟨_, _, hh⟩ := npEdges_good nr.1 (hpos nr (by simp)) nr.2 e h1
      obtain ⟨f1, f2⟩ := hh hlt
      rw [f1] at e1; rw [f2] at e2
      injection e1 with e1; injection e2 with e2
      subst e1; subst e2
      exact ⟨e3, e4⟩
    · exact ih (fun nr hnr => hpos nr (by simp [hnr])) h.2 nr hnr hlt

/-- **C08 (partial)**, in terms of the requested ranges: the new histogram is empty if some range does
not contain zero. -/
theorem histogram_new_ranges_partial [IsStrictOrderedRing F] (nBins : List Nat) (ranges : List (F × F))
    (h : Histogram F) (hnew : Histogram.new nBins ranges = .ok h)
    (hout : ∃ r ∈ ranges, r.1 < r.2 ∧ (0 < r.1 ∨ r.2 < 0)) (idx : List Nat) : h.data idx = 0 := by
  apply histogram_new_partial nBins ranges h hnew
  intro hin
  obtain ⟨_, _, hlen, hpos, hf, _⟩ := new_cases nBins ranges h hnew
  have hzl : (nBins.zip ranges).length = nBins.length := by rw [List.length_zip]; omega
  have := inRange_zero _ _ hpos hf (by rw [hzl]; exact hin)
  obtain ⟨r, hr, hlt, h0⟩ := hout
  obtain ⟨i, hi, rfl⟩ := List.getElem_of_mem hr
  have hmem : (nBins[i]'(by omega), ranges[i]) ∈ nBins.zip ranges := by
    rw [List.mem_iff_getElem]
    exact ⟨i, by omega, by rw [List.getElem_zip]⟩
  have h2 := this _ hmem hlt
  simp only at h2
  rcases h0 with h0 | h0
  · exact absurd h2.1 (not_le.2 h0)
  · exact absurd h2.2 (not_le.2 h0)

/-- **C08**, second half: `clear` sets every count to zero and keeps the edges. -/
theorem histogram_clear {F : Type _} (h : Histogram F) :
    (∀ idx, h.clear.data idx = 0) ∧ h.clear.bins = h.bins := ⟨fun _ => rfl, rfl⟩

end New

/-- Counterexample to the full claim of C08: two bins on (-1, 1); the new histogram already has a count
in the second bin. -/
theorem histogram_new_false :
    ¬ ∀ (nBins : List Nat) (ranges : List (ℚ × ℚ)) (h : Histogram ℚ),
      Histogram.new nBins ranges = .ok h → ∀ idx, h.data idx = 0 := by
  intro H
  have h1 : (Histogram.new [2] [((-1 : ℚ), 1)]).map (fun h => h.data [1]) = .ok 1 := by decide +kernel
  cases h2 : Histogram.new [2] [((-1 : ℚ), 1)] with
  | error e => rw [h2] at h1; cases h1
  | ok h =>
    rw [h2] at h1
    have := H _ _ h h2 [1]
    simp only [Except.map, Except.ok.injEq] at h1
    omega

/-- Non-vacuity of the partial theorem: ranges (1, 2) and (-1, 1). -/
example : ((Histogram.new [2, 2] [((1 : ℚ), 2), (-1, 1)]).map
      (fun h => (h.bins, h.data [0, 0], h.data [0, 1], h.data [1, 0], h.data [1, 1])))
      = .ok ([[1, 3/2, 2], [-1, 0, 1]], 0, 0, 0, 0) := by decide +kernel

end Bdld
