import Verif.Props.TextFiles
import Verif.Props.Report

/-
C113 and C114: text of histogram, FES, distribution, delta F and statistics files; printed times.
-/

namespace Bdld
open Spec

/-! ### Grids -/

section
variable {F : Type} [Field F] [LinearOrder F] [FloorSemiring F]

theorem rowsOf_append {V : Type} (a b : List (GridLine V)) : rowsOf (a ++ b) = rowsOf a ++ rowsOf b := by
  simp [rowsOf, List.filterMap_append]

theorem rowsOf_header {V : Type} (header : List String) : rowsOf (header.map (GridLine.header (V := V))) = [] := by
  simp [rowsOf, List.filterMap_map]

theorem rowsOf_row {V : Type} (rows : List (List V)) : rowsOf (rows.map GridLine.row) = rows := by
  unfold rowsOf
  rw [List.filterMap_map]
  exact List.filterMap_some

theorem rowsOf_intercalate {V : Type} (ls : List (List (GridLine V))) :
    rowsOf ([GridLine.blank].intercalate ls) = ls.flatMap rowsOf := by
  induction ls with
  | nil => rfl
  | cons l ls ih =>
    cases ls with
    | nil => simp [List.intercalate]
    | cons l' ls =>
      have h1 : [GridLine.blank].intercalate (l :: l' :: ls) = l ++ ([GridLine.blank] ++ [GridLine.blank].intercalate (l' :: ls)) := by
        simp [List.intercalate]
      rw [h1, rowsOf_append, rowsOf_append, ih, List.flatMap_cons]
      rfl

/-- Rows of a grid in one dimension. -/
theorem rowsOf_one {V : Type} (x : List V) (f : Nat → V) : rowsOf (gridLines1 x f) = x.zipIdx.map (fun a => [a.1, f a.2]) := by
  have := rowsOf_row (x.zipIdx.map (fun a => [a.1, f a.2]))
  rw [List.map_map] at this
  exact this

/-- Rows of a grid in two dimensions. -/
theorem rowsOf_two {V : Type} (x y : List V) (f : Nat → Nat → V) : rowsOf (gridLines2 x y f) =
    x.zipIdx.flatMap (fun a => y.zipIdx.map (fun b => [a.1, b.1, f a.2 b.2])) := by
  unfold gridLines2
  rw [rowsOf_intercalate, List.flatMap_map]
  congr 1
  funext a
  have := rowsOf_row (y.zipIdx.map (fun b => [a.1, b.1, f a.2 b.2]))
  rw [List.map_map] at this
  exact this

theorem mem_rowsOf {V : Type} (lines : List (GridLine V)) (v : List V) : .row v ∈ lines ↔ v ∈ rowsOf lines := by
  unfold rowsOf
  rw [List.mem_filterMap]
  constructor
  · intro h
    exact ⟨_, h, rfl⟩
  · rintro ⟨l, hl, h⟩
    cases l <;> simp at h
    subst h
    exact hl

theorem mem_header_one {V : Type} (x : List V) (f : Nat → V) (s : String) : .header s ∉ gridLines1 x f := by
  intro h
  obtain ⟨_, _, h⟩ := List.mem_map.1 h
  cases h

theorem mem_header_two {V : Type} (x y : List V) (f : Nat → Nat → V) (s : String) : .header s ∉ gridLines2 x y f := by
  intro h
  have key : ∀ ls : List (List (GridLine V)), (∀ l ∈ ls, .header s ∉ l) → .header s ∉ [GridLine.blank].intercalate ls := by
    intro ls
    induction ls with
    | nil => intro _; simp [List.intercalate]
    | cons l ls ih =>
      intro hl
      cases ls with
      | nil => simpa [List.intercalate] using hl l (by simp)
      | cons l' ls =>
        have h1 : [GridLine.blank].intercalate (l :: l' :: ls) = l ++ ([GridLine.blank] ++ [GridLine.blank].intercalate (l' :: ls)) := by
          simp [List.intercalate]
        rw [h1, List.mem_append, List.mem_append, not_or, not_or]
        exact ⟨hl l (by simp), by simp, ih fun m hm => hl m (by simp only [List.mem_cons] at hm ⊢; tauto)⟩
  refine key _ (fun l hl => ?_) h
  obtain ⟨a, _, rfl⟩ := List.mem_map.1 hl
  intro h
  obtain ⟨_, _, h⟩ := List.mem_map.1 h
  cases h

theorem mem_header_lines {V : Type} (header : List String) (lines : List (GridLine V)) (s : String) (h : .header s ∉ lines)
    (hs : .header s ∈ header.map GridLine.header ++ lines) : s ∈ header := by
  rcases List.mem_append.1 hs with hs | hs
  · obtain ⟨t, ht, e⟩ := List.mem_map.1 hs
    cases e
    exact ht
  · exact absurd hs h

/-- **C113**, grids in one dimension: the file is read as one row per point. -/
theorem grid_text_one (w p : Nat) (x : List (WithTop F)) (f : List Nat → WithTop F) (nPoints : List Nat) (header : List String)
    (hh : ∀ l ∈ header, CommentLine l.toList) : ∃ lines,
      gridFile [x] (Nd.ofFn [x.length] f).flat nPoints header = .ok (some lines) ∧
      readTable (lines.flatMap (GridLine.text w p)) =
        some (x.zipIdx.map (fun a => [printedValue p a.1, printedValue p (f [a.2])])) := by
  refine ⟨_, gridFile_one x f nPoints header, ?_⟩
  have e := rowsOf_one x (fun i => f [i])
  rw [readTable_grid]
  · rw [rowsOf_append, rowsOf_header, e, List.nil_append, List.map_map]
    rfl
  · intro s hs
    exact hh s (mem_header_lines _ _ _ (mem_header_one x _ s) hs)
  · intro v hv
    rw [mem_rowsOf, rowsOf_append, rowsOf_header, e, List.nil_append] at hv
    obtain ⟨a, _, rfl⟩ := List.mem_map.1 hv
    simp

/-- **C113**, grids in two dimensions: the file is read as one row per point; the empty lines do not matter. -/
theorem grid_text_two (w p : Nat) (x y : List (WithTop F)) (hx : x ≠ []) (hy : y ≠ []) (f : List Nat → WithTop F)
    (header : List String) (hh : ∀ l ∈ header, CommentLine l.toList) : ∃ lines,
      gridFile [x, y] (Nd.ofFn [x.length, y.length] f).flat [x.length, y.length] header = .ok (some lines) ∧
      readTable (lines.flatMap (GridLine.text w p)) = some (x.zipIdx.flatMap (fun a => y.zipIdx.map (fun b =>
        [printedValue p a.1, printedValue p b.1, printedValue p (f [a.2, b.2])]))) := by
  refine ⟨_, gridFile_two x y hx hy f header, ?_⟩
  have e := rowsOf_two x y (fun i j => f [i, j])
  rw [readTable_grid]
  · rw [rowsOf_append, rowsOf_header, e, List.nil_append, List.map_flatMap]
    congr 2
    funext a
    rw [List.map_map]
    rfl
  · intro s hs
    exact hh s (mem_header_lines _ _ _ (mem_header_two x y _ s) hs)
  · intro v hv
    rw [mem_rowsOf, rowsOf_append, rowsOf_header, e, List.nil_append] at hv
    obtain ⟨a, _, hv⟩ := List.mem_flatMap.1 hv
    obtain ⟨b, _, rfl⟩ := List.mem_map.1 hv
    simp

theorem printedValue_top (p : Nat) : printedValue p (⊤ : WithTop F) = ⊤ := rfl

theorem printedValue_nat [IsStrictOrderedRing F] (p n : Nat) : printedValue p ((n : F) : WithTop F) = ((n : ℚ) : WithTop ℚ) := by
  have := printedValue_int (F := F) p n
  simpa using this

end

theorem finiteRow_length (x : List ℝ) : (finiteRow x).length = x.length := by simp [finiteRow]

theorem zipIdx_map_coe (x : List ℝ) : (finiteRow x).zipIdx = x.zipIdx.map (fun a => ((a.1 : WithTop ℝ), a.2)) := by
  rw [finiteRow, List.zipIdx_map]
  rfl

/-- **C114.** The histogram file in one dimension is read as bin centres and exact numbers of counts. -/
theorem histogram_text_one (w p : Nat) (h : Histogram ℝ) (edges : List ℝ) (hb : h.bins = [edges]) (header : List String)
    (hh : ∀ l ∈ header, CommentLine l.toList) : ∃ text,
      gridText w p h.axes (h.counts.map (fun n : Nat => ((n : ℝ) : WithTop ℝ))) header = .ok (some text) ∧
      readTable text = some ((binCenters edges).zipIdx.map (fun a =>
        [printedValue p (a.1 : WithTop ℝ), (((h.data [a.2] : Nat) : ℚ) : WithTop ℚ)])) := by
  have hax : h.axes = [binCenters edges] := by simp [Histogram.axes, hb]
  have hsh : h.shape = [(finiteRow (binCenters edges)).length] := by simp [Histogram.shape, hb, binCenters_len, finiteRow_length]
  have hc : h.counts.map (fun n : Nat => ((n : ℝ) : WithTop ℝ)) =
      Nd.ofFn [(finiteRow (binCenters edges)).length] (fun idx => (((h.data idx : Nat) : ℝ) : WithTop ℝ)) := by
    simp [Histogram.counts, Nd.map, Nd.ofFn, hsh, Function.comp_def]
  obtain ⟨lines, h1, h2⟩ := grid_text_one w p (finiteRow (binCenters edges))
    (fun idx => (((h.data idx : Nat) : ℝ) : WithTop ℝ)) (Nd.ofFn [(finiteRow (binCenters edges)).length]
      (fun idx => (((h.data idx : Nat) : ℝ) : WithTop ℝ))).shape header hh
  refine ⟨lines.flatMap (GridLine.text w p), ?_, ?_⟩
  · rw [gridText, hax, hc, List.map_cons, List.map_nil, h1]
    rfl
  · rw [h2, zipIdx_map_coe, List.map_map]
    congr 2
    funext a
    simp only [Function.comp_apply]
    rw [printedValue_nat]

/-- **C114.** The histogram file in two dimensions. -/
theorem histogram_text_two (w p : Nat) (h : Histogram ℝ) (e1 e2 : List ℝ) (hb : h.bins = [e1, e2]) (l1 : 2 ≤ e1.length)
    (l2 : 2 ≤ e2.length) (header : List String) (hh : ∀ l ∈ header, CommentLine l.toList) : ∃ text,
      gridText w p h.axes (h.counts.map (fun n : Nat => ((n : ℝ) : WithTop ℝ))) header = .ok (some text) ∧
      readTable text = some ((binCenters e1).zipIdx.flatMap (fun a => (binCenters e2).zipIdx.map (fun b =>
        [printedValue p (a.1 : WithTop ℝ), printedValue p (b.1 : WithTop ℝ), (((h.data [a.2, b.2] : Nat) : ℚ) : WithTop ℚ)]))) := by
  have hax : h.axes = [binCenters e1, binCenters e2] := by simp [Histogram.axes, hb]
  have hsh : h.shape = [(finiteRow (binCenters e1)).length, (finiteRow (binCenters e2)).length] := by
    simp [Histogram.shape, hb, binCenters_len, finiteRow_length]
  have hc : h.counts.map (fun n : Nat => ((n : ℝ) : WithTop ℝ)) =
      Nd.ofFn [(finiteRow (binCenters e1)).length, (finiteRow (binCenters e2)).length]
        (fun idx => (((h.data idx : Nat) : ℝ) : WithTop ℝ)) := by
    simp [Histogram.counts, Nd.map, Nd.ofFn, hsh, Function.comp_def]
  have n1 : finiteRow (binCenters e1) ≠ [] := by
    intro h; have := congrArg List.length h; simp [binCenters_len, finiteRow_length] at this; omega
  have n2 : finiteRow (binCenters e2) ≠ [] := by
    intro h; have := congrArg List.length h; simp [binCenters_len, finiteRow_length] at this; omega
  obtain ⟨lines, h1, h2⟩ := grid_text_two w p _ _ n1 n2 (fun idx => (((h.data idx : Nat) : ℝ) : WithTop ℝ)) header hh
  refine ⟨lines.flatMap (GridLine.text w p), ?_, ?_⟩
  · rw [gridText, hax, hc, List.map_cons, List.map_cons, List.map_nil]
    rw [show (Nd.ofFn [(finiteRow (binCenters e1)).length, (finiteRow (binCenters e2)).length]
        (fun idx => (((h.data idx : Nat) : ℝ) : WithTop ℝ))).shape = [(finiteRow (binCenters e1)).length,
          (finiteRow (binCenters e2)).length] from rfl, h1]
    rfl
  · rw [h2, zipIdx_map_coe, zipIdx_map_coe, List.flatMap_map]
    congr 2
    funext a
    rw [List.map_map]
    congr 1
    funext b
    simp only [Function.comp_apply]
    rw [printedValue_nat]

/-- **C114.** The FES file in one dimension is read as bin centres and free energies up to half of the last digit; bins without counts
are read as `inf`. -/
theorem fes_text_one (w p : Nat) (kt : ℝ) (h : Histogram ℝ) (edges : List ℝ) (hb : h.bins = [edges]) (header : List String)
    (hh : ∀ l ∈ header, CommentLine l.toList) : ∃ text table,
      gridText w p h.axes (h.counts.map (freeEnergy kt (maxCount h.counts.flat))) header = .ok (some text) ∧
      readTable text = some table ∧ PrintedTable p table ((binCenters edges).zipIdx.map (fun a =>
        [(a.1 : WithTop ℝ), freeEnergy kt (maxCount h.counts.flat) (h.data [a.2])])) ∧
      ∀ i, h.data [i] = 0 → i < edges.length - 1 → ∃ row, table[i]? = some row ∧ row[1]? = some ⊤ := by
  have hax : h.axes = [binCenters edges] := by simp [Histogram.axes, hb]
  have hsh : h.shape = [(finiteRow (binCenters edges)).length] := by simp [Histogram.shape, hb, binCenters_len, finiteRow_length]
  generalize hm : maxCount h.counts.flat = m
  have hc : h.counts.map (freeEnergy kt m) =
      Nd.ofFn [(finiteRow (binCenters edges)).length] (fun idx => freeEnergy kt m (h.data idx)) := by
    simp [Histogram.counts, Nd.map, Nd.ofFn, hsh, Function.comp_def]
  obtain ⟨lines, h1, h2⟩ := grid_text_one w p (finiteRow (binCenters edges))
    (fun idx => freeEnergy kt m (h.data idx)) (Nd.ofFn [(finiteRow (binCenters edges)).length]
      (fun idx => freeEnergy kt m (h.data idx))).shape header hh
  refine ⟨lines.flatMap (GridLine.text w p), _, ?_, h2, ?_, ?_⟩
  · rw [gridText, hax, hc, List.map_cons, List.map_nil, h1]
    rfl
  · have := printed_table p ((binCenters edges).zipIdx.map (fun a => [(a.1 : WithTop ℝ), freeEnergy kt m (h.data [a.2])]))
    rw [zipIdx_map_coe, List.map_map]
    rw [List.map_map] at this
    exact this
  · intro i hi hlt
    have hlt' : i < (binCenters edges).length := by rw [binCenters_len]; exact hlt
    refine ⟨[printedValue p ((binCenters edges)[i] : WithTop ℝ), ⊤], ?_, rfl⟩
    rw [List.getElem?_map, List.getElem?_zipIdx, finiteRow, List.getElem?_map, List.getElem?_eq_getElem hlt']
    simp only [Option.map_some, Nat.zero_add]
    rw [hi]
    rfl

/-- **C114.** The FES file in two dimensions. -/
theorem fes_text_two (w p : Nat) (kt : ℝ) (h : Histogram ℝ) (e1 e2 : List ℝ) (hb : h.bins = [e1, e2]) (l1 : 2 ≤ e1.length)
    (l2 : 2 ≤ e2.length) (header : List String) (hh : ∀ l ∈ header, CommentLine l.toList) : ∃ text table,
      gridText w p h.axes (h.counts.map (freeEnergy kt (maxCount h.counts.flat))) header = .ok (some text) ∧
      readTable text = some table ∧ PrintedTable p table ((binCenters e1).zipIdx.flatMap (fun a => (binCenters e2).zipIdx.map (fun b =>
        [(a.1 : WithTop ℝ), (b.1 : WithTop ℝ), freeEnergy kt (maxCount h.counts.flat) (h.data [a.2, b.2])]))) := by
  have hax : h.axes = [binCenters e1, binCenters e2] := by simp [Histogram.axes, hb]
  have hsh : h.shape = [(finiteRow (binCenters e1)).length, (finiteRow (binCenters e2)).length] := by
    simp [Histogram.shape, hb, binCenters_len, finiteRow_length]
  generalize hm : maxCount h.counts.flat = m
  have hc : h.counts.map (freeEnergy kt m) = Nd.ofFn [(finiteRow (binCenters e1)).length, (finiteRow (binCenters e2)).length]
      (fun idx => freeEnergy kt m (h.data idx)) := by
    simp [Histogram.counts, Nd.map, Nd.ofFn, hsh, Function.comp_def]
  have n1 : finiteRow (binCenters e1) ≠ [] := by
    intro h; have := congrArg List.length h; simp [binCenters_len, finiteRow_length] at this; omega
  have n2 : finiteRow (binCenters e2) ≠ [] := by
    intro h; have := congrArg List.length h; simp [binCenters_len, finiteRow_length] at this; omega
  obtain ⟨lines, h1, h2⟩ := grid_text_two w p _ _ n1 n2 (fun idx => freeEnergy kt m (h.data idx)) header hh
  refine ⟨lines.flatMap (GridLine.text w p), _, ?_, h2, ?_⟩
  · rw [gridText, hax, hc, List.map_cons, List.map_cons, List.map_nil]
    rw [show (Nd.ofFn [(finiteRow (binCenters e1)).length, (finiteRow (binCenters e2)).length]
        (fun idx => freeEnergy kt m (h.data idx))).shape = [(finiteRow (binCenters e1)).length,
          (finiteRow (binCenters e2)).length] from rfl, h1]
    rfl
  · have := printed_table p ((binCenters e1).zipIdx.flatMap (fun a => (binCenters e2).zipIdx.map (fun b =>
        [(a.1 : WithTop ℝ), (b.1 : WithTop ℝ), freeEnergy kt m (h.data [a.2, b.2])])))
    rw [zipIdx_map_coe, zipIdx_map_coe, List.flatMap_map]
    rw [List.map_flatMap] at this
    refine Eq.mp ?_ this
    congr 2
    funext a
    rw [List.map_map, List.map_map]
    rfl

/-! ### Time series -/

theorem initHeader_comments (fields : List String) (constants : List (String × String)) (hf : ∀ f ∈ fields, '\n' ∉ f.toList)
    (hc : ∀ c ∈ constants, '\n' ∉ c.1.toList ∧ '\n' ∉ c.2.toList) :
    ∀ l ∈ initHeader fields constants, CommentLine l.toList := by
  intro l hl
  unfold initHeader at hl
  split at hl
  · cases hl
  · exact header_comments fields constants hf hc l hl

theorem distFields_newline (k : Nat) : ∀ f ∈ distFields k, '\n' ∉ f.toList := by
  intro f hf
  obtain ⟨i, _, rfl⟩ := List.mem_map.1 hf
  rw [String.toList_append, List.mem_append, not_or]
  exact ⟨by decide, newline_repr i⟩

theorem deltaFFields_newline (k : Nat) : ∀ f ∈ deltaFFields k, '\n' ∉ f.toList := by
  intro f hf
  obtain ⟨i, _, rfl⟩ := List.mem_map.1 hf
  rw [String.toList_append, List.mem_append, not_or]
  exact ⟨by decide, newline_repr i⟩

/-- Steps with a row in the file of a time series. -/
def Spec.seriesSteps (o : Dict (OptVal ℝ)) (n : Nat) : List Nat :=
  if seriesStride o = 0 then [n] else sampledSteps (seriesStride o) 0 n

section
variable {R : Type} {w : World R} {file : Option (List Section)} {a : AnySim R} {config : Input ℝ} {n : Nat}
  {s0 : Sim a.d R}

/-- **C114.** The particle distribution file is read as the steps and the exact numbers of walkers in the states. -/
theorem distribution_text_partial (hr : FinishedRun w file a config n s0) (hops : w.bdOps.Lawful) (o : Dict (OptVal ℝ))
    (ho : config.particleDistribution = some o) (hf : hasFilename o = true) (states : List (List (ℝ × ℝ)))
    (hst : stateRanges o = .ok states) (hd : ∀ s ∈ states, s.length = a.d) (hw : 0 < s0.particles.length)
    (hl : ¬ emptyLastWrite o n) (constants : List (String × String))
    (hc : ∀ c ∈ constants, '\n' ∉ c.1.toList ∧ '\n' ∉ c.2.toList) (width p : Nat) :
    ∃ x, a.sim.dist = some x ∧ readTable (seriesText width p (distFields states.length) constants x.file) =
      some ((seriesSteps o n).map (fun t : Nat => ((t : ℚ) : WithTop ℚ) :: states.map (fun s =>
        ((((hr.path t).countP (fun q => decide (InState (List.ofFn q.pos) s)) : Nat) : ℚ) : WithTop ℚ)))) := by
  obtain ⟨x, h1, h2⟩ := main_distribution_partial hr hops o ho states hst hd hw hl
  refine ⟨x, h1, ?_⟩
  have hrows : x.file = (seriesSteps o n).map (fun t : Nat => (t : ℝ) :: walkersIn states (hr.path t)) := by
    rw [h2, seriesExact, if_pos hf, seriesSteps]
    split <;> rfl
  rw [seriesText, hrows, readTable_file _ _ _ (initHeader_comments _ _ (distFields_newline _) hc)]
  · rw [List.map_map, List.map_map]
    congr 1
    refine List.map_congr_left fun t _ => ?_
    simp only [Function.comp_apply, finiteRow, walkersIn, List.map_cons, List.map_map]
    congr 1
    · exact printedValue_nat (F := ℝ) p t
    · exact List.map_congr_left fun s _ => printedValue_nat (F := ℝ) p _
  · intro r hr'
    simp only [List.map_map, List.mem_map] at hr'
    obtain ⟨t, _, rfl⟩ := hr'
    simp [finiteRow]

/-- **C114.** The delta F file is read as times and differences up to half of the last digit. -/
theorem deltaF_text_partial (hr : FinishedRun w file a config n s0) (o of : Dict (OptVal ℝ))
    (ho : config.deltaF = some o) (hof : config.fes = some of) (hf : hasFilename o = true) (states : List (List (ℝ × ℝ)))
    (hst : stateRanges o = .ok states) (hs : ∀ s ∈ states, s.length = 1) (hl : ¬ emptyLastWrite o n)
    (constants : List (String × String)) (hc : ∀ c ∈ constants, '\n' ∉ c.1.toList ∧ '\n' ∉ c.2.toList) (width p : Nat) :
    ∃ x h, a.sim.deltaF = some x ∧ a.sim.hist = some h ∧
      ((∀ t, 0 < t → t ≤ n → seriesStride o ∣ t → ∀ s ∈ states, stateCounts (hr.histAt (fesStep of t)) s ≠ 0) →
        (∀ s ∈ states, stateCounts h s ≠ 0) → ∃ table,
        readTable (seriesText width p (deltaFFields states.length) constants x.file) = some table ∧
        PrintedTable p table ((seriesSteps o n).map (fun t : Nat => finiteRow (((t : ℝ) * a.cfg.ld.dt) ::
          freeEnergyDiffs a.cfg.ld.kt (if seriesStride o = 0 then h else hr.histAt (fesStep of t)) states)))) := by
  obtain ⟨x, h, h1, h2, h3⟩ := main_deltaF_partial hr o of ho hof states hst hs hl
  refine ⟨x, h, h1, h2, fun p1 p2 => ?_⟩
  have hrows : x.file.map finiteRow = (seriesSteps o n).map (fun t : Nat => finiteRow (((t : ℝ) * a.cfg.ld.dt) ::
      freeEnergyDiffs a.cfg.ld.kt (if seriesStride o = 0 then h else hr.histAt (fesStep of t)) states)) := by
    rw [h3 p1 p2, seriesExact, if_pos hf, seriesSteps]
    split
    · next e => simp
    · next e => rw [List.map_map]; rfl
  rw [seriesText, hrows, readTable_file _ _ _ (initHeader_comments _ _ (deltaFFields_newline _) hc)]
  · exact ⟨_, rfl, printed_table p _⟩
  · intro r hr'
    simp only [List.mem_map] at hr'
    obtain ⟨t, _, rfl⟩ := hr'
    simp [finiteRow]

/-! ### Statistics of birth-death -/

theorem readNats_file (header : List String) (hh : ∀ l ∈ header, CommentLine l.toList) (rows : List (List Nat))
    (hr : ∀ r ∈ rows, r ≠ []) : readNats (headerText header ++ rows.flatMap savetxtInts) = some rows := by
  have hrow : ∀ r : List Nat, '\n' ∉ [' '].intercalate (r.map (Nat.toDigits 10)) ∧ '#' ∉ [' '].intercalate (r.map (Nat.toDigits 10)) := by
    intro r
    constructor <;> intro h <;> rcases mem_intercalate h with h | ⟨l, hl, h⟩
    all_goals first
      | (exact absurd h (by decide))
      | (obtain ⟨k, _, rfl⟩ := List.mem_map.1 hl
         exact absurd (digit_of_mem_toDigits k _ h) (by decide))
  have e := pieces_lines (header.map String.toList ++ rows.map (fun r => [' '].intercalate (r.map (Nat.toDigits 10)))) (by
    intro l hl
    rcases List.mem_append.1 hl with hl | hl
    · obtain ⟨s, hs, rfl⟩ := List.mem_map.1 hl
      exact (hh s hs).2
    · obtain ⟨r, _, rfl⟩ := List.mem_map.1 hl
      exact (hrow r).1) []
  rw [List.append_nil, List.flatMap_append, List.flatMap_map, List.flatMap_map] at e
  rw [readNats, textLines, show headerText header ++ rows.flatMap savetxtInts = _ from rfl]
  unfold headerText savetxtInts
  rw [e]
  simp only [pieces, piecesFrom, if_true, List.append_nil, List.filter_append]
  have e1 : ((header.map String.toList).filter (fun l => l ≠ [])).filter (fun l => !isComment l) = [] := by
    rw [List.filter_eq_nil_iff]
    intro l hl
    obtain ⟨s, hs, rfl⟩ := List.mem_map.1 (List.mem_filter.1 hl).1
    simp [isComment, (hh s hs).1]
  have e2 : ∀ rows : List (List Nat), (∀ r ∈ rows, r ≠ []) →
      (((rows.map (fun r => [' '].intercalate (r.map (Nat.toDigits 10)))).filter (fun l => l ≠ [])).filter (fun l => !isComment l)).mapM
        (fun l => (textWords l).mapM readNat) = some rows := by
    intro rows hr
    induction rows with
    | nil => rfl
    | cons r rows ih =>
      have h1 := ints_words r
      have hne : [' '].intercalate (r.map (Nat.toDigits 10)) ≠ [] := by
        intro h0
        rw [h0] at h1
        simp only [textWords, pieces, piecesFrom, if_true, List.mapM_nil] at h1
        exact hr r (by simp) (Option.some.inj h1).symm
      have hcm : isComment ([' '].intercalate (r.map (Nat.toDigits 10))) = false := by
        unfold isComment
        have := (hrow r).2
        cases hh : [' '].intercalate (r.map (Nat.toDigits 10)) with
        | nil => rfl
        | cons c t =>
          rw [hh] at this
          simp only [List.head?_cons, beq_eq_false_iff_ne, ne_eq, Option.some.injEq]
          rintro rfl
          simp at this
      rw [List.map_cons, List.filter_cons_of_pos (by simp [hne]), List.filter_cons_of_pos (by simp [hcm]), List.mapM_cons,
        ih (fun x hx => hr x (by simp [hx])), h1]
      rfl
  rw [e1, List.nil_append]
  exact e2 rows hr

/-- **C114.** The statistics file is read as the reported steps with the exact counters. -/
theorem stats_text (hr : FinishedRun w file a config n s0) (hops : w.bdOps.Lawful) (o : Dict (OptVal ℝ))
    (ho : config.birthDeath = some o) (name : String) (hn : name ≠ "") (constants : List (String × String))
    (hc : ∀ c ∈ constants, '\n' ∉ c.1.toList ∧ '\n' ∉ c.2.toList) : ∃ z, a.sim.bd = some z ∧
      readNats (statsText constants (statsOutput (some name) z.log)) = some ((reportSteps o n).map (fun t => [t,
        (hr.counters t).dupCount, (hr.counters t).dupAttempts, (hr.counters t).killCount, (hr.counters t).killAttempts])) := by
  obtain ⟨z, h1, h2, _⟩ := main_statsOutput hr hops o ho
  refine ⟨z, h1, ?_⟩
  rw [statsText, h2 name hn, List.flatMap_map]
  have := readNats_file (initHeader statsFields constants) (initHeader_comments _ _ (by decide) hc)
    ((reportSteps o n).map (fun t => [t, (hr.counters t).dupCount, (hr.counters t).dupAttempts, (hr.counters t).killCount,
      (hr.counters t).killAttempts])) (by
    intro r hr'
    obtain ⟨t, _, rfl⟩ := List.mem_map.1 hr'
    simp)
  rw [List.flatMap_map] at this
  exact this

end

/-! ### Printed times -/

/-- The printed time of a step. -/
noncomputable def printedTime (p : Nat) (dt : ℝ) (t : Nat) : ℚ := (roundEven ((t : ℝ) * dt * 10 ^ p) : ℚ) / 10 ^ p

theorem printedTime_spec (p : Nat) (dt : ℝ) (h : 0 ≤ dt) (t : Nat) :
    printedValue p (((t : ℝ) * dt : ℝ) : WithTop ℝ) = ((printedTime p dt t : ℚ) : WithTop ℚ) := by
  have : ¬ ((t : ℝ) * dt < 0) := not_lt.2 (by positivity)
  show (((if ((t : ℝ) * dt) < 0 then _ else _) : ℚ) : WithTop ℚ) = _
  rw [if_neg this]
  rfl

/-- **C115.** Printed times never decrease. -/
theorem printedTime_mono (p : Nat) (dt : ℝ) (h : 0 ≤ dt) {s t : Nat} (hst : s ≤ t) : printedTime p dt s ≤ printedTime p dt t := by
  have : roundEven ((s : ℝ) * dt * 10 ^ p) ≤ roundEven ((t : ℝ) * dt * 10 ^ p) := by
    refine roundEven_mono ?_
    have : (s : ℝ) ≤ t := by exact_mod_cast hst
    gcongr
  unfold printedTime
  have h' : (roundEven ((s : ℝ) * dt * 10 ^ p) : ℚ) ≤ roundEven ((t : ℝ) * dt * 10 ^ p) := by exact_mod_cast this
  gcongr

/-- **C115, the case in which it is true.** If the time between two rows is more than one unit of the last printed digit, the printed
times of the rows are different. -/
theorem printedTime_strict_partial (p : Nat) (dt : ℝ) (h : 0 ≤ dt) (stride : Nat) (hs : 1 < (stride : ℝ) * dt * 10 ^ p) {s t : Nat}
    (h1 : stride ∣ s) (h2 : stride ∣ t) (hst : s < t) : printedTime p dt s < printedTime p dt t := by
  obtain ⟨i, rfl⟩ := h1
  obtain ⟨j, rfl⟩ := h2
  have hij : i + 1 ≤ j := by
    by_contra hc
    exact absurd (Nat.mul_le_mul_left stride (show j ≤ i by omega)) (by omega)
  have : roundEven (((stride * i : Nat) : ℝ) * dt * 10 ^ p) < roundEven (((stride * j : Nat) : ℝ) * dt * 10 ^ p) := by
    refine roundEven_strict (by positivity) ?_
    push_cast
    have hij' : (i : ℝ) + 1 ≤ j := by exact_mod_cast hij
    have := mul_le_mul_of_nonneg_left hij' (show 0 ≤ (stride : ℝ) * dt * 10 ^ p by positivity)
    nlinarith
  unfold printedTime
  have h' : (roundEven (((stride * i : Nat) : ℝ) * dt * 10 ^ p) : ℚ) < roundEven (((stride * j : Nat) : ℝ) * dt * 10 ^ p) := by
    exact_mod_cast this
  gcongr

/-- Small numbers are printed as zero. -/
theorem roundEven_small {x : ℝ} (h : x < 1 / 2) : roundEven x = 0 := by
  have hf : ⌊x⌋₊ = 0 := Nat.floor_eq_zero.2 (by linarith)
  unfold roundEven
  simp only [hf]
  rw [if_pos (by push_cast; linarith)]

/-- Times of less than half a digit are printed as zero. -/
theorem printedTime_small (p : Nat) (dt : ℝ) (t : Nat) (ht : (t : ℝ) * dt * 10 ^ p < 1 / 2) : printedTime p dt t = 0 := by
  rw [printedTime, roundEven_small ht]
  simp

/-- **C115 is false in general**: with the default format all steps of a run with time step 10⁻¹⁰ before the fifth have the time 0. -/
theorem printedTime_false : ¬ ∀ (p : Nat) (dt : ℝ), 0 < dt → ∀ s t : Nat, s < t → printedTime p dt s < printedTime p dt t := by
  intro h
  have := h 9 (1 / 10 ^ 10) (by positivity) 1 4 (by decide)
  rw [printedTime_small _ _ 1 (by norm_num), printedTime_small _ _ 4 (by norm_num)] at this
  exact lt_irrefl _ this

section
variable {R : Type} {w : World R} {file : Option (List Section)} {a : AnySim R} {config : Input ℝ} {n : Nat}
  {s0 : Sim a.d R}

/-- **C115, the case in which it is true.** The times read from the trajectory file of a walker strictly increase if the time between
two rows is more than one unit of the last printed digit. -/
theorem trajectory_times_partial (hr : FinishedRun w file a config n s0) (hops : w.bdOps.Lawful) (o : Dict (OptVal ℝ))
    (ho : config.trajectories = some o) (hf : hasFilename o = true) (width p : Nat)
    (hp : 1 < (natOption o "stride" 1 : ℝ) * a.cfg.ld.dt * 10 ^ p) :
    ∃ fs x files, potFields a.d = .ok fs ∧ a.sim.traj = some x ∧ x.files = some files ∧ files.length = s0.particles.length ∧
      ∀ i rows, files[i]? = some rows → ∃ (table : List (List (WithTop ℚ))) (times : List ℚ),
        readTable (trajText width p fs (flagOption o "momentum") i rows) = some table ∧
        table.map List.head? = times.map (fun q : ℚ => some (q : WithTop ℚ)) ∧ times.Pairwise (· < ·) := by
  have hdt : 0 ≤ a.cfg.ld.dt := by
    by_contra hc
    have h1 : (natOption o "stride" 1 : ℝ) * a.cfg.ld.dt ≤ 0 := mul_nonpos_of_nonneg_of_nonpos (by positivity) (by linarith)
    have h2 := mul_nonpos_of_nonpos_of_nonneg h1 (show (0 : ℝ) ≤ 10 ^ p by positivity)
    linarith
  obtain ⟨fs, x, files, h1, h2, h3, h4, h5⟩ := trajectory_text hr hops o ho hf width p
  refine ⟨fs, x, files, h1, h2, h3, h4, fun i rows hi => ?_⟩
  obtain ⟨table, t1, t2, _⟩ := h5 i rows hi
  refine ⟨table, (sampledSteps (natOption o "stride" 1) 0 n).map (printedTime p a.cfg.ld.dt), t1, ?_, ?_⟩
  · rw [t2, List.map_map]
    exact List.map_congr_left fun t _ => congrArg some (printedTime_spec p _ hdt t)
  · rw [List.pairwise_map]
    have hs : (sampledSteps (natOption o "stride" 1) 0 n).Pairwise (· < ·) := by
      unfold sampledSteps
      exact List.pairwise_lt_range.filter _
    refine hs.imp_of_mem fun {s t} ms mt hst => ?_
    exact printedTime_strict_partial p _ hdt _ hp (mem_sampledSteps.1 ms).2.2 (mem_sampledSteps.1 mt).2.2 hst

end

end Bdld
