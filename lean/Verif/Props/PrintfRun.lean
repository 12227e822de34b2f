import Verif.Props.Printf
import Verif.Props.TextFiles
import Verif.Props.TextRun
import Verif.Props.Interpolation

/-
C145: files of a run in the format of the options.
-/

namespace Bdld

open Spec

/-! ### Grids -/

theorem gridLine_body (f : NumFmt) (body : List (GridLine (WithTop ℝ))) (hb : ∀ s, GridLine.header s ∉ body) :
    ∃ rows : List (List XReal), body.flatMap f.gridLine =
        rows.flatMap (fun r => [' '].intercalate (r.map f.print) ++ ['\n']) ∧
      ((∀ r ∈ rowsOf body, r ≠ []) → rows.filter (fun r => !r.isEmpty) = (rowsOf body).map (fun r => r.map XReal.ofTop)) := by
  induction body with
  | nil => exact ⟨[], rfl, fun _ => rfl⟩
  | cons l body ih =>
    obtain ⟨rows, h1, h2⟩ := ih (fun s hs => hb s (List.mem_cons_of_mem _ hs))
    cases l with
    | header s => exact absurd (List.mem_cons_self ..) (hb s)
    | blank =>
      refine ⟨[] :: rows, ?_, fun hr => ?_⟩
      · rw [List.flatMap_cons, List.flatMap_cons, h1]
        rfl
      · rw [List.filter_cons_of_neg (by simp)]
        exact h2 hr
    | row v =>
      refine ⟨v.map XReal.ofTop :: rows, ?_, fun hr => ?_⟩
      · rw [List.flatMap_cons, List.flatMap_cons, h1, List.map_map]
        rfl
      · have hv : v ≠ [] := hr v (by simp [rowsOf])
        rw [List.filter_cons_of_pos (by simp [hv]), h2 (fun r hr' => hr r (by
          simp only [rowsOf, List.filterMap_cons] at hr' ⊢
          exact List.mem_cons_of_mem _ hr'))]
        rfl

/-- The file of a grid in any of the formats. -/
theorem readFloats_grid (f : NumFmt) (hz : f.left = true ∨ f.zero = false) (header : List String)
    (hh : ∀ l ∈ header, CommentLine l.toList) (body : List (GridLine (WithTop ℝ))) (hb : ∀ s, GridLine.header s ∉ body)
    (hr : ∀ r ∈ rowsOf body, r ≠ []) : ∃ table,
      readFloats ((header.map GridLine.header ++ body).flatMap f.gridLine) = some table ∧
      List.Forall₂ (List.Forall₂ (PrintedAs f)) table ((rowsOf body).map (fun r => r.map XReal.ofTop)) := by
  obtain ⟨rows, h1, h2⟩ := gridLine_body f body hb
  have ht : (header.map GridLine.header ++ body).flatMap f.gridLine = f.file header rows := by
    rw [List.flatMap_append, h1, List.flatMap_map]
    rfl
  rw [ht, ← h2 hr]
  refine readFloats_lines f header hh rows ?_
  rcases hz with h | h
  · exact .inl h
  · exact .inr (.inl h)

/-- **C145.** The FES file in one dimension. Missing: the flag `0`, see `zero_flag_inf`. -/
theorem fes_format_one_partial (f : NumFmt) (hz : f.left = true ∨ f.zero = false) (kt : ℝ) (h : Histogram ℝ)
    (edges : List ℝ) (hb : h.bins = [edges]) (header : List String) (hh : ∀ l ∈ header, CommentLine l.toList) :
    ∃ text table,
      f.gridText h.axes (h.counts.map (freeEnergy kt (maxCount h.counts.flat))) header = .ok (some text) ∧
      readFloats text = some table ∧ List.Forall₂ (List.Forall₂ (PrintedAs f)) table
        ((binCenters edges).zipIdx.map (fun a =>
          [.fin a.1, .ofTop (freeEnergy kt (maxCount h.counts.flat) (h.data [a.2]))])) := by
  have hax : h.axes = [binCenters edges] := by simp [Histogram.axes, hb]
  have hsh : h.shape = [(finiteRow (binCenters edges)).length] := by simp [Histogram.shape, hb, binCenters_len, finiteRow_length]
  generalize hm : maxCount h.counts.flat = m
  have hc : h.counts.map (freeEnergy kt m) =
      Nd.ofFn [(finiteRow (binCenters edges)).length] (fun idx => freeEnergy kt m (h.data idx)) := by
    simp [Histogram.counts, Nd.map, Nd.ofFn, hsh, Function.comp_def]
  have h1 := gridFile_one (finiteRow (binCenters edges)) (fun idx => freeEnergy kt m (h.data idx))
    (Nd.ofFn [(finiteRow (binCenters edges)).length] (fun idx => freeEnergy kt m (h.data idx))).shape header
  have e := rowsOf_one (finiteRow (binCenters edges)) (fun i => freeEnergy kt m (h.data [i]))
  obtain ⟨table, t1, t2⟩ := readFloats_grid f hz header hh _ (mem_header_one (finiteRow (binCenters edges))
    (fun i => freeEnergy kt m (h.data [i]))) (by
      rw [e]
      intro r hr
      obtain ⟨a, _, rfl⟩ := List.mem_map.1 hr
      simp)
  refine ⟨_, table, ?_, t1, ?_⟩
  · rw [NumFmt.gridText, hax, hc, List.map_cons, List.map_nil, h1]
    rfl
  · rw [e, zipIdx_map_coe, List.map_map, List.map_map] at t2
    exact t2

/-- **C145.** The FES file in two dimensions. Missing: the flag `0`, see `zero_flag_inf`. -/
theorem fes_format_two_partial (f : NumFmt) (hz : f.left = true ∨ f.zero = false) (kt : ℝ) (h : Histogram ℝ)
    (e1 e2 : List ℝ) (hb : h.bins = [e1, e2]) (l1 : 2 ≤ e1.length) (l2 : 2 ≤ e2.length) (header : List String)
    (hh : ∀ l ∈ header, CommentLine l.toList) :
    ∃ text table,
      f.gridText h.axes (h.counts.map (freeEnergy kt (maxCount h.counts.flat))) header = .ok (some text) ∧
      readFloats text = some table ∧ List.Forall₂ (List.Forall₂ (PrintedAs f)) table
        ((binCenters e1).zipIdx.flatMap (fun a => (binCenters e2).zipIdx.map (fun b =>
          [.fin a.1, .fin b.1, .ofTop (freeEnergy kt (maxCount h.counts.flat) (h.data [a.2, b.2]))]))) := by
  have hax : h.axes = [binCenters e1, binCenters e2] := by simp [Histogram.axes, hb]
  have hsh : h.shape = [(finiteRow (binCenters e1)).length, (finiteRow (binCenters e2)).length] := by
    simp [Histogram.shape, hb, binCenters_len, finiteRow_length]
  generalize hm : maxCount h.counts.flat = m
  have hc : h.counts.map (freeEnergy kt m) = Nd.ofFn [(finiteRow (binCenters e1)).length, (finiteRow (binCenters e2)).length]
      (fun idx => freeEnergy kt m (h.data idx)) := by
    simp [Histogram.counts, Nd.map, Nd.ofFn, hsh, Function.comp_def]
  have n1 : finiteRow (binCenters e1) ≠ [] := by
    intro h; have := congrArg List.length h; simp [binCenters_len, finiteRow_length] at this; omega
  have n2 : finiteRow (binCenters e2) ≠ [] := by
    intro h; have := congrArg List.length h; simp [binCenters_len, finiteRow_length] at this; omega
  have h1 := gridFile_two (finiteRow (binCenters e1)) (finiteRow (binCenters e2)) n1 n2
    (fun idx => freeEnergy kt m (h.data idx)) header
  have e := rowsOf_two (finiteRow (binCenters e1)) (finiteRow (binCenters e2)) (fun i j => freeEnergy kt m (h.data [i, j]))
  obtain ⟨table, t1, t2⟩ := readFloats_grid f hz header hh _ (mem_header_two (finiteRow (binCenters e1))
    (finiteRow (binCenters e2)) (fun i j => freeEnergy kt m (h.data [i, j]))) (by
      rw [e]
      intro r hr
      obtain ⟨a, _, hr⟩ := List.mem_flatMap.1 hr
      obtain ⟨b, _, rfl⟩ := List.mem_map.1 hr
      simp)
  refine ⟨_, table, ?_, t1, ?_⟩
  · rw [NumFmt.gridText, hax, hc, List.map_cons, List.map_cons, List.map_nil]
    rw [show (Nd.ofFn [(finiteRow (binCenters e1)).length, (finiteRow (binCenters e2)).length]
        (fun idx => freeEnergy kt m (h.data idx))).shape = [(finiteRow (binCenters e1)).length,
          (finiteRow (binCenters e2)).length] from rfl, h1]
    rfl
  · rw [e, zipIdx_map_coe, zipIdx_map_coe, List.flatMap_map, List.map_flatMap] at t2
    refine cast ?_ t2
    congr 2
    funext a
    rw [List.map_map, List.map_map]
    rfl

/-! ### Runs -/

variable {R : Type} {w : World R} {file : Option (List Section)} {a : AnySim R} {config : Input ℝ} {n : Nat} {s0 : Sim a.d R}

/-- **C145.** The format that an action uses is the one given in the input. -/
theorem formatOf_given (o : Dict (OptVal ℝ)) (s : String) (ho : o.get? "fmt" = some (.base (.str s))) (flags : List Char)
    (f : NumFmt) (hf : FlagsOf flags f) (hs : s.toList = fmtText flags f) : formatOf o = some f := by
  have hne : s ≠ "" := by
    rintro rfl
    cases hs
  rw [formatOf, ho]
  simp only [if_neg hne, hs]
  exact parseFmt_text flags f hf

/-- **C145.** Without one, or with an empty one, it has 14 characters with 9 decimals. -/
theorem formatOf_default (o : Dict (OptVal ℝ)) (ho : o.get? "fmt" = none ∨ o.get? "fmt" = some .none ∨
    o.get? "fmt" = some (.base (.str ""))) : formatOf o = some ⟨false, false, false, false, 14, 9, .fixed⟩ := by
  have h : parseFmt "%14.9f".toList = some ⟨false, false, false, false, 14, 9, .fixed⟩ := by decide +kernel
  rcases ho with ho | ho | ho <;> rw [formatOf, ho] <;> exact h

/-- **C145.** Trajectory files of a finished run in the format of the options, with any flags. -/
theorem trajectory_format (hr : FinishedRun w file a config n s0) (hops : w.bdOps.Lawful) (o : Dict (OptVal ℝ))
    (ho : config.trajectories = some o) (hf : hasFilename o = true) (f : NumFmt) (hfmt : formatOf o = some f) :
    ∃ fs x files, potFields a.d = .ok fs ∧ a.sim.traj = some x ∧ x.files = some files ∧ files.length = s0.particles.length ∧
      ∀ i rows, files[i]? = some rows → ∃ text table,
        formattedFile o (initHeader (trajFields fs (flagOption o "momentum") i) []) (rows.map (fun r => r.map .fin)) =
          some text ∧ readFloats text = some table ∧
        List.Forall₂ (List.Forall₂ (PrintedAs f)) table ((sampledSteps (natOption o "stride" 1) 0 n).map (fun t =>
          (trajRow (fun k : Nat => (k : ℝ) * a.cfg.ld.dt) hr.snaps (flagOption o "momentum") i t).map .fin)) := by
  obtain ⟨fs, hfs⟩ := trajectories_fields hr o ho hf
  obtain ⟨x, hx, hfiles⟩ := main_trajectories hr hops o ho
  rw [if_pos hf] at hfiles
  refine ⟨fs, x, _, hfs, hx, hfiles, by simp, fun i rows hi => ?_⟩
  rw [List.getElem?_map] at hi
  obtain ⟨j, hj, rfl⟩ := Option.map_eq_some_iff.1 hi
  have hji : j = i := by
    by_cases hlt : i < s0.particles.length
    · rw [List.getElem?_range hlt] at hj
      exact (Option.some.inj hj).symm
    · rw [List.getElem?_eq_none (by simpa using hlt)] at hj
      cases hj
  subst hji
  rw [List.map_map]
  refine ⟨_, (Exists.imp fun table ht => ⟨by rw [formattedFile, hfmt]; rfl, ht⟩) (readFloats_file f _ ?_ _ ?_ (.inr (.inr ?_)))⟩
  · intro l hl
    rw [initHeader, if_neg (by simp [trajFields])] at hl
    exact header_comments _ _ (trajFields_newline fs (potFields_newline a.d fs hfs) _ _) (by simp) l hl
  · intro r hr'
    obtain ⟨t, _, rfl⟩ := List.mem_map.1 hr'
    simp [trajRow]
  · intro r hr' y hy
    obtain ⟨t, _, rfl⟩ := List.mem_map.1 hr'
    obtain ⟨z, _, rfl⟩ := List.mem_map.1 hy
    trivial

/-- **C145.** The delta F file of a finished run in the format of the options, whether there are empty states or not.
Missing: the flag `0`, see `zero_flag_inf`. -/
theorem deltaF_format_partial (hr : FinishedRun w file a config n s0) (o of : Dict (OptVal ℝ))
    (ho : config.deltaF = some o) (hof : config.fes = some of) (hf : hasFilename o = true)
    (states : List (List (ℝ × ℝ))) (hst : stateRanges o = .ok states) (hs : ∀ s ∈ states, s.length = 1)
    (hl : ¬ emptyLastWrite o n) (constants : List (String × String))
    (hc : ∀ c ∈ constants, '\n' ∉ c.1.toList ∧ '\n' ∉ c.2.toList) (f : NumFmt) (hfmt : formatOf o = some f)
    (hz : f.left = true ∨ f.zero = false) (garbage : Nat → List XReal) :
    ∃ df h g z, a.cfg.deltaF = some df ∧ a.sim.hist = some h ∧ a.sim.fes = some g ∧
      deltaFSeriesX df (fun t => s0.fesAt w a.cfg t) g n garbage = .ok z ∧
      z.file = (seriesSteps o n).map (fun t : Nat => .fin ((t : ℝ) * a.cfg.ld.dt) ::
        freeEnergyDiffsX a.cfg.ld.kt (if seriesStride o = 0 then h else hr.histAt (fesStep of t)) states) ∧
      ∃ text table, formattedFile o (initHeader (deltaFFields states.length) constants) z.file = some text ∧
        readFloats text = some table ∧
        List.Forall₂ (List.Forall₂ (PrintedAs f)) table z.file := by
  obtain ⟨df, h, g, z, h1, h2, h3, h4, h5, _⟩ := deltaFX_text hr o of ho hof hf states hst hs hl constants hc 14 9 garbage
  refine ⟨df, h, g, z, h1, h2, h3, h4, h5, ?_⟩
  refine ⟨_, (Exists.imp fun table ht => ⟨by rw [formattedFile, hfmt]; rfl, ht⟩)
    (readFloats_file f _ (initHeader_comments _ constants (deltaFFields_newline _) hc) z.file ?_ ?_)⟩
  · intro r hr'
    rw [h5] at hr'
    obtain ⟨t, _, rfl⟩ := List.mem_map.1 hr'
    simp
  · rcases hz with hz | hz
    · exact .inl hz
    · exact .inr (.inl hz)

/-! ### Example -/

/-- The percent sign is doubled in the input (C78), and the action uses the format. -/
example : (parseSection exConv
    (Section.ofRaw "trajectories" [("filename", "traj"), ("fmt", "%%-12.4e")]) trajectoriesOptions).toOption.map
      (fun d => d.get? "fmt") = some (some (.base (.str "%-12.4e"))) ∧
    parseFmt "%-12.4e".toList = some ⟨true, false, false, false, 12, 4, .sci⟩ := by
  decide +kernel

/-- The trajectory files of the shipped example have the default format. -/
example : formatOf exampleTrajOpts = some ⟨false, false, false, false, 14, 9, .fixed⟩ :=
  formatOf_default _ (.inr (.inl rfl))

end Bdld
