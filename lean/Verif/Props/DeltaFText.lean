import Verif.Model.DeltaFText
import Verif.Spec.TextExt
import Verif.Props.DeltaFExt
import Verif.Props.DeltaFDemo
import Verif.Props.TextRun

/-
C142: the delta F file of a run in which states may be empty.
-/

namespace Bdld

open Spec

/-! ### Tables of any entries -/

/-- Lines and words of a file with a header and rows of padded entries. -/
theorem table_words {α : Type} (bare : α → List Char) (w : Nat) (h1 : ∀ x, ' ' ∉ bare x) (h2 : ∀ x, bare x ≠ [])
    (h3 : ∀ x, '\n' ∉ bare x) (h4 : ∀ x, '#' ∉ bare x) (header : List String)
    (hh : ∀ l ∈ header, CommentLine l.toList) (rows : List (List α)) (hr : ∀ r ∈ rows, r ≠ []) :
    ((textLines (headerText header ++
      rows.flatMap (fun r => [' '].intercalate (r.map (fun x => padLeft w (bare x))) ++ ['\n']))).filter
        (fun l => !isComment l)).map textWords = rows.map (fun r => r.map bare) := by
  have hpad : ∀ r : List α, r.map (fun x => padLeft w (bare x)) =
      (r.map (fun x => (w - (bare x).length, bare x))).map (fun c => List.replicate c.1 ' ' ++ c.2) := by
    intro r
    rw [List.map_map]
    rfl
  have hwords : ∀ r : List α, textWords ([' '].intercalate (r.map (fun x => padLeft w (bare x)))) = r.map bare := by
    intro r
    rw [hpad, words_columns]
    · rw [List.map_map]
      rfl
    · intro c hc
      obtain ⟨x, _, rfl⟩ := List.mem_map.1 hc
      exact ⟨h1 x, h2 x⟩
  have hsep : ∀ c : Char, c ≠ ' ' → (∀ x, c ∉ bare x) → ∀ r : List α,
      c ∉ [' '].intercalate (r.map (fun x => padLeft w (bare x))) := by
    intro c hc hb r h
    rcases mem_intercalate h with h | ⟨l, hl, h⟩
    · exact hc h
    · obtain ⟨x, _, rfl⟩ := List.mem_map.1 hl
      rcases List.mem_append.1 h with h | h
      · exact hc (List.eq_of_mem_replicate h)
      · exact hb x h
  have e := pieces_lines (header.map String.toList ++
      rows.map (fun r => [' '].intercalate (r.map (fun x => padLeft w (bare x))))) (by
    intro l hl
    rcases List.mem_append.1 hl with hl | hl
    · obtain ⟨s, hs, rfl⟩ := List.mem_map.1 hl
      exact (hh s hs).2
    · obtain ⟨r, _, rfl⟩ := List.mem_map.1 hl
      exact hsep '\n' (by decide) h3 r) []
  rw [List.append_nil, List.flatMap_append, List.flatMap_map, List.flatMap_map] at e
  unfold headerText textLines
  rw [e]
  simp only [pieces, piecesFrom, if_true, List.append_nil, List.filter_append]
  have e1 : ((header.map String.toList).filter (fun l => l ≠ [])).filter (fun l => !isComment l) = [] := by
    rw [List.filter_eq_nil_iff]
    intro l hl
    obtain ⟨s, hs, rfl⟩ := List.mem_map.1 (List.mem_filter.1 hl).1
    simp [isComment, (hh s hs).1]
  rw [e1, List.nil_append]
  clear e e1
  induction rows with
  | nil => rfl
  | cons r rows ih =>
    have hne : [' '].intercalate (r.map (fun x => padLeft w (bare x))) ≠ [] := by
      intro h0
      have := hwords r
      rw [h0] at this
      exact hr r (by simp) (List.map_eq_nil_iff.1 this.symm)
    have hcm : isComment ([' '].intercalate (r.map (fun x => padLeft w (bare x)))) = false := by
      have := hsep '#' (by decide) h4 r
      unfold isComment
      cases hx : [' '].intercalate (r.map (fun x => padLeft w (bare x))) with
      | nil => rfl
      | cons c t =>
        rw [hx] at this
        simp only [List.head?_cons, beq_eq_false_iff_ne, ne_eq, Option.some.injEq]
        rintro rfl
        simp at this
    rw [List.map_cons, List.filter_cons_of_pos (by simp [hne]), List.filter_cons_of_pos (by simp [hcm]), List.map_cons,
      ih (fun x hx => hr x (by simp [hx])), hwords, List.map_cons]

/-! ### Entries -/

theorem bareX_fin (p : Nat) (x : ℝ) : bareX p (.fin x) = bareNumber p (x : WithTop ℝ) := rfl

theorem bareX_noSep (p : Nat) (x : XReal) (sep : Char) (h1 : sep.isDigit = false) (h2 : sep ≠ '.') (h3 : sep ≠ '-')
    (h4 : sep ∉ ['i', 'n', 'f', 'a']) : sep ∉ bareX p x := by
  simp only [List.mem_cons, List.not_mem_nil, or_false, not_or] at h4
  cases x with
  | fin x =>
    rw [bareX_fin]
    exact bare_noSep p _ sep h1 h2 h3 (by simp [h4])
  | inf neg => cases neg <;> simp [bareX, h3, h4]
  | nan => simp [bareX, h4]

theorem bareX_ne_nil (p : Nat) (x : XReal) : bareX p x ≠ [] := by
  cases x with
  | fin x => exact bare_ne_nil p (x : WithTop ℝ)
  | inf neg => cases neg <;> simp [bareX]
  | nan => simp [bareX]

/-- Value of the printed decimal number. -/
noncomputable def printedX (p : Nat) : XReal → XRat
  | .fin x => .fin (if x < 0 then -((roundEven (-x * 10 ^ p) : ℚ) / 10 ^ p) else (roundEven (x * 10 ^ p) : ℚ) / 10 ^ p)
  | .inf neg => .inf neg
  | .nan => .nan

theorem readX_bare (p : Nat) (x : XReal) : readX (bareX p x) = some (printedX p x) := by
  cases x with
  | fin x =>
    obtain ⟨c, r, h, hc⟩ := fixedPoint_head p (if x < 0 then roundEven (-x * 10 ^ p) else roundEven (x * 10 ^ p))
    have h0 := readUnsigned_fixedPoint p (if x < 0 then roundEven (-x * 10 ^ p) else roundEven (x * 10 ^ p))
    have hcn : c ≠ 'n' := digit_ne hc rfl
    have hci : c ≠ 'i' := digit_ne hc rfl
    have hcm : c ≠ '-' := digit_ne hc rfl
    unfold bareX fixedSigned printedX
    by_cases hx : x < 0
    · simp only [if_pos hx] at h h0 ⊢
      rw [h] at h0 ⊢
      unfold readX
      split
      · next e => simp at e
      · next e => simp at e
      · next e => simp [hci] at e
      · next e =>
        simp only [List.cons.injEq, true_and] at e
        rw [← e, h0]
        rfl
      · next h => exact absurd rfl (h (c :: r))
    · simp only [if_neg hx] at h h0 ⊢
      rw [h] at h0 ⊢
      unfold readX
      split
      · next e => simp [hcn] at e
      · next e => simp [hci] at e
      · next e => simp [hcm] at e
      · next e => simp [hcm] at e
      · rw [h0]
        rfl
  | inf neg => cases neg <;> rfl
  | nan => rfl

theorem printedX_spec (p : Nat) (x : XReal) : PrintedX p (printedX p x) x := by
  cases x with
  | fin x =>
    obtain ⟨q, hq, he⟩ := printedValue_error p x
    have : q = if x < 0 then -((roundEven (-x * 10 ^ p) : ℚ) / 10 ^ p) else (roundEven (x * 10 ^ p) : ℚ) / 10 ^ p := by
      exact (WithTop.coe_injective hq).symm
    rw [this] at he
    exact he
  | inf neg => rfl
  | nan => trivial

/-- **C142.** Text of a time series with numbers, infinities and nan: everything is read as it is, numbers up to half of
the last digit. -/
theorem readTableX_series (w p : Nat) (fields : List String) (constants : List (String × String))
    (hf : ∀ f ∈ fields, '\n' ∉ f.toList) (hc : ∀ c ∈ constants, '\n' ∉ c.1.toList ∧ '\n' ∉ c.2.toList)
    (rows : List (List XReal)) (hr : ∀ r ∈ rows, r ≠ []) : ∃ table,
      readTableX (seriesTextX w p fields constants rows) = some table ∧
      List.Forall₂ (List.Forall₂ (PrintedX p)) table rows := by
  refine ⟨rows.map (fun r => r.map (printedX p)), ?_, ?_⟩
  · have hw := table_words (bareX p) w (fun x => bareX_noSep p x ' ' rfl (by decide) (by decide) (by decide))
      (bareX_ne_nil p) (fun x => bareX_noSep p x '\n' rfl (by decide) (by decide) (by decide))
      (fun x => bareX_noSep p x '#' rfl (by decide) (by decide) (by decide)) _
      (initHeader_comments fields constants hf hc) rows hr
    have hm : ∀ ls : List (List Char), ls.mapM (fun l => (textWords l).mapM readX) =
        (ls.map textWords).mapM (fun ws => ws.mapM readX) := by
      intro ls
      induction ls with
      | nil => rfl
      | cons l ls ih => simp only [List.mapM_cons, List.map_cons, ih]
    unfold readTableX
    rw [hm]
    have hw' := hw
    unfold seriesTextX fmtX
    rw [hw']
    clear hw hw' hr hm
    have hrow : ∀ r : List XReal, (r.map (bareX p)).mapM readX = some (r.map (printedX p)) := by
      intro r
      induction r with
      | nil => rfl
      | cons x r ih => rw [List.map_cons, List.mapM_cons, readX_bare, ih]; rfl
    induction rows with
    | nil => rfl
    | cons r rows ih => rw [List.map_cons, List.mapM_cons, hrow, ih]; rfl
  · rw [List.forall₂_map_left_iff, List.forall₂_same]
    intro r _
    rw [List.forall₂_map_left_iff, List.forall₂_same]
    intro x _
    exact printedX_spec p x

/-- With numbers only it is the text of `Model/Text.lean`. -/
theorem seriesTextX_finite (w p : Nat) (fields : List String) (constants : List (String × String))
    (rows : List (List ℝ)) :
    seriesTextX w p fields constants (rows.map (fun r => r.map .fin)) = seriesText w p fields constants rows := by
  unfold seriesTextX seriesText savetxt savetxtRow
  congr 1
  rw [List.flatMap_map, List.flatMap_map]
  refine List.flatMap_congr fun r _ => ?_
  simp only [finiteRow, List.map_map]
  rfl

/-! ### Whole runs -/

variable {R : Type} {w : World R} {file : Option (List Section)} {a : AnySim R} {config : Input ℝ} {n : Nat} {s0 : Sim a.d R}

/-- The storage of the differences is configured by the options. -/
theorem main_deltaF_series (hr : FinishedRun w file a config n s0) (o : Dict (OptVal ℝ)) (ho : config.deltaF = some o)
    (f : DeltaFCfg) (hf : a.cfg.deltaF = some f) :
    SeriesOptions o f.series ∧ f.series.timeCol = fun t : Nat => (t : ℝ) * a.cfg.ld.dt := by
  have hv := (input_valid 1 one_pos file config hr.parse).deltaF o ho
  obtain ⟨_, _, _, _, _, _, _, _, _, h5, _⟩ := setupOptional_parts w config _ _ _ _ rfl rfl hr.optional
  rw [ho] at h5
  obtain ⟨_, y, b, _, _, hb, hb1, _⟩ := h5
  rw [hf] at hb1
  cases hb1
  obtain ⟨_, _, q3, _⟩ := setupDeltaF_inv w _ _ _ _ _ hb
  exact ⟨setupDeltaF_options w o _ _ y b hv.toValidOutput hb, q3⟩

/-- The storage works for every content; rows of the steps, or one row at the end without stride. -/
theorem seriesX_program (o : Dict (OptVal ℝ)) (c : SeriesCfg ℝ) (hc : SeriesOptions o c) (hf : hasFilename o = true)
    (vals : Nat → List XReal) (valsEnd : List XReal) (garbage : Nat → List XReal) (n : Nat) (hl : ¬ emptyLastWrite o n) :
    ∃ z, SeriesState.simulate c.extended vals valsEnd n (SeriesState.init c.extended garbage) = .ok z ∧
      z.file = (seriesSteps o n).map (fun t => .fin (c.timeCol t) ::
        (if seriesStride o = 0 then valsEnd else vals t)) := by
  rcases hc.good with ⟨h1, h2⟩ | ⟨h1, h2, h3⟩
  · obtain ⟨_, z, hz, hf'⟩ := series_no_stride c.extended vals valsEnd garbage n h1 h2
    have h0 : seriesStride o = 0 := by rw [← hc.stride, h1]
    refine ⟨z, hz, ?_⟩
    have hff : c.extended.hasFile = true := hc.file.trans hf
    rw [hf', if_pos hff, seriesSteps, if_pos h0]
    simp [h0, SeriesCfg.extended]
  · have hW := hc.writeStride (by omega)
    have hs0 : seriesStride o ≠ 0 := by rw [← hc.stride]; omega
    obtain ⟨z, hz, hf'⟩ := series_file_partial c.extended vals valsEnd garbage n h1 h2 h3 (hc.file.trans hf)
      (by
        change n % c.writeStride = 0 ∨ c.stride ≤ n % c.writeStride
        rw [hW, hc.stride]
        unfold emptyLastWrite at hl
        omega)
    refine ⟨z, hz, ?_⟩
    rw [hf', seriesSteps, if_neg hs0]
    simp only [if_neg hs0]
    rw [← hc.stride]
    rfl

/-- **C142.** The delta F file of a finished run, whether there are empty states or not, and its text. -/
theorem deltaFX_text (hr : FinishedRun w file a config n s0) (o of : Dict (OptVal ℝ))
    (ho : config.deltaF = some o) (hof : config.fes = some of) (hf : hasFilename o = true)
    (states : List (List (ℝ × ℝ))) (hst : stateRanges o = .ok states) (hs : ∀ s ∈ states, s.length = 1)
    (hl : ¬ emptyLastWrite o n) (constants : List (String × String))
    (hc : ∀ c ∈ constants, '\n' ∉ c.1.toList ∧ '\n' ∉ c.2.toList) (width p : Nat) (garbage : Nat → List XReal) :
    ∃ f h g z, a.cfg.deltaF = some f ∧ a.sim.hist = some h ∧ a.sim.fes = some g ∧
      deltaFSeriesX f (fun t => s0.fesAt w a.cfg t) g n garbage = .ok z ∧
      z.file = (seriesSteps o n).map (fun t : Nat => .fin ((t : ℝ) * a.cfg.ld.dt) ::
        freeEnergyDiffsX a.cfg.ld.kt (if seriesStride o = 0 then h else hr.histAt (fesStep of t)) states) ∧
      ∃ table, readTableX (seriesTextX width p (deltaFFields states.length) constants z.file) = some table ∧
        List.Forall₂ (List.Forall₂ (PrintedX p)) table z.file := by
  obtain ⟨f, h, g, h1, h2, h3, h4, h5⟩ := main_deltaFX hr o of ho hof states hst hs
  obtain ⟨q1, q2⟩ := main_deltaF_series hr o ho f h1
  obtain ⟨z, hz, hfile⟩ := seriesX_program o f.series q1 hf (fun t => deltaFValsX f (s0.fesAt w a.cfg t))
    (deltaFValsX f g) garbage n hl
  have hrows : z.file = (seriesSteps o n).map (fun t : Nat => .fin ((t : ℝ) * a.cfg.ld.dt) ::
        freeEnergyDiffsX a.cfg.ld.kt (if seriesStride o = 0 then h else hr.histAt (fesStep of t)) states) := by
    rw [hfile, q2]
    refine List.map_congr_left fun t ht => ?_
    by_cases h0 : seriesStride o = 0
    · simp only [if_pos h0, deltaFValsX, h5, Except.toOption, Option.getD_some]
    · have htn : t ≤ n := by
        rw [seriesSteps, if_neg h0] at ht
        exact (mem_sampledSteps.1 ht).2.1
      simp only [if_neg h0, deltaFValsX, h4 t htn, Except.toOption, Option.getD_some]
  refine ⟨f, h, g, z, h1, h2, h3, hz, hrows, ?_⟩
  refine readTableX_series width p _ constants (deltaFFields_newline _) hc z.file ?_
  intro r hr'
  rw [hrows] at hr'
  obtain ⟨t, _, rfl⟩ := List.mem_map.1 hr'
  simp

/-! ### Examples -/

/-- A row with time 1/2 and the differences of an empty state, of a filled one to an empty one, and of two empty ones, with
three digits. -/
example : [' '].intercalate ([XReal.fin (1 / 2), .inf false, .inf true, .nan].map (fmtX 10 3)) =
    "     0.500        inf       -inf        nan".toList := by
  have h : fixedSigned 3 (1 / 2 : ℝ) = ['0', '.', '5', '0', '0'] := by
    have h1 : roundEven ((1 / 2 : ℝ) * 10 ^ 3) = 500 := by
      have : (1 / 2 : ℝ) * 10 ^ 3 = ((500 : ℕ) : ℝ) := by norm_num
      rw [this, roundEven_natCast]
    unfold fixedSigned
    rw [if_neg (by norm_num), h1]
    decide +kernel
  simp only [List.map_cons, List.map_nil, fmtX, bareX, h]
  decide +kernel

/-- The delta F file of the shipped example has 100 rows, with `inf` or `nan` in those before both halves were visited. -/
theorem example_deltaF_text {R : Type} {w : World R} {a : AnySim R} (hconv : w.conv = realConv)
    (h : mainText w (some exampleLines) = .finished a) (garbage : Nat → List XReal) : ∃ f s0 g z,
      ∃ hr : FinishedRun w (some exampleFile) a exampleInput 10000 s0, a.cfg.deltaF = some f ∧
      deltaFSeriesX f (fun t => s0.fesAt w a.cfg t) g 10000 garbage = .ok z ∧
      z.file = (sampledSteps 100 0 10000).map (fun t : Nat => .fin ((t : ℝ) * a.cfg.ld.dt) ::
        freeEnergyDiffsX a.cfg.ld.kt (hr.histAt (fesStep exampleFesOpts t)) [[(-5 / 2, 0)], [(0, 5 / 2)]]) ∧
      ∃ table, readTableX (seriesTextX 14 9 (deltaFFields 2) [] z.file) = some table ∧
        List.Forall₂ (List.Forall₂ (PrintedX 9)) table z.file := by
  obtain ⟨s0, hr⟩ := example_finished hconv h
  have h0 : seriesStride exampleDfOpts = 100 := rfl
  obtain ⟨f, _, g, z, h1, _, _, h4, h5, h6⟩ := deltaFX_text hr exampleDfOpts exampleFesOpts rfl rfl rfl _ example_states
    (by simp) (by decide) [] (by simp) 14 9 garbage
  refine ⟨f, s0, g, z, hr, h1, h4, ?_, h6⟩
  rw [h5, seriesSteps, h0]
  rfl

example : readX "-0.250".toList = some (.fin (-1 / 4)) := by decide +kernel
example : readX "-inf".toList = some (.inf true) := by decide +kernel
example : readX "nan".toList = some .nan := by decide +kernel
example : readX "na".toList = none := by decide +kernel

end Bdld
