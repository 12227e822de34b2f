import Verif.Model.Prompt

/-
C143: asking for the name of a plot.
-/

namespace Bdld

variable {formats : List String} {writable : String → Bool} {save : String → Except SaveErr Unit}

/-- An answer after which the user is asked again: a name with a known format that cannot be written, or a line that cannot
be read. -/
def Again (formats : List String) (writable : String → Bool) : Answer → Prop
  | .valueError => True
  | .text s => s ≠ "" ∧ saveable formats s = true ∧ writable s = false

/-- Answers that do not end the dialogue are skipped, with one question each. -/
theorem prompt_skip (hs : SaveContract formats writable save) (pre : List Answer)
    (hp : ∀ a ∈ pre, Again formats writable a) (r : List Answer) :
    (saveFigInteractive save (pre ++ r)).1 = (saveFigInteractive save r).1 ∧
      (saveFigInteractive save (pre ++ r)).2.2 = (saveFigInteractive save r).2.2 ∧
      (saveFigInteractive save (pre ++ r)).2.1.count .ask = pre.length + (saveFigInteractive save r).2.1.count .ask := by
  induction pre with
  | nil => simp
  | cons a pre ih =>
    obtain ⟨h1, h2, h3⟩ := ih (fun x hx => hp x (by simp [hx]))
    have ha := hp a (by simp)
    cases a with
    | valueError =>
      rw [List.cons_append, saveFigInteractive]
      refine ⟨h1, h2, ?_⟩
      simp only [List.count_cons, List.length_cons, h3]
      simp
      omega
    | text s =>
      have hsave : save s = .error .osError := by rw [hs s, if_pos ha.2.1, ha.2.2]; rfl
      rw [List.cons_append, saveFigInteractive, if_neg ha.1, hsave]
      refine ⟨h1, h2, ?_⟩
      simp only [List.count_cons, List.length_cons, h3]
      simp
      omega

/-- **C143.** The first answer that is empty, or a name that can be written, or has an unknown format ends the dialogue; in
the last case with an exception. -/
theorem prompt_first (hs : SaveContract formats writable save) (pre : List Answer)
    (hp : ∀ a ∈ pre, Again formats writable a) (s : String) (r : List Answer) :
    (s = "" → (saveFigInteractive save (pre ++ .text s :: r)).1 = .ok none) ∧
    (s ≠ "" → saveable formats s = true → writable s = true →
      (saveFigInteractive save (pre ++ .text s :: r)).1 = .ok (some s)) ∧
    (s ≠ "" → saveable formats s = false → (saveFigInteractive save (pre ++ .text s :: r)).1 = .error .valueError) := by
  rw [(prompt_skip hs pre hp _).1]
  refine ⟨?_, ?_, ?_⟩
  · rintro rfl
    rw [saveFigInteractive, if_pos rfl]
  · intro h1 h2 h3
    have hsave : save s = .ok () := by rw [hs s, if_pos h2, if_pos h3]
    rw [saveFigInteractive, if_neg h1, hsave]
  · intro h1 h2
    have hsave : save s = .error .valueError := by rw [hs s, h2]; rfl
    rw [saveFigInteractive, if_neg h1, hsave]

/-- Without an answer that ends the dialogue the end of the input does, with `EOFError`. -/
theorem prompt_eof (hs : SaveContract formats writable save) (pre : List Answer)
    (hp : ∀ a ∈ pre, Again formats writable a) : (saveFigInteractive save pre).1 = .error .eofError := by
  have := (prompt_skip hs pre hp []).1
  rw [List.append_nil] at this
  rw [this]
  rfl

/-- Every list of answers is of one of these forms. -/
theorem answers_split (formats : List String) (writable : String → Bool) (l : List Answer) :
    (∀ a ∈ l, Again formats writable a) ∨ ∃ pre s r, l = pre ++ .text s :: r ∧ (∀ a ∈ pre, Again formats writable a) ∧
      (s = "" ∨ (s ≠ "" ∧ saveable formats s = true ∧ writable s = true) ∨ (s ≠ "" ∧ saveable formats s = false)) := by
  induction l with
  | nil => exact .inl (by simp)
  | cons a l ih =>
    have step : Again formats writable a → (∀ x ∈ a :: l, Again formats writable x) ∨ ∃ pre s r,
        a :: l = pre ++ .text s :: r ∧ (∀ a ∈ pre, Again formats writable a) ∧
          (s = "" ∨ (s ≠ "" ∧ saveable formats s = true ∧ writable s = true) ∨ (s ≠ "" ∧ saveable formats s = false)) := by
      intro ha
      rcases ih with h | ⟨pre, s, r, rfl, h1, h2⟩
      · exact .inl (by simpa using ⟨ha, h⟩)
      · exact .inr ⟨a :: pre, s, r, rfl, by simpa using ⟨ha, h1⟩, h2⟩
    cases a with
    | valueError => exact step trivial
    | text s =>
      by_cases h0 : s = ""
      · exact .inr ⟨[], s, l, rfl, by simp, .inl h0⟩
      · cases h1 : saveable formats s with
        | false => exact .inr ⟨[], s, l, rfl, by simp, .inr (.inr ⟨h0, h1⟩)⟩
        | true =>
          cases h2 : writable s with
          | false => exact step ⟨h0, h1, h2⟩
          | true => exact .inr ⟨[], s, l, rfl, by simp, .inr (.inl ⟨h0, h1, h2⟩)⟩

/-- **C143.** If all names have known formats, and one of the answers is empty or can be written, then the dialogue ends
without exception: the figure was saved to one of the names, which can be written, or the answer was empty. -/
theorem prompt_partial (hs : SaveContract formats writable save) (l : List Answer)
    (hf : ∀ s, .text s ∈ l → s = "" ∨ saveable formats s = true)
    (hw : ∃ s, .text s ∈ l ∧ (s = "" ∨ writable s = true)) :
    ((saveFigInteractive save l).1 = .ok none ∧ .text "" ∈ l) ∨
      ∃ s, (saveFigInteractive save l).1 = .ok (some s) ∧ .text s ∈ l ∧ saveable formats s = true ∧ writable s = true := by
  rcases answers_split formats writable l with h | ⟨pre, s, r, rfl, h1, h2 | h2 | h2⟩
  · obtain ⟨s, hm, hw⟩ := hw
    have := h _ hm
    rcases hw with hw | hw
    · exact absurd hw this.1
    · rw [this.2.2] at hw; cases hw
  · subst h2
    exact .inl ⟨(prompt_first hs pre h1 "" r).1 rfl, by simp⟩
  · exact .inr ⟨s, (prompt_first hs pre h1 s r).2.1 h2.1 h2.2.1 h2.2.2, by simp, h2.2⟩
  · rcases hf s (by simp) with h | h
    · exact absurd h h2.1
    · rw [h2.2] at h; cases h

/-- **C143.** The figure is only saved to names with known formats that can be written. -/
theorem prompt_saved (hs : SaveContract formats writable save) (l : List Answer) (s : String)
    (h : (saveFigInteractive save l).1 = .ok (some s)) :
    .text s ∈ l ∧ s ≠ "" ∧ saveable formats s = true ∧ writable s = true := by
  rcases answers_split formats writable l with h0 | ⟨pre, x, r, rfl, h1, h2 | h2 | h2⟩
  · rw [prompt_eof hs l h0] at h; cases h
  · subst h2
    rw [(prompt_first hs pre h1 "" r).1 rfl] at h; cases h
  · rw [(prompt_first hs pre h1 x r).2.1 h2.1 h2.2.1 h2.2.2] at h
    cases h
    exact ⟨by simp, h2⟩
  · rw [(prompt_first hs pre h1 x r).2.2 h2.1 h2.2] at h; cases h

/-- The end of a plot: nothing is asked if the name can be written; a name with a known format that cannot be written ends
the program, one with an unknown format starts the dialogue. -/
theorem savePlot_spec (hs : SaveContract formats writable save) (name : String) (l : List Answer) :
    (saveable formats name = true → writable name = true → savePlot save name l = (.ok (some name), [], l)) ∧
    (saveable formats name = true → writable name = false → savePlot save name l = (.error .osError, [], l)) ∧
    (saveable formats name = false → (savePlot save name l).1 = (saveFigInteractive save l).1) := by
  unfold savePlot
  rw [hs name]
  refine ⟨fun h1 h2 => ?_, fun h1 h2 => ?_, fun h1 => ?_⟩
  · rw [if_pos h1, if_pos h2]
  · rw [if_pos h1, h2]; rfl
  · rw [h1]; rfl

/-- The model of whole runs (`Model/Plot.lean`) is this one without answers or with a dialogue that ends well: the run ends
with `EOFError` if there is no terminal, and goes on if the name is good or was asked for. -/
theorem fesPlot_prompt (c : PlotCfg) (step : Option Nat) (fes : Nd (WithTop ℝ)) (axes : List (List ℝ)) (plots : List PlotOut)
    (name : String) (hn : c.filename = some name) (hne : name ≠ "") (fig : Figure)
    (hs : SaveContract c.formats writable save)
    (hfig : plotFes fes axes c.ref c.domain (if truthyNat step then stepFilename c.title (step.getD 0) else c.title) = .ok fig)
    (l : List Answer) :
    let file := if truthyNat step then stepFilename name (step.getD 0) else name
    ((savePlot save file l).1 = .ok (some file) → saveable c.formats file = true →
      fesPlot c step fes axes plots = .ok (plots ++ [⟨file, fig, false⟩])) ∧
    (c.terminal = false → saveable c.formats file = false →
      fesPlot c step fes axes plots = .error .eofError ∧ (savePlot save file []).1 = .error .eofError) ∧
    (c.terminal = true → saveable c.formats file = false →
      fesPlot c step fes axes plots = .ok (plots ++ [⟨file, fig, true⟩]) ∧
      (savePlot save file l).1 = (saveFigInteractive save l).1) := by
  intro file
  have hx : fesPlot c step fes axes plots = if saveable c.formats file then .ok (plots ++ [⟨file, fig, false⟩])
      else if c.terminal then .ok (plots ++ [⟨file, fig, true⟩]) else .error .eofError := by
    unfold fesPlot
    rw [hn, Option.getD_some, if_neg hne]
    simp only [hfig]
    change (if saveable c.formats file = true then pure (plots ++ [⟨file, fig, false⟩]) else
      if c.terminal = true then pure (plots ++ [⟨file, fig, true⟩]) else throw PyErr.eofError) = _
    by_cases h1 : saveable c.formats file = true
    · rw [if_pos h1, if_pos h1]; rfl
    · rw [if_neg h1, if_neg h1]
      by_cases h2 : c.terminal = true
      · rw [if_pos h2, if_pos h2]; rfl
      · rw [if_neg h2, if_neg h2]; rfl
  refine ⟨fun _ h => ?_, fun h1 h2 => ⟨?_, ?_⟩, fun h1 h2 => ⟨?_, (savePlot_spec hs file l).2.2 h2⟩⟩
  · rw [hx, if_pos h]
  · rw [hx, h2, h1]; rfl
  · rw [(savePlot_spec hs file []).2.2 h2]
    exact prompt_eof hs [] (by simp)
  · rw [hx, h2, h1]; rfl

/-! ### The property is false -/

/-- A `savefig` that can write everything outside of the directory "no". -/
def demoSave (s : String) : Except SaveErr Unit :=
  if saveable ["png", "pdf"] s then (if "no/".toList.isPrefixOf s.toList then .error .osError else .ok ())
  else .error .valueError

theorem demoSave_contract : SaveContract ["png", "pdf"] (fun s => !"no/".toList.isPrefixOf s.toList) demoSave := by
  intro s
  unfold demoSave
  cases saveable ["png", "pdf"] s
  · rfl
  · rw [if_pos rfl, if_pos rfl]
    by_cases h : "no/".toList.isPrefixOf s.toList = true
    · rw [if_pos h, if_neg (by simp only [h]; decide)]
    · rw [if_neg h, if_pos (by simp only [Bool.not_eq_true] at h; simp only [h]; rfl)]

/-- **C143.** A second name with an unknown format is not asked for again but ends the program, although the next answer
would be good. -/
theorem prompt_false : (savePlot demoSave "fes.png_100" [.text "fes.jpx", .text "fes.png"]).1 = .error .valueError := by
  decide +kernel

/-- **C143.** So does a name in a directory that does not exist, if it is the one of the input file. -/
theorem savePlot_false : (savePlot demoSave "no/fes" [.text "fes.png"]).1 = .error .osError := by
  decide +kernel

example : savePlot demoSave "fes.png_100" [.text "no/fes.png", .valueError, .text "fes_100.png", .text "x"] =
    (.ok (some "fes_100.png"),
      [.message .valueError, .ask, .message .osError, .ask, .message .valueError, .ask], [.text "x"]) := by
  decide +kernel

example : (savePlot demoSave "fes.png_100" [.text "no/fes.png", .text ""]).1 = .ok none := by decide +kernel

end Bdld
