import Verif.Props.TextRun
import Verif.Props.HeaderRoundTrip

/-
C94 and C114: the text of whole files is understood by `PlumedHeader.parse_file`.
-/

namespace Bdld
open Spec

/-- The header object of the writing actions. -/
def headerObject (fields : List String) (constants : List (String × String)) : PlHeader :=
  PlHeader.new (fields.map String.toList) (constants.map (fun c => (c.1.toList, c.2.toList))) []

theorem pyJoin_space (ls : List String) : (" ".intercalate ls).toList = pyJoin [' '] (ls.map String.toList) := by
  rw [String.toList_intercalate]
  show [' '].intercalate _ = _
  generalize ls.map String.toList = xs
  induction xs with
  | nil => rfl
  | cons a xs ih =>
    cases xs with
    | nil => simp [pyJoin, List.intercalate]
    | cons b xs =>
      rw [pyJoin, ← ih]
      simp [List.intercalate]

theorem pyJoin_newline (ls : List Txt) (h : ls ≠ []) : pyJoin ['\n'] ls ++ ['\n'] = ls.flatMap (fun l => l ++ ['\n']) := by
  induction ls with
  | nil => exact absurd rfl h
  | cons a ls ih =>
    cases ls with
    | nil => simp [pyJoin]
    | cons b ls =>
      rw [pyJoin, List.flatMap_cons, ← ih (by simp)]
      simp

/-- **C94.** The lines in `Headers.lean` are `str(PlumedHeader(fields, constants))`. -/
theorem headerText_repr (fields : List String) (constants : List (String × String)) :
    headerText (plumedHeader fields constants) = (headerObject fields constants).repr ++ ['\n'] := by
  rw [PlHeader.repr, pyJoin_newline _ (by simp), headerText, plumedHeader, List.flatMap_cons, List.flatMap_cons]
  congr 1
  · congr 1
    rw [String.toList_append, pyJoin_space]
    rfl
  · simp only [List.flatMap_map, headerObject, PlHeader.new]
    congr 1
    funext c
    simp only [PlHeader.setLine, String.toList_append, if_true]
    rfl

theorem mem_pyLines {c : Char} {l s : Txt} (hl : l ∈ pyLines s) (hc : c ∈ l) : c ∈ s := by
  induction s generalizing l with
  | nil => cases hl
  | cons d s ih =>
    rw [pyLines] at hl
    split at hl
    · rcases List.mem_cons.1 hl with rfl | hl
      · have : c = d := by simpa using hc
        simp [this]
      · exact List.mem_cons_of_mem _ (ih hl hc)
    · cases hs : pyLines s with
      | nil =>
        rw [hs] at hl
        have : l = [d] := by simpa using hl
        subst this
        have : c = d := by simpa using hc
        simp [this]
      | cons m ms =>
        rw [hs] at hl
        rcases List.mem_cons.1 hl with rfl | hl
        · rcases List.mem_cons.1 hc with rfl | hc
          · simp
          · exact List.mem_cons_of_mem _ (ih (hs ▸ List.mem_cons_self) hc)
        · exact List.mem_cons_of_mem _ (ih (hs ▸ List.mem_cons_of_mem _ hl) hc)

/-- Text without `#` has no header lines. -/
theorem noHeader_of_not_mem (body : Txt) (h : '#' ∉ body) : NoHeader "#!".toList body := by
  intro l hl hp
  exact h (mem_pyLines hl (hp.subset (by decide)))

/-- **C94.** A file that begins with the lines of a header of single words is understood, whatever follows without `#`. -/
theorem text_parse (fields : List String) (constants : List (String × String)) (hf : ∀ f ∈ fields, Word f.toList)
    (hc : ∀ c ∈ constants, Word c.1.toList ∧ Word c.2.toList) (hn : (constants.map Prod.fst).Nodup) (body : Txt) (hb : '#' ∉ body) :
    (PlHeader.new [] [] []).parse (headerText (plumedHeader fields constants) ++ body) [] = .ok (headerObject fields constants) := by
  have hh : PlainHeader (headerObject fields constants) := by
    refine ⟨(⟨by decide, by decide⟩ : Word "#!".toList), ?_, ?_, ?_⟩
    · intro f h
      obtain ⟨g, hg, rfl⟩ := List.mem_map.1 h
      exact hf g hg
    · intro c h
      obtain ⟨g, hg, rfl⟩ := List.mem_map.1 h
      exact hc g hg
    · have : (headerObject fields constants).constants.map Prod.fst = (constants.map Prod.fst).map String.toList := by
        simp [headerObject, PlHeader.new, List.map_map, Function.comp_def]
      rw [this]
      exact hn.map fun a b e => String.toList_inj.1 e
  have := header_roundtrip_partial (headerObject fields constants) (PlHeader.new [] [] []) hh rfl body (noHeader_of_not_mem body hb)
  rw [headerText_repr, List.append_assoc]
  exact this

/-! ### Files of a run -/

theorem word_repr (pre : String) (i : Nat) (h : Word pre.toList) : Word (pre ++ Nat.repr i).toList := by
  rw [String.toList_append, Nat.toList_repr]
  refine ⟨fun e => h.1 (List.append_eq_nil_iff.1 e).1, fun c hc => ?_⟩
  rcases List.mem_append.1 hc with hc | hc
  · exact h.2 c hc
  · have hd := digit_of_mem_toDigits i c hc
    unfold pySpace
    simp only [Char.isDigit, Bool.and_eq_true, decide_eq_true_eq] at hd
    have h1 : 48 ≤ c.toNat := hd.1
    have h2 : c.toNat ≤ 57 := hd.2
    simp only [Bool.or_eq_false_iff, Bool.and_eq_false_iff, decide_eq_false_iff_not, beq_eq_false_iff_ne]
    omega

theorem word_append (a b : String) (ha : Word a.toList) (hb : Word b.toList) : Word (a ++ b).toList := by
  rw [String.toList_append]
  refine ⟨fun e => ha.1 (List.append_eq_nil_iff.1 e).1, fun c hc => ?_⟩
  rcases List.mem_append.1 hc with hc | hc
  · exact ha.2 c hc
  · exact hb.2 c hc

theorem potFields_word (d : Nat) (fs : List String) (h : potFields d = .ok fs) : ∀ f ∈ fs, Word f.toList := by
  unfold potFields at h
  split at h <;> cases h <;> (intro f hf; fin_cases hf <;> exact ⟨by decide, by decide⟩)

theorem trajFields_word (fs : List String) (h : ∀ f ∈ fs, Word f.toList) (mom : Bool) (i : Nat) :
    ∀ f ∈ trajFields fs mom i, Word f.toList := by
  intro f hf
  unfold trajFields at hf
  simp only [List.mem_append, List.mem_singleton, List.mem_map] at hf
  rcases hf with (rfl | ⟨g, hg, rfl⟩) | hf
  · exact ⟨by decide, by decide⟩
  · exact word_repr _ i (word_append _ _ (word_append _ _ ⟨by decide, by decide⟩ (h g hg)) ⟨by decide, by decide⟩)
  · split at hf
    · obtain ⟨g, hg, rfl⟩ := List.mem_map.1 hf
      exact word_repr _ i (word_append _ _ (word_append _ _ ⟨by decide, by decide⟩ (h g hg)) ⟨by decide, by decide⟩)
    · cases hf

theorem distFields_word (k : Nat) : ∀ f ∈ distFields k, Word f.toList := by
  intro f hf
  obtain ⟨i, _, rfl⟩ := List.mem_map.1 hf
  exact word_repr _ i ⟨by decide, by decide⟩

theorem deltaFFields_word (k : Nat) : ∀ f ∈ deltaFFields k, Word f.toList := by
  intro f hf
  obtain ⟨i, _, rfl⟩ := List.mem_map.1 hf
  exact word_repr _ i ⟨by decide, by decide⟩

section
variable {F : Type} [Field F] [LinearOrder F] [FloorSemiring F]

theorem savetxt_noHash (w p : Nat) (rows : List (List (WithTop F))) : '#' ∉ savetxt w p rows := by
  intro h
  obtain ⟨r, _, h⟩ := List.mem_flatMap.1 h
  rcases List.mem_append.1 h with h | h
  · exact row_noSep w p r '#' (by decide) rfl (by decide) (by decide) (by decide) h
  · exact absurd h (by decide)

theorem gridLines_noHash (w p : Nat) (lines : List (GridLine (WithTop F))) (h : ∀ s, .header s ∉ lines) :
    '#' ∉ lines.flatMap (GridLine.text w p) := by
  intro h'
  obtain ⟨l, hl, h'⟩ := List.mem_flatMap.1 h'
  cases l with
  | header s => exact h s hl
  | row r =>
    rcases List.mem_append.1 h' with h' | h'
    · exact row_noSep w p r '#' (by decide) rfl (by decide) (by decide) (by decide) h'
    · exact absurd h' (by decide)
  | blank => exact absurd h' (show '#' ∉ ['\n'] by decide)

theorem flatMap_header (w p : Nat) (header : List String) :
    (header.map (GridLine.header (V := WithTop F))).flatMap (GridLine.text w p) = headerText header := by
  rw [List.flatMap_map]
  rfl

/-- **C94.** The header of a grid file in one dimension is understood. -/
theorem grid_header_one (w p : Nat) (x : List (WithTop F)) (f : List Nat → WithTop F) (nPoints : List Nat) (fields : List String)
    (constants : List (String × String)) (hf : ∀ f ∈ fields, Word f.toList)
    (hc : ∀ c ∈ constants, Word c.1.toList ∧ Word c.2.toList) (hn : (constants.map Prod.fst).Nodup) : ∃ lines,
      gridFile [x] (Nd.ofFn [x.length] f).flat nPoints (plumedHeader fields constants) = .ok (some lines) ∧
      (PlHeader.new [] [] []).parse (lines.flatMap (GridLine.text w p)) [] = .ok (headerObject fields constants) := by
  refine ⟨_, gridFile_one x f nPoints _, ?_⟩
  rw [List.flatMap_append, flatMap_header]
  exact text_parse fields constants hf hc hn _ (gridLines_noHash w p _ (mem_header_one x _))

/-- **C94.** The header of a grid file in two dimensions is understood. -/
theorem grid_header_two (w p : Nat) (x y : List (WithTop F)) (hx : x ≠ []) (hy : y ≠ []) (f : List Nat → WithTop F)
    (fields : List String) (constants : List (String × String)) (hf : ∀ f ∈ fields, Word f.toList)
    (hc : ∀ c ∈ constants, Word c.1.toList ∧ Word c.2.toList) (hn : (constants.map Prod.fst).Nodup) : ∃ lines,
      gridFile [x, y] (Nd.ofFn [x.length, y.length] f).flat [x.length, y.length] (plumedHeader fields constants) =
        .ok (some lines) ∧
      (PlHeader.new [] [] []).parse (lines.flatMap (GridLine.text w p)) [] = .ok (headerObject fields constants) := by
  refine ⟨_, gridFile_two x y hx hy f _, ?_⟩
  rw [List.flatMap_append, flatMap_header]
  exact text_parse fields constants hf hc hn _ (gridLines_noHash w p _ (mem_header_two x y _))

end

section
variable {R : Type} {w : World R} {file : Option (List Section)} {a : AnySim R} {config : Input ℝ} {n : Nat}
  {s0 : Sim a.d R}

/-- **C114.** The trajectory file of every walker can be read by `parse_file`: its fields are the names of the columns. -/
theorem trajectory_header (hr : FinishedRun w file a config n s0) (hops : w.bdOps.Lawful) (o : Dict (OptVal ℝ))
    (ho : config.trajectories = some o) (hf : hasFilename o = true) (width p : Nat) :
    ∃ fs x files, potFields a.d = .ok fs ∧ a.sim.traj = some x ∧ x.files = some files ∧ files.length = s0.particles.length ∧
      ∀ i rows, files[i]? = some rows →
        (PlHeader.new [] [] []).parse (trajText width p fs (flagOption o "momentum") i rows) [] =
          .ok (headerObject (trajFields fs (flagOption o "momentum") i) []) ∧
        ∀ row ∈ rows, row.length = (trajFields fs (flagOption o "momentum") i).length := by
  obtain ⟨fs, x, files, h1, h2, h3, h4, _⟩ := trajectory_text hr hops o ho hf width p
  obtain ⟨y, e1, e2⟩ := header_trajectory_partial hr hops o ho fs h1
  have := Option.some.inj (h2.symm.trans e1)
  subst this
  refine ⟨fs, x, files, h1, h2, h3, h4, fun i rows hi => ⟨?_, e2 files h3 i rows hi⟩⟩
  rw [trajText, initHeader, if_neg (by simp [trajFields])]
  exact text_parse _ [] (trajFields_word fs (potFields_word a.d fs h1) _ _) (by simp) (by simp) _ (savetxt_noHash _ _ _)

/-- **C114.** The statistics file can be read by `parse_file` if the constants are single words. -/
theorem stats_header (constants : List (String × String)) (hc : ∀ c ∈ constants, Word c.1.toList ∧ Word c.2.toList)
    (hn : (constants.map Prod.fst).Nodup) (out : List StatsOutput) :
    (PlHeader.new [] [] []).parse (statsText constants out) [] = .ok (headerObject statsFields constants) := by
  rw [statsText, initHeader, if_neg (by decide)]
  refine text_parse _ _ ?_ hc hn _ ?_
  · intro f hf
    fin_cases hf <;> exact ⟨by decide, by decide⟩
  · intro h
    obtain ⟨l, _, h⟩ := List.mem_flatMap.1 h
    cases l with
    | line v =>
      rcases List.mem_append.1 h with h | h
      · rcases mem_intercalate h with h | ⟨l, hl, h⟩
        · exact absurd h (by decide)
        · obtain ⟨k, _, rfl⟩ := List.mem_map.1 hl
          exact absurd (digit_of_mem_toDigits k _ h) (by decide)
      · exact absurd h (by decide)
    | report => cases h

/-- The text of a concrete file is understood. -/
example : (PlHeader.new [] [] []).parse
    ("#! FIELDS time pos_x.0\n" ++ "   0.005000000   -1.250000000\n").toList [] = .ok (headerObject ["time", "pos_x.0"] []) := by
  decide +kernel

end

end Bdld
