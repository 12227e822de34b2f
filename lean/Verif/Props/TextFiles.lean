import Verif.Props.Text
import Verif.Props.Headers
import Verif.Props.MainGridFiles

/-
C113 and C114: the text of the files of a run.
-/

namespace Bdld
open Spec

/-! ### Headers -/

theorem newline_repr (n : Nat) : '\n' ∉ (Nat.repr n).toList := by
  rw [Nat.toList_repr]
  intro h
  exact absurd (digit_of_mem_toDigits n _ h) (by decide)

theorem newline_intercalate (ls : List String) (h : ∀ l ∈ ls, '\n' ∉ l.toList) : '\n' ∉ (" ".intercalate ls).toList := by
  rw [String.toList_intercalate]
  intro h'
  rcases mem_intercalate h' with h' | ⟨l, hl, h'⟩
  · cases h'
  · obtain ⟨s, hs, rfl⟩ := List.mem_map.1 hl
    exact h s hs h'

/-- The lines of a header are comments. -/
theorem header_comments (fields : List String) (constants : List (String × String)) (hf : ∀ f ∈ fields, '\n' ∉ f.toList)
    (hc : ∀ c ∈ constants, '\n' ∉ c.1.toList ∧ '\n' ∉ c.2.toList) :
    ∀ l ∈ plumedHeader fields constants, CommentLine l.toList := by
  intro l hl
  rcases List.mem_cons.1 hl with rfl | hl
  · refine ⟨?_, ?_⟩
    · rw [String.toList_append]
      rfl
    · rw [String.toList_append, List.mem_append, not_or]
      exact ⟨by decide, newline_intercalate fields hf⟩
  · obtain ⟨c, hc', rfl⟩ := List.mem_map.1 hl
    refine ⟨?_, ?_⟩
    · rw [String.toList_append, String.toList_append, String.toList_append]
      rfl
    · rw [String.toList_append, String.toList_append, String.toList_append]
      simp only [List.mem_append, not_or]
      exact ⟨⟨⟨by decide, (hc c hc').1⟩, by decide⟩, (hc c hc').2⟩

theorem potFields_newline (d : Nat) (fs : List String) (h : potFields d = .ok fs) : ∀ f ∈ fs, '\n' ∉ f.toList := by
  unfold potFields at h
  split at h <;> cases h <;> decide

theorem trajFields_newline (fs : List String) (h : ∀ f ∈ fs, '\n' ∉ f.toList) (mom : Bool) (i : Nat) :
    ∀ f ∈ trajFields fs mom i, '\n' ∉ f.toList := by
  intro f hf
  unfold trajFields at hf
  simp only [List.mem_append, List.mem_singleton, List.mem_map] at hf
  rcases hf with (rfl | ⟨g, hg, rfl⟩) | hf
  · decide
  · simp only [String.toList_append, List.mem_append, not_or]
    exact ⟨⟨⟨by decide, h g hg⟩, by decide⟩, newline_repr i⟩
  · split at hf
    · obtain ⟨g, hg, rfl⟩ := List.mem_map.1 hf
      simp only [String.toList_append, List.mem_append, not_or]
      exact ⟨⟨⟨by decide, h g hg⟩, by decide⟩, newline_repr i⟩
    · cases hf

/-! ### Tables -/

section
variable {F : Type} [Field F] [LinearOrder F] [FloorSemiring F]

/-- Blocks appended one after the other give the same text as all rows at once. -/
theorem savetxt_append (w p : Nat) (a b : List (List (WithTop F))) : savetxt w p (a ++ b) = savetxt w p a ++ savetxt w p b :=
  List.flatMap_append

/-- **C113.** A file with header and rows. -/
theorem readTable_file (w p : Nat) (header : List String) (hh : ∀ l ∈ header, CommentLine l.toList)
    (rows : List (List (WithTop F))) (hr : ∀ r ∈ rows, r ≠ []) :
    readTable (headerText header ++ savetxt w p rows) = some (rows.map (fun r => r.map (printedValue p))) := by
  have := readTable_lines w p (header.map (fun l => TextLine.comment l.toList) ++ rows.map TextLine.row) (by
    intro l hl
    rcases List.mem_append.1 hl with hl | hl
    · obtain ⟨s, hs, rfl⟩ := List.mem_map.1 hl
      exact hh s hs
    · obtain ⟨r, hr', rfl⟩ := List.mem_map.1 hl
      exact hr r hr')
  rw [List.flatMap_append, List.flatMap_map, List.flatMap_map, List.filterMap_append, List.filterMap_map, List.filterMap_map] at this
  have e1 : header.filterMap ((TextLine.values (F := F)) ∘ fun l => TextLine.comment l.toList) = [] := by
    rw [List.filterMap_eq_nil_iff]
    intro l _
    rfl
  have e2 : rows.filterMap ((TextLine.values (F := F)) ∘ TextLine.row) = rows := by
    rw [show ((TextLine.values (F := F)) ∘ TextLine.row) = some from rfl, List.filterMap_some]
  rw [e1, e2, List.nil_append] at this
  exact this

/-- **C113.** A file with the lines of a grid. -/
theorem readTable_grid (w p : Nat) (lines : List (GridLine (WithTop F))) (hh : ∀ s, .header s ∈ lines → CommentLine s.toList)
    (hr : ∀ v, .row v ∈ lines → v ≠ []) :
    readTable (lines.flatMap (GridLine.text w p)) = some ((rowsOf lines).map (fun r => r.map (printedValue p))) := by
  let g : GridLine (WithTop F) → TextLine F := fun l => match l with
    | .header s => .comment s.toList
    | .row v => .row v
    | .blank => .blank
  have := readTable_lines w p (lines.map g) (by
    intro l hl
    obtain ⟨x, hx, rfl⟩ := List.mem_map.1 hl
    cases x with
    | header s => exact hh s hx
    | row v => exact hr v hx
    | blank => trivial)
  rw [List.flatMap_map, List.filterMap_map] at this
  have e1 : (fun l => TextLine.text w p (g l) ++ ['\n']) = GridLine.text (F := F) w p := by
    funext l
    cases l <;> rfl
  have e2 : lines.filterMap ((TextLine.values (F := F)) ∘ g) = rowsOf lines := by
    unfold rowsOf
    congr 1
    funext l
    cases l <;> rfl
  rw [e1, e2] at this
  exact this

end

/-! ### Trajectories -/

section
variable {R : Type} {w : World R} {file : Option (List Section)} {a : AnySim R} {config : Input ℝ} {n : Nat}
  {s0 : Sim a.d R}

/-- A run that writes trajectories has at most three dimensions. -/
theorem trajectories_fields (hr : FinishedRun w file a config n s0) (o : Dict (OptVal ℝ)) (ho : config.trajectories = some o)
    (hf : hasFilename o = true) : ∃ fs, potFields a.d = .ok fs := by
  obtain ⟨_, _, _, _, _, _, h2, _⟩ := setupOptional_parts w config _ _ _ _ rfl rfl hr.optional
  rw [ho] at h2
  obtain ⟨b, hb, _, _⟩ := h2
  unfold setupTrajectories at hb
  obtain ⟨_, _, hb⟩ := bind_ok hb
  obtain ⟨_, _, hb⟩ := bind_ok hb
  obtain ⟨v, hv, hb⟩ := bind_ok hb
  obtain ⟨f, hf', hb⟩ := bind_ok hb
  obtain ⟨_, _, hb⟩ := bind_ok hb
  obtain ⟨_, _, hb⟩ := bind_ok hb
  obtain ⟨_, _, hb⟩ := bind_ok hb
  obtain ⟨_, _, hb⟩ := bind_ok hb
  obtain ⟨u, hu, hb⟩ := bind_ok hb
  have e := filenameOption o v f hv hf'
  rw [hf] at e
  rw [checkFields, if_pos e] at hu
  obtain ⟨fs, hfs, _⟩ := bind_ok hu
  exact ⟨fs, hfs⟩

/-- **C114.** Reading the trajectory file of a walker gives one row for every multiple of the stride, with time, position and momentum
up to half of the last printed digit. -/
theorem trajectory_text (hr : FinishedRun w file a config n s0) (hops : w.bdOps.Lawful) (o : Dict (OptVal ℝ))
    (ho : config.trajectories = some o) (hf : hasFilename o = true) (width p : Nat) :
    ∃ fs x files, potFields a.d = .ok fs ∧ a.sim.traj = some x ∧ x.files = some files ∧ files.length = s0.particles.length ∧
      ∀ i rows, files[i]? = some rows → ∃ table,
        readTable (trajText width p fs (flagOption o "momentum") i rows) = some table ∧
        table.map List.head? = (sampledSteps (natOption o "stride" 1) 0 n).map (fun t : Nat =>
          some (printedValue p (((t : ℝ) * a.cfg.ld.dt : ℝ) : WithTop ℝ))) ∧
        PrintedTable p table ((sampledSteps (natOption o "stride" 1) 0 n).map (fun t =>
          finiteRow (trajRow (fun k : Nat => (k : ℝ) * a.cfg.ld.dt) hr.snaps (flagOption o "momentum") i t))) := by
  obtain ⟨fs, hfs⟩ := trajectories_fields hr o ho hf
  obtain ⟨x, hx, hfiles⟩ := main_trajectories hr hops o ho
  rw [if_pos hf] at hfiles
  refine ⟨fs, x, _, hfs, hx, hfiles, by simp, fun i rows hi => ?_⟩
  rw [List.getElem?_map] at hi
  obtain ⟨j, hj, rfl⟩ := Option.map_eq_some_iff.1 hi
  have hji : j = i := by
    by_cases hlt : i < s0.particles.length
    · rw [List.getElem?_range hlt] at hj
      exact (Option.some.inj hj).symm
    · rw [List.getElem?_eq_none (by simpa using hlt)] at hj
      cases hj
  subst hji
  rw [trajText, readTable_file]
  · refine ⟨_, rfl, ?_, ?_⟩
    · rw [List.map_map, List.map_map, List.map_map]
      rfl
    have := printed_table p ((sampledSteps (natOption o "stride" 1) 0 n).map (fun t =>
      finiteRow (trajRow (fun k : Nat => (k : ℝ) * a.cfg.ld.dt) hr.snaps (flagOption o "momentum") j t)))
    rw [List.map_map (f := trajRow _ _ _ _)]
    exact this
  · intro l hl
    rw [initHeader, if_neg (by simp [trajFields])] at hl
    exact header_comments _ _ (trajFields_newline fs (potFields_newline a.d fs hfs) _ _) (by simp) l hl
  · intro r hr'
    simp only [List.map_map, List.mem_map] at hr'
    obtain ⟨t, _, rfl⟩ := hr'
    simp [trajRow, finiteRow]

end

end Bdld
