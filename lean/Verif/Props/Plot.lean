import Verif.Model.Plot
import Verif.Lemmas.Except
import Verif.Lemmas.Grid
import Verif.Props.Fes
import Mathlib.Data.List.TakeWhile

/-
Plots of the FES: when a plot can be made and saved, what it shows.
-/

namespace Bdld

open Spec

/-! ### Names of files -/

theorem takeWhile_append_all {α : Type} (p : α → Bool) (l m : List α) (h : ∀ x ∈ l, p x = true) :
    (l ++ m).takeWhile p = l ++ m.takeWhile p := by
  induction l with
  | nil => rfl
  | cons a l ih =>
    rw [List.cons_append, List.takeWhile_cons, if_pos (h a (by simp)), ih (fun x hx => h x (by simp [hx]))]
    rfl

theorem dropWhile_append_some {α : Type} (p : α → Bool) (l m : List α) (h : ∃ x ∈ l, p x = false) :
    (l ++ m).dropWhile p = l.dropWhile p ++ m := by
  induction l with
  | nil => obtain ⟨x, hx, _⟩ := h; cases hx
  | cons a l ih =>
    rw [List.cons_append, List.dropWhile_cons, List.dropWhile_cons]
    cases ha : p a with
    | false => simp
    | true =>
      simp only [if_true]
      refine ih ?_
      obtain ⟨x, hx, hp⟩ := h
      rcases List.mem_cons.1 hx with rfl | hx
      · rw [ha] at hp; cases hp
      · exact ⟨x, hx, hp⟩

/-- Appending characters without dots and slashes to a name makes them part of its extension, if there is one. -/
theorem fileExtension_append (p q : List Char) (hq : ∀ c ∈ q, c ≠ '/' ∧ c ≠ '.') :
    fileExtension (p ++ q) = if fileExtension p = [] then [] else fileExtension p ++ q := by
  unfold fileExtension
  have h1 : ((p ++ q).reverse.takeWhile (· ≠ '/')).reverse = (p.reverse.takeWhile (· ≠ '/')).reverse ++ q := by
    rw [List.reverse_append, takeWhile_append_all, List.reverse_append, List.reverse_reverse]
    intro x hx
    simpa using (hq x (List.mem_reverse.1 hx)).1
  rw [h1]
  generalize (p.reverse.takeWhile (· ≠ '/')).reverse = l
  by_cases hl : ∃ x ∈ l, decide (x = '.') = false
  · rw [dropWhile_append_some _ l q hl]
    generalize l.dropWhile (· = '.') = stem
    have hnq : '.' ∉ q := fun h => (hq _ h).2 rfl
    by_cases hs : '.' ∈ stem
    · simp only [List.mem_append, hs, true_or, if_true]
      rw [if_neg (by simp)]
      have h2 : (stem ++ q).reverse.takeWhile (· ≠ '.') = q.reverse ++ stem.reverse.takeWhile (· ≠ '.') := by
        rw [List.reverse_append, takeWhile_append_all]
        intro x hx
        simpa using (hq x (List.mem_reverse.1 hx)).2
      rw [h2]
      simp
    · simp [hs, hnq]
  · have hl' : ∀ x ∈ l, x = '.' := by
      intro x hx
      by_contra hne
      exact hl ⟨x, hx, by simpa using hne⟩
    have h2 : l.dropWhile (· = '.') = [] := List.dropWhile_eq_nil_iff.2 (fun x hx => by simpa using hl' x hx)
    have h3 : (l ++ q).dropWhile (· = '.') = q.dropWhile (· = '.') := by
      clear h1 h2 hl
      induction l with
      | nil => rfl
      | cons a l ih =>
        rw [List.cons_append, List.dropWhile_cons, if_pos (by simpa using hl' a (by simp)),
          ih (fun x hx => hl' x (by simp [hx]))]
    have h4 : q.dropWhile (· = '.') = q := by
      rw [List.dropWhile_eq_self_iff]
      intro hpos
      have := (hq _ (List.getElem_mem hpos)).2
      simpa using this
    rw [h3, h4, h2]
    have hnq : '.' ∉ q := fun h => (hq _ h).2 rfl
    simp [hnq]

theorem isDigit_plain (c : Char) (h : c.isDigit = true) : c ≠ '/' ∧ c ≠ '.' := by
  constructor
  · rintro rfl; exact absurd h (by decide)
  · rintro rfl; exact absurd h (by decide)

/-- The characters appended to the name by a step. -/
theorem stepFilename_toList (name : String) (t : Nat) :
    (stepFilename name t).toList = name.toList ++ '_' :: Nat.toDigits 10 t := by
  simp [stepFilename, Nat.repr]

theorem step_chars (t : Nat) : ∀ c ∈ '_' :: Nat.toDigits 10 t, c ≠ '/' ∧ c ≠ '.' := by
  intro c hc
  rcases List.mem_cons.1 hc with rfl | hc
  · decide
  · exact isDigit_plain c (Nat.isDigit_of_mem_toDigits (by norm_num) (by norm_num) hc)

/-- A name with the number of a step can be saved exactly if the name itself has no extension. -/
theorem saveable_step (formats : List String) (hf : ∀ f ∈ formats, '_' ∉ f.toList) (name : String) (t : Nat) :
    saveable formats (stepFilename name t) = true ↔ fileExtension name.toList = [] := by
  unfold saveable
  rw [stepFilename_toList, fileExtension_append _ _ (step_chars t)]
  by_cases h : fileExtension name.toList = []
  · simp [h]
  · simp only [h, if_false, iff_false, Bool.not_eq_true]
    obtain ⟨a, l, hl⟩ := List.exists_cons_of_ne_nil h
    rw [hl]
    simp only [List.cons_append, List.drop_succ_cons, List.drop_zero, Bool.or_eq_false_iff, decide_eq_false_iff_not,
      List.any_eq_false, decide_eq_true_eq]
    refine ⟨by simp, fun f hm he => hf f hm ?_⟩
    rw [he]
    have : '_'.toLower = '_' := by decide
    simp only [List.map_append, List.map_cons, this]
    simp

theorem saveable_plain (formats : List String) (name : String) (h : fileExtension name.toList = []) :
    saveable formats name = true := by
  unfold saveable
  rw [h]
  simp

theorem saveable_step_plain (formats : List String) (name : String) (t : Nat) (h : fileExtension name.toList = []) :
    saveable formats (stepFilename name t) = true := by
  refine saveable_plain _ _ ?_
  rw [stepFilename_toList, fileExtension_append _ _ (step_chars t), if_pos h]

/-! ### When plots work -/

/-- The options of the plots allow them: two limits if any, and names that can be saved unless somebody can be asked
for another one. -/
structure PlotWorks (c : PlotCfg) : Prop where
  domain : ∀ l, c.domain = some l → l.length = 2
  name : c.terminal = true ∨ (saveable c.formats (c.filename.getD "") = true ∧
    (c.stride.getD 0 ≠ 0 → ∀ t, saveable c.formats (stepFilename (c.filename.getD "") t) = true))

theorem twoLimits_total (l : List ℝ) (h : l.length = 2) : ∃ r, twoLimits l = .ok r := by
  match l, h with
  | [a, b], _ => exact ⟨_, rfl⟩

theorem plotFes_total (fes : Nd (WithTop ℝ)) (axes : List (List ℝ)) (ref : List ℝ) (domain : Option (List ℝ))
    (title : String) (hne : fes.flat ≠ []) (hfl : fes.flat.length = fes.shape.prod)
    (ha : axes.map List.length = fes.shape) (hr : ref.length = fes.shape.prod)
    (hd : ∀ l, domain = some l → l.length = 2) : ∃ g, plotFes fes axes ref domain title = .ok g := by
  unfold plotFes
  split
  · rename_i h; rw [h] at ha; cases ha
  · rename_i n x l h
    rw [h] at ha hfl hr
    obtain ⟨h1, h2⟩ := List.cons.inj ha
    simp only [List.prod_cons, List.prod_nil, mul_one] at hfl hr
    rw [if_neg (by omega)]
    cases hdom : domain with
    | none =>
      obtain ⟨a, l', hl⟩ := List.exists_cons_of_ne_nil hne
      rw [hl]
      exact ⟨_, rfl⟩
    | some l' =>
      obtain ⟨r, e⟩ := twoLimits_total l' (hd l' hdom)
      simp only [plotLimits, e]
      exact ⟨_, rfl⟩
  · rename_i h; rw [h] at ha; cases ha
  · cases hdom : domain with
    | none => exact ⟨_, rfl⟩
    | some l' =>
      obtain ⟨r, e⟩ := twoLimits_total l' (hd l' hdom)
      simp only [colourLimits, e]
      exact ⟨_, rfl⟩
  · exact ⟨_, rfl⟩

theorem fesPlot_total (c : PlotCfg) (hw : c.filename.getD "" = "" ∨ PlotWorks c) (step : Option Nat)
    (hs : truthyNat step = true → c.stride.getD 0 ≠ 0) (fes : Nd (WithTop ℝ)) (axes : List (List ℝ))
    (hne : fes.flat ≠ []) (hfl : fes.flat.length = fes.shape.prod)
    (ha : axes.map List.length = fes.shape) (hr : c.ref.length = fes.shape.prod) (pl : List PlotOut) :
    ∃ pl', fesPlot c step fes axes pl = .ok pl' := by
  unfold fesPlot
  by_cases h0 : c.filename.getD "" = ""
  · rw [if_pos h0]; exact ⟨_, rfl⟩
  · rw [if_neg h0]
    have hw := hw.resolve_left h0
    obtain ⟨g, hg⟩ := plotFes_total fes axes c.ref c.domain
      (if truthyNat step = true then stepFilename c.title (step.getD 0) else c.title) hne hfl ha hr hw.domain
    simp only [hg, ok_bind, pure_eq_ok]
    rcases hw.name with ht | ⟨h1, h2⟩
    · rw [ht]
      generalize (if truthyNat step = true then stepFilename (c.filename.getD "") (step.getD 0)
        else c.filename.getD "") = name
      cases saveable c.formats name <;> exact ⟨_, rfl⟩
    · have : saveable c.formats (if truthyNat step = true then stepFilename (c.filename.getD "") (step.getD 0)
          else c.filename.getD "") = true := by
        split
        · rename_i h; exact h2 (hs h) _
        · exact h1
      rw [if_pos this]
      exact ⟨_, rfl⟩

theorem fesPlotStride_total (c : PlotCfg) (hw : c.filename.getD "" = "" ∨ PlotWorks c) (step : Nat)
    (fes : Nd (WithTop ℝ)) (axes : List (List ℝ))
    (hne : fes.flat ≠ []) (hfl : fes.flat.length = fes.shape.prod)
    (ha : axes.map List.length = fes.shape) (hr : c.ref.length = fes.shape.prod) (pl : List PlotOut) :
    ∃ pl', fesPlotStride c step fes axes pl = .ok pl' := by
  unfold fesPlotStride
  split
  · rename_i h
    exact fesPlot_total c hw _ (fun _ => h.1) fes axes hne hfl ha hr pl
  · exact ⟨_, rfl⟩

/-! ### Sizes -/

theorem fesAxes_lengths (h : Histogram ℝ) : h.fesAxes.map List.length = h.shape := by
  unfold Histogram.fesAxes Histogram.pointRanges Histogram.shape Histogram.axes
  generalize h.bins = b
  induction b with
  | nil => rfl
  | cons e b ih =>
    simp only [List.map_cons, List.zipWith_cons_cons, length_linspace, List.map_map] at ih ⊢
    rw [ih]

theorem axes_lengths (h : Histogram ℝ) : h.axes.map List.length = h.shape := by
  unfold Histogram.shape Histogram.axes
  rw [List.map_map]
  refine List.map_congr_left (fun e _ => ?_)
  simp [binCenters]

theorem calculateReference_length {d : Nat} (p : Potential ℝ d) (pos : List (Fin d → ℝ)) (b : Bool) (r : List ℝ)
    (h : calculateReference p pos b = .ok r) : r.length = pos.length := by
  unfold calculateReference at h
  simp only [pure_eq_ok] at h
  split at h
  · obtain ⟨m, _, h⟩ := bind_ok h
    cases h
    simp
  · cases h
    simp

theorem fesReference_length {d : Nat} (p : Potential ℝ d) (h : Histogram ℝ) (r : List ℝ)
    (hr : fesReference p h = .ok r) : r.length = h.shape.prod := by
  obtain ⟨pts, hp, hr⟩ := bind_ok hr
  rw [calculateReference_length p _ _ _ hr, List.length_map, points_length _ _ hp, axes_lengths]

end Bdld
