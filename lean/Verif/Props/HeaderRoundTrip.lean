import Verif.Model.Header
import Mathlib.Data.List.Basic
import Mathlib.Data.Int.Basic
import Mathlib.Data.List.DropRight
import Mathlib.Data.List.TakeWhile
import Mathlib.Tactic.FinCases
import Verif.Lemmas.Except

/-
C94: headers can be read back. C95: ordinal numbers in messages.
-/

namespace Bdld

namespace Spec

/-- A non-empty text without white space. -/
def Word (w : Txt) : Prop := w ≠ [] ∧ ∀ c ∈ w, pySpace c = false

/-- Names and values of a header that consist of single words. -/
structure PlainHeader (h : PlHeader) : Prop where
  delim : Word h.delim
  fields : ∀ f ∈ h.fields, Word f
  constants : ∀ c ∈ h.constants, Word c.1 ∧ Word c.2
  names : (h.constants.map Prod.fst).Nodup

/-- No line of a text starts with the delimiter. -/
def NoHeader (delim body : Txt) : Prop := ∀ l ∈ pyLines body, ¬ delim <+: l

/-- Letters after an ordinal number: 11th, 12th and 13th (also as the end of larger numbers) are irregular, otherwise
the last digit decides. -/
def ordinalSuffix (n : Nat) : String :=
  if n / 10 % 10 = 1 then "th"
  else if n % 10 = 1 then "st" else if n % 10 = 2 then "nd" else if n % 10 = 3 then "rd" else "th"

end Spec

open Spec

/-! ### Text functions -/

theorem pyWordsAux_spaces (acc s ws : Txt) (h : ∀ c ∈ ws, pySpace c = true) :
    pyWordsAux acc (s ++ ws) = pyWordsAux acc s := by
  induction s generalizing acc with
  | nil =>
    simp only [List.nil_append]
    induction ws generalizing acc with
    | nil => rfl
    | cons c ws ih =>
      have hc := h c (by simp)
      have e : pyWordsAux acc (c :: ws) = if acc = [] then pyWordsAux [] ws else acc.reverse :: pyWordsAux [] ws := by
        rw [pyWordsAux.eq_2, if_pos hc]
      rw [e, ih (fun c hc => h c (by simp [hc])) []]
      by_cases ha : acc = [] <;> simp [ha, pyWordsAux]
  | cons c s ih =>
    simp only [List.cons_append, pyWordsAux, ih]

theorem pyWordsAux_word (acc w s : Txt) (hw : ∀ c ∈ w, pySpace c = false) (hne : acc ≠ [] ∨ w ≠ []) :
    pyWordsAux acc (w ++ ' ' :: s) = (acc.reverse ++ w) :: pyWords s := by
  induction w generalizing acc with
  | nil =>
    have ha : acc ≠ [] := by simpa using hne
    have : pySpace ' ' = true := by decide
    simp [pyWordsAux, this, ha, pyWords]
  | cons c w ih =>
    have hc := hw c (by simp)
    rw [List.cons_append, pyWordsAux, if_neg (by simp [hc]), ih (c :: acc) (fun c hc => hw c (by simp [hc])) (by simp)]
    simp

theorem pyWordsAux_last (acc w : Txt) (hw : ∀ c ∈ w, pySpace c = false) (hne : acc ≠ [] ∨ w ≠ []) :
    pyWordsAux acc w = [acc.reverse ++ w] := by
  induction w generalizing acc with
  | nil =>
    have ha : acc ≠ [] := by simpa using hne
    simp [pyWordsAux, ha]
  | cons c w ih =>
    have hc := hw c (by simp)
    rw [pyWordsAux, if_neg (by simp [hc]), ih (c :: acc) (fun c hc => hw c (by simp [hc])) (by simp)]
    simp

theorem pyWords_cons (w s : Txt) (hw : Word w) : pyWords (w ++ ' ' :: s) = w :: pyWords s := by
  have := pyWordsAux_word [] w s hw.2 (Or.inr hw.1)
  simpa [pyWords] using this

theorem pyWords_word (w : Txt) (hw : Word w) : pyWords w = [w] := by
  have := pyWordsAux_last [] w hw.2 (Or.inr hw.1)
  simpa [pyWords] using this

theorem pyWords_join (ws : List Txt) (h : ∀ w ∈ ws, Word w) : pyWords (pyJoin [' '] ws) = ws := by
  induction ws with
  | nil => rfl
  | cons a ws ih =>
    cases ws with
    | nil => exact pyWords_word a (h a (by simp))
    | cons b ws =>
      rw [pyJoin, List.append_assoc, List.singleton_append, pyWords_cons a _ (h a (by simp)),
        ih (fun w hw => h w (by simp [List.mem_cons.1 hw]))]

/-- The text without its trailing white space, and the white space. -/
theorem pyRstrip_append (p : Char → Bool) (s : Txt) :
    ∃ ws, s = pyRstrip p s ++ ws ∧ ∀ c ∈ ws, p c = true := by
  refine ⟨(s.reverse.takeWhile p).reverse, ?_, ?_⟩
  · rw [pyRstrip, ← List.reverse_append, List.takeWhile_append_dropWhile, List.reverse_reverse]
  · intro c hc
    rw [List.mem_reverse] at hc
    exact List.mem_takeWhile_imp hc

theorem pyWords_rstrip (s : Txt) : pyWords (pyRstrip pySpace s) = pyWords s := by
  obtain ⟨ws, h, hw⟩ := pyRstrip_append pySpace s
  conv_rhs => rw [h]
  exact (pyWordsAux_spaces [] _ ws hw).symm

/-- A prefix that does not end in white space is kept. -/
theorem prefix_pyRstrip (p : Char → Bool) (a r : Txt) (c : Char) (hc : p c = false) :
    (a ++ [c]) <+: pyRstrip p (a ++ [c] ++ r) := by
  have : pyRstrip p (a ++ [c] ++ r) = a ++ [c] ++ pyRstrip p r := by
    rw [pyRstrip, List.reverse_append, List.dropWhile_append]
    split
    · rename_i h
      rw [List.isEmpty_iff] at h
      simp [pyRstrip, h, hc]
    · simp [pyRstrip]
  rw [this]
  exact List.prefix_append _ _

theorem pyLines_line (l s : Txt) (h : '\n' ∉ l) : pyLines (l ++ '\n' :: s) = (l ++ ['\n']) :: pyLines s := by
  induction l with
  | nil => simp [pyLines]
  | cons c l ih =>
    have hc : c ≠ '\n' := fun e => h (by simp [e])
    have hl : '\n' ∉ l := fun e => h (by simp [e])
    rw [List.cons_append, pyLines, if_neg hc, ih hl]
    rfl

theorem pyLines_join (ls : List Txt) (s : Txt) (hne : ls ≠ []) (h : ∀ l ∈ ls, '\n' ∉ l) :
    pyLines (pyJoin ['\n'] ls ++ '\n' :: s) = ls.map (· ++ ['\n']) ++ pyLines s := by
  induction ls with
  | nil => exact absurd rfl hne
  | cons a ls ih =>
    cases ls with
    | nil => simpa [pyJoin] using pyLines_line a s (h a (by simp))
    | cons b ls =>
      rw [pyJoin, List.append_assoc, List.append_assoc, List.singleton_append,
        pyLines_line a _ (h a (by simp)), ih (by simp) (fun l hl => h l (by simp [List.mem_cons.1 hl]))]
      rfl

theorem dropWhile_delim (delim s : Txt) (hd : ' ' ∉ delim) :
    pyLstrip (fun c => decide (c ∈ delim)) (delim ++ ' ' :: s) = ' ' :: s := by
  have key : ∀ a : Txt, (∀ c ∈ a, c ∈ delim) →
      (a ++ ' ' :: s).dropWhile (fun c => decide (c ∈ delim)) = ' ' :: s := by
    intro a ha
    induction a with
    | nil => simp [hd]
    | cons c a ih => simp [ha c (by simp), ih (fun c hc => ha c (by simp [hc]))]
  exact key delim (fun _ h => h)

theorem pyRstrip_newline (s : Txt) (h : '\n' ∉ s) : pyRstrip (· = '\n') (s ++ ['\n']) = s := by
  have : pyRstrip (· = '\n') s = s := by
    rw [pyRstrip, List.dropWhile_eq_self_iff.2, List.reverse_reverse]
    intro hl
    have hm := List.getElem_mem hl
    rw [List.mem_reverse] at hm
    simp only [decide_eq_true_eq]
    intro e
    exact h (e ▸ hm)
  rw [pyRstrip, List.reverse_append]
  simpa [pyRstrip] using this

theorem space_of_newline : pySpace '\n' = true := by decide

theorem Spec.Word.no_newline {w : Txt} (h : Word w) : '\n' ∉ w := fun e => by
  have := h.2 _ e
  rw [space_of_newline] at this
  cases this

theorem Spec.Word.no_space {w : Txt} (h : Word w) : ' ' ∉ w := fun e => by
  have := h.2 _ e
  rw [show pySpace ' ' = true by decide] at this
  cases this

theorem pyJoin_mem (sep : Txt) (ws : List Txt) (c : Char) (h : c ∈ pyJoin sep ws) : c ∈ sep ∨ ∃ w ∈ ws, c ∈ w := by
  induction ws with
  | nil => simp [pyJoin] at h
  | cons a ws ih =>
    cases ws with
    | nil => exact Or.inr ⟨a, by simp, by simpa [pyJoin] using h⟩
    | cons b ws =>
      simp only [pyJoin, List.append_assoc, List.mem_append] at h
      rcases h with h | h | h
      · exact Or.inr ⟨a, by simp, h⟩
      · exact Or.inl h
      · rcases ih h with h | ⟨w, hw, hc⟩
        · exact Or.inl h
        · exact Or.inr ⟨w, by simp [List.mem_cons.1 hw], hc⟩

/-- A header line `delim key rest` without the delimiter. -/
theorem cleanLine_eq (delim key rest : Txt) (hd : Word delim) (c : Char) (hk : key.head? = some c)
    (hc : pySpace c = false) (hkn : '\n' ∉ key) (hr : '\n' ∉ rest) :
    cleanLine delim (delim ++ ' ' :: (key ++ rest) ++ ['\n']) = pyRstrip pySpace (key ++ rest) := by
  have e : delim ++ ' ' :: (key ++ rest) ++ ['\n'] = delim ++ ' ' :: (key ++ rest ++ ['\n']) := by simp
  rw [cleanLine, e, dropWhile_delim _ _ hd.no_space]
  have e2 : (' ' :: (key ++ rest ++ ['\n']) : Txt) = (' ' :: (key ++ rest)) ++ ['\n'] := by simp
  rw [e2, pyRstrip_newline]
  · cases key with
    | nil => simp at hk
    | cons d key =>
      simp only [List.head?_cons, Option.some.injEq] at hk
      subst hk
      simp [pyLstrip, show pySpace ' ' = true by decide, hc]
  · simp only [List.mem_cons, List.mem_append, not_or]
    exact ⟨by decide, hkn, hr⟩

theorem prefix_isPrefixOf {a b : Txt} (h : a <+: b) : a.isPrefixOf b = true := List.isPrefixOf_iff_prefix.2 h

theorem header_line_prefix (delim key rest : Txt) : delim <+: delim ++ ' ' :: (key ++ rest) ++ ['\n'] := by
  rw [List.append_assoc]
  exact List.prefix_append _ _

theorem dictSet_new (d : List (Txt × Txt)) (k v : Txt) (h : k ∉ d.map Prod.fst) : dictSet d k v = d ++ [(k, v)] := by
  rw [dictSet, if_neg]
  simp only [List.any_eq_true, decide_eq_true_eq, not_exists, not_and]
  intro e he hk
  exact h (List.mem_map.2 ⟨e, he, hk⟩)

theorem foldl_dictSet (d cs : List (Txt × Txt)) (h : ((d ++ cs).map Prod.fst).Nodup) :
    cs.foldl (fun d c => dictSet d c.1 c.2) d = d ++ cs := by
  induction cs generalizing d with
  | nil => simp
  | cons c cs ih =>
    have hc : c.1 ∉ d.map Prod.fst := by
      intro hm
      rw [List.map_append, List.nodup_append] at h
      exact h.2.2 _ hm _ (by simp) rfl
    rw [List.foldl_cons, dictSet_new _ _ _ hc, ih (d ++ [(c.1, c.2)]) (by simpa using h)]
    simp

/-! ### Round trip -/

theorem parseConstant_setLine (h : PlHeader) (hh : PlainHeader h) (d : List (Txt × Txt)) (c : Txt × Txt)
    (hc : c ∈ h.constants) :
    parseConstant d (cleanLine h.delim (h.setLine c ++ ['\n'])) = .ok (dictSet d c.1 c.2) := by
  obtain ⟨w1, w2⟩ := hh.constants c hc
  have e : h.setLine c ++ ['\n'] = h.delim ++ ' ' :: ("SET".toList ++ (' ' :: (c.1 ++ ' ' :: c.2))) ++ ['\n'] := by
    simp [PlHeader.setLine]
  have hn : '\n' ∉ (' ' :: (c.1 ++ ' ' :: c.2) : Txt) := by
    simp only [List.mem_cons, List.mem_append, not_or]
    exact ⟨by decide, w1.no_newline, by decide, w2.no_newline⟩
  rw [e, cleanLine_eq _ _ _ hh.delim 'S' rfl (by decide) (by decide) hn]
  have hp : "SET".toList <+: pyRstrip pySpace ("SET".toList ++ (' ' :: (c.1 ++ ' ' :: c.2))) :=
    prefix_pyRstrip pySpace ['S', 'E'] (' ' :: (c.1 ++ ' ' :: c.2)) 'T' (by decide)
  rw [parseConstant, if_pos (prefix_isPrefixOf hp), pyWords_rstrip,
    pyWords_cons _ _ ⟨by decide, by decide⟩, pyWords_cons _ _ w1, pyWords_word _ w2]
  rfl

theorem parse_fieldLine (h : PlHeader) (hh : PlainHeader h) :
    "FIELDS".toList.isPrefixOf (cleanLine h.delim (h.fieldLine ++ ['\n'])) = true ∧
      (pyWords (cleanLine h.delim (h.fieldLine ++ ['\n']))).drop 1 = h.fields := by
  have e : h.fieldLine ++ ['\n'] = h.delim ++ ' ' :: ("FIELDS".toList ++ (' ' :: pyJoin [' '] h.fields)) ++ ['\n'] := by
    simp [PlHeader.fieldLine]
  have hn : '\n' ∉ (' ' :: pyJoin [' '] h.fields : Txt) := by
    intro hm
    rcases List.mem_cons.1 hm with hm | hm
    · exact absurd hm (by decide)
    · rcases pyJoin_mem _ _ _ hm with hm | ⟨w, hw, hm⟩
      · exact absurd hm (by decide)
      · exact (hh.fields w hw).no_newline hm
  rw [e, cleanLine_eq _ _ _ hh.delim 'F' rfl (by decide) (by decide) hn]
  refine ⟨prefix_isPrefixOf (prefix_pyRstrip pySpace "FIELD".toList (' ' :: pyJoin [' '] h.fields) 'S' (by decide)), ?_⟩
  rw [pyWords_rstrip, pyWords_cons _ _ ⟨by decide, by decide⟩, pyWords_join _ hh.fields]
  rfl

/-- The header lines of a file, exactly: the fields are those written, and the constants are added to those the object
already has. -/
theorem header_parse_exact (h h0 : PlHeader) (hh : PlainHeader h) (body : Txt) (hb : NoHeader h.delim body) :
    h0.parse (h.repr ++ '\n' :: body) h.delim =
      .ok ⟨h.fields, h.constants.foldl (fun d c => dictSet d c.1 c.2) h0.constants, h0.delim⟩ := by
  have hlines : ∀ l ∈ h.fieldLine :: h.constants.map h.setLine, '\n' ∉ l ∧ h.delim <+: l ++ ['\n'] := by
    intro l hl
    rcases List.mem_cons.1 hl with rfl | hl
    · refine ⟨?_, ?_⟩
      · simp only [PlHeader.fieldLine, List.mem_append, not_or]
        refine ⟨⟨hh.delim.no_newline, by decide⟩, fun hm => ?_⟩
        rcases pyJoin_mem _ _ _ hm with hm | ⟨w, hw, hm⟩
        · exact absurd hm (by decide)
        · exact (hh.fields w hw).no_newline hm
      · simp only [PlHeader.fieldLine, List.append_assoc]; exact List.prefix_append _ _
    · obtain ⟨c, hc, rfl⟩ := List.mem_map.1 hl
      obtain ⟨w1, w2⟩ := hh.constants c hc
      refine ⟨?_, ?_⟩
      · simp only [PlHeader.setLine, List.mem_append, not_or]
        exact ⟨⟨⟨⟨hh.delim.no_newline, by decide⟩, w1.no_newline⟩, by decide⟩, w2.no_newline⟩
      · simp only [PlHeader.setLine, List.append_assoc]; exact List.prefix_append _ _
  have hf : (pyLines (h.repr ++ '\n' :: body)).filter (fun l => h.delim.isPrefixOf l) =
      (h.fieldLine :: h.constants.map h.setLine).map (· ++ ['\n']) := by
    rw [PlHeader.repr, pyLines_join _ _ (by simp) (fun l hl => (hlines l hl).1), List.filter_append,
      List.filter_eq_self.2, List.filter_eq_nil_iff.2, List.append_nil]
    · intro l hl
      rw [List.isPrefixOf_iff_prefix]
      exact hb l hl
    · intro l hl
      obtain ⟨m, hm, rfl⟩ := List.mem_map.1 hl
      exact prefix_isPrefixOf (hlines m hm).2
  obtain ⟨p1, p2⟩ := parse_fieldLine h hh
  unfold PlHeader.parse
  rw [if_neg hh.delim.1]
  simp only [hf, List.map_cons]
  rw [if_pos p1, p2]
  have hfold : ∀ (cs : List (Txt × Txt)) (d : List (Txt × Txt)), (∀ c ∈ cs, c ∈ h.constants) →
      (((cs.map h.setLine).map (· ++ ['\n'])).map (cleanLine h.delim)).foldlM parseConstant d =
        .ok (cs.foldl (fun d c => dictSet d c.1 c.2) d) := by
    intro cs
    induction cs with
    | nil => intro d _; rfl
    | cons c cs ih =>
      intro d hc
      rw [List.map_cons, List.map_cons, List.map_cons, List.foldlM_cons,
        parseConstant_setLine h hh d c (hc c (by simp)), ok_bind, ih _ (fun c hcs => hc c (by simp [hcs])),
        List.foldl_cons]
  rw [hfold _ _ (fun _ h => h), ok_bind, pure_eq_ok]

/-- C94: a header of single words is read back by a fresh object, whatever data follow it in the file. -/
theorem header_roundtrip_partial (h h0 : PlHeader) (hh : PlainHeader h) (h0c : h0.constants = []) (body : Txt)
    (hb : NoHeader h.delim body) :
    h0.parse (h.repr ++ '\n' :: body) h.delim = .ok ⟨h.fields, h.constants, h0.delim⟩ := by
  rw [header_parse_exact h h0 hh body hb, h0c, foldl_dictSet [] h.constants (by simpa using hh.names)]
  rfl

/-- Header of a statistics file with one bandwidth. -/
def demoHeader : PlHeader :=
  ⟨["timestep".toList, "dup_succ".toList], [("kt".toList, "1.0".toList), ("timestep".toList, "0.005".toList)],
    "#!".toList⟩

example : PlainHeader demoHeader ∧ NoHeader demoHeader.delim "10 1\n20 3\n".toList ∧
    (⟨[], [], "#!".toList⟩ : PlHeader).parse
      "#! FIELDS timestep dup_succ\n#! SET kt 1.0\n#! SET timestep 0.005\n10 1\n20 3\n".toList "#!".toList =
      .ok demoHeader := by
  refine ⟨⟨⟨by decide, by decide⟩, ?_, ?_, by decide⟩, ?_, by decide⟩
  · intro f hf; fin_cases hf <;> exact ⟨by decide, by decide⟩
  · intro f hf; fin_cases hf <;> exact ⟨⟨by decide, by decide⟩, by decide, by decide⟩
  · intro l hl
    have : pyLines "10 1\n20 3\n".toList = ["10 1\n".toList, "20 3\n".toList] := by decide
    rw [this] at hl
    fin_cases hl <;> decide

/-- C94 is false: the array of bandwidths of a two-dimensional system, which birth-death writes to the header of its
statistics file, loses everything after the first blank. -/
theorem header_roundtrip_false :
    ∃ h : PlHeader, h.fields = ["timestep".toList] ∧ h.constants = [("kernel_bandwidth".toList, "[0.1 0.2]".toList)] ∧
      (⟨[], [], "#!".toList⟩ : PlHeader).parse (h.repr ++ "\n10 1\n".toList) [] =
        .ok ⟨["timestep".toList], [("kernel_bandwidth".toList, "[0.1".toList)], "#!".toList⟩ :=
  ⟨⟨["timestep".toList], [("kernel_bandwidth".toList, "[0.1 0.2]".toList)], "#!".toList⟩, rfl, rfl, by decide⟩

/-- The documentation says that the constants of the object are overwritten; constants that are not in the file are
kept. -/
theorem header_parse_keeps_false :
    ∃ h0 : PlHeader, h0.parse "#! FIELDS x\n1.0\n".toList [] = .ok ⟨["x".toList], h0.constants, h0.delim⟩ ∧
      h0.constants ≠ [] :=
  ⟨⟨[], [("kt".toList, "1.0".toList)], "#!".toList⟩, by decide, by decide⟩

/-! ### Ordinal numbers -/

/-- C95 -/
theorem make_ordinal_spec (n : Nat) : makeOrdinal n = toString n ++ ordinalSuffix n := by
  have e : toString (n : Int) = toString n := rfl
  unfold makeOrdinal ordinalSuffix
  rw [e]
  have h1 : ((n : Int) % 10) = ((n % 10 : Nat) : Int) := by simp
  have h2 : ((n : Int) % 100) = ((n % 100 : Nat) : Int) := by simp
  rw [h1, h2]
  have hlt : n % 10 < 10 := Nat.mod_lt _ (by decide)
  by_cases h : 11 ≤ n % 100 ∧ n % 100 ≤ 13
  · have h' : (11 : Int) ≤ ((n % 100 : Nat) : Int) ∧ ((n % 100 : Nat) : Int) ≤ 13 := by omega
    have ht : n / 10 % 10 = 1 := by omega
    simp only [if_pos h', if_pos ht]
  · have h' : ¬((11 : Int) ≤ ((n % 100 : Nat) : Int) ∧ ((n % 100 : Nat) : Int) ≤ 13) := by omega
    simp only [if_neg h']
    generalize hm : n % 10 = m at hlt ⊢
    by_cases ht : n / 10 % 10 = 1
    · have h10 : m = 0 ∨ 4 ≤ m := by omega
      rw [if_pos ht]
      rcases h10 with rfl | h4
      · rfl
      · have : (min (m : Int) 4).toNat = 4 := by omega
        rw [this]; rfl
    · rw [if_neg ht]
      have : m = 0 ∨ m = 1 ∨ m = 2 ∨ m = 3 ∨ 4 ≤ m := by omega
      rcases this with rfl | rfl | rfl | rfl | h4
      · rfl
      · rfl
      · rfl
      · rfl
      · have : (min (m : Int) 4).toNat = 4 := by omega
        rw [this, if_neg (by omega), if_neg (by omega), if_neg (by omega)]; rfl

example : makeOrdinal 0 = "0th" ∧ makeOrdinal 3 = "3rd" ∧ makeOrdinal 122 = "122nd" ∧ makeOrdinal 213 = "213th" ∧
    makeOrdinal 1011 = "1011th" ∧ makeOrdinal 21 = "21st" := by decide

end Bdld
