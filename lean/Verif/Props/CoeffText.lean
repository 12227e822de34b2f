import Verif.Model.CoeffText
import Verif.Spec.CoeffText
import Verif.Props.PyNumberRead
import Verif.Props.LineProgress
import Verif.Props.MainPathDemo

/-
C125: the text of coefficient files.
-/

namespace Bdld
open Spec

/-! ### Words -/

theorem pyWordsAux_blank (acc s t : List Char) (hs : ∀ c ∈ s, pySpace c = true) (ha : acc = []) : pyWordsAux acc (s ++ t) = pyWordsAux [] t := by
  subst ha
  induction s with
  | nil => rfl
  | cons c s ih =>
    rw [List.cons_append, pyWordsAux, if_pos (hs c (by simp)), if_pos rfl]
    exact ih fun c h => hs c (by simp [h])

theorem pyWordsAux_token (acc w t : List Char) (hw : ∀ c ∈ w, pySpace c = false) : pyWordsAux acc (w ++ t) = pyWordsAux (w.reverse ++ acc) t := by
  induction w generalizing acc with
  | nil => rfl
  | cons c w ih =>
    rw [List.cons_append, pyWordsAux, if_neg (by simp [hw c]), ih _ fun c h => hw c (by simp [h])]
    simp

theorem pyWords_of {s : List Char} {ws : List (List Char)} (h : SpacedWords pySpace s ws) : pyWords s = ws := by
  unfold pyWords
  induction h with
  | @blank s hs =>
    have := pyWordsAux_blank [] s [] hs rfl
    rw [List.append_nil] at this
    rw [this]
    rfl
  | @last s w hs hw hw' =>
    rw [pyWordsAux_blank [] s _ hs rfl]
    have := pyWordsAux_token [] w [] hw'
    rw [List.append_nil] at this
    rw [this, List.append_nil, pyWordsAux, if_neg (by simpa using hw), List.reverse_reverse]
  | @cons s w b t ws hs hw hw' hb _ ih =>
    rw [List.append_assoc, pyWordsAux_blank [] s _ hs rfl, pyWordsAux_token [] w _ hw', List.append_nil, pyWordsAux, if_pos hb,
      if_neg (by simpa using hw), List.reverse_reverse, ih]

/-- What is read after the characters `acc` of an unfinished word. -/
theorem spaced_aux : ∀ (s acc : List Char), (∀ c ∈ acc, pySpace c = false) → SpacedWords pySpace (acc.reverse ++ s) (pyWordsAux acc s)
  | [], acc, h => by
    rw [pyWordsAux, List.append_nil]
    split
    · rename_i e
      subst e
      exact .blank (by simp)
    · rename_i e
      exact SpacedWords.last (s := []) (by simp) (by simpa using e) (by simpa using h)
  | c :: s, acc, h => by
    rw [pyWordsAux]
    by_cases hc : pySpace c = true
    · rw [if_pos hc]
      have ih := spaced_aux s [] (by simp)
      simp only [List.reverse_nil, List.nil_append] at ih
      split
      · rename_i e
        subst e
        simp only [List.reverse_nil, List.nil_append]
        generalize pyWordsAux [] s = ws at ih
        cases ih with
        | blank h1 => exact .blank (by simpa [hc] using h1)
        | @last s' w h1 h2 h3 => exact SpacedWords.last (s := c :: s') (by simpa [hc] using h1) h2 h3
        | @cons s' w b t ws h1 h2 h3 h4 h5 => exact SpacedWords.cons (s := c :: s') (by simpa [hc] using h1) h2 h3 h4 h5
      · rename_i e
        have := SpacedWords.cons (space := pySpace) (s := []) (w := acc.reverse) (b := c) (by simp) (by simpa using e) (by simpa using h) hc ih
        simpa using this
    · rw [if_neg hc]
      have := spaced_aux s (c :: acc) (by simpa [hc] using h)
      simpa using this

/-- `s.split()` gives exactly the words between white space. -/
theorem pyWords_iff (s : List Char) (ws : List (List Char)) : pyWords s = ws ↔ SpacedWords pySpace s ws := by
  refine ⟨?_, pyWords_of⟩
  rintro rfl
  exact spaced_aux s [] (by simp)

theorem takeWhile_comment {body comment : List Char} (h : '#' ∉ body) (hc : comment = [] ∨ comment.head? = some '#') :
    (body ++ comment).takeWhile (· ≠ '#') = body := by
  induction body with
  | nil =>
    rcases hc with rfl | hc
    · rfl
    · cases comment with
      | nil => rfl
      | cons c l =>
        rw [List.head?_cons, Option.some.injEq] at hc
        subst hc
        rfl
  | cons c body ih =>
    rw [List.mem_cons, not_or] at h
    rw [List.cons_append, List.takeWhile_cons_of_pos (by simpa using fun e => h.1 e.symm), ih h.2]

/-- **C125.** The words of a line. -/
theorem coeffWords_iff (line : List Char) (ws : List (List Char)) : coeffWords line = ws ↔ LineWords pySpace line ws := by
  unfold coeffWords
  constructor
  · intro h
    refine ⟨line.takeWhile (· ≠ '#'), line.dropWhile (· ≠ '#'), List.takeWhile_append_dropWhile.symm, ?_, ?_, (pyWords_iff _ _).1 h⟩
    · intro hm
      have := List.mem_takeWhile_imp hm
      simp at this
    · cases hd : line.dropWhile (· ≠ '#') with
      | nil => exact Or.inl rfl
      | cons c l =>
        right
        have := List.head?_dropWhile_not (fun c => decide (c ≠ '#')) line
        rw [hd] at this
        simpa using this
  · rintro ⟨body, comment, rfl, h1, h2, h3⟩
    rw [takeWhile_comment h1 h2]
    exact pyWords_of h3

/-! ### Tables -/

theorem looseFloat_decimal {t : List Char} {q : ℚ} (h : DecimalText t q) : looseFloat t = .num q := by
  unfold looseFloat
  rw [(pyFloat_iff t q).2 ⟨t, stripped_self t, h⟩]
  rfl

/-- **C125.** Words that are no numbers are `nan` in the table. -/
theorem looseFloat_other {t : List Char} (h : pyFloat t = none) : looseFloat t = .nan := by rw [looseFloat, h]; rfl

/-- **C125.** Numbers in the table are written as decimal numbers in the file. -/
theorem looseFloat_iff {t : List Char} (ht : ∀ c ∈ t, pySpace c = false) (q : ℚ) : looseFloat t = .num q ↔ DecimalText t q := by
  refine ⟨fun h => ?_, looseFloat_decimal⟩
  unfold looseFloat at h
  cases hf : pyFloat t with
  | none => rw [hf] at h; cases h
  | some v =>
    rw [hf] at h
    obtain rfl : v = .num q := h
    obtain ⟨t', ⟨a, b, rfl, ha, hb⟩, h2⟩ := (pyFloat_iff t q).1 hf
    obtain rfl : a = [] := by
      cases a with
      | nil => rfl
      | cons c a => exact absurd (ha c (by simp)) (by rw [ht c (by simp)]; decide)
    obtain rfl : b = [] := by
      cases b with
      | nil => rfl
      | cons c b => exact absurd (hb c (by simp)) (by rw [ht c (by simp)]; decide)
    simpa using h2

/-- The values of a row. -/
def RowValues {d : Nat} (extra : Nat) (row : List FloatVal) (p : (Fin d → Nat) × ℚ) : Prop :=
  ∃ more, row = (List.ofFn fun k => FloatVal.num (p.1 k)) ++ .num p.2 :: more ∧ more.length = extra

theorem rowWords_values {d extra : Nat} {words : List (List Char)} {p : (Fin d → Nat) × ℚ} (h : RowWords extra words p) :
    RowValues extra (words.map looseFloat) p ∧ words.length = d + 1 + extra := by
  obtain ⟨es, c, rest, rfl, h1, h2, h3, h4⟩ := h
  refine ⟨⟨rest.map looseFloat, ?_, by simpa using h1⟩, by simp; omega⟩
  rw [List.map_append, List.map_cons, looseFloat_decimal h4]
  congr 1
  refine List.ext_getElem (by simp [h2]) fun i i1 i2 => ?_
  simp only [List.getElem_map, List.getElem_ofFn]
  simp only [List.length_map] at i1
  exact looseFloat_decimal (h3 ⟨i, h2 ▸ i1⟩ es[i] (List.getElem?_eq_getElem i1))

theorem coeffLines_rows {d extra : Nat} {lines : List (List Char)} {l : List ((Fin d → Nat) × ℚ)} (h : CoeffLines pySpace extra lines l) :
    List.Forall₂ (RowWords extra) ((lines.map coeffWords).filter (· ≠ [])) l := by
  induction h with
  | nil => exact .nil
  | comment h _ ih =>
    rw [List.map_cons, (coeffWords_iff _ _).2 h, List.filter_cons_of_neg (by simp)]
    exact ih
  | @row line words p lines l h hw _ ih =>
    rw [List.map_cons, (coeffWords_iff _ _).2 h, List.filter_cons_of_pos]
    · exact .cons hw ih
    · obtain ⟨es, c, rest, rfl, _⟩ := hw
      simp

/-- **C125.** A documented file is read as its table. -/
theorem genfromtxt_lines {d extra : Nat} {lines : List (List Char)} {l : List ((Fin d → Nat) × ℚ)} (h : CoeffLines pySpace extra lines l) :
    ∃ rows, genfromtxt lines = .ok rows ∧ List.Forall₂ (RowValues extra) rows l := by
  have hr := coeffLines_rows h
  unfold genfromtxt
  dsimp only
  generalize (lines.map coeffWords).filter (· ≠ []) = rows at hr
  refine ⟨rows.map (·.map looseFloat), ?_, ?_⟩
  · rw [if_pos]
    have hlen : ∀ r ∈ rows, r.length = d + 1 + extra := by
      intro r hr'
      obtain ⟨i, hi, rfl⟩ := List.getElem_of_mem hr'
      exact (rowWords_values (List.Forall₂.get hr hi (hr.length_eq ▸ hi))).2
    rw [List.all_eq_true]
    intro r hr'
    rw [beq_iff_eq, hlen r hr']
    cases rows with
    | nil => cases hr'
    | cons a _ => exact (hlen a (by simp)).symm
  · rw [List.forall₂_map_left_iff]
    exact hr.imp fun _ _ h => (rowWords_values h).1

/-- **C125.** Rows with different numbers of columns are an error. -/
theorem genfromtxt_ragged {lines : List (List Char)} {line line' : List Char} {ws ws' : List (List Char)} (h : line ∈ lines)
    (h' : line' ∈ lines) (hw : LineWords pySpace line ws) (hw' : LineWords pySpace line' ws') (hne : ws ≠ []) (hne' : ws' ≠ [])
    (hlen : ws.length ≠ ws'.length) : genfromtxt lines = .error .valueError := by
  unfold genfromtxt
  dsimp only
  have m : ∀ {line ws}, line ∈ lines → LineWords pySpace line ws → ws ≠ [] → ws ∈ (lines.map coeffWords).filter (· ≠ []) := by
    intro line ws h hw hne
    rw [List.mem_filter]
    exact ⟨List.mem_map.2 ⟨line, h, (coeffWords_iff _ _).2 hw⟩, by simpa using hne⟩
  rw [if_neg]
  intro hall
  rw [List.all_eq_true] at hall
  have h1 := hall ws (m h hw hne)
  have h2 := hall ws' (m h' hw' hne')
  rw [beq_iff_eq] at h1 h2
  exact hlen (h1.trans h2.symm)

/-! ### The potential -/

/-- The monomials with real coefficients. -/
noncomputable def realTerms {d : Nat} (l : List ((Fin d → Nat) × ℚ)) : List ((Fin d → Nat) × ℝ) := l.map fun p => (p.1, (p.2 : ℝ))

theorem rowsOf_table {d extra : Nat} {rows : List (List FloatVal)} {l : List ((Fin d → Nat) × ℚ)} {table : List (List ℝ)}
    (h : List.Forall₂ (RowValues extra) rows l) (ht : TableOf rows table) : RowsOf table (realTerms l) := by
  unfold RowsOf realTerms
  unfold TableOf at ht
  induction h generalizing table with
  | nil =>
    cases ht
    exact .nil
  | @cons row p rows l h _ ih =>
    cases ht with
    | @cons _ t _ ts h1 h2 =>
      rw [List.map_cons]
      refine .cons ?_ (ih h2)
      obtain ⟨more, rfl, _⟩ := h
      have hlen := h1.length_eq
      simp only [List.length_append, List.length_ofFn, List.length_cons] at hlen
      refine ⟨t.drop (d + 1), ?_⟩
      have key : fileRow (p.1, (p.2 : ℝ)) = t.take (d + 1) := by
        unfold fileRow
        refine List.ext_getElem (by simp; omega) fun i i1 i2 => ?_
        rw [List.getElem_take]
        have it : i < t.length := by rw [List.length_take] at i2; omega
        have ir : i < ((List.ofFn fun k => FloatVal.num (p.1 k)) ++ .num p.2 :: more).length := by
          simp only [List.length_append, List.length_ofFn, List.length_cons]; omega
        have hv := List.Forall₂.get h1 ir it
        simp only [List.get_eq_getElem] at hv
        simp only [List.length_append, List.length_ofFn, List.length_singleton] at i1
        rcases Nat.lt_or_ge i d with hi | hi
        · rw [List.getElem_append_left (by simpa using hi), List.getElem_ofFn]
          have := hv (p.1 ⟨i, hi⟩) (by rw [List.getElem_append_left (by simpa using hi), List.getElem_ofFn])
          rw [this]
          push_cast
          rfl
        · have hid : i = d := by omega
          subst hid
          rw [List.getElem_append_right (by simp)]
          have := hv p.2 (by rw [List.getElem_append_right (by simp)]; simp)
          rw [this]
          simp
      rw [key, List.take_append_drop]

/-- **C125.** The potential of documented coefficient files: set up without error, with the sum of the monomials as its energy. It does
not depend on comments, spaces, and further columns. -/
theorem coeff_text_potential {o : Dict (OptVal ℝ)} (hv : ValidPotential o) {d : Nat} (hd : 2 ≤ d) (hd' : d ≤ 3)
    (ht : StrOpt o "type" "polynomial") (hn : IntOpt o "n_dim" d) {name : String} (hname : StrOpt o "coeffs-file" name)
    {l : List ((Fin d → Nat) × ℚ)} (hlen : 2 ≤ l.length) (hnd : (l.map Prod.fst).Nodup) :
    ∃ pot : Potential ℝ d, pot.energy = polyOfRows (realTerms l) ∧ Conservative pot.energy pot.force ∧
      ∀ {R : Type} (w : World R) (files : String → Option (List (List Char))), w.ReadsText files →
        ∀ lines extra, files name = some lines → CoeffLines pySpace extra lines l → setupPotential w o = .ok ⟨d, pot⟩ := by
  have hlen' : 2 ≤ (realTerms l).length := by simpa [realTerms] using hlen
  obtain ⟨a, ha, _⟩ := coeff_file_partial (realTerms l) hlen'
  have hnd' : ((realTerms l).map Prod.fst).Nodup := by
    unfold realTerms
    rw [List.map_map]
    exact hnd
  have hn1 : o.get? "n_dim" ≠ some (.base (.int 1)) := by
    rw [show o.get? "n_dim" = some (.base (.int d)) from hn]
    simp only [ne_eq, Option.some.injEq, OptVal.base.injEq, BaseVal.int.injEq]
    omega
  obtain ⟨_, ⟨mins, m1, _⟩, ⟨maxs, m2, _⟩⟩ := hv.moreDim ht hn1
  obtain ⟨v, s, b1, b2⟩ := strItem hv.bound
  refine ⟨Potential.withBcOption ⟨polyEnergy a, polyForce a, baseEvaluate (polyEnergy a) (polyForce a), mins.zip maxs, none⟩ s,
    funext fun x => ?_, conservative_poly a (coefficientsFromFile_pos _ _ ha), fun w files hw lines extra hfile hl => ?_⟩
  · exact coeff_file_energy_partial _ hlen' hnd' a ha x
  have hf := hw name
  rw [hfile] at hf
  obtain ⟨rows, hg, hrows⟩ := genfromtxt_lines hl
  obtain ⟨table, htab, hto⟩ := hf rows hg
  have hro := rowsOf_table hrows hto
  rw [setupPotential, item_of ht]
  simp only [ok_bind, setupPolynomial, item_of hn]
  have hs : (OptVal.base (.str name) : OptVal ℝ).asOptStr = .ok (some name) := rfl
  obtain rfl | rfl : d = 2 ∨ d = 3 := by omega
  all_goals
    simp only [zipRanges, item_of m1, item_of m2, item_of hname, asFloats_map, ok_bind, pure_eq_ok, hs, Option.getD_some, htab]
    erw [parseCoeffRow_rows hro]
    simp only [ok_bind]
    erw [ha]
    simp only [ok_bind, newPolynomial, b1, b2]
    rfl

/-! ### Example: the file of the documentation -/

theorem spaced_mem {s : List Char} {ws : List (List Char)} (h : SpacedWords pySpace s ws) : ∀ w ∈ ws, ∀ c ∈ w, pySpace c = false := by
  induction h with
  | blank _ => simp
  | last _ _ h => simpa using h
  | cons _ _ h _ _ ih =>
    intro w hw
    rcases List.mem_cons.1 hw with rfl | hw
    · exact h
    · exact ih w hw

theorem decimal_of_float {t : List Char} {q : ℚ} (h : pyFloat t = some (.num q)) (hs : ∀ c ∈ t, pySpace c = false) : DecimalText t q := by
  obtain ⟨t', ⟨a, b, e, ha, hb⟩, hd⟩ := (pyFloat_iff t q).1 h
  have ea : a = [] := by
    cases a with
    | nil => rfl
    | cons c a => exact absurd (ha c (by simp)) (by rw [hs c (by rw [e]; simp)]; simp)
  have eb : b = [] := by
    cases b with
    | nil => rfl
    | cons c b => exact absurd (hb c (by simp)) (by rw [hs c (by rw [e]; simp)]; simp)
  rw [e, ea, eb, List.nil_append, List.append_nil]
  exact hd

theorem coeff_comment {line : List Char} (h : coeffWords line = []) : LineWords pySpace line [] := (coeffWords_iff _ _).1 h

/-- A row in two dimensions. -/
theorem row_two {line : List Char} {i j : Nat} {q : ℚ}
    (h : ((coeffWords line).map pyFloat).take 3 = [some (.num i), some (.num j), some (.num q)] ∧ (coeffWords line).length = 5) :
    RowWords (d := 2) 2 (coeffWords line) (![i, j], q) := by
  have hs := (coeffWords_iff line _).1 rfl
  obtain ⟨body, comment, _, _, _, hsp⟩ := hs
  have hm := spaced_mem hsp
  obtain ⟨h1, h2⟩ := h
  generalize coeffWords line = ws at h1 h2 hm
  match ws, h1, h2, hm with
  | [a, b, c, e, f], h1, _, hm =>
    simp only [List.map_cons, List.map_nil, List.take_succ_cons, List.take_zero, List.cons.injEq, and_true] at h1
    refine ⟨[a, b], c, [e, f], rfl, rfl, rfl, fun k t hk => ?_, decimal_of_float h1.2.2 (hm c (by simp))⟩
    match k with
    | 0 =>
      cases hk
      exact decimal_of_float h1.1 (hm a (by simp))
    | 1 =>
      cases hk
      exact decimal_of_float h1.2.1 (hm b (by simp))

/-- The file of `docs/potential.rst:98-113`. -/
def wolfeQuappLines : List (List Char) :=
  ["#! FIELDS idx_dim1 idx_dim2 pot.coeffs index description".toList,
   "#! SET type LinearBasisSet".toList,
   "#! SET ndimensions  2".toList,
   "#! SET ncoeffs_total  25".toList,
   "#! SET shape_dim1  5".toList,
   "#! SET shape_dim2  5".toList,
   "       0       0         0.0000000000000000e+00       0  1*1".toList,
   "       1       0         0.3000000000000000e+00       1  s^1*1".toList,
   "       2       0        -2.0000000000000000e+00       2  s^2*1".toList,
   "       4       0         1.0000000000000000e+00       4  s^4*1".toList,
   "       0       1         0.1000000000000000e+00       5  1*s^1".toList,
   "       1       1        +1.0000000000000000e+00       6  s^1*s^1".toList,
   "       0       2        -4.0000000000000000e+00      10  1*s^2".toList,
   "       0       4         1.0000000000000000e+00      20  1*s^4".toList,
   "#!-------------------".toList]

/-- Its monomials. -/
def wolfeQuappTerms : List ((Fin 2 → Nat) × ℚ) :=
  [(![0, 0], 0), (![1, 0], 3 / 10), (![2, 0], -2), (![4, 0], 1), (![0, 1], 1 / 10), (![1, 1], 1), (![0, 2], -4), (![0, 4], 1)]

theorem wolfeQuapp_lines : CoeffLines pySpace 2 wolfeQuappLines wolfeQuappTerms := by
  unfold wolfeQuappLines wolfeQuappTerms
  refine .comment (coeff_comment (by decide +kernel)) ?_
  refine .comment (coeff_comment (by decide +kernel)) ?_
  refine .comment (coeff_comment (by decide +kernel)) ?_
  refine .comment (coeff_comment (by decide +kernel)) ?_
  refine .comment (coeff_comment (by decide +kernel)) ?_
  refine .comment (coeff_comment (by decide +kernel)) ?_
  refine .row ((coeffWords_iff _ _).1 rfl) (row_two (by decide +kernel)) ?_
  refine .row ((coeffWords_iff _ _).1 rfl) (row_two (by decide +kernel)) ?_
  refine .row ((coeffWords_iff _ _).1 rfl) (row_two (by decide +kernel)) ?_
  refine .row ((coeffWords_iff _ _).1 rfl) (row_two (by decide +kernel)) ?_
  refine .row ((coeffWords_iff _ _).1 rfl) (row_two (by decide +kernel)) ?_
  refine .row ((coeffWords_iff _ _).1 rfl) (row_two (by decide +kernel)) ?_
  refine .row ((coeffWords_iff _ _).1 rfl) (row_two (by decide +kernel)) ?_
  refine .row ((coeffWords_iff _ _).1 rfl) (row_two (by decide +kernel)) ?_
  refine .comment (coeff_comment (by decide +kernel)) ?_
  exact .nil

/-- The potential is the one of Wolfe and Quapp. -/
theorem wolfeQuapp_energy (x : Fin 2 → ℝ) :
    polyOfRows (realTerms wolfeQuappTerms) x =
      x 0 ^ 4 + x 1 ^ 4 - 2 * x 0 ^ 2 - 4 * x 1 ^ 2 + x 0 * x 1 + 0.3 * x 0 + 0.1 * x 1 := by
  simp [polyOfRows, realTerms, wolfeQuappTerms, monomial, Fin.prod_univ_two]
  ring

/-- The section `[potential]` of the documentation. -/
noncomputable def wolfeQuappOpts : Dict (OptVal ℝ) :=
  [("type", .base (.str "polynomial")), ("n_dim", .base (.int 2)), ("coeffs-file", .base (.str "wolfe_quapp.coeffs")),
   ("min", .list [.float (-2.5), .float (-2.5)]), ("max", .list [.float 2.5, .float 2.5]), ("boundary-condition", .none)]

theorem wolfeQuapp_valid : ValidPotential wolfeQuappOpts where
  type := ⟨_, rfl, Or.inl rfl⟩
  bound := Or.inl rfl
  nDim := ⟨2, rfl, trivial⟩
  dimPos := fun _ => ⟨2, rfl, by decide⟩
  oneDim := fun _ h => by
    have : (some (.base (.int 2)) : Option (OptVal ℝ)) = some (.base (.int 1)) := h
    simp at this
  moreDim := fun _ _ => ⟨⟨_, rfl, trivial⟩, ⟨[-2.5, -2.5], rfl, by simp [anything]⟩, ⟨[2.5, 2.5], rfl, by simp [anything]⟩⟩
  scaling := fun h => by
    have : (some (.base (.str "polynomial")) : Option (OptVal ℝ)) = some (.base (.str "mueller-brown")) := h
    simp at this

/-- The input of the documentation is set up as the potential of Wolfe and Quapp. -/
theorem wolfeQuapp_potential : ∃ pot : Potential ℝ 2,
    (∀ x, pot.energy x = x 0 ^ 4 + x 1 ^ 4 - 2 * x 0 ^ 2 - 4 * x 1 ^ 2 + x 0 * x 1 + 0.3 * x 0 + 0.1 * x 1) ∧
    ∀ {R : Type} (w : World R) (files : String → Option (List (List Char))), w.ReadsText files →
      files "wolfe_quapp.coeffs" = some wolfeQuappLines → setupPotential w wolfeQuappOpts = .ok ⟨2, pot⟩ := by
  obtain ⟨pot, h1, _, h3⟩ := coeff_text_potential wolfeQuapp_valid (d := 2) le_rfl (by norm_num) rfl rfl
    (name := "wolfe_quapp.coeffs") rfl (l := wolfeQuappTerms) (by decide) (by decide)
  exact ⟨pot, fun x => by rw [h1, wolfeQuapp_energy], fun w files hw hf => h3 w files hw _ 2 hf wolfeQuapp_lines⟩

/-- There is such a world. -/
theorem wolfeQuapp_world : ∃ (w : World Nat) (files : String → Option (List (List Char))), w.ReadsText files ∧
    files "wolfe_quapp.coeffs" = some wolfeQuappLines := by
  obtain ⟨rows, hr, hv⟩ := genfromtxt_lines wolfeQuapp_lines
  let val : FloatVal → ℝ := fun v => match v with | .num q => q | _ => 0
  refine ⟨{ countWorld with coeffFile := fun n => if n = "wolfe_quapp.coeffs" then some (rows.map (·.map val)) else none },
    fun n => if n = "wolfe_quapp.coeffs" then some wolfeQuappLines else none, fun n => ?_, by simp⟩
  by_cases hn : n = "wolfe_quapp.coeffs"
  · simp only [hn, if_true]
    intro rows' h
    rw [hr] at h
    cases h
    refine ⟨_, rfl, ?_⟩
    unfold TableOf
    rw [List.forall₂_map_right_iff]
    refine List.forall₂_same.2 fun row _ => ?_
    rw [List.forall₂_map_right_iff]
    refine List.forall₂_same.2 fun v _ q hq => ?_
    subst hq
    rfl
  · simp only [hn, if_false]

end Bdld
