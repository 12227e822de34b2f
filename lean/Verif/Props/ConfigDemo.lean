import Verif.Props.ConfigMeaning

/-
C118, C119: indented lines, spaces in lists, and example texts.
-/

namespace Bdld
open Spec

/-! ### Indented lines -/

/-- **C118.** An indented line after an option belongs to its value, also if it looks like an option or a section. -/
theorem indented_line (st : ReadState) {sec key : String} {s rest : List Char} {c : Char} (hs : White s) (hne : s ≠ [])
    (hc : pySpace c = false) (hcom : c ≠ '#' ∧ c ≠ ';') (ho : st.open? = some (sec, key)) (hi : st.indent = 0) :
    st.line (s ++ c :: rest) = .ok (st.append sec key (rstrip (c :: rest))) := by
  obtain ⟨t, ht⟩ := rstrip_cons rest hc
  have h1 : strip (s ++ c :: rest) = c :: t := by rw [strip, lstrip_white hs, lstrip_cons hc, ht]
  have h2 : 0 < ((s ++ c :: rest).takeWhile pySpace).length := by
    cases s with
    | nil => exact absurd rfl hne
    | cons a s =>
      rw [List.cons_append, List.takeWhile_cons_of_pos (white_space hs a List.mem_cons_self)]
      simp
  rw [ReadState.line, h1]
  dsimp only
  rw [if_neg (by simp [hcom.1, hcom.2]), ho]
  dsimp only
  rw [if_pos (by rw [hi]; exact h2), ht]

/-! ### Spaces in lists (`docs/input.rst:54-58`) -/

/-- The conversions of strings to numbers ignore spaces at the ends. -/
structure Spec.IgnoresSpaces {F : Type} (c : Conv F) : Prop where
  toFloat : ∀ s t u : List Char, White s → White u → c.toFloat (String.ofList (s ++ t ++ u)) = c.toFloat (String.ofList t)
  toInt : ∀ s t u : List Char, White s → White u → c.toInt (String.ofList (s ++ t ++ u)) = c.toInt (String.ofList t)

/-- The same text with spaces added at the ends. -/
def Spec.Padded (t t' : String) : Prop := ∃ s u, White s ∧ White u ∧ t'.toList = s ++ t.toList ++ u

theorem padded_call {F : Type} {c : Conv F} (hc : IgnoresSpaces c) {t t' : String} (h : Padded t t') (ty : BaseType)
    (hty : ty = .float ∨ ty = .int) : callType c ty t' = callType c ty t := by
  obtain ⟨s, u, hs, hu, e⟩ := h
  obtain rfl : t' = String.ofList (s ++ t.toList ++ u) := by rw [← e, String.ofList_toList]
  rcases hty with rfl | rfl
  · simp only [callType, hc.toFloat _ _ _ hs hu, String.ofList_toList]
  · simp only [callType, hc.toInt _ _ _ hs hu, String.ofList_toList]

/-- **C118.** Spaces around the values of a list of numbers have no effect. -/
theorem list_spaces {F : Type} {c : Conv F} (hc : IgnoresSpaces c) (o : InputOption F) (ty : BaseType) (ho : o.keytype = .list ty)
    (hty : ty = .float ∨ ty = .int) (s s' : Section) {raw raw' : String} {parts parts' : List String} (hn : s.name = s'.name)
    (h1 : s.entries.get? o.key = some (.ok raw)) (h2 : s'.entries.get? o.key = some (.ok raw')) (hr : CommaSeparated raw parts)
    (hr' : CommaSeparated raw' parts') (hp : List.Forall₂ Padded parts parts') : o.parse c s' = o.parse c s := by
  have hm : parts'.mapM (callType c ty) = parts.mapM (callType c ty) := by
    clear hr hr'
    induction hp with
    | nil => rfl
    | cons h _ ih => rw [List.mapM_cons, List.mapM_cons, padded_call hc h ty hty, ih]
  have : o.convert c s'.name (.ok raw') = o.convert c s.name (.ok raw) := by
    simp only [InputOption.convert, ho, ok_bind, commaSeparated_split hr, commaSeparated_split hr', hm]
  rw [InputOption.parse, InputOption.parse, h1, h2]
  dsimp only
  rw [this, hn]

/-- A conversion that ignores spaces. -/
def spaceConv : Conv Int where
  toFloat s := exConv.toFloat (String.ofList (strip s.toList))
  toInt s := exConv.toInt (String.ofList (strip s.toList))

theorem dropWhile_nil_iff (p : Char → Bool) (l : List Char) : l.dropWhile p = [] ↔ ∀ a ∈ l, p a = true := by
  induction l with
  | nil => simp
  | cons a l ih =>
    cases h : p a with
    | true => rw [List.dropWhile_cons_of_pos h, ih]; simp [h]
    | false => rw [List.dropWhile_cons_of_neg (by simp [h])]; simp [h]

theorem strip_padded {s t u : List Char} (hs : White s) (hu : White u) : strip (s ++ t ++ u) = strip t := by
  rw [strip, List.append_assoc, lstrip_white hs, strip]
  by_cases h : ∀ a ∈ t, pySpace a = true
  · have h1 : lstrip t = [] := (dropWhile_nil_iff _ _).2 h
    have h2 : lstrip (t ++ u) = [] := (dropWhile_nil_iff _ _).2 fun a ha => by
      rcases List.mem_append.1 ha with ha | ha
      · exact h a ha
      · exact white_space hu a ha
    rw [h1, h2]
  · have : lstrip (t ++ u) = lstrip t ++ u := by
      rw [lstrip, List.dropWhile_append, if_neg]
      · rfl
      · rw [List.isEmpty_iff, dropWhile_nil_iff]
        exact h
    rw [this, rstrip_white hu]

theorem spaceConv_ignores : IgnoresSpaces spaceConv where
  toFloat s t u hs hu := by
    unfold spaceConv
    simp only [String.toList_ofList, strip_padded hs hu]
  toInt s t u hs hu := by
    unfold spaceConv
    simp only [String.toList_ofList, strip_padded hs hu]

/-- Non-vacuity: `coeffs: 1, 2`. -/
example : (optList "coeffs" .float true : InputOption Int).parse spaceConv ⟨"potential", [("coeffs", .ok "1, 2")]⟩
    = .ok (.list [.float 1, .float 2]) := by decide

/-! ### Example texts -/

/-- Text with comments and empty lines. -/
def exText : List (List Char) :=
  ["# Double well", "", "[DEFAULT]", "kt: 1", "", "[ld]", "type: bussi-parinello", "  ; small steps", "Timestep = 2 # ps", "kt: 2  ",
   "[fes]", "filename: out"].map String.toList

/-- Sections of the text. -/
def exBlocks : List Block :=
  [⟨"DEFAULT", [("kt", "1")]⟩, ⟨"ld", [("type", "bussi-parinello"), ("timestep", "2 # ps"), ("kt", "2")]⟩, ⟨"fes", [("filename", "out")]⟩]

/-- The same sections in another order. -/
def exText' : List (List Char) :=
  ["[fes]", "filename=out", "[ld]", "kt=2", "type=bussi-parinello", "timestep:   2 # ps", "[other]", "[DEFAULT]", "KT=1"].map String.toList

def exBlocks' : List Block :=
  [⟨"fes", [("filename", "out")]⟩, ⟨"ld", [("kt", "2"), ("type", "bussi-parinello"), ("timestep", "2 # ps")]⟩, ⟨"other", []⟩,
   ⟨"DEFAULT", [("kt", "1")]⟩]

instance (l : List Char) : Decidable (White l) := inferInstanceAs (Decidable (∀ c ∈ l, c = ' ' ∨ c = '\t'))
instance (c : Char) : Decidable (Visible c) := inferInstanceAs (Decidable (33 ≤ c.toNat ∧ c.toNat ≤ 126))

theorem trimmed_of {l : List Char} (h : l.head?.all (fun c => decide (Visible c)) = true)
    (h' : l.getLast?.all (fun c => decide (Visible c)) = true) : Trimmed l := by
  refine ⟨fun c hc => ?_, fun c hc => ?_⟩
  · rw [hc] at h; simpa using h
  · rw [hc] at h'; simpa using h'

theorem optionName_of {k : List Char} (h1 : k ≠ []) (h2 : k.head?.all (fun c => decide (Visible c)) = true)
    (h3 : k.getLast?.all (fun c => decide (Visible c)) = true) (h4 : '=' ∉ k ∧ ':' ∉ k)
    (h5 : k.head?.all (fun c => decide (c ≠ '#' ∧ c ≠ ';' ∧ c ≠ '[')) = true) : OptionName k :=
  ⟨h1, trimmed_of h2 h3, h4, fun c hc => by rw [hc] at h5; simpa using h5⟩

theorem exText_layout : Layout exBlocks exText := by
  refine .comment ⟨[], '#', " Double well".toList, rfl, by decide, .inl rfl⟩ (.blank (l := []) (by simp [CfgBlank, White]) ?_)
  refine .block (ls := [_, _]) (rest := _ :: _ :: _) ⟨[], rfl, by decide, by decide, by decide⟩
    (.option ⟨"kt".toList, [], ':', [' '], [], rfl, optionName_of (by decide) (by decide) (by decide) (by decide) (by decide), rfl,
      by decide, by decide, by decide, .inl rfl, trimmed_of (by decide) (by decide)⟩ (.blank (l := []) (by simp [CfgBlank, White]) .nil)) ?_
  refine .block (ls := [_, _, _, _]) (rest := _ :: _) ⟨[], rfl, by decide, by decide, by decide⟩
    (.option ⟨"type".toList, [], ':', [' '], [], rfl, optionName_of (by decide) (by decide) (by decide) (by decide) (by decide), rfl,
      by decide, by decide, by decide, .inl rfl, trimmed_of (by decide) (by decide)⟩
    (.comment ⟨"  ".toList, ';', " small steps".toList, rfl, by decide, .inr rfl⟩
    (.option ⟨"Timestep".toList, [' '], '=', [' '], [], rfl, optionName_of (by decide) (by decide) (by decide) (by decide) (by decide), rfl,
      by decide, by decide, by decide, .inr rfl, trimmed_of (by decide) (by decide)⟩
    (.option ⟨"kt".toList, [], ':', [' '], "  ".toList, rfl, optionName_of (by decide) (by decide) (by decide) (by decide) (by decide), rfl,
      by decide, by decide, by decide, .inl rfl, trimmed_of (by decide) (by decide)⟩ .nil)))) ?_
  exact .block (ls := [_]) (rest := []) ⟨[], rfl, by decide, by decide, by decide⟩
    (.option ⟨"filename".toList, [], ':', [' '], [], rfl, optionName_of (by decide) (by decide) (by decide) (by decide) (by decide), rfl,
      by decide, by decide, by decide, .inl rfl, trimmed_of (by decide) (by decide)⟩ .nil) .nil

theorem exText'_layout : Layout exBlocks' exText' := by
  refine .block (ls := [_]) (rest := _ :: _) ⟨[], rfl, by decide, by decide, by decide⟩
    (.option ⟨"filename".toList, [], '=', [], [], rfl, optionName_of (by decide) (by decide) (by decide) (by decide) (by decide), rfl,
      by decide, by decide, by decide, .inr rfl, trimmed_of (by decide) (by decide)⟩ .nil) ?_
  refine .block (ls := [_, _, _]) (rest := _ :: _) ⟨[], rfl, by decide, by decide, by decide⟩
    (.option ⟨"kt".toList, [], '=', [], [], rfl, optionName_of (by decide) (by decide) (by decide) (by decide) (by decide), rfl,
      by decide, by decide, by decide, .inr rfl, trimmed_of (by decide) (by decide)⟩
    (.option ⟨"type".toList, [], '=', [], [], rfl, optionName_of (by decide) (by decide) (by decide) (by decide) (by decide), rfl,
      by decide, by decide, by decide, .inr rfl, trimmed_of (by decide) (by decide)⟩
    (.option ⟨"timestep".toList, [], ':', "   ".toList, [], rfl, optionName_of (by decide) (by decide) (by decide) (by decide) (by decide), rfl,
      by decide, by decide, by decide, .inl rfl, trimmed_of (by decide) (by decide)⟩ .nil))) ?_
  refine .block (ls := []) (rest := _ :: _) ⟨[], rfl, by decide, by decide, by decide⟩ .nil ?_
  exact .block (ls := [_]) (rest := []) ⟨[], rfl, by decide, by decide, by decide⟩
    (.option ⟨"KT".toList, [], '=', [], [], rfl, optionName_of (by decide) (by decide) (by decide) (by decide) (by decide), rfl,
      by decide, by decide, by decide, .inr rfl, trimmed_of (by decide) (by decide)⟩ .nil) .nil

theorem exText_distinct : Distinct exBlocks := ⟨by decide, by simp [exBlocks], by decide⟩

theorem exText'_distinct : Distinct exBlocks' := ⟨by decide, by simp [exBlocks'], by decide⟩

theorem exText_own (name key value : String) : Own exBlocks name key value ↔
    (name = "DEFAULT" ∧ key = "kt" ∧ value = "1") ∨ (name = "ld" ∧ (key = "type" ∧ value = "bussi-parinello" ∨
      key = "timestep" ∧ value = "2 # ps" ∨ key = "kt" ∧ value = "2")) ∨ (name = "fes" ∧ key = "filename" ∧ value = "out") := by
  simp [Own, exBlocks, Prod.ext_iff, eq_comm]

theorem exText'_own (name key value : String) : Own exBlocks' name key value ↔ Own exBlocks name key value := by
  rw [exText_own]
  simp only [Own, exBlocks', List.mem_cons, List.not_mem_nil, or_false, exists_eq_or_imp, exists_eq_left, Prod.mk.injEq, and_false,
    eq_comm (a := name)]
  tauto

/-- Non-vacuity of `same_meaning`. -/
example {R : Type} (w : World R) : mainText w (some exText) = mainText w (some exText') := by
  refine same_meaning w exText_layout exText'_layout exText_distinct exText'_distinct fun name hn => ⟨?_, fun _ key value => ?_⟩
  · have : name ≠ "other" := by rintro rfl; revert hn; decide
    simp only [HasSection, exBlocks, exBlocks', List.mem_cons, List.not_mem_nil, or_false, exists_eq_or_imp, exists_eq_left]
    constructor
    · rintro ⟨h1, h2 | h2 | h2⟩
      · exact absurd h2.symm h1
      · exact ⟨h1, .inr (.inl h2)⟩
      · exact ⟨h1, .inl h2⟩
    · rintro ⟨h1, h2 | h2 | h2 | h2⟩
      · exact ⟨h1, .inr (.inr h2)⟩
      · exact ⟨h1, .inr (.inl h2)⟩
      · exact absurd h2.symm this
      · exact absurd h2.symm h1
  · simp only [Written, exText'_own]

/-- The value of `kt` is shared with `[fes]`, the comment at the end of a line belongs to the value, and the option of `[ld]` stays. -/
example : ((readConfig exText).toOption.map fun cfg => cfg.map fun s => (s.name, (s.entries.map fun p => (p.1, p.2.toOption)))) =
    some [("ld", [("type", some "bussi-parinello"), ("timestep", some "2 # ps"), ("kt", some "2")]),
      ("fes", [("filename", some "out"), ("kt", some "1")])] := by decide +kernel

/-- An option that is indented by mistake becomes part of the value before. -/
example : ((readConfig ["[ld]".toList, "kt: 1".toList, " seed: 2".toList]).toOption.map fun cfg => cfg.map fun s => s.entries.map fun p =>
    (p.1, p.2.toOption)) = some [[("kt", some "1\nseed: 2")]] := by decide +kernel

/-- Text without section, line without delimiter, section or option given twice. -/
example : (readConfig ["kt: 1".toList]).toOption.isNone ∧ (readConfig ["[ld]".toList, "kt".toList]).toOption.isNone ∧
    (readConfig ["[ld]".toList, "[fes]".toList, "[ld]".toList]).toOption.isNone ∧
    (readConfig ["[ld]".toList, "kt: 1".toList, "KT: 2".toList]).toOption.isNone := by decide +kernel

end Bdld
