import Verif.Lemmas.InputParser

/-
Properties of the input parser: single options and sections (C52 to C55, C60), numbered options (C56, C57)
and ranges of states (C58).
-/

namespace Bdld

/-! ### Conversion of strings -/

theorem splitComma_ne_nil (l : List Char) : splitComma l ≠ [] := by
  cases l with
  | nil => simp [splitComma]
  | cons c l =>
    unfold splitComma
    split
    · simp
    · split <;> simp

theorem splitComma_join (l : List Char) : List.intercalate [','] (splitComma l) = l := by
  induction l with
  | nil => rfl
  | cons c l ih =>
    unfold splitComma
    split
    · rename_i h; exact (splitComma_ne_nil l h).elim
    · rename_i w ws h
      rw [h] at ih
      by_cases hc : c = ','
      · rw [if_pos hc, hc]
        rw [List.intercalate_cons_cons] 
        simp [ih]
      · rw [if_neg hc]
        cases ws with
        | nil => simpa using ih
        | cons w' ws =>
          rw [List.intercalate_cons_cons] at ih ⊢
          rw [← ih]
          simp

theorem splitComma_no_comma (l : List Char) : ∀ p ∈ splitComma l, ',' ∉ p := by
  induction l with
  | nil => simp [splitComma]
  | cons c l ih =>
    unfold splitComma
    split
    · rename_i h; exact (splitComma_ne_nil l h).elim
    · rename_i w ws h
      rw [h] at ih
      by_cases hc : c = ','
      · rw [if_pos hc]
        intro p hp
        rw [List.mem_cons] at hp
        rcases hp with rfl | hp
        · simp
        · exact ih p hp
      · rw [if_neg hc]
        intro p hp
        rw [List.mem_cons] at hp
        rcases hp with rfl | hp
        · rw [List.mem_cons, not_or]
          exact ⟨fun e => hc e.symm, ih w (by simp)⟩
        · exact ih p (by simp [hp])

/-- Splitting at the commas. -/
theorem pySplit_spec (s : String) : Spec.CommaSeparated s (pySplit s) := by
  refine ⟨?_, ?_, ?_⟩
  · unfold pySplit
    rw [List.map_map]
    have : (splitComma s.toList).map (String.toList ∘ String.ofList) = splitComma s.toList := by
      simp [Function.comp_def]
    rw [this, splitComma_join]
  · simp [pySplit, splitComma_ne_nil]
  · intro p hp
    unfold pySplit at hp
    obtain ⟨q, hq, rfl⟩ := List.mem_map.mp hp
    simpa using splitComma_no_comma s.toList q hq

example : pySplit "0.5,-1,,3" = ["0.5", "-1", "", "3"] := by decide

theorem splitComma_part (p : List Char) (hp : ',' ∉ p) : splitComma p = [p] := by
  induction p with
  | nil => rfl
  | cons c p ih =>
    rw [List.mem_cons, not_or] at hp
    rw [splitComma, ih hp.2]
    simp [Ne.symm hp.1]

theorem splitComma_append (p l : List Char) (hp : ',' ∉ p) : splitComma (p ++ ',' :: l) = p :: splitComma l := by
  induction p with
  | nil =>
    obtain ⟨w, ws, h⟩ := List.exists_cons_of_ne_nil (splitComma_ne_nil l)
    simp [splitComma, h]
  | cons c p ih =>
    rw [List.mem_cons, not_or] at hp
    rw [List.cons_append, splitComma, ih hp.2]
    simp [Ne.symm hp.1]

/-- Splitting is the only way to read a comma separated text. -/
theorem commaSeparated_split {s : String} {parts : List String} (h : Spec.CommaSeparated s parts) : pySplit s = parts := by
  obtain ⟨h1, h2, h3⟩ := h
  unfold pySplit
  rw [h1]
  have : ∀ l : List (List Char), l ≠ [] → (∀ p ∈ l, ',' ∉ p) → splitComma (List.intercalate [','] l) = l := by
    intro l
    induction l with
    | nil => exact fun h => absurd rfl h
    | cons p l ih =>
      intro _ hl
      cases l with
      | nil => simpa using splitComma_part p (hl p (by simp))
      | cons q l =>
        have := ih (by simp) fun x hx => hl x (List.mem_cons_of_mem _ hx)
        rw [List.intercalate_cons_cons] 
        simp only [List.append_assoc, List.singleton_append]
        rw [splitComma_append p _ (hl p (by simp)), this]
  rw [this _ (by simpa using h2) (by simpa using h3), List.map_map]
  simp [Function.comp_def]

/-- Words for true and false. -/
theorem toBool_iff (s : String) (b : Bool) : toBool s = some b ↔ Spec.BoolText s b := by
  have h : ∀ l : List String, String.ofList (s.toList.map Char.toLower) ∈ l ↔ ∃ w ∈ l, s.toList.map Char.toLower = w.toList := by
    intro l
    constructor
    · exact fun h => ⟨_, h, by simp⟩
    · rintro ⟨w, hw, he⟩
      rw [he]
      simpa using hw
  have hd : ∀ l : List Char, ¬ ((∃ w ∈ Spec.boolWords true, l = w.toList) ∧ ∃ w ∈ Spec.boolWords false, l = w.toList) := by
    rintro l ⟨⟨w, hw, rfl⟩, v, hv, he⟩
    revert v
    revert w
    decide
  have := hd (s.toList.map Char.toLower)
  have ht : ∀ l, l = Spec.boolWords true → (String.ofList (s.toList.map Char.toLower) ∈ l ↔ Spec.BoolText s true) :=
    fun l hl => by rw [h, hl, Spec.BoolText]
  have hf : ∀ l, l = Spec.boolWords false → (String.ofList (s.toList.map Char.toLower) ∈ l ↔ Spec.BoolText s false) :=
    fun l hl => by rw [h, hl, Spec.BoolText]
  unfold toBool
  dsimp only
  split
  · rename_i h1
    replace h1 := (ht _ rfl).1 h1
    cases b
    · simp only [Option.some.injEq, Bool.true_eq_false, false_iff]
      exact fun h2 => this ⟨h1, h2⟩
    · simp only [true_iff]
      exact h1
  · rename_i h1
    replace h1 : ¬ Spec.BoolText s true := fun hx => h1 ((ht _ rfl).2 hx)
    split
    · rename_i h2
      replace h2 := (hf _ rfl).1 h2
      cases b
      · simp only [true_iff]
        exact h2
      · simp only [Option.some.injEq, Bool.false_eq_true, false_iff]
        exact h1
    · rename_i h2
      replace h2 : ¬ Spec.BoolText s false := fun hx => h2 ((hf _ rfl).2 hx)
      cases b
      · simp only [reduceCtorEq, false_iff]
        exact h2
      · simp only [reduceCtorEq, false_iff]
        exact h1

theorem callType_spec {F : Type} (c : Conv F) (t : BaseType) (x : String) (v : BaseVal F) :
    callType c t x = .ok v ↔ Spec.DenotesElem c t x v := by
  cases t <;> simp only [callType, Spec.DenotesElem]
  · simp [eq_comm]
  · cases c.toFloat x <;> simp [orValueError, pure_eq_ok, ok_bind, error_bind, eq_comm]
  · cases c.toInt x <;> simp [orValueError, pure_eq_ok, ok_bind, error_bind, eq_comm]
  · simp [eq_comm]

theorem mapM_callType {F : Type} (c : Conv F) (t : BaseType) (l : List String) (vs : List (BaseVal F)) :
    l.mapM (callType c t) = .ok vs ↔ List.Forall₂ (Spec.DenotesElem c t) l vs := by
  induction l generalizing vs with
  | nil => simp [pure_eq_ok, eq_comm]
  | cons x l ih =>
    rw [List.mapM_cons]
    cases hx : callType c t x with
    | error e =>
      rw [error_bind]
      constructor
      · intro h; cases h
      · intro h
        cases h with
        | cons h1 h2 => rw [← callType_spec, hx] at h1; cases h1
    | ok v =>
      rw [ok_bind]
      cases hl : l.mapM (callType c t) with
      | error e =>
        rw [error_bind]
        constructor
        · intro h; cases h
        · intro h
          cases h with
          | cons h1 h2 => rw [← ih, hl] at h2; cases h2
      | ok ws =>
        rw [ok_bind, pure_eq_ok]
        constructor
        · intro h
          cases h
          exact .cons ((callType_spec c t x v).mp hx) ((ih ws).mp hl)
        · intro h
          cases h with
          | cons h1 h2 =>
            rw [← callType_spec, hx] at h1
            rw [← ih, hl] at h2
            cases h1; cases h2; rfl

/-- A converted value is the one denoted by the string. -/
theorem convert_ok {F : Type} (c : Conv F) (o : InputOption F) (sec : String) (raw : Except PyErr String)
    (v : OptVal F) (h : o.convert c sec raw = .ok v) : ∃ s, raw = .ok s ∧ Spec.Denotes c o.keytype s v := by
  unfold InputOption.convert at h
  cases raw with
  | error e =>
    exfalso
    revert h
    cases o.keytype with
    | base t => cases t <;> simp [error_bind]
    | list t => simp [error_bind]
  | ok s =>
    refine ⟨s, rfl, ?_⟩
    revert h
    cases o.keytype with
    | list t =>
      simp only [ok_bind]
      cases hm : (pySplit s).mapM (callType c t) with
      | error e => simp
      | ok l =>
        intro h
        rw [ok_bind, pure_eq_ok] at h
        cases h
        exact ⟨pySplit s, l, pySplit_spec s, (mapM_callType c t _ _).mp hm, rfl⟩
    | base t =>
      cases t <;> simp only [ok_bind, Spec.Denotes, Spec.DenotesElem]
      · intro h; cases h; exact ⟨_, rfl, rfl⟩
      · cases c.toFloat s with
        | none => simp [throw, throwThe, MonadExceptOf.throw]
        | some x => intro h; cases h; exact ⟨_, ⟨x, rfl, rfl⟩, rfl⟩
      · cases c.toInt s with
        | none => simp [throw, throwThe, MonadExceptOf.throw]
        | some x => intro h; cases h; exact ⟨_, ⟨x, rfl, rfl⟩, rfl⟩
      · cases hb : toBool s with
        | none => simp [throw, throwThe, MonadExceptOf.throw]
        | some x => intro h; cases h; exact ⟨x, (toBool_iff s x).1 hb, rfl⟩

theorem convert_denotes {F : Type} (c : Conv F) (o : InputOption F) (sec s : String) (v : OptVal F)
    (h : Spec.Denotes c o.keytype s v) : o.convert c sec (.ok s) = .ok v := by
  unfold InputOption.convert
  revert h
  cases o.keytype with
  | list t =>
    rintro ⟨parts, l, hp, hl, rfl⟩
    simp only [ok_bind]
    have he : pySplit s = parts := commaSeparated_split hp
    rw [he, (mapM_callType c t _ _).mpr hl, ok_bind]
    rfl
  | base t =>
    cases t <;> simp only [ok_bind, Spec.Denotes, Spec.DenotesElem]
    · rintro ⟨w, rfl, rfl⟩; rfl
    · rintro ⟨w, ⟨x, hx, rfl⟩, rfl⟩; rw [hx]; rfl
    · rintro ⟨w, ⟨x, hx, rfl⟩, rfl⟩; rw [hx]; rfl
    · rintro ⟨b, hb, rfl⟩; rw [(toBool_iff s b).2 hb]; rfl

theorem denotes_hasType {F : Type} (c : Conv F) (t : KeyType) (s : String) (v : OptVal F)
    (h : Spec.Denotes c t s v) : Spec.HasType t v := by
  cases t with
  | base t =>
    cases t
    · obtain ⟨w, rfl, rfl⟩ := h; trivial
    · obtain ⟨w, ⟨x, -, rfl⟩, rfl⟩ := h; trivial
    · obtain ⟨w, ⟨x, -, rfl⟩, rfl⟩ := h; trivial
    · obtain ⟨b, -, rfl⟩ := h; trivial
  | list t =>
    obtain ⟨parts, l, hc, hf, rfl⟩ := h
    refine ⟨?_, ?_⟩
    · rintro rfl
      cases hf
      exact hc.2.1 rfl
    · clear hc
      induction hf with
      | nil => simp
      | cons h1 _ ih =>
        intro v hv
        rw [List.mem_cons] at hv
        rcases hv with rfl | hv
        · cases t
          · cases h1; trivial
          · obtain ⟨_, _, rfl⟩ := h1; trivial
          · obtain ⟨_, _, rfl⟩ := h1; trivial
          · cases h1; trivial
        · exact ih v hv

/-! ### Compulsory options (C52) -/

/-- A missing compulsory option raises `OptionError` with key and section. -/
theorem option_missing {F : Type} (c : Conv F) (o : InputOption F) (s : Section)
    (hm : ¬ Spec.HasKey s.entries o.key) (hc : o.compulsory = true) :
    o.parse c s = .error (.optionError o.key s.name) := by
  unfold InputOption.parse
  rw [(Dict.get?_none _ _).mpr hm]
  simp [hc]

/-- A missing optional option yields its default. -/
theorem option_default {F : Type} (c : Conv F) (o : InputOption F) (s : Section)
    (hm : ¬ Spec.HasKey s.entries o.key) (hc : o.compulsory = false) :
    o.parse c s = .ok o.default := by
  unfold InputOption.parse
  rw [(Dict.get?_none _ _).mpr hm]
  simp [hc]

/-- A section is parsed only if all its compulsory options are present. -/
theorem section_complete {F : Type} (c : Conv F) (s : Section) (options : List (InputOption F))
    (d : Dict (OptVal F)) (h : parseSection c s options = .ok d) :
    ∀ o ∈ options, o.compulsory = true → Spec.HasKey s.entries o.key := by
  intro o ho hc
  by_contra hm
  obtain ⟨v, hv⟩ := (parseLoop_spec c s options [] d h).1 o ho
  rw [option_missing c o s hm hc] at hv
  cases hv

/-- If the options before it can be parsed, a missing compulsory option is the one reported. -/
theorem section_missing {F : Type} (c : Conv F) (s : Section) (l1 l2 : List (InputOption F))
    (o : InputOption F) (h1 : ∀ o ∈ l1, ∃ v, o.parse c s = .ok v)
    (hm : ¬ Spec.HasKey s.entries o.key) (hc : o.compulsory = true) :
    parseSection c s (l1 ++ o :: l2) = .error (.optionError o.key s.name) :=
  parseLoop_append c s l1 o l2 [] _ h1 (option_missing c o s hm hc)

/-- If only missing options can go wrong, a section with a missing compulsory option always ends with an
`OptionError` that names a missing compulsory option and the section. -/
theorem section_reports_missing {F : Type} (c : Conv F) (s : Section) (options : List (InputOption F))
    (hok : ∀ o ∈ options, Spec.HasKey s.entries o.key → ∃ v, o.parse c s = .ok v)
    (hm : ∃ o ∈ options, o.compulsory = true ∧ ¬ Spec.HasKey s.entries o.key) :
    ∃ o ∈ options, o.compulsory = true ∧ ¬ Spec.HasKey s.entries o.key ∧
      parseSection c s options = .error (.optionError o.key s.name) := by
  cases hp : parseSection c s options with
  | ok d =>
    obtain ⟨o, ho, hc, hk⟩ := hm
    exact (hk (section_complete c s options d hp o ho hc)).elim
  | error e =>
    obtain ⟨l1, o, l2, e1, e2, e3⟩ := parseLoop_error c s options [] e hp
    have ho : o ∈ options := by rw [e1]; simp
    have hk : ¬ Spec.HasKey s.entries o.key := by
      intro hk
      obtain ⟨v, hv⟩ := hok o ho hk
      rw [hv] at e3
      cases e3
    cases hc : o.compulsory with
    | false => rw [option_default c o s hk hc] at e3; cases e3
    | true =>
      rw [option_missing c o s hk hc] at e3
      cases e3
      exact ⟨o, ho, hc, hk, rfl⟩

/-- A section is accepted if all compulsory options are there, and the texts of all given options denote values that meet the
condition. -/
theorem section_accepts {F : Type} (c : Conv F) (s : Section) (options : List (InputOption F))
    (h : ∀ o ∈ options, (¬ Spec.HasKey s.entries o.key ∧ o.compulsory = false) ∨
      ∃ raw v, s.entries.get? o.key = some (.ok raw) ∧ Spec.Denotes c o.keytype raw v ∧ ∀ f, o.condition = some f → f v = .ok true) :
    ∃ d, parseSection c s options = .ok d := by
  cases hp : parseSection c s options with
  | ok d => exact ⟨d, rfl⟩
  | error e =>
    exfalso
    obtain ⟨l1, o, l2, e1, e2, e3⟩ := parseLoop_error c s options [] e hp
    have ho : o ∈ options := by rw [e1]; simp
    rcases h o ho with ⟨hk, hc⟩ | ⟨raw, v, hg, hd, hf⟩
    · rw [option_default c o s hk hc] at e3
      cases e3
    · rw [InputOption.parse, hg] at e3
      simp only [convert_denotes c o s.name raw v hd] at e3
      cases hcond : o.condition with
      | none => rw [hcond] at e3; cases e3
      | some f =>
        rw [hcond] at e3
        simp only [hf f hcond] at e3
        cases e3

/-- Every option of a parsed section has its value in the result: the default if it is missing, the
denoted value otherwise. -/
theorem section_value {F : Type} (c : Conv F) (s : Section) (options : List (InputOption F))
    (d : Dict (OptVal F)) (h : parseSection c s options = .ok d) (hn : (options.map (·.key)).Nodup)
    (o : InputOption F) (ho : o ∈ options) :
    ∃ v, d.get? o.key = some v ∧
      ((¬ Spec.HasKey s.entries o.key ∧ o.compulsory = false ∧ v = o.default) ∨
       (∃ raw, (o.key, .ok raw) ∈ s.entries ∧ Spec.Denotes c o.keytype raw v ∧
         ∀ f, o.condition = some f → f v = .ok true)) := by
  obtain ⟨v, hv, hd⟩ := (parseLoop_spec c s options [] d h).2.2 hn o ho
  refine ⟨v, hd, ?_⟩
  by_cases hk : Spec.HasKey s.entries o.key
  · right
    unfold InputOption.parse at hv
    cases hg : s.entries.get? o.key with
    | none => exact ((Dict.get?_none _ _).mp hg hk).elim
    | some raw =>
      rw [hg] at hv
      simp only at hv
      cases hcv : o.convert c s.name raw with
      | error e => rw [hcv] at hv; cases hv
      | ok w =>
        rw [hcv] at hv
        simp only at hv
        obtain ⟨str, rfl, hden⟩ := convert_ok c o s.name raw w hcv
        have hmem := Dict.get?_some _ _ _ hg
        cases hcond : o.condition with
        | none =>
          rw [hcond] at hv
          cases hv
          exact ⟨str, hmem, hden, fun f hf => by cases hf⟩
        | some f =>
          rw [hcond] at hv
          simp only at hv
          cases hf : f w with
          | error e => rw [hf] at hv; cases hv
          | ok b =>
            rw [hf] at hv
            cases b with
            | false => cases hv
            | true =>
              cases hv
              exact ⟨str, hmem, hden, fun g hg => by cases hg; exact hf⟩
  · left
    cases hc : o.compulsory with
    | true => rw [option_missing c o s hk hc] at hv; cases hv
    | false =>
      rw [option_default c o s hk hc] at hv
      cases hv
      exact ⟨hk, rfl, rfl⟩

/-! ### Conditions (C53) -/

/-- A present option is returned only if it satisfies its condition. -/
theorem option_condition {F : Type} (c : Conv F) (o : InputOption F) (s : Section) (v : OptVal F)
    (f : Condition F) (hk : Spec.HasKey s.entries o.key) (hf : o.condition = some f)
    (h : o.parse c s = .ok v) : f v = .ok true := by
  obtain ⟨w, hw, hor⟩ := section_value c s [o] [(o.key, v)]
    (by simp [parseSection, parseLoop, h, Dict.set]) (by simp) o (by simp)
  have : w = v := by simpa [Dict.get?, eq_comm] using hw
  subst this
  rcases hor with h1 | ⟨raw, -, -, h2⟩
  · exact (h1.1 hk).elim
  · exact h2 f hf

/-- A violated condition raises `OptionError`. -/
theorem option_condition_violated {F : Type} (c : Conv F) (o : InputOption F) (s : Section)
    (raw : Except PyErr String) (v : OptVal F) (f : Condition F)
    (hk : s.entries.get? o.key = some raw) (hv : o.convert c s.name raw = .ok v)
    (hf : o.condition = some f) (h : f v = .ok false) :
    o.parse c s = .error (.optionError o.key s.name) := by
  unfold InputOption.parse
  rw [hk]
  simp only [hv, hf, h]

section
variable {F : Type} [Zero F]

theorem gtZero_spec [LT F] [DecidableLT F] (v : BaseVal F) : gtZero v = .ok true ↔ Spec.Positive v := by
  cases v <;> simp [gtZero, cmpNum, Spec.Positive, GT.gt]
  rename_i b
  cases b <;> simp

/-- The condition `positive` accepts exactly the positive numbers. -/
theorem positive_spec [LT F] [DecidableLT F] (v : BaseVal F) : positive (.base v) = .ok true ↔ Spec.Positive v := gtZero_spec v

/-- The condition `positive_or_zero` accepts exactly the non-negative numbers. -/
theorem positiveOrZero_spec [LE F] [DecidableLE F] (v : BaseVal F) : positiveOrZero (.base v) = .ok true ↔ Spec.Nonneg v := by
  cases v <;> simp [positiveOrZero, cmpNum, Spec.Nonneg, GE.ge]
  rename_i b
  cases b <;> simp

/-- The condition `all_positive` accepts exactly the lists of positive numbers. -/
theorem allPositive_spec [LT F] [DecidableLT F] (l : List (BaseVal F)) :
    allPositive (.list l) = .ok true ↔ ∀ v ∈ l, Spec.Positive v := by
  unfold allPositive
  induction l with
  | nil => simp [allM]
  | cons v l ih =>
    simp only at ih
    simp only [allM, List.forall_mem_cons, ← gtZero_spec v, ← ih]
    cases gtZero v with
    | error e => simp
    | ok b => cases b <;> simp

/-- On numbers the conditions never raise. -/
theorem positive_total [LT F] [DecidableLT F] (v : BaseVal F) (h : ∀ s, v ≠ .str s) : ∃ b, positive (.base v) = .ok b := by
  cases v with
  | str s => exact (h s rfl).elim
  | float x => exact ⟨_, rfl⟩
  | int i => exact ⟨_, rfl⟩
  | bool b => exact ⟨_, rfl⟩

end

/-! ### Unparsable values (C54) -/

/-- A value that does not denote a value of the expected type is reported as `OptionError`. Missing: lists,
see `list_unparsable_valueError`. -/
theorem option_unparsable_partial {F : Type} (c : Conv F) (o : InputOption F) (s : Section) (raw : String)
    (t : BaseType) (ht : o.keytype = .base t) (hk : s.entries.get? o.key = some (.ok raw))
    (hv : ∀ v, ¬ Spec.Denotes c o.keytype raw v) :
    o.parse c s = .error (.optionError o.key s.name) := by
  unfold InputOption.parse
  rw [hk]
  simp only
  have : o.convert c s.name (.ok raw) = .error (.optionError o.key s.name) := by
    cases hcv : o.convert c s.name (.ok raw) with
    | ok v =>
      obtain ⟨r, hr, hd⟩ := convert_ok c o s.name _ v hcv
      cases hr
      exact (hv v hd).elim
    | error e =>
      unfold InputOption.convert at hcv
      rw [ht] at hcv
      revert hcv
      cases t <;> simp only [ok_bind]
      · intro h; cases h
      · cases c.toFloat raw <;> intro h <;> cases h; rfl
      · cases c.toInt raw <;> intro h <;> cases h; rfl
      · cases toBool raw <;> intro h <;> cases h; rfl
  rw [this]

/-- Lists that cannot be converted are never accepted, but raise `ValueError`. -/
theorem list_unparsable_valueError {F : Type} (c : Conv F) (o : InputOption F) (s : Section) (raw : String)
    (t : BaseType) (ht : o.keytype = .list t) (hk : s.entries.get? o.key = some (.ok raw))
    (hv : ∀ v, ¬ Spec.Denotes c o.keytype raw v) : o.parse c s = .error .valueError := by
  unfold InputOption.parse
  rw [hk]
  simp only
  have hconv : o.convert c s.name (.ok raw) = .error .valueError := by
    cases hcv : o.convert c s.name (.ok raw) with
    | ok v =>
      obtain ⟨r, hr, hd⟩ := convert_ok c o s.name _ v hcv
      cases hr
      exact (hv v hd).elim
    | error e =>
      unfold InputOption.convert at hcv
      rw [ht] at hcv
      simp only [ok_bind] at hcv
      have : ∀ l : List String, ∀ e, l.mapM (callType c t) = .error e → e = .valueError := by
        intro l
        induction l with
        | nil => intro e h; cases h
        | cons x l ih =>
          intro e h
          rw [List.mapM_cons] at h
          cases hx : callType c t x with
          | error e' =>
            rw [hx, error_bind] at h
            cases h
            revert hx
            cases t <;> simp only [callType]
            · intro h; cases h
            · cases c.toFloat x <;> intro h <;> cases h; rfl
            · cases c.toInt x <;> intro h <;> cases h; rfl
            · intro h; cases h
          | ok v =>
            rw [hx, ok_bind] at h
            cases hl : l.mapM (callType c t) with
            | error e' =>
              rw [hl, error_bind] at h
              cases h
              exact ih _ hl
            | ok vs => rw [hl, ok_bind] at h; cases h
      cases hm : (pySplit raw).mapM (callType c t) with
      | error e' =>
        rw [hm, error_bind] at hcv
        cases hcv
        rw [this _ _ hm]
      | ok l => rw [hm, ok_bind] at hcv; cases hcv
  rw [hconv]

/-- Conversion used in the examples: only a few strings are numbers. -/
def exConv : Conv Int where
  toFloat s := match s with | "1" => some 1 | "2" => some 2 | "3" => some 3 | "-1" => some (-1) | _ => none
  toInt s := match s with
    | "1" => some 1 | "2" => some 2 | "3" => some 3 | "4" => some 4 | "-1" => some (-1) | _ => none

/-- Negation of C54: `min = 1,x` in `[potential]` raises a plain `ValueError`, which `main` does not catch. -/
theorem list_unparsable_false :
    (optList "min" .float true : InputOption Int).parse exConv ⟨"potential", [("min", .ok "1,x")]⟩
      = .error .valueError := by decide

/-! ### Number of dimensions (C55) -/

theorem pyAnd_zero (x : Int) : pyAnd 0 x = 0 := by
  cases x with
  | ofNat n => simp [pyAnd]
  | negSucc n => simp [pyAnd]

/-- The condition rejects non-positive numbers and accepts 1, 2 and 3. Missing: it accepts all larger
numbers, too. -/
theorem at_most_3dim_partial {F : Type} (x : Int) :
    ((atMost3dim : Condition F) (.base (.int x)) = .ok true ↔ 0 < x) ∧
    ((atMost3dim : Condition F) (.base (.int x)) = .ok false ↔ x ≤ 0) := by
  simp only [atMost3dim, atMost3dimInt, pyAnd_zero, Except.ok.injEq]
  constructor
  · simp
  · simp

/-- Negation of C55: a polynomial potential with four dimensions passes the parser. -/
theorem at_most_3dim_false :
    (parsePotential exConv ⟨"potential", [("type", .ok "polynomial"), ("n_dim", .ok "4"),
      ("coeffs-file", .ok "c.txt"), ("min", .ok "1,1,1,1"), ("max", .ok "2,2,2,2")]⟩).toOption.map
        (fun d => d.get? "n_dim") = some (some (.base (.int 4))) := by decide

/-! ### Numbered options (C56) -/

theorem getElem?_map_ok {V : Type} (vals : List V) (i : Nat) :
    (vals.map (Except.ok (ε := PyErr)))[i]? = (vals[i]?).map .ok := by rw [List.getElem?_map]

theorem numbered_unique {V : Type} (get : String → Option V) (pre suf : String) (a b : List V)
    (ha : Spec.Numbered get pre suf a) (hb : Spec.Numbered get pre suf b) : a = b := by
  have hl : a.length = b.length := by
    rcases Nat.lt_trichotomy a.length b.length with h | h | h
    · have := hb.1 a.length h
      rw [ha.2, List.getElem?_eq_getElem h] at this
      cases this
    · exact h
    · have := ha.1 b.length h
      rw [hb.2, List.getElem?_eq_getElem h] at this
      cases this
  refine List.ext_getElem? fun i => ?_
  rcases Nat.lt_or_ge i a.length with h | h
  · rw [← ha.1 i h, hb.1 i (by omega)]
  · rw [List.getElem?_eq_none h, List.getElem?_eq_none (by omega)]

/-- The values found in a section: exactly those of the keys 1, 2, ... before the first missing one. -/
theorem numbered_section (s : Section) (pre suf : String) (vals : List String) :
    numberedSection s pre suf = .ok vals ↔ Spec.Numbered s.entries.get? pre suf (vals.map .ok) := by
  obtain ⟨ws, hl, hv, hn⟩ := numbered_exists s.entries pre suf
  have hw : ∀ i < ws.length, s.entries.get? (pre ++ Nat.repr (i + 1) ++ suf)
      = (ws.map (Except.ok (ε := PyErr)))[i]? := by
    intro i hi
    rw [getElem?_map_ok, ← hv i hi, Nat.add_comm]
    rfl
  rcases hn with hn | ⟨e, he⟩
  · have hr : numberedSection s pre suf = .ok ws :=
      numberedLoop_ok _ pre suf _ 1 [] ws hv hn (by omega)
    have hnum : Spec.Numbered s.entries.get? pre suf (ws.map .ok) := by
      refine ⟨fun i hi => hw i (by simpa using hi), ?_⟩
      rw [List.length_map, Nat.add_comm]
      exact hn
    rw [hr]
    constructor
    · intro h; cases h; exact hnum
    · intro h
      have := numbered_unique _ pre suf _ _ hnum h
      have := (List.map_injective_iff.mpr (fun a b h => Except.ok.inj h)) this
      rw [this]
  · have hr : numberedSection s pre suf = .error e :=
      numberedLoop_err _ pre suf _ 1 [] ws e hv he (by omega)
    rw [hr]
    constructor
    · intro h; cases h
    · intro h
      exfalso
      rw [show numKey pre suf (1 + ws.length) = pre ++ Nat.repr (ws.length + 1) ++ suf from by
        rw [Nat.add_comm]; rfl] at he
      rcases Nat.lt_trichotomy vals.length ws.length with hlt | heq | hgt
      · have h1 := h.2
        rw [List.length_map, hw _ hlt, List.getElem?_eq_getElem (by simpa using hlt)] at h1
        cases h1
      · have h1 := h.2
        rw [List.length_map, heq, he] at h1
        cases h1
      · have h1 := h.1 ws.length (by simpa using hgt)
        rw [he, getElem?_map_ok, List.getElem?_eq_getElem hgt] at h1
        cases h1

/-- An error is raised only if the value of one of the numbered keys cannot be read. -/
theorem numbered_section_error (s : Section) (pre suf : String) (e : PyErr)
    (h : numberedSection s pre suf = .error e) :
    ∃ n, s.entries.get? (numKey pre suf n) = some (.error e) := by
  obtain ⟨ws, hl, hv, hn⟩ := numbered_exists s.entries pre suf
  rcases hn with hn | ⟨e', he⟩
  · rw [show numberedSection s pre suf = .ok ws from
      numberedLoop_ok _ pre suf _ 1 [] ws hv hn (by omega)] at h
    cases h
  · rw [show numberedSection s pre suf = .error e' from
      numberedLoop_err _ pre suf _ 1 [] ws e' hv he (by omega)] at h
    cases h
    exact ⟨_, he⟩

theorem get?_map {V W : Type} (f : V → W) (d : Dict V) (k : String) :
    Dict.get? (d.map (fun p => (p.1, f p.2))) k = (d.get? k).map f := by
  unfold Dict.get?
  induction d with
  | nil => rfl
  | cons p d ih =>
    obtain ⟨a, v⟩ := p
    rw [List.map_cons, List.lookup_cons, List.lookup_cons, ih]
    cases k == a <;> rfl

/-- In dictionaries of parsed options numbered values are always found. -/
theorem numbered_dict {V : Type} (d : Dict V) (pre suf : String) :
    ∃ vals, numberedDict d pre suf = .ok vals ∧ Spec.Numbered d.get? pre suf vals := by
  obtain ⟨ws, hl, hv, hn⟩ := numbered_exists (d.map (fun p => (p.1, Except.ok p.2))) pre suf
  rw [List.length_map] at hl
  simp only [get?_map (Except.ok (ε := PyErr))] at hv hn
  have hn' : d.get? (numKey pre suf (1 + ws.length)) = none := by
    rcases hn with hn | ⟨e, he⟩
    · simpa using hn
    · rw [Option.map_eq_some_iff] at he
      obtain ⟨_, _, h⟩ := he
      cases h
  refine ⟨ws, ?_, ?_, ?_⟩
  · exact numberedLoop_ok _ pre suf _ 1 [] ws hv (by rw [hn']; rfl) (by omega)
  · intro i hi
    have := hv i hi
    rw [show numKey pre suf (1 + i) = pre ++ Nat.repr (i + 1) ++ suf from by rw [Nat.add_comm]; rfl] at this
    rw [List.getElem?_eq_getElem hi] at this ⊢
    rw [Option.map_some, Option.map_eq_some_iff] at this
    obtain ⟨v, h1, h2⟩ := this
    cases h2
    exact h1
  · rw [← hn', Nat.add_comm]
    rfl

/-- Numbers with a gap: the values after the gap are not found. -/
example : numberedSection ⟨"particles", [("pos2", .ok "b"), ("pos1", .ok "a"), ("pos4", .ok "d")]⟩ "pos" ""
    = .ok ["a", "b"] := by decide

end Bdld
